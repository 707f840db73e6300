import Verif.Model.HashTable
import Verif.Model.CStr
import Verif.Model.Crc
/-!
# Token formatting

Models `token_fmt_va` (components/interface.untyped.cpp 6-88) and `token_fmt_impl` (components/inlines.hpp 739-752). The
pairs are (C string, `Str`); the format is a C string: its bytes up to and including the terminating NUL. Reading past that
NUL, and writing past the buffer, is `ub`. `remaining` is always `buf_size` minus the number of characters written, so it is
not a separate variable. The map `token_fmt_map` lives in the context and is passed from call to call.
-/
namespace Verif.TokenFmt

/-- interface.untyped.cpp 16-25: one `hashtable_set` per pair. -/
def populate (crit : Nat → Nat) (tbl : HTable Bytes) : List (Bytes × Bytes) → Res (HTable Bytes)
  | [] => .ok tbl
  | (tok, val) :: ps =>
    (CStr.len tok).bind fun n =>
    (tbl.set crit (Crc.crc32 (tok.take n)).toNat val).bind fun tbl => populate crit tbl ps

/-- interface.untyped.cpp 48-56: the characters up to the next `>` (the scan does not stop at NUL), and what follows it;
`none` if the scan leaves the string. -/
def scanTok : Bytes → Option (Bytes × Bytes)
  | [] => none
  | c :: cs => if c = 62 then some ([], cs) else (scanTok cs).map fun p => (c :: p.1, p.2)

theorem scanTok_len : ∀ {s t a : Bytes}, scanTok s = some (t, a) → a.length < s.length
  | [], _, _, h => by simp [scanTok] at h
  | c :: cs, t, a, h => by
    simp only [scanTok] at h
    split at h
    · cases h; simp
    · simp only [Option.map_eq_some_iff] at h
      obtain ⟨⟨p, q⟩, hp, he⟩ := h
      cases he
      have := scanTok_len hp
      simp; omega

/-- Append `bs` at the end of what has been written. -/
def emit (bufSize : Nat) (out bs : Bytes) : Res Bytes := if out.length + bs.length ≤ bufSize then .ok (out ++ bs) else .ub

/-- interface.untyped.cpp 30-83: the main loop. The inner copying loop (34-43) is merged with the outer one: it copies one
character per turn and hands over when it meets NUL, `<`, or a full buffer. With a full buffer and an ordinary character the
outer loop makes no progress: `hang`. -/
def loop (bufSize : Nat) (tbl : HTable Bytes) (fmt out : Bytes) : Res Bytes :=
  match fmt with
  | [] => .ub
  | c :: rest =>
    if c = 0 then .ok out
    else if c ≠ 60 then
      if out.length = bufSize then .hang
      else (emit bufSize out [c]).bind fun out => loop bufSize tbl rest out
    else
      match _h : scanTok rest with
      | none => .ub
      | some (tok, after) =>
        (tbl.get (Crc.crc32 tok).toNat).bind fun v =>
        match v with
        | some v => (emit bufSize out (v.getD [])).bind fun out => loop bufSize tbl after out
        | none => (emit bufSize out [c]).bind fun out => loop bufSize tbl rest out
termination_by fmt.length
decreasing_by
  all_goals simp_wf
  have := scanTok_len _h
  omega

/-- interface.untyped.cpp 6-88 `token_fmt_va` with an initialised map: the text written and the map afterwards. -/
def tokenFmtVa (crit : Nat → Nat) (bufSize : Nat) (tbl : HTable Bytes) (pairs : List (Bytes × Bytes)) (fmt : Bytes) :
    Res (Bytes × HTable Bytes) :=
  (populate crit tbl pairs).bind fun tbl =>
  (loop bufSize tbl fmt []).bind fun out => .ok (out, tbl.clear)

/-- Several calls one after the other: the texts returned (each looked at before the next call, which reuses the buffer). -/
def calls (crit : Nat → Nat) (bufSize : Nat) (tbl : HTable Bytes) : List (List (Bytes × Bytes) × Bytes) → Res (List Bytes)
  | [] => .ok []
  | (ps, fmt) :: cs => (tokenFmtVa crit bufSize tbl ps fmt).bind fun r =>
      (calls crit bufSize r.2 cs).bind fun rs => .ok (r.1 :: rs)

end Verif.TokenFmt
