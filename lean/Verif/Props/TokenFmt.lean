import Verif.Model.TokenFmt
import Verif.Props.HashTable
import Verif.Props.CStr
import Verif.Props.Crc
import Verif.Props.StrCache
/-!
# Property C19: token formatting
-/
namespace Verif.TokenFmt

/-- The value given for a name: the last pair with that name. -/
def binding (pairs : List (Bytes × Bytes)) (name : Bytes) : Option Bytes :=
  (pairs.reverse.find? (fun p => p.1 = name)).map (·.2)

/-- A template, in pieces: literal text, a token with a name that was given, or angle brackets around something else. -/
inductive Piece where
  | lit (text : Bytes)
  | tok (name value : Bytes)
  | other (name : Bytes)

/-- A piece is well formed for the given pairs. -/
def Piece.Ok (pairs : List (Bytes × Bytes)) : Piece → Prop
  | .lit t => (60 : UInt8) ∉ t ∧ (0 : UInt8) ∉ t
  | .tok n v => (62 : UInt8) ∉ n ∧ (0 : UInt8) ∉ n ∧ binding pairs n = some v
  | .other n => (60 : UInt8) ∉ n ∧ (62 : UInt8) ∉ n ∧ (0 : UInt8) ∉ n ∧ binding pairs n = none

/-- How a piece is written in the template. -/
def Piece.src : Piece → Bytes
  | .lit t => t
  | .tok n _ => [60] ++ n ++ [62]
  | .other n => [60] ++ n ++ [62]

/-- What a piece becomes: a given token is replaced by its value, everything else is copied. -/
def Piece.dst : Piece → Bytes
  | .lit t => t
  | .tok _ v => v
  | .other n => [60] ++ n ++ [62]

/-- The names of the bracketed pieces. -/
def Piece.names : Piece → List Bytes
  | .lit _ => []
  | .tok n _ => [n]
  | .other n => [n]

/-- The C string of a text. -/
def cstr (s : Bytes) : Bytes := s ++ [0]

theorem populate_spec (crit : Nat → Nat) : ∀ (pairs : List (Bytes × Bytes)) (tbl : HTable Bytes) (m : Nat → Option Bytes),
    HTable.Holds tbl m → (∀ p ∈ pairs, (0 : UInt8) ∉ p.1) →
    ∃ tbl', populate crit tbl (pairs.map fun p => (cstr p.1, p.2)) = .ok tbl' ∧
      HTable.Holds tbl' (fun k => ((pairs.reverse.find? (fun p => Ctx.key p.1 = k)).map (·.2)).or (m k)) := by
  intro pairs
  induction pairs with
  | nil => intro tbl m h _; exact ⟨tbl, rfl, by simpa using h⟩
  | cons p ps ih =>
    intro tbl m h hn
    obtain ⟨tok, val⟩ := p
    have h0 : (0 : UInt8) ∉ tok := hn _ List.mem_cons_self
    obtain ⟨t1, e1, h1⟩ := HTable.step_holds crit h (.set (Ctx.key tok) val) trivial
    obtain ⟨t2, e2, h2⟩ := ih t1 _ h1 (fun p hp => hn p (List.mem_cons_of_mem _ hp))
    refine ⟨t2, ?_, ?_⟩
    · simp only [List.map_cons, populate]
      rw [show cstr tok = tok ++ 0 :: [] from rfl, CStr.len_spec _ _ h0]
      simp only [Res.ok_bind, List.take_left]
      have e1' : tbl.set crit (Crc.crc32 tok).toNat val = .ok t1 := e1
      rw [e1']
      simpa using e2
    · refine ⟨h2.1, fun k => ?_⟩
      rw [h2.2 k]
      congr 1
      simp only [HTable.spec, List.reverse_cons, List.find?_append]
      cases hf : ps.reverse.find? (fun p => decide (Ctx.key p.1 = k)) with
      | some x => simp
      | none =>
        by_cases hk : k = Ctx.key tok
        · subst hk; simp
        · simp [hk, Ne.symm hk, fun h => hk (Eq.symm h)]

theorem scanTok_spec : ∀ (n a : Bytes), (62 : UInt8) ∉ n → scanTok (n ++ 62 :: a) = some (n, a)
  | [], a, _ => by simp [scanTok]
  | c :: n, a, h => by
    simp only [List.mem_cons, not_or] at h
    simp [scanTok, Ne.symm h.1, scanTok_spec n a h.2]

theorem emit_ok {b : Nat} {out bs : Bytes} (h : out.length + bs.length ≤ b) : emit b out bs = .ok (out ++ bs) := if_pos h

theorem loop_lit {b : Nat} {tbl : HTable Bytes} : ∀ (t rest out : Bytes), (60 : UInt8) ∉ t → (0 : UInt8) ∉ t →
    out.length + t.length ≤ b → loop b tbl (t ++ rest) out = loop b tbl rest (out ++ t)
  | [], rest, out, _, _, _ => by simp
  | c :: t, rest, out, h1, h2, h3 => by
    simp only [List.mem_cons, not_or] at h1 h2
    simp only [List.length_cons] at h3
    rw [List.cons_append, loop, if_neg (Ne.symm h2.1), if_pos (Ne.symm h1.1), if_neg (by omega),
      emit_ok (by simp; omega), Res.ok_bind, loop_lit t rest (out ++ [c]) h1.2 h2.2 (by simp; omega)]
    simp

theorem loop_pieces {b : Nat} {tbl : HTable Bytes} {pairs : List (Bytes × Bytes)}
    (ht : HTable.Holds tbl (fun k => (pairs.reverse.find? (fun p => Ctx.key p.1 = k)).map (·.2))) :
    ∀ (ps : List Piece) (out : Bytes), (∀ p ∈ ps, p.Ok pairs) →
    Ctx.NoCollision (pairs.map (·.1) ++ ps.flatMap Piece.names) →
    out.length + (ps.flatMap Piece.dst).length ≤ b →
    loop b tbl (cstr (ps.flatMap Piece.src)) out = .ok (out ++ ps.flatMap Piece.dst) := by
  have hget : ∀ n l, Ctx.NoCollision (pairs.map (·.1) ++ l) → n ∈ l →
      tbl.get (Crc.crc32 n).toNat = .ok ((binding pairs n).map some) := by
    intro n l hnc hn
    rw [show (Crc.crc32 n).toNat = Ctx.key n from rfl, Ctx.get_holds ht]
    unfold binding
    congr 3
    apply Ctx.find?_congr'
    intro x hx
    have hx' : x.1 ∈ pairs.map (·.1) ++ l := by
      simp only [List.mem_append, List.mem_map]; exact Or.inl ⟨x, by simpa using hx, rfl⟩
    have : Ctx.key x.1 = Ctx.key n ↔ x.1 = n :=
      ⟨fun h => Ctx.key_inj hnc _ _ hx' (List.mem_append_right _ hn) h, fun h => by rw [h]⟩
    simp [this]
  intro ps
  induction ps with
  | nil => intro out _ _ _; simp [cstr, loop]
  | cons p ps ih =>
    intro out hok hnc hlen
    have hnc' : Ctx.NoCollision (pairs.map (·.1) ++ ps.flatMap Piece.names) := by
      have sub : ∀ x, x ∈ pairs.map (·.1) ++ ps.flatMap Piece.names → x ∈ pairs.map (·.1) ++ (p :: ps).flatMap Piece.names := by
        intro x hx
        rw [List.flatMap_cons]
        rcases List.mem_append.1 hx with h | h
        · exact List.mem_append_left _ h
        · exact List.mem_append_right _ (List.mem_append_right _ h)
      exact fun s hs t ht => hnc s (sub s hs) t (sub t ht)
    have hok' : ∀ p ∈ ps, p.Ok pairs := fun q hq => hok q (List.mem_cons_of_mem _ hq)
    have hp := hok p List.mem_cons_self
    simp only [List.flatMap_cons, List.length_append] at hlen ⊢
    cases p with
    | lit t =>
      obtain ⟨h1, h2⟩ := hp
      simp only [Piece.dst, Piece.src] at hlen ⊢
      rw [cstr, List.append_assoc, loop_lit t _ out h1 h2 (by omega)]
      rw [show ps.flatMap Piece.src ++ [0] = cstr (ps.flatMap Piece.src) from rfl]
      rw [ih (out ++ t) hok' hnc' (by simp only [List.length_append, List.length_cons, List.length_nil]; omega)]
      simp
    | tok n v =>
      obtain ⟨h1, h2, h3⟩ := hp
      simp only [Piece.dst, Piece.src] at hlen ⊢
      rw [cstr, show [60] ++ n ++ [62] ++ ps.flatMap Piece.src ++ [0] = 60 :: (n ++ 62 :: (ps.flatMap Piece.src ++ [0])) by simp]
      rw [loop, if_neg (by decide), if_neg (by simp)]
      have hs := scanTok_spec n (ps.flatMap Piece.src ++ [0]) h1
      split
      · rename_i he; rw [hs] at he; cases he
      · rename_i tok after he
        rw [hs] at he; cases he
        rw [hget n _ hnc (by simp [Piece.names]), h3]
        simp only [Option.map_some, Res.ok_bind, Option.getD_some]
        rw [emit_ok (by omega), Res.ok_bind]
        rw [show ps.flatMap Piece.src ++ [0] = cstr (ps.flatMap Piece.src) from rfl]
        rw [ih (out ++ v) hok' hnc' (by simp only [List.length_append, List.length_cons, List.length_nil]; omega)]
        simp
    | other n =>
      obtain ⟨h0, h1, h2, h3⟩ := hp
      simp only [Piece.dst, Piece.src, List.length_append, List.length_cons, List.length_nil] at hlen ⊢
      rw [cstr, show [60] ++ n ++ [62] ++ ps.flatMap Piece.src ++ [0] = 60 :: (n ++ 62 :: (ps.flatMap Piece.src ++ [0])) by simp]
      rw [loop, if_neg (by decide), if_neg (by simp)]
      have hs := scanTok_spec n (ps.flatMap Piece.src ++ [0]) h1
      split
      · rename_i he; rw [hs] at he; cases he
      · rename_i tok after he
        rw [hs] at he; cases he
        rw [hget n _ hnc (by simp [Piece.names]), h3]
        simp only [Option.map_none, Res.ok_bind]
        rw [emit_ok (by simp; omega), Res.ok_bind]
        rw [show n ++ 62 :: (ps.flatMap Piece.src ++ [0]) = (n ++ [62]) ++ cstr (ps.flatMap Piece.src) by simp [cstr]]
        rw [loop_lit (n ++ [62]) _ _ (by simp [h0]) (by simp [h2]) (by simp; omega)]
        rw [ih _ hok' hnc' (by simp only [List.length_append, List.length_cons, List.length_nil]; omega)]
        simp

/-- C19: for any pairs (last one wins) and any template made of literal text, given tokens and other bracketed text, provided
no two of the names involved share a CRC-32 and the result fits the buffer: `token_fmt` returns the template in which every
given `<name>` is replaced by its value and everything else is unchanged; values are not rescanned (they may contain anything),
and the map is empty again afterwards. -/
theorem C19_substitution (crit : Nat → Nat) (bufSize : Nat) (tbl : HTable Bytes) (h : HTable.Holds tbl (fun _ => none))
    (pairs : List (Bytes × Bytes)) (hn : ∀ p ∈ pairs, (0 : UInt8) ∉ p.1) (ps : List Piece) (hok : ∀ p ∈ ps, p.Ok pairs)
    (hnc : Ctx.NoCollision (pairs.map (·.1) ++ ps.flatMap Piece.names)) (hfit : (ps.flatMap Piece.dst).length ≤ bufSize) :
    ∃ tbl', tokenFmtVa crit bufSize tbl (pairs.map fun p => (cstr p.1, p.2)) (cstr (ps.flatMap Piece.src)) =
        .ok (ps.flatMap Piece.dst, tbl') ∧ HTable.Holds tbl' (fun _ => none) := by
  obtain ⟨t1, e1, h1⟩ := populate_spec crit pairs tbl _ h hn
  simp only [Option.or_none] at h1
  have e2 := loop_pieces h1 ps [] hok hnc (by simpa using hfit)
  obtain ⟨t2, e3, h3⟩ := HTable.step_holds crit h1 .clear trivial
  cases e3
  exact ⟨_, by simp only [tokenFmtVa, e1, Res.ok_bind, e2, List.nil_append], h3⟩

/-- One call of the kind covered by `C19_substitution`. -/
structure Call where
  pairs : List (Bytes × Bytes)
  pieces : List Piece

def Call.Ok (bufSize : Nat) (c : Call) : Prop :=
  (∀ p ∈ c.pairs, (0 : UInt8) ∉ p.1) ∧ (∀ p ∈ c.pieces, p.Ok c.pairs) ∧
  Ctx.NoCollision (c.pairs.map (·.1) ++ c.pieces.flatMap Piece.names) ∧ (c.pieces.flatMap Piece.dst).length ≤ bufSize

/-- C19: bindings never leak: in any sequence of calls on one context each result depends on its own arguments only. -/
theorem C19_calls_independent (crit : Nat → Nat) (bufSize : Nat) : ∀ (cs : List Call) (tbl : HTable Bytes),
    HTable.Holds tbl (fun _ => none) → (∀ c ∈ cs, c.Ok bufSize) →
    calls crit bufSize tbl (cs.map fun c => (c.pairs.map fun p => (cstr p.1, p.2), cstr (c.pieces.flatMap Piece.src))) =
      .ok (cs.map fun c => c.pieces.flatMap Piece.dst)
  | [], _, _, _ => rfl
  | c :: cs, tbl, h, hok => by
    obtain ⟨g1, g2, g3, g4⟩ := hok c List.mem_cons_self
    obtain ⟨t1, e1, h1⟩ := C19_substitution crit bufSize tbl h c.pairs g1 c.pieces g2 g3 g4
    simp only [List.map_cons, calls, e1, Res.ok_bind]
    rw [C19_calls_independent crit bufSize cs t1 h1 (fun c hc => hok c (List.mem_cons_of_mem _ hc))]
    rfl

theorem scanTok_none : ∀ (s : Bytes), (62 : UInt8) ∉ s → scanTok s = none
  | [], _ => rfl
  | c :: s, h => by
    simp only [List.mem_cons, not_or] at h
    simp [scanTok, Ne.symm h.1, scanTok_none s h.2]

/-- C19, refuted for a `<` that no `>` follows: the scan runs past the end of the template. -/
theorem C19_unclosed_refuted (crit : Nat → Nat) (bufSize : Nat) (t rest : Bytes) (h1 : (60 : UInt8) ∉ t) (h2 : (0 : UInt8) ∉ t)
    (h3 : (62 : UInt8) ∉ rest) (hfit : t.length ≤ bufSize) (tbl : HTable Bytes) :
    tokenFmtVa crit bufSize tbl [] (cstr (t ++ 60 :: rest)) = .ub := by
  simp only [tokenFmtVa, populate, Res.ok_bind]
  rw [cstr, show t ++ 60 :: rest ++ [0] = t ++ (60 :: (rest ++ [0])) by simp, loop_lit t _ [] h1 h2 (by simpa using hfit)]
  rw [loop, if_neg (by decide), if_neg (by simp)]
  have := scanTok_none (rest ++ [0]) (by simp [h3])
  split
  · rfl
  · rename_i he; rw [this] at he; cases he

/-- C19, refuted for a template longer than the buffer: the call never returns. -/
theorem C19_full_buffer_hangs_refuted (crit : Nat → Nat) (t rest : Bytes) (c : UInt8) (h1 : (60 : UInt8) ∉ t) (h2 : (0 : UInt8) ∉ t)
    (hc : c ≠ 0 ∧ c ≠ 60) (tbl : HTable Bytes) :
    tokenFmtVa crit t.length tbl [] (cstr (t ++ c :: rest)) = .hang := by
  simp only [tokenFmtVa, populate, Res.ok_bind]
  rw [cstr, show t ++ c :: rest ++ [0] = t ++ (c :: (rest ++ [0])) by simp, loop_lit t _ [] h1 h2 (by simp)]
  rw [loop, if_neg hc.1, if_pos hc.2, if_pos (by simp)]
  rfl

/-- C19, refuted for a value that does not fit: the buffer is overrun (the result is not truncated). -/
theorem C19_value_overflow_refuted (crit : Nat → Nat) (bufSize : Nat) (v : Bytes) (hv : bufSize < v.length) (tbl : HTable Bytes)
    (h : HTable.Holds tbl (fun _ => none)) :
    tokenFmtVa crit bufSize tbl [(cstr b!"a", v)] (cstr b!"<a>") = .ub := by
  obtain ⟨t1, e1, h1⟩ := populate_spec crit [(b!"a", v)] tbl _ h (by intro p hp; simp at hp; subst hp; show (0 : UInt8) ∉ ([97] : Bytes); decide)
  simp only [List.map_cons, List.map_nil] at e1
  simp only [tokenFmtVa, e1, Res.ok_bind]
  rw [show cstr b!"<a>" = 60 :: (b!"a" ++ 62 :: [0]) from rfl, loop, if_neg (by decide), if_neg (by simp)]
  have hs := scanTok_spec b!"a" [0] (by decide)
  split
  · rename_i he; rw [hs] at he; cases he
  · rename_i tok after he
    rw [hs] at he; cases he
    rw [show (Crc.crc32 b!"a").toNat = Ctx.key b!"a" from rfl, Ctx.get_holds h1]
    simp [emit]
    rw [if_neg (by omega)]
    rfl

/-- Non-vacuity: the example of the documentation (interface.hpp 449-466) plus an unknown bracket and a value with brackets. -/
example : ∃ tbl', tokenFmtVa (fun n => n * 7 / 10) 131072 ⟨List.replicate 8 (-1), []⟩
      [(cstr b!"type", b!"vec<name>"), (cstr b!"name", b!"x")] (cstr b!"typedef <type> <name> a<b>;") =
    .ok (b!"typedef vec<name> x a<b>;", tbl') ∧ HTable.Holds tbl' (fun _ => none) :=
  C19_substitution (fun n => n * 7 / 10) 131072 _ Ctx.holds_empty [(b!"type", b!"vec<name>"), (b!"name", b!"x")] (by decide)
    [.lit b!"typedef ", .tok b!"type" b!"vec<name>", .lit b!" ", .tok b!"name" b!"x", .lit b!" a", .other b!"b", .lit b!";"]
    (by
      intro p hp
      simp only [List.mem_cons, List.not_mem_nil, or_false] at hp
      rcases hp with h|h|h|h|h|h|h <;> subst h <;> unfold Piece.Ok <;> decide)
    (by unfold Ctx.NoCollision; decide +kernel) (by decide)

/-- C19, refuted without the collision condition: a token that was not given is replaced. -/
theorem C19_collision_refuted :
    (match tokenFmtVa (fun n => n * 7 / 10) 64 ⟨List.replicate 8 (-1), []⟩ [(cstr b!"plumless", b!"X")] (cstr b!"<buckeroo>") with
      | .ok r => some r.1 | _ => none) = some b!"X" := by decide +kernel

end Verif.TokenFmt
