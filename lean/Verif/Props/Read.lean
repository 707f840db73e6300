import Verif.Proof.ReadWorld
import Verif.Proof.ReadFile
/-!
# C56: parse, then print

A content whose tokens make up a declaration is parsed, and the code that comes back prints as the normal form of the declaration
(Props/ReadSpec.lean). White space in the content has no influence, except inside the values that are kept as they are written.
-/
namespace Verif.Parse
open Verif.Lex (Tok)
open Verif.Ast

variable {w : World} {c x : Bytes} {ts more : List Tok}

/-- C56: variables. -/
theorem C56_variable (hr : w.Ready) (hl : HasToks w.env.ms c (ts ++ more)) (hv : VarToks (c ++ [0]) x ts)
    (hm : ∀ u, ts.getLast? = some u → NoComment u more) : ParsesAs w parse_variable c ts.length x :=
  gives_read hr hl fun _ _ hh => parseVariable_run hv hm hr.started hh

/-- C56: functions, declared or defined. The type may not begin with `const` (`C54_const_function`). For a declaration the cell of the token array
behind it must hold no comment: it is looked at even if it is left over from an earlier content. -/
theorem C56_function {ms : Lex.Macros} {f : Tok} (hr : w.Ready) (hl : Lex.lex true w.env.ms c = .ok (some (ts ++ more, ms))) (hv : FnToks ms (c ++ [0]) f x ts)
    (hf : f.type ≠ .Spec_Const) (hm : Calm ts (more ++ w.env.cells.drop (ts ++ more).length)) : ParsesAs w parse_function c ts.length x :=
  gives_lexed hr hl fun hh => parseFunction_run hv hf hm.stale hr.started hh

/-! ## Names for types -/

theorem Gives.withRec {e : Env} {s : St} {f : Rec → P Nat} {n : Nat} (h : Gives (f (recN (e.cells.length + 2))) e s n x) : Gives (withRec f) e s n x := by
  unfold Gives at *
  rw [show Parse.withRec f e s = f (recN (e.cells.length + 2)) e s from rfl]
  exact h

theorem alias_run {e : Env} {s : St} {rest : List Tok} (hv : AliasToks e.mem x ts) (hm : Calm ts (more ++ rest)) (hn : 0 < s.heap.next) (h : Here e s (ts ++ more) rest) :
    ∃ t tl, ts = t :: tl ∧ ((t.type = .Decl_Using ∧ Gives parseUsing e s ts.length x) ∨ (t.type = .Decl_Typedef ∧ ∀ r, Gives (typedefWith r) e s ts.length x)) := by
  obtain ⟨l, v, rfl, hv'⟩ := hv.last
  refine alias_gives hv (fun u hu => ?_) hn h
  refine hm u hu ?_
  rw [List.getLast?_concat] at hu
  cases hu
  exact hv'

/-- C56: `using`. -/
theorem C56_using {ms : Lex.Macros} {t : Tok} {tl : List Tok} (hr : w.Ready) (hl : Lex.lex true w.env.ms c = .ok (some (t :: tl ++ more, ms))) (hv : AliasToks (c ++ [0]) x (t :: tl))
    (ht : t.type = .Decl_Using) (hm : Calm (t :: tl) (more ++ w.env.cells.drop (t :: tl ++ more).length)) : ParsesAs w parse_using c (t :: tl).length x :=
  gives_lexed hr hl fun hh => by
    obtain ⟨t', tl', h1, h2 | ⟨h2, -⟩⟩ := alias_run hv hm.stale hr.started hh
    · exact h2.2
    · cases h1
      rw [ht] at h2
      cases h2

/-- C56: `typedef`. -/
theorem C56_typedef {ms : Lex.Macros} {t : Tok} {tl : List Tok} (hr : w.Ready) (hl : Lex.lex true w.env.ms c = .ok (some (t :: tl ++ more, ms))) (hv : AliasToks (c ++ [0]) x (t :: tl))
    (ht : t.type = .Decl_Typedef) (hm : Calm (t :: tl) (more ++ w.env.cells.drop (t :: tl ++ more).length)) : ParsesAs w parse_typedef c (t :: tl).length x :=
  gives_lexed (f := withRec typedefWith) hr hl fun hh => by
    obtain ⟨t', tl', h1, ⟨h2, -⟩ | h2⟩ := alias_run hv hm.stale hr.started hh
    · cases h1
      rw [ht] at h2
      cases h2
    · exact Gives.withRec (h2.2 _)

/-- C56: enums. -/
theorem C56_enum {ms : Lex.Macros} (hr : w.Ready) (hl : Lex.lex true w.env.ms c = .ok (some (ts ++ more, ms))) (hv : EnumDecl (c ++ [0]) x ts)
    (hm : Calm ts (more ++ w.env.cells.drop (ts ++ more).length)) : ParsesAs w parse_enum c ts.length x :=
  gives_lexed hr hl fun hh => enum_gives hv (fun u hu => hm.stale u hu (by
    obtain ⟨l, v, rfl, hv'⟩ := hv.last
    rw [List.getLast?_concat] at hu
    cases hu
    exact hv')) hr.started hh

/-! ## Classes and structs -/

theorem Consts.of (hr : w.Ready) (hs : Spelled w.env w.heap) {ms : Lex.Macros} : Consts (w.read c ts ms).env w.heap.next w.heap := by
  refine ⟨⟨hs.made, hs.newline, hs.pub, hs.pro, hs.pri, hs.otherwise, hs.endif⟩, fun p hp => ?_, Nat.le_refl _⟩
  have hk := hr.constants p (by simp only [Env.constants, World.read, List.mem_cons, List.not_mem_nil, or_false] at hp ⊢; omega)
  refine ⟨hk.made, ?_, hk.global⟩
  have := hs.made
  simp only [World.read, List.mem_cons, List.not_mem_nil, or_false] at hp
  omega

theorem record_run {k : RecordKind} {e : Env} {s : St} {rest : List Tok} (hv : RecordToks e.ms e.mem k x ts) (hm : Calm ts (more ++ rest)) (hn : 0 < s.heap.next)
    (hc : Consts e s.heap.next s.heap) (h : Here e s (ts ++ more) rest) : Gives (classStruct (recN (e.cells.length + 2)) k.tok false) e s ts.length x := by
  have hlen := h.length_le
  cases hv with
  | @forward t name ns u h1 h2 h3 =>
    have hq : Quiet u (more ++ rest) := hm u (by rw [List.getLast?_append]; rfl) h3.type
    have := forward_gives (r := recN (e.cells.length + 2)) h1 h2 h3 hq hn (by simpa using h)
    simpa using this
  | @mk hx hs' o y inner z u h1 h2 h3 h4 h5 =>
    have hq : Quiet u (more ++ rest) := hm u (by rw [List.getLast?_append]; rfl) h5.type
    have hlen' : (hs' ++ o :: inner ++ [z, u]).length = hs'.length + (inner.length + 3) := by simp
    rw [hlen']
    rw [List.length_append, hlen'] at hlen
    exact record_gives (n := s.heap.next) h1 (fun nm => members_reads h3 (fun hh => hh.elim) _ _ ⟨nm, rfl⟩ (by omega) hn) h2 h4.type h5 hq (Nat.le_refl _) hn hc (by simpa using h)

theorem record_read {k : RecordKind} {ms : Lex.Macros} {proc : Bytes} (hr : w.Ready) (hs : Spelled w.env w.heap) (hl : Lex.lex true w.env.ms c = .ok (some (ts ++ more, ms)))
    (hv : RecordToks ms (c ++ [0]) k x ts) (hm : Calm ts (more ++ w.env.cells.drop (ts ++ more).length)) :
    ParsesAs w (fun w d => w.parse d (inScope proc (withRec fun r => classStruct r k.tok false))) c ts.length x :=
  gives_lexed hr hl fun hh => Gives.scope (Gives.withRec (record_run hv hm.stale hr.started (Consts.of hr hs) (hh.heap w.heap (proc :: w.scope))))

/-- C56: classes, with everything in them. -/
theorem C56_class {ms : Lex.Macros} (hr : w.Ready) (hs : Spelled w.env w.heap) (hl : Lex.lex true w.env.ms c = .ok (some (ts ++ more, ms)))
    (hv : RecordToks ms (c ++ [0]) .cls x ts) (hm : Calm ts (more ++ w.env.cells.drop (ts ++ more).length)) : ParsesAs w parse_class c ts.length x :=
  record_read (k := .cls) hr hs hl hv hm

/-- C56: structs, with everything in them. -/
theorem C56_struct {ms : Lex.Macros} (hr : w.Ready) (hs : Spelled w.env w.heap) (hl : Lex.lex true w.env.ms c = .ok (some (ts ++ more, ms)))
    (hv : RecordToks ms (c ++ [0]) .struct x ts) (hm : Calm ts (more ++ w.env.cells.drop (ts ++ more).length)) : ParsesAs w parse_struct c ts.length x :=
  record_read (k := .struct) hr hs hl hv hm

/-- C56: unions, with everything in them. -/
theorem C56_union {ms : Lex.Macros} {hx y : Bytes} {o z u : Tok} {hs inner : List Tok} (hr : w.Ready) (hsp : Spelled w.env w.heap)
    (hl : Lex.lex true w.env.ms c = .ok (some (hs ++ o :: inner ++ [z, u] ++ more, ms))) (hh : UnionHead (c ++ [0]) hx hs)
    (ho : TokIs (c ++ [0]) o .BraceCurly_Open 0 b!"{") (hv : MembersToks ms (c ++ [0]) .union y inner) (hz : z.type = .BraceCurly_Close)
    (hu : u.type = .Statement_End) : ParsesAs w parse_union c (hs.length + inner.length + 3) (hx ++ b!"\n{\n" ++ y ++ b!"\n};\n") := by
  have hlen : (hs ++ o :: inner ++ [z, u]).length = hs.length + inner.length + 3 := by simp; omega
  rw [← hlen]
  refine gives_lexed hr hl fun hH => Gives.withRec ?_
  have hle := hH.length_le
  rw [List.length_append, hlen] at hle
  have := union_gives (n := w.heap.next) (s := ⟨0, w.heap, w.scope⟩) (more := more) hh
    (members_reads (p := .union) hv (fun hh => False.elim hh) ((w.read c (hs ++ o :: inner ++ [z, u] ++ more) ms).env.cells.length + 2) _ rfl (by omega) hr.started) ho hz hu (Nat.le_refl _)
    hr.started (Consts.of hr hsp) (by rw [show hs ++ o :: inner ++ z :: u :: more = hs ++ o :: inner ++ [z, u] ++ more by simp]; exact hH)
  rw [hlen, Nat.add_assoc]
  exact this

/-- C56: `init` spells the codes that bodies are given as it should. -/
theorem C56_spelled_init (library : Bool) (room : Nat) (lt : Bool) : ∃ w, initial library room lt = .ok w ∧ w.Ready ∧ Spelled w.env w.heap := by
  obtain ⟨w, hw, hr⟩ := C53_init library room lt
  refine ⟨w, hw, hr, ?_⟩
  let check (h : Heap) : Bool := (h.cell 11).type == .NewLine && (h.cell 6).type == .Access_Public && (h.cell 6).name == b!"public:\n" &&
    (h.cell 5).type == .Access_Protected && (h.cell 5).name == b!"protected:\n" && (h.cell 4).type == .Access_Private && (h.cell 4).name == b!"private:\n" &&
    (h.cell 14).type == .Preprocess_Else && (h.cell 15).type == .Preprocess_EndIf
  have key : ∀ l, (match defineConstants l with | .ok h => check h | _ => false) = true := by decide +kernel
  have := key library
  unfold initial at hw
  obtain ⟨h, hd, hw⟩ := Res.bind_eq_ok.mp hw
  cases hw
  rw [hd] at this
  simp only [check, Bool.and_eq_true, beq_iff_eq] at this
  obtain ⟨⟨⟨⟨⟨⟨⟨⟨h1, h2⟩, h3⟩, h4⟩, h5⟩, h6⟩, h7⟩, h8⟩, h9⟩ := this
  exact ⟨⟨Nat.succ_pos 10, Nat.succ_pos 5, Nat.succ_pos 4, Nat.succ_pos 3, Nat.succ_pos 13, Nat.succ_pos 14⟩, h1, ⟨h2, h3⟩, ⟨h4, h5⟩, ⟨h6, h7⟩, h8, h9⟩

/-- C56: and so they stay, whatever is parsed. -/
theorem C56_spelled {w' : World} {f : Parser} {p : Nat} (hr : w.Ready) (hs : Spelled w.env w.heap) (hf : f ∈ parsers) (h : f.run w c = .ok (p, w')) :
    Spelled w'.env w'.heap := by
  have ho := run_outcome (d := c) hr hf
  rw [h] at ho
  obtain ⟨hp, -⟩ : Parsed w w' ∧ Result w f.types p w' := ho
  have hc := hp.consts.1
  simp only [Env.constants, List.cons.injEq, and_true] at hc
  obtain ⟨c1, c2, c3, c4, c5, c6, -⟩ := hc
  have key : ∀ q ∈ w.env.constants, w'.heap.cell q = w.heap.cell q := fun q hq => hp.kept.1 q (hr.constants q hq).made (hr.constants q hq).other
  have k1 := key w.env.fmtNewline (by simp [Env.constants])
  have k2 := key w.env.accessPublic (by simp [Env.constants])
  have k3 := key w.env.accessProtected (by simp [Env.constants])
  have k4 := key w.env.accessPrivate (by simp [Env.constants])
  have k5 := key w.env.preElse (by simp [Env.constants])
  have k6 := key w.env.preEndif (by simp [Env.constants])
  refine ⟨?_, ?_, ?_, ?_, ?_, ?_, ?_⟩
  · rw [c1, c2, c3, c4, c5, c6]; exact hs.made
  · rw [c1, k1]; exact hs.newline
  · rw [c2, k2]; exact hs.pub
  · rw [c3, k3]; exact hs.pro
  · rw [c4, k4]; exact hs.pri
  · rw [c5, k5]; exact hs.otherwise
  · rw [c6, k6]; exact hs.endif

end Verif.Parse
