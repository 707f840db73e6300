import Verif.Proof.ParseDecls2
/-!
# Classes, structs, unions, namespaces, templates and typedefs
-/
namespace Verif.Parse
open Verif.Lex (Tok)
open Verif.Ast

/-- What `parse_forward_or_definition` makes. -/
abbrev defTypes : List CodeType := [.Class, .Class_Fwd, .Struct, .Struct_Fwd, .Enum, .Enum_Class, .Enum_Fwd, .Enum_Class_Fwd, .Union, .Union_Fwd]

/-- What `parse_complicated_definition` makes. -/
abbrev compTypes : List CodeType := [.Class, .Class_Fwd, .Struct, .Struct_Fwd, .Enum, .Enum_Class, .Enum_Fwd, .Enum_Class_Fwd, .Union, .Union_Fwd,
  .Untyped, .Operator, .Operator_Fwd, .Operator_Member, .Operator_Member_Fwd, .Function, .Function_Fwd, .Variable]

/-- The bodies between braces. -/
abbrev nspaceTypes : List CodeType := [.Namespace_Body, .Export_Body, .Extern_Linkage_Body]

/-- The functions that call one another do what they should from some index on. -/
structure Ctx.RecGood (c : Ctx) (k : Nat) (r : Rec) : Prop where
  complicated : ∀ w, c.Good k (r.complicated w) (c.Is compTypes) Any
  template : c.Good k r.template (c.Is [.Template]) Any
  typedef : c.Good k r.typedef (c.Is [.Typedef]) Any
  nspace : ∀ w, w ∈ nspaceTypes → c.Good k (r.nspace w) (c.Is [w]) Any
  brace : ∀ w s t x, w ∈ nspaceTypes → c.e.cells[s.idx]? = some t → t.type ≠ .BraceCurly_Open → r.nspace w c.e s ≠ .ok x

theorem Ctx.RecGood.up {c : Ctx} {k k' : Nat} {r : Rec} (i : c.RecGood k r) (hk : k ≤ k') : c.RecGood k' r :=
  ⟨fun w => (i.complicated w).up hk, i.template.up hk, i.typedef.up hk, fun w hw => (i.nspace w hw).up hk, i.brace⟩

namespace Safe
variable {c : Ctx} {α β σ : Type} {k : Nat} {g h : Heap}

macro_rules | `(tactic| sval) => `(tactic| exact Ctx.RecGood.up (by assumption) (by omega))
macro_rules | `(tactic| sother) => `(tactic| with_reducible first
  | exact Ctx.Good.safe (Ctx.RecGood.complicated (by assumption) _) (by omega)
  | exact Ctx.Good.safe (Ctx.RecGood.template (by assumption)) (by omega)
  | exact Ctx.Good.safe (Ctx.RecGood.typedef (by assumption)) (by omega))

theorem members {m : P Unit} (hm : ∀ k' g h, k ≤ k' → Safe c k' g h m Top Any) : Safe c k g h (members m) Top Never := by
  unfold Parse.members
  refine bindN0 (loopTop fun _ h _ => ?_) fun _ => ?_
  · repeat' first | sstep | refine bindS0 (hm _ _ _ (by omega)) fun _ => ?_
  · safe

theorem constant {ty : TokType} {f : Env → Nat} (hf : f c.e ∈ c.e.constants) : Safe c k g h (constant ty f) c.Mem Any := by
  have : ∀ h, c.Mem (f c.e) h := fun _ => .const hf
  unfold Parse.constant
  safe
  exact pureH (fun _ _ => this _) (fun h => h)

theorem accessLabel {ty : TokType} {f : Env → Nat} (hf : f c.e ∈ c.e.constants) : Safe c k g h (accessLabel ty f) c.Mem Any := by
  unfold Parse.accessLabel
  safe

theorem attributesAgain {a : Nat} (ha : c.Opt [.PlatformAttributes] a h) : Safe c k g h (attributesAgain a) (c.Opt [.PlatformAttributes]) Never := by
  unfold Parse.attributesAgain
  safe

/-- What a declaration among the members of a class or namespace makes. -/
abbrev _root_.Verif.Parse.declTypes : List CodeType := [.Untyped, .Operator, .Operator_Fwd, .Operator_Member, .Operator_Member_Fwd, .Function,
  .Function_Fwd, .Variable, .Constructor, .Constructor_Fwd, .Destructor, .Destructor_Fwd, .Operator_Cast, .Operator_Cast_Fwd]

theorem memberDecl {t : Txt} {b : Bool} {a s : Nat} (ha : c.Opt [.PlatformAttributes] a h) (hs : c.Opt [.Specifiers] s h) :
    Safe c k g h (memberDecl t b a s) (c.Is declTypes) Any := by
  unfold Parse.memberDecl
  safe

theorem memberSpecified {t : Txt} {a : Nat} (ha : c.Opt [.PlatformAttributes] a h) :
    Safe c k g h (memberSpecified t a) (c.Is declTypes) Any := by
  unfold Parse.memberSpecified
  safe

theorem unknownMember : Safe c k g h unknownMember (c.Is [.Untyped]) Never := by
  unfold Parse.unknownMember
  safe

/-- A loop whose first turn moves on. -/
theorem loop_at {step : σ → P (Bool × σ)} {x : σ} {s : St} (h1 : c.After s.heap s Top Any (step x c.e s))
    (hstep : ∀ x h', Grow s.heap h' → Safe c s.idx h' h' (step x) Top (fun r => r.1 = true)) : c.After s.heap s Top Any (P.loop step x c.e s) := by
  show c.After s.heap s Top Any ((step x c.e s).bind fun r => (if r.1.1 then P.loopN step (c.e.cells.length + 1) r.1.2 else Pure.pure r.1.2) c.e r.2)
  revert h1
  cases step x c.e s with
  | ok r =>
    obtain ⟨⟨go, y⟩, s'⟩ := r
    rintro ⟨h1, h2, h3, h4, h5, h6⟩
    have hlt := h5 trivial
    rw [Res.ok_bind]
    cases go with
    | false => exact ⟨h1, trivial, h3, h4, fun _ => hlt, h6⟩
    | true =>
      have := loopN (I := fun _ _ => True) (h := s.heap) (fun _ _ _ _ _ => trivial) (fun x h' hg _ => hstep x h' hg) (c.e.cells.length + 1) y s' trivial
        h1 (by omega) (by omega) h6
      show c.After s.heap s Top Any (P.loopN step (c.e.cells.length + 1) y c.e s')
      revert this
      cases P.loopN step (c.e.cells.length + 1) y c.e s' with
      | ok r =>
        rintro ⟨g1, g2, g3, g4, -, g6⟩
        exact ⟨g1, g2, g3.trans h3, by omega, fun _ => by omega, g6⟩
      | _ => exact id
  | _ => exact id

/-- Something unknown is eaten if it is not the closing brace. -/
theorem unknownMember_at {s : St} {t : Tok} (ha : c.At s t) (hn : s.idx ≠ c.e.num) (ht : t.type ≠ .BraceCurly_Close) (ho : c.Ok s) :
    c.After s.heap s (c.Is [.Untyped]) Any (Parse.unknownMember c.e s) := by
  have hl : Parse.leftAnd (fun t => decide (t.type ≠ .BraceCurly_Close)) c.e s = .ok (true, s) := by
    show ((if (decide (s.idx ≠ c.e.num)) = true then (do return decide ((← Parse.cur).type ≠ .BraceCurly_Close) : P Bool) else Pure.pure false) c.e s) = _
    rw [if_pos (by simp [hn])]
    show ((Parse.cur c.e s).bind _) = _
    rw [cur_at ha, Res.ok_bind]
    simp [ht, Pure.pure]
  unfold Parse.unknownMember
  refine after_bind (cur_at ha) ?_
  refine after_bindS (Grow.refl _) ?_ fun _ => by safe
  refine loop_at ?_ fun _ _ _ => by safe
  refine after_bind hl ?_
  rw [if_pos rfl]
  exact (show Safe c s.idx s.heap s.heap _ Top Any by safe) (Grow.refl _) s ho (Nat.le_refl _) (Grow.refl _)

theorem access1 : c.e.accessPublic ∈ c.e.constants := by simp [Env.constants]
theorem access2 : c.e.accessProtected ∈ c.e.constants := by simp [Env.constants]
theorem access3 : c.e.accessPrivate ∈ c.e.constants := by simp [Env.constants]

theorem classMember {r : Rec} {n : Txt} {ty : TokType} (hr : c.RecGood k r) : Safe c k g h (classMember r n ty) c.Mem Never := by
  unfold Parse.classMember
  split
  · exact (constant fmtNewline).never
  · safe
  · exact (accessLabel access1).never
  · exact (accessLabel access2).never
  · exact (accessLabel access3).never
  all_goals repeat' first | sstep | exact (directive ‹_›).never

theorem classMember_at {r : Rec} {n : Txt} {s : St} {t : Tok} (hr : c.RecGood s.idx r) (ha : c.e.cells[s.idx]? = some t) (hn : s.idx ≠ c.e.num)
    (ht : t.type ≠ .BraceCurly_Close) (ho : c.Ok s) : c.After s.heap s c.Mem Any (Parse.classMember r n t.type c.e s) := by
  have go : ∀ {p : P Nat}, Safe c s.idx s.heap s.heap p c.Mem Any → c.After s.heap s c.Mem Any (p c.e s) :=
    fun hp => hp (Grow.refl _) s ho (Nat.le_refl _) (Grow.refl _)
  suffices key : ∀ q, q = Parse.classMember r n t.type → c.After s.heap s c.Mem Any (q c.e s) from key _ rfl
  intro q hq
  unfold Parse.classMember at hq
  split at hq
  · exact hq ▸ go (constant fmtNewline)
  · exact hq ▸ go (by safe)
  · exact hq ▸ go (accessLabel access1)
  · exact hq ▸ go (accessLabel access2)
  · exact hq ▸ go (accessLabel access3)
  iterate 13 (first | exact hq ▸ go (by safe) | skip)
  split at hq
  · exact hq ▸ go (directive ‹_›)
  · split at hq
    · exact hq ▸ go (by safe)
    · split at hq
      · exact hq ▸ go (by safe)
      · split at hq
        · exact hq ▸ go (by safe)
        · have hf : isFmt t = false := by
            unfold isFmt
            simp only [decide_eq_false_iff_not, not_or]
            exact ⟨by assumption, by assumption⟩
          have := unknownMember_at ⟨ha, hf⟩ hn ht ho
          subst hq
          revert this
          cases Parse.unknownMember c.e s with
          | ok r => rintro ⟨h1, h2, h3⟩; exact ⟨h1, h2.mem (by decide), h3⟩
          | _ => exact id

theorem after_bindV {p : P α} {f : α → P β} {s : St} {V : α → Heap → Prop} {W : β → Heap → Prop} {S : β → Prop} (hg : Grow g s.heap)
    (hp : c.After s.heap s V Any (p c.e s))
    (hf : ∀ a h', Grow s.heap h' → V a h' → Safe c (s.idx + 1) g h' (f a) W Never) : c.After g s W S ((p >>= f) c.e s) := by
  show c.After g s W S ((p c.e s).bind fun r => f r.1 c.e r.2)
  revert hp
  cases p c.e s with
  | ok r =>
    obtain ⟨a, s'⟩ := r
    rintro ⟨h1, h2, h3, h4, h5, h6⟩
    have h5 := h5 trivial
    have := hf a s'.heap h6 h2 (hg.trans h6) s' h1 (by omega) (Grow.refl _)
    revert this
    rw [Res.ok_bind]
    cases f a c.e s' with
    | ok r =>
      rintro ⟨g1, g2, g3, g4, -, g6⟩
      exact ⟨g1, g2, g3.trans h3, by omega, fun _ => by omega, g6⟩
    | _ => exact id
  | _ => exact id

theorem curN_at {s : St} {t : Tok} (ha : c.e.cells[s.idx]? = some t) : Parse.curN c.e s = .ok (t, s) := by
  show (Res.ofOption _).bind _ = _
  rw [ha]
  rfl

/-- The loop over members, at a token that does not end it. -/
theorem membersAt {m : P Unit} (hm : ∀ s t, k ≤ s.idx → c.Ok s → Grow h s.heap → c.e.cells[s.idx]? = some t → s.idx ≠ c.e.num →
    t.type ≠ .BraceCurly_Close → c.After s.heap s Top Any (m c.e s)) : Safe c k g h (Parse.members m) Top Never := by
  unfold Parse.members
  refine bindN0 (loopTop fun _ h' hgh => ?_) fun _ => ?_
  · intro hg s ho hk hh
    show c.After h' s Top _ ((if (decide (s.idx ≠ c.e.num)) = true then
      (do
        let t ← Parse.curN
        if decide (t.type ≠ .BraceCurly_Close) = true then do
          m
          return (true, ())
        else return (false, ()) : P (Bool × Unit)) else
        (if false = true then do
          m
          return (true, ())
        else return (false, ()) : P (Bool × Unit))) c.e s)
    by_cases hn : s.idx = c.e.num
    · rw [if_neg (by simp [hn])]
      exact ⟨ho, trivial, rfl, Nat.le_refl _, (fun h => nomatch h), hh⟩
    · rw [if_pos (by simp [hn])]
      cases ha : c.e.cells[s.idx]? with
      | none =>
        show c.After h' s Top _ (((Res.ofOption _).bind _).bind _)
        rw [ha]
        trivial
      | some t =>
        refine after_bind (curN_at ha) ?_
        by_cases ht : t.type = .BraceCurly_Close
        · rw [if_neg (by simp [ht])]
          exact ⟨ho, trivial, rfl, Nat.le_refl _, (fun h => nomatch h), hh⟩
        · rw [if_pos (by simp [ht])]
          exact after_bindS hh (hm s t hk ho (hgh.trans hh) ha hn ht) fun _ => by safe
  · safe

theorem classBody {r : Rec} {w : TokType} {n : Txt} (hr : c.RecGood (k + 1) r) :
    Safe c k g h (classBody r w n) (c.Is [.Class_Body, .Struct_Body]) Any := by
  unfold Parse.classBody
  refine inScope (bindS0 eat fun _ => bindN (Safe.never (make (by srefs))) fun b h1 hg1 hb => ?_)
  have hb : c.Is [.Class_Body, .Struct_Body] b h1 := hb.is (by dec)
  refine bindN0 (membersAt fun s t hk ho hg ha hn ht => ?_) fun _ => by safe
  have hr := hr.up hk
  have hb := hb.grow hg
  by_cases hh : t.type = .Preprocess_Hash
  · refine after_bindS (Grow.refl _) ?_ fun _ => ?_
    · unfold Parse.hash
      refine after_bind (curN_at ha) ?_
      rw [if_pos hh]
      exact eat (Grow.refl _) s ho (Nat.le_refl _) (Grow.refl _)
    · safe
  · refine after_bind (a := ()) ?_ ?_
    · unfold Parse.hash
      show (Parse.curN c.e s).bind _ = _
      rw [curN_at ha, Res.ok_bind]
      dsimp only
      rw [if_neg hh]
      rfl
    · refine after_bind (curN_at ha) ?_
      split
      · exact eat (Grow.refl _) s ho (Nat.le_refl _) (Grow.refl _)
      · exact after_bindV (Grow.refl _) (classMember_at hr ha hn ht ho) fun _ _ _ _ => by safe

end Safe
end Verif.Parse
