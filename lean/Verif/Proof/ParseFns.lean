import Verif.Proof.ParseTac
/-!
# The small parsing functions
-/
namespace Verif.Parse
open Verif.Lex (Tok)
open Verif.Ast

def condTypes : List CodeType :=
  [.Preprocess_If, .Preprocess_IfDef, .Preprocess_IfNotDef, .Preprocess_ElIf, .Preprocess_Else, .Preprocess_EndIf, .Invalid]

theorem condType_mem (t : TokType) : condType t ∈ condTypes := by
  unfold condType condTypes
  split <;> simp

/-- The token at the index is this one, and `currtok` does not move. -/
def Ctx.At (c : Ctx) (s : St) (t : Tok) : Prop := c.e.cells[s.idx]? = some t ∧ isFmt t = false

theorem skipFmt_at {q : Tok → Bool} : ∀ {l : List Tok} {i : Nat} {t : Tok} {j : Nat}, skipFmt q l i = .ok (t, j) →
    l[j - i]? = some t ∧ q t = false
  | [], _, _, _, h => nomatch h
  | u :: l, i, t, j, h => by
    have hb := skipFmt_bound h
    unfold skipFmt at h
    split at h
    · have hb' := skipFmt_bound h
      have := skipFmt_at h
      rw [show j - i = (j - (i + 1)) + 1 by omega, List.getElem?_cons_succ]
      exact this
    · injection h with h
      injection h with h1 h2
      subst h1 h2
      exact ⟨by simp, Bool.eq_false_iff.mpr ‹_›⟩

theorem cur_ok {c : Ctx} {s s' : St} {t : Tok} (h : cur c.e s = .ok (t, s')) : c.At s' t := by
  unfold cur at h
  obtain ⟨r, hr, h⟩ := Res.bind_eq_ok.mp h
  cases h
  have hb := skipFmt_bound hr
  have := skipFmt_at hr
  rw [List.getElem?_drop] at this
  refine ⟨?_, this.2⟩
  show c.e.cells[r.2]? = _
  rw [show s.idx + (r.2 - s.idx) = r.2 by omega] at this
  exact this.1

theorem cur_at {c : Ctx} {s : St} {t : Tok} (h : c.At s t) : cur c.e s = .ok (t, s) := by
  unfold cur
  have hl : s.idx < c.e.cells.length := by
    rcases Nat.lt_or_ge s.idx c.e.cells.length with hi | hi
    · exact hi
    · rw [Ctx.At, List.getElem?_eq_none hi] at h
      cases h.1
  have ht : c.e.cells[s.idx] = t := by have := h.1; rw [List.getElem?_eq_getElem hl] at this; exact Option.some.inj this
  rw [List.drop_eq_getElem_cons hl, ht]
  unfold skipFmt
  rw [if_neg (by rw [h.2]; exact Bool.false_ne_true), Res.ok_bind]

theorem check_at {c : Ctx} {s : St} {t : Tok} (ty : TokType) (h : c.At s t) :
    check ty c.e s = .ok (decide (s.idx ≠ c.e.num ∧ t.type = ty), s) := by
  unfold check
  show ((if (decide (s.idx ≠ c.e.num)) = true then (do return (← cur).type = ty : P Bool) else pure false) c.e s) = _
  by_cases hn : s.idx = c.e.num
  · rw [if_neg (by simp [hn])]
    simp [hn, Pure.pure]
  · rw [if_pos (by simp [hn])]
    show ((cur c.e s).bind _) = _
    rw [cur_at h, Res.ok_bind]
    simp [hn, Pure.pure]

theorem leftAnd_ok {c : Ctx} {s s' : St} {q : Tok → Bool} (h : leftAnd q c.e s = .ok (true, s')) : ∃ t, c.At s' t ∧ q t = true := by
  unfold leftAnd at h
  change ((if (decide (s.idx ≠ c.e.num)) = true then (do return q (← cur) : P Bool) else pure false) c.e s) = _ at h
  by_cases hn : s.idx = c.e.num
  · rw [if_neg (by simp [hn])] at h
    cases h
  · rw [if_pos (by simp [hn])] at h
    obtain ⟨⟨t, s1⟩, h1, h2⟩ := Res.bind_eq_ok.mp h
    injection h2 with h2
    injection h2 with h2 h3
    subst h3
    exact ⟨t, cur_ok h1, h2⟩

namespace Safe
variable {c : Ctx} {α β σ : Type} {k : Nat} {g h : Heap}

theorem after_bind {p : P α} {f : α → P β} {s : St} {a : α} {V : β → Heap → Prop} {S : β → Prop} (hp : p c.e s = .ok (a, s))
    (hf : c.After g s V S (f a c.e s)) : c.After g s V S ((p >>= f) c.e s) := by
  show c.After g s V S ((p c.e s).bind fun r => f r.1 c.e r.2)
  rw [hp]
  exact hf

theorem after_bindS {p : P α} {f : α → P β} {s : St} {V : β → Heap → Prop} {S : β → Prop} (hg : Grow g s.heap)
    (hp : c.After s.heap s Top Any (p c.e s))
    (hf : ∀ a, Safe c (s.idx + 1) g s.heap (f a) V Never) : c.After g s V S ((p >>= f) c.e s) := by
  show c.After g s V S ((p c.e s).bind fun r => f r.1 c.e r.2)
  revert hp
  cases p c.e s with
  | ok r =>
    obtain ⟨a, s'⟩ := r
    rintro ⟨h1, h2, h3, h4, h5, h6⟩
    have h5 := h5 trivial
    have := hf a hg s' h1 (by omega) h6
    revert this
    rw [Res.ok_bind]
    cases f a c.e s' with
    | ok r =>
      rintro ⟨g1, g2, g3, g4, -, g6⟩
      exact ⟨g1, g2, g3.trans h3, by omega, fun _ => by omega, g6⟩
    | _ => exact id
  | _ => exact id

/-- After a condition that may have moved the index. -/
theorem bindAt {p : P α} {f : α → P β} {V : β → Heap → Prop} {S : β → Prop} (hp : Safe c k h h p Top Never)
    (hf : ∀ s a s', p c.e s = .ok (a, s') → c.Ok s' → k ≤ s'.idx → Grow h s'.heap → Grow g s'.heap → c.After g s' V S (f a c.e s')) :
    Safe c k g h (p >>= f) V S := by
  intro hg s ho hk hh
  show c.After g s V S ((p c.e s).bind fun r => f r.1 c.e r.2)
  have hp := hp (Grow.refl _) s ho hk hh
  have hf := hf s
  revert hp
  cases hps : p c.e s with
  | ok r =>
    obtain ⟨a, s'⟩ := r
    rintro ⟨h1, h2, h3, h4, -, h6⟩
    have := hf a s' hps h1 (by omega) h6 (hg.trans h6)
    revert this
    rw [Res.ok_bind]
    cases f a c.e s' with
    | ok r =>
      rintro ⟨g1, g2, g3, g4, g5, g6⟩
      exact ⟨g1, g2, g3.trans h3, by omega, fun t => by have := g5 t; omega, g6⟩
    | _ => exact id
  | _ => exact id

macro_rules | `(tactic| sval) => `(tactic| exact Ctx.New.grow_is (by assumption) (by grow) (condType_mem _))

theorem preprocessCond : Safe c k g h preprocessCond (c.Is condTypes) Any := by
  unfold Parse.preprocessCond
  safe

/-- The parameters of a macro's definition. -/
theorem defineParams : Safe c k g h defineParams (c.Is [.Parameters_Define]) Any := by
  unfold Parse.defineParams
  safe

theorem define : Safe c k g h define (c.Is [.Preprocess_Define]) Any := by
  unfold Parse.define
  safe

theorem contains {a b : Bytes} : Safe c k g h (contains a b) Top Never := by
  unfold Parse.contains
  refine bindN env fun _ _ _ _ => res ?_
  exact Str.contains_ne_hang

theorem sameLen {a b : Bytes} {n : Nat} : Safe c k g h (sameLen a b n) Top Never := by
  unfold Parse.sameLen
  refine bindN env fun _ _ _ _ => bindN (res ?_) fun _ _ _ _ => ?_
  · exact CStr.compareLen_ne_hang
  · safe

theorem macroArgs {n : Nat} : Safe c k g h (macroArgs n) Top Any := by
  unfold Parse.macroArgs
  safe

theorem macroBody {m : Lex.MacroInfo} {n : Nat} : Safe c k g h (macroBody m n) Top Any := by
  unfold Parse.macroBody
  safe

theorem macroEnd {m : Option Lex.MacroInfo} {t : Txt} : Safe c k g h (macroEnd m t) Top Never := by
  unfold Parse.macroEnd
  safe

theorem macroTail {m : Option Lex.MacroInfo} {n : Nat} {t : Txt} : Safe c k g h (macroTail m n t) Top Never := by
  unfold Parse.macroTail
  safe

theorem simplePreprocess {ty : TokType} : Safe c k g h (simplePreprocess ty) (c.Is [.Untyped]) Any := by
  unfold Parse.simplePreprocess
  safe

theorem fmtText {b : Bytes} : Safe c k g h (P.res (Ast.fmtText b)) Top Never := res fmtText_ne_hang
macro_rules | `(tactic| sother) => `(tactic| with_reducible exact Safe.fmtText)

theorem staticAssert : Safe c k g h staticAssert (c.Is [.Untyped]) Any := by
  unfold Parse.staticAssert
  safe

theorem emptyBrackets : Safe c k g h emptyBrackets Top Never := by
  unfold Parse.emptyBrackets
  safe

/-- The next brackets of an array. -/
theorem updBack {r a : Nat} (hr : c.Solid r h) (ha : c.Opt [.Untyped] a h) :
    Safe c k g h (P.change fun h => h.upd r fun n => { n with back := a }) Top Never := by
  refine change (V := Yes) fun h' ho hg => ?_
  have hs := hr.grow hg
  have ha := ha.grow hg
  have hn : ∀ n : Node, n.type ≠ .Typename → c.Links h' n → c.Links h' { n with back := a } := by
    intro n hn l
    refine ⟨l.slots, l.front, ha.fr, fun t => ⟨(l.nt t).1, ?_⟩⟩
    rcases ha with rfl | ha
    · exact .inl rfl
    · have := ha.solid (by decide)
      exact .inr ⟨this.2.1, this.2.2⟩
  exact (upd_keeps ho (.inr hs.1) (fun _ _ l => hn _ hs.2.2 l) rfl (fun _ ht => (hs.2.2 ht).elim)).imp fun _ _ => trivial

theorem arrayDeclN : ∀ {n k : Nat} {g h : Heap}, c.e.cells.length ≤ n + k → Safe c k g h (arrayDeclN (n + 1)) (c.Opt [.Untyped]) Never := by
  intro n
  induction n with
  | zero =>
    intro k g h hn
    rw [Parse.arrayDeclN.eq_def]
    dsimp only
    sstep
    sstep
    sstep
    · safe
    · sstep
      sstep
      · refine bindST eatK fun _ hk => ?_
        omega
      · safe
  | succ n ih =>
    intro k g h hn
    rw [Parse.arrayDeclN.eq_def]
    dsimp only
    sstep
    sstep
    sstep
    · safe
    · sstep
      sstep
      · repeat' sstep
        refine bindN (ih (by omega)) fun a _ _ _ => ?_
        refine bindN0 (updBack (by ssolid) (by with_reducible assumption)) fun _ => ?_
        safe
      · safe

theorem arrayDecl : Safe c k g h arrayDecl (c.Opt [.Untyped]) Never := by
  intro hg s ho hk hh
  exact arrayDeclN (n := c.e.cells.length + 1) (by omega) hg s ho hk hh

theorem oneAttribute : Safe c k g h oneAttribute Top Never := by
  unfold Parse.oneAttribute
  safe

theorem oneAttribute_at {s : St} {t : Tok} (ha : c.At s t) (hf : has t Lex.fAttribute = true) (ho : c.Ok s) :
    c.After s.heap s (Top : Unit → _) Any (Parse.oneAttribute c.e s) := by
  have go : ∀ {p : P Unit}, Safe c s.idx s.heap s.heap p Top Any → c.After s.heap s Top Any (p c.e s) :=
    fun hp => hp (Grow.refl _) s ho (Nat.le_refl _) (Grow.refl _)
  unfold Parse.oneAttribute
  refine after_bind (check_at _ ha) ?_
  split
  · exact go (by safe)
  refine after_bind (check_at _ ha) ?_
  split
  · exact go (by safe)
  refine after_bind (check_at _ ha) ?_
  split
  · exact go (by safe)
  refine after_bind (cur_at ha) ?_
  rw [if_pos hf]
  exact go (by safe)

theorem attributes : Safe c k g h attributes (c.Opt [.PlatformAttributes]) Never := by
  unfold Parse.attributes
  refine bindN0 ?_ fun _ => ?_
  · refine inScope ?_
    refine bindN0 cur fun _ => ?_
    refine loopTop fun _ _ _ => ?_
    refine bindAt leftAnd fun s b s' he ho hk hh hg => ?_
    cases b with
    | false =>
      rw [if_neg Bool.false_ne_true]
      exact (show Safe c s'.idx _ s'.heap _ Top _ by safe) hg s' ho (Nat.le_refl _) (Grow.refl _)
    | true =>
      obtain ⟨t, ha, hf⟩ := leftAnd_ok he
      have h1 := oneAttribute_at ha hf ho
      rw [if_pos rfl]
      exact after_bindS hg h1 fun _ => by safe
  · safe

theorem assignment : Safe c k g h assignment (c.Is [.Untyped]) Any := by
  unfold Parse.assignment
  safe

theorem codeExecution {b : Bytes} : Safe c k g h (P.code fun c h => defExecution c h b) (c.Is [.Execution]) Never :=
  code fun _ ho _ => defExecution_makes ho
macro_rules | `(tactic| sother) => `(tactic| with_reducible exact Safe.codeExecution)

theorem functionBody : Safe c k g h functionBody (c.Is [.Function_Body]) Any := by
  unfold Parse.functionBody
  safe

theorem isAngle {t : Verif.Lex.Tok} : Safe c k g h (isAngle t) Top Never := by
  unfold Parse.isAngle
  safe

theorem templateArgs {t : Txt} : Safe c k g h (templateArgs t) Top Never := by
  unfold Parse.templateArgs
  safe

theorem identifier : Safe c k g h identifier Top Never := by
  unfold Parse.identifier
  safe

theorem identText : Safe c k g h identText Top Never := by
  unfold Parse.identText
  safe

theorem specifiersLoop {ok : Specifier → Option (Option Bool)} {f : List Specifier} (hok : c.hangs ∨ ∀ s, ok s ≠ some (some false)) :
    Safe c k g h (specifiersLoop ok f) Top Never := by
  unfold Parse.specifiersLoop
  rcases hok with hok | hok
  · refine loopAny hok fun _ _ _ => ?_
    safe
  · refine loopTop fun _ _ _ => ?_
    repeat' first | (with_reducible exact absurd ‹ok _ = _› (hok _)) | sstep

theorem codeSpecifiers {l : List Specifier} : Safe c k g h (P.code fun c h => defSpecifiers c h l) (c.Is [.Specifiers]) Never :=
  code fun _ ho _ => defSpecifiers_makes ho
macro_rules | `(tactic| sother) => `(tactic| with_reducible exact Safe.codeSpecifiers)

theorem specsOf {l : List Specifier} : Safe c k g h (specsOf l) (c.Opt [.Specifiers]) Never := by
  unfold Parse.specsOf
  safe

end Safe
end Verif.Parse
