import Verif.Model.Equal
import Verif.Props.Ast
/-!
# Properties C32 and C33: comparing ASTs, validating bodies
-/
namespace Verif.Ast

/-! ## C32: `code_is_equal` -/

/-- The member slots of a node that `code_is_equal` follows, by type of node. -/
def eqSlots (n : Node) : List Nat := (eqChecks n.type).filterMap fun
  | .ast f => some (f n)
  | _ => none

/-- Following `Next` from `p` visits the nodes `l` and then null. -/
def NullChain (h : Heap) : Nat → List Nat → Prop
  | p, [] => p = 0
  | p, q :: l => p = q ∧ h.Valid q ∧ NullChain h (h.cell q).back l

/-- The finite ASTs on which `code_is_equal` is reflexive: no parameter list with several entries, no `Parameters_Define`. -/
inductive Plain (h : Heap) : Nat → Prop where
  | mk (p : Nat) (l : List Nat) (valid : h.Valid p)
      (noDefine : (h.cell p).type ≠ .Parameters_Define)
      (noList : (h.cell p).type = .Parameters → (h.cell p).num ≤ 1)
      (define : (h.cell p).type = .Preprocess_Define → h.Valid (h.cell p).body)
      (specs : (h.cell p).type = .Specifiers → (h.cell p).num.toNat ≤ (h.cell p).arrSpecs.length)
      (slots : ∀ q ∈ eqSlots (h.cell p), q ≠ 0 → Plain h q)
      (chain : eqBodyType (h.cell p).type = true → NullChain h (h.cell p).front l)
      (front : eqBodyType (h.cell p).type = true → (h.cell p).front ≠ 0 → Plain h (h.cell p).front)
      (back : eqBodyType (h.cell p).type = true → (h.cell p).back ≠ 0 → Plain h (h.cell p).back)
      (entries : eqBodyType (h.cell p).type = true → ∀ e ∈ l, Plain h e) : Plain h p

theorem runChecks_refl {eq : Nat → Nat → Res Bool} {s o : Node} (ho : o = { s with parent := o.parent }) (cs : List Chk)
    (hc : ∀ f, Chk.ast f ∈ cs → f o = f s ∧ (f s ≠ 0 → eq (f s) (f s) = .ok true)) : runChecks eq s o cs = .ok true := by
  have e1 : o.moduleFlags = s.moduleFlags := by rw [ho]
  have e2 : o.name = s.name := by rw [ho]
  have e3 : o.num = s.num := by rw [ho]
  have e4 : o.isParamPack = s.isParamPack := by rw [ho]
  induction cs with
  | nil => rfl
  | cons c cs ih =>
    have ih := ih fun f hf => hc f (List.mem_cons_of_mem _ hf)
    cases c with
    | mflags => simp [runChecks, e1, ih]
    | name => simp [runChecks, e2, ih]
    | num => simp [runChecks, e3, ih]
    | pack => simp [runChecks, e4, ih]
    | ast f =>
      obtain ⟨f1, f2⟩ := hc f List.mem_cons_self
      by_cases hf : f s = 0
      · simp [runChecks, hf, ih]
      · simp [runChecks, hf, f1, f2 hf, ih]

theorem eqSpecsLoop_refl (s : List Specifier) : ∀ (n idx : Nat), idx + n ≤ s.length → eqSpecsLoop s s n idx = .ok true
  | 0, _, _ => rfl
  | n + 1, idx, h => by
    have hi : idx < s.length := by omega
    have e : s[idx]? = some s[idx] := List.getElem?_eq_getElem hi
    simp only [eqSpecsLoop, e, Res.ofOption_some, Res.ok_bind, ne_eq, not_true_eq_false, if_false]
    exact eqSpecsLoop_refl s n (idx + 1) (by omega)

theorem eqBodyLoop_refl {eq : Nat → Nat → Res Bool} {h : Heap} : ∀ (l : List Nat) (p fuel : Nat), NullChain h p l →
    (∀ e ∈ l, eq e e = .ok true) → l.length < fuel → eqBodyLoop eq h fuel p p = .ok true
  | [], p, fuel + 1, c, _, _ => by simp [eqBodyLoop, show p = 0 from c]
  | q :: l, p, fuel + 1, c, he, hf => by
    obtain ⟨c1, c2, c3⟩ := c
    subst c1
    have hp : p ≠ 0 := by have := c2.1; omega
    simp only [eqBodyLoop, hp, if_false, he p List.mem_cons_self, Res.ok_bind, Bool.not_true, Bool.false_eq_true, get_ok c2]
    exact eqBodyLoop_refl l _ fuel c3 (fun e hm => he e (List.mem_cons_of_mem _ hm)) (by simpa using hf)

/-- Every slot check in the table reads a member that does not depend on `Parent`. -/
theorem eqChecks_slot (s : Node) (p : Nat) (t : CodeType) : ∀ f, Chk.ast f ∈ eqChecks t → f { s with parent := p } = f s := by
  intro f hf
  cases t <;> simp [eqChecks] at hf <;> (try contradiction) <;>
    first
    | (rcases hf with r | r | r | r | r | r <;> rw [r])
    | (rcases hf with r | r | r | r | r <;> rw [r])
    | (rcases hf with r | r | r | r <;> rw [r])
    | (rcases hf with r | r | r <;> rw [r])
    | (rcases hf with r | r <;> rw [r])
    | rw [hf]

/-- One level: a node equals a copy of itself when its members equal themselves. -/
theorem isEqual_step {fatal : Bool} {h : Heap} {p o fuel : Nat} (hp : h.Valid p) (ho : h.Valid o)
    (hc : h.cell o = { h.cell p with parent := (h.cell o).parent }) (l : List Nat)
    (noDefine : (h.cell p).type ≠ .Parameters_Define) (noList : (h.cell p).type = .Parameters → (h.cell p).num ≤ 1)
    (define : (h.cell p).type = .Preprocess_Define → h.Valid (h.cell p).body)
    (specs : (h.cell p).type = .Specifiers → (h.cell p).num.toNat ≤ (h.cell p).arrSpecs.length)
    (slots : ∀ q ∈ eqSlots (h.cell p), q ≠ 0 → isEqual fatal fuel h q q = .ok true)
    (chain : eqBodyType (h.cell p).type = true → NullChain h (h.cell p).front l)
    (front : eqBodyType (h.cell p).type = true → (h.cell p).front ≠ 0 → isEqual fatal fuel h (h.cell p).front (h.cell p).front = .ok true)
    (back : eqBodyType (h.cell p).type = true → (h.cell p).back ≠ 0 → isEqual fatal fuel h (h.cell p).back (h.cell p).back = .ok true)
    (entries : eqBodyType (h.cell p).type = true → ∀ e ∈ l, isEqual fatal fuel h e e = .ok true)
    (hf : eqBodyType (h.cell p).type = true → l.length < fuel) :
    isEqual fatal (fuel + 1) h p o = .ok true := by
  have o0 : o ≠ 0 := by have := ho.1; omega
  have ht : (h.cell o).type = (h.cell p).type := by rw [hc]
  unfold isEqual
  rw [if_neg o0, get_ok hp, get_ok ho]
  simp only [Res.ok_bind, ht, ne_eq, not_true_eq_false, if_false]
  generalize hs : h.cell p = s at *
  generalize hos : h.cell o = on at *
  have e1 : on.name = s.name := by rw [hc]
  have e2 : on.num = s.num := by rw [hc]
  have e3 : on.arrSpecs = s.arrSpecs := by rw [hc]
  have e4 : on.body = s.body := by rw [hc]
  have e5 : on.front = s.front := by rw [hc]
  have e6 : on.back = s.back := by rw [hc]
  have rc : runChecks (isEqual fatal fuel h) s on (eqChecks s.type) = .ok true := by
    refine runChecks_refl hc _ fun f hf => ⟨?_, fun hne => slots _ ?_ hne⟩
    · rw [hc]; exact eqChecks_slot s on.parent s.type f hf
    · exact List.mem_filterMap.2 ⟨_, hf, rfl⟩
  split
  · rename_i heq
    rw [if_neg (by have := noList heq; omega)]
    rw [heq] at rc; exact rc
  · rename_i heq; exact absurd heq noDefine
  · rename_i heq
    rw [if_neg (by simp [e1]), e4, get_ok (define heq)]; rfl
  · rename_i heq
    rw [if_neg (by simp [e2]), if_neg (by simp [e1]), e3]
    exact eqSpecsLoop_refl _ _ _ (by have := specs heq; omega)
  · by_cases hb : eqBodyType s.type = true
    · rw [if_pos hb]
      have r1 : runChecks (isEqual fatal fuel h) s on [.ast Node.front, .ast Node.back] = .ok true := by
        refine runChecks_refl hc _ fun f hf => ?_
        simp at hf
        rcases hf with r | r
        · subst r; exact ⟨e5, front hb⟩
        · subst r; exact ⟨e6, back hb⟩
      rw [r1]
      simp only [Res.ok_bind, Bool.not_true, Bool.false_eq_true, if_false, e5, e2, decide_true, Bool.and_true]
      rw [eqBodyLoop_refl l _ _ (chain hb) (entries hb) (hf hb)]
      rfl
    · rw [if_neg hb]; exact rc

theorem NullChain.ne_zero {h : Heap} : ∀ {l : List Nat} {p : Nat}, NullChain h p l → ∀ e ∈ l, e ≠ 0
  | [], _, _, e, he => by cases he
  | a :: l, p, ⟨_, c2, c3⟩, e, he => by
    rcases List.mem_cons.1 he with r | r
    · rw [r]; have := c2.1; omega
    · exact NullChain.ne_zero c3 e r

/-- Comparing ends, with true, given enough steps. -/
def EqTrue (fatal : Bool) (h : Heap) (a b : Nat) : Prop := ∃ N, ∀ fuel, N ≤ fuel → isEqual fatal fuel h a b = .ok true

theorem eqTrue_all {fatal : Bool} {h : Heap} : ∀ L : List Nat, (∀ q ∈ L, q ≠ 0 → EqTrue fatal h q q) →
    ∃ N, ∀ fuel, N ≤ fuel → ∀ q ∈ L, q ≠ 0 → isEqual fatal fuel h q q = .ok true := by
  intro L
  induction L with
  | nil => exact fun _ => ⟨0, fun _ _ q hq => by cases hq⟩
  | cons a L ih =>
    intro hL
    obtain ⟨N, hN⟩ := ih fun q hq => hL q (List.mem_cons_of_mem _ hq)
    by_cases ha : a = 0
    · refine ⟨N, fun fuel hf q hq hne => ?_⟩
      rcases List.mem_cons.1 hq with r | r
      · exact absurd (r.trans ha) hne
      · exact hN fuel hf q r hne
    · obtain ⟨M, hM⟩ := hL a List.mem_cons_self ha
      refine ⟨N + M, fun fuel hf q hq hne => ?_⟩
      rcases List.mem_cons.1 hq with r | r
      · rw [r]; exact hM fuel (by omega)
      · exact hN fuel (by omega) q r hne

theorem eqTrue_copy {fatal : Bool} {h : Heap} {p o : Nat} (l : List Nat) (hp : h.Valid p) (ho : h.Valid o)
    (hc : h.cell o = { h.cell p with parent := (h.cell o).parent })
    (noDefine : (h.cell p).type ≠ .Parameters_Define) (noList : (h.cell p).type = .Parameters → (h.cell p).num ≤ 1)
    (define : (h.cell p).type = .Preprocess_Define → h.Valid (h.cell p).body)
    (specs : (h.cell p).type = .Specifiers → (h.cell p).num.toNat ≤ (h.cell p).arrSpecs.length)
    (slots : ∀ q ∈ eqSlots (h.cell p), q ≠ 0 → EqTrue fatal h q q)
    (chain : eqBodyType (h.cell p).type = true → NullChain h (h.cell p).front l)
    (front : eqBodyType (h.cell p).type = true → (h.cell p).front ≠ 0 → EqTrue fatal h (h.cell p).front (h.cell p).front)
    (back : eqBodyType (h.cell p).type = true → (h.cell p).back ≠ 0 → EqTrue fatal h (h.cell p).back (h.cell p).back)
    (entries : eqBodyType (h.cell p).type = true → ∀ e ∈ l, EqTrue fatal h e e) : EqTrue fatal h p o := by
  obtain ⟨N1, h1⟩ := eqTrue_all _ slots
  by_cases hb : eqBodyType (h.cell p).type = true
  · obtain ⟨N2, h2⟩ := eqTrue_all (fatal := fatal) (h := h) [(h.cell p).front] (by
      intro q hq hne; rw [List.mem_singleton.1 hq] at hne ⊢; exact front hb hne)
    obtain ⟨N3, h3⟩ := eqTrue_all (fatal := fatal) (h := h) [(h.cell p).back] (by
      intro q hq hne; rw [List.mem_singleton.1 hq] at hne ⊢; exact back hb hne)
    obtain ⟨N4, h4⟩ := eqTrue_all (fatal := fatal) (h := h) l (fun q hq _ => entries hb q hq)
    refine ⟨N1 + N2 + N3 + N4 + l.length + 2, fun fuel hf => ?_⟩
    obtain ⟨fuel, rfl⟩ : ∃ k, fuel = k + 1 := ⟨fuel - 1, by omega⟩
    exact isEqual_step hp ho hc l noDefine noList define specs (h1 fuel (by omega)) chain
      (fun _ hne => h2 fuel (by omega) _ List.mem_cons_self hne) (fun _ hne => h3 fuel (by omega) _ List.mem_cons_self hne)
      (fun _ e he => h4 fuel (by omega) e he ((chain hb).ne_zero e he)) (fun _ => by omega)
  · refine ⟨N1 + 1, fun fuel hf => ?_⟩
    obtain ⟨fuel, rfl⟩ : ∃ k, fuel = k + 1 := ⟨fuel - 1, by omega⟩
    exact isEqual_step hp ho hc l noDefine noList define specs (h1 fuel (by omega)) chain
      (fun hb' => absurd hb' hb) (fun hb' => absurd hb' hb) (fun hb' => absurd hb' hb) (fun hb' => absurd hb' hb)

/-- C32: comparing such an AST with itself terminates and gives true, whatever the amount of nesting. Missing for the full
property: parameter lists with several entries and `Parameters_Define` nodes, see the refutations below. -/
theorem C32_refl_partial (fatal : Bool) {h : Heap} {p : Nat} (hp : Plain h p) :
    ∃ N, ∀ fuel, N ≤ fuel → isEqual fatal fuel h p p = .ok true := by
  induction hp with
  | mk p l valid noDefine noList define specs slots chain front back entries ihs ihf ihb ihe =>
    exact eqTrue_copy l valid valid rfl noDefine noList define specs ihs chain ihf ihb ihe

theorem NullChain.mono {h h' : Heap} (hm : ∀ q, h.Valid q → h'.Valid q ∧ h'.cell q = h.cell q) : ∀ {l : List Nat} {p : Nat},
    NullChain h p l → NullChain h' p l
  | [], _, c => c
  | a :: l, p, ⟨c1, c2, c3⟩ => by
    obtain ⟨v, e⟩ := hm a c2
    exact ⟨c1, v, by rw [e]; exact NullChain.mono hm c3⟩

/-- Allocating other nodes changes nothing for an AST. -/
theorem Plain.mono {h h' : Heap} (hm : ∀ q, h.Valid q → h'.Valid q ∧ h'.cell q = h.cell q) {p : Nat} (hp : Plain h p) :
    Plain h' p := by
  induction hp with
  | mk p l valid noDefine noList define specs slots chain front back entries ihs ihf ihb ihe =>
    obtain ⟨v, e⟩ := hm p valid
    refine Plain.mk p l v ?_ ?_ ?_ ?_ ?_ ?_ ?_ ?_ ?_ <;> rw [e]
    · exact noDefine
    · exact noList
    · exact fun ht => (hm _ (define ht)).1
    · exact specs
    · exact ihs
    · exact fun hb => (chain hb).mono hm
    · exact ihf
    · exact ihb
    · exact ihe

/-- C32, C44: the result of `code_duplicate` equals the original, and the original equals it. -/
theorem C32_duplicate_equal_partial (fatal : Bool) {h : Heap} {p : Nat} (hn : 0 < h.next) (hp : Plain h p) :
    ∃ h', duplicate h p = .ok (h.next, h') ∧
      ∃ N, ∀ fuel, N ≤ fuel → isEqual fatal fuel h' p h.next = .ok true ∧ isEqual fatal fuel h' h.next p = .ok true := by
  have hv : h.Valid p := by cases hp; assumption
  obtain ⟨h', d1, d2, _, d4, d5⟩ := C44_duplicate h hn p hv
  refine ⟨h', d1, ?_⟩
  have hp' := hp.mono d5
  have key : ∀ a b r : Nat, h'.Valid a → h'.Valid b → h'.cell a = { h'.cell p with parent := r } →
      h'.cell b = { h'.cell a with parent := (h'.cell b).parent } → EqTrue fatal h' a b := by
    intro a b r va vb ea eb
    cases hp' with
    | mk _ l valid noDefine noList define specs slots chain front back entries =>
      refine eqTrue_copy l va vb eb ?_ ?_ ?_ ?_ ?_ ?_ ?_ ?_ ?_ <;> rw [ea]
      · exact noDefine
      · exact noList
      · exact define
      · exact specs
      · intro q hq hne
        refine C32_refl_partial fatal (slots q ?_ hne)
        obtain ⟨c, hc1, hc2⟩ := List.mem_filterMap.1 hq
        refine List.mem_filterMap.2 ⟨c, hc1, ?_⟩
        cases c with
        | ast f => rw [← hc2]; exact congrArg some (eqChecks_slot _ _ _ f hc1).symm
        | _ => cases hc2
      · exact chain
      · exact fun hb hne => C32_refl_partial fatal (front hb hne)
      · exact fun hb hne => C32_refl_partial fatal (back hb hne)
      · exact fun hb e he => C32_refl_partial fatal (entries hb e he)
  have e0 : h'.cell h.next = { h'.cell p with parent := (h'.cell h.next).parent } := by
    rw [d4, (d5 p hv).2]
  obtain ⟨N1, k1⟩ := key p h.next _ (d5 p hv).1 d2 rfl e0
  obtain ⟨N2, k2⟩ := key h.next p _ d2 (d5 p hv).1 e0 (by rw [d4, (d5 p hv).2])
  exact ⟨N1 + N2, fun fuel hf => ⟨k1 fuel (by omega), k2 fuel (by omega)⟩⟩

/-! ### What a positive answer guarantees -/

/-- C32: two codes reported equal have the same type. -/
theorem C32_same_type_partial {fatal : Bool} {fuel : Nat} {h : Heap} {a b : Nat} (he : isEqual fatal fuel h a b = .ok true) :
    h.Valid a ∧ h.Valid b ∧ (h.cell a).type = (h.cell b).type := by
  cases fuel with
  | zero => cases he
  | succ fuel =>
    unfold isEqual at he
    by_cases hb : b = 0
    · rw [if_pos hb] at he
      by_cases ha : a ≠ 0
      · rw [Res.assert_true ha] at he; cases he
      · rw [Res.assert_false ha] at he; cases he
    · rw [if_neg hb] at he
      by_cases va : h.Valid a
      · by_cases vb : h.Valid b
        · rw [get_ok va, get_ok vb] at he
          simp only [Res.ok_bind] at he
          by_cases ht : (h.cell a).type = (h.cell b).type
          · exact ⟨va, vb, ht⟩
          · rw [if_pos ht] at he; cases he
        · rw [get_ok va, show h.get b = .ub from if_neg vb] at he; cases he
      · rw [show h.get a = .ub from if_neg va] at he; cases he

/-- The types of node whose `Name` is what the code declares or refers to. -/
def Named : CodeType → Prop := (· ∈ ([.Class, .Class_Fwd, .Struct, .Struct_Fwd, .Enum, .Enum_Fwd, .Enum_Class, .Enum_Class_Fwd,
  .Extern_Linkage, .Function, .Function_Fwd, .Module, .Namespace, .Operator, .Operator_Fwd, .Operator_Member,
  .Operator_Member_Fwd, .Preprocess_Define, .Typedef, .Typename, .Union, .Union_Fwd, .Using, .Using_Namespace, .Variable] : List CodeType))

theorem runChecks_name {eq : Nat → Nat → Res Bool} {s o : Node} : ∀ (cs : List Chk), Chk.name ∈ cs → runChecks eq s o cs = .ok true →
    s.name = o.name
  | [], hm, _ => by cases hm
  | c :: cs, hm, he => by
    cases c with
    | name =>
      by_cases hn : s.name = o.name
      · exact hn
      · simp [runChecks, hn] at he
    | mflags =>
      simp only [runChecks] at he
      split at he
      · cases he
      · exact runChecks_name cs (by simpa using hm) he
    | num =>
      simp only [runChecks] at he
      split at he
      · cases he
      · exact runChecks_name cs (by simpa using hm) he
    | pack =>
      simp only [runChecks] at he
      split at he
      · cases he
      · exact runChecks_name cs (by simpa using hm) he
    | ast f =>
      simp only [runChecks] at he
      split at he
      · exact runChecks_name cs (by simpa using hm) he
      · split at he
        · cases he
        · obtain ⟨b, _, hb⟩ := Res.bind_eq_ok.1 he
          cases b
          · cases hb
          · exact runChecks_name cs (by simpa using hm) hb

/-- C32: two declarations reported equal have the same name. -/
theorem C32_same_name_partial {fatal : Bool} {fuel : Nat} {h : Heap} {a b : Nat} (he : isEqual fatal fuel h a b = .ok true)
    (hn : Named (h.cell a).type) : (h.cell a).name = (h.cell b).name := by
  obtain ⟨va, vb, ht⟩ := C32_same_type_partial he
  cases fuel with
  | zero => cases he
  | succ fuel =>
    have hb : b ≠ 0 := by have := vb.1; omega
    unfold isEqual at he
    rw [if_neg hb, get_ok va, get_ok vb] at he
    simp only [Res.ok_bind, ht, ne_eq, not_true_eq_false, if_false] at he
    rw [ht] at hn
    generalize h.cell a = s at *
    generalize h.cell b = o at *
    generalize o.type = t at *
    cases t <;> simp [Named] at hn <;> simp only [eqBodyType, Bool.false_eq_true, if_false] at he <;>
      first
      | exact runChecks_name _ (by simp [eqChecks]) he
      | (by_cases hnm : s.name = o.name
         · exact hnm
         · rw [if_pos hnm] at he; cases he)

/-! ### Typenames: exactly what is compared -/

/-- `a` is a specifier list whose array is in bounds. -/
def SpecsOkAt (h : Heap) (p : Nat) : Prop :=
  h.Valid p ∧ (h.cell p).type = .Specifiers ∧ 0 ≤ (h.cell p).num ∧ (h.cell p).num.toNat ≤ (h.cell p).arrSpecs.length

/-- A typename as `def_type` builds it: optional specifiers and array expression. -/
structure IsTypename (h : Heap) (p : Nat) : Prop where
  valid : h.Valid p
  type : (h.cell p).type = .Typename
  specs : (h.cell p).specs ≠ 0 → SpecsOkAt h (h.cell p).specs
  arr : (h.cell p).body ≠ 0 → h.Valid (h.cell p).body ∧ (h.cell (h.cell p).body).type = .Untyped

/-- The same specifiers in the same order. -/
def SameSpecs (h : Heap) (a b : Nat) : Prop :=
  (h.cell a).num = (h.cell b).num ∧ (h.cell a).name = (h.cell b).name ∧
    (h.cell a).arrSpecs.take (h.cell a).num.toNat = (h.cell b).arrSpecs.take (h.cell a).num.toNat

instance (h : Heap) (a b : Nat) : Decidable (SameSpecs h a b) := inferInstanceAs (Decidable (_ ∧ _ ∧ _))

/-- What `code_is_equal` looks at in two typenames: name, parameter pack, the specifiers of `a` if it has any, and whether `b` is
an array if `a` is. Not: the specifiers of `b` when `a` has none, the array expressions, attributes, the type tag. -/
def TypeMatches (h : Heap) (a b : Nat) : Prop :=
  (h.cell a).isParamPack = (h.cell b).isParamPack ∧ (h.cell a).name = (h.cell b).name ∧
    ((h.cell a).specs ≠ 0 → (h.cell b).specs ≠ 0 ∧ SameSpecs h (h.cell a).specs (h.cell b).specs) ∧
    ((h.cell a).body ≠ 0 → (h.cell b).body ≠ 0)

instance (h : Heap) (a b : Nat) : Decidable (TypeMatches h a b) := inferInstanceAs (Decidable (_ ∧ _ ∧ _ ∧ _))

theorem eqSpecsLoop_spec (s o : List Specifier) : ∀ (n idx : Nat), idx + n ≤ s.length → idx + n ≤ o.length →
    eqSpecsLoop s o n idx = .ok (decide ((s.drop idx).take n = (o.drop idx).take n))
  | 0, _, _, _ => by simp [eqSpecsLoop]
  | n + 1, idx, hs, ho => by
    have h1 : idx < s.length := by omega
    have h2 : idx < o.length := by omega
    rw [List.drop_eq_getElem_cons h1, List.drop_eq_getElem_cons h2]
    simp only [eqSpecsLoop, List.getElem?_eq_getElem h1, List.getElem?_eq_getElem h2, Res.ofOption_some, Res.ok_bind,
      List.take_succ_cons, List.cons.injEq]
    by_cases e : s[idx] = o[idx]
    · rw [if_neg (by simpa using e), eqSpecsLoop_spec s o n (idx + 1) (by omega) (by omega)]
      simp [e]
    · rw [if_pos e]; simp [e]

theorem isEqual_specs {fatal : Bool} {h : Heap} {a b : Nat} (fuel : Nat) (ha : SpecsOkAt h a) (hb : SpecsOkAt h b) :
    isEqual fatal (fuel + 1) h a b = .ok (decide (SameSpecs h a b)) := by
  obtain ⟨va, ta, na, la⟩ := ha
  obtain ⟨vb, tb, nb, lb⟩ := hb
  have b0 : b ≠ 0 := by have := vb.1; omega
  unfold isEqual
  rw [if_neg b0, get_ok va, get_ok vb]
  simp only [Res.ok_bind, ta, tb, ne_eq, not_true_eq_false, if_false]
  by_cases e1 : (h.cell a).num = (h.cell b).num
  · rw [if_neg (by simpa using e1)]
    by_cases e2 : (h.cell a).name = (h.cell b).name
    · rw [if_neg (by simpa using e2), eqSpecsLoop_spec _ _ _ _ (by omega) (by rw [e1]; omega)]
      simp [SameSpecs, e1, e2]
    · rw [if_pos e2]; simp [SameSpecs, e2]
  · rw [if_pos e1]; simp [SameSpecs, e1]

/-- C32: for typenames `code_is_equal` decides `TypeMatches`. -/
theorem C32_typename_partial (fatal : Bool) {h : Heap} {a b : Nat} (fuel : Nat) (ha : IsTypename h a) (hb : IsTypename h b) :
    isEqual fatal (fuel + 2) h a b = .ok (decide (TypeMatches h a b)) := by
  have b0 : b ≠ 0 := by have := hb.valid.1; omega
  have sub : ∀ p q : Nat, h.Valid p → h.Valid q → (h.cell p).type = .Untyped → (h.cell q).type = .Untyped →
      isEqual fatal (fuel + 1) h p q = .ok true := by
    intro p q vp vq tp tq
    have q0 : q ≠ 0 := by have := vq.1; omega
    unfold isEqual
    rw [if_neg q0, get_ok vp, get_ok vq]
    simp only [Res.ok_bind, tp, tq, ne_eq, not_true_eq_false, if_false]
    rfl
  rw [show fuel + 2 = (fuel + 1) + 1 from rfl]
  rw [isEqual, if_neg b0, get_ok ha.valid, get_ok hb.valid]
  simp only [Res.ok_bind, ha.type, hb.type, ne_eq, not_true_eq_false, if_false, eqBodyType, Bool.false_eq_true, eqChecks, runChecks]
  by_cases e1 : (h.cell a).isParamPack = (h.cell b).isParamPack
  · by_cases e2 : (h.cell a).name = (h.cell b).name
    · have tail : (if (h.cell a).body = 0 then (.ok true : Res Bool) else if (h.cell b).body = 0 then .ok false
          else (isEqual fatal (fuel + 1) h (h.cell a).body (h.cell b).body).bind fun b => if b = true then .ok true else .ok false) =
          .ok (decide ((h.cell a).body ≠ 0 → (h.cell b).body ≠ 0)) := by
        by_cases e3 : (h.cell a).body = 0
        · simp [e3]
        · by_cases e4 : (h.cell b).body = 0
          · simp [e3, e4]
          · obtain ⟨v1, t1⟩ := ha.arr e3
            obtain ⟨v2, t2⟩ := hb.arr e4
            rw [if_neg e3, if_neg e4, sub _ _ v1 v2 t1 t2]
            simp [e4]
      rw [tail]
      simp only [e1, e2, not_true_eq_false, if_false]
      by_cases e3 : (h.cell a).specs = 0
      · simp [e3, TypeMatches, e1, e2]
      · by_cases e4 : (h.cell b).specs = 0
        · simp [e3, e4, TypeMatches, e1, e2]
        · rw [if_neg e3, if_neg e4, isEqual_specs fuel (ha.specs e3) (hb.specs e4)]
          simp only [Res.ok_bind]
          by_cases e5 : SameSpecs h (h.cell a).specs (h.cell b).specs
          · simp [e5, TypeMatches, e1, e2, e3, e4]
          · simp [e5, TypeMatches, e1, e2, e3, e4]
    · simp [e1, e2, TypeMatches]
  · simp [e1, TypeMatches]

/-- C32 fails: a parameter list with several entries never equals itself, whatever it holds. -/
theorem C32_params_not_reflexive_refuted (fatal : Bool) {h : Heap} {p : Nat} (fuel : Nat) (vp : h.Valid p)
    (ht : (h.cell p).type = .Parameters) (hn : 1 < (h.cell p).num) : isEqual fatal (fuel + 2) h p p = .ok false := by
  have p0 : p ≠ 0 := by have := vp.1; omega
  rw [show fuel + 2 = (fuel + 1) + 1 from rfl, isEqual, if_neg p0, get_ok vp]
  simp only [Res.ok_bind, ht, ne_eq, not_true_eq_false, if_false]
  rw [if_pos hn]
  simp [eqParamsLoop, p0, get_ok vp]

/-- C32 fails: codes with different content are reported equal; equality is not symmetric; two functions with different bodies
are reported equal; two parameter lists whose names all differ are reported equal. -/
def eqDemo : Heap := { next := 20, cell := fun
  | 1 => { type := .Untyped, content := b!"a" }
  | 2 => { type := .Untyped, content := b!"b" }
  | 3 => { type := .Typename, name := b!"T", specs := 5 }
  | 4 => { type := .Typename, name := b!"T" }
  | 5 => { type := .Specifiers, num := 1, arrSpecs := .Const :: List.replicate 13 .Invalid }
  | 6 => { type := .Function_Body, num := 1, front := 1, back := 1 }
  | 7 => { type := .Function_Body, num := 1, front := 2, back := 2 }
  | 8 => { type := .Function, name := b!"f", typ := 4, body := 6 }
  | 9 => { type := .Function, name := b!"f", typ := 4, body := 7 }
  | 10 => { type := .Parameters, name := b!"a", typ := 4, num := 2, back := 11 }
  | 11 => { type := .Parameters, name := b!"b", typ := 4, num := 1 }
  | 12 => { type := .Parameters, name := b!"c", typ := 4, num := 2, back := 13 }
  | 13 => { type := .Parameters, name := b!"d", typ := 4, num := 1 }
  | _ => {} }

theorem C32_content_ignored_refuted : isEqual true 9 eqDemo 1 2 = .ok true ∧ (eqDemo.cell 1).content ≠ (eqDemo.cell 2).content := by
  decide +kernel

theorem C32_not_symmetric_refuted : isEqual true 9 eqDemo 4 3 = .ok true ∧ isEqual true 9 eqDemo 3 4 = .ok false := by
  decide +kernel

theorem C32_function_bodies_ignored_refuted : isEqual true 9 eqDemo 8 9 = .ok true ∧ eqDemo.cell 6 ≠ eqDemo.cell 7 := by
  decide +kernel

theorem C32_different_params_equal_refuted : isEqual true 9 eqDemo 10 12 = .ok true ∧ isEqual true 9 eqDemo 10 10 = .ok false := by
  decide +kernel

/-- The hypotheses of the positive theorems are met: the function `8` with its typename and body. -/
example : Plain eqDemo 8 := by
  have t4 : Plain eqDemo 4 := Plain.mk 4 [] (by decide) (by decide) (by decide) (by decide) (by decide)
    (by intro q hq hne; have e : eqSlots (eqDemo.cell 4) = [0, 0] := rfl; rw [e] at hq; simp at hq; exact absurd hq hne)
    (fun hb => absurd hb (by decide)) (fun hb => absurd hb (by decide)) (fun hb => absurd hb (by decide)) (fun hb => absurd hb (by decide))
  have t6 : Plain eqDemo 6 := Plain.mk 6 [] (by decide) (by decide) (by decide) (by decide) (by decide)
    (by intro q hq; have e : eqSlots (eqDemo.cell 6) = [] := rfl; rw [e] at hq; cases hq)
    (fun hb => absurd hb (by decide)) (fun hb => absurd hb (by decide)) (fun hb => absurd hb (by decide)) (fun hb => absurd hb (by decide))
  refine Plain.mk 8 [] (by decide) (by decide) (by decide) (by decide) (by decide) ?_
    (fun hb => absurd hb (by decide)) (fun hb => absurd hb (by decide)) (fun hb => absurd hb (by decide)) (fun hb => absurd hb (by decide))
  intro q hq hne
  have : q = 4 ∨ q = 0 ∨ q = 6 := by
    have : eqSlots (eqDemo.cell 8) = [4, 0, 0, 0, 6] := rfl
    rw [this] at hq
    simp at hq
    omega
  rcases this with r | r | r
  · rw [r]; exact t4
  · exact absurd r hne
  · rw [r]; exact t6

example : IsTypename eqDemo 3 ∧ IsTypename eqDemo 4 ∧ TypeMatches eqDemo 4 3 ∧ ¬ TypeMatches eqDemo 3 4 :=
  ⟨⟨by decide, by decide, fun _ => ⟨by decide, by decide, by decide, by decide⟩, by decide⟩,
    ⟨by decide, by decide, fun hs => absurd rfl hs, by decide⟩, by decide, by decide⟩

/-! ## C33: `code_validate_body` -/

/-- C33, the part that holds: a body whose first entry is not allowed is rejected. -/
theorem C33_rejects_first_partial {h : Heap} {b x : Nat} {l : List Nat} (hb : IsBody h b (x :: l)) (rejects : CodeType → Bool)
    (hr : validateRejects (h.cell b).type = some rejects) (hx : rejects (h.cell x).type = true) (y : Nat)
    (hy : (x :: l).getLast? = some y) (hend : (h.cell y).back = 0) (fuel : Nat) :
    validateBody false (fuel + 1) h b = .ok false ∧ validateBody true (fuel + 1) h b = .stop := by
  have vy : h.Valid y := hb.chain.valid y (List.mem_of_getLast? hy)
  obtain ⟨cx, vx, _⟩ := hb.chain
  have x0 : x ≠ 0 := by have := vx.1; omega
  unfold validateBody
  simp only [get_ok hb.valid, Res.ok_bind, hr, validateLoop, hb.last y hy, get_ok vy, hend, cx, if_neg x0, get_ok vx, hx, if_true]
  exact ⟨rfl, trivial⟩

/-- C33 fails: a body with an allowed first entry makes the call loop for ever, whatever the other entries are. -/
theorem C33_hangs_refuted (fatal : Bool) {h : Heap} {b x : Nat} {l : List Nat} (hb : IsBody h b (x :: l)) (rejects : CodeType → Bool)
    (hr : validateRejects (h.cell b).type = some rejects) (hx : rejects (h.cell x).type = false) (y : Nat)
    (hy : (x :: l).getLast? = some y) (hend : (h.cell y).back = 0) (fuel : Nat) : validateBody fatal fuel h b = .hang := by
  have vy : h.Valid y := hb.chain.valid y (List.mem_of_getLast? hy)
  obtain ⟨cx, vx, _⟩ := hb.chain
  have x0 : x ≠ 0 := by have := vx.1; omega
  have loop : ∀ fuel, validateLoop fatal rejects h b fuel x = .hang := by
    intro fuel
    induction fuel with
    | zero => rfl
    | succ n ih => simp [validateLoop, get_ok hb.valid, hb.last y hy, get_ok vy, hend, x0, get_ok vx, hx, ih]
  unfold validateBody
  simp only [get_ok hb.valid, Res.ok_bind, hr, cx, loop]

/-- C33 fails: no body of any kind is ever reported valid. -/
theorem C33_never_true_refuted (fatal : Bool) (fuel : Nat) (h : Heap) (b : Nat) : validateBody fatal fuel h b ≠ .ok true := by
  have loop : ∀ (rejects : CodeType → Bool) fuel e, validateLoop fatal rejects h b fuel e ≠ .ok true := by
    intro rejects fuel
    induction fuel with
    | zero => intro e he; cases he
    | succ n ih =>
      intro e he
      unfold validateLoop at he
      obtain ⟨_, _, he⟩ := Res.bind_eq_ok.1 he
      obtain ⟨_, _, he⟩ := Res.bind_eq_ok.1 he
      split at he
      · cases he
      · obtain ⟨_, _, he⟩ := Res.bind_eq_ok.1 he
        split at he
        · split at he <;> cases he
        · exact ih e he
  intro he
  unfold validateBody at he
  obtain ⟨s, _, he⟩ := Res.bind_eq_ok.1 he
  split at he
  · split at he <;> cases he
  · exact loop _ _ _ he

/-- C33 fails: an empty body makes the call access a null pointer. -/
theorem C33_empty_refuted (fatal : Bool) {h : Heap} {b : Nat} (hb : IsBody h b []) (hback : (h.cell b).back = 0)
    (rejects : CodeType → Bool) (hr : validateRejects (h.cell b).type = some rejects) (fuel : Nat) :
    validateBody fatal (fuel + 1) h b = .ub := by
  unfold validateBody
  simp only [get_ok hb.valid, Res.ok_bind, hr, validateLoop, hback, get_null, Res.ub_bind]

/-- The hypotheses above are met by the two-entry body of C21. -/
example : ∃ h, twoEntries = .ok h ∧ IsBody h 1 [2, 3] ∧ validateBody true 1000 h 1 = .hang := by
  obtain ⟨h, e, hb, hend⟩ := twoEntries_isBody
  refine ⟨h, e, hb, ?_⟩
  injection e with e
  exact C33_hangs_refuted true hb _ (by subst e; rfl) (by subst e; decide) 3 rfl hend 1000

end Verif.Ast
