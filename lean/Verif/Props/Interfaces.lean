import Verif.Props.Equal
import Verif.Props.Operators
/-!
# Property C29: adding interfaces to a class that has a parent
-/
namespace Verif.Ast

theorem NullChain.lastSlot {h : Heap} : ∀ {l : List Nat} {p : Nat} (x : Nat) (fuel : Nat), NullChain h p (l ++ [x]) → l.length < fuel →
    Ast.lastSlot h fuel p = .ok x
  | [], p, x, fuel + 1, c, _ => by
    obtain ⟨c1, c2, c3⟩ := c
    subst c1
    simp only [Ast.lastSlot, get_ok c2, Res.ok_bind]
    rw [if_pos (show (h.cell p).back = 0 from c3)]
  | y :: l, p, x, fuel + 1, c, hf => by
    obtain ⟨c1, c2, c3⟩ := c
    subst c1
    have hb : (h.cell p).back ≠ 0 := by
      cases l with
      | nil => obtain ⟨e, v, _⟩ := c3; have := v.1; omega
      | cons z l => obtain ⟨e, v, _⟩ := c3; have := v.1; omega
    simp only [Ast.lastSlot, get_ok c2, Res.ok_bind]
    rw [if_neg hb]
    exact NullChain.lastSlot x fuel c3 (by simpa using hf)

theorem NullChain.valid {h : Heap} : ∀ {l : List Nat} {p : Nat}, NullChain h p l → ∀ q ∈ l, h.Valid q
  | _ :: _, _, ⟨_, v, c⟩, q, hq => by
    rcases List.mem_cons.1 hq with e | hq
    · subst e; exact v
    · exact c.valid q hq

/-- Chains only depend on the `Next` of their members. -/
theorem NullChain.congr {h h' : Heap} (hv : ∀ q, h.Valid q → h'.Valid q) : ∀ {l : List Nat} {p : Nat},
    (∀ q ∈ l, (h'.cell q).back = (h.cell q).back) → NullChain h p l → NullChain h' p l
  | [], _, _, c => c
  | q :: l, p, hb, ⟨c1, c2, c3⟩ => by
    refine ⟨c1, hv _ c2, ?_⟩
    rw [hb q List.mem_cons_self]
    exact NullChain.congr hv (fun r hr => hb r (List.mem_cons_of_mem _ hr)) c3

/-- Appending at the end of a chain. -/
theorem NullChain.snoc {h h' : Heap} (hv : ∀ q, h.Valid q → h'.Valid q) {y : Nat} (vy : h'.Valid y) (by0 : (h'.cell y).back = 0) :
    ∀ {l : List Nat} {p x : Nat}, (∀ q ∈ l, (h'.cell q).back = (h.cell q).back) → (h'.cell x).back = y → NullChain h p (l ++ [x]) →
    NullChain h' p (l ++ [x] ++ [y])
  | [], p, x, _, hx, ⟨c1, c2, c3⟩ => ⟨c1, hv _ c2, by simpa using hx, vy, by0⟩
  | q :: l, p, x, hb, hx, ⟨c1, c2, c3⟩ => by
    refine ⟨c1, hv _ c2, ?_⟩
    rw [hb q List.mem_cons_self]
    exact NullChain.snoc hv vy by0 (fun r hr => hb r (List.mem_cons_of_mem _ hr)) hx c3

/-- C29: adding an interface to a class or struct with a parent: the interface goes after the parent and the interfaces already
there, the inheritance becomes public, and nothing else changes. -/
theorem C29_add_interface {h : Heap} {self y : Nat} {l : List Nat} {fuel : Nat} (vs : h.Valid self) (vy : h.Valid y)
    (hl : l ≠ []) (hd : l.Nodup) (hc : NullChain h (h.cell self).typ l) (hy : y ∉ l) (hs : self ∉ l) (hsy : self ≠ y) (hy0 : (h.cell y).back = 0)
    (hf : l.length ≤ fuel) :
    ∃ h', addInterface fuel h self y = .ok h' ∧ NullChain h' (h.cell self).typ (l ++ [y]) ∧
      h'.cell self = { h.cell self with num := 3 } ∧
      (∀ q, h'.Valid q ↔ h.Valid q) ∧
      (∀ q, q ≠ self → q ∉ l → h'.cell q = h.cell q) ∧
      (∀ q ∈ l, h'.cell q = { h.cell q with back := (h'.cell q).back }) := by
  have s0 : self ≠ 0 := by have := vs.1; omega
  have y0 : y ≠ 0 := by have := vy.1; omega
  obtain ⟨m, x, rfl⟩ : ∃ m x, l = m ++ [x] := ⟨l.dropLast, l.getLast hl, (List.dropLast_concat_getLast hl).symm⟩
  have t0 : (h.cell self).typ ≠ 0 := by
    cases m with
    | nil => obtain ⟨e, v, _⟩ := hc; have := v.1; omega
    | cons z m => obtain ⟨e, v, _⟩ := hc; have := v.1; omega
  let h1 : Heap := { h with cell := fun q => if q = self then { h.cell self with num := 3 } else h.cell q }
  have u1 : h.upd self (fun n => { n with num := 3 }) = .ok h1 := upd_ok vs _
  have hc1 : NullChain h1 (h.cell self).typ (m ++ [x]) := hc.congr (h := h) (h' := h1) (fun q (v : h.Valid q) => show h1.Valid q from v) (by
    intro q hq
    show (if q = self then _ else h.cell q : Node).back = _
    rw [if_neg (by rintro rfl; exact hs hq)])
  have ls := hc1.lastSlot x fuel (by simp at hf; omega)
  have vx : h1.Valid x := hc1.valid x (by simp)
  have xs : x ≠ self := by rintro rfl; exact hs (by simp)
  have xy : x ≠ y := by rintro rfl; exact hy (by simp)
  let h2 : Heap := { h1 with cell := fun q => if q = x then { h1.cell x with back := y } else h1.cell q }
  have u2 : h1.upd x (fun n => { n with back := y }) = .ok h2 := upd_ok vx _
  have xm : x ∉ m := by
    intro hx
    rw [List.nodup_append] at hd
    exact hd.2.2 x hx x (by simp) rfl
  refine ⟨h2, ?_, ?_, ?_, fun q => Iff.rfl, ?_, ?_⟩
  · unfold addInterface
    rw [Res.assert_true s0, Res.ok_bind, Res.assert_true y0, Res.ok_bind, get_ok vs, Res.ok_bind]
    show ((if (h.cell self).typ ≠ 0 then _ else _ : Res Heap).bind _) = _
    rw [if_pos t0, u1, Res.ok_bind, ls, Res.ok_bind, u2]
  · refine hc1.snoc (h := h1) (h' := h2) (fun q (v : h1.Valid q) => show h2.Valid q from v) (show h2.Valid y from vy) ?_ ?_ ?_
    · show (if y = x then _ else (if y = self then _ else h.cell y) : Node).back = 0
      rw [if_neg (Ne.symm xy), if_neg (Ne.symm hsy)]; exact hy0
    · intro q hq
      show (if q = x then _ else h1.cell q : Node).back = _
      rw [if_neg (by rintro rfl; exact xm hq)]
    · show (if x = x then _ else h1.cell x : Node).back = y
      rw [if_pos rfl]
  · show (if self = x then _ else (if self = self then _ else h.cell self) : Node) = _
    rw [if_neg (Ne.symm xs), if_pos rfl]
  · intro q hq hql
    show (if q = x then _ else (if q = self then _ else h.cell q) : Node) = _
    rw [if_neg (by rintro rfl; exact hql (by simp)), if_neg hq]
  · intro q hq
    have hqs : q ≠ self := by rintro rfl; exact hs hq
    by_cases hqx : q = x
    · subst hqx
      have e : h2.cell q = { h.cell q with back := y } := by
        show (if q = q then ({ (if q = self then _ else h.cell q : Node) with back := y } : Node) else h1.cell q) = _
        rw [if_pos rfl, if_neg hqs]
      rw [e]
    · have e : h2.cell q = h.cell q := by
        show (if q = x then _ else (if q = self then _ else h.cell q) : Node) = _
        rw [if_neg hqx, if_neg hqs]
      rw [e]

/-- C29: any list of distinct fresh typenames given as interfaces to a class that has a parent: they follow the parent, in order, and
nothing else changes. -/
theorem C29_add_interfaces {fuel self : Nat} : ∀ (is : List Nat) {h : Heap} {l : List Nat}, h.Valid self →
    (∀ y ∈ is, h.Valid y ∧ (h.cell y).back = 0) → l ≠ [] → (l ++ is).Nodup → self ∉ l ++ is →
    NullChain h (h.cell self).typ l → (l ++ is).length ≤ fuel →
    ∃ h', addInterfaces fuel h self is = .ok h' ∧ NullChain h' (h.cell self).typ (l ++ is) ∧
      h'.cell self = { h.cell self with num := if is = [] then (h.cell self).num else 3 } ∧
      (∀ q, h'.Valid q ↔ h.Valid q) ∧
      (∀ q, q ≠ self → q ∉ l ++ is → h'.cell q = h.cell q) ∧
      (∀ q ∈ l ++ is, h'.cell q = { h.cell q with back := (h'.cell q).back })
  | [], h, l, _, _, _, _, _, hc, _ => ⟨h, rfl, by simpa using hc, by simp, fun _ => Iff.rfl, fun _ _ _ => rfl, fun _ _ => rfl⟩
  | y :: is, h, l, vs, hv, hl, hd, hs, hc, hf => by
    have hd' : (l ++ [y] ++ is).Nodup := by simpa using hd
    have hs' : self ∉ l ++ [y] ++ is := by simpa using hs
    have d1 := (List.nodup_append.1 hd')
    obtain ⟨dl, dy, dly⟩ := List.nodup_append.1 d1.1
    have yl : y ∉ l := fun hm => dly y hm y (by simp) rfl
    have sl : self ∉ l := fun hm => hs (List.mem_append_left _ hm)
    have sy : self ≠ y := by rintro rfl; exact hs (by simp)
    obtain ⟨h', e, c, es, ev, eo, ek⟩ := C29_add_interface (fuel := fuel) vs (hv y List.mem_cons_self).1 hl dl hc yl sl sy
      (hv y List.mem_cons_self).2 (by simp at hf; omega)
    have et : (h'.cell self).typ = (h.cell self).typ := by rw [es]
    obtain ⟨h'', e2, c2, es2, ev2, eo2, ek2⟩ := C29_add_interfaces is (h := h') (l := l ++ [y]) ((ev self).2 vs) (by
        intro z hz
        have hzl : z ∉ l := fun hm => d1.2.2 z (by simp [hm]) z hz rfl
        have hzs : z ≠ self := by rintro rfl; exact hs' (List.mem_append_right _ hz)
        rw [eo z hzs hzl]
        exact ⟨(ev z).2 (hv z (List.mem_cons_of_mem _ hz)).1, (hv z (List.mem_cons_of_mem _ hz)).2⟩)
      (by simp) hd' hs' (by rw [et]; exact c) (by simpa using hf)
    refine ⟨h'', ?_, by rw [et] at c2; simpa using c2, ?_, fun q => (ev2 q).trans (ev q), ?_, ?_⟩
    · rw [addInterfaces, e, Res.ok_bind, e2]
    · rw [es2, es]
      by_cases h0 : is = [] <;> simp [h0]
    · intro q hq hm
      have hm' : q ∉ l ++ [y] ++ is := by simpa using hm
      rw [eo2 q hq hm', eo q hq fun hh => hm (List.mem_append_left _ hh)]
    · intro q hq
      have hq' : q ∈ l ++ [y] ++ is := by simpa using hq
      have hne : q ≠ self := fun hh => hs (hh ▸ hq)
      have h1 := ek2 q hq'
      by_cases hql : q ∈ l
      · rw [h1, ek q hql]
      · rw [h1, eo q hne hql]

/-- The hypotheses are met: a class with a parent and two interfaces. -/
def ifDemo : Heap := { next := 5, cell := fun
  | 1 => { type := .Class, typ := 2, num := 1 }
  | 2 => { type := .Typename, name := b!"Base" }
  | 3 => { type := .Typename, name := b!"I" }
  | 4 => { type := .Typename, name := b!"J" }
  | _ => {} }

example : ∃ h', addInterfaces 9 ifDemo 1 [3, 4] = .ok h' ∧ NullChain h' 2 [2, 3, 4] ∧ (h'.cell 1).num = 3 := by
  obtain ⟨h', e, c, es, -⟩ := C29_add_interfaces (fuel := 9) (self := 1) [3, 4] (h := ifDemo) (l := [2]) (by decide) (by decide) (by decide)
    (by decide) (by decide) ⟨rfl, by decide, rfl⟩ (by decide)
  exact ⟨h', e, c, by rw [es]; rfl⟩

end Verif.Ast
