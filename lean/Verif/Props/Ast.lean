import Verif.Model.Ast
/-!
# Properties C20, C21, C22, C44: specifier lists, bodies, parameter lists, duplication
-/
namespace Verif.Ast

/-! ## Heap basics -/

theorem get_ok {h : Heap} {p : Nat} (v : h.Valid p) : h.get p = .ok (h.cell p) := if_pos v
theorem upd_ok {h : Heap} {p : Nat} (v : h.Valid p) (f : Node → Node) :
    h.upd p f = .ok { h with cell := fun q => if q = p then f (h.cell p) else h.cell q } := if_pos v
theorem get_null {h : Heap} : h.get 0 = .ub := if_neg (fun v => Nat.lt_irrefl _ v.1)

/-- What a node says apart from its place in lists: everything but `Prev`/`Front`/`Last`, `Next`/`Back` and `Parent`. -/
def Node.payload (n : Node) : Node := { n with front := 0, back := 0, parent := 0 }

/-- C44: `code_duplicate` returns a node that did not exist, equal to the original apart from having no parent; every existing
node, the original included, is unchanged. -/
theorem C44_duplicate (h : Heap) (hn : 0 < h.next) (p : Nat) (v : h.Valid p) :
    ∃ h', duplicate h p = .ok (h.next, h') ∧ h'.Valid h.next ∧ ¬ h.Valid h.next ∧
      h'.cell h.next = { h.cell p with parent := 0 } ∧ (∀ q, h.Valid q → h'.Valid q ∧ h'.cell q = h.cell q) := by
  have hv := v
  obtain ⟨v1, v2⟩ := v
  refine ⟨{ next := h.next + 1, cell := fun q => if q = h.next then { h.cell p with parent := 0 } else h.cell q }, ?_, ?_, ?_, ?_, ?_⟩
  · unfold duplicate
    simp only [Heap.make]
    rw [get_ok (by exact ⟨v1, Nat.lt_succ_of_lt v2⟩)]
    simp only [Res.ok_bind]
    rw [upd_ok (by exact ⟨hn, Nat.lt_succ_self _⟩)]
    simp only [Res.ok_bind]
    congr 3
    funext q
    by_cases hq : q = h.next
    · simp [hq, Nat.ne_of_lt v2]
    · simp [hq]
  · exact ⟨hn, Nat.lt_succ_self _⟩
  · exact fun w => Nat.lt_irrefl _ w.2
  · simp
  · intro q w
    exact ⟨⟨w.1, Nat.lt_succ_of_lt w.2⟩, if_neg (Nat.ne_of_lt w.2)⟩

/-! ## Bodies -/

/-- Following `Next` from `p` visits the nodes `l`. -/
def Chain (h : Heap) : Nat → List Nat → Prop
  | _, [] => True
  | p, q :: l => p = q ∧ h.Valid q ∧ Chain h (h.cell q).back l

/-- `b` is a body holding the entries `l`. -/
structure IsBody (h : Heap) (b : Nat) (l : List Nat) : Prop where
  next : 0 < h.next
  valid : h.Valid b
  count : (h.cell b).num = l.length
  chain : Chain h (h.cell b).front l
  first : l = [] → (h.cell b).front = 0
  last : ∀ x, l.getLast? = some x → (h.cell b).back = x
  parents : ∀ e ∈ l, (h.cell e).parent = b
  self : b ∉ l
  nodup : l.Nodup

theorem Chain.valid {h : Heap} : ∀ {p : Nat} {l : List Nat}, Chain h p l → ∀ e ∈ l, h.Valid e
  | _, [], _, e, he => by cases he
  | p, q :: l, c, e, he => by
    obtain ⟨c1, c2, c3⟩ := c
    rcases List.mem_cons.1 he with r | r
    · rw [r]; exact c2
    · exact Chain.valid c3 e r

/-- A chain survives changes elsewhere, and changes of fields other than `Next` at its nodes. -/
theorem Chain.congr {h h' : Heap} : ∀ {p : Nat} {l : List Nat}, Chain h p l →
    (∀ e ∈ l, h'.Valid e ∧ (h'.cell e).back = (h.cell e).back) → Chain h' p l
  | _, [], _, _ => trivial
  | p, q :: l, ⟨c1, c2, c3⟩, hc => by
    refine ⟨c1, (hc q List.mem_cons_self).1, ?_⟩
    rw [(hc q List.mem_cons_self).2]
    exact Chain.congr c3 fun e he => hc e (List.mem_cons_of_mem _ he)

/-- Extending a chain at the end: the old last node gets a new `Next`. -/
theorem Chain.snoc {h h' : Heap} {o : Nat} (vo : h'.Valid o) : ∀ {p : Nat} {l : List Nat}, Chain h p l → l ≠ [] → l.Nodup →
    (∀ e ∈ l, h'.Valid e) → (∀ e ∈ l, l.getLast? ≠ some e → (h'.cell e).back = (h.cell e).back) →
    (∀ x, l.getLast? = some x → (h'.cell x).back = o) → Chain h' p (l ++ [o])
  | _, [], _, hne, _, _, _, _ => absurd rfl hne
  | p, [q], ⟨c1, c2, _⟩, _, _, hv, _, hl => ⟨c1, hv q List.mem_cons_self, (hl q rfl), vo, trivial⟩
  | p, q :: r :: l, ⟨c1, c2, c3⟩, _, hnd, hv, hb, hl => by
    have hq : (q :: r :: l).getLast? = (r :: l).getLast? := by simp [List.getLast?_cons]
    refine ⟨c1, hv q List.mem_cons_self, ?_⟩
    have hne : (q :: r :: l).getLast? ≠ some q := by
      rw [hq]
      intro e
      have : q ∈ r :: l := List.mem_of_getLast? e
      exact (List.nodup_cons.1 hnd).1 this
    rw [hb q List.mem_cons_self hne]
    exact Chain.snoc vo c3 (by simp) (List.nodup_cons.1 hnd).2 (fun e he => hv e (List.mem_cons_of_mem _ he))
      (fun e he hne => hb e (List.mem_cons_of_mem _ he) (by rw [hq]; exact hne))
      (fun x hx => hl x (by rw [hq]; exact hx))

theorem walk_chain {h : Heap} : ∀ {p : Nat} {l : List Nat}, Chain h p l → walk h l.length p = .ok l
  | _, [], _ => rfl
  | p, q :: l, ⟨c1, c2, c3⟩ => by
    subst c1
    simp only [List.length_cons, walk, get_ok c2, Res.ok_bind, walk_chain c3]

/-- A body's counted walk gives its entries. -/
theorem IsBody.entries_eq {h : Heap} {b : Nat} {l : List Nat} (hb : IsBody h b l) : entries h b = .ok l := by
  unfold entries
  rw [get_ok hb.valid, Res.ok_bind, hb.count]
  exact walk_chain hb.chain

/-- What one append leaves behind: the new entry `o`, a copy of `other` or `other` itself. -/
structure Appended (h h' : Heap) (b other o : Nat) (l : List Nat) : Prop where
  fresh : o = if (h.cell other).parent = 0 then other else h.next
  grow : h.next ≤ h'.next
  node : (h'.cell o).payload = (h.cell other).payload
  oback : (h'.cell o).back = (h.cell other).back
  prev : ∀ x, l.getLast? = some x → (h'.cell o).front = x
  notBody : o ≠ b
  notOld : o ∉ l
  frame : ∀ q, h.Valid q → q ≠ b → q ≠ o → (h'.cell q) = { h.cell q with back := if l.getLast? = some q then o else (h.cell q).back }
  same : ∀ q, h.Valid q → q ≠ b → (h'.cell q).payload = (h.cell q).payload
  bodyPayload : (h'.cell b).payload = { (h.cell b).payload with num := (h.cell b).num + 1 } ∧ (h'.cell b).parent = (h.cell b).parent

theorem append_spec {h : Heap} {b other : Nat} {l : List Nat} (hb : IsBody h b l) (vo : h.Valid other) (hne : other ≠ b) :
    ∃ h' o, append h b other = .ok h' ∧ IsBody h' b (l ++ [o]) ∧ Appended h h' b other o l := by
  -- first the duplication, if any
  have key : ∃ h1 o, (if (h.cell other).parent ≠ 0 then duplicate h other else .ok (other, h)) = .ok (o, h1) ∧
      o = (if (h.cell other).parent = 0 then other else h.next) ∧ h.next ≤ h1.next ∧ h1.Valid o ∧
      h1.cell o = { h.cell other with parent := 0 } ∧ (∀ q, h.Valid q → h1.Valid q ∧ h1.cell q = h.cell q) ∧ o ≠ b ∧ o ∉ l := by
    by_cases hp : (h.cell other).parent = 0
    · refine ⟨h, other, by simp [hp], by simp [hp], Nat.le_refl _, vo, ?_, fun q w => ⟨w, rfl⟩, hne, ?_⟩
      · rw [← hp]
      · intro hm
        have := hb.parents _ hm
        have hv := hb.valid.1
        omega
    · obtain ⟨h1, e1, e2, e3, e4, e5⟩ := C44_duplicate h hb.next other vo
      refine ⟨h1, h.next, by simp [hp, e1], by simp [hp], Nat.le_of_lt ?_, e2, e4, e5, ?_, ?_⟩
      · exact e2.2
      · intro e; exact e3 (e ▸ hb.valid)
      · intro hm; exact e3 (hb.chain.valid _ hm)
  obtain ⟨h1, o, e1, ho, hgrow, vo1, co, hold, hob, hol⟩ := key
  have hvb := hold b hb.valid
  have hvl : ∀ e ∈ l, h1.Valid e ∧ h1.cell e = h.cell e := fun e he => hold e (hb.chain.valid e he)
  unfold append
  rw [Res.assert_true (Nat.ne_of_gt hb.valid.1), Res.ok_bind, Res.assert_true (Nat.ne_of_gt vo.1), Res.ok_bind,
    Res.assert_true (Ne.symm hne), Res.ok_bind, get_ok vo, Res.ok_bind, e1, Res.ok_bind]
  simp only []
  rw [upd_ok vo1, Res.ok_bind, get_ok (by exact hvb.1), Res.ok_bind]
  simp only [if_neg (Ne.symm hob), hvb.2]
  by_cases hl : l = []
  · subst hl
    have hf := hb.first rfl
    rw [if_pos hf, upd_ok (by exact hvb.1)]
    refine ⟨_, o, rfl, ?_, ?_⟩
    · refine ⟨Nat.lt_of_lt_of_le hb.next hgrow, hvb.1, ?_, ?_, ?_, ?_, ?_, ?_, ?_⟩
      · simp [Ne.symm hob, hvb.2, hb.count]
      · exact ⟨by simp, vo1, trivial⟩
      · intro e; simp at e
      · intro x hx
        simp at hx ⊢
        exact hx
      · intro e he
        simp at he; subst he; simp [hob]
      · simp [Ne.symm hob]
      · simp
    · refine ⟨ho, hgrow, ?_, ?_, ?_, hob, by simp, ?_, ?_, ?_⟩
      · simp [hob, co, Node.payload]
      · simp [hob, co]
      · intro x hx; simp at hx
      · intro q hq hqb hqo
        simp [hqb, hqo, (hold q hq).2]
      · intro q hq hqb
        by_cases hqo : q = o
        · subst hqo
          have : h1.cell q = h.cell q := (hold q hq).2
          simp [hob, Node.payload, this]
        · simp [hqb, hqo, (hold q hq).2]
      · simp [Node.payload, Ne.symm hob, hvb.2]
  · have hlast : ∃ x, l.getLast? = some x := by
      cases hx : l.getLast? with
      | none => exact absurd (List.getLast?_eq_none_iff.1 hx) hl
      | some x => exact ⟨x, rfl⟩
    obtain ⟨x, hx⟩ := hlast
    have hxm : x ∈ l := List.mem_of_getLast? hx
    have hf : (h.cell b).front ≠ 0 := by
      cases l with
      | nil => exact absurd rfl hl
      | cons a l => obtain ⟨c1, c2, _⟩ := hb.chain; rw [c1]; exact Nat.ne_of_gt c2.1
    have hxb : x ≠ b := fun e => hb.self (e ▸ hxm)
    have hxo : x ≠ o := fun e => hol (e ▸ hxm)
    rw [if_neg hf, hb.last x hx]
    rw [upd_ok (by exact (hvl x hxm).1), Res.ok_bind, upd_ok (by exact vo1), Res.ok_bind, upd_ok (by exact hvb.1)]
    refine ⟨_, o, rfl, ?_, ?_⟩
    · refine ⟨Nat.lt_of_lt_of_le hb.next hgrow, hvb.1, ?_, ?_, ?_, ?_, ?_, ?_, ?_⟩
      · simp [Ne.symm hob, Ne.symm hxb, hvb.2, hb.count]
      · simp only [if_true, if_neg (Ne.symm hob), if_neg (Ne.symm hxb), hvb.2]
        refine Chain.snoc (by exact vo1) hb.chain hl hb.nodup (fun e he => (hvl e he).1) ?_ ?_
        · intro e he hne
          have heb : e ≠ b := fun e' => hb.self (e' ▸ he)
          have heo : e ≠ o := fun e' => hol (e' ▸ he)
          have hex : e ≠ x := fun e' => hne (e' ▸ hx)
          simp [heb, heo, hex, (hvl e he).2]
        · intro y hy
          rw [hx] at hy
          cases hy
          simp [hxb, hxo]
      · intro e; simp at e
      · intro y hy
        simp at hy
        simp [hy]
      · intro e he
        rcases List.mem_append.1 he with he | he
        · have heb : e ≠ b := fun e' => hb.self (e' ▸ he)
          have heo : e ≠ o := fun e' => hol (e' ▸ he)
          by_cases hex : e = x
          · subst hex
            simp [heb, heo, (hvl e he).2, hb.parents e he]
          · simp [heb, heo, hex, (hvl e he).2, hb.parents e he]
        · simp at he; subst he; simp [hob, Ne.symm hxo]
      · simp [Ne.symm hob, hb.self]
      · exact List.nodup_append.2 ⟨hb.nodup, by simp, by
          intro a ha c hc; simp at hc; subst hc; exact fun e => hol (e ▸ ha)⟩
    · refine ⟨ho, hgrow, ?_, ?_, ?_, hob, hol, ?_, ?_, ?_⟩
      · simp [hob, Ne.symm hxo, co, Node.payload]
      · simp [hob, Ne.symm hxo, co]
      · intro y hy
        rw [hx] at hy; cases hy
        simp [hob]
      · intro q hq hqb hqo
        by_cases hqx : q = x
        · subst hqx
          simp [hqb, hqo, hx, (hold q hq).2]
        · simp [hqb, hqo, hqx, hx, Ne.symm hqx, (hold q hq).2]
      · intro q hq hqb
        by_cases hqo : q = o
        · subst hqo
          have : h1.cell q = h.cell q := (hold q hq).2
          simp [hob, Node.payload, this, Ne.symm hxo]
        · by_cases hqx : q = x
          · subst hqx; simp [hqb, hqo, (hold q hq).2, Node.payload]
          · simp [hqb, hqo, hqx, (hold q hq).2]
      · simp [Node.payload, Ne.symm hob, Ne.symm hxb, hvb.2]

/-- One append after the other. -/
def appendAll (fuel : Nat) (h : Heap) (b : Nat) : List Nat → Res Heap
  | [] => .ok h
  | o :: os => (bodyAppend fuel h b o).bind fun h => appendAll fuel h b os

theorem bodyAppend_plain {fuel : Nat} {h : Heap} {b o : Nat} (vb : b ≠ 0) (vo : h.Valid o) (ht : isBodyType (h.cell o).type = false) :
    bodyAppend fuel h b o = append h b o := by
  rw [bodyAppend, bodyAppendWith, Res.assert_true vb, Res.ok_bind, Res.assert_true (Nat.ne_of_gt vo.1), Res.ok_bind, get_ok vo, Res.ok_bind, ht]
  rfl

theorem payload_type {n m : Node} (h : n.payload = m.payload) : n.type = m.type := by
  show n.payload.type = m.payload.type
  rw [h]

/-- C21: `def_body` of a body kind gives an empty body. -/
theorem C21_def_body (h : Heap) (hn : 0 < h.next) (t : CodeType) (ht : defBodyAllowed t = true) :
    ∃ b h', defBody h t = .ok (some (b, h')) ∧ IsBody h' b [] ∧ (h'.cell b).type = t ∧ ¬ h.Valid b ∧
      ∀ q, h.Valid q → h'.Valid q ∧ h'.cell q = h.cell q := by
  refine ⟨h.next, _, by rw [defBody, if_pos ht]; simp only [Heap.make]; rw [upd_ok (by exact ⟨hn, Nat.lt_succ_self _⟩)]; rfl, ?_, ?_, ?_, ?_⟩
  · refine ⟨Nat.succ_pos _, ⟨hn, Nat.lt_succ_self _⟩, ?_, trivial, ?_, ?_, ?_, ?_, List.nodup_nil⟩ <;> simp
  · simp
  · exact fun w => Nat.lt_irrefl _ w.2
  · intro q w
    exact ⟨⟨w.1, Nat.lt_succ_of_lt w.2⟩, by simp [Nat.ne_of_lt w.2]⟩

/-- C21: appending any sequence of (non-body) codes to a body, the same code several times included: the body then holds, after
what it held before, one entry per appended code in append order; entry `i` says what the code appended at step `i` said; the
count is the number of entries; every entry has the body as parent; a code that had no parent is entered itself and one that
had a parent is entered as a new copy; nothing that existed says anything else than before. -/
theorem C21_append_all (fuel : Nat) (b : Nat) : ∀ (os : List Nat) (h : Heap) (l : List Nat), IsBody h b l →
    (∀ o ∈ os, h.Valid o ∧ o ≠ b ∧ isBodyType (h.cell o).type = false) →
    ∃ h' l', appendAll fuel h b os = .ok h' ∧ entries h' b = .ok (l ++ l') ∧ (h'.cell b).num = l.length + os.length ∧
      l'.map (fun e => (h'.cell e).payload) = os.map (fun o => (h.cell o).payload) ∧
      (∀ e ∈ l ++ l', (h'.cell e).parent = b) ∧ (l ++ l').Nodup ∧
      (∀ q, h.Valid q → q ≠ b → (h'.cell q).payload = (h.cell q).payload) ∧
      (∀ e ∈ l', e ∈ os ∧ (h.cell e).parent = 0 ∨ h.next ≤ e) ∧ IsBody h' b (l ++ l')
  | [], h, l, hb, _ => ⟨h, [], rfl, by simpa using hb.entries_eq, by simp [hb.count], rfl, by simpa using hb.parents,
      by simpa using hb.nodup, fun _ _ _ => rfl, by simp, by simpa using hb⟩
  | o :: os, h, l, hb, ho => by
    obtain ⟨vo, hob, ht⟩ := ho o List.mem_cons_self
    obtain ⟨h1, o1, e1, hb1, ha⟩ := append_spec hb vo hob
    have hval : ∀ q, h.Valid q → h1.Valid q := fun q w => ⟨w.1, Nat.lt_of_lt_of_le w.2 ha.grow⟩
    obtain ⟨h2, l2, f1, f2, f3, f4, f5, f6, f7, f8, f9⟩ := C21_append_all fuel b os h1 (l ++ [o1]) hb1 (fun x hx => by
      obtain ⟨v, w, t⟩ := ho x (List.mem_cons_of_mem _ hx)
      exact ⟨hval x v, w, by rw [payload_type (ha.same x v w)]; exact t⟩)
    have vo1 : h1.Valid o1 := hb1.chain.valid _ (by simp)
    refine ⟨h2, o1 :: l2, ?_, ?_, ?_, ?_, ?_, ?_, ?_, ?_, ?_⟩
    · rw [appendAll, bodyAppend_plain (Nat.ne_of_gt hb.valid.1) vo ht, e1, Res.ok_bind, f1]
    · simpa using f2
    · rw [f3]; simp; omega
    · rw [List.map_cons, List.map_cons, f4, f7 o1 vo1 ha.notBody, ha.node]
      congr 1
      apply List.map_congr_left
      intro x hx
      obtain ⟨v, w, t⟩ := ho x (List.mem_cons_of_mem _ hx)
      exact ha.same x v w
    · simpa using f5
    · simpa using f6
    · intro q w hq
      rw [f7 q (hval q w) hq, ha.same q w hq]
    · intro e he
      rcases List.mem_cons.1 he with r | r
      · subst r
        rw [ha.fresh]
        by_cases hp : (h.cell o).parent = 0
        · left; simp [hp]
        · right; simp [hp]
      · rcases f8 e r with ⟨g1, g2⟩ | g
        · left
          obtain ⟨v, w, t⟩ := ho e (List.mem_cons_of_mem _ g1)
          refine ⟨List.mem_cons_of_mem _ g1, ?_⟩
          have heo : e ≠ o1 := by
            intro e'; subst e'
            have := hb1.parents e (by simp)
            rw [this] at g2
            exact absurd g2 (Nat.ne_of_gt hb.valid.1)
          have := ha.frame e v w heo
          rw [this] at g2
          exact g2
        · right; exact Nat.le_trans ha.grow g
    · simpa using f9

/-- C21: appending a body appends copies of its entries, in order, and leaves that body as it was. The conditions: the
appended body is not empty, is not the receiving one, neither contains the other, holds no bodies, and what its last entry's
`Next` says (null, unless that entry was copied out of another list) is not one of its own entries. -/
theorem C21_append_body {h : Heap} {b c : Nat} {l m : List Nat} (hb : IsBody h b l) (hc : IsBody h c m) (hbc : b ≠ c)
    (hbm : b ∉ m) (hcl : c ∉ l) (ht : ∀ e ∈ m, isBodyType (h.cell e).type = false) (htc : isBodyType (h.cell c).type = true)
    (x : Nat) (hx : m.getLast? = some x) (hend : (h.cell x).back ∉ m) (fuel : Nat) (hfuel : m.length < fuel) :
    ∃ h' l', bodyAppend fuel h b c = .ok h' ∧ IsBody h' b (l ++ l') ∧ entries h' b = .ok (l ++ l') ∧ entries h' c = .ok m ∧
      l'.map (fun e => (h'.cell e).payload) = m.map (fun o => (h.cell o).payload) ∧
      (∀ q, h.Valid q → q ≠ b → (h'.cell q).payload = (h.cell q).payload) := by
  have main : ∀ (m2 m1 l : List Nat) (h : Heap) (fuel : Nat), IsBody h b l → IsBody h c (m1 ++ m2) → c ∉ l → b ∉ m1 ++ m2 →
      (∀ e ∈ m1 ++ m2, isBodyType (h.cell e).type = false) → (m1 ++ m2).getLast? = some x → (h.cell x).back ∉ m1 ++ m2 →
      m2.length < fuel →
      ∃ h' l', bodyAppendLoop fuel h b c (m2.head?.getD (h.cell x).back) = .ok h' ∧ IsBody h' b (l ++ l') ∧ IsBody h' c (m1 ++ m2) ∧
        l'.map (fun e => (h'.cell e).payload) = m2.map (fun o => (h.cell o).payload) ∧
        (∀ q, h.Valid q → q ≠ b → (h'.cell q).payload = (h.cell q).payload) := by
    intro m2
    induction m2 with
    | nil =>
      intro m1 l h fuel hb hc hcl hbm ht hx hend hfuel
      obtain ⟨f, rfl⟩ : ∃ f, fuel = f + 1 := ⟨fuel - 1, by simp at hfuel; omega⟩
      refine ⟨h, [], ?_, by simpa using hb, hc, rfl, fun _ _ _ => rfl⟩
      have vx : h.Valid x := hc.chain.valid x (List.mem_of_getLast? hx)
      rw [bodyAppendLoop, get_ok hc.valid, Res.ok_bind, hc.last x hx, get_ok vx, Res.ok_bind]
      simp
    | cons e m2 ih =>
      intro m1 l h fuel hb hc hcl hbm ht hx hend hfuel
      obtain ⟨f, rfl⟩ : ∃ f, fuel = f + 1 := ⟨fuel - 1, by simp at hfuel; omega⟩
      have em : e ∈ m1 ++ e :: m2 := by simp
      have xm : x ∈ m1 ++ e :: m2 := List.mem_of_getLast? hx
      have vx : h.Valid x := hc.chain.valid x xm
      have ve : h.Valid e := hc.chain.valid e em
      have heb : e ≠ b := fun e' => hbm (e' ▸ em)
      have hene : e ≠ (h.cell x).back := fun e' => hend (e' ▸ em)
      obtain ⟨h1, o, e1, hb1, ha⟩ := append_spec hb ve heb
      have hpe : (h.cell e).parent = c := hc.parents e em
      have ho : o = h.next := by rw [ha.fresh, hpe, if_neg (Nat.ne_of_gt hc.valid.1)]
      have hval : ∀ q, h.Valid q → h1.Valid q := fun q w => ⟨w.1, Nat.lt_of_lt_of_le w.2 ha.grow⟩
      have hold : ∀ q, h.Valid q → q ≠ b → q ∉ l → h1.cell q = h.cell q := by
        intro q w hq hql
        rw [ha.frame q w hq (by rw [ho]; exact Nat.ne_of_lt w.2), if_neg (fun e' => hql (List.mem_of_getLast? e'))]
      have hml : ∀ q ∈ m1 ++ e :: m2, q ∉ l := by
        intro q hq hql
        have p1 := hc.parents q hq
        have p2 := hb.parents q hql
        exact hbc (p2.symm.trans p1)
      have hm : ∀ q ∈ m1 ++ e :: m2, h1.cell q = h.cell q := fun q hq =>
        hold q (hc.chain.valid q hq) (fun e' => hbm (e' ▸ hq)) (hml q hq)
      have hcc : h1.cell c = h.cell c := hold c hc.valid (Ne.symm hbc) hcl
      have hc1 : IsBody h1 c (m1 ++ e :: m2) :=
        { next := hb1.next, valid := hval c hc.valid, count := by rw [hcc]; exact hc.count
          chain := by
            rw [hcc]
            exact hc.chain.congr fun q hq => ⟨hval q (hc.chain.valid q hq), by rw [hm q hq]⟩
          first := by rw [hcc]; exact hc.first
          last := by rw [hcc]; exact hc.last
          parents := by intro q hq; rw [hm q hq]; exact hc.parents q hq
          self := hc.self, nodup := hc.nodup }
      have happ : m1 ++ e :: m2 = (m1 ++ [e]) ++ m2 := by simp
      have hco : c ≠ o := by rw [ho]; exact Nat.ne_of_lt hc.valid.2
      obtain ⟨h2, l2, f1, f2, f3, f4, f5⟩ := ih (m1 ++ [e]) (l ++ [o]) h1 f hb1 (happ ▸ hc1) (by simp [hcl, hco]) (happ ▸ hbm)
        (by intro q hq; rw [← happ] at hq; rw [hm q hq]; exact ht q hq) (happ ▸ hx)
        (by rw [hm x xm, ← happ]; exact hend) (by simp at hfuel; omega)
      have vo : h1.Valid o := hb1.chain.valid _ (by simp)
      have hne : (h.cell e).back = m2.head?.getD (h.cell x).back := by
        have hch : Chain h e (e :: m2) := by
          have : ∀ {p : Nat} {m1 : List Nat}, Chain h p (m1 ++ e :: m2) → Chain h e (e :: m2) := by
            intro p m1
            induction m1 generalizing p with
            | nil => intro c; exact c.1 ▸ c
            | cons a m1 ih => intro c; exact ih c.2.2
          exact this hc.chain
        cases m2 with
        | nil =>
          have : x = e := by simp at hx; exact hx.symm
          simp [this]
        | cons r m2 => exact hch.2.2.1
      refine ⟨h2, o :: l2, ?_, ?_, ?_, ?_, ?_⟩
      · rw [show (e :: m2).head?.getD (h.cell x).back = e from rfl, bodyAppendLoop, get_ok hc.valid, Res.ok_bind, hc.last x hx,
          get_ok vx, Res.ok_bind, if_neg hene, show bodyAppendWith (bodyAppendLoop f) h b e = bodyAppend f h b e from rfl, bodyAppend_plain (Nat.ne_of_gt hb.valid.1) ve (ht e em), e1, Res.ok_bind,
          Res.assert_true (Nat.ne_of_gt ve.1), Res.ok_bind, get_ok (hval e ve), Res.ok_bind, hm e em, hne]
        rw [hm x xm] at f1
        exact f1
      · simpa using f2
      · simpa using f3
      · rw [List.map_cons, List.map_cons, f4, f5 o vo ha.notBody, ha.node]
        congr 1
        apply List.map_congr_left
        intro q hq
        rw [hm q (by simp [hq])]
      · intro q w hq
        rw [f5 q (hval q w) hq, ha.same q w hq]
  obtain ⟨h', l', g1, g2, g3, g4, g5⟩ := main m [] l h fuel hb (by simpa using hc) hcl (by simpa using hbm) (by simpa using ht)
    (by simpa using hx) (by simpa using hend) hfuel
  refine ⟨h', l', ?_, g2, g2.entries_eq, by simpa using g3.entries_eq, g4, g5⟩
  rw [bodyAppend, bodyAppendWith, Res.assert_true (Nat.ne_of_gt hb.valid.1), Res.ok_bind, Res.assert_true (Nat.ne_of_gt hc.valid.1), Res.ok_bind,
    get_ok hc.valid, Res.ok_bind, if_pos htc]
  rw [bodyAppendBodyWith, Res.assert_true (Nat.ne_of_gt hb.valid.1), Res.ok_bind, Res.assert_true (Nat.ne_of_gt hc.valid.1), Res.ok_bind,
    Res.assert_true hbc, Res.ok_bind, get_ok hc.valid, Res.ok_bind]
  have : (h.cell c).front = m.head?.getD (h.cell x).back := by
    cases m with
    | nil => simp at hx
    | cons a m => exact hc.chain.1
  rw [this]
  exact g1

/-- C21: `for`-iteration over a body visits exactly its entries, in order, when the last entry's `Next` is not itself an entry. -/
theorem C21_iteration {h : Heap} {b : Nat} {l : List Nat} (hb : IsBody h b l) (x : Nat) (hx : l.getLast? = some x)
    (hend : (h.cell x).back ∉ l) (fuel : Nat) (hf : l.length < fuel) : iterBody fuel h b (h.cell b).front = .ok l := by
  have vx : h.Valid x := hb.chain.valid x (List.mem_of_getLast? hx)
  have main : ∀ (l2 : List Nat) (p fuel : Nat), Chain h p l2 → (l2 ≠ [] → l2.getLast? = some x) → (l2 = [] → p = (h.cell x).back) →
      (h.cell x).back ∉ l2 → l2.length < fuel → iterBody fuel h b p = .ok l2 := by
    intro l2
    induction l2 with
    | nil =>
      intro p fuel _ _ hp _ hf
      obtain ⟨f, rfl⟩ : ∃ f, fuel = f + 1 := ⟨fuel - 1, by simp at hf; omega⟩
      rw [iterBody, get_ok hb.valid, Res.ok_bind, hb.last x hx, get_ok vx, Res.ok_bind, if_pos (hp rfl)]
    | cons a l2 ih =>
      intro p fuel hc hl _ hne hf
      obtain ⟨f, rfl⟩ : ∃ f, fuel = f + 1 := ⟨fuel - 1, by simp at hf; omega⟩
      obtain ⟨c1, c2, c3⟩ := hc
      subst c1
      simp only [List.mem_cons, not_or] at hne
      rw [iterBody, get_ok hb.valid, Res.ok_bind, hb.last x hx, get_ok vx, Res.ok_bind, if_neg (Ne.symm hne.1), get_ok c2,
        Res.ok_bind]
      rw [ih _ f c3 ?_ ?_ hne.2 (by simp at hf; omega)]
      · rfl
      · intro h2
        have := hl (by simp)
        cases l2 with
        | nil => exact absurd rfl h2
        | cons r l2 => simpa [List.getLast?_cons] using this
      · intro h2
        subst h2
        have := hl (by simp)
        simp at this
        rw [this]
  exact main l _ fuel hb.chain (fun _ => hx) (fun e => by subst e; simp at hx) hend hf

/-- C21: `code_entry(i)` is entry `i`. -/
theorem C21_entry {h : Heap} {b : Nat} {l : List Nat} (hb : IsBody h b l) (i : Nat) (hi : i < l.length) :
    codeEntry h b i = .ok l[i] := by
  rw [codeEntry, Res.assert_true (Nat.ne_of_gt hb.valid.1), Res.ok_bind, get_ok hb.valid, Res.ok_bind]
  have main : ∀ (l : List Nat) (p i : Nat) (hi : i < l.length), Chain h p l → codeEntry.go h i p = .ok l[i] := by
    intro l
    induction l with
    | nil => intro p i hi; simp at hi
    | cons a l ih =>
      intro p i hi ⟨c1, c2, c3⟩
      subst c1
      cases i with
      | zero => rfl
      | succ i =>
        rw [codeEntry.go, get_ok c2, Res.ok_bind, ih _ i (by simpa using hi) c3]
        rfl
  exact main l _ i hi hb.chain

/-! ### Where bodies do not behave -/

/-- A fresh untyped code with the given content. -/
def newUntyped (h : Heap) (c : Bytes) : Res (Nat × Heap) :=
  let (r, h) := h.make
  (h.upd r fun n => { n with type := .Untyped, content := c, name := c }).bind fun h => .ok (r, h)

/-- A class body (node 1) to which the fresh codes `a` (node 2) and `b` (node 3) were appended. -/
def twoEntries : Res Heap :=
  (defBody .empty .Class_Body).bind fun r => match r with
    | none => .stop
    | some (b, h) => (newUntyped h b!"a").bind fun (x, h) => (newUntyped h b!"b").bind fun (y, h) => appendAll 9 h b [x, y]

/-- Non-vacuity of `IsBody` and of the conditions of `C21_append_all`, `C21_append_body`, `C21_iteration`: the body `1`. -/
theorem twoEntries_isBody : ∃ h, twoEntries = .ok h ∧ IsBody h 1 [2, 3] ∧ (h.cell 3).back = 0 := by
  refine ⟨_, rfl, ⟨?_, ?_, ?_, ?_, ?_, ?_, ?_, ?_, ?_⟩, ?_⟩
  · decide
  · decide
  · rfl
  · exact ⟨rfl, by decide, rfl, by decide, trivial⟩
  · intro e; simp at e
  · intro x hx; simp at hx; subst hx; rfl
  · intro e he
    simp at he
    rcases he with r | r <;> subst r <;> rfl
  · decide
  · decide
  · rfl

example : ∃ h, twoEntries = .ok h ∧ (∀ o ∈ [2, 2, 3], h.Valid o ∧ o ≠ 1 ∧ isBodyType (h.cell o).type = false) ∧
    iterBody 9 h 1 (h.cell 1).front = .ok [2, 3] := by
  refine ⟨_, rfl, by decide, by rfl⟩

/-- C21, refuted for iteration in general: appending an entry of a body to that body again gives a body of three entries over
which the `for` loop visits only one (the copy's `Next` still names the second entry, which is taken for the end). -/
theorem C21_iteration_refuted :
    (twoEntries.bind fun h => (bodyAppend 9 h 1 2).bind fun h =>
      (entries h 1).bind fun l => (h.get 1).bind fun b => (iterBody 9 h 1 b.front).bind fun i => .ok (l, i)) =
    .ok ([2, 3, 4], [2]) := by rfl

/-- C21, refuted for an empty body: appending (or iterating) it dereferences null. -/
theorem C21_empty_body_refuted {h : Heap} {b c : Nat} {l : List Nat} (hb : IsBody h b l) (hc : IsBody h c []) (hbc : b ≠ c)
    (htc : isBodyType (h.cell c).type = true) (h0 : (h.cell c).back = 0) (fuel : Nat) (hf : 0 < fuel) :
    bodyAppend fuel h b c = .ub ∧ iterBody fuel h c (h.cell c).front = .ub := by
  obtain ⟨f, rfl⟩ : ∃ f, fuel = f + 1 := ⟨fuel - 1, by omega⟩
  constructor
  · rw [bodyAppend, bodyAppendWith, Res.assert_true (Nat.ne_of_gt hb.valid.1), Res.ok_bind, Res.assert_true (Nat.ne_of_gt hc.valid.1), Res.ok_bind,
      get_ok hc.valid, Res.ok_bind, if_pos htc]
    rw [bodyAppendBodyWith, Res.assert_true (Nat.ne_of_gt hb.valid.1), Res.ok_bind, Res.assert_true (Nat.ne_of_gt hc.valid.1),
      Res.ok_bind, Res.assert_true hbc, Res.ok_bind, get_ok hc.valid, Res.ok_bind]
    rw [bodyAppendLoop, get_ok hc.valid, Res.ok_bind, h0, get_null]
    rfl
  · rw [iterBody, get_ok hc.valid, Res.ok_bind, h0, get_null]
    rfl

/-- C21, refuted for a body entered through `code_append` (which does not flatten): the body's own first entry is lost, because
`Prev` and `Front` are the same slot. -/
theorem C21_code_append_body_refuted :
    (twoEntries.bind fun h => (defBody h .Struct_Body).bind fun r => match r with
      | none => .stop
      | some (b, h) => (newUntyped h b!"x").bind fun (x, h) => (append h b x).bind fun h => (append h b 1).bind fun h =>
        (entries h 1).bind fun l => .ok (x, l)) = .ok (5, [5, 1]) := by rfl

/-- C44, refuted for bodies as far as independence goes: a duplicated body shares its entries with the original, so appending
first to the copy and then to the original changes what the copy holds. -/
theorem C44_duplicate_body_refuted :
    (twoEntries.bind fun h => (duplicate h 1).bind fun (c, h) => (newUntyped h b!"x").bind fun (x, h) =>
      (newUntyped h b!"y").bind fun (y, h) => (append h c x).bind fun h => (entries h c).bind fun before =>
      (append h 1 y).bind fun h => (entries h c).bind fun after => .ok (x, y, before, after)) =
    .ok (5, 6, [2, 3, 5], [2, 3, 6]) := by rfl

/-! ## Parameter lists -/

/-- `p` is the head of a parameter list: `p` itself and then the entries `l`. -/
structure IsParams (h : Heap) (p : Nat) (l : List Nat) (n : Int) : Prop where
  next : 0 < h.next
  valid : h.Valid p
  count : (h.cell p).num = n
  chain : Chain h (h.cell p).back l
  ends : (h.cell (l.getLast?.getD p)).back = 0
  first : l = [] → (h.cell p).front = 0
  last : ∀ x, l.getLast? = some x → (h.cell p).front = x
  parents : ∀ e ∈ l, (h.cell e).parent = p
  self : p ∉ l
  nodup : l.Nodup

theorem IsParams.iter {h : Heap} {p : Nat} {l : List Nat} {n : Int} (hp : IsParams h p l n) (fuel : Nat) (hf : l.length + 1 < fuel) :
    iterParams fuel h p = .ok (p :: l) := by
  have main : ∀ (l : List Nat) (q fuel : Nat), Chain h q l → l.length < fuel → (l = [] → q = 0) →
      (∀ x, l.getLast? = some x → (h.cell x).back = 0) → iterParams fuel h q = .ok l := by
    intro l
    induction l with
    | nil =>
      intro q fuel _ hf hq _
      obtain ⟨f, rfl⟩ : ∃ f, fuel = f + 1 := ⟨fuel - 1, by omega⟩
      rw [iterParams, if_pos (hq rfl)]
    | cons a l ih =>
      intro q fuel ⟨c1, c2, c3⟩ hf _ hx
      obtain ⟨f, rfl⟩ : ∃ f, fuel = f + 1 := ⟨fuel - 1, by omega⟩
      subst c1
      rw [iterParams, if_neg (Nat.ne_of_gt c2.1), get_ok c2, Res.ok_bind, ih _ f c3 (by simp at hf; omega) ?_ ?_]
      · rfl
      · intro e; subst e; exact hx q rfl
      · intro x hx'
        apply hx
        cases l with
        | nil => simp at hx'
        | cons b l => simpa [List.getLast?_cons] using hx'
  refine main (p :: l) p fuel ⟨rfl, hp.valid, hp.chain⟩ (by simpa using hf) (by simp) ?_
  intro x hx
  have := hp.ends
  simp [List.getLast?_cons] at hx
  rw [hx] at this
  exact this

theorem paramsAppend_spec {h : Heap} {p other : Nat} {l : List Nat} {n : Int} (hb : IsParams h p l n) (vo : h.Valid other)
    (hne : other ≠ p) (hs : (h.cell other).back = 0) :
    ∃ h' o, paramsAppend h p other = .ok h' ∧ IsParams h' p (l ++ [o]) (n + 1) ∧
      o = (if (h.cell other).parent = 0 then other else h.next) ∧ h.next ≤ h'.next ∧ o ≠ p ∧
      (h'.cell o) = { h.cell other with parent := p } ∧
      (∀ q, h.Valid q → q ≠ p → (h'.cell q).payload = (h.cell q).payload) ∧
      (h'.cell p).payload = { (h.cell p).payload with num := n + 1 } ∧
      (∀ q, h.Valid q → q ≠ o → l.getLast?.getD p ≠ q → (h'.cell q).back = (h.cell q).back) ∧
      (∀ q, h.Valid q → q ≠ o → (h'.cell q).parent = (h.cell q).parent) := by
  have key : ∃ h1 o, (if (h.cell other).parent ≠ 0 then duplicate h other else .ok (other, h)) = .ok (o, h1) ∧
      o = (if (h.cell other).parent = 0 then other else h.next) ∧ h.next ≤ h1.next ∧ h1.Valid o ∧
      h1.cell o = { h.cell other with parent := 0 } ∧ (∀ q, h.Valid q → h1.Valid q ∧ h1.cell q = h.cell q) ∧ o ≠ p ∧ o ∉ l := by
    by_cases hp : (h.cell other).parent = 0
    · refine ⟨h, other, by simp [hp], by simp [hp], Nat.le_refl _, vo, ?_, fun q w => ⟨w, rfl⟩, hne, ?_⟩
      · rw [← hp]
      · intro hm
        have := hb.parents _ hm
        have hv := hb.valid.1
        omega
    · obtain ⟨h1, e1, e2, e3, e4, e5⟩ := C44_duplicate h hb.next other vo
      refine ⟨h1, h.next, by simp [hp, e1], by simp [hp], Nat.le_of_lt e2.2, e2, e4, e5, ?_, ?_⟩
      · intro e; exact e3 (e ▸ hb.valid)
      · intro hm; exact e3 (hb.chain.valid _ hm)
  obtain ⟨h1, o, e1, ho, hgrow, vo1, co, hold, hob, hol⟩ := key
  have hvb := hold p hb.valid
  have hvl : ∀ e ∈ l, h1.Valid e ∧ h1.cell e = h.cell e := fun e he => hold e (hb.chain.valid e he)
  unfold paramsAppend
  rw [Res.assert_true (Nat.ne_of_gt hb.valid.1), Res.ok_bind, Res.assert_true (Nat.ne_of_gt vo.1), Res.ok_bind,
    Res.assert_true (Ne.symm hne), Res.ok_bind, get_ok vo, Res.ok_bind, e1, Res.ok_bind]
  simp only []
  rw [upd_ok vo1, Res.ok_bind, get_ok (by exact hvb.1), Res.ok_bind]
  simp only [if_neg (Ne.symm hob), hvb.2]
  by_cases hl : l = []
  · subst hl
    rw [if_pos (hb.first rfl), upd_ok (by exact hvb.1)]
    refine ⟨_, o, rfl, ?_, ho, hgrow, hob, ?_, ?_, ?_, ?_, ?_⟩
    · refine ⟨Nat.lt_of_lt_of_le hb.next hgrow, hvb.1, ?_, ?_, ?_, ?_, ?_, ?_, ?_, ?_⟩
      · simp [Ne.symm hob, hvb.2, hb.count]
      · exact ⟨by simp, vo1, trivial⟩
      · simp [hob, co, hs]
      · intro e; simp at e
      · intro x hx; simp at hx ⊢; exact hx
      · intro e he; simp at he; subst he; simp [hob]
      · simp [Ne.symm hob]
      · simp
    · simp [hob, co]
    · intro q hq hqb
      by_cases hqo : q = o
      · subst hqo
        simp [hob, Node.payload, (hold q hq).2]
      · simp [hqb, hqo, (hold q hq).2]
    · simp [Node.payload, Ne.symm hob, hvb.2, hb.count]
    · intro q hq hqo hqp
      have hqp' : q ≠ p := fun e => hqp (by simp [e])
      simp [hqp', hqo, (hold q hq).2]
    · intro q hq hqo
      by_cases hqp : q = p
      · subst hqp; simp [hqo, hvb.2]
      · simp [hqp, hqo, (hold q hq).2]
  · have hlast : ∃ x, l.getLast? = some x := by
      cases hx : l.getLast? with
      | none => exact absurd (List.getLast?_eq_none_iff.1 hx) hl
      | some x => exact ⟨x, rfl⟩
    obtain ⟨x, hx⟩ := hlast
    have hxm : x ∈ l := List.mem_of_getLast? hx
    have vx : h.Valid x := hb.chain.valid x hxm
    have hf : (h.cell p).front = x := hb.last x hx
    have hxb : x ≠ p := fun e => hb.self (e ▸ hxm)
    have hxo : x ≠ o := fun e => hol (e ▸ hxm)
    rw [if_neg (by rw [hf]; exact Nat.ne_of_gt vx.1), hf]
    rw [upd_ok (by exact (hvl x hxm).1), Res.ok_bind, upd_ok (by exact hvb.1)]
    refine ⟨_, o, rfl, ?_, ho, hgrow, hob, ?_, ?_, ?_, ?_, ?_⟩
    · refine ⟨Nat.lt_of_lt_of_le hb.next hgrow, hvb.1, ?_, ?_, ?_, ?_, ?_, ?_, ?_, ?_⟩
      · simp [Ne.symm hob, Ne.symm hxb, hvb.2, hb.count]
      · simp only [if_true, if_neg (Ne.symm hob), if_neg (Ne.symm hxb), hvb.2]
        refine Chain.snoc (by exact vo1) hb.chain hl hb.nodup (fun e he => (hvl e he).1) ?_ ?_
        · intro e he hne
          have heb : e ≠ p := fun e' => hb.self (e' ▸ he)
          have heo : e ≠ o := fun e' => hol (e' ▸ he)
          have hex : e ≠ x := fun e' => hne (e' ▸ hx)
          simp [heb, heo, hex, (hvl e he).2]
        · intro y hy
          rw [hx] at hy
          cases hy
          simp [hxb]
      · simp [hob, Ne.symm hxo, co, hs]
      · intro e; simp at e
      · intro y hy
        simp at hy
        simp [hy]
      · intro e he
        rcases List.mem_append.1 he with he | he
        · have heb : e ≠ p := fun e' => hb.self (e' ▸ he)
          have heo : e ≠ o := fun e' => hol (e' ▸ he)
          by_cases hex : e = x
          · subst hex
            simp [heb, heo, (hvl e he).2, hb.parents e he]
          · simp [heb, heo, hex, (hvl e he).2, hb.parents e he]
        · simp at he; subst he; simp [hob, Ne.symm hxo]
      · simp [Ne.symm hob, hb.self]
      · exact List.nodup_append.2 ⟨hb.nodup, by simp, by
          intro a ha c hc; simp at hc; subst hc; exact fun e => hol (e ▸ ha)⟩
    · simp [hob, Ne.symm hxo, co]
    · intro q hq hqb
      by_cases hqo : q = o
      · subst hqo
        simp [hob, Node.payload, (hold q hq).2, Ne.symm hxo]
      · by_cases hqx : q = x
        · subst hqx; simp [hqb, hqo, (hold q hq).2, Node.payload]
        · simp [hqb, hqo, hqx, (hold q hq).2]
    · simp [Node.payload, Ne.symm hob, Ne.symm hxb, hvb.2, hb.count]
    · intro q hq hqo hqx
      simp only [hx, Option.getD_some] at hqx
      by_cases hqp : q = p
      · subst hqp; simp [hqo, Ne.symm hxb, hvb.2]
      · simp [hqp, hqo, Ne.symm hqx, (hold q hq).2]
    · intro q hq hqo
      by_cases hqp : q = p
      · subst hqp; simp [hqo, Ne.symm hxb, hvb.2]
      · by_cases hqx : q = x
        · subst hqx; simp [hqp, hqo, (hold q hq).2]
        · simp [hqp, hqo, hqx, (hold q hq).2]

/-- One `params_append` after the other. -/
def paramsAppendAll (h : Heap) (p : Nat) : List Nat → Res Heap
  | [] => .ok h
  | o :: os => (paramsAppend h p o).bind fun h => paramsAppendAll h p os

/-- C22: appending any sequence of different single parameters (nodes that are not in a list themselves): iterating the list then visits the
head and the appended parameters in order (parameters that had a parent are copied), each saying what it said before, and the
count has grown by one each. -/
theorem C22_append_all (p : Nat) : ∀ (os : List Nat) (h : Heap) (l : List Nat) (n : Int), IsParams h p l n →
    (∀ o ∈ os, h.Valid o ∧ o ≠ p ∧ o ∉ l ∧ (h.cell o).back = 0) → os.Nodup →
    ∃ h' l', paramsAppendAll h p os = .ok h' ∧ IsParams h' p (l ++ l') (n + os.length) ∧
      (∀ fuel, l.length + os.length + 1 < fuel → iterParams fuel h' p = .ok (p :: (l ++ l'))) ∧
      (h'.cell p).num = n + os.length ∧
      l'.map (fun e => (h'.cell e).payload) = os.map (fun o => (h.cell o).payload) ∧
      (∀ q, h.Valid q → q ≠ p → (h'.cell q).payload = (h.cell q).payload) ∧
      (h'.cell p).payload = { (h.cell p).payload with num := n + os.length }
  | [], h, l, n, hb, _, _ => ⟨h, [], rfl, by simpa using hb, by intro fuel hf; simpa using hb.iter fuel (by simpa using hf),
      by simp [hb.count], rfl, fun _ _ _ => rfl, by simp [Node.payload, ← hb.count]⟩
  | o :: os, h, l, n, hb, ho, hnd => by
    obtain ⟨vo, hop, hol, hs⟩ := ho o List.mem_cons_self
    obtain ⟨h1, o1, e1, hb1, hfr, hg, ho1, hc, hsame, hpay, hback, _⟩ := paramsAppend_spec hb vo hop hs
    have hval : ∀ q, h.Valid q → h1.Valid q := fun q w => ⟨w.1, Nat.lt_of_lt_of_le w.2 hg⟩
    have hnd' := List.nodup_cons.1 hnd
    have hxo : ∀ x ∈ os, x ≠ o1 := by
      intro x hx e
      obtain ⟨v, _, _, _⟩ := ho x (List.mem_cons_of_mem _ hx)
      rw [hfr] at e
      split at e
      · exact hnd'.1 (e ▸ hx)
      · rw [e] at v; exact Nat.lt_irrefl _ v.2
    obtain ⟨h2, l2, f1, f2, f3, f4, f5, f6, f7⟩ := C22_append_all p os h1 (l ++ [o1]) (n + 1) hb1 (fun x hx => by
      obtain ⟨v, w, hl, s⟩ := ho x (List.mem_cons_of_mem _ hx)
      refine ⟨hval x v, w, ?_, ?_⟩
      · simp [hl, hxo x hx]
      · rw [hback x v (hxo x hx) ?_, s]
        intro e
        cases hgl : l.getLast? with
        | none => rw [hgl] at e; exact w e.symm
        | some y => rw [hgl] at e; exact hl (e ▸ List.mem_of_getLast? hgl)) hnd'.2
    have vo1 : h1.Valid o1 := hb1.chain.valid _ (by simp)
    have hcount : n + 1 + (os.length : Int) = n + ((o :: os).length : Nat) := by simp; omega
    refine ⟨h2, o1 :: l2, ?_, ?_, ?_, ?_, ?_, ?_, ?_⟩
    · rw [paramsAppendAll, e1, Res.ok_bind, f1]
    · rw [← hcount]; simpa using f2
    · intro fuel hf
      have := f3 fuel (by simp at hf ⊢; omega)
      simpa using this
    · rw [f4, hcount]
    · rw [List.map_cons, List.map_cons, f5, f6 o1 vo1 ho1, hc]
      congr 1
      apply List.map_congr_left
      intro x hx
      obtain ⟨v, w, _⟩ := ho x (List.mem_cons_of_mem _ hx)
      exact hsame x v w
    · intro q w hq
      rw [f6 q (hval q w) hq, hsame q w hq]
    · rw [f7, hpay, hcount]

/-- Three single parameters (nodes 1, 2, 3), each with its count of 1 as `def_param` makes them. -/
def threeParams : Heap := { next := 4, cell := fun q => { type := .Parameters, name := [UInt8.ofNat (96 + q)], num := 1 } }

/-- Non-vacuity of the conditions of `C22_append_all`. -/
example : IsParams threeParams 1 [] 1 ∧ (∀ o ∈ [2, 3], threeParams.Valid o ∧ o ≠ 1 ∧ o ∉ ([] : List Nat) ∧ (threeParams.cell o).back = 0) ∧
    ([2, 3] : List Nat).Nodup ∧
    ((paramsAppendAll threeParams 1 [2, 3]).bind fun h => iterParams 9 h 1) = .ok [1, 2, 3] := by
  refine ⟨⟨by decide, by decide, rfl, trivial, rfl, fun _ => rfl, by simp, by simp, by simp, by simp⟩, by decide, by decide, by rfl⟩

/-- C22, refuted for a parameter that heads a list of its own: appending `[2, 3]` to `1` and then `4` counts 3 parameters and
visits `1, 2, 4`; before the last append it counts 2 and visits `1, 2, 3`. -/
theorem C22_append_list_refuted :
    ((paramsAppend { threeParams with next := 5 } 2 3).bind fun h => (paramsAppend h 1 2).bind fun h =>
      (iterParams 9 h 1).bind fun l1 => (h.get 1).bind fun n1 => (paramsAppend h 1 4).bind fun h =>
      (iterParams 9 h 1).bind fun l2 => .ok (n1.num, l1, l2)) = .ok (2, [1, 2, 3], [1, 2, 4]) := by rfl

/-- C22, refuted for `params_get`: on a list of more than one parameter it returns null whatever the index, on a list of one it
dereferences null. -/
theorem C22_params_get_refuted {h : Heap} {p : Nat} {l : List Nat} {n : Int} (hb : IsParams h p l n) (idx : Nat) :
    paramsGet h p idx = if l = [] then .ub else .ok 0 := by
  rw [paramsGet, Res.assert_true (Nat.ne_of_gt hb.valid.1), Res.ok_bind, get_ok hb.valid, Res.ok_bind]
  cases l with
  | nil =>
    have := hb.ends
    simp only [List.getLast?_nil, Option.getD_none] at this
    rw [this]
    simp [get_null]
  | cons a l =>
    obtain ⟨c1, c2, _⟩ := hb.chain
    rw [c1]
    simp [Nat.ne_of_gt c2.1]

/-- C44, refuted for assignment: assigning a code that has a parent makes a copy, as it should, but the variable then holds the
original all the same; the copy is unreachable. -/
theorem C44_assign_refuted {h : Heap} (hn : 0 < h.next) {p : Nat} (v : h.Valid p) (hp : (h.cell p).parent ≠ 0) :
    ∃ h', codeAssign h p = .ok (p, h') ∧ h'.next = h.next + 1 ∧ (h'.cell p).parent = (h.cell p).parent := by
  unfold codeAssign duplicate
  rw [if_neg (Nat.ne_of_gt v.1), get_ok v, Res.ok_bind, if_pos hp]
  simp only [Heap.make]
  rw [get_ok (show Heap.Valid _ p from ⟨v.1, Nat.lt_succ_of_lt v.2⟩), Res.ok_bind, upd_ok (show Heap.Valid _ h.next from ⟨hn, Nat.lt_succ_self _⟩)]
  refine ⟨_, rfl, rfl, ?_⟩
  simp [Nat.ne_of_lt v.2]

/-- C21: `code_is_body` recognises exactly the kinds of code whose name ends in `_Body`. -/
theorem C21_is_body (t : CodeType) : isBodyType t = true ↔ b!"_Body" <:+ codetypeToStr t := by
  cases t <;> decide +kernel

/-- C31: `def_body` accepts every kind of body but the body of a linkage declaration, and takes the linkage declaration itself for
one. -/
theorem C31_def_body_extern_refuted (h : Heap) (hn : 0 < h.next) : defBody h .Extern_Linkage_Body = .ok none ∧
    ∃ b h', defBody h .Extern_Linkage = .ok (some (b, h')) ∧ isBodyType (h'.cell b).type = false := by
  obtain ⟨b, h', e, _, t, _⟩ := C21_def_body h hn .Extern_Linkage rfl
  exact ⟨rfl, b, h', e, by rw [t]; rfl⟩

/-- C31: for every kind of code whose name ends in `_Body`, with that exception, `def_body` makes an empty body of that kind. -/
theorem C31_def_body_kinds (t : CodeType) (ht : b!"_Body" <:+ codetypeToStr t) (hx : t ≠ .Extern_Linkage_Body) : defBodyAllowed t = true := by
  revert ht hx
  cases t <;> decide +kernel

end Verif.Ast
