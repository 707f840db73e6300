import Verif.Proof.AdtAppend
/-! # Building data trees (C61) -/
namespace Verif.Adt

theorem modify_at {g : Tree → Option Tree} : ∀ {p : Path} {t t' : Tree}, t.modify g p = some t' → ∃ k, t.at_ p = some k ∧ (g k).isSome
  | [], t, t', h => ⟨t, by simp [Tree.at_], by simp only [Tree.modify] at h; simp [h]⟩
  | i :: p, .leaf _ _, t', h => by simp [Tree.modify] at h
  | i :: p, .branch name arr kids, t', h => by
    simp only [Tree.modify] at h
    cases hk : kids[i]? with
    | none => rw [hk] at h; simp at h
    | some k =>
      rw [hk] at h
      simp only [Option.bind_some, Option.map_eq_some_iff] at h
      obtain ⟨k', h1, _⟩ := h
      obtain ⟨x, h3, h4⟩ := modify_at h1
      exact ⟨x, by simp [Tree.at_, hk, h3], h4⟩

theorem reach_append (h : Heap) : ∀ (p q : Path) (r : Ref), reach h r (p ++ q) = (reach h r p).bind fun r' => reach h r' q
  | [], q, r => rfl
  | i :: p, q, r => by
    simp only [List.cons_append, reach]
    cases child h r i with
    | none => rfl
    | some r' => simp only [Option.bind_some]; exact reach_append h p q r'

theorem setLeaf_local {h : Heap} {r : Ref} {t : Tree} {f : List Nat} (name : Option Bytes) (v : Leaf) (hh : Holds h r t f) :
    ∃ h', setLeaf h r name v = .ok h' ∧ After h r f h' (.leaf name v) [] := by
  obtain ⟨n, hr, hs, hnd, hoff⟩ := hh
  obtain ⟨m, h0, h', i1, i2, i3, w0, w1, run⟩ := setLeaf_run hr name v
  refine ⟨h', run, ⟨m, write_read w1, by simp only [Shows]; exact ⟨i2, i1, trivial⟩, by simp, by simp⟩, by simp, ?_, ?_⟩
  · rw [(write_facts w1).1, (write_facts w0).1]; exact Nat.le_refl _
  · obtain ⟨h1, hw⟩ := write_ok hr m
    refine ⟨m, h1, hw, ?_⟩
    -- the second write covers the first
    have : h' = h1 := by
      cases r with
      | var k =>
        simp only [Heap.write] at w0 w1 hw
        split at hw
        · rename_i hk
          rw [if_pos hk] at w0
          cases w0; cases hw
          rw [if_pos (by simpa using hk)] at w1
          cases w1
          simp
        · cases hw
      | cell b i =>
        simp only [Heap.write, Arr.setCell] at w0 hw
        cases hb : h.block b with
        | ok a =>
          rw [hb, Res.ok_bind] at w0 hw
          split at hw
          · rename_i hi
            rw [if_pos hi, Res.ok_bind] at w0
            cases w0; cases hw
            have hbl := lt_of_block (block_eq.mp hb)
            rw [write_cell (a := { a with cells := a.cells.set i (some _) }) m (by simp only [Heap.setBlock]; exact List.getElem?_set_self hbl) (by simpa using hi)] at w1
            cases w1
            simp [Heap.setBlock]
          · cases hw
        | ub => rw [hb] at hw; cases hw
        | stop => rw [hb] at hw; cases hw
        | hang => rw [hb] at hw; cases hw
    rw [this]
    exact ⟨rfl, fun _ _ _ => rfl⟩

theorem modify_congr {g g' : Tree → Option Tree} : ∀ {p : Path} {t k : Tree}, t.at_ p = some k → g k = g' k → t.modify g p = t.modify g' p
  | [], t, k, h, e => by
    simp only [Tree.at_, Option.some.injEq] at h
    subst h
    simpa [Tree.modify] using e
  | i :: p, .leaf _ _, k, h, e => by simp [Tree.at_] at h
  | i :: p, .branch name arr kids, k, h, e => by
    simp only [Tree.at_] at h
    simp only [Tree.modify]
    cases hk : kids[i]? with
    | none => rfl
    | some x =>
      rw [hk] at h
      simp only [Option.bind_some] at h ⊢
      rw [modify_congr h e]

open Classical in
/-- Something appended at a place. -/
theorem append_lift (op : Heap → Ref → Res (Option Ref × Heap)) (new : Tree)
    (hop : ∀ h r t f t', Holds h r t f → Tree.push new t = some t' → ∃ x h' f', op h r = .ok (x, h') ∧ After h r f h' t' f' ∧
      x.isSome ∧ ∃ bn arr kids, t = .branch bn arr kids ∧ x = child h' r kids.length)
    {p : Path} {h : Heap} {r : Ref} {t t' : Tree} {f : List Nat} (hh : Holds h r t f) (ht : t.modify (Tree.push new) p = some t') :
    ∃ bn arr kids r' x h' f', t.at_ p = some (.branch bn arr kids) ∧ reach h r p = some r' ∧ op h r' = .ok (some x, h') ∧ After h r f h' t' f' ∧
      reach h' r (p ++ [kids.length]) = some x := by
  obtain ⟨k, hk, hsome⟩ := modify_at ht
  cases k with
  | leaf _ _ => simp [Tree.push] at hsome
  | branch bn arr kids =>
    rw [modify_congr (g' := fun t => if t = .branch bn arr kids then Tree.push new t else none) hk (by simp)] at ht
    obtain ⟨r', x, h', f', l1, l2, l3, l4, l5, l6⟩ := lift op _ (fun h' r x => x.isSome ∧ x = child h' r kids.length) (by
      intro h r t f t' hh hg
      split at hg
      · rename_i ht
        obtain ⟨x, h', f', o1, o2, o3, bn', arr', kids', o4, o5⟩ := hop h r t f t' hh hg
        rw [ht] at o4
        cases o4
        exact ⟨x, h', f', o1, o2, o3, o5⟩
      · cases hg) p h r t t' f hh ht
    obtain ⟨y, hy⟩ := Option.isSome_iff_exists.mp l5
    subst hy
    refine ⟨bn, arr, kids, r', y, h', f', hk, l1, l2, l3, ?_⟩
    rw [reach_append, l4]
    simp only [Option.bind_some, reach, ← l6]

theorem edit_run (heap : Bool) {h : Heap} {root : Ref} {t t' : Tree} {f : List Nat} (e : Edit) (hh : Holds h root t f) (ht : e.tree t = some t') :
    ∃ x h' f', e.run .cpp heap root h = .ok (some x, h') ∧ After h root f h' t' f' ∧ reach h' root (e.result t) = some x := by
  cases e with
  | leaf p name v =>
    obtain ⟨bn, arr, kids, r', x, h', f', l1, l2, l3, l4, l5⟩ := append_lift (fun h r => appendLeaf .cpp heap true h (some r) name v) (.leaf name v)
      (fun h r t f t' hh hg => appendLeaf_run heap hh hg) hh ht
    refine ⟨x, h', f', ?_, l4, ?_⟩
    · simp only [Edit.run, l2, Res.ofOption, Res.ok_bind]; exact l3
    · simp only [Edit.result, l1]; exact l5
  | branch p name arr' =>
    obtain ⟨bn, arr, kids, r', x, h', f', l1, l2, l3, l4, l5⟩ := append_lift (fun h r => appendBranch .cpp heap true true h (some r) name arr') (.branch name arr' [])
      (fun h r t f t' hh hg => appendBranch_run heap hh hg) hh ht
    refine ⟨x, h', f', ?_, l4, ?_⟩
    · simp only [Edit.run, l2, Res.ofOption, Res.ok_bind]; exact l3
    · simp only [Edit.result, l1]; exact l5
  | set p name v =>
    obtain ⟨r', x, h', f', l1, l2, l3, l4, l5⟩ := lift (α := Unit) (fun h r => (setLeaf h r name v).bind fun h' => .ok ((), h')) (fun _ => some (.leaf name v)) (fun _ _ _ => True) (by
      intro h r t f t' hh hg
      cases hg
      obtain ⟨h', s1, s2⟩ := setLeaf_local name v hh
      exact ⟨(), h', [], by rw [s1, Res.ok_bind], s2, trivial⟩) p h root t t' f hh ht
    refine ⟨r', h', f', ?_, l3, l4⟩
    simp only [Edit.run, l1, Res.ofOption, Res.ok_bind]
    cases hs : setLeaf h r' name v with
    | ok h2 => simp only [hs, Res.ok_bind] at l2 ⊢; cases l2; rfl
    | ub => rw [hs] at l2; cases l2
    | stop => rw [hs] at l2; cases l2
    | hang => rw [hs] at l2; cases l2

theorem after_apart {h h' : Heap} {r r2 : Ref} {t2 t' : Tree} {f f' f2 : List Nat} (ha : After h r f h' t' f') (h2 : Holds h r2 t2 f2) (hd : Apart r f r2 f2) :
    Holds h' r2 t2 f2 ∧ Apart r f' r2 f2 := by
  obtain ⟨hholds, hfresh, hgrow, n, h1, hw, hv, hrest⟩ := ha
  obtain ⟨n2, hr2, hs2, hnd2, hoff2⟩ := h2
  obtain ⟨d1, d2, d3, d4⟩ := hd
  have hlt := Shows.lt hs2
  have hblk : ∀ b < h.blocks.length, b ∉ f → (∀ i, r ≠ .cell b i) → h'.blocks[b]? = h.blocks[b]? := by
    intro b hb hbf hbr
    rw [hrest b hb hbf, (write_facts hw).2.2.1 b hbr]
  refine ⟨⟨n2, ?_, Shows.frame _ _ _ hs2 ?_, hnd2, hoff2⟩, ?_, d2, ?_, d4⟩
  · rw [← hr2]
    cases r2 with
    | cell b i =>
      refine read_same (by simp) ?_
      intro b0 i0 e
      cases e
      exact hblk b (read_lt hr2) (d3 b i rfl).1 (d3 b i rfl).2
    | var k =>
      simp only [Heap.read, hv]
      cases r with
      | cell b i => rw [(write_facts hw).2.2.2.1 ⟨b, i, rfl⟩]
      | var k2 =>
        simp only [Heap.write] at hw
        split at hw
        · cases hw
          simp only
          rw [List.getElem?_set_ne (by intro e; exact d4 (by rw [e]))]
        · cases hw
  · intro b hb
    exact hblk b (hlt b hb) (d1 b hb) fun i e => d2 b i e hb
  · intro b hb hbf
    rcases hfresh b hbf with h3 | h3
    · exact d1 b hb h3
    · have := hlt b hb; omega
  · intro b i e
    refine ⟨?_, (d3 b i e).2⟩
    intro hbf
    rcases hfresh b hbf with h3 | h3
    · exact (d3 b i e).1 h3
    · subst e; have := read_lt hr2; omega

/-- Appending and setting do to the nodes what they say they do to the tree: afterwards the root holds the tree with the new node, the pointer returned is the one to
that node, and every other tree in memory is as it was. -/
theorem C61_edit (heap : Bool) {h : Heap} {root : Ref} {t t' : Tree} {f : List Nat} (e : Edit) (hh : Holds h root t f) (ht : e.tree t = some t') :
    ∃ x h' f', e.run .cpp heap root h = .ok (some x, h') ∧ Holds h' root t' f' ∧ reach h' root (e.result t) = some x ∧
      ∀ r2 t2 f2, Holds h r2 t2 f2 → Apart root f r2 f2 → Holds h' r2 t2 f2 ∧ Apart root f' r2 f2 := by
  obtain ⟨x, h', f', h1, h2, h3⟩ := edit_run heap e hh ht
  exact ⟨x, h', f', h1, h2.holds, h3, fun r2 t2 f2 hh2 hd => after_apart h2 hh2 hd⟩

/-- So does every history of edits. -/
theorem C61_history (heap : Bool) {root : Ref} : ∀ (es : List Edit) {h : Heap} {t t' : Tree} {f : List Nat}, Holds h root t f → editsTree es t = some t' →
    ∃ h' f', editsRun .cpp heap root es h = .ok h' ∧ Holds h' root t' f' ∧
      ∀ r2 t2 f2, Holds h r2 t2 f2 → Apart root f r2 f2 → Holds h' r2 t2 f2 ∧ Apart root f' r2 f2
  | [], h, t, t', f, hh, ht => by
    cases ht
    exact ⟨h, f, rfl, hh, fun _ _ _ h2 hd => ⟨h2, hd⟩⟩
  | e :: es, h, t, t', f, hh, ht => by
    simp only [editsTree, Option.bind_eq_some_iff] at ht
    obtain ⟨t1, ht1, ht2⟩ := ht
    obtain ⟨x, h1, f1, e1, e2, _, e4⟩ := C61_edit heap e hh ht1
    obtain ⟨h', f', r1, r2, r3⟩ := C61_history heap es e2 ht2
    refine ⟨h', f', by simp only [editsRun, e1, Res.ok_bind, r1], r2, ?_⟩
    intro r2 t2 f2 h2 hd
    obtain ⟨h3, h4⟩ := e4 r2 t2 f2 h2 hd
    exact r3 r2 t2 f2 h3 h4

/-- A variable becomes an empty object or array, whatever it held. -/
theorem C61_make {h : Heap} {k : Nat} (hk : k < h.vars.length) (name : Option Bytes) (isArray : Bool) :
    ∃ h', makeBranch true h (.var k) name isArray = .ok (false, h') ∧ Holds h' (.var k) (.branch name isArray []) [h.blocks.length] ∧
      ∀ r2 t2 f2, r2 ≠ .var k → Holds h r2 t2 f2 → Holds h' r2 t2 f2 ∧ Apart (.var k) [h.blocks.length] r2 f2 := by
  have hr : h.read (.var k) = .ok h.vars[k] := by simp [Heap.read, Res.ofOption, hk]
  refine ⟨⟨h.vars.set k { name := name, parent := h.vars[k].parent, num := { type := branchTy isArray }, nodes := some h.blocks.length },
    h.blocks ++ [some ⟨8, 0, List.replicate 8 none⟩]⟩, ?_, ?_, ?_⟩
  · unfold makeBranch
    simp only [Res.bind_eq, hr, Res.ok_bind, Arr.init, Arr.initReserve, Arr.growFormula, Res.assert]
    simp only [Nat.mul_zero, Nat.zero_add, gt_iff_lt, Nat.zero_lt_succ, if_true, Res.ok_bind, Res.pure_eq, Heap.write, hk]
  · refine ⟨{ name := name, parent := h.vars[k].parent, num := { type := branchTy isArray }, nodes := some h.blocks.length }, by simp [Heap.read, Res.ofOption, hk], ?_, by simp, by simp⟩
    simp only [Shows]
    refine ⟨trivial, rfl, _, ⟨8, 0, List.replicate 8 none⟩, [], rfl, by simp, ⟨by simp, by simp⟩, by simp [ShowsAll], rfl⟩
  · intro r2 t2 f2 hne ⟨n2, hr2, hs2, hnd2, hoff2⟩
    have hlt := Shows.lt hs2
    refine ⟨⟨n2, ?_, Shows.frame _ _ _ hs2 ?_, hnd2, hoff2⟩, ?_, by simp, ?_, Ne.symm hne⟩
    · cases r2 with
      | var j =>
        rw [← hr2]
        simp only [Heap.read]
        rw [List.getElem?_set_ne (by intro e; exact hne (by rw [e]))]
      | cell b i =>
        rw [← hr2]
        refine read_same (by simp) ?_
        intro b0 i0 e
        cases e
        exact List.getElem?_append_left (read_lt hr2)
    · intro b hb
      exact List.getElem?_append_left (hlt b hb)
    · intro b hb
      have := hlt b hb
      simp; omega
    · intro b i e
      subst e
      have := read_lt hr2
      simp; omega

end Verif.Adt
