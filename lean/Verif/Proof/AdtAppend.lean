import Verif.Proof.AdtTree
/-! # Appending to a branch -/
namespace Verif.Adt

/-- Room for one more element at the end of an array that is not full. -/
theorem move_end {a : Arr Node} (hf : Arr.Fine a) (hlt : a.num < a.capacity) :
    ∃ a', a.moveCells ((if a.num ≥ a.num then a.num - 1 else a.num) + 1) (if a.num ≥ a.num then a.num - 1 else a.num) (a.num - (if a.num ≥ a.num then a.num - 1 else a.num)) = .ok a' ∧
      a'.num = a.num ∧ a'.capacity = a.capacity ∧ a'.cells.length = a.cells.length ∧ a'.cells.take a.num = a.cells.take a.num := by
  obtain ⟨h1, h2⟩ := hf
  rw [if_pos (Nat.le_refl _)]
  unfold Arr.moveCells
  by_cases h0 : a.num = 0
  · rw [if_pos (by omega)]
    exact ⟨a, rfl, rfl, rfl, rfl, rfl⟩
  · rw [if_neg (by omega), if_pos (by omega)]
    refine ⟨_, rfl, rfl, rfl, ?_, ?_⟩
    · simp; omega
    · simp only [List.append_assoc]
      rw [show a.num - 1 + 1 = a.num by omega]
      exact List.take_left' (by simp; omega)

theorem appendAt_end (heap : Bool) {a : Arr Node} (x : Node) (hf : Arr.Fine a) :
    ∃ a', Arr.appendAt .cpp heap true a x a.num = .ok (true, a') ∧ a'.num = a.num + 1 ∧ Arr.Fine a' ∧ a'.cells.take a.num = a.cells.take a.num := by
  unfold Arr.appendAt
  simp only [reduceCtorEq, false_and, if_false]
  by_cases hg : a.capacity < a.num + 1
  · have hfull : a.num = a.capacity := by have := hf.2; omega
    rw [if_pos hg]
    have hgr : Arr.grow .cpp heap true a (a.capacity + 1) = .ok (true, ⟨2 * a.capacity + 8, a.num, a.cells.take a.num ++ List.replicate (2 * a.capacity + 8 - a.num) none⟩) := by
      unfold Arr.grow Arr.growFormula Arr.setCapacity
      have h1 := hf.1
      simp [Res.assert, Res.ok_bind, if_neg (show ¬ (2 * a.capacity + 8 < a.capacity + 1) by omega), if_neg (show ¬ (2 * a.capacity + 8 = a.capacity) by omega),
        if_neg (show ¬ (2 * a.capacity + 8 < a.num) by omega), if_pos (show a.num ≤ a.cells.length by omega)]
    have hf1 : Arr.Fine (⟨2 * a.capacity + 8, a.num, a.cells.take a.num ++ List.replicate (2 * a.capacity + 8 - a.num) none⟩ : Arr Node) := by
      have h1 := hf.1
      constructor
      · simp; omega
      · simp only; omega
    obtain ⟨a', m1, m2, m3, m4, m5⟩ := move_end hf1 (by simp only; omega)
    simp only at m1 m2 m3 m4 m5
    rw [hgr]
    simp only [Res.bind_eq, Res.ok_bind, Bool.true_eq_false, if_false]
    rw [m1]
    refine ⟨_, rfl, by simp [m2], ⟨by simp only [m3, m4]; exact hf1.1, by simp only [m2, m3]; omega⟩, ?_⟩
    simp only [m5]
    exact List.take_left' (by have h1 := hf.1; simp; omega)
  · rw [if_neg hg]
    obtain ⟨a', m1, m2, m3, m4, m5⟩ := move_end hf (by omega)
    simp only [Res.bind_eq, Res.ok_bind, Bool.true_eq_false, if_false]
    rw [m1]
    exact ⟨_, rfl, by simp [m2], ⟨by simp only [m3, m4]; exact hf.1, by simp only [m2, m3]; omega⟩, m5⟩

theorem branch_type {n : Node} {arr : Bool} (h : n.num.type = (if arr then .array else .object)) : isBranch n = true := by
  unfold isBranch
  cases arr <;> simp_all

/-- The state between the allocation of a child and its initialization. -/
structure Mid (h : Heap) (r : Ref) (b : Nat) (fs : List Nat) (name : Option Bytes) (arr : Bool) (kids : List Tree) (h1 : Heap) (b' : Nat) : Prop where
  node : ∃ n a', h1.read r = .ok n ∧ n.name = name ∧ n.num.type = (if arr then .array else .object) ∧ n.nodes = some b' ∧
    h1.blocks[b']? = some (some a') ∧ Arr.Fine a' ∧ a'.num = kids.length + 1 ∧ ShowsAll h1 kids (a'.cells.take kids.length) fs
  place : b' = b ∨ b' = h.blocks.length
  off : ∀ b0 i0, r = .cell b0 i0 → b0 ≠ b' ∧ b0 ∉ fs
  nodup : (b' :: fs).Nodup
  grows : h.blocks.length ≤ h1.blocks.length
  rest : ∃ n h2, h.write n r = .ok h2 ∧ h1.vars = h2.vars ∧ ∀ x < h.blocks.length, x ∉ (b :: fs) → h1.blocks[x]? = h2.blocks[x]?

theorem read_lt {h : Heap} {b i : Nat} {n : Node} (hr : h.read (.cell b i) = .ok n) : b < h.blocks.length := by
  simp only [Heap.read] at hr
  cases hbb : h.block b with
  | ok a0 => exact lt_of_block (block_eq.mp hbb)
  | ub => rw [hbb] at hr; cases hr
  | stop => rw [hbb] at hr; cases hr
  | hang => rw [hbb] at hr; cases hr

theorem alloc_run (heap : Bool) {h : Heap} {r : Ref} {name : Option Bytes} {arr : Bool} {kids : List Tree} {f : List Nat}
    (hh : Holds h r (.branch name arr kids) f) : ∃ b fs h1 b', f = b :: fs ∧ alloc .cpp heap true h (some r) = .ok (some (.cell b' kids.length), h1) ∧
      Mid h r b fs name arr kids h1 b' := by
  obtain ⟨n, hr, hs, hnd, hoff⟩ := hh
  simp only [Shows] at hs
  obtain ⟨s1, s2, b, a, fs, s3, s4, s5, s6, s7⟩ := hs
  subst s7
  have hlen := ShowsAll.len _ _ _ s6
  have hnum : a.num = kids.length := by
    rw [List.length_take] at hlen
    have := s5.1; have := s5.2; omega
  obtain ⟨a', ap, an, af, at_⟩ := appendAt_end heap { parent := some r } s5
  have hbr := branch_type s2
  have hbl := lt_of_block s4
  have hnz : n ≠ {} := by intro e; rw [e] at s3; cases s3
  have hkids : ∀ h1 : Heap, (∀ x ∈ fs, h1.blocks[x]? = h.blocks[x]?) → ShowsAll h1 kids (a'.cells.take kids.length) fs := by
    intro h1 hx
    rw [← hnum, at_]
    exact ShowsAll.frame _ _ _ s6 hx
  have hfl : ∀ x ∈ fs, x < h.blocks.length := fun x hx => by
    obtain ⟨y, hy⟩ := ShowsAll.live _ _ _ s6 x hx
    exact lt_of_block hy
  have hbfs : b ∉ fs := (List.nodup_cons.mp hnd).1
  have hrun : ∀ x, putArray h r n b a a' = .ok x → alloc .cpp heap true h (some r) = .ok (some (.cell x.1 kids.length), x.2) := by
    intro x hx
    unfold alloc
    simp only [Res.bind_eq, hr, Res.ok_bind, hbr, Bool.not_true, Bool.false_eq_true, if_false, s3, block_eq.mpr s4]
    unfold allocAt
    simp only [Res.bind_eq, hr, Res.ok_bind, hbr, Bool.not_true, Bool.false_eq_true, if_false, s3, block_eq.mpr s4]
    rw [if_neg (by omega), Int.toNat_natCast, ap]
    simp only [Res.ok_bind, Bool.true_eq_false, if_false, hx, hnum]
    rfl
  by_cases hc : a'.capacity = a.capacity
  · have hp : putArray h r n b a a' = .ok (b, h.setBlock b (some a')) := by unfold putArray; rw [if_pos hc]
    have hother : ∀ x, x ≠ b → (h.setBlock b (some a')).blocks[x]? = h.blocks[x]? := by
      intro x hx
      simp only [Heap.setBlock]
      exact List.getElem?_set_ne (Ne.symm hx)
    refine ⟨b, fs, _, b, rfl, hrun _ hp, ?_, .inl rfl, ?_, hnd, ?_, n, h, write_same hr hnz, rfl, ?_⟩
    · refine ⟨n, a', ?_, s1, s2, s3, ?_, af, by omega, ?_⟩
      · rw [← hr]
        refine read_same (fun _ => rfl) ?_
        intro b0 i0 e
        have := hoff b0 i0 e
        exact hother b0 (by intro e2; exact this (by simp [e2]))
      · simp [Heap.setBlock, hbl]
      · exact hkids _ fun x hx => hother x (by intro e; subst e; exact hbfs hx)
    · intro b0 i0 e
      have := hoff b0 i0 e
      simp only [List.mem_cons, not_or] at this
      exact this
    · simp [Heap.setBlock]
    · intro x hx hxf
      exact hother x (by intro e; exact hxf (by simp [e]))
  · -- the array moves to a new block
    obtain ⟨hg, hge⟩ : ∃ hg : Heap, hg = { h with blocks := h.blocks.set b none ++ [some a'] } := ⟨_, rfl⟩
    have hgr : hg.read r = .ok n := by
      rw [← hr]
      refine read_same (fun _ => by rw [hge]) ?_
      intro b0 i0 e
      have h0 := hoff b0 i0 e
      have hb0 : b0 ≠ b := by intro e2; exact h0 (by simp [e2])
      have hl0 : b0 < h.blocks.length := by subst e; exact read_lt hr
      rw [hge]
      simp only
      rw [List.getElem?_append_left (by simpa using hl0), List.getElem?_set_ne (Ne.symm hb0)]
    obtain ⟨h1, hw⟩ := write_ok hgr { n with nodes := some h.blocks.length }
    obtain ⟨w1, w2, w3, w4, w5⟩ := write_facts hw
    have hp : putArray h r n b a a' = .ok (h.blocks.length, h1) := by
      unfold putArray
      rw [if_neg hc, ← hge, hw, Res.ok_bind]
    obtain ⟨h2, hw2⟩ := write_ok hr { n with nodes := some h.blocks.length }
    have hsame : ∀ x, x < h.blocks.length → x ≠ b → (∀ i, r ≠ .cell x i) → h1.blocks[x]? = h.blocks[x]? := by
      intro x hx hxb hxr
      rw [w3 x hxr, hge]
      simp only
      rw [List.getElem?_append_left (by simpa using hx), List.getElem?_set_ne (Ne.symm hxb)]
    have hnew : h1.blocks[h.blocks.length]? = some (some a') := by
      rw [w3 _ (by intro i e; subst e; exact absurd (read_lt hr) (by omega)), hge]
      simp
    have hrfs : ∀ x ∈ fs, ∀ i, r ≠ .cell x i := by
      intro x hx i e
      exact hoff x i e (by simp [hx])
    refine ⟨b, fs, h1, h.blocks.length, rfl, hrun _ hp, ?_, .inr rfl, ?_, ?_, ?_, _, h2, hw2, ?_, ?_⟩
    · refine ⟨{ n with nodes := some h.blocks.length }, a', write_read hw, s1, s2, rfl, hnew, af, by omega, ?_⟩
      exact hkids h1 fun x hx => hsame x (hfl x hx) (by intro e; subst e; exact hbfs hx) (hrfs x hx)
    · intro b0 i0 e
      have h0 := hoff b0 i0 e
      simp only [List.mem_cons, not_or] at h0
      exact ⟨by intro e2; subst e; have := read_lt hr; omega, h0.2⟩
    · rw [List.nodup_cons]
      exact ⟨fun hm => absurd (hfl _ hm) (by omega), (List.nodup_cons.mp hnd).2⟩
    · rw [w1, hge]; simp
    · cases r with
      | var k =>
        simp only [Heap.write] at hw hw2
        rw [hge] at hw
        split at hw
        · rename_i hk
          rw [if_pos hk] at hw2
          cases hw; cases hw2; rfl
        · cases hw
      | cell b0 i0 =>
        rw [w4 ⟨b0, i0, rfl⟩, hge]
        exact ((write_facts hw2).2.2.2.1 ⟨b0, i0, rfl⟩).symm
    · intro x hx hxf
      have hxb : x ≠ b := by intro e; exact hxf (by simp [e])
      cases r with
      | var k => rw [hsame x hx hxb (by intro i e; cases e), (write_facts hw2).2.2.2.2 ⟨k, rfl⟩]
      | cell b0 i0 =>
        by_cases hxr : x = b0
        · subst hxr
          -- the block of the cell of `r`
          simp only [Heap.write] at hw hw2
          have hgb : hg.blocks[x]? = h.blocks[x]? := by
            rw [hge]
            simp only
            rw [List.getElem?_append_left (by simpa using hx), List.getElem?_set_ne (Ne.symm hxb)]
          have hgbl : hg.block x = h.block x := by unfold Heap.block; rw [hgb]
          rw [hgbl] at hw
          cases hbb : h.block x with
          | ok a0 =>
            rw [hbb, Res.ok_bind] at hw hw2
            cases hsc : a0.setCell i0 (some { n with nodes := some h.blocks.length }) with
            | ok a1 =>
              rw [hsc, Res.ok_bind] at hw hw2
              cases hw; cases hw2
              simp only [Heap.setBlock]
              rw [List.getElem?_set_self (by rw [hge]; simp; omega), List.getElem?_set_self hx]
            | ub => rw [hsc] at hw; cases hw
            | stop => rw [hsc] at hw; cases hw
            | hang => rw [hsc] at hw; cases hw
          | ub => rw [hbb] at hw; cases hw
          | stop => rw [hbb] at hw; cases hw
          | hang => rw [hbb] at hw; cases hw
        · rw [hsame x hx hxb (by intro i e; cases e; exact hxr rfl), (write_facts hw2).2.2.1 x (by intro i e; cases e; exact hxr rfl)]

/-- The new cell is written: the tree has one more child. -/
theorem Mid.fill {h h1 h2 : Heap} {r : Ref} {b b' : Nat} {fs fm : List Nat} {name : Option Bytes} {arr : Bool} {kids : List Tree} {new : Tree} {m : Node} {a' : Arr Node}
    (hm : Mid h r b fs name arr kids h1 b') (hb1 : h1.blocks[b']? = some (some a'))
    (hb2 : h2.blocks[b']? = some (some { a' with cells := a'.cells.set kids.length (some m) })) (hv : h2.vars = h1.vars)
    (ho : ∀ x < h1.blocks.length, x ≠ b' → h2.blocks[x]? = h1.blocks[x]?) (hg : h1.blocks.length ≤ h2.blocks.length)
    (hs : Shows h2 new m fm) (hnd : fm.Nodup) (hfm : ∀ x ∈ fm, h1.blocks.length ≤ x) :
    After h r (b :: fs) h2 (.branch name arr (kids ++ [new])) (b' :: (fs ++ fm)) ∧ child h2 r kids.length = some (.cell b' kids.length) := by
  obtain ⟨⟨n, a2, m1, m2, m3, m4, m5, m6, m7, m8⟩, hplace, hoff, hnodup, hgrow, hrest⟩ := hm
  rw [hb1] at m5
  cases m5
  have hb1l := lt_of_block hb1
  have hfl : ∀ x ∈ fs, x < h1.blocks.length := fun x hx => by
    obtain ⟨y, hy⟩ := ShowsAll.live _ _ _ m8 x hx
    exact lt_of_block hy
  have hrl : ∀ b0 i0, r = .cell b0 i0 → b0 < h1.blocks.length := by
    intro b0 i0 e; subst e; exact read_lt m1
  have hr2 : h2.read r = .ok n := by
    rw [← m1]
    exact read_same (fun _ => hv) fun b0 i0 e => ho b0 (hrl b0 i0 e) (hoff b0 i0 e).1
  have hlen := ShowsAll.len _ _ _ m8
  have hcl : kids.length < a'.cells.length := by have := m6.1; have := m6.2; omega
  have hkids : ShowsAll h2 (kids ++ [new]) ((a'.cells.set kids.length (some m)).take a'.num) (fs ++ fm) := by
    have e : (a'.cells.set kids.length (some m)).take a'.num = a'.cells.take kids.length ++ [some m] := by
      rw [m7, List.take_succ, List.take_set_of_le (Nat.le_refl _), List.getElem?_set_self hcl]
      rfl
    rw [e]
    refine ShowsAll.snoc hs _ _ _ (ShowsAll.frame _ _ _ m8 ?_)
    intro x hx
    exact ho x (hfl x hx) (by intro e; subst e; exact (List.nodup_cons.mp hnodup).1 hx)
  have hnd2 : (b' :: (fs ++ fm)).Nodup := by
    have h3 := List.nodup_cons.mp hnodup
    rw [List.nodup_cons, List.nodup_append]
    refine ⟨?_, h3.2, hnd, ?_⟩
    · intro hx
      rcases List.mem_append.mp hx with hx | hx
      · exact h3.1 hx
      · have := hfm _ hx; omega
    · intro x hx y hy e
      subst e
      have := hfm _ hy; have := hfl _ hx; omega
  refine ⟨⟨⟨n, hr2, ?_, hnd2, ?_⟩, ?_, Nat.le_trans hgrow hg, ?_⟩, child_eq hr2 m4 hb2 (by simp only; omega)⟩
  · simp only [Shows]
    exact ⟨m2, m3, b', _, _, m4, hb2, ⟨by simpa using m6.1, m6.2⟩, hkids, rfl⟩
  · intro b0 i0 e hx
    obtain ⟨h3, h4⟩ := hoff b0 i0 e
    rcases List.mem_cons.mp hx with hx | hx
    · exact h3 hx
    · rcases List.mem_append.mp hx with hx | hx
      · exact h4 hx
      · have := hfm _ hx; have := hrl b0 i0 e; omega
  · intro x hx
    rcases List.mem_cons.mp hx with hx | hx
    · subst hx
      rcases hplace with h3 | h3
      · exact .inl (by simp [h3])
      · exact .inr (by omega)
    · rcases List.mem_append.mp hx with hx | hx
      · exact .inl (by simp [hx])
      · exact .inr (by have := hfm _ hx; omega)
  · obtain ⟨n0, h0, w1, w2, w3⟩ := hrest
    refine ⟨n0, h0, w1, by rw [hv, w2], ?_⟩
    intro x hx hxf
    rw [← w3 x hx hxf]
    refine ho x (by omega) ?_
    rcases hplace with h3 | h3
    · intro e; exact hxf (by simp [e, h3])
    · omega

theorem read_cell_getD {h : Heap} {b i : Nat} {a : Arr Node} (hb : h.blocks[b]? = some (some a)) (hi : i < a.cells.length) : ∃ n, h.read (.cell b i) = .ok n := by
  simp only [Heap.read, cellAt, Arr.getCell]
  rw [block_eq.mpr hb]
  simp [Res.ok_bind, hi, Res.ofOption]

/-- A leaf is written: what was there does not matter. -/
theorem setLeaf_run {h : Heap} {r : Ref} {n : Node} (hr : h.read r = .ok n) (name : Option Bytes) (v : Leaf) : ∃ m h0 h', v.Is m ∧ m.name = name ∧ m.parent = n.parent ∧
    h.write { name := name, parent := n.parent, num := { type := m.num.type } } r = .ok h0 ∧ h0.write m r = .ok h' ∧ setLeaf h r name v = .ok h' := by
  cases v with
  | str s =>
    obtain ⟨h0, w0⟩ := write_ok hr { name := name, parent := n.parent, num := { type := .string } }
    have r0 := write_read w0
    obtain ⟨h', w1⟩ := write_ok r0 { name := name, parent := n.parent, num := { type := .string }, string := s }
    refine ⟨{ name := name, parent := n.parent, num := { type := .string }, string := s }, h0, h', by simp [Leaf.Is], rfl, rfl, w0, w1, ?_⟩
    simp only [setLeaf, setStr, makeLeaf]
    simp [Res.assert, Res.bind_eq, Res.ok_bind, hr, w0, r0, w1]
  | flt s =>
    obtain ⟨h0, w0⟩ := write_ok hr { name := name, parent := n.parent, num := { type := .real } }
    have r0 := write_read w0
    obtain ⟨h', w1⟩ := write_ok r0 { name := name, parent := n.parent, num := { type := .real, real := s } }
    refine ⟨{ name := name, parent := n.parent, num := { type := .real, real := s } }, h0, h', by simp [Leaf.Is], rfl, rfl, w0, w1, ?_⟩
    simp only [setLeaf, setFlt, makeLeaf]
    simp [Res.assert, Res.bind_eq, Res.ok_bind, hr, w0, r0, w1]
  | int s =>
    obtain ⟨h0, w0⟩ := write_ok hr { name := name, parent := n.parent, num := { type := .integer } }
    have r0 := write_read w0
    obtain ⟨h', w1⟩ := write_ok r0 { name := name, parent := n.parent, num := { type := .integer, integer := s } }
    refine ⟨{ name := name, parent := n.parent, num := { type := .integer, integer := s } }, h0, h', by simp [Leaf.Is], rfl, rfl, w0, w1, ?_⟩
    simp only [setLeaf, setInt, makeLeaf]
    simp [Res.assert, Res.bind_eq, Res.ok_bind, hr, w0, r0, w1]

/-- Appending a leaf to a branch. -/
theorem appendLeaf_run (heap : Bool) {h : Heap} {r : Ref} {t t' : Tree} {f : List Nat} {name : Option Bytes} {v : Leaf} (hh : Holds h r t f)
    (hg : Tree.push (.leaf name v) t = some t') : ∃ x h' f', appendLeaf .cpp heap true h (some r) name v = .ok (x, h') ∧ After h r f h' t' f' ∧
      x.isSome ∧ ∃ bn arr kids, t = .branch bn arr kids ∧ x = child h' r kids.length := by
  cases t with
  | leaf _ _ => cases hg
  | branch bn arr kids =>
    cases hg
    obtain ⟨b, fs, h1, b', hf, ha, hm⟩ := alloc_run heap hh
    subst hf
    obtain ⟨n, a', m1, m2, m3, m4, m5, m6, m7, m8⟩ := hm.node
    have hcl : kids.length < a'.cells.length := by have := m6.1; have := m6.2; omega
    obtain ⟨n0, hn0⟩ := read_cell_getD m5 hcl
    obtain ⟨m, h0, h2, i1, i2, i3, w0, w1, run⟩ := setLeaf_run hn0 name v
    have hbl := lt_of_block m5
    rw [write_cell _ m5 hcl] at w0
    cases w0
    rw [write_cell (a := { a' with cells := a'.cells.set kids.length (some _) }) m (by simp only [Heap.setBlock]; exact List.getElem?_set_self hbl) (by simpa using hcl)] at w1
    have w2 := (Res.ok.inj w1).symm
    have := hm.fill (m := m) (new := .leaf name v) (fm := []) (h2 := h2) m5 (by rw [w2]; simp [Heap.setBlock, hbl]) (by rw [w2]; rfl) (by
      intro x hx hne
      rw [w2]
      simp only [Heap.setBlock]
      rw [List.getElem?_set_ne (Ne.symm hne), List.getElem?_set_ne (Ne.symm hne)]) (by rw [w2]; simp [Heap.setBlock]) (by simp only [Shows]; exact ⟨i2, i1, trivial⟩) (by simp) (by simp)
    refine ⟨_, _, _, ?_, this.1, ?_, bn, arr, kids, rfl, this.2.symm⟩
    · simp only [appendLeaf, Res.bind_eq, ha, Res.ok_bind, run]; rfl
    · rfl

/-- Appending an object or an array to a branch. -/
theorem appendBranch_run (heap : Bool) {h : Heap} {r : Ref} {t t' : Tree} {f : List Nat} {name : Option Bytes} {arr' : Bool} (hh : Holds h r t f)
    (hg : Tree.push (.branch name arr' []) t = some t') : ∃ x h' f', appendBranch .cpp heap true true h (some r) name arr' = .ok (x, h') ∧ After h r f h' t' f' ∧
      x.isSome ∧ ∃ bn arr kids, t = .branch bn arr kids ∧ x = child h' r kids.length := by
  cases t with
  | leaf _ _ => cases hg
  | branch bn arr kids =>
    cases hg
    obtain ⟨b, fs, h1, b', hf, ha, hm⟩ := alloc_run heap hh
    subst hf
    obtain ⟨n, a', m1, m2, m3, m4, m5, m6, m7, m8⟩ := hm.node
    have hcl : kids.length < a'.cells.length := by have := m6.1; have := m6.2; omega
    obtain ⟨n0, hn0⟩ := read_cell_getD m5 hcl
    have hbl := lt_of_block m5
    obtain ⟨ar, har⟩ : ∃ ar : Arr Node, Arr.init (α := Node) true = .ok (some ar) ∧ Arr.Fine ar ∧ ar.num = 0 := by
      simp only [Arr.init]
      exact ⟨_, rfl, ⟨by simp, by simp⟩, rfl⟩
    obtain ⟨hx, hxe⟩ : ∃ hx : Heap, hx = { h1 with blocks := h1.blocks ++ [some ar] } := ⟨_, rfl⟩
    have hxb : hx.blocks[b']? = some (some a') := by rw [hxe]; simp only; rw [List.getElem?_append_left hbl]; exact m5
    obtain ⟨m, hme⟩ : ∃ m : Node, m = { name := name, parent := n0.parent, num := { type := branchTy arr' }, nodes := some h1.blocks.length } := ⟨_, rfl⟩
    have hw := write_cell m hxb hcl
    have hmk : makeBranch true h1 (.cell b' kids.length) name arr' = .ok (false, hx.setBlock b' (some { a' with cells := a'.cells.set kids.length (some m) })) := by
      unfold makeBranch
      simp only [Res.bind_eq, hn0, Res.ok_bind, har.1, ← hxe, ← hme, hw]
      rfl
    have hxl : hx.blocks.length = h1.blocks.length + 1 := by rw [hxe]; simp
    have := hm.fill (m := m) (new := .branch name arr' []) (fm := [h1.blocks.length]) (h2 := hx.setBlock b' (some { a' with cells := a'.cells.set kids.length (some m) })) m5
      (by simp only [Heap.setBlock]; exact List.getElem?_set_self (by omega)) (by rw [hxe]; rfl) (by
        intro x hx' hne
        simp only [Heap.setBlock]
        rw [List.getElem?_set_ne (Ne.symm hne), hxe]
        exact List.getElem?_append_left hx') (by simp [Heap.setBlock, hxl]) (by
        simp only [Shows]
        refine ⟨by rw [hme], by rw [hme]; rfl, h1.blocks.length, ar, [], by rw [hme], ?_, har.2.1, ?_, rfl⟩
        · simp only [Heap.setBlock]
          rw [List.getElem?_set_ne (by omega), hxe]
          simp
        · rw [har.2.2]; simp [ShowsAll]) (by simp) (by simp)
    refine ⟨_, _, _, ?_, this.1, ?_, bn, arr, kids, rfl, this.2.symm⟩
    · simp only [appendBranch, Res.bind_eq, ha, Res.ok_bind, hmk]; rfl
    · rfl

end Verif.Adt
