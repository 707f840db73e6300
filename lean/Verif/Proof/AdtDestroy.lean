import Verif.Proof.AdtFind
/-! # Destroying a data tree -/
namespace Verif.Adt

/-- The blocks `f` are freed, the node at `r` is `n`, and nothing else has changed. -/
structure Freed (h : Heap) (r : Ref) (f : List Nat) (n : Node) (h' : Heap) : Prop where
  size : h'.blocks.length = h.blocks.length
  freed : ∀ b ∈ f, h'.blocks[b]? = some none
  rest : ∃ h1, h.write n r = .ok h1 ∧ h'.vars = h1.vars ∧ ∀ b, b ∉ f → h'.blocks[b]? = h1.blocks[b]?

theorem destroyLoop_run {rec : Heap → Ref → Res Heap} {r : Ref} {n : Node} {b : Nat} (hn : n.nodes = some b) : ∀ (ts : List Tree) (cs : List (Option Node)) (f : List Nat) (i : Nat) (h : Heap) (a : Arr Node),
    (∀ t ∈ ts, ∀ (h : Heap) (r : Ref) (f : List Nat), Holds h r t f → ∃ m h', rec h r = .ok h' ∧ Freed h r f m h') →
    h.read r = .ok n → h.blocks[b]? = some (some a) → a.num = i + ts.length → a.num ≤ a.cells.length → CellsAt a i cs → ShowsAll h ts cs f → (b :: f).Nodup →
    (∀ b0 i0, r = .cell b0 i0 → b0 ∉ b :: f) →
    ∃ h' a', destroyLoop rec r (ts.length + 1) i h = .ok h' ∧ h'.blocks.length = h.blocks.length ∧ h'.vars = h.vars ∧ (∀ x ∈ f, h'.blocks[x]? = some none) ∧
      (∀ x, x ∉ b :: f → h'.blocks[x]? = h.blocks[x]?) ∧ h'.blocks[b]? = some (some a')
  | [], cs, f, i, h, a, hrec, hr, hb, hnum, hcap, hc, hs, hnd, hoff => by
    simp only [ShowsAll] at hs
    obtain ⟨rfl, rfl⟩ := hs
    refine ⟨h, a, ?_, rfl, rfl, by simp, fun x _ => rfl, hb⟩
    simp only [List.length_nil, Nat.add_zero] at hnum
    simp only [List.length_nil, destroyLoop, Res.bind_eq, hr, Res.ok_bind, hn, Res.ofOption, block_eq.mpr hb, hnum, Nat.lt_irrefl, if_false]
    rfl
  | t :: ts, cs, f, i, h, a, hrec, hr, hb, hnum, hcap, hc, hs, hnd, hoff => by
    simp only [ShowsAll] at hs
    obtain ⟨m, cs', f1, f2, h1, h2, h3, h4⟩ := hs
    subst h1 h4
    obtain ⟨c1, c2⟩ := hc.tail
    simp only [List.length_cons] at hnum
    have hnd' := List.nodup_cons.mp hnd
    have hnd2 := List.nodup_append.mp hnd'.2
    have hH : Holds h (.cell b i) t f1 := by
      refine ⟨m, read_cell hb c1, h2, hnd2.1, ?_⟩
      intro b' i' e
      cases e
      exact fun hx => hnd'.1 (by simp [hx])
    obtain ⟨m', hx, e1, ⟨hsz, hfr, hw, w1, w2, w3⟩⟩ := hrec t (by simp) h (.cell b i) f1 hH
    rw [write_cell m' hb (by omega)] at w1
    have w1 := (Res.ok.inj w1).symm
    have hbl := lt_of_block hb
    have hbx : hx.blocks[b]? = some (some { a with cells := a.cells.set i (some m') }) := by
      rw [w3 b (fun hx => hnd'.1 (by simp [hx])), w1]
      simp [Heap.setBlock, hbl]
    have hother : ∀ x, x ∉ f1 → x ≠ b → hx.blocks[x]? = h.blocks[x]? := by
      intro x hx1 hxb
      rw [w3 x hx1, w1]
      simp only [Heap.setBlock]
      exact List.getElem?_set_ne (Ne.symm hxb)
    have hvars : hx.vars = h.vars := by rw [w2, w1]; rfl
    have hrx : hx.read r = .ok n := by
      rw [← hr]
      refine read_same (fun _ => hvars) ?_
      intro b0 i0 e
      have := hoff b0 i0 e
      simp only [List.mem_cons, List.mem_append, not_or] at this
      exact hother b0 this.2.1 this.1
    obtain ⟨h', a', l1, l2, l3, l4, l5, l6⟩ := destroyLoop_run hn ts cs' f2 (i + 1) hx { a with cells := a.cells.set i (some m') } (fun t ht => hrec t (by simp [ht])) hrx hbx
      (by simp only; omega) (by simpa using hcap) (by
        intro j hj
        rw [← c2 j hj]
        exact List.getElem?_set_ne (by omega)) (ShowsAll.frame _ _ _ h3 (by
        intro x hx2
        refine hother x ?_ ?_
        · intro hx1
          exact hnd2.2.2 x hx1 x hx2 rfl
        · intro e
          subst e
          exact hnd'.1 (by simp [hx2]))) (by
        rw [List.nodup_cons]
        exact ⟨fun hx => hnd'.1 (by simp [hx]), hnd2.2.1⟩) (by
        intro b0 i0 e hx
        refine hoff b0 i0 e ?_
        simp only [List.mem_cons, List.mem_append] at hx ⊢
        rcases hx with hx | hx
        · exact .inl hx
        · exact .inr (.inr hx))
    refine ⟨h', a', ?_, by omega, by rw [l3, hvars], ?_, ?_, l6⟩
    · rw [destroyLoop]
      simp only [Res.bind_eq, hr, Res.ok_bind, hn, Res.ofOption, block_eq.mpr hb, List.length_cons]
      rw [if_pos (by omega), e1]
      exact l1
    · intro x hxm
      rcases List.mem_append.mp hxm with hx1 | hx2
      · rw [l5 x ?_]
        · exact hfr x hx1
        · simp only [List.mem_cons, not_or]
          exact ⟨fun e => hnd'.1 (by rw [← e]; exact hxm), fun hx2 => hnd2.2.2 x hx1 x hx2 rfl⟩
      · exact l4 x hx2
    · intro x hxm
      simp only [List.mem_cons, List.mem_append, not_or] at hxm
      rw [l5 x (by simp [hxm]), hother x hxm.2.1 hxm.1]

theorem destroy_run : ∀ (fuel : Nat) (t : Tree) (h : Heap) (r : Ref) (f : List Nat), t.depth ≤ fuel → Holds h r t f →
    ∃ m h', destroyBranch fuel h r = .ok h' ∧ Freed h r f m h'
  | 0, t, h, r, f, hd, _ => by cases t <;> simp [Tree.depth] at hd
  | fuel + 1, .leaf name v, h, r, f, hd, ⟨n, hr, hs, hnd, hoff⟩ => by
    simp only [Shows] at hs
    have hb : isBranch n = false ∧ n ≠ {} := by
      have := hs.2.1
      unfold isBranch
      cases v <;> simp only [Leaf.Is] at this <;> refine ⟨by simp [this], ?_⟩ <;> intro e <;> rw [e] at this <;> simp at this
    refine ⟨n, h, ?_, rfl, by simp [hs.2.2], h, write_same hr hb.2, rfl, fun _ _ => rfl⟩
    simp only [destroyBranch, Res.bind_eq, hr, Res.ok_bind, hb.1, Bool.false_eq_true, if_false]
    rfl
  | fuel + 1, .branch name arr kids, h, r, f, hd, ⟨n, hr, hs, hnd, hoff⟩ => by
    have hs' := hs
    simp only [Shows] at hs
    obtain ⟨s1, s2, b, a, fs, s3, s4, s5, s6, s7⟩ := hs
    subst s7
    simp only [Tree.depth] at hd
    have hlen := ShowsAll.len _ _ _ s6
    have hnum : a.num = kids.length := by
      rw [List.length_take] at hlen
      have := s5.1; have := s5.2; omega
    obtain ⟨h1, a', l1, l2, l3, l4, l5, l6⟩ := destroyLoop_run (rec := destroyBranch fuel) s3 kids _ fs 0 h a (by
      intro t ht h r f hh
      have := depths_mem t ht
      exact destroy_run fuel t h r f (by omega) hh) hr s4 (by omega) (by have := s5.1; have := s5.2; omega) CellsAt.take s6 hnd hoff
    have hr1 : h1.read r = .ok n := by
      rw [← hr]
      refine read_same (fun _ => l3) ?_
      intro b0 i0 e
      exact l5 b0 (hoff b0 i0 e)
    obtain ⟨hg, hge⟩ : ∃ hg : Heap, hg = h1.setBlock b none := ⟨_, rfl⟩
    have hgb : ∀ x, x ≠ b → hg.blocks[x]? = h1.blocks[x]? := by
      intro x hx
      rw [hge]
      simp only [Heap.setBlock]
      exact List.getElem?_set_ne (Ne.symm hx)
    have hbl := lt_of_block l6
    have hgn : hg.blocks[b]? = some none := by rw [hge]; simp [Heap.setBlock, hbl]
    have hgl : hg.blocks.length = h1.blocks.length := by rw [hge]; simp [Heap.setBlock]
    have hrg : hg.read r = .ok n := by
      rw [← hr1]
      refine read_same (fun _ => by rw [hge]; rfl) ?_
      intro b0 i0 e
      exact hgb b0 fun e2 => hoff b0 i0 e (by simp [e2])
    obtain ⟨h2, hw2⟩ := write_ok hrg { n with nodes := none }
    obtain ⟨h3, hw3⟩ := write_ok hr { n with nodes := none }
    obtain ⟨w1, w2, w3, w4, w5⟩ := write_facts hw2
    obtain ⟨v1, v2, v3, v4, v5⟩ := write_facts hw3
    have hrb : ∀ x, x ∈ b :: fs → ∀ i, r ≠ .cell x i := fun x hx i e => hoff x i e hx
    refine ⟨{ n with nodes := none }, h2, ?_, by omega, ?_, h3, hw3, ?_, ?_⟩
    · simp only [destroyBranch, Res.bind_eq, hr, Res.ok_bind, branch_type s2, if_true, s3, block_eq.mpr s4]
      rw [hnum, l1, Res.ok_bind]
      simp only [freeNodes, Res.bind_eq, hr1, Res.ok_bind, s3, Res.ofOption, block_eq.mpr l6, ← hge]
      exact hw2
    · intro x hx
      rw [w3 x (hrb x hx)]
      rcases List.mem_cons.mp hx with rfl | hxf
      · exact hgn
      · rw [hgb x (fun e => (List.nodup_cons.mp hnd).1 (e ▸ hxf))]
        exact l4 x hxf
    · cases r with
      | cell b0 i0 =>
        rw [w4 ⟨b0, i0, rfl⟩, v4 ⟨b0, i0, rfl⟩, hge]
        exact l3
      | var k =>
        have hv : hg.vars = h.vars := by rw [hge]; exact l3
        simp only [Heap.write, hv] at hw2 hw3
        split at hw2
        · rename_i hk
          rw [if_pos hk] at hw3
          cases hw2; cases hw3; rfl
        · cases hw2
    · intro x hx
      have hxb : x ≠ b := fun e => hx (by simp [e])
      have hsame : hg.blocks[x]? = h.blocks[x]? := by rw [hgb x hxb, l5 x hx]
      cases r with
      | var k => rw [w5 ⟨k, rfl⟩, v5 ⟨k, rfl⟩, hsame]
      | cell b0 i0 =>
        by_cases hx0 : x = b0
        · subst hx0
          simp only [Heap.write] at hw2 hw3
          have hbe : hg.block x = h.block x := by unfold Heap.block; rw [hsame]
          rw [hbe] at hw2
          cases hbb : h.block x with
          | ok a0 =>
            rw [hbb, Res.ok_bind] at hw2 hw3
            cases hsc : a0.setCell i0 (some { n with nodes := none }) with
            | ok a1 =>
              rw [hsc, Res.ok_bind] at hw2 hw3
              cases hw2; cases hw3
              have hxl := lt_of_block (block_eq.mp hbb)
              simp only [Heap.setBlock]
              rw [List.getElem?_set_self (by omega), List.getElem?_set_self hxl]
            | ub => rw [hsc] at hw2; cases hw2
            | stop => rw [hsc] at hw2; cases hw2
            | hang => rw [hsc] at hw2; cases hw2
          | ub => rw [hbb] at hw2; cases hw2
          | stop => rw [hbb] at hw2; cases hw2
          | hang => rw [hbb] at hw2; cases hw2
        · rw [w3 x (by intro i e; cases e; exact hx0 rfl), v3 x (by intro i e; cases e; exact hx0 rfl), hsame]

end Verif.Adt
