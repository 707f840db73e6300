import Verif.Props.AdtSpec
/-! # Local changes of a data tree -/
namespace Verif.Adt

theorem block_eq {h : Heap} {b : Nat} {a : Arr Node} : h.block b = .ok a ↔ h.blocks[b]? = some (some a) := by
  unfold Heap.block
  constructor
  · intro e
    split at e
    · rename_i x hx; cases e; exact hx
    · cases e
  · intro e; rw [e]

theorem lt_of_block {h : Heap} {b : Nat} {x : Option (Arr Node)} (e : h.blocks[b]? = some x) : b < h.blocks.length := by
  rcases Nat.lt_or_ge b h.blocks.length with hl | hl
  · exact hl
  · rw [List.getElem?_eq_none hl] at e; cases e

mutual
theorem Shows.frame {h h' : Heap} : ∀ (t : Tree) (n : Node) (f : List Nat), Shows h t n f → (∀ b ∈ f, h'.blocks[b]? = h.blocks[b]?) → Shows h' t n f
  | .leaf name v, n, f, hs, _ => by
    simp only [Shows] at hs ⊢
    exact hs
  | .branch name arr kids, n, f, hs, hf => by
    simp only [Shows] at hs ⊢
    obtain ⟨h1, h2, b, a, fs, h3, h4, h5, h6, h7⟩ := hs
    subst h7
    exact ⟨h1, h2, b, a, fs, h3, (hf b (by simp)).trans h4, h5, ShowsAll.frame kids _ fs h6 fun x hx => hf x (by simp [hx]), rfl⟩
theorem ShowsAll.frame {h h' : Heap} : ∀ (ts : List Tree) (cs : List (Option Node)) (f : List Nat), ShowsAll h ts cs f →
    (∀ b ∈ f, h'.blocks[b]? = h.blocks[b]?) → ShowsAll h' ts cs f
  | [], cs, f, hs, _ => by
    simp only [ShowsAll] at hs ⊢
    exact hs
  | t :: ts, cs, f, hs, hf => by
    simp only [ShowsAll] at hs ⊢
    obtain ⟨n, cs', f1, f2, h1, h2, h3, h4⟩ := hs
    subst h4
    exact ⟨n, cs', f1, f2, h1, Shows.frame t n f1 h2 fun x hx => hf x (by simp [hx]), ShowsAll.frame ts cs' f2 h3 fun x hx => hf x (by simp [hx]), rfl⟩
end

mutual
theorem Shows.live {h : Heap} : ∀ (t : Tree) (n : Node) (f : List Nat), Shows h t n f → ∀ b ∈ f, ∃ a, h.blocks[b]? = some (some a)
  | .leaf name v, n, f, hs, b, hb => by
    simp only [Shows] at hs
    rw [hs.2.2] at hb; cases hb
  | .branch name arr kids, n, f, hs, x, hx => by
    simp only [Shows] at hs
    obtain ⟨h1, h2, b, a, fs, h3, h4, h5, h6, h7⟩ := hs
    subst h7
    rcases List.mem_cons.mp hx with rfl | hx
    · exact ⟨a, h4⟩
    · exact ShowsAll.live kids _ fs h6 x hx
theorem ShowsAll.live {h : Heap} : ∀ (ts : List Tree) (cs : List (Option Node)) (f : List Nat), ShowsAll h ts cs f → ∀ b ∈ f, ∃ a, h.blocks[b]? = some (some a)
  | [], cs, f, hs, b, hb => by
    simp only [ShowsAll] at hs
    rw [hs.2] at hb; cases hb
  | t :: ts, cs, f, hs, b, hb => by
    simp only [ShowsAll] at hs
    obtain ⟨n, cs', f1, f2, h1, h2, h3, h4⟩ := hs
    subst h4
    rcases List.mem_append.mp hb with hb | hb
    · exact Shows.live t n f1 h2 b hb
    · exact ShowsAll.live ts cs' f2 h3 b hb
end

theorem Shows.lt {h : Heap} {t : Tree} {n : Node} {f : List Nat} (hs : Shows h t n f) : ∀ b ∈ f, b < h.blocks.length := by
  intro b hb
  obtain ⟨a, ha⟩ := Shows.live t n f hs b hb
  exact lt_of_block ha

theorem ShowsAll.len {h : Heap} : ∀ (ts : List Tree) (cs : List (Option Node)) (f : List Nat), ShowsAll h ts cs f → cs.length = ts.length
  | [], cs, f, hs => by
    simp only [ShowsAll] at hs
    rw [hs.1]; rfl
  | t :: ts, cs, f, hs => by
    simp only [ShowsAll] at hs
    obtain ⟨n, cs', f1, f2, h1, h2, h3, h4⟩ := hs
    subst h1
    simp [ShowsAll.len ts cs' f2 h3]

/-- One of the children, and what happens if it changes. -/
theorem ShowsAll.split {h : Heap} : ∀ (ts : List Tree) (cs : List (Option Node)) (f : List Nat) (i : Nat) (k : Tree), ShowsAll h ts cs f → ts[i]? = some k →
    ∃ m fa fk fb, cs[i]? = some (some m) ∧ Shows h k m fk ∧ f = fa ++ (fk ++ fb) ∧
      ∀ (h' : Heap) (m' : Node) (k' : Tree) (fk' : List Nat), (∀ b, b ∈ fa ∨ b ∈ fb → h'.blocks[b]? = h.blocks[b]?) → Shows h' k' m' fk' →
        ShowsAll h' (ts.set i k') (cs.set i (some m')) (fa ++ (fk' ++ fb))
  | [], cs, f, i, k, hs, hi => by simp at hi
  | t :: ts, cs, f, 0, k, hs, hi => by
    simp only [ShowsAll] at hs
    obtain ⟨n, cs', f1, f2, h1, h2, h3, h4⟩ := hs
    simp only [List.getElem?_cons_zero, Option.some.injEq] at hi
    subst hi h1 h4
    refine ⟨n, [], f1, f2, rfl, h2, rfl, ?_⟩
    intro h' m' k' fk' hfr hk'
    simp only [List.set_cons_zero, ShowsAll, List.nil_append]
    exact ⟨m', cs', fk', f2, rfl, hk', ShowsAll.frame ts cs' f2 h3 fun b hb => hfr b (.inr hb), rfl⟩
  | t :: ts, cs, f, i + 1, k, hs, hi => by
    simp only [ShowsAll] at hs
    obtain ⟨n, cs', f1, f2, h1, h2, h3, h4⟩ := hs
    simp only [List.getElem?_cons_succ] at hi
    obtain ⟨m, fa, fk, fb, e1, e2, e3, e4⟩ := ShowsAll.split ts cs' f2 i k h3 hi
    subst h1 h4 e3
    refine ⟨m, f1 ++ fa, fk, fb, by simpa using e1, e2, by simp, ?_⟩
    intro h' m' k' fk' hfr hk'
    simp only [List.set_cons_succ, ShowsAll]
    refine ⟨n, _, f1, fa ++ (fk' ++ fb), rfl, Shows.frame t n f1 h2 fun b hb => hfr b (.inl (by simp [hb])), ?_, by simp⟩
    exact e4 h' m' k' fk' (fun b hb => hfr b (by rcases hb with hb | hb <;> simp [hb])) hk'

/-- One more child. -/
theorem ShowsAll.snoc {h : Heap} {new : Tree} {m : Node} {fm : List Nat} (hm : Shows h new m fm) : ∀ (ts : List Tree) (cs : List (Option Node)) (f : List Nat),
    ShowsAll h ts cs f → ShowsAll h (ts ++ [new]) (cs ++ [some m]) (f ++ fm)
  | [], cs, f, hs => by
    simp only [ShowsAll] at hs
    rw [hs.1, hs.2]
    simp only [List.nil_append, ShowsAll]
    exact ⟨m, [], fm, [], rfl, hm, ⟨rfl, rfl⟩, by simp⟩
  | t :: ts, cs, f, hs => by
    simp only [ShowsAll] at hs
    obtain ⟨n, cs', f1, f2, h1, h2, h3, h4⟩ := hs
    subst h1 h4
    simp only [List.cons_append, ShowsAll]
    exact ⟨n, cs' ++ [some m], f1, f2 ++ fm, rfl, h2, ShowsAll.snoc hm ts cs' f2 h3, by simp⟩

/-! ### Reading and writing -/

theorem read_cell {h : Heap} {b i : Nat} {a : Arr Node} {n : Node} (hb : h.blocks[b]? = some (some a)) (hc : a.cells[i]? = some (some n)) :
    h.read (.cell b i) = .ok n := by
  simp only [Heap.read, cellAt, Arr.getCell]
  rw [block_eq.mpr hb]
  simp [Res.ok_bind, hc, Res.ofOption]

theorem write_cell {h : Heap} {b i : Nat} {a : Arr Node} (n : Node) (hb : h.blocks[b]? = some (some a)) (hi : i < a.cells.length) :
    h.write n (.cell b i) = .ok (h.setBlock b (some { a with cells := a.cells.set i (some n) })) := by
  simp only [Heap.write, Arr.setCell]
  rw [block_eq.mpr hb]
  simp [Res.ok_bind, hi]

/-- What can be read can be written. -/
theorem write_ok {h : Heap} {r : Ref} {n : Node} (hr : h.read r = .ok n) (m : Node) : ∃ h', h.write m r = .ok h' := by
  cases r with
  | var k =>
    simp only [Heap.read, Res.ofOption] at hr
    simp only [Heap.write]
    cases hk : h.vars[k]? with
    | none => rw [hk] at hr; cases hr
    | some x =>
      have : k < h.vars.length := by
        rcases Nat.lt_or_ge k h.vars.length with hl | hl
        · exact hl
        · rw [List.getElem?_eq_none hl] at hk; cases hk
      exact ⟨_, if_pos this⟩
  | cell b i =>
    simp only [Heap.read, cellAt, Arr.getCell] at hr
    cases hb : h.block b with
    | ok a =>
      rw [hb, Res.ok_bind] at hr
      cases hc : a.cells[i]? with
      | none => rw [hc] at hr; cases hr
      | some c =>
        have : i < a.cells.length := by
          rcases Nat.lt_or_ge i a.cells.length with hl | hl
          · exact hl
          · rw [List.getElem?_eq_none hl] at hc; cases hc
        exact ⟨_, write_cell m (block_eq.mp hb) this⟩
    | ub => rw [hb] at hr; cases hr
    | stop => rw [hb] at hr; cases hr
    | hang => rw [hb] at hr; cases hr

theorem write_read {h h' : Heap} {r : Ref} {m : Node} (hw : h.write m r = .ok h') : h'.read r = .ok m := by
  cases r with
  | var k =>
    simp only [Heap.write] at hw
    split at hw
    · rename_i hk
      cases hw
      simp only [Heap.read, Res.ofOption]
      simp [hk]
    · cases hw
  | cell b i =>
    simp only [Heap.write, Arr.setCell] at hw
    cases hb : h.block b with
    | ok a =>
      rw [hb, Res.ok_bind] at hw
      split at hw
      · rename_i hi
        rw [Res.ok_bind] at hw
        cases hw
        refine read_cell (a := { a with cells := a.cells.set i (some m) }) ?_ (by simp [hi])
        have := lt_of_block (block_eq.mp hb)
        simp [Heap.setBlock, this]
      · cases hw
    | ub => rw [hb] at hw; cases hw
    | stop => rw [hb] at hw; cases hw
    | hang => rw [hb] at hw; cases hw

theorem write_facts {h h' : Heap} {r : Ref} {m : Node} (hw : h.write m r = .ok h') : h'.blocks.length = h.blocks.length ∧ h'.vars.length = h.vars.length ∧
    (∀ b, (∀ i, r ≠ .cell b i) → h'.blocks[b]? = h.blocks[b]?) ∧ ((∃ b i, r = .cell b i) → h'.vars = h.vars) ∧ ((∃ k, r = .var k) → h'.blocks = h.blocks) := by
  cases r with
  | var k =>
    simp only [Heap.write] at hw
    split at hw
    · cases hw
      simp
    · cases hw
  | cell b i =>
    simp only [Heap.write, Arr.setCell] at hw
    cases hb : h.block b with
    | ok a =>
      rw [hb, Res.ok_bind] at hw
      split at hw
      · rw [Res.ok_bind] at hw
        cases hw
        refine ⟨by simp [Heap.setBlock], by simp [Heap.setBlock], ?_, by simp [Heap.setBlock], by simp⟩
        intro x hx
        have : b ≠ x := by intro e; subst e; exact hx i rfl
        simp only [Heap.setBlock]
        exact List.getElem?_set_ne this
      · cases hw
    | ub => rw [hb] at hw; cases hw
    | stop => rw [hb] at hw; cases hw
    | hang => rw [hb] at hw; cases hw

theorem read_same {h h' : Heap} {r : Ref} (hv : (∃ k, r = .var k) → h'.vars = h.vars) (hb : ∀ b i, r = .cell b i → h'.blocks[b]? = h.blocks[b]?) : h'.read r = h.read r := by
  cases r with
  | var k => unfold Heap.read; rw [hv ⟨k, rfl⟩]
  | cell b i =>
    simp only [Heap.read, Heap.block]
    rw [hb b i rfl]

/-! ### Local changes -/

/-- What has happened to a heap when the tree at `r` was changed: only the node at `r` and the blocks `f` have changed. -/
structure After (h : Heap) (r : Ref) (f : List Nat) (h' : Heap) (t' : Tree) (f' : List Nat) : Prop where
  holds : Holds h' r t' f'
  fresh : ∀ b ∈ f', b ∈ f ∨ h.blocks.length ≤ b
  grows : h.blocks.length ≤ h'.blocks.length
  rest : ∃ n h1, h.write n r = .ok h1 ∧ h'.vars = h1.vars ∧ ∀ b < h.blocks.length, b ∉ f → h'.blocks[b]? = h1.blocks[b]?

theorem write_same {h : Heap} {r : Ref} {n : Node} (hr : h.read r = .ok n) (hn : n ≠ {}) : h.write n r = .ok h := by
  cases r with
  | var k =>
    simp only [Heap.read, Res.ofOption] at hr
    simp only [Heap.write]
    cases hk : h.vars[k]? with
    | none => rw [hk] at hr; cases hr
    | some x =>
      rw [hk] at hr
      cases hr
      obtain ⟨hl, hx⟩ := List.getElem?_eq_some_iff.mp hk
      rw [if_pos hl, ← hx, List.set_getElem_self]
  | cell b i =>
    simp only [Heap.read, cellAt, Arr.getCell] at hr
    cases hb : h.block b with
    | ok a =>
      rw [hb, Res.ok_bind] at hr
      cases hc : a.cells[i]? with
      | none => rw [hc] at hr; cases hr
      | some c =>
        rw [hc] at hr
        cases c with
        | none => cases hr; exact absurd rfl hn
        | some x =>
          cases hr
          obtain ⟨hl, hx⟩ := List.getElem?_eq_some_iff.mp hc
          rw [write_cell _ (block_eq.mp hb) hl]
          have e1 : a.cells.set i (some x) = a.cells := by rw [show some x = a.cells[i] from hx.symm, List.set_getElem_self]
          have e2 := block_eq.mp hb
          obtain ⟨hl2, hx2⟩ := List.getElem?_eq_some_iff.mp e2
          simp only [Heap.setBlock, Option.getD_some]
          rw [e1, show some ({ a with cells := a.cells } : Arr Node) = h.blocks[b] from hx2.symm, List.set_getElem_self]
    | ub => rw [hb] at hr; cases hr
    | stop => rw [hb] at hr; cases hr
    | hang => rw [hb] at hr; cases hr

theorem child_eq {h : Heap} {r : Ref} {n : Node} {b : Nat} {a : Arr Node} {i : Nat} (hr : h.read r = .ok n) (hn : n.nodes = some b)
    (hb : h.blocks[b]? = some (some a)) (hi : i < a.num) : child h r i = some (.cell b i) := by
  unfold child
  simp only [hr, hn, block_eq.mpr hb, if_pos hi]

/-- A change of the tree at a place below `r` is a change of the tree at `r`. -/
theorem lift {α : Type} (op : Heap → Ref → Res (α × Heap)) (g : Tree → Option Tree) (R : Heap → Ref → α → Prop)
    (hop : ∀ h r t f t', Holds h r t f → g t = some t' → ∃ x h' f', op h r = .ok (x, h') ∧ After h r f h' t' f' ∧ R h' r x) :
    ∀ (p : Path) (h : Heap) (r : Ref) (t t' : Tree) (f : List Nat), Holds h r t f → t.modify g p = some t' →
      ∃ r' x h' f', reach h r p = some r' ∧ op h r' = .ok (x, h') ∧ After h r f h' t' f' ∧ reach h' r p = some r' ∧ R h' r' x
  | [], h, r, t, t', f, hh, hg => by
    obtain ⟨x, h', f', h1, h2, h3⟩ := hop h r t f t' hh hg
    exact ⟨r, x, h', f', rfl, h1, h2, rfl, h3⟩
  | i :: p, h, r, t, t', f, ⟨n, hr, hs, hnd, hoff⟩, hg => by
    cases t with
    | leaf name v => simp [Tree.modify] at hg
    | branch name arr kids =>
      simp only [Tree.modify] at hg
      cases hk : kids[i]? with
      | none => rw [hk] at hg; simp at hg
      | some k =>
        rw [hk] at hg
        simp only [Option.bind_some] at hg
        cases hm : k.modify g p with
        | none => rw [hm] at hg; simp at hg
        | some k' =>
          rw [hm] at hg
          simp only [Option.map_some, Option.some.injEq] at hg
          subst hg
          have hs0 := hs
          simp only [Shows] at hs
          obtain ⟨s1, s2, b, a, fs, s3, s4, s5, s6, s7⟩ := hs
          subst s7
          obtain ⟨m, fa, fk, fb, e1, e2, e3, e4⟩ := ShowsAll.split kids _ fs i k s6 hk
          subst e3
          have hlen := ShowsAll.len _ _ _ s6
          have hi : i < a.num := by
            rcases Nat.lt_or_ge i a.num with hl | hl
            · exact hl
            · rw [List.getElem?_eq_none (by simp; omega)] at e1; cases e1
          have hcell : a.cells[i]? = some (some m) := by rw [List.getElem?_take_of_lt hi] at e1; exact e1
          have hchild := child_eq hr s3 s4 hi
          have hbl := lt_of_block s4
          have hnd' := hnd
          rw [List.nodup_cons] at hnd
          obtain ⟨hbfs, hfs⟩ := hnd
          have hH : Holds h (.cell b i) k fk := by
            refine ⟨m, read_cell s4 hcell, e2, ?_, ?_⟩
            · exact (List.nodup_append.mp (List.nodup_append.mp hfs).2.1).1
            · intro b' i' e
              cases e
              intro hb
              exact hbfs (by simp [hb])
          obtain ⟨r', x, h', fk', r1, r2, ⟨hh', hfresh, hgrow, n1, h1, hw, hv, hrest⟩, r4, r5⟩ := lift op g R hop p h (.cell b i) k k' fk hH hm
          obtain ⟨m', hr', hs', hnd2, hoff2⟩ := hh'
          have hcl : i < a.cells.length := by have := s5.1; have := s5.2; omega
          have hw' := hw
          rw [write_cell n1 s4 hcl] at hw
          cases hw
          have hbk : b ∉ fk := fun hb => hbfs (by simp [hb])
          have hb' := hrest b hbl hbk
          simp only [Heap.setBlock, List.getElem?_set_self hbl] at hb'
          have hm' : m' = n1 := by
            have := read_cell hb' (i := i) (n := n1) (by simp [hcl])
            rw [this] at hr'
            cases hr'; rfl
          subst hm'
          have hother : ∀ b' < h.blocks.length, b' ∉ fk → b' ≠ b → h'.blocks[b']? = h.blocks[b']? := by
            intro b' hl hb2 hne
            rw [hrest b' hl hb2]
            simp only [Heap.setBlock]
            exact List.getElem?_set_ne (Ne.symm hne)
          have hvars : h'.vars = h.vars := hv
          have hrr : h'.read r = .ok n := by
            rw [← hr]
            refine read_same (fun _ => hvars) ?_
            intro b0 i0 e
            have hb0 := hoff b0 i0 e
            have hl0 : b0 < h.blocks.length := by
              subst e
              simp only [Heap.read] at hr
              cases hbb : h.block b0 with
              | ok a0 => exact lt_of_block (block_eq.mp hbb)
              | ub => rw [hbb] at hr; cases hr
              | stop => rw [hbb] at hr; cases hr
              | hang => rw [hbb] at hr; cases hr
            simp only [List.mem_cons, List.mem_append, not_or] at hb0
            exact hother b0 hl0 hb0.2.2.1 hb0.1
          have hlive := ShowsAll.live kids _ _ s6
          have hall := e4 h' m' k' fk' (by
            intro b' hb2
            have hl : b' < h.blocks.length := by
              obtain ⟨a', ha'⟩ := hlive b' (by rcases hb2 with hb2 | hb2 <;> simp [hb2])
              exact lt_of_block ha'
            refine hother b' hl ?_ ?_
            · intro hbk2
              have n1 := List.nodup_append.mp hfs
              have n2 := List.nodup_append.mp n1.2.1
              rcases hb2 with hb2 | hb2
              · exact n1.2.2 b' hb2 b' (by simp [hbk2]) rfl
              · exact n2.2.2 b' hbk2 b' hb2 rfl
            · intro e
              subst e
              exact hbfs (by rcases hb2 with hb2 | hb2 <;> simp [hb2])) hs'
          have hnew : Shows h' (.branch name arr (kids.set i k')) n (b :: (fa ++ (fk' ++ fb))) := by
            simp only [Shows]
            refine ⟨s1, s2, b, { a with cells := a.cells.set i (some m') }, _, s3, hb', ⟨by simpa using s5.1, s5.2⟩, ?_, rfl⟩
            simp only [List.take_set]
            exact hall
          have hfk'lt : ∀ b' ∈ fk', b' ∈ fk ∨ h.blocks.length ≤ b' := hfresh
          have hdisj : (b :: (fa ++ (fk' ++ fb))).Nodup := by
            have n1 := List.nodup_append.mp hfs
            have n2 := List.nodup_append.mp n1.2.1
            have hlt : ∀ b' ∈ fa ++ (fk ++ fb), b' < h.blocks.length := by
              intro b' hb2
              obtain ⟨a', ha'⟩ := hlive b' hb2
              exact lt_of_block ha'
            rw [List.nodup_cons, List.nodup_append, List.nodup_append]
            refine ⟨?_, n1.1, ⟨hnd2, n2.2.1, ?_⟩, ?_⟩
            · intro hb2
              rcases List.mem_append.mp hb2 with hb2 | hb2
              · exact hbfs (by simp [hb2])
              · rcases List.mem_append.mp hb2 with hb2 | hb2
                · rcases hfk'lt b hb2 with h3 | h3
                  · exact hbk h3
                  · omega
                · exact hbfs (by simp [hb2])
            · intro x hx y hy e
              subst e
              rcases hfk'lt x hx with h3 | h3
              · exact n2.2.2 x h3 x hy rfl
              · have := hlt x (by simp [hy]); omega
            · intro x hx y hy e
              subst e
              rcases List.mem_append.mp hy with hy | hy
              · rcases hfk'lt x hy with h3 | h3
                · exact n1.2.2 x hx x (by simp [h3]) rfl
                · have := hlt x (by simp [hx]); omega
              · exact n1.2.2 x hx x (by simp [hy]) rfl
          have hnz : n ≠ {} := by
            intro e
            rw [e] at s3
            cases s3
          refine ⟨r', x, h', b :: (fa ++ (fk' ++ fb)), ?_, r2, ⟨⟨n, hrr, hnew, hdisj, ?_⟩, ?_, hgrow, n, h, write_same hr hnz, hvars, ?_⟩, ?_, r5⟩
          · simp only [reach, hchild, Option.bind_some]; exact r1
          · intro b0 i0 e hb0
            have hb1 := hoff b0 i0 e
            simp only [List.mem_cons, List.mem_append, not_or] at hb0 hb1
            have hl0 : b0 < h.blocks.length := by
              subst e
              simp only [Heap.read] at hr
              cases hbb : h.block b0 with
              | ok a0 => exact lt_of_block (block_eq.mp hbb)
              | ub => rw [hbb] at hr; cases hr
              | stop => rw [hbb] at hr; cases hr
              | hang => rw [hbb] at hr; cases hr
            rcases hb0 with h3 | h3 | h3 | h3
            · exact hb1.1 h3
            · exact hb1.2.1 h3
            · rcases hfk'lt b0 h3 with h4 | h4
              · exact hb1.2.2.1 h4
              · omega
            · exact hb1.2.2.2 h3
          · intro b' hb2
            simp only [List.mem_cons, List.mem_append] at hb2 ⊢
            rcases hb2 with h3 | h3 | h3 | h3
            · exact .inl (.inl h3)
            · exact .inl (.inr (.inl h3))
            · rcases hfk'lt b' h3 with h4 | h4
              · exact .inl (.inr (.inr (.inl h4)))
              · exact .inr h4
            · exact .inl (.inr (.inr (.inr h3)))
          · intro b' hl hb2
            simp only [List.mem_cons, List.mem_append, not_or] at hb2
            exact hother b' hl hb2.2.2.1 hb2.1
          · have hchild' : child h' r i = some (.cell b i) := child_eq hrr s3 hb' (by simpa using hi)
            simp only [reach, hchild', Option.bind_some]; exact r4

end Verif.Adt
