import Verif.Props.Adt
import Verif.Props.CStr
/-! # Searching a data tree -/
namespace Verif.Adt

theorem sameText_run {s t : Bytes} (rest : Bytes) (hs : (0 : UInt8) ∉ s) (ht : (0 : UInt8) ∉ t) : sameText (some s) (t ++ 0 :: rest) = .ok (decide (s = t)) := by
  obtain ⟨v, h1, h2, _⟩ := CStr.C39_compare s t [] rest hs ht
  simp only [sameText, Res.ofOption, Res.bind_eq, Res.ok_bind, Res.pure_eq, h1]
  congr 1
  rw [Bool.eq_iff_iff]
  simp [h2]

/-- The cells of an array from the `i`-th on. -/
def CellsAt (a : Arr Node) (i : Nat) (cs : List (Option Node)) : Prop := ∀ j < cs.length, a.cells[i + j]? = cs[j]?

theorem CellsAt.take {a : Arr Node} : CellsAt a 0 (a.cells.take a.num) := by
  intro j hj
  rw [List.length_take] at hj
  rw [List.getElem?_take_of_lt (by omega), Nat.zero_add]

theorem CellsAt.tail {a : Arr Node} {i : Nat} {c : Option Node} {cs : List (Option Node)} (h : CellsAt a i (c :: cs)) : a.cells[i]? = some c ∧ CellsAt a (i + 1) cs := by
  constructor
  · simpa using h 0 (by simp)
  · intro j hj
    have := h (j + 1) (by simpa using hj)
    rw [show i + 1 + j = i + (j + 1) by omega, this]
    simp

theorem cellAt_eq {a : Arr Node} {i : Nat} {n : Node} (h : a.cells[i]? = some (some n)) : cellAt a i = .ok n := by
  simp [cellAt, Arr.getCell, h, Res.ofOption, Res.ok_bind]

theorem Shows.name {h : Heap} {t : Tree} {n : Node} {f : List Nat} (hs : Shows h t n f) : n.name = t.name := by
  cases t <;> simp only [Shows] at hs <;> exact hs.1

theorem findName_run {h : Heap} {a : Arr Node} {b : Nat} {name rest : Bytes} (hn : (0 : UInt8) ∉ name) : ∀ (ts : List Tree) (cs : List (Option Node)) (f : List Nat) (i : Nat),
    ShowsAll h ts cs f → AllNamed ts → CellsAt a i cs →
      findName a b (name ++ 0 :: rest) ts.length i = .ok ((ts.findIdx? (fun k => k.name = some name)).map fun j => .cell b (i + j))
  | [], cs, f, i, _, _, _ => by simp [findName]
  | t :: ts, cs, f, i, hs, hnm, hc => by
    simp only [ShowsAll] at hs
    obtain ⟨n, cs', f1, f2, h1, h2, h3, h4⟩ := hs
    subst h1
    simp only [AllNamed] at hnm
    obtain ⟨⟨s, hsn, hs0⟩, hrest⟩ := hnm
    obtain ⟨c1, c2⟩ := hc.tail
    have ih := findName_run (b := b) (rest := rest) hn ts cs' f2 (i + 1) h3 hrest c2
    have hname : n.name = some s := by rw [Shows.name h2, hsn]
    simp only [List.length_cons, findName, Res.bind_eq, cellAt_eq c1, Res.ok_bind, hname, sameText_run rest hs0 hn, List.findIdx?_cons, hsn, Option.some.injEq]
    by_cases he : s = name
    · simp [he]
    · simp only [he, decide_false, Bool.false_eq_true, if_false, ih, Option.map_map]
      congr 1
      cases List.findIdx? (fun k => decide (k.name = some name)) ts with
      | none => rfl
      | some j => simp only [Option.map_some, Function.comp]; congr 2; omega

theorem findDeep_run {h : Heap} {r : Ref} {a : Arr Node} {b : Nat} {name : Bytes} {rec : Ref → Res (Option Ref)} (hch : ∀ i < a.num, child h r i = some (.cell b i)) :
    ∀ (ts : List Tree) (cs : List (Option Node)) (f : List Nat) (i : Nat), ShowsAll h ts cs f → CellsAt a i cs → i + ts.length ≤ a.num →
    (∀ t ∈ ts, ∀ j n f', a.cells[j]? = some (some n) → Shows h t n f' → rec (.cell b j) = .ok ((t.find name true).bind (reach h (.cell b j)))) →
    (∀ t ∈ ts, ∀ j n f' p, a.cells[j]? = some (some n) → Shows h t n f' → t.find name true = some p → (reach h (.cell b j) p).isSome) →
      findDeep rec b ts.length i = .ok ((findBelow name i ts).bind (reach h r))
  | [], cs, f, i, _, _, _, _, _ => by simp [findDeep, findBelow]
  | t :: ts, cs, f, i, hs, hc, hi, hrec, hsome => by
    simp only [ShowsAll] at hs
    obtain ⟨n, cs', f1, f2, h1, h2, h3, h4⟩ := hs
    subst h1
    obtain ⟨c1, c2⟩ := hc.tail
    simp only [List.length_cons] at hi
    have ih := findDeep_run hch ts cs' f2 (i + 1) h3 c2 (by omega) (fun t ht => hrec t (by simp [ht])) (fun t ht => hsome t (by simp [ht]))
    have hr := hrec t (by simp) i n f1 c1 h2
    simp only [List.length_cons, findDeep, Res.bind_eq, hr, Res.ok_bind, findBelow]
    cases hf : t.find name true with
    | none => simp only [Option.bind_none, Option.isSome_none, Bool.false_eq_true, if_false, ih]
    | some p =>
      have := hsome t (by simp) i n f1 p c1 h2 hf
      simp only [Option.bind_some, this, if_true, reach, hch i (by omega), Res.pure_eq]

mutual
theorem find_at (name : Bytes) : ∀ (t : Tree) (deep : Bool) (p : Path), t.find name deep = some p → ∃ k, t.at_ p = some k ∧ k.name = some name ∧ p ≠ []
  | .leaf _ _, deep, p, h => by simp [Tree.find] at h
  | .branch _ true _, deep, p, h => by simp [Tree.find] at h
  | .branch _ false kids, deep, p, h => by
    simp only [Tree.find] at h
    cases hi : kids.findIdx? (fun k => k.name = some name) with
    | some i =>
      rw [hi] at h
      simp only [Option.some.injEq] at h
      subst h
      obtain ⟨hl, h1, _⟩ := List.findIdx?_eq_some_iff_getElem.mp hi
      exact ⟨kids[i], by simp [Tree.at_, hl], by simpa using h1, by simp⟩
    | none =>
      rw [hi] at h
      cases deep with
      | false => simp at h
      | true =>
        simp only [if_true] at h
        obtain ⟨j, q, k, e1, e2, e3⟩ := findBelow_at name kids 0 p h
        subst e1
        refine ⟨k, ?_, e3, by simp⟩
        simp only [Tree.at_]
        rw [Nat.zero_add]
        exact e2
theorem findBelow_at (name : Bytes) : ∀ (ts : List Tree) (i : Nat) (p : Path), findBelow name i ts = some p →
    ∃ j q k, p = (i + j) :: q ∧ ts[j]?.bind (Tree.at_ q) = some k ∧ k.name = some name
  | [], i, p, h => by simp [findBelow] at h
  | t :: ts, i, p, h => by
    simp only [findBelow] at h
    cases hf : t.find name true with
    | some q =>
      rw [hf] at h
      cases h
      obtain ⟨k, e1, e2, _⟩ := find_at name t true q hf
      exact ⟨0, q, k, rfl, by simpa using e1, e2⟩
    | none =>
      rw [hf] at h
      obtain ⟨j, q, k, e1, e2, e3⟩ := findBelow_at name ts (i + 1) p h
      exact ⟨j + 1, q, k, by rw [e1]; congr 1; omega, by simpa using e2, e3⟩
end

/-- What a branch looks like. -/
theorem branch_facts {h : Heap} {r : Ref} {n : Node} {name : Option Bytes} {arr : Bool} {kids : List Tree} {f : List Nat} (hr : h.read r = .ok n)
    (hs : Shows h (.branch name arr kids) n f) : ∃ b a fs, n.nodes = some b ∧ h.block b = .ok a ∧ a.num = kids.length ∧ ShowsAll h kids (a.cells.take a.num) fs ∧
      n.num.type = (if arr then .array else .object) ∧ isBranch n = true ∧ ∀ i < a.num, child h r i = some (.cell b i) := by
  simp only [Shows] at hs
  obtain ⟨s1, s2, b, a, fs, s3, s4, s5, s6, s7⟩ := hs
  have hlen := ShowsAll.len _ _ _ s6
  have hnum : a.num = kids.length := by
    rw [List.length_take] at hlen
    have := s5.1; have := s5.2; omega
  exact ⟨b, a, fs, s3, block_eq.mpr s4, hnum, s6, s2, branch_type s2, fun i hi => child_eq hr s3 s4 hi⟩

/-- Every place of a tree has a node. -/
theorem reach_at {h : Heap} : ∀ (p : Path) (r : Ref) (n : Node) (t k : Tree) (f : List Nat), h.read r = .ok n → Shows h t n f → t.at_ p = some k →
    ∃ r' n' f', reach h r p = some r' ∧ h.read r' = .ok n' ∧ Shows h k n' f'
  | [], r, n, t, k, f, hr, hs, hk => by
    simp only [Tree.at_, Option.some.injEq] at hk
    subst hk
    exact ⟨r, n, f, rfl, hr, hs⟩
  | i :: p, r, n, .leaf _ _, k, f, hr, hs, hk => by simp [Tree.at_] at hk
  | i :: p, r, n, .branch name arr kids, k, f, hr, hs, hk => by
    obtain ⟨b, a, fs, b1, b2, b3, b4, b5, b6, b7⟩ := branch_facts hr hs
    simp only [Tree.at_] at hk
    cases hi : kids[i]? with
    | none => rw [hi] at hk; simp at hk
    | some x =>
      rw [hi] at hk
      simp only [Option.bind_some] at hk
      obtain ⟨m, fa, fk, fb, e1, e2, e3, e4⟩ := ShowsAll.split _ _ _ i x b4 hi
      have hlt : i < a.num := by
        rcases Nat.lt_or_ge i a.num with hl | hl
        · exact hl
        · rw [List.getElem?_eq_none (by simp; omega)] at e1; cases e1
      rw [List.getElem?_take_of_lt hlt] at e1
      obtain ⟨r', n', f', q1, q2, q3⟩ := reach_at p (.cell b i) m x k fk (read_cell (block_eq.mp b2) e1) e2 hk
      exact ⟨r', n', f', by simp only [reach, b7 i hlt, Option.bind_some]; exact q1, q2, q3⟩

theorem allKids_mem : ∀ {ts : List Tree}, AllKids ts → ∀ t ∈ ts, t.Named
  | [], _, t, ht => by cases ht
  | x :: ts, h, t, ht => by
    simp only [AllKids] at h
    rcases List.mem_cons.mp ht with rfl | ht
    · exact h.1
    · exact allKids_mem h.2 t ht

theorem depths_mem : ∀ {ts : List Tree}, ∀ t ∈ ts, t.depth ≤ depths ts
  | [], t, ht => by cases ht
  | x :: ts, t, ht => by
    simp only [depths]
    rcases List.mem_cons.mp ht with rfl | ht
    · omega
    · have := depths_mem t ht; omega

theorem find_run {name rest : Bytes} (hn : (0 : UInt8) ∉ name) : ∀ (fuel : Nat) (h : Heap) (r : Ref) (n : Node) (t : Tree) (f : List Nat) (deep : Bool),
    h.read r = .ok n → Shows h t n f → t.Named → (if deep then t.depth else 1) ≤ fuel → find fuel h r (name ++ 0 :: rest) deep = .ok ((t.find name deep).bind (reach h r))
  | 0, h, r, n, t, f, deep, hr, hs, hnm, hd => by
    cases t <;> cases deep <;> simp [Tree.depth] at hd
  | fuel + 1, h, r, n, .leaf nm v, f, deep, hr, hs, hnm, hd => by
    have : n.num.type ≠ .object := by
      simp only [Shows] at hs
      have := hs.2.1
      cases v <;> simp only [Leaf.Is] at this <;> simp [this]
    simp [find, Res.bind_eq, hr, Res.ok_bind, this, Tree.find]
  | fuel + 1, h, r, n, .branch nm true kids, f, deep, hr, hs, hnm, hd => by
    have : n.num.type ≠ .object := by
      simp only [Shows] at hs
      simp [hs.2.1]
    simp [find, Res.bind_eq, hr, Res.ok_bind, this, Tree.find]
  | fuel + 1, h, r, n, .branch nm false kids, f, deep, hr, hs, hnm, hd => by
    obtain ⟨b, a, fs, b1, b2, b3, b4, b5, b6, b7⟩ := branch_facts hr hs
    simp only [Tree.Named] at hnm
    have hfn := findName_run (b := b) (rest := rest) hn kids _ fs 0 b4 (hnm.1 trivial) CellsAt.take
    simp only [Bool.false_eq_true, if_false] at b5
    simp only [find, Res.bind_eq, hr, Res.ok_bind, b5, not_true_eq_false, ne_eq, if_false, b1, Res.ofOption, b2, b3, hfn, Tree.find]
    cases hi : kids.findIdx? (fun k => k.name = some name) with
    | some i =>
      obtain ⟨hl, _⟩ := List.findIdx?_eq_some_iff_getElem.mp hi
      simp [reach, b7 i (by omega)]
    | none =>
      simp only [Option.map_none, Option.isSome_none, Bool.false_eq_true, if_false]
      cases deep with
      | false => simp
      | true =>
        simp only [if_true]
        simp only [if_true, Tree.depth] at hd
        refine findDeep_run b7 kids _ fs 0 b4 CellsAt.take (by omega) ?_ ?_
        · intro t ht j m f' hc hs'
          have := depths_mem t ht
          exact find_run hn fuel h (.cell b j) m t f' true (read_cell (block_eq.mp b2) hc) hs' (allKids_mem hnm.2 t ht) (by simp only [if_true]; omega)
        · intro t ht j m f' p hc hs' hp
          obtain ⟨k, k1, _⟩ := find_at name t true p hp
          obtain ⟨r', n', f'', q1, _⟩ := reach_at p (.cell b j) m t k f' (read_cell (block_eq.mp b2) hc) hs' k1
          rw [q1]; rfl

end Verif.Adt
