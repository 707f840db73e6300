import Verif.Model.Array
/-! Helper lemmas for arrays. -/
namespace Verif.Arr
variable {α : Type}

/-- The element sequence of an array. -/
def contents (a : Arr α) : List (Option α) := a.cells.take a.num

/-- `Num ≤ Capacity`, the storage has `Capacity` cells, and `Capacity` is positive. -/
structure Inv (a : Arr α) : Prop where
  cap : 0 < a.capacity
  num_le : a.num ≤ a.capacity
  len : a.cells.length = a.capacity

theorem contents_length {a : Arr α} (h : Inv a) : a.contents.length = a.num := by
  have := h.num_le; have := h.len
  simp [contents]; omega

/-- A reallocation keeps the elements. -/
theorem setCapacity_spec {lib : Lib} {heap mem : Bool} (hh : ¬ (lib = .clib ∧ heap = true)) {a : Arr α} (h : Inv a)
    {n : Nat} (hn : 0 < n) :
    ∃ b a', setCapacity lib heap mem a n = .ok (b, a') ∧ Inv a' ∧
      (b = false → mem = false ∧ a' = a) ∧
      (b = true → a'.contents = a.contents.take n ∧ (a.num ≤ n → n ≠ a.capacity → a'.capacity = n) ∧
        a'.num = min a.num n) := by
  have h1 := h.num_le; have h2 := h.len; have h3 := h.cap
  unfold setCapacity
  rw [Res.assert_true (fun _ => hn)]
  simp only [Res.bind_eq, Res.ok_bind, Res.pure_eq]
  by_cases c1 : n = a.capacity
  · rw [if_pos c1]
    refine ⟨_, _, rfl, h, by simp, fun _ => ⟨?_, by simp [c1], by omega⟩⟩
    rw [List.take_of_length_le (by rw [contents_length h]; omega)]
  · rw [if_neg c1]
    by_cases c2 : n < a.num
    · rw [if_pos c2]
      refine ⟨_, _, rfl, ⟨h3, by simp only; omega, h2⟩, by simp, fun _ => ⟨?_, by intros; omega, by simp only; omega⟩⟩
      simp only [contents, List.take_take]
      rw [Nat.min_eq_left (by omega)]
    · rw [if_neg c2]
      cases mem with
      | false => exact ⟨_, _, rfl, h, fun _ => ⟨rfl, rfl⟩, by simp⟩
      | true =>
        simp only [Bool.true_eq_false, if_false]
        rw [if_pos (by omega), if_neg hh]
        refine ⟨_, _, rfl, ⟨hn, by simp only; omega, ?_⟩, by simp, fun _ => ⟨?_, by simp, by simp only; omega⟩⟩
        · simp; omega
        · simp only [contents]
          rw [List.take_append_of_le_length (by simp; omega), List.take_take, List.take_take]
          congr 1; omega

theorem grow_spec {lib : Lib} {heap mem : Bool} (hh : ¬ (lib = .clib ∧ heap = true)) {a : Arr α} (h : Inv a)
    {n : Nat} (hn : 0 < n) :
    ∃ b a', grow lib heap mem a n = .ok (b, a') ∧ Inv a' ∧ (b = false → mem = false ∧ a' = a) ∧
      (b = true → a'.contents = a.contents ∧ a'.num = a.num ∧ n ≤ a'.capacity ∧ a.capacity < a'.capacity) := by
  have h1 := h.num_le
  unfold grow
  simp only [Res.bind_eq, Res.assert_true hn, Res.ok_bind]
  obtain ⟨b, a', e, hi, hf, ht⟩ := setCapacity_spec (mem := mem) hh h
    (n := if growFormula a.capacity < n then n else growFormula a.capacity) (by unfold growFormula; split <;> omega)
  refine ⟨b, a', e, hi, hf, fun hb => ?_⟩
  obtain ⟨g1, g2, g3⟩ := ht hb
  have hlen := contents_length h
  have hx : a.capacity < (if growFormula a.capacity < n then n else growFormula a.capacity) ∧
      n ≤ (if growFormula a.capacity < n then n else growFormula a.capacity) := by
    unfold growFormula; split <;> omega
  rw [List.take_of_length_le (by omega)] at g1
  have := g2 (by omega) (by omega)
  exact ⟨g1, by omega, by omega, by omega⟩

theorem setCell_spec {a : Arr α} {i : Nat} {v : Option α} (hi : i < a.cells.length) :
    a.setCell i v = .ok { a with cells := a.cells.set i v } := by simp [setCell, hi]

/-- Writing the cell just after the last element appends. -/
theorem push_spec {a : Arr α} (h : Inv a) (hlt : a.num < a.capacity) (v : α) :
    ∃ a', a.setCell a.num (some v) = .ok a' ∧ a'.num = a.num ∧ Inv { a' with num := a'.num + 1 } ∧
      contents { a' with num := a'.num + 1 } = a.contents ++ [some v] := by
  have h2 := h.len
  refine ⟨_, setCell_spec (by omega), rfl, ⟨h.cap, hlt, by simp [h2]⟩, ?_⟩
  simp only [contents]
  rw [List.take_succ, List.getElem?_set_self (by omega), List.take_set, List.set_eq_of_length_le (by simp; omega)]
  rfl

theorem append_spec {lib : Lib} {heap mem : Bool} (hh : ¬ (lib = .clib ∧ heap = true)) {a : Arr α} (h : Inv a) (v : α) :
    ∃ b a', append lib heap mem a v = .ok (b, a') ∧ Inv a' ∧ (b = false → mem = false ∧ a'.contents = a.contents) ∧
      (b = true → a'.contents = a.contents ++ [some v]) := by
  have h1 := h.num_le; have h3 := h.cap
  unfold append
  by_cases hc : a.num = a.capacity
  · rw [if_pos hc]
    obtain ⟨b, a1, e, hi, hf, ht⟩ := grow_spec (mem := mem) hh h h3
    simp only [Res.bind_eq, e, Res.ok_bind, Res.pure_eq]
    cases b with
    | false => exact ⟨_, _, rfl, hi, fun _ => ⟨(hf rfl).1, by rw [(hf rfl).2]⟩, by simp⟩
    | true =>
      obtain ⟨g1, g2, g3, g4⟩ := ht rfl
      obtain ⟨a2, e2, _, hi2, hc2⟩ := push_spec hi (by omega) v
      simp only [Bool.true_eq_false, if_false, e2, Res.ok_bind]
      exact ⟨_, _, rfl, hi2, by simp, fun _ => by rw [hc2, g1]⟩
  · rw [if_neg hc]
    obtain ⟨a2, e2, _, hi2, hc2⟩ := push_spec h (by omega) v
    simp only [Res.bind_eq, e2, Res.ok_bind, Res.pure_eq]
    exact ⟨_, _, rfl, hi2, by simp, fun _ => hc2⟩

theorem copyIn_spec {a : Arr α} (h : Inv a) (items : List (Option α)) (hfit : a.num + items.length ≤ a.capacity) :
    ∃ a', a.copyIn a.num items = .ok a' ∧ a'.num = a.num ∧ Inv { a' with num := a'.num + items.length } ∧
      contents { a' with num := a'.num + items.length } = a.contents ++ items := by
  have h2 := h.len; have h1 := h.num_le
  unfold copyIn
  rw [if_pos (by omega)]
  refine ⟨_, rfl, rfl, ⟨h.cap, by simp only; omega, ?_⟩, ?_⟩
  · simp; omega
  · simp only [contents]
    have : (a.cells.take a.num ++ items).length = a.num + items.length := by simp; omega
    rw [List.take_append_of_le_length (by omega), List.take_of_length_le (by omega)]

theorem appendItems_spec {heap mem : Bool} (hh : heap = false) {a : Arr α} (h : Inv a)
    (items : List (Option α)) (hne : items ≠ []) :
    ∃ b a', appendItems .clib heap mem a items = .ok (b, a') ∧ Inv a' ∧
      (b = false → mem = false ∧ a'.contents = a.contents) ∧
      (b = true → a'.contents = a.contents ++ items) := by
  have hpos : 0 < items.length := List.length_pos_iff.mpr hne
  have h1 := h.num_le
  have hh' : ¬ (Lib.clib = .clib ∧ heap = true) := by simp [hh]
  unfold appendItems
  simp only [Res.bind_eq, Res.assert_true hpos, Res.ok_bind, Res.pure_eq]
  by_cases hc : a.num + items.length > a.capacity
  · rw [if_pos hc]
    obtain ⟨b, a1, e, hi, hf, ht⟩ := grow_spec (mem := mem) hh' h (n := a.capacity + items.length) (by omega)
    simp only [e, Res.ok_bind]
    cases b with
    | false => exact ⟨_, _, rfl, hi, fun _ => ⟨(hf rfl).1, by rw [(hf rfl).2]⟩, by simp⟩
    | true =>
      obtain ⟨g1, g2, g3, g4⟩ := ht rfl
      obtain ⟨a2, e2, _, hi2, hc2⟩ := copyIn_spec hi items (by omega)
      simp only [Bool.true_eq_false, if_false, e2, Res.ok_bind]
      exact ⟨_, _, rfl, hi2, by simp, fun _ => by rw [hc2, g1]⟩
  · rw [if_neg hc]
    obtain ⟨a2, e2, _, hi2, hc2⟩ := copyIn_spec h items (by omega)
    simp only [Res.ok_bind, Bool.true_eq_false, if_false, e2]
    exact ⟨_, _, rfl, hi2, by simp, fun _ => hc2⟩

theorem moveCells_ok {a : Arr α} {d s n : Nat} (h : d + n ≤ a.cells.length) (h' : s + n ≤ a.cells.length) :
    ∃ a', a.moveCells d s n = .ok a' ∧ a'.num = a.num ∧ a'.capacity = a.capacity ∧
      a'.cells = a.cells.take d ++ (a.cells.drop s).take n ++ a.cells.drop (d + n) := by
  unfold moveCells
  by_cases hn : n = 0
  · rw [if_pos hn]; subst hn
    exact ⟨a, rfl, rfl, rfl, by simp⟩
  · rw [if_neg hn, if_pos ⟨h, h'⟩]
    exact ⟨_, rfl, rfl, rfl, rfl⟩

theorem removeAt_spec {a : Arr α} (h : Inv a) {i : Nat} (hi : i < a.num) :
    ∃ a', removeAt a i = .ok a' ∧ Inv a' ∧ a'.contents = a.contents.eraseIdx i := by
  have h1 := h.num_le; have h2 := h.len
  unfold removeAt
  simp only [Res.bind_eq, Res.assert_true hi, Res.ok_bind, Res.pure_eq]
  obtain ⟨a1, e, n1, c1, hcells⟩ := moveCells_ok (a := a) (d := i) (s := i+1) (n := a.num - i - 1)
    (by omega) (by omega)
  simp only [e, Res.ok_bind]
  refine ⟨_, rfl, ⟨by simp only; rw [c1]; exact h.cap, by simp only; omega, ?_⟩, ?_⟩
  · simp only [hcells]; simp; omega
  · simp only [contents, hcells, n1]
    apply List.ext_getElem?
    intro j
    simp only [List.getElem?_take, List.getElem?_append, List.getElem?_drop, List.length_take, List.length_append,
      List.length_drop, List.getElem?_eraseIdx]
    grind

theorem fillLoop_spec {v : α} : ∀ (k i : Nat) (a : Arr α), Inv a → i + k ≤ a.num →
    ∃ a', fillLoop a i v k = .ok a' ∧ Inv a' ∧ a'.num = a.num ∧
      ∀ j, a'.contents[j]? = if i ≤ j ∧ j < i + k then some (some v) else a.contents[j]? := by
  intro k
  induction k with
  | zero => intro i a h _; exact ⟨a, rfl, h, rfl, fun j => by rw [if_neg (by omega)]⟩
  | succ k ih =>
    intro i a h hk
    have h1 := h.num_le; have h2 := h.len
    simp only [fillLoop, Res.bind_eq]
    rw [setCell_spec (by omega)]
    simp only [Res.ok_bind]
    obtain ⟨a', e, hi, hn, hj⟩ := ih (i+1) { a with cells := a.cells.set i (some v) }
      ⟨h.cap, h1, by simp [h2]⟩ (by simp only; omega)
    refine ⟨a', e, hi, hn, fun j => ?_⟩
    rw [hj j]
    simp only [contents, List.getElem?_take, List.getElem?_set]
    grind

end Verif.Arr
