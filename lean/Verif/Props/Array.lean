import Verif.Proof.Array
/-!
# Properties C08 (array operations are list operations) and C09 (array capacity invariant)
-/
namespace Verif.Arr
variable {α : Type}

/-! ## Specification: lists -/

/-- When a call is allowed, in terms of the element sequence only. -/
def Pre (lib : Lib) (l : List (Option α)) : Op α → Prop
  | .append _ => True
  | .appendItems vs => lib = .clib ∧ vs ≠ []
  | .pop => l ≠ []
  | .removeAt i => i < l.length
  | .clear => True
  | .fill b e _ => b ≤ e
  | .back => True
  | .grow n => 0 < n
  | .reserve n => lib = .clib ∧ 0 < n
  | .setCapacity n => 0 < n
  | .resize n => (lib = .clib → 0 < n) ∧ n ≤ l.length

/-- Element sequence after a call (when memory is available). -/
def specList (l : List (Option α)) : Op α → List (Option α)
  | .append v => l ++ [some v]
  | .appendItems vs => l ++ vs.map some
  | .pop => l.dropLast
  | .removeAt i => l.eraseIdx i
  | .clear => []
  | .fill b e v => if e ≤ l.length then l.mapIdx (fun j x => if b ≤ j ∧ j < e then some v else x) else l
  | .back => l
  | .grow _ => l
  | .reserve _ => l
  | .setCapacity n => l.take n
  | .resize n => l.take n

/-- Value returned by a call (when memory is available). -/
def specOut (lib : Lib) (l : List (Option α)) : Op α → Out α
  | .append _ => .bool true
  | .appendItems _ => .bool true
  | .pop => match lib with | .cpp => .none | .clib => .elem l.getLast?
  | .removeAt _ => .none
  | .clear => .none
  | .fill _ e _ => .bool (decide (e ≤ l.length))
  | .back => .elem l.getLast?
  | .grow _ => .bool true
  | .reserve _ => .bool true
  | .setCapacity _ => .bool true
  | .resize _ => .bool true

theorem getLast_contents {a : Arr α} (h : Inv a) (hn : a.num ≠ 0) :
    ∃ v, a.getCell (a.num - 1) = .ok v ∧ a.contents.getLast? = some v := by
  have h1 := h.num_le; have h2 := h.len
  have hlt : a.num - 1 < a.cells.length := by omega
  refine ⟨a.cells[a.num - 1], by simp [getCell, List.getElem?_eq_getElem hlt], ?_⟩
  rw [List.getLast?_eq_getElem?, contents_length h]
  simp only [contents]
  rw [List.getElem?_take_of_lt (by omega), List.getElem?_eq_getElem hlt]

theorem step_spec {lib : Lib} {heap : Bool} (hh : ¬ (lib = .clib ∧ heap = true)) {a : Arr α} (h : Inv a)
    (op : Op α) (hp : Pre lib a.contents op) (mem : Bool) :
    ∃ out a', step lib heap mem a op = .ok (out, a') ∧ Inv a' ∧
      ((out = specOut lib a.contents op ∧ a'.contents = specList a.contents op) ∨
        (mem = false ∧ out = .bool false ∧ a'.contents = a.contents)) := by
  have h1 := h.num_le; have h2 := h.len
  have hlen := contents_length h
  cases op with
  | append v =>
    obtain ⟨b, a', e, hi, hf, ht⟩ := append_spec (mem := mem) hh h v
    refine ⟨.bool b, a', by simp [step, e], hi, ?_⟩
    cases b with
    | false => exact Or.inr ⟨(hf rfl).1, rfl, (hf rfl).2⟩
    | true => exact Or.inl ⟨rfl, ht rfl⟩
  | appendItems vs =>
    obtain ⟨rfl, hne⟩ := hp
    obtain ⟨b, a', e, hi, hf, ht⟩ := appendItems_spec (mem := mem) (by simpa using hh) h (vs.map some) (by simpa using hne)
    refine ⟨.bool b, a', by simp [step, e], hi, ?_⟩
    cases b with
    | false => exact Or.inr ⟨(hf rfl).1, rfl, (hf rfl).2⟩
    | true => exact Or.inl ⟨rfl, ht rfl⟩
  | pop =>
    have hn : a.num ≠ 0 := by
      intro h0; apply hp; rw [← List.length_eq_zero_iff, hlen, h0]
    obtain ⟨v, e, hv⟩ := getLast_contents h hn
    refine ⟨_, { a with num := a.num - 1 }, by
      simp only [step, pop, Res.bind_eq, Res.assert_true (Nat.pos_of_ne_zero hn), Res.ok_bind, e, Res.pure_eq]
      rfl, ⟨h.cap, by simp only; omega, h2⟩, Or.inl ⟨?_, ?_⟩⟩
    · cases lib <;> simp [specOut, hv]
    · simp only [specList, contents]
      rw [List.dropLast_eq_take, List.take_take, List.length_take]
      congr 1; omega
  | removeAt i =>
    obtain ⟨a', e, hi, hc⟩ := removeAt_spec h (i := i) (by rw [← hlen]; exact hp)
    exact ⟨.none, a', by simp [step, e], hi, Or.inl ⟨rfl, hc⟩⟩
  | clear =>
    exact ⟨.none, a.clear, rfl, ⟨h.cap, Nat.zero_le _, h2⟩, Or.inl ⟨rfl, by simp [contents, clear, specList]⟩⟩
  | fill b e v =>
    have hp' : b ≤ e := hp
    by_cases he : e > a.num
    · refine ⟨.bool false, a, by simp [step, fill, Res.assert_true hp', he], h, Or.inl ⟨?_, ?_⟩⟩
      · simp only [specOut]; rw [decide_eq_false]; omega
      · simp only [specList]; rw [if_neg (by omega)]
    · obtain ⟨a', ef, hi, hn, hj⟩ := fillLoop_spec (v := v) (e - b) b a h (by omega)
      refine ⟨.bool true, a', by simp [step, fill, Res.assert_true hp', he, ef], hi, Or.inl ⟨?_, ?_⟩⟩
      · simp only [specOut]; rw [decide_eq_true]; omega
      · simp only [specList]; rw [if_pos (by omega)]
        apply List.ext_getElem?
        intro j
        rw [hj j, List.getElem?_mapIdx]
        rw [show b + (e - b) = e by omega]
        by_cases hjb : b ≤ j ∧ j < e
        · rw [if_pos hjb, List.getElem?_eq_getElem (by omega)]; simp [hjb]
        · rw [if_neg hjb]; simp [hjb]
  | back =>
    by_cases hn : a.num = 0
    · refine ⟨.elem none, a, by simp [step, back, hn], h, Or.inl ⟨?_, rfl⟩⟩
      have : a.contents = [] := by rw [← List.length_eq_zero_iff, hlen, hn]
      simp [specOut, this]
    · obtain ⟨v, e, hv⟩ := getLast_contents h hn
      refine ⟨.elem (some v), a, by simp [step, back, hn, e], h, Or.inl ⟨?_, rfl⟩⟩
      simp [specOut, hv]
  | grow n =>
    obtain ⟨b, a', e, hi, hf, ht⟩ := grow_spec (mem := mem) hh h hp
    refine ⟨.bool b, a', by simp [step, e], hi, ?_⟩
    cases b with
    | false => exact Or.inr ⟨(hf rfl).1, rfl, by rw [(hf rfl).2]⟩
    | true => exact Or.inl ⟨rfl, (ht rfl).1⟩
  | reserve n =>
    obtain ⟨rfl, hn⟩ := hp
    by_cases hc : a.capacity < n
    · obtain ⟨b, a', e, hi, hf, ht⟩ := setCapacity_spec (mem := mem) hh h hn
      refine ⟨.bool b, a', by simp [step, reserve, Res.assert_true hn, hc, e], hi, ?_⟩
      cases b with
      | false => exact Or.inr ⟨(hf rfl).1, rfl, by rw [(hf rfl).2]⟩
      | true =>
        refine Or.inl ⟨rfl, ?_⟩
        rw [(ht rfl).1]; exact List.take_of_length_le (by omega)
    · exact ⟨.bool true, a, by simp [step, reserve, Res.assert_true hn, hc], h, Or.inl ⟨rfl, rfl⟩⟩
  | setCapacity n =>
    obtain ⟨b, a', e, hi, hf, ht⟩ := setCapacity_spec (mem := mem) hh h hp
    refine ⟨.bool b, a', by simp [step, e], hi, ?_⟩
    cases b with
    | false => exact Or.inr ⟨(hf rfl).1, rfl, by rw [(hf rfl).2]⟩
    | true => exact Or.inl ⟨rfl, (ht rfl).1⟩
  | resize n =>
    obtain ⟨hn, hle⟩ := hp
    refine ⟨.bool true, { a with num := n }, ?_, ⟨h.cap, by simp only; omega, h2⟩, Or.inl ⟨rfl, ?_⟩⟩
    · simp only [step, resize, Res.bind_eq, Res.assert_true hn, Res.ok_bind]
      rw [if_neg (by omega)]; rfl
    · simp only [contents, specList, List.take_take]
      congr 1; omega

/-- C08: in a well-formed array, a permitted call never faults; it returns what the list operation returns and leaves
the list the list operation leaves, or (only if an allocation failed) reports failure and leaves the elements alone.
`hh` excludes the C library on an allocator whose free uses its argument (see `C08_clib_heap_refuted`). -/
theorem C08_step_refines {lib : Lib} {heap : Bool} (hh : ¬ (lib = .clib ∧ heap = true)) {a : Arr α} (h : Inv a)
    (op : Op α) (hp : Pre lib a.contents op) (mem : Bool) :
    ∃ out a', step lib heap mem a op = .ok (out, a') ∧
      ((out = specOut lib a.contents op ∧ a'.contents = specList a.contents op) ∨
        (mem = false ∧ out = .bool false ∧ a'.contents = a.contents)) := by
  obtain ⟨out, a', e, _, hs⟩ := step_spec hh h op hp mem
  exact ⟨out, a', e, hs⟩

/-- Run calls, collecting what they return. -/
def run (lib : Lib) (heap : Bool) : Arr α → List (Op α) → Res (List (Out α) × Arr α)
  | a, [] => .ok ([], a)
  | a, op :: ops => do
    let (o, a') ← step lib heap true a op
    let (os, a'') ← run lib heap a' ops
    pure (o :: os, a'')

/-- Specification of a history. -/
def specRun (lib : Lib) : List (Option α) → List (Op α) → List (Out α) × List (Option α)
  | l, [] => ([], l)
  | l, op :: ops =>
    let r := specRun lib (specList l op) ops
    (specOut lib l op :: r.1, r.2)

/-- Every call of a history is allowed when it is made. -/
def PreAll (lib : Lib) : List (Option α) → List (Op α) → Prop
  | _, [] => True
  | l, op :: ops => Pre lib l op ∧ PreAll lib (specList l op) ops

/-- C08: whole histories, starting from `array_init_reserve(capacity)` for any capacity: the results and the final
elements are those of the list history, whatever reallocations happen. -/
theorem C08_history {lib : Lib} {heap : Bool} (hh : ¬ (lib = .clib ∧ heap = true)) (capacity : Nat) (hc : 0 < capacity)
    (ops : List (Op α)) (hp : PreAll lib [] ops) :
    ∃ a0 a' : Arr α, initReserve true capacity = .ok (some a0) ∧
      run lib heap a0 ops = .ok ((specRun lib [] ops).1, a') ∧ a'.contents = (specRun lib [] ops).2 := by
  suffices H : ∀ (ops : List (Op α)) (a : Arr α), Inv a → PreAll lib a.contents ops →
      ∃ a' : Arr α, run lib heap a ops = .ok ((specRun lib a.contents ops).1, a') ∧
        a'.contents = (specRun lib a.contents ops).2 by
    refine ⟨⟨capacity, 0, List.replicate capacity none⟩, ?_⟩
    obtain ⟨a', e, hc'⟩ := H ops ⟨capacity, 0, List.replicate capacity none⟩ ⟨hc, Nat.zero_le _, by simp⟩
      (by simpa [contents] using hp)
    simp only [contents, List.take_zero] at e hc'
    refine ⟨a', by simp [initReserve, Res.assert_true hc], e, hc'⟩
  intro ops
  induction ops with
  | nil => intro a _ _; exact ⟨a, rfl, rfl⟩
  | cons op ops ih =>
    intro a h ⟨hp, hps⟩
    obtain ⟨out, a', e, hi, hs⟩ := step_spec hh h op hp true
    rcases hs with ⟨ho, hcs⟩ | ⟨hm, _⟩
    · obtain ⟨a'', e2, hc2⟩ := ih a' hi (by rw [hcs]; exact hps)
      refine ⟨a'', ?_, ?_⟩
      · simp only [run, Res.bind_eq, e, Res.ok_bind, e2, Res.pure_eq, specRun, ho, hcs]
      · rw [hc2, hcs]; rfl
    · cases hm

/-- C09: reachable arrays — built by `array_init`/`array_init_reserve` and permitted calls, with allocations succeeding
or failing arbitrarily. -/
inductive Reach (lib : Lib) (heap : Bool) : Arr α → Prop
  | init {capacity : Nat} {a : Arr α} (e : initReserve true capacity = .ok (some a)) : Reach lib heap a
  | step {a a' : Arr α} {op : Op α} {mem : Bool} {out : Out α} (hr : Reach lib heap a) (hp : Pre lib a.contents op)
      (e : Arr.step lib heap mem a op = .ok (out, a')) : Reach lib heap a'

/-- C09: in every reachable array `Num ≤ Capacity`, the capacity recorded in the header is the number of elements
allocated, and no permitted call accesses anything outside the storage (it returns normally). -/
theorem C09_capacity_invariant {lib : Lib} {heap : Bool} (hh : ¬ (lib = .clib ∧ heap = true)) {a : Arr α}
    (hr : Reach lib heap a) :
    a.num ≤ a.capacity ∧ a.cells.length = a.capacity ∧
    ∀ op mem, Pre lib a.contents op → ∃ r, step lib heap mem a op = .ok r := by
  have hi : Inv a := by
    induction hr with
    | @init capacity a e =>
      unfold initReserve at e
      by_cases hc : capacity > 0
      · simp [Res.assert_true hc] at e
        subst e
        exact ⟨hc, Nat.zero_le _, by simp⟩
      · simp [Res.assert_false hc] at e
    | @step a a' op mem out _ hp e ih =>
      obtain ⟨out2, a2, e2, hi2, _⟩ := step_spec hh ih op hp mem
      rw [e] at e2
      cases e2
      exact hi2
  refine ⟨hi.num_le, hi.len, fun op mem hp => ?_⟩
  obtain ⟨o, a', e, _⟩ := step_spec hh hi op hp mem
  exact ⟨_, e⟩

/-- C09: growing at least doubles the capacity (amortised constant append). -/
theorem C09_growth {lib : Lib} {heap : Bool} (hh : ¬ (lib = .clib ∧ heap = true)) {a : Arr α} (h : Inv a)
    (n : Nat) (hn : 0 < n) :
    ∃ a', grow lib heap true a n = .ok (true, a') ∧ 2 * a.capacity + 8 ≤ a'.capacity ∧ n ≤ a'.capacity := by
  have h1 := h.num_le
  unfold grow
  simp only [Res.bind_eq, Res.assert_true hn, Res.ok_bind]
  obtain ⟨b, a', e, hi, hf, ht⟩ := setCapacity_spec (mem := true) hh h
    (n := if growFormula a.capacity < n then n else growFormula a.capacity) (by unfold growFormula; split <;> omega)
  cases b with
  | false => exact absurd (hf rfl).1 (by simp)
  | true =>
    refine ⟨a', e, ?_⟩
    have := (ht rfl).2.1 (by unfold growFormula; split <;> omega) (by unfold growFormula; split <;> omega)
    rw [this]
    unfold growFormula; split <;> omega

/-- C08: calls outside their precondition are caught by an assertion: popping or removing out of range, an inverted
fill range, growing to zero. -/
theorem C08_precondition_violation_stops (lib : Lib) (heap mem : Bool) (a : Arr α) (h : Inv a) :
    (a.contents = [] → step lib heap mem a .pop = .stop) ∧
    (∀ i, a.contents.length ≤ i → step lib heap mem a (.removeAt i) = .stop) ∧
    (∀ b e v, e < b → step lib heap mem a (.fill b e v) = .stop) ∧
    step lib heap mem a (.grow 0) = .stop ∧ step lib heap mem a (.appendItems []) = .stop := by
  have hlen := contents_length h
  refine ⟨?_, ?_, ?_, ?_, ?_⟩
  · intro h0
    have : ¬ a.num > 0 := by rw [← hlen, h0]; simp
    simp [step, pop, Res.assert_false this]
  · intro i hi
    have : ¬ i < a.num := by omega
    simp [step, removeAt, Res.assert_false this]
  · intro b e v hbe
    have : ¬ b ≤ e := by omega
    simp [step, fill, Res.assert_false this]
  · simp [step, grow, Res.assert]
  · simp [step, appendItems, Res.assert]

/-- Non-vacuity: a history with growth, removal and fill is permitted. -/
example : PreAll .clib ([] : List (Option Nat))
    [.append 1, .append 2, .appendItems [3, 4, 5], .removeAt 1, .fill 0 2 9, .back, .pop, .setCapacity 2] := by
  simp [PreAll, Pre, specList]
example : ∃ a : Arr Nat, initReserve true 1 = .ok (some a) ∧ (run .clib false a
    [.append 1, .append 2, .appendItems [3, 4, 5], .removeAt 1, .fill 0 2 9, .back, .pop]).bind (fun r => .ok r.2.contents)
      = .ok [some 9, some 9, some 4] := by exact ⟨_, rfl, rfl⟩

/-! ## Where the code does not do what the list operation does -/

/-- C08, refuted for `append_at` (both libraries): the item is never stored. Whatever the item, a non-empty array ends
up with the element at the insertion slot duplicated. -/
theorem C08_append_at_refuted {lib : Lib} {heap : Bool} {a : Arr α} (h : Inv a) (hlt : a.num < a.capacity)
    (hpos : 0 < a.num) (item : α) (idx : Nat) (hidx : idx < a.num) (mem : Bool) :
    ∃ a', appendAt lib heap mem a item idx = .ok (true, a') ∧
      a'.contents = a.contents.take (idx + 1) ++ a.contents.drop idx := by
  have h1 := h.num_le; have h2 := h.len
  unfold appendAt
  rw [if_neg (by omega)]
  simp only
  rw [if_neg (by omega), if_neg (by omega)]
  obtain ⟨a1, e, n1, c1, hcells⟩ := moveCells_ok (a := a) (d := idx + 1) (s := idx) (n := a.num - idx)
    (by omega) (by omega)
  simp only [Res.bind_eq, Res.ok_bind, Bool.true_eq_false, if_false, e, Res.pure_eq]
  refine ⟨_, rfl, ?_⟩
  simp only [contents, hcells, n1]
  apply List.ext_getElem?
  intro j
  simp only [List.getElem?_take, List.getElem?_append, List.getElem?_drop, List.length_take, List.length_append,
    List.length_drop]
  grind

/-- C08, refuted for the C++ `append_items`: it always writes outside the array's storage. -/
theorem C08_cpp_append_items_refuted {heap : Bool} {a : Arr α} (h : Inv a) (items : List (Option α)) (hne : items ≠ []) :
    appendItems .cpp heap true a items = .ub := by
  have hpos : 0 < items.length := List.length_pos_iff.mpr hne
  unfold appendItems
  simp only [Res.bind_eq, Res.assert_true hpos, Res.ok_bind, Res.pure_eq]
  by_cases hc : a.num + items.length > a.capacity
  · rw [if_pos hc]
    obtain ⟨b, a1, e, hi, hf, ht⟩ := grow_spec (lib := .cpp) (heap := heap) (mem := true) (by simp) h
      (n := a.capacity + items.length) (by omega)
    simp only [e, Res.ok_bind]
    cases b with
    | false => exact absurd (hf rfl).1 (by simp)
    | true => simp
  · rw [if_neg hc]; simp

/-- C08, refuted for the C library on an allocator that really frees: any growth passes the address of a local variable
to the allocator's free. -/
theorem C08_clib_heap_refuted {a : Arr α} (h : Inv a) (hfull : a.num = a.capacity) (v : α) :
    append .clib true true a v = .ub := by
  have h3 := h.cap; have h2 := h.len
  unfold append
  rw [if_pos hfull]
  simp only [Res.bind_eq, grow, Res.assert_true h3, Res.ok_bind, setCapacity]
  have hg : ¬ growFormula a.capacity < a.capacity := by unfold growFormula; omega
  rw [if_neg hg]
  have e1 : (True → growFormula a.capacity > 0) := fun _ => by unfold growFormula; omega
  rw [Res.assert_true e1]
  simp only [Res.ok_bind]
  rw [if_neg (by unfold growFormula; omega), if_neg (by omega)]
  simp only [Bool.true_eq_false, if_false]
  rw [if_pos (by omega)]
  rfl

/-- C08, refuted for the C `append_items_at`: the capacity test ignores the present elements, so inserting in the middle
of a nearly full array writes past the storage. -/
theorem C08_clib_append_items_at_refuted :
    ∃ a : Arr Nat, Inv a ∧ appendItemsAt false true a [some 7, some 8] 1 = .ub :=
  ⟨⟨3, 3, [some 1, some 2, some 3]⟩, ⟨by decide, by decide, by decide⟩, by decide⟩

/-- C08, refuted for the C `append_at` on an empty array: the index underflows. -/
theorem C08_clib_append_at_empty_refuted {a : Arr α} (hn : a.num = 0) (hc : 0 < a.capacity) (item : α) (idx : Nat) :
    appendAt .clib false true a item idx = .ub := by
  unfold appendAt
  rw [if_pos ⟨rfl, hn⟩, if_neg (by omega)]

/-- C08, refuted for `set_capacity(0)` of the C++ library: the empty array left behind can no longer be appended to
(assertion). -/
theorem C08_cpp_set_capacity_zero_refuted {heap : Bool} {a : Arr α} (h : Inv a) (hn : a.num = 0) (v : α) :
    ∃ a', setCapacity .cpp heap true a 0 = .ok (true, a') ∧ append .cpp heap true a' v = .stop := by
  have h3 := h.cap
  refine ⟨⟨0, 0, []⟩, ?_, ?_⟩
  · simp [setCapacity, Res.assert, hn]; omega
  · simp [append, grow, Res.assert]

/-- C08, refuted for `resize` upwards after a clear: elements that were removed reappear. -/
theorem C08_resize_exposes_stale {lib : Lib} {heap mem : Bool} {a : Arr α} (h : Inv a) (hn : 0 < a.num) :
    ∃ a', resize lib heap mem (clear a) a.num = .ok (true, a') ∧ a'.contents = a.contents := by
  have := h.num_le
  refine ⟨a, ?_, rfl⟩
  unfold resize clear
  rw [Res.assert_true (fun _ => hn)]
  simp only [Res.bind_eq, Res.ok_bind]
  rw [if_neg (by omega)]
  rfl

/-- C08, C09: `resize` to any size keeps the array well-formed: the storage has room for the new count, the elements that were there
(as many as fit) are still there, and a failed allocation is reported and changes nothing. -/
theorem C09_resize {lib : Lib} {heap mem : Bool} (hh : ¬ (lib = .clib ∧ heap = true)) {a : Arr α} (h : Inv a) {n : Nat} (hn : 0 < n) :
    ∃ b a', resize lib heap mem a n = .ok (b, a') ∧ a'.num ≤ a'.capacity ∧ a'.cells.length = a'.capacity ∧
      (b = false → mem = false ∧ a' = a) ∧
      (b = true → a'.num = n ∧ a'.contents.take a.num = a.contents.take n) := by
  have h1 := h.num_le; have h2 := h.len
  unfold resize
  rw [Res.assert_true (fun _ => hn)]
  simp only [Res.bind_eq, Res.ok_bind]
  by_cases hc : a.capacity < n
  · rw [if_pos hc]
    unfold grow
    simp only [Res.bind_eq, Res.assert_true hn, Res.ok_bind]
    have big : n ≤ (if growFormula a.capacity < n then n else growFormula a.capacity) := by split <;> omega
    obtain ⟨b, a', e, hi, hf, ht⟩ := setCapacity_spec (lib := lib) (heap := heap) (mem := mem) hh h
      (n := if growFormula a.capacity < n then n else growFormula a.capacity) (by omega)
    rw [e]
    simp only [Res.ok_bind]
    cases b with
    | false =>
      refine ⟨false, a', rfl, hi.num_le, hi.len, fun _ => hf rfl, by simp⟩
    | true =>
      obtain ⟨g1, g2, g3⟩ := ht rfl
      have cap := g2 (by omega) (by omega)
      refine ⟨true, { a' with num := n }, rfl, by simp only; omega, hi.len, by simp, fun _ => ⟨rfl, ?_⟩⟩
      have e1 : a'.num = a.num := by omega
      rw [List.take_of_length_le (by rw [contents_length h]; omega)] at g1
      rw [List.take_of_length_le (l := a.contents) (by rw [contents_length h]; omega), ← g1]
      simp only [contents, List.take_take]
      rw [e1]
      congr 1
      exact Nat.min_eq_left (by omega)
  · rw [if_neg hc]
    refine ⟨true, { a with num := n }, rfl, by simp only; omega, h2, by simp, fun _ => ⟨rfl, ?_⟩⟩
    simp only [contents, List.take_take]
    congr 1; omega

end Verif.Arr
