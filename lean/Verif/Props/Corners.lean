import Verif.Props.CStr
import Verif.Props.Array
import Verif.Props.StrBuilder
/-!
# Characters, and what the less used calls on strings and arrays do (C08, C16, C18, C39)
-/
namespace Verif

/-! ## Characters -/

/-- The letters. -/
def letters : Bytes := b!"ABCDEFGHIJKLMNOPQRSTUVWXYZabcdefghijklmnopqrstuvwxyz"

/-- The value of a hexadecimal digit: its place among them. -/
def hexValue (c : UInt8) : Int :=
  if c ∈ b!"0123456789abcdef" then b!"0123456789abcdef".findIdx (· = c)
  else if c ∈ b!"ABCDEF" then 10 + b!"ABCDEF".findIdx (· = c)
  else -1

/-- C39: the classes of characters, for every one of them. -/
theorem C39_characters (c : UInt8) :
    charIsAlpha c = decide (c ∈ letters) ∧ charIsDigit c = decide (c ∈ b!"0123456789") ∧ charIsAlphanumeric c = decide (c ∈ letters ++ b!"0123456789") ∧
    charIsHexDigit c = decide (c ∈ b!"0123456789abcdefABCDEF") ∧ charIsSpace c = decide (c ∈ b!" \t\n\r" ++ [12, 11]) ∧ hexDigitToInt c = hexValue c := by
  revert c; apply CStr.forall_u8; decide +kernel

/-- C39: a letter has another case, and every other character has none. -/
theorem C39_case_letters (c : UInt8) :
    (charToLower c ≠ c ↔ c ∈ b!"ABCDEFGHIJKLMNOPQRSTUVWXYZ") ∧ (charToUpper c ≠ c ↔ c ∈ b!"abcdefghijklmnopqrstuvwxyz") ∧
    (c ∈ letters → charToLower (charToUpper c) = charToLower c ∧ charToUpper (charToLower c) = charToUpper c) := by
  revert c; apply CStr.forall_u8; decide +kernel

/-- C18: `str_back` is where the last byte is. -/
theorem C18_back (s : Bytes) (b : UInt8) : ∃ i : Nat, Str.back (s ++ [b]) = i ∧ (s ++ [b])[i]? = some b :=
  ⟨s.length, by simp [Str.back], by simp⟩

/-! ## Builders -/

namespace SB

/-- C16: `strbuilder_trim_space` removes the white space at both ends. -/
theorem C16_trim_space (init : Bytes) :
    ∃ sb0 sb, makeStr init = .ok sb0 ∧ sb0.trimSpace = .ok sb ∧ readN sb.data 0 sb.len = .ok (trimSpec (b!" \t\n\r" ++ [12, 11]) init) ∧ read sb.data sb.len = .ok 0 := by
  obtain ⟨sb0, sb, h1, h2, h3, h4⟩ := C16_trim init (b!" \t\r\n" ++ [11, 12]) [] (by decide)
  refine ⟨sb0, sb, h1, h2, ?_, h4⟩
  rw [h3]
  congr 1
  unfold trimSpec
  have : ∀ b : UInt8, decide (b ∈ b!" \t\r\n" ++ [11, 12] ∨ b = 0) = decide (b ∈ b!" \t\n\r" ++ [12, 11] ∨ b = 0) := by
    apply CStr.forall_u8; decide +kernel
  simp only [this]

theorem scan_stops {sb : SB} {l r : Bytes} {x : UInt8} (h : Holds sb (l ++ x :: r)) (hx : x = 13 ∨ x = 10) :
    ∀ {l1 l2 : Bytes} {fuel : Nat}, l = l1 ++ l2 → l2.length < fuel → (∀ b ∈ l2, b ≠ 13 ∧ b ≠ 10) → skipScan sb.data fuel l1.length = .ok l.length := by
  intro l1 l2
  induction l2 generalizing l1 with
  | nil =>
    intro fuel hl hf _
    obtain ⟨fuel, rfl⟩ : ∃ n, fuel = n + 1 := ⟨fuel - 1, by simp at hf; omega⟩
    rw [List.append_nil] at hl
    subst hl
    rw [skipScan, h.readAt, Res.ok_bind, if_neg (by rcases hx with rfl | rfl <;> decide)]
  | cons b l2 ih =>
    intro fuel hl hf hn
    obtain ⟨fuel, rfl⟩ : ∃ n, fuel = n + 1 := ⟨fuel - 1, by simp at hf; omega⟩
    have h' : Holds sb (l1 ++ b :: (l2 ++ x :: r)) := by rw [hl] at h; simpa using h
    rw [skipScan, h'.readAt, Res.ok_bind, if_pos (hn b (by simp))]
    have := ih (l1 := l1 ++ [b]) (fuel := fuel) (by rw [hl]; simp) (by simp at hf; omega) (fun c hc => hn c (by simp [hc]))
    rwa [List.length_append] at this

/-- C16: what `strbuilder_skip_line` does instead of dropping the first line: the line is overwritten with as much of what follows it, from the line break on, as the line was long (one more if it ends in a
carriage return), and that is all that is left. -/
theorem C16_skip_line_actual {sb : SB} {l r : Bytes} {x : UInt8} (h : Holds sb (l ++ x :: r)) (hx : x = 13 ∨ x = 10) (hl : ∀ b ∈ l, b ≠ 13 ∧ b ≠ 10)
    (hr : l.length ≤ r.length + 1 ∧ (x = 13 → l.length ≤ r.length)) :
    ∃ sb', sb.skipLine = .ok sb' ∧ Holds sb' ((x :: r).take (if x = 13 then l.length + 1 else l.length)) ∧ sb'.cap = sb.cap := by
  obtain ⟨t, e1, e2⟩ := h.cells
  have hlen : sb.data.length = sb.cap + 1 := by rw [e1, List.length_append, List.length_map]; exact e2
  have hs := scan_stops h hx (l1 := []) (l2 := l) (fuel := sb.data.length) rfl (by rw [e1]; simp <;> omega) hl
  obtain ⟨n, hn⟩ : ∃ n, n = if x = 13 then l.length + 1 else l.length := ⟨_, rfl⟩
  have hnl : n ≤ (x :: r).length := by
    rw [hn, List.length_cons]
    split
    · next hh => have := hr.2 hh; omega
    · have := hr.1; omega
  have htl : ((x :: r).take n).length = n := by rw [List.length_take]; omega
  have hread : readN sb.data l.length n = .ok ((x :: r).take n) := by
    have := readN_split ((x :: r).take n) (l.map some) (((x :: r).drop n).map some ++ t) l.length (by simp)
    rw [htl] at this
    rw [← this]
    congr 1
    rw [e1, List.map_append, List.append_assoc, ← List.append_assoc (List.map some (List.take n (x :: r))), ← List.map_append, List.take_append_drop]
  have hw : n ≤ sb.data.length := by
    have h1 := h.len; have h2 := h.cap
    rw [List.length_append, List.length_cons] at h1
    rw [List.length_cons] at hnl
    omega
  have h1 := h.len; have h2 := h.cap
  rw [List.length_append, List.length_cons] at h1
  rw [List.length_cons] at hnl
  refine ⟨{ sb with data := sb.data.take 0 ++ ((x :: r).take n).map some ++ sb.data.drop (0 + n), len := n }, ?_, ?_, rfl⟩
  · unfold skipLine
    rw [show skipScan sb.data sb.data.length 0 = .ok l.length from hs, Res.ok_bind, h.readAt, Res.ok_bind, ← hn]
    dsimp only
    rw [hread, Res.ok_bind]
    unfold write
    rw [htl, if_pos (by omega), Res.ok_bind]
  · rw [← hn]
    refine ⟨?_, ?_, sb.data.drop (0 + n), ?_, ?_⟩
    · show n = _
      rw [htl]
    · show n ≤ sb.cap
      omega
    · show sb.data.take 0 ++ _ ++ _ = _
      rw [List.take_zero, List.nil_append]
    · show _ + _ = sb.cap + 1
      rw [htl, List.length_drop, hlen]
      omega

end SB

/-! ## Arrays -/

namespace Arr
variable {α : Type}

/-- C08: behind the end, `array_append_at` repeats the last element. -/
theorem C08_append_at_end_refuted {lib : Lib} {heap : Bool} {a : Arr α} (h : Inv a) (hlt : a.num < a.capacity) (hpos : 0 < a.num) (item : α) (idx : Nat) (hidx : a.num ≤ idx) (mem : Bool) :
    ∃ a', appendAt lib heap mem a item idx = .ok (true, a') ∧ a'.contents = a.contents ++ a.contents.drop (a.num - 1) := by
  obtain ⟨a', h1, h2⟩ := C08_append_at_refuted (lib := lib) (heap := heap) h hlt hpos item (a.num - 1) (by omega) mem
  refine ⟨a', ?_, ?_⟩
  · rw [← h1]
    unfold appendAt
    simp only [if_pos hidx, if_neg (by omega : ¬ a.num - 1 ≥ a.num)]
  · rw [h2, show a.num - 1 + 1 = a.num by omega, List.take_of_length_le (by rw [contents_length h]; omega)]

/-- C08: with room for them, `array_append_items_at` of the C library puts the items in. -/
theorem C08_clib_append_items_at {heap mem : Bool} {a : Arr α} (h : Inv a) {items : List (Option α)} {idx : Nat} (hi : idx < a.num) (hr : a.num + items.length ≤ a.capacity) :
    ∃ a', appendItemsAt heap mem a items idx = .ok (true, a') ∧ a'.contents = a.contents.take idx ++ items ++ a.contents.drop idx ∧ Inv a' := by
  have h1 := h.num_le; have h2 := h.len
  unfold appendItemsAt
  rw [if_neg (by omega)]
  simp only [Res.bind_eq, Res.pure_eq]
  rw [if_neg (by omega), Res.ok_bind]
  simp only [Bool.true_eq_false, if_false]
  obtain ⟨a1, e, n1, c1, hcells⟩ := moveCells_ok (a := a) (d := idx + items.length) (s := idx) (n := a.num - idx) (by omega) (by omega)
  have hlen : a1.cells.length = a.cells.length := by
    rw [hcells]
    simp only [List.length_append, List.length_take, List.length_drop]
    omega
  rw [e, Res.ok_bind]
  unfold copyIn
  rw [if_pos (by omega), Res.ok_bind]
  refine ⟨_, rfl, ?_, ⟨?_, ?_, ?_⟩⟩
  · simp only [contents, hcells, n1]
    apply List.ext_getElem?
    intro j
    simp only [List.getElem?_take, List.getElem?_append, List.getElem?_drop, List.length_take, List.length_append, List.length_drop]
    grind
  · show 0 < a1.capacity
    rw [c1]; exact h.cap
  · show a1.num + items.length ≤ a1.capacity
    omega
  · show (a1.cells.take idx ++ items ++ a1.cells.drop (idx + items.length)).length = a1.capacity
    simp only [List.length_append, List.length_take, List.length_drop]
    omega

end Arr

/-! ## Cases -/

example : ∃ sb sb', SB.makeStr b!"ab\ncdefgh" = .ok sb ∧ sb.skipLine = .ok sb' ∧ SB.readN sb'.data 0 sb'.len = .ok b!"\nc" := SB.C16_skip_line_refuted
example : Str.back b!"abc" = 2 := rfl
example : (Arr.appendItemsAt false true (⟨4, 2, [some 1, some 2, none, none]⟩ : Arr Nat) [some 7, some 8] 1).bind (fun r => .ok r.2.contents) = .ok [some 1, some 7, some 8, some 2] := rfl

end Verif
