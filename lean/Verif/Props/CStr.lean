import Verif.Model.CStr
/-!
# Properties C18 (Str comparisons) and C39 (C string helpers)

Specification vocabulary: a NUL-terminated string `s` stored at the start of a buffer is the buffer `s ++ 0 :: rest` with
`0 ∉ s`. Offsets are results of pointer-returning functions.
-/
namespace Verif.CStr

theorem len_spec (s rest : Bytes) (h : (0 : UInt8) ∉ s) : len (s ++ 0 :: rest) = .ok s.length := by
  induction s with
  | nil => simp [len]
  | cons b s ih =>
    simp only [List.mem_cons, not_or] at h
    have hb : ¬ b = 0 := fun e => h.1 e.symm
    simp [len, hb, ih h.2]

/-- C39: `c_str_len` is the number of characters before the terminator; nothing after the terminator is read or matters. -/
theorem C39_len (s rest : Bytes) (h : (0 : UInt8) ∉ s) : len (s ++ 0 :: rest) = .ok s.length := len_spec s rest h

theorem copyLoop_zeros (dest rest : Bytes) (n : Nat) (hd : n ≤ dest.length) :
    copyLoop dest (0 :: rest) n = .ok (List.replicate n 0 ++ dest.drop n, 0) := by
  induction n generalizing dest with
  | zero => simp [copyLoop]
  | succ n ih =>
    cases dest with
    | nil => simp at hd
    | cons d ds =>
      simp at hd
      simp [copyLoop, ih ds hd, List.replicate_succ]

theorem copyLoop_spec (dest s rest : Bytes) (n : Nat) (h : (0 : UInt8) ∉ s) (hd : n ≤ dest.length) :
    copyLoop dest (s ++ 0 :: rest) n =
      .ok (s.take n ++ List.replicate (n - s.length) 0 ++ dest.drop n, min n s.length) := by
  induction s generalizing dest n with
  | nil => simpa using copyLoop_zeros dest rest n hd
  | cons b s ih =>
    simp only [List.mem_cons, not_or] at h
    have hb : ¬ b = 0 := fun e => h.1 e.symm
    cases n with
    | zero => simp [copyLoop]
    | succ n =>
      cases dest with
      | nil => simp at hd
      | cons d ds =>
        simp at hd
        simp [copyLoop, hb, ih ds n h.2 hd, Nat.add_min_add_right]

/-- C39: `c_str_copy(dest, s, n)` writes exactly `n` bytes: the first `n` characters of `s` padded with NULs. -/
theorem C39_copy (dest s rest : Bytes) (n : Nat) (h : (0 : UInt8) ∉ s) (hd : n ≤ dest.length) :
    copy dest (some (s ++ 0 :: rest)) n = .ok (s.take n ++ List.replicate (n - s.length) 0 ++ dest.drop n) := by
  simp [copy, copyLoop_spec dest s rest n h hd]

/-- C39: `c_str_copy_nulpad` writes the same and returns how many characters it took from the source. -/
theorem C39_copy_nulpad (dest s rest : Bytes) (n : Nat) (h : (0 : UInt8) ∉ s) (hd : n ≤ dest.length) :
    copyNulpad dest (some (s ++ 0 :: rest)) n =
      .ok (s.take n ++ List.replicate (n - s.length) 0 ++ dest.drop n, min n s.length) :=
  copyLoop_spec dest s rest n h hd

/-- C39: a null source leaves the destination as it was. -/
theorem C39_copy_null (dest : Bytes) (n : Nat) : copy dest none n = .ok dest ∧ copyNulpad dest none n = .ok (dest, 0) :=
  ⟨rfl, rfl⟩

theorem mapStr_spec (f : UInt8 → UInt8) (s rest : Bytes) (h : (0 : UInt8) ∉ s) :
    mapStr f (s ++ 0 :: rest) = .ok (s.map f ++ 0 :: rest) := by
  induction s with
  | nil => simp [mapStr]
  | cons b s ih =>
    simp only [List.mem_cons, not_or] at h
    have hb : ¬ b = 0 := fun e => h.1 e.symm
    simp [mapStr, hb, ih h.2]

/-- Specification: the ASCII upper-case letters `A`..`Z` become the lower-case letter 32 positions later. -/
def specLower (c : UInt8) : UInt8 := if c.toNat ∈ List.range' 65 26 then UInt8.ofNat (c.toNat + 32) else c
/-- Specification: the ASCII lower-case letters `a`..`z` become the upper-case letter 32 positions earlier. -/
def specUpper (c : UInt8) : UInt8 := if c.toNat ∈ List.range' 97 26 then UInt8.ofNat (c.toNat - 32) else c

theorem forall_u8 {p : UInt8 → Prop} (h : ∀ n : Fin 256, p (UInt8.ofNat n.val)) (c : UInt8) : p c := by
  have := h ⟨c.toNat, c.toNat_lt⟩
  simpa using this

theorem lower_eq (c : UInt8) : charToLower c = specLower c := by
  revert c; apply forall_u8; decide +kernel
theorem upper_eq (c : UInt8) : charToUpper c = specUpper c := by
  revert c; apply forall_u8; decide +kernel

/-- C39: `c_str_to_lower` / `c_str_to_upper` convert every ASCII letter before the terminator and nothing else. -/
theorem C39_case (s rest : Bytes) (h : (0 : UInt8) ∉ s) :
    toLower (s ++ 0 :: rest) = .ok (s.map specLower ++ 0 :: rest) ∧
    toUpper (s ++ 0 :: rest) = .ok (s.map specUpper ++ 0 :: rest) := by
  have hl : charToLower = specLower := funext lower_eq
  have hu : charToUpper = specUpper := funext upper_eq
  exact ⟨by rw [← hl]; exact mapStr_spec _ s rest h, by rw [← hu]; exact mapStr_spec _ s rest h⟩

/-- The index of the first element satisfying `p`, or the length. -/
def firstIdx (p : UInt8 → Bool) (s : Bytes) : Nat := (s.takeWhile fun b => !p b).length

theorem skip_spec (s rest : Bytes) (c : UInt8) (h : (0 : UInt8) ∉ s) :
    skip (s ++ 0 :: rest) c = .ok (firstIdx (· == c) s) := by
  induction s with
  | nil => simp [skip, firstIdx]
  | cons b s ih =>
    simp only [List.mem_cons, not_or] at h
    have hb : ¬ b = 0 := fun e => h.1 e.symm
    simp only [List.cons_append, skip]
    by_cases hc : b = c
    · subst hc; simp [firstIdx]
    · have := ih h.2
      simp only [firstIdx] at this ⊢
      simp [hb, hc, this]

/-- C39: `c_str_skip(s, c)` points at the first `c`, or at the terminator if there is none. -/
theorem C39_skip (s rest : Bytes) (c : UInt8) (h : (0 : UInt8) ∉ s) :
    skip (s ++ 0 :: rest) c = .ok (firstIdx (· == c) s) := skip_spec s rest c h

theorem firstIdx_or (p q : UInt8 → Bool) (s : Bytes) :
    min (firstIdx p s) (firstIdx q s) = firstIdx (fun b => p b || q b) s := by
  induction s with
  | nil => simp [firstIdx]
  | cons b s ih =>
    simp only [firstIdx] at ih ⊢
    by_cases hp : p b = true <;> by_cases hq : q b = true <;> simp [List.takeWhile_cons, hp, hq]
    simp at ih
    rw [← ih]

theorem skipAnyLoop_spec (s rest : Bytes) (h : (0 : UInt8) ∉ s) : ∀ (cs : Bytes) (p : UInt8 → Bool),
    skipAnyLoop (s ++ 0 :: rest) (firstIdx p s) cs = .ok (firstIdx (fun b => p b || cs.contains b) s) := by
  intro cs
  induction cs with
  | nil => intro p; simp [skipAnyLoop]
  | cons c cs ih =>
    intro p
    simp only [skipAnyLoop, skip_spec s rest c h, Res.ok_bind]
    rw [firstIdx_or, ih]
    congr 2
    funext b
    rw [List.contains_cons, Bool.or_assoc]

/-- C39: `c_str_skip_any(s, list)` points at the first character of `s` that is in the list, or at the terminator. -/
theorem C39_skip_any (s rest cs crest : Bytes) (h : (0 : UInt8) ∉ s) (hc : (0 : UInt8) ∉ cs) :
    skipAny (s ++ 0 :: rest) (cs ++ 0 :: crest) = .ok (firstIdx (fun b => decide (b ∈ cs)) s) := by
  have h0 : s.length = firstIdx (fun _ => false) s := by
    induction s with
    | nil => rfl
    | cons b s ih => simp only [firstIdx] at ih ⊢; simp at h ⊢; simpa using ih h.2
  simp only [skipAny, len_spec s rest h, len_spec cs crest hc, Res.ok_bind]
  rw [h0, List.take_left' rfl, skipAnyLoop_spec s rest h]
  congr 2
  funext b
  simp

/-- C39: `c_str_trim(s, catch_newline)` skips exactly the leading whitespace; with `catch_newline` it stops at a newline. -/
theorem C39_trim (s rest : Bytes) (nl : Bool) (h : (0 : UInt8) ∉ s) :
    trim (s ++ 0 :: rest) nl =
      .ok (s.takeWhile fun b => b ∈ [(32 : UInt8), 9, 10, 13, 12, 11] ∧ ¬ (nl = true ∧ b = 10)).length := by
  induction s with
  | nil => simp [trim]
  | cons b s ih =>
    simp only [List.mem_cons, not_or] at h
    have hb : ¬ b = 0 := fun e => h.1 e.symm
    have hsp : charIsSpace b = true ↔ b ∈ [(32 : UInt8), 9, 10, 13, 12, 11] := by simp [charIsSpace, or_assoc]
    simp only [List.cons_append, trim, ih h.2, Res.ok_bind, List.takeWhile_cons]
    by_cases hs : b ∈ [(32 : UInt8), 9, 10, 13, 12, 11]
    · have hs' := hsp.mpr hs
      cases nl
      · simp [hb, hs', hs]
      · by_cases hn : b = 10
        · simp [hn]
        · simp [hb, hs', hs, hn]
    · have hs' : ¬ charIsSpace b = true := fun e => hs (hsp.mp e)
      simp [hs', hs]

/-- C39: `char_first_occurence(s, c)` points at the first `c`; null iff `c` does not occur before the terminator, except
that asking for the NUL character points at the terminator. -/
theorem C39_first_occurence (s rest : Bytes) (c : UInt8) (h : (0 : UInt8) ∉ s) :
    charFirstOccurence (s ++ 0 :: rest) c =
      .ok (if c ∈ s ∨ c = 0 then some (firstIdx (· == c) s) else none) := by
  induction s with
  | nil =>
    by_cases hc : c = 0
    · subst hc; simp [charFirstOccurence, firstIdx]
    · have : ¬ (0 : UInt8) = c := fun e => hc e.symm
      simp [charFirstOccurence, hc, this]
  | cons b s ih =>
    simp only [List.mem_cons, not_or] at h
    have hb : ¬ b = 0 := fun e => h.1 e.symm
    by_cases hc : b = c
    · subst hc; simp [charFirstOccurence, firstIdx]
    · have hc' : ¬ c = b := fun e => hc e.symm
      simp only [List.cons_append, charFirstOccurence, hc, hb, if_false, ih h.2, Res.ok_bind, firstIdx, List.mem_cons, hc',
        false_or]
      by_cases hm : c ∈ s ∨ c = 0
      · simp [hm, hc]
      · simp [hm]

/-- C39: `c_str_len_capped` is the length, but at most `max_len`, and reads at most `max_len` bytes. -/
theorem C39_len_capped (buf : Bytes) (n : Nat) (hn : n ≤ buf.length) :
    lenCapped buf n = .ok ((buf.take n).takeWhile (· ≠ 0)).length := by
  have hlt : ¬ buf.length < n := by omega
  simp only [lenCapped, hlt, if_false]
  have key : ∀ l : Bytes, (match l.findIdx? (· == 0) with
      | some i => (Res.ok i : Res Nat)
      | none => .ok l.length) = .ok (l.takeWhile (· ≠ 0)).length := by
    intro l
    induction l with
    | nil => simp
    | cons b l ih =>
      rw [List.findIdx?_cons]
      by_cases hb : b = 0
      · simp [hb]
      · simp only [beq_iff_eq, hb, if_false, ne_eq, List.takeWhile_cons, not_false_eq_true, decide_true, if_true,
          List.length_cons]
        cases hf : l.findIdx? (· == 0) with
        | none => rw [hf] at ih; simpa using ih
        | some i => rw [hf] at ih; simpa using ih
  have := key (buf.take n)
  rw [List.length_take, Nat.min_eq_left hn] at this
  exact this

theorem swap_spec (a m r : Bytes) (x y : UInt8) (ha : a.length = i) (hj : j = i + 1 + m.length) :
    swap (a ++ x :: (m ++ y :: r)) i j = .ok (a ++ y :: (m ++ x :: r)) := by
  subst ha; subst hj
  have h1 : (a ++ x :: (m ++ y :: r))[a.length]? = some x := by simp
  have h2 : (a ++ x :: (m ++ y :: r))[a.length + 1 + m.length]? = some y := by
    rw [List.getElem?_append_right (by omega)]
    have : a.length + 1 + m.length - a.length = m.length + 1 := by omega
    rw [this]; simp
  simp only [swap, h1, h2]
  congr 1
  rw [List.set_append_right _ _ (by omega)]
  simp only [Nat.sub_self, List.set_cons_zero]
  rw [List.set_append_right _ _ (by omega)]
  have : a.length + 1 + m.length - a.length = m.length + 1 := by omega
  rw [this]; simp

theorem snoc_cases (l : Bytes) : l = [] ∨ ∃ i x, l = i ++ [x] := by
  rcases List.eq_nil_or_concat l with h | ⟨i, x, h⟩
  · exact .inl h
  · exact .inr ⟨i, x, by simpa using h⟩

theorem reverseLoop_spec : ∀ (k : Nat) (a m r : Bytes), m.length / 2 = k →
    reverseLoop k (a ++ (m ++ r)) a.length (a.length + m.length - 1) = .ok (a ++ (m.reverse ++ r)) := by
  intro k
  induction k with
  | zero =>
    intro a m r hm
    have : m.length ≤ 1 := by omega
    match m, this with
    | [], _ => simp [reverseLoop]
    | [x], _ => simp [reverseLoop]
  | succ k ih =>
    intro a m r hm
    match m with
    | [] => simp at hm
    | x :: m' =>
      rcases snoc_cases m' with h | ⟨mi, y, h⟩
      · subst h; simp at hm
      · subst h
        simp only [reverseLoop]
        have e : a ++ (x :: (mi ++ [y]) ++ r) = a ++ x :: (mi ++ y :: r) := by simp
        rw [e, swap_spec a mi r x y rfl (by simp; omega)]
        simp only [Res.ok_bind]
        have e2 : a ++ y :: (mi ++ x :: r) = (a ++ [y]) ++ (mi ++ (x :: r)) := by simp
        have hl : a.length + (x :: (mi ++ [y])).length - 1 - 1 = (a ++ [y]).length + mi.length - 1 := by
          simp only [List.length_append, List.length_cons, List.length_nil]; omega
        rw [e2, hl]
        have hl2 : a.length + 1 = (a ++ [y]).length := by simp
        rw [hl2, ih (a ++ [y]) mi (x :: r) (by simp at hm; omega)]
        simp

/-- C39: `c_str_reverse` reverses the characters before the terminator in place. -/
theorem C39_reverse (s rest : Bytes) (h : (0 : UInt8) ∉ s) :
    reverse (s ++ 0 :: rest) = .ok (s.reverse ++ 0 :: rest) := by
  simp only [reverse, len_spec s rest h, Res.ok_bind]
  have := reverseLoop_spec (s.length / 2) [] s (0 :: rest) rfl
  simpa using this

/-- C39: `c_str_compare` is 0 exactly on equal strings, negative / positive as the first differing characters (as
unsigned bytes, the terminator counting as 0) compare. -/
theorem C39_compare (s t r1 r2 : Bytes) (hs : (0 : UInt8) ∉ s) (ht : (0 : UInt8) ∉ t) :
    ∃ v, compare (s ++ 0 :: r1) (t ++ 0 :: r2) = .ok v ∧ (v = 0 ↔ s = t) ∧ (v < 0 ↔ s < t) := by
  induction s generalizing t with
  | nil =>
    cases t with
    | nil => exact ⟨0, by simp [compare], by simp, by simp⟩
    | cons b t =>
      simp only [List.mem_cons, not_or] at ht
      have hb : b.toNat ≠ 0 := fun e => ht.1 (UInt8.toNat_inj.mp (by simpa using e.symm))
      exact ⟨0 - (b.toNat : Int), by simp [compare], by simp; omega, by simp; omega⟩
  | cons a s ih =>
    simp only [List.mem_cons, not_or] at hs
    have ha : a ≠ 0 := fun e => hs.1 e.symm
    have ha' : a.toNat ≠ 0 := fun e => ha (UInt8.toNat_inj.mp (by simpa using e))
    cases t with
    | nil => exact ⟨(a.toNat : Int) - 0, by simp [compare, ha], by simp; omega, by simp⟩
    | cons b t =>
      simp only [List.mem_cons, not_or] at ht
      by_cases hab : a = b
      · subst hab
        obtain ⟨v, hv, h0, h1⟩ := ih t hs.2 ht.2
        exact ⟨v, by simp [compare, ha, hv], by simpa using h0, by simpa [List.cons_lt_cons_iff] using h1⟩
      · refine ⟨(a.toNat : Int) - b.toNat, by simp [compare, hab], ?_, ?_⟩
        · have : a.toNat ≠ b.toNat := fun e => hab (UInt8.toNat_inj.mp e)
          simp [hab]; omega
        · rw [List.cons_lt_cons_iff]
          simp only [hab, false_and, or_false, UInt8.lt_iff_toNat_lt]
          omega

/-- Non-vacuity: `"ab\0zz"`. -/
example : reverse (b!"ab" ++ 0 :: b!"zz") = .ok (b!"ba" ++ 0 :: b!"zz") := C39_reverse _ _ (by decide)

end Verif.CStr

namespace Verif.Str
open CStr

theorem areEqualLoop_spec (l r : Bytes) (h : l.length = r.length) : ∀ (k idx : Nat), k + idx = l.length →
    areEqualLoop l r k idx = .ok (decide (l.drop idx = r.drop idx)) := by
  intro k
  induction k with
  | zero =>
    intro idx hi
    rw [List.drop_eq_nil_of_le (by omega), List.drop_eq_nil_of_le (by omega)]; simp [areEqualLoop]
  | succ k ih =>
    intro idx hi
    have h1 : idx < l.length := by omega
    have h2 : idx < r.length := by omega
    simp only [areEqualLoop, List.getElem?_eq_getElem h1, List.getElem?_eq_getElem h2]
    have e1 := List.drop_eq_getElem_cons h1
    have e2 := List.drop_eq_getElem_cons h2
    by_cases he : l[idx] = r[idx]
    · simp only [he, ne_eq, not_true, if_false, ih (idx+1) (by omega)]
      rw [e1, e2, he]; simp only [List.cons.injEq, true_and]
    · simp only [ne_eq, he, not_false_iff, if_true]
      rw [e1, e2]; simp only [List.cons.injEq, he, false_and, decide_false]

/-- C18: `str_are_equal` is equality of the byte sequences (embedded NULs included) and never reads out of bounds. -/
theorem C18_are_equal (l r : Bytes) : areEqual l r = .ok (decide (l = r)) := by
  unfold areEqual
  by_cases h : l.length = r.length
  · rw [if_neg (by simpa using h), areEqualLoop_spec l r h _ 0 (by omega)]; simp
  · have : l ≠ r := fun e => h (by rw [e])
    simp [h, this]

/-- The part of a string a C-string comparison looks at: everything before the first NUL, and whether there was one. -/
def upToNul (s : Bytes) : Bytes × Bool := (s.takeWhile (· ≠ 0), decide (0 ∈ s))

theorem compareLen_spec (lt : Bool) (a b : Bytes) (n : Nat) (ha : n ≤ a.length) (hb : n ≤ b.length) :
    ∃ v, compareLen lt a b n = .ok v ∧ (v = 0 ↔ upToNul (a.take n) = upToNul (b.take n)) := by
  induction n generalizing a b with
  | zero => exact ⟨0, by simp [compareLen], by simp⟩
  | succ n ih =>
    match a, b with
    | [], _ => simp at ha
    | _ :: _, [] => simp at hb
    | x :: a, y :: b =>
      simp at ha hb
      by_cases hxy : x = y
      · subst hxy
        by_cases h0 : x = 0
        · subst h0
          exact ⟨0, by simp [compareLen], by simp [upToNul]⟩
        · obtain ⟨v, hv, hz⟩ := ih a b ha hb
          have h0' : ¬ (0 : UInt8) = x := fun e => h0 e.symm
          refine ⟨v, by simp [compareLen, h0, hv], ?_⟩
          rw [hz]
          simp [upToNul, h0, h0']
      · refine ⟨if lt then -1 else 1, by simp [compareLen, hxy], ?_⟩
        constructor
        · intro h; cases lt <;> simp at h
        · intro h
          exfalso
          simp only [upToNul, List.take_succ_cons, List.takeWhile_cons, Prod.mk.injEq] at h
          by_cases h0 : x = 0
          · have hy : ¬ y = 0 := fun e => hxy (by rw [h0, e])
            have := h.1
            rw [if_neg (by simp [h0]), if_pos (by simp [hy])] at this
            simp at this
          · by_cases hy : y = 0
            · have := h.1
              rw [if_pos (by simp [h0]), if_neg (by simp [hy])] at this
              simp at this
            · have := h.1
              rw [if_pos (by simp [h0]), if_pos (by simp [hy])] at this
              simp [hxy] at this

theorem upToNul_eq (s t : Bytes) (hl : s.length = t.length) (ht : (0 : UInt8) ∉ t) : upToNul s = upToNul t ↔ s = t := by
  constructor
  · intro h
    simp only [upToNul, Prod.mk.injEq] at h
    have hs : (0 : UInt8) ∉ s := by
      intro hs
      have h2 := h.2
      simp [hs, ht] at h2
    have tw : ∀ l : Bytes, (0 : UInt8) ∉ l → l.takeWhile (· ≠ 0) = l := by
      intro l h0
      induction l with
      | nil => rfl
      | cons x l ih =>
        simp only [List.mem_cons, not_or] at h0
        have hx : ¬ x = 0 := fun e => h0.1 e.symm
        simp [hx]
        simpa using ih h0.2
    rw [tw s hs, tw t ht] at h
    exact h.1
  · intro h; rw [h]

/-- C18: with a NUL-free prefix, `str_starts_with` is the prefix test (for any `str`, embedded NULs included), and reads
only inside the two strings. -/
theorem C18_starts_with (lt : Bool) (s sub : Bytes) (h0 : (0 : UInt8) ∉ sub) :
    startsWith lt s sub = .ok (sub.isPrefixOf s) := by
  unfold startsWith
  by_cases hl : sub.length > s.length
  · have : sub.isPrefixOf s = false := by
      cases hp : sub.isPrefixOf s with
      | false => rfl
      | true => have := (List.isPrefixOf_iff_prefix.mp hp).length_le; omega
    simp [hl, this]
  · obtain ⟨v, hv, hz⟩ := compareLen_spec lt s sub sub.length (by omega) (by omega)
    simp only [hl, if_false, hv, Res.ok_bind]
    congr 1
    rw [Bool.eq_iff_iff, decide_eq_true_iff, hz, List.isPrefixOf_iff_prefix, List.take_length,
      upToNul_eq _ _ (by simp; omega) h0, List.prefix_iff_eq_take]
    exact ⟨Eq.symm, Eq.symm⟩

theorem containsLoop_spec (lt : Bool) (s sub : Bytes) (h0 : (0 : UInt8) ∉ sub) : ∀ (k idx : Nat),
    idx + k = s.length - sub.length + 1 → sub.length ≤ s.length →
    ∃ v, containsLoop lt s sub k idx = .ok v ∧
      (v = true ↔ ∃ i, idx ≤ i ∧ i + sub.length ≤ s.length ∧ (s.drop i).take sub.length = sub) := by
  intro k
  induction k with
  | zero =>
    intro idx hk hl
    refine ⟨false, rfl, ?_⟩
    simp
    intro i h1 h2; omega
  | succ k ih =>
    intro idx hk hl
    obtain ⟨v, hv, hz⟩ := compareLen_spec lt (s.drop idx) sub sub.length (by simp; omega) (by omega)
    simp only [containsLoop, hv, Res.ok_bind]
    rw [List.take_length, upToNul_eq _ _ (by simp; omega) h0] at hz
    by_cases h : v = 0
    · refine ⟨true, by simp [h], ?_⟩
      simp only [true_iff]
      exact ⟨idx, Nat.le_refl _, by omega, hz.mp h⟩
    · obtain ⟨w, hw, hwz⟩ := ih (idx+1) (by omega) hl
      refine ⟨w, by simp [h, hw], ?_⟩
      rw [hwz]
      constructor
      · rintro ⟨i, h1, h2⟩; exact ⟨i, by omega, h2⟩
      · rintro ⟨i, h1, h2⟩
        rcases Nat.lt_or_ge idx i with h3 | h3
        · exact ⟨i, by omega, h2⟩
        · have : i = idx := by omega
          subst this
          exact absurd (hz.mpr h2.2) h

/-- C18: with a NUL-free substring, `str_contains` is the substring test, and reads only inside the two strings. -/
theorem C18_contains (lt : Bool) (s sub : Bytes) (h0 : (0 : UInt8) ∉ sub) :
    ∃ v, contains lt s sub = .ok v ∧ (v = true ↔ sub <:+: s) := by
  unfold contains
  by_cases hl : sub.length > s.length
  · refine ⟨false, by simp [hl], ?_⟩
    simp
    intro h; have := h.length_le; omega
  · obtain ⟨v, hv, hz⟩ := containsLoop_spec lt s sub h0 (s.length - sub.length + 1) 0 (by omega) (by omega)
    refine ⟨v, by simp [hl, hv], ?_⟩
    rw [hz]
    constructor
    · rintro ⟨i, _, _, h⟩
      refine ⟨s.take i, (s.drop i).drop sub.length, ?_⟩
      have e : sub ++ (s.drop i).drop sub.length = s.drop i := by
        have := List.take_append_drop sub.length (s.drop i)
        rw [h] at this; exact this
      rw [List.append_assoc, e, List.take_append_drop]
    · rintro ⟨a, b, h⟩
      refine ⟨a.length, by omega, by rw [← h]; simp, ?_⟩
      rw [← h, List.append_assoc, List.drop_left' rfl, List.take_left' rfl]

/-- C18: `c_str_compare_len` is 0 exactly when the two strings agree on the first `n` characters or up to a common NUL. -/
theorem C18_compare_len (lt : Bool) (a b : Bytes) (n : Nat) (ha : n ≤ a.length) (hb : n ≤ b.length) :
    ∃ v, compareLen lt a b n = .ok v ∧ (v = 0 ↔ upToNul (a.take n) = upToNul (b.take n)) :=
  compareLen_spec lt a b n ha hb

/-- C18, refuted for substrings with an embedded NUL: what follows the NUL is ignored. -/
theorem C18_embedded_nul_refuted (lt : Bool) :
    startsWith lt [97, 0, 98] [97, 0, 99] = .ok true ∧ contains lt [97, 0, 98] [97, 0, 99] = .ok true := by
  cases lt <;> exact ⟨rfl, rfl⟩

/-- C18, refuted: `strbuilder_starts_with_string` ignores the last character of the prefix. -/
theorem C18_starts_with_string_refuted (lt : Bool) : startsWithString lt b!"abcd" b!"abX" = .ok true := by
  cases lt <;> rfl

/-- C18, what `strbuilder_starts_with_string` does: the prefix test without the last character of the prefix. -/
theorem C18_starts_with_string_actual (lt : Bool) (s sub : Bytes) (h0 : (0 : UInt8) ∉ sub) (hl : sub.length ≤ s.length) :
    startsWithString lt s sub = .ok (sub.dropLast.isPrefixOf s) := by
  have h1 : (0 : UInt8) ∉ sub.dropLast := fun h => h0 (List.dropLast_subset sub h)
  obtain ⟨v, hv, hz⟩ := compareLen_spec lt s sub (sub.length - 1) (by omega) (by omega)
  have hgt : ¬ sub.length > s.length := by omega
  simp only [startsWithString, hgt, if_false, hv, Res.ok_bind]
  congr 1
  rw [← List.dropLast_eq_take, upToNul_eq _ _ (by simp; omega) h1] at hz
  rw [Bool.eq_iff_iff, decide_eq_true_iff, hz, List.isPrefixOf_iff_prefix, List.prefix_iff_eq_take, List.length_dropLast]
  exact ⟨Eq.symm, Eq.symm⟩

/-- C18: the sign of `c_str_compare_len` carries no information about the strings: it is the order of the two addresses. -/
theorem C18_compare_len_sign_refuted : compareLen true b!"b" b!"a" 1 = .ok (-1) ∧ compareLen false b!"a" b!"b" 1 = .ok 1 :=
  ⟨rfl, rfl⟩

/-- C18: `to_str_from_c_str` spans the characters before the terminator. -/
theorem C18_of_c_str (s rest : Bytes) (h : (0 : UInt8) ∉ s) : ofCStr (s ++ 0 :: rest) = .ok s := by
  simp [ofCStr, len_spec s rest h]

example : startsWith true b!"hello" b!"hel" = .ok true := C18_starts_with true _ _ (by decide)

end Verif.Str
