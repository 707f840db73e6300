import Verif.Props.AdtPrint
/-!
# C60: the strict reader, numerals the library does not read, and cases
-/
namespace Verif.Adt
open Verif.Fmt

/-! ### adt_parse_number_strict -/

/-- A character that may occur in a number: a digit, a letter of a hexadecimal number (`e` is one), a point or a sign. -/
def InNumber (c : UInt8) : Prop := IsHex c ∨ c.toNat = 46 ∨ c.toNat = 43 ∨ c.toNat = 45

instance (c : UInt8) : Decidable (InNumber c) := by unfold InNumber IsHex IsDigit; exact inferInstance

/-- What the loop asks of a character. -/
def asks (c : UInt8) : Option Bool := match among b!"eE.+-" c with
  | .ok a => some (a || charIsHexDigit c)
  | _ => none

theorem asks_eq (c : UInt8) (h : c ≠ 0) : ∃ a, among b!"eE.+-" c = .ok a ∧ (a || charIsHexDigit c) = decide (InNumber c) := by
  have hall : ∀ k : Fin 256, UInt8.ofNat k ≠ 0 → asks (UInt8.ofNat k) = some (decide (InNumber (UInt8.ofNat k))) := by decide +kernel
  have e : UInt8.ofNat c.toNat = c := by simp
  have := hall ⟨c.toNat, c.toNat_lt⟩
  simp only [e] at this
  have := this h
  unfold asks at this
  cases ha : among b!"eE.+-" c with
  | ok a => rw [ha] at this; exact ⟨a, rfl, by simpa using this⟩
  | ub => rw [ha] at this; cases this
  | stop => rw [ha] at this; cases this
  | hang => rw [ha] at this; cases this

theorem strictLoop_run : ∀ (s a t : Bytes) (fuel : Nat), (0 : UInt8) ∉ s → s.length < fuel →
    ∃ p, strictLoop (a ++ (s ++ 0 :: t)) fuel a.length = .ok p ∧ (p ≥ a.length + s.length ↔ ∀ c ∈ s, InNumber c)
  | [], a, t, fuel + 1, _, _ => by
    refine ⟨a.length, ?_, by simp⟩
    have := at_split a t 0 rfl
    unfold strictLoop
    simp only [List.nil_append, Res.bind_eq, this, Res.ok_bind]
    rfl
  | c :: s, a, t, fuel + 1, h0, hf => by
    simp only [List.mem_cons, not_or] at h0
    have hc : c ≠ 0 := fun e => h0.1 e.symm
    have hat := at_split a (s ++ 0 :: t) c rfl
    obtain ⟨b, hb, hbc⟩ := asks_eq c hc
    by_cases hin : InNumber c
    · obtain ⟨p, hp, hpp⟩ := strictLoop_run s (a ++ [c]) t fuel h0.2 (by simpa using hf)
      refine ⟨p, ?_, ?_⟩
      · unfold strictLoop
        simp only [List.cons_append, Res.bind_eq, hat, Res.ok_bind, hb]
        rw [if_neg hc, if_pos (by rw [hbc]; simpa using hin)]
        simpa using hp
      · simp only [List.length_append, List.length_cons, List.length_nil] at hpp ⊢
        rw [show a.length + (s.length + 1) = a.length + (0 + 1) + s.length by omega, hpp]
        simp [hin]
    · refine ⟨a.length, ?_, ?_⟩
      · unfold strictLoop
        simp only [List.cons_append, Res.bind_eq, hat, Res.ok_bind, hb]
        rw [if_neg hc, if_neg (by rw [hbc]; simpa using hin)]
        rfl
      · simp only [List.length_cons]
        constructor
        · intro h; omega
        · intro h; exact absurd (h c (by simp)) hin

/-- C60: the strict reader reads a text of characters that may occur in a number like the other one, and takes no notice of any other text: it returns the
pointer it was given and leaves the node alone. -/
theorem C60_strict (F : F64) (lt : Bool) (s t : Bytes) (n : Number) (h0 : (0 : UInt8) ∉ s) :
    parseNumberStrict F lt (s ++ 0 :: t) n = if ∀ c ∈ s, InNumber c then parseNumber F lt (s ++ 0 :: t) n else .ok (0, n) := by
  obtain ⟨p, hp, hpp⟩ := strictLoop_run s [] t ((s ++ 0 :: t).length + 1) h0 (by simp; omega)
  simp only [List.nil_append, List.length_nil, Nat.zero_add] at hp hpp
  unfold parseNumberStrict
  simp only [Res.bind_eq, CStr.len_spec s t h0, Res.ok_bind, hp]
  by_cases h : ∀ c ∈ s, InNumber c
  · rw [if_pos h, if_pos (hpp.2 h)]
  · rw [if_neg h, if_neg (fun hge => h (hpp.1 hge))]
    rfl

/-- C60, refuted: the strict reader refuses every hexadecimal number: `x` is not among the characters it looks for. -/
theorem C60_strict_no_hexadecimal (F : F64) (lt : Bool) (u v t : Bytes) (n : Number) (h0 : (0 : UInt8) ∉ u ++ b!"x" ++ v) :
    parseNumberStrict F lt (u ++ b!"x" ++ v ++ 0 :: t) n = .ok (0, n) := by
  rw [C60_strict F lt _ t n h0, if_neg]
  intro h
  exact absurd (h 120 (by simp)) (by decide)

/-! ### Texts that are read as something else -/

/-- The node that is left by an integer. -/
def Number.int (n : Number) (v : Int) (p : Props) (z : Bool) : Number :=
  { n with type := .integer, props := p, integer := v, base := 0, base2 := 0, base2Offset := 0, exp := 0, negZero := z, leadDigit := false }

/-- C60, refuted: a capital `X` makes any number a zero. -/
theorem C60_capital_x (F : F64) (lt : Bool) (n : Number) : parseNumber F lt b!"0XFF\x00" n = .ok (4, n.int 0 .isHex false) := by
  cases lt <;> rfl

/-- C60, refuted: a sign in front of a hexadecimal number makes it a negative zero. -/
theorem C60_negative_hexadecimal (F : F64) (lt : Bool) (n : Number) : parseNumber F lt b!"-0x10\x00" n = .ok (5, n.int 0 .isHex true) := by
  cases lt <;> rfl

/-- C60, refuted: without a point there is no exponent: its letter passes as a hexadecimal digit, and the number ends in front of it. -/
theorem C60_integer_exponent (F : F64) (lt : Bool) (n : Number) : parseNumber F lt b!"1e5\x00" n = .ok (3, n.int 1 .none false) := by
  cases lt <;> rfl

/-- C60, refuted: a word of the letters `a` to `f` is read as the number zero. -/
theorem C60_word (F : F64) (lt : Bool) (n : Number) : parseNumber F lt b!"dead\x00" n = .ok (4, n.int 0 .none false) := by
  cases lt <;> rfl

/-- C60, refuted: letters behind a decimal number are passed over. -/
theorem C60_digits_and_letters (F : F64) (lt : Bool) (n : Number) : parseNumber F lt b!"12abc\x00" n = .ok (5, n.int 12 .none false) := by
  cases lt <;> rfl

/-- C60, refuted: for an empty text the pointer behind its terminator is returned. -/
theorem C60_empty (F : F64) (lt : Bool) (n : Number) : parseNumber F lt b!"\x00" n = .ok (1, n) := by
  cases lt <;> rfl

/-- C60, refuted: five bytes hold the exponent's digits; six of them leave no terminator. -/
theorem C60_long_exponent (F : F64) (lt : Bool) (n : Number) : parseNumber F lt b!"1.5e000001\x00" n = .ub := by
  cases lt <;> rfl

/-- C60, refuted: the lowest integer cannot be read: its value is not representable before the sign is applied. -/
theorem C60_lowest (F : F64) (lt : Bool) (n : Number) : parseNumber F lt b!"-9223372036854775808\x00" n = .ub := by
  cases lt <;> rfl

set_option maxRecDepth 40000 in
/-- C60, refuted: 48 bytes hold the number; a longer one is written behind them. -/
theorem C60_long (F : F64) (lt : Bool) (n : Number) : parseNumber F lt b!"0000000000000000000000000000000000000000000000001\x00" n = .ub := by
  cases lt <;> rfl

/-- Some arithmetic of floating point numbers: the cases below do not depend on it. -/
def someF : F64 := ⟨fun _ => 0, fun _ x => x, fun _ => []⟩

/-- C60, refuted: four bits hold the exponent: 9 is noted, and written, as -7. -/
theorem C60_exponent_nine (lt : Bool) : ∃ n', parseNumber someF lt b!"1.5e9\x00" {} = .ok (5, n') ∧ n'.exp = -7 ∧
    printNumber someF lt n' = .ok (some [b!"1.5e-7"]) := by
  refine ⟨{ type := .real, props := .isExp, base := 1, base2 := 5, base2Offset := 0, exp := -7, leadDigit := true }, by cases lt <;> decide +kernel, rfl, ?_⟩
  refine (printed (.inr rfl) (digits_exp someF lt _ 0 rfl rfl rfl (by decide) (by decide) (by decide) (by decide))).trans ?_
  unfold Num.signedText
  simp [sign, Num.D, Num.chr]
  decide

/-- C60, refuted: zeros behind the point get one more when they are written: `1.0e5` comes back as `1.00e5`. -/
theorem C60_zeros_grow (lt : Bool) : ∃ n', parseNumber someF lt b!"1.0e5\x00" {} = .ok (5, n') ∧
    printNumber someF lt n' = .ok (some [b!"1.00e5"]) := by
  refine ⟨{ type := .real, props := .isExp, base := 1, base2 := 0, base2Offset := 1, exp := 5, leadDigit := true }, by cases lt <;> decide +kernel, ?_⟩
  refine (printed (.inr rfl) (digits_exp someF lt _ 1 rfl rfl rfl (by decide) (by decide) (by decide) (by decide))).trans ?_
  unfold Num.signedText
  simp [sign, Num.D, Num.chr]
  decide

/-! ### Cases -/

/-- `-1207,` is read to the comma and written as `-1207`. -/
example (F : F64) (lt : Bool) (n : Number) : ∃ n' ps, parseNumber F lt b!"-1207,\x00" n = .ok (5, n') ∧ printNumber F lt n' = .ok (some ps) ∧ ps.flatten = b!"-1207" :=
  C60_decimal_round_trip F lt .minus b!"1207" 44 [0] n (by decide) (by decide) (by unfold NoLead; decide) (by unfold Ends IsHex IsDigit; decide) (by decide) (by decide)

/-- A minus in front of a zero. -/
example (F : F64) (lt : Bool) (n : Number) : ∃ n' ps, parseNumber F lt b!"-0\x00" n = .ok (2, n') ∧ printNumber F lt n' = .ok (some ps) ∧ ps.flatten = b!"-0" :=
  C60_decimal_round_trip F lt .minus b!"0" 0 [] n (by decide) (by decide) (by unfold NoLead; decide) (by unfold Ends IsHex IsDigit; decide) (by decide) (by decide)

/-- `0x1F` is written as `0x1f`. -/
example (F : F64) (lt : Bool) (n : Number) : ∃ n' ps, parseNumber F lt b!"0x1F\x00" n = .ok (4, n') ∧ printNumber F lt n' = .ok (some ps) ∧ ps.flatten = b!"0x1f" :=
  C60_hexadecimal_round_trip F lt false b!"1F" 0 [] n (by decide) (by decide) (by unfold NoLead; decide) (by unfold Ends IsHex IsDigit; decide) (by decide) (by decide)

/-- `-1.05E-3 `. -/
example (F : F64) (lt : Bool) (n : Number) : ∃ n' ps, parseNumber F lt b!"-1.05E-3 \x00" n = .ok (8, n') ∧ printNumber F lt n' = .ok (some ps) ∧ ps.flatten = b!"-1.05e-3" :=
  C60_exponent_round_trip F lt .minus b!"1" b!"05" b!"3" true .minus 32 [0] n (by decide) (by decide) (by unfold NoLead; decide) (by decide) ⟨53, by decide, by decide⟩
    (by decide) (by decide) (by unfold NoLead; decide) (by decide) (by decide) (by unfold IsDigit; decide) (by decide) (by decide) (by decide) (by decide) (by decide)

/-- `.025`. -/
example (F : F64) (lt : Bool) (n : Number) : ∃ n' ps, parseNumber F lt b!".025\x00" n = .ok (4, n') ∧ printNumber F lt n' = .ok (some ps) ∧ ps.flatten = b!".025" :=
  C60_point_round_trip F lt .none b!"025" 0 [] n (by decide) ⟨50, by decide, by decide⟩ (by unfold IsDigit; decide) (by decide) (by decide) (by decide) (by decide)

end Verif.Adt
