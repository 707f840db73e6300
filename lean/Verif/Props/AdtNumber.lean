import Verif.Proof.AdtNumber
import Verif.Props.CsvWrite
/-!
# C60: numbers of a data tree

`adt_parse_number` reads the number a text starts with, `adt_print_number` writes it. What the numerals mean is said in Props/AdtNumberSpec.lean.
-/
namespace Verif.Adt
open Verif.Num Verif.Fmt

theorem drop_zeros (u : Bytes) (k n : Nat) (h : n < k) : (List.replicate k (0 : UInt8)).drop n = 0 :: List.replicate (k - n - 1) 0 := by
  rw [List.drop_replicate, show k - n = (k - n - 1) + 1 by omega, List.replicate_succ]
  rfl

/-- C60: a decimal integer, with or without a sign, is read as its value, whatever the node held before; the pointer returned is behind the last digit. The
mark for a negative zero is set for just that. -/
theorem C60_decimal (F : F64) (lt : Bool) (sg : Sign) (t : Bytes) (d : UInt8) (rest : Bytes) (n : Number) (hne : t ≠ []) (ht : ∀ c ∈ t, IsDigit c)
    (hd : Ends d) (hl : t.length ≤ 46) (hv : numeral 10 t < 2 ^ 63) :
    parseNumber F lt (sg.text ++ (t ++ d :: rest)) n =
      .ok ((sg.text ++ t).length, { n with type := .integer, props := .none, integer := sg.apply (numeral 10 t), base := 0, base2 := 0, base2Offset := 0, exp := 0, negZero := decide (sg = .minus ∧ numeral 10 t = 0), leadDigit := false }) := by
  obtain ⟨c, cs, hcs⟩ := List.exists_cons_of_ne_nil hne
  have hc : IsDigit c := ht c (by rw [hcs]; simp)
  have hk : sg.kept.length ≤ 1 := by cases sg <;> decide
  rw [parse_head F lt sg ⟨c, cs ++ d :: rest, by rw [hcs]; rfl, .inl hc⟩]
  have hm := mantissa_integer lt (a := sg.text) (u := sg.kept) (g := List.replicate (48 - sg.kept.length) 0) rest hne ht hd (by simp; omega)
  have hat : Csv.at_ (sg.text ++ (t ++ d :: rest)) (sg.text.length + t.length) = .ok d := by
    rw [← List.append_assoc]; exact at_split (sg.text ++ t) rest d (by simp)
  have hexp := exponent_none lt (a := sg.text ++ t) (d := d) rest
    ⟨fun e => hd.1 (by subst e; decide), fun e => hd.1 (by subst e; decide)⟩
  rw [List.length_append, List.append_assoc] at hexp
  have hz := drop_zeros sg.kept (48 - sg.kept.length) t.length (by omega)
  rw [hz] at hm
  obtain ⟨k, hi⟩ := i64_decimal lt sg hne ht hv (List.replicate (48 - sg.kept.length - t.length - 1) 0)
  unfold behindSign
  rw [hm, Res.ok_bind]
  simp only [hat, Res.ok_bind]
  rw [if_neg (ends_facts hd).2.1, hexp]
  simp only [Res.ok_bind]
  have hfirst : ∃ x, Csv.at_ (sg.kept ++ (t ++ 0 :: List.replicate (48 - sg.kept.length - t.length - 1) 0)) 0 = .ok x ∧
      ((sg.apply (numeral 10 t) == 0 && x == 45) = decide (sg = .minus ∧ numeral 10 t = 0)) := by
    cases sg with
    | minus =>
      refine ⟨45, rfl, ?_⟩
      rw [Bool.eq_iff_iff]
      simp [Sign.apply]
    | none =>
      refine ⟨c, by rw [hcs]; rfl, ?_⟩
      have := (digit_facts hc).2.1
      rw [Bool.eq_iff_iff]
      simp [this]
    | plus =>
      refine ⟨c, by rw [hcs]; rfl, ?_⟩
      have := (digit_facts hc).2.1
      rw [Bool.eq_iff_iff]
      simp [this]
  obtain ⟨x, hx, hneg⟩ := hfirst
  unfold fill
  simp only [Res.bind_eq, hx, Res.ok_bind, if_true, hi]
  have hs : ∀ v, scaleInt false ((0 : Int).toNat) v = .ok v := fun v => rfl
  rw [hs]
  simp only [Res.ok_bind, Res.pure_eq, hneg, List.length_append, show wrap 4 0 = 0 from rfl]

/-- C60: a hexadecimal number is read as its value, and marked as hexadecimal. -/
theorem C60_hexadecimal (F : F64) (lt : Bool) (plus : Bool) (t : Bytes) (d : UInt8) (rest : Bytes) (n : Number) (hne : t ≠ []) (ht : ∀ c ∈ t, IsHex c)
    (hd : Ends d) (hl : t.length ≤ 45) (hv : numeral 16 t < 2 ^ 63) :
    parseNumber F lt ((if plus then b!"+" else []) ++ (b!"0x" ++ t ++ d :: rest)) n =
      .ok ((if plus then 1 else 0) + (t.length + 2), { n with type := .integer, props := .isHex, integer := (numeral 16 t : Nat), base := 0, base2 := 0, base2Offset := 0, exp := 0, negZero := false, leadDigit := false }) := by
  obtain ⟨sg, hsg⟩ : ∃ sg : Sign, sg = if plus then .plus else .none := ⟨_, rfl⟩
  have hst : (if plus then b!"+" else []) = sg.text := by rw [hsg]; cases plus <;> rfl
  have hsl : (if plus then 1 else 0) = sg.text.length := by rw [hsg]; cases plus <;> rfl
  have hsk : sg.kept = [] := by rw [hsg]; cases plus <;> rfl
  rw [hst, hsl, parse_head F lt sg (body := b!"0x" ++ t ++ d :: rest) ⟨48, 120 :: (t ++ d :: rest), rfl, .inl (by decide)⟩, hsk, List.nil_append]
  have hm := mantissa_hex lt (a := sg.text) (u := []) (g := List.replicate 48 0) rest ht hd (by simp; omega)
  have hat : Csv.at_ (sg.text ++ (b!"0x" ++ t ++ d :: rest)) (sg.text.length + (t.length + 2)) = .ok d := by
    rw [← List.append_assoc]; exact at_split (sg.text ++ (b!"0x" ++ t)) rest d (by simp)
  have hexp := exponent_none lt (a := sg.text ++ (b!"0x" ++ t)) (d := d) rest
    ⟨fun e => hd.1 (by subst e; decide), fun e => hd.1 (by subst e; decide)⟩
  rw [List.length_append, List.append_assoc, show (b!"0x" ++ t).length = t.length + 2 by simp] at hexp
  have hz := drop_zeros [] 48 (t.length + 2) (by omega)
  rw [hz, List.nil_append] at hm
  obtain ⟨k, hi⟩ := i64_hex lt hne ht hv (List.replicate (48 - (t.length + 2) - 1) 0)
  rw [← List.append_assoc] at hi
  unfold behindSign
  rw [show List.length ([] : Bytes) = 0 from rfl] at hm ⊢
  rw [show 48 - 0 = 48 from rfl]
  rw [List.nil_append] at hm
  rw [hm, Res.ok_bind]
  simp only [hat, Res.ok_bind]
  rw [if_neg (ends_facts hd).2.1, hexp]
  simp only [Res.ok_bind]
  have hx : Csv.at_ (b!"0x" ++ t ++ 0 :: List.replicate (48 - (t.length + 2) - 1) 0) 0 = .ok 48 := rfl
  unfold fill
  simp only [Res.bind_eq, hx, Res.ok_bind, if_true, hi]
  have hs : ∀ v, scaleInt false ((0 : Int).toNat) v = .ok v := fun v => rfl
  rw [hs]
  simp only [Res.ok_bind, Res.pure_eq, show wrap 4 0 = 0 from rfl, show ((48 : UInt8) == 45) = false from rfl, Bool.and_false]

/-- What the text behind the mantissa starts with: the letter of the exponent, or what ends the number. -/
theorem behind_ne (x : Expo) {d : UInt8} (rest : Bytes) (hd : ¬ IsDigit d ∧ d ≠ 46) : ∃ y r, x.text ++ d :: rest = y :: r ∧ ¬ IsDigit y ∧ y ≠ 46 := by
  cases x with
  | none => exact ⟨d, rest, rfl, hd⟩
  | some u sg ks =>
    refine ⟨if u then 69 else 101, sg.text ++ ks ++ d :: rest, rfl, ?_⟩
    cases u <;> decide

theorem times_succ (f : UInt64 → UInt64) : ∀ (n : Nat) (v : UInt64), times f n (f v) = f (times f n v)
  | 0, _ => rfl
  | n + 1, v => congrArg f (times_succ f n v)

theorem scaleReal_times (F : F64) (neg : Bool) : ∀ (n : Nat) (v : UInt64), scaleReal F neg n v = times (F.scale neg) n v
  | 0, _ => rfl
  | n + 1, v => by rw [scaleReal, scaleReal_times F neg n, times_succ]; rfl

/-- C60: a number with digits on both sides of its point, with or without sign and exponent (up to 7), is read as a real number: `c_str_to_f64` gets the text of
the mantissa, the result is scaled as often as the exponent says, and the digits are noted in the node. -/
theorem C60_real (F : F64) (lt : Bool) (sg : Sign) (i fs : Bytes) (x : Expo) (d : UInt8) (rest : Bytes) (n : Number) (hin : i ≠ []) (hi : ∀ c ∈ i, IsDigit c)
    (hfn : fs ≠ []) (hf : ∀ c ∈ fs, IsDigit c) (hx : x.Ok) (hd : ¬ IsDigit d ∧ d ≠ 46) (hd2 : d ≠ 101 ∧ d ≠ 69) (hl : i.length + fs.length ≤ 45)
    (hvi : numeral 10 i < 2 ^ 31) (hvf : numeral 10 fs < 2 ^ 31) (hz : leadZeros fs < 16) :
    ∃ m k, m = (if sg = .minus then b!"-" else []) ++ i ++ b!"." ++ fs ++ List.replicate (k + 1) 0 ∧ m.length = 48 ∧
    parseNumber F lt (sg.text ++ i ++ b!"." ++ fs ++ x.text ++ d :: rest) n =
      .ok ((sg.text ++ i ++ b!"." ++ fs ++ x.text).length, { n with type := .real, props := if x.value ≠ 0 then .isExp else .none, real := times (F.scale x.neg) x.value (F.ofText m), base := sg.apply (numeral 10 i), base2 := (numeral 10 fs : Nat), base2Offset := leadZeros fs, exp := if x.neg then -(x.value : Int) else x.value, negZero := decide (sg = .minus ∧ numeral 10 i = 0), leadDigit := true }) := by
  have hkl : sg.kept.length ≤ 1 := by cases sg <;> decide
  have hkept : (if sg = .minus then b!"-" else []) = sg.kept := by cases sg <;> rfl
  obtain ⟨c, cs, hcs⟩ := List.exists_cons_of_ne_nil hin
  have hc : IsDigit c := hi c (by rw [hcs]; simp)
  obtain ⟨y, r, hyr, hy, hy46⟩ := behind_ne x rest hd
  refine ⟨_, 48 - sg.kept.length - (i.length + fs.length + 1) - 1, rfl, ?_, ?_⟩
  · rw [hkept]; simp; omega
  have hshape : sg.text ++ i ++ b!"." ++ fs ++ x.text ++ d :: rest = sg.text ++ (i ++ 46 :: (fs ++ y :: r)) := by
    rw [← hyr]; simp
  rw [hshape, parse_head F lt sg ⟨c, cs ++ 46 :: (fs ++ y :: r), by rw [hcs]; rfl, .inl hc⟩]
  have hm := mantissa_real lt (a := sg.text) (u := sg.kept) (g := List.replicate (48 - sg.kept.length) 0) r hin hi hfn hf hy (by simp; omega)
  rw [drop_zeros [] _ _ (by omega)] at hm
  have hat : Csv.at_ (sg.text ++ (i ++ 46 :: (fs ++ y :: r))) (sg.text.length + (i.length + fs.length + 1)) = .ok y := by
    rw [show sg.text ++ (i ++ 46 :: (fs ++ y :: r)) = (sg.text ++ (i ++ 46 :: fs)) ++ y :: r by simp]
    exact at_split _ r y (by simp; omega)
  have hexp := exponent_run lt x hx (sg.text ++ (i ++ 46 :: fs)) rest hd.1 hd2
  rw [hyr] at hexp
  have hpl : (sg.text ++ (i ++ 46 :: fs)).length = sg.text.length + (i.length + fs.length + 1) := by simp; omega
  rw [hpl] at hexp
  rw [show (sg.text ++ (i ++ 46 :: fs)) ++ y :: r = sg.text ++ (i ++ 46 :: (fs ++ y :: r)) by simp] at hexp
  have hval : (x.value : Int) < 8 := by
    cases x with
    | none => decide
    | some u s ks => have := hx.2.2.2; simp only [Expo.value]; omega
  have hfill := fill_real F lt sg (48 - sg.kept.length - (i.length + fs.length + 1) - 1) (sg.text.length + (i.length + fs.length + 1)) .none true (x.value : Int) x.neg n
    hin hi hfn hf hvi hvf hz ⟨by omega, hval⟩
  unfold behindSign
  rw [hm, Res.ok_bind]
  simp only [hat, Res.ok_bind]
  rw [if_neg hy46, hexp]
  simp only [Res.ok_bind, hfill, scaleReal_times]
  congr 2
  · simp; omega
  · congr 1
    · by_cases hv : x.value = 0
      · simp [hv]
      · simp [hv]
    · rw [hkept]
      simp only [Int.toNat_natCast, List.append_assoc, List.singleton_append, List.cons_append, List.nil_append]
      rfl

/-- C60: a number that ends in its point is read as if a zero followed. -/
theorem C60_last_point (F : F64) (lt : Bool) (sg : Sign) (i : Bytes) (x : Expo) (d : UInt8) (rest : Bytes) (n : Number) (hin : i ≠ []) (hi : ∀ c ∈ i, IsDigit c)
    (hx : x.Ok) (hd : ¬ IsDigit d ∧ d ≠ 46) (hd2 : d ≠ 101 ∧ d ≠ 69) (hl : i.length ≤ 44)
    (hvi : numeral 10 i < 2 ^ 31) :
    ∃ m k, m = (if sg = .minus then b!"-" else []) ++ i ++ b!".0" ++ List.replicate (k + 1) 0 ∧ m.length = 48 ∧
    parseNumber F lt (sg.text ++ i ++ b!"." ++ x.text ++ d :: rest) n =
      .ok ((sg.text ++ i ++ b!"." ++ x.text).length, { n with type := .real, props := if x.value ≠ 0 then .isExp else .none, real := times (F.scale x.neg) x.value (F.ofText m), base := sg.apply (numeral 10 i), base2 := 0, base2Offset := 1, exp := if x.neg then -(x.value : Int) else x.value, negZero := decide (sg = .minus ∧ numeral 10 i = 0), leadDigit := true }) := by
  have hkl : sg.kept.length ≤ 1 := by cases sg <;> decide
  have hkept : (if sg = .minus then b!"-" else []) = sg.kept := by cases sg <;> rfl
  obtain ⟨c, cs, hcs⟩ := List.exists_cons_of_ne_nil hin
  have hc : IsDigit c := hi c (by rw [hcs]; simp)
  obtain ⟨y, r, hyr, hy, hy46⟩ := behind_ne x rest hd
  refine ⟨_, 48 - sg.kept.length - (i.length + 2) - 1, rfl, ?_, ?_⟩
  · rw [hkept]; simp; omega
  have hshape : sg.text ++ i ++ b!"." ++ x.text ++ d :: rest = sg.text ++ (i ++ 46 :: y :: r) := by
    rw [← hyr]; simp
  rw [hshape, parse_head F lt sg ⟨c, cs ++ 46 :: y :: r, by rw [hcs]; rfl, .inl hc⟩]
  have hm := mantissa_last lt (a := sg.text) (u := sg.kept) (g := List.replicate (48 - sg.kept.length) 0) r hin hi hy (by simp; omega)
  rw [drop_zeros [] _ _ (by omega)] at hm
  have hat : Csv.at_ (sg.text ++ (i ++ 46 :: y :: r)) (sg.text.length + (i.length + 1)) = .ok y := by
    rw [show sg.text ++ (i ++ 46 :: y :: r) = (sg.text ++ (i ++ [46])) ++ y :: r by simp]
    exact at_split _ r y (by simp)
  have hexp := exponent_run lt x hx (sg.text ++ (i ++ [46])) rest hd.1 hd2
  rw [hyr] at hexp
  have hpl : (sg.text ++ (i ++ [46])).length = sg.text.length + (i.length + 1) := by simp
  rw [hpl] at hexp
  rw [show (sg.text ++ (i ++ [46])) ++ y :: r = sg.text ++ (i ++ 46 :: y :: r) by simp] at hexp
  have hval : (x.value : Int) < 8 := by
    cases x with
    | none => decide
    | some u s ks => have := hx.2.2.2; simp only [Expo.value]; omega
  have hfill := fill_real F lt sg (fs := [48]) (48 - sg.kept.length - (i.length + 2) - 1) (sg.text.length + (i.length + 1)) .none true (x.value : Int) x.neg n
    hin hi (by simp) (by intro c hc; simp at hc; subst hc; decide) hvi (by decide) (by decide) ⟨by omega, hval⟩
  simp only [List.cons_append, List.nil_append] at hfill
  have hn0 : numeral 10 [48] = 0 := rfl
  have hl1 : leadZeros [48] = 1 := rfl
  unfold behindSign
  rw [hm, Res.ok_bind]
  simp only [hat, Res.ok_bind]
  rw [if_neg hy46, hexp]
  simp only [Res.ok_bind, hfill, scaleReal_times, hn0, hl1]
  congr 2
  · simp; omega
  · congr 1
    · by_cases hv : x.value = 0
      · simp [hv]
      · simp [hv]
    · rw [hkept]
      simp only [Int.toNat_natCast, List.append_assoc, List.singleton_append, List.cons_append, List.nil_append]
      rfl

/-- C60: a number that starts with its point. -/
theorem C60_point (F : F64) (lt : Bool) (sg : Sign) (fs : Bytes) (x : Expo) (d : UInt8) (rest : Bytes) (n : Number)
    (hfn : fs ≠ []) (hf : ∀ c ∈ fs, IsDigit c) (hx : x.Ok) (hd : ¬ IsDigit d ∧ d ≠ 46) (hd2 : d ≠ 101 ∧ d ≠ 69) (hl : fs.length ≤ 44)
    (hvf : numeral 10 fs < 2 ^ 31) (hz : leadZeros fs < 16) :
    ∃ m k, m = (if sg = .minus then b!"-" else []) ++ b!"0." ++ fs ++ List.replicate (k + 1) 0 ∧ m.length = 48 ∧
    parseNumber F lt (sg.text ++ b!"." ++ fs ++ x.text ++ d :: rest) n =
      .ok ((sg.text ++ b!"." ++ fs ++ x.text).length, { n with type := .real, props := if x.value ≠ 0 then .isExp else .isParsedReal, real := times (F.scale x.neg) x.value (F.ofText m), base := 0, base2 := (numeral 10 fs : Nat), base2Offset := leadZeros fs, exp := if x.neg then -(x.value : Int) else x.value, negZero := decide (sg = .minus), leadDigit := false }) := by
  have hkl : sg.kept.length ≤ 1 := by cases sg <;> decide
  have hkept : (if sg = .minus then b!"-" else []) = sg.kept := by cases sg <;> rfl
  obtain ⟨c, cs, hcs⟩ := List.exists_cons_of_ne_nil hfn
  have hc : IsDigit c := hf c (by rw [hcs]; simp)
  obtain ⟨y, r, hyr, hy, hy46⟩ := behind_ne x rest hd
  refine ⟨_, 48 - sg.kept.length - (1 + fs.length + 1) - 1, rfl, ?_, ?_⟩
  · rw [hkept]; simp; omega
  have hshape : sg.text ++ b!"." ++ fs ++ x.text ++ d :: rest = sg.text ++ 46 :: (fs ++ y :: r) := by
    rw [← hyr]; simp
  rw [hshape, parse_head F lt sg (body := 46 :: (fs ++ y :: r)) ⟨46, fs ++ y :: r, rfl, .inr ⟨rfl, c, cs ++ y :: r, by rw [hcs]; rfl, hc⟩⟩]
  have hm := mantissa_point lt (a := sg.text) (u := sg.kept) (g := List.replicate (48 - sg.kept.length) 0) r hf hy (by simp; omega)
  rw [drop_zeros [] _ _ (by omega)] at hm
  have hat : Csv.at_ (sg.text ++ 46 :: (fs ++ y :: r)) (sg.text.length + (fs.length + 1)) = .ok y := by
    rw [show sg.text ++ 46 :: (fs ++ y :: r) = (sg.text ++ 46 :: fs) ++ y :: r by simp]
    exact at_split _ r y (by simp)
  have hexp := exponent_run lt x hx (sg.text ++ 46 :: fs) rest hd.1 hd2
  rw [hyr] at hexp
  have hpl : (sg.text ++ 46 :: fs).length = sg.text.length + (fs.length + 1) := by simp
  rw [hpl] at hexp
  rw [show (sg.text ++ 46 :: fs) ++ y :: r = sg.text ++ 46 :: (fs ++ y :: r) by simp] at hexp
  have hval : (x.value : Int) < 8 := by
    cases x with
    | none => decide
    | some u s ks => have := hx.2.2.2; simp only [Expo.value]; omega
  have hfill := fill_real F lt sg (i := [48]) (48 - sg.kept.length - (1 + fs.length + 1) - 1) (sg.text.length + (fs.length + 1)) .isParsedReal false (x.value : Int) x.neg n
    (by simp) (by intro c hc; simp at hc; subst hc; decide) hfn hf (by decide) hvf hz ⟨by omega, hval⟩
  simp only [List.cons_append, List.nil_append] at hfill
  have hn0 : numeral 10 [48] = 0 := rfl
  have ha0 : sg.apply 0 = 0 := by cases sg <;> rfl
  unfold behindSign
  rw [hm, Res.ok_bind]
  simp only [hat, Res.ok_bind]
  rw [if_neg hy46, hexp]
  simp only [Res.ok_bind, hfill, hn0, ha0, scaleReal_times]
  congr 2
  · simp; omega
  · congr 1
    · by_cases hv : x.value = 0
      · simp [hv]
      · simp [hv]
    · rw [hkept]
      simp only [Int.toNat_natCast, List.append_assoc, List.singleton_append, List.cons_append, List.nil_append]
      rfl
    · simp

end Verif.Adt
