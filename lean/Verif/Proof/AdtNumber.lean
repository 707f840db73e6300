import Verif.Props.AdtNumberSpec
import Verif.Props.Numbers
/-! # Reading numerals -/
namespace Verif.Adt
open Verif.Num

instance (c : UInt8) : Decidable (IsDigit c) := by unfold IsDigit; infer_instance
instance (c : UInt8) : Decidable (IsHex c) := by unfold IsHex; infer_instance

theorem isDigit_iff (c : UInt8) : charIsDigit c = true ↔ IsDigit c := by
  simp only [charIsDigit, IsDigit, Bool.and_eq_true, decide_eq_true_eq, UInt8.le_iff_toNat_le]
  rfl

theorem isHex_iff (c : UInt8) : charIsHexDigit c = true ↔ IsHex c := by
  simp only [charIsHexDigit, IsHex, Bool.or_eq_true, isDigit_iff, Bool.and_eq_true, decide_eq_true_eq, UInt8.le_iff_toNat_le]
  constructor
  · rintro ((h | h) | h)
    · exact .inl h
    · exact .inr (.inr h)
    · exact .inr (.inl h)
  · rintro (h | h | h)
    · exact .inl (.inl h)
    · exact .inr h
    · exact .inl (.inr h)

theorem not_digit {c : UInt8} (h : ¬ IsDigit c) : charIsDigit c = false := by
  cases hh : charIsDigit c with
  | false => rfl
  | true => exact absurd ((isDigit_iff c).mp hh) h

theorem not_hex {c : UInt8} (h : ¬ IsHex c) : charIsHexDigit c = false := by
  cases hh : charIsHexDigit c with
  | false => rfl
  | true => exact absurd ((isHex_iff c).mp hh) h

theorem eq_of_toNat {c : UInt8} {k : Nat} (h : c.toNat ≠ k) (hk : k < 256) : c ≠ UInt8.ofNat k := by
  intro e
  rw [e] at h
  exact h (by simp; omega)

theorem digit_val {b : Nat} (hb : b = 10 ∨ b = 16) {c : UInt8} (h : IsDigit c) : digitOf b c = some (digitVal c : Int) := by
  unfold digitOf digitVal
  rw [if_pos ((isDigit_iff c).mpr h), if_pos h.2]
  have := h.1
  congr 1
  omega

theorem hex_val {c : UInt8} (h : IsHex c) : digitOf 16 c = some (digitVal c : Int) := by
  by_cases hd : IsDigit c
  · exact digit_val (.inr rfl) hd
  · have hh := (isHex_iff c).mpr h
    unfold digitOf
    rw [if_neg (by rw [isDigit_iff]; exact hd), if_pos ⟨rfl, hh⟩]
    have : ∀ k : Fin 256, charIsHexDigit (UInt8.ofNat k) = true → charIsDigit (UInt8.ofNat k) = false →
        hexDigitToInt (UInt8.ofNat k) = (digitVal (UInt8.ofNat k) : Int) := by decide +kernel
    have e : UInt8.ofNat c.toNat = c := by simp
    have := this ⟨c.toNat, c.toNat_lt⟩
    simp only [e] at this
    exact congrArg some (this hh (not_digit hd))

theorem numeral_cons (b r : Nat) (c : UInt8) (t : Bytes) :
    (c :: t).foldl (fun r c => r * b + digitVal c) r = t.foldl (fun r c => r * b + digitVal c) (r * b + digitVal c) := rfl

theorem numeral_mono {b : Nat} (hb : 1 ≤ b) : ∀ (t : Bytes) (r : Nat), r ≤ t.foldl (fun r c => r * b + digitVal c) r
  | [], r => Nat.le_refl r
  | c :: t, r => by
    rw [numeral_cons]
    have := numeral_mono hb t (r * b + digitVal c)
    have h2 : r * 1 ≤ r * b := Nat.mul_le_mul_left r hb
    omega

theorem scan_numeral {b : Nat} (hb : 1 ≤ b) {M : Nat} (hM : ∀ n, n < M → s64 (n : Int) = .ok (n : Int)) {d : UInt8} (rest : Bytes)
    (hd : digitOf b d = none) : ∀ (t : Bytes) (r : Nat), (∀ c ∈ t, digitOf b c = some (digitVal c : Int)) →
      t.foldl (fun r c => r * b + digitVal c) r < M →
      scanDigits b (t ++ d :: rest) (r : Int) = .ok ((t.foldl (fun r c => r * b + digitVal c) r : Nat), t.length)
  | [], r, _, _ => by
    rw [List.nil_append, scanDigits, hd]; rfl
  | c :: t, r, h, hlt => by
    rw [numeral_cons] at hlt ⊢
    have hm := numeral_mono hb t (r * b + digitVal c)
    have c1 : r * b + digitVal c < M := Nat.lt_of_le_of_lt hm hlt
    have e1 : (r : Int) * (b : Int) = ((r * b : Nat) : Int) := (Int.natCast_mul r b).symm
    have e2 : ((r * b : Nat) : Int) + (digitVal c : Int) = ((r * b + digitVal c : Nat) : Int) := (Int.natCast_add _ _).symm
    have s1 := hM (r * b) (by omega)
    have s2 := hM _ c1
    rw [← e1] at s1
    rw [← e2, ← e1] at s2
    rw [List.cons_append, scanDigits_step _ _ _ _ _ _ (h c List.mem_cons_self) s1 s2,
      e1, e2, scan_numeral hb hM rest hd t (r * b + digitVal c) (fun x hx => h x (List.mem_cons_of_mem _ hx)) hlt, Res.ok_bind, List.length_cons]

theorem digit_facts {c : UInt8} (h : IsDigit c) : c ≠ 0 ∧ c ≠ 45 ∧ c ≠ 43 ∧ c ≠ 46 ∧ c ≠ 120 ∧ c ≠ 88 ∧ c ≠ 101 ∧ c ≠ 69 := by
  refine ⟨?_, ?_, ?_, ?_, ?_, ?_, ?_, ?_⟩ <;> (intro e; subst e; exact absurd h (by decide))

/-- The sign as it stands in the buffer of `adt_parse_number`: a plus is dropped. -/
def Sign.kept : Sign → Bytes
  | .minus => b!"-"
  | _ => []

theorem not_0x_digits (lt : Bool) {t : Bytes} (hne : t ≠ []) (ht : ∀ c ∈ t, IsDigit c) (d : UInt8) (hd : d ≠ 120) (rest : Bytes) :
    ∃ k, k ≠ 0 ∧ CStr.compareLen lt (t ++ d :: rest) (b!"0x" ++ [0]) 2 = .ok k := by
  have hs : ((if lt = true then (-1 : Int) else 1)) ≠ 0 := by cases lt <;> simp
  match t, hne with
  | c :: cs, _ =>
    by_cases h : c = 48
    · subst h
      match cs with
      | [] =>
        refine ⟨if lt then -1 else 1, hs, ?_⟩
        simp only [List.cons_append, List.nil_append, CStr.compareLen]
        rw [if_neg (by simp), if_neg (by simp), if_pos hd]
      | e :: es =>
        refine ⟨if lt then -1 else 1, hs, ?_⟩
        simp only [List.cons_append, CStr.compareLen]
        rw [if_neg (by simp), if_neg (by simp), if_pos (digit_facts (ht e (by simp))).2.2.2.2.1]
    · refine ⟨if lt then -1 else 1, hs, ?_⟩
      simp only [List.cons_append, CStr.compareLen]
      rw [if_pos h]

/-- The digits of a decimal number with its sign, up to the terminator. -/
theorem i64_decimal (lt : Bool) (sg : Sign) {t : Bytes} (hne : t ≠ []) (ht : ∀ c ∈ t, IsDigit c) (hv : numeral 10 t < 2 ^ 63) (rest : Bytes) :
    ∃ k, cStrToI64 lt (sg.kept ++ (t ++ 0 :: rest)) 0 = .ok (sg.apply (numeral 10 t), k) := by
  have hnn : (0 : UInt8) ∉ sg.kept ++ t := by
    intro h
    rcases List.mem_append.mp h with h | h
    · cases sg <;> revert h <;> decide
    · exact (digit_facts (ht _ h)).1 rfl
  have hs : ((if lt = true then (-1 : Int) else 1)) ≠ 0 := by cases lt <;> simp
  have hscan := scan_numeral (b := 10) (by omega) (M := 2 ^ 63) (fun _ h => s64_nat h) rest (digitOf_nul 10) t 0
    (fun c hc => digit_val (.inl rfl) (ht c hc)) hv
  have hauto : autoBase lt (sg.kept ++ (t ++ 0 :: rest)) = .ok 10 := by
    unfold autoBase
    rw [← List.append_assoc, CStr.len_spec _ _ hnn]
    simp only [Res.ok_bind]
    split
    · rw [List.append_assoc]
      have key : ∃ k, k ≠ 0 ∧ CStr.compareLen lt (sg.kept ++ (t ++ 0 :: rest)) (b!"0x" ++ [0]) 2 = .ok k := by
        cases sg with
        | minus =>
          refine ⟨if lt then -1 else 1, hs, ?_⟩
          simp only [Sign.kept, List.cons_append, List.nil_append, CStr.compareLen]
          rw [if_pos (by decide)]
        | none => exact not_0x_digits lt hne ht 0 (by decide) rest
        | plus => exact not_0x_digits lt hne ht 0 (by decide) rest
      obtain ⟨k, hk, e⟩ := key
      rw [e, Res.ok_bind, if_neg hk]
    · rfl
  unfold cStrToI64
  rw [if_pos rfl, hauto, Res.ok_bind]
  cases sg with
  | minus =>
    simp only [Sign.kept, List.cons_append, List.nil_append, scan, if_true, skip0x, show ¬ (10 = 16) by decide, if_false, Res.ok_bind, List.drop_zero]
    rw [show (0 : Int) = ((0 : Nat) : Int) from rfl, hscan]
    simp only [Res.ok_bind]
    rw [s64, if_pos (by unfold inS64; unfold numeral at hv; omega)]
    exact ⟨_, rfl⟩
  | none =>
    obtain ⟨c, cs, rfl⟩ := List.exists_cons_of_ne_nil hne
    have hc := (digit_facts (ht c (by simp))).2.1
    simp only [Sign.kept, List.nil_append, List.cons_append] at hscan ⊢
    simp only [scan, hc, if_false, skip0x, show ¬ (10 = 16) by decide, Res.ok_bind, List.drop_zero]
    rw [show (0 : Int) = ((0 : Nat) : Int) from rfl, hscan]
    exact ⟨_, rfl⟩
  | plus =>
    obtain ⟨c, cs, rfl⟩ := List.exists_cons_of_ne_nil hne
    have hc := (digit_facts (ht c (by simp))).2.1
    simp only [Sign.kept, List.nil_append, List.cons_append] at hscan ⊢
    simp only [scan, hc, if_false, skip0x, show ¬ (10 = 16) by decide, Res.ok_bind, List.drop_zero]
    rw [show (0 : Int) = ((0 : Nat) : Int) from rfl, hscan]
    exact ⟨_, rfl⟩

/-- The digits of a hexadecimal number, up to the terminator. -/
theorem i64_hex (lt : Bool) {t : Bytes} (hne : t ≠ []) (ht : ∀ c ∈ t, IsHex c) (hv : numeral 16 t < 2 ^ 63) (rest : Bytes) :
    ∃ k, cStrToI64 lt (b!"0x" ++ (t ++ 0 :: rest)) 0 = .ok ((numeral 16 t : Nat), k) := by
  have hscan := scan_numeral (b := 16) (by omega) (M := 2 ^ 63) (fun _ h => s64_nat h) rest (digitOf_nul 16) t 0
    (fun c hc => hex_val (ht c hc)) hv
  have hnn : (0 : UInt8) ∉ b!"0x" ++ t := by
    intro h
    rcases List.mem_append.mp h with h | h
    · revert h; decide
    · exact absurd (ht _ h) (by decide)
  have hpos : 0 < t.length := List.length_pos_iff.mpr hne
  have hx : b!"0x" ++ (t ++ 0 :: rest) = 48 :: (120 :: (t ++ 0 :: rest)) := rfl
  have hc : CStr.compareLen lt (48 :: (120 :: (t ++ 0 :: rest))) (b!"0x" ++ [0]) 2 = .ok 0 := by simp [CStr.compareLen]
  have hauto : autoBase lt (b!"0x" ++ (t ++ 0 :: rest)) = .ok 16 := by
    unfold autoBase
    rw [← List.append_assoc, CStr.len_spec _ _ hnn, Res.ok_bind, if_pos (by simp; omega), List.append_assoc, hx, hc]
    rfl
  unfold cStrToI64
  rw [if_pos rfl, hauto, Res.ok_bind, hx]
  have hsk : skip0x lt 16 (48 :: (120 :: (t ++ 0 :: rest))) = .ok 2 := by
    unfold skip0x
    rw [if_pos rfl, hc]
    rfl
  unfold scan
  simp only [show ((48 : UInt8) = 45) = False from by simp, if_false, hsk, Res.ok_bind, List.drop_succ_cons, List.drop_zero]
  rw [show (0 : Int) = ((0 : Nat) : Int) from rfl, hscan]
  exact ⟨_, rfl⟩

theorem at_split (a r : Bytes) (c : UInt8) {i : Nat} (h : i = a.length) : Csv.at_ (a ++ c :: r) i = .ok c := by
  subst h
  simp [Csv.at_]

/-- Letters and digits of a number go to the buffer. -/
theorem whole_run {d : UInt8} (hd : (charIsHexDigit d || charToLower d == 120) = false) (rest : Bytes) :
    ∀ (t a u g : Bytes) (fuel : Nat), (∀ c ∈ t, (charIsHexDigit c || charToLower c == 120) = true) → t.length < fuel → t.length ≤ g.length →
      whole (a ++ (t ++ d :: rest)) fuel (u ++ g) u.length a.length = .ok (u ++ (t ++ g.drop t.length), u.length + t.length, a.length + t.length)
  | [], a, u, g, fuel + 1, _, _, _ => by
    simp only [List.nil_append, whole, Res.bind_eq, at_split a rest d rfl, Res.ok_bind, hd, Bool.false_eq_true, if_false, Res.pure_eq, List.length_nil,
      List.drop_zero, Nat.add_zero]
  | c :: t, a, u, x :: g, fuel + 1, h, hf, hl => by
    have ih := whole_run hd rest t (a ++ [c]) (u ++ [c]) g fuel (fun y hy => h y (List.mem_cons_of_mem _ hy)) (by simpa using hf) (by simpa using hl)
    simp only [List.append_assoc, List.singleton_append, List.length_append, List.length_singleton] at ih
    simp only [List.cons_append, whole, Res.bind_eq, at_split a (t ++ d :: rest) c rfl, Res.ok_bind, h c (by simp), if_true,
      put_split u g x c _ rfl, ih, List.length_cons, List.drop_succ_cons]
    congr 2
    congr 1 <;> omega

/-- The point and the digits behind it go to the buffer. -/
theorem fraction_run {d : UInt8} (hd : charIsDigit d = false) (rest : Bytes) :
    ∀ (t a u g : Bytes) (c : UInt8) (fuel : Nat), (∀ x ∈ t, charIsDigit x = true) → t.length < fuel → t.length < g.length →
      fraction (a ++ c :: (t ++ d :: rest)) fuel (u ++ g) u.length a.length =
        .ok (u ++ (c :: t ++ g.drop (t.length + 1)), u.length + t.length + 1, a.length + t.length + 1)
  | [], a, u, x :: g, c, fuel + 1, _, _, _ => by
    have h1 : Csv.at_ (a ++ c :: d :: rest) (a.length + 1) = .ok d := by
      have := at_split (a ++ [c]) rest d (i := a.length + 1) (by simp)
      simpa using this
    simp only [List.nil_append, fraction, Res.bind_eq, at_split a _ c rfl, Res.ok_bind, put_split u g x c _ rfl, h1, hd, Bool.false_eq_true,
      if_false, Res.pure_eq, List.length_nil, List.drop_succ_cons, List.drop_zero, Nat.add_zero, List.cons_append, Nat.zero_add]
  | y :: t, a, u, x :: g, c, fuel + 1, h, hf, hl => by
    have ih := fraction_run hd rest t (a ++ [c]) (u ++ [c]) g y fuel (fun z hz => h z (List.mem_cons_of_mem _ hz)) (by simpa using hf) (by simpa using hl)
    simp only [List.append_assoc, List.singleton_append, List.length_append, List.length_singleton] at ih
    have h1 : Csv.at_ (a ++ c :: y :: (t ++ d :: rest)) (a.length + 1) = .ok y := by
      have := at_split (a ++ [c]) (t ++ d :: rest) y (i := a.length + 1) (by simp)
      simpa using this
    simp only [List.cons_append, fraction, Res.bind_eq, at_split a _ c rfl, Res.ok_bind, put_split u g x c _ rfl, h1, h y (by simp), if_true, ih,
      List.length_cons, List.drop_succ_cons]
    congr 2
    congr 1 <;> omega

/-- The digits of an exponent. -/
theorem expDigits_run {d : UInt8} (hd : charIsDigit d = false) (rest : Bytes) :
    ∀ (t a u g : Bytes) (fuel : Nat), (∀ c ∈ t, charIsDigit c = true) → t.length < fuel → t.length ≤ g.length →
      expDigits (a ++ (t ++ d :: rest)) fuel (u ++ g) u.length a.length = .ok (u ++ (t ++ g.drop t.length), a.length + t.length)
  | [], a, u, g, fuel + 1, _, _, _ => by
    simp only [List.nil_append, expDigits, Res.bind_eq, at_split a rest d rfl, Res.ok_bind, hd, Bool.false_eq_true, if_false, Res.pure_eq, List.length_nil,
      List.drop_zero, Nat.add_zero]
  | c :: t, a, u, x :: g, fuel + 1, h, hf, hl => by
    have ih := expDigits_run hd rest t (a ++ [c]) (u ++ [c]) g fuel (fun y hy => h y (List.mem_cons_of_mem _ hy)) (by simpa using hf) (by simpa using hl)
    simp only [List.append_assoc, List.singleton_append, List.length_append, List.length_singleton] at ih
    simp only [List.cons_append, expDigits, Res.bind_eq, at_split a (t ++ d :: rest) c rfl, Res.ok_bind, h c (by simp), if_true,
      put_split u g x c _ rfl, ih, List.length_cons, List.drop_succ_cons]
    congr 2
    omega

theorem among_false {set : Bytes} {c : UInt8} (h : ∀ x ∈ set, x ≠ c) (h0 : c ≠ 0) (hs : (0 : UInt8) ∉ set) : among set c = .ok false := by
  have : ∀ set : Bytes, (∀ x ∈ set, x ≠ c) → (0 : UInt8) ∉ set → CStr.charFirstOccurence (set ++ [0]) c = .ok none := by
    intro set
    induction set with
    | nil =>
      intro _ _
      simp [CStr.charFirstOccurence, Ne.symm h0]
    | cons x set ih =>
      intro h hs
      simp only [List.mem_cons, not_or] at hs
      simp only [List.cons_append, CStr.charFirstOccurence]
      rw [if_neg (h x (by simp)), if_neg (Ne.symm hs.1), ih (fun y hy => h y (List.mem_cons_of_mem _ hy)) hs.2]
      rfl
  unfold among
  rw [this set h hs]
  rfl

/-- What `adt_parse_number` does behind the sign. -/
def behindSign (F : F64) (lt : Bool) (s : Bytes) (n : Number) (buf : Bytes) (ib e : Nat) : Res (Nat × Number) :=
  (mantissa lt s buf ib e).bind fun m =>
    match m with
    | none => .ok (1, n)
    | some m =>
      (Csv.at_ s m.pos).bind fun d =>
      if d = 46 then .ok (1, n)
      else (exponent lt s m.pos).bind fun (exp, neg, e) => (fill F lt m exp neg n).bind fun n => .ok (e, n)

theorem replicate_put (c : UInt8) : put (List.replicate 48 0) 0 c = .ok (c :: List.replicate 47 0) := by
  simp [put, List.replicate]

/-- What a number starts with behind its sign: a digit, or a point and a digit. -/
def Starts (body : Bytes) : Prop := ∃ b r, body = b :: r ∧ (IsDigit b ∨ (b = 46 ∧ ∃ c r', r = c :: r' ∧ IsDigit c))

theorem parse_head (F : F64) (lt : Bool) (sg : Sign) {body : Bytes} (hb : Starts body) (n : Number) :
    parseNumber F lt (sg.text ++ body) n =
      behindSign F lt (sg.text ++ body) n (sg.kept ++ List.replicate (48 - sg.kept.length) 0) sg.kept.length sg.text.length := by
  obtain ⟨b, r, rfl, hb⟩ := hb
  have hmn : ∀ buf ib e, (do
      let some m ← mantissa lt (sg.text ++ b :: r) buf ib e | return (1, n)
      let d ← Csv.at_ (sg.text ++ b :: r) m.pos
      if d = 46 then return (1, n)
      let (exp, neg, e) ← exponent lt (sg.text ++ b :: r) m.pos
      let n ← fill F lt m exp neg n
      pure (e, n) : Res (Nat × Number)) = behindSign F lt (sg.text ++ b :: r) n buf ib e := by
    intro buf ib e
    unfold behindSign
    simp only [Res.bind_eq, Res.pure_eq]
    congr 1
    funext m
    cases m <;> rfl
  have hb0 : b ≠ 0 ∧ b ≠ 101 ∧ b ≠ 69 ∧ b ≠ 43 ∧ b ≠ 45 := by
    rcases hb with hb | ⟨rfl, _⟩
    · have := digit_facts hb
      exact ⟨this.1, this.2.2.2.2.2.2.1, this.2.2.2.2.2.2.2, this.2.2.1, this.2.1⟩
    · decide
  have hnext : (!charIsHexDigit b && b != 46) = false := by
    rcases hb with hb | ⟨rfl, _⟩
    · rw [(isHex_iff b).mpr (.inl hb)]; rfl
    · rfl
  cases sg with
  | none =>
    have h1 : Csv.at_ (b :: r) 0 = .ok b := rfl
    have h2 : among b!"eE" b = .ok false := among_false (by
      intro x hx; simp at hx; rcases hx with rfl | rfl
      · exact Ne.symm hb0.2.1
      · exact Ne.symm hb0.2.2.1) hb0.1 (by decide)
    rw [← hmn]
    unfold parseNumber
    simp only [Sign.text, Sign.kept, List.nil_append, Res.bind_eq, h1, Res.ok_bind, h2, Bool.false_eq_true, if_false, List.length_nil, Nat.sub_zero]
    rcases hb with hb | ⟨rfl, c, r', rfl, hc⟩
    · have h3 : among b!".+-" b = .ok false := among_false (by
        intro x hx; have := digit_facts hb; simp at hx; rcases hx with rfl | rfl | rfl
        · exact Ne.symm this.2.2.2.1
        · exact Ne.symm this.2.2.1
        · exact Ne.symm this.2.1) hb0.1 (by decide)
      simp only [h3, Res.ok_bind, Bool.false_eq_true, if_false, if_neg hb0.2.2.2.1, if_neg hb0.2.2.2.2]
      rfl
    · have h3 : among b!".+-" 46 = .ok true := rfl
      have h4 : Csv.at_ (46 :: c :: r') 1 = .ok c := rfl
      have h5 : charIsHexDigit c = true := (isHex_iff c).mpr (.inl hc)
      simp only [h3, Res.ok_bind, if_true, h4, h5, Bool.not_true, Bool.false_and, Bool.false_eq_true, if_false, if_neg hb0.2.2.2.1, if_neg hb0.2.2.2.2]
      rfl
  | plus =>
    have h1 : Csv.at_ (43 :: b :: r) 0 = .ok 43 := rfl
    have h2 : among b!"eE" 43 = .ok false := rfl
    have h3 : among b!".+-" 43 = .ok true := rfl
    have h4 : Csv.at_ (43 :: b :: r) 1 = .ok b := rfl
    rw [← hmn]
    unfold parseNumber
    simp only [Sign.text, Sign.kept, List.nil_append, List.cons_append, Res.bind_eq, h1, Res.ok_bind, h2, Bool.false_eq_true, if_false, List.length_nil, Nat.sub_zero,
      h3, if_true, h4, hnext]
    rfl
  | minus =>
    have h1 : Csv.at_ (45 :: b :: r) 0 = .ok 45 := rfl
    have h2 : among b!"eE" 45 = .ok false := rfl
    have h3 : among b!".+-" 45 = .ok true := rfl
    have h4 : Csv.at_ (45 :: b :: r) 1 = .ok b := rfl
    rw [← hmn]
    unfold parseNumber
    simp only [Sign.text, Sign.kept, List.nil_append, List.cons_append, Res.bind_eq, h1, Res.ok_bind, h2, Bool.false_eq_true, if_false,
      h3, if_true, h4, hnext, show ¬ ((45 : UInt8) = 43) by decide, replicate_put]
    rfl

theorem ends_facts {d : UInt8} (h : Ends d) : (charIsHexDigit d || charToLower d == 120) = false ∧ d ≠ 46 ∧ d ≠ 120 ∧ d ≠ 88 ∧ charIsDigit d = false := by
  have h1 := eq_of_toNat h.2.1 (by decide)
  have h2 := eq_of_toNat h.2.2.1 (by decide)
  have h3 := eq_of_toNat h.2.2.2 (by decide)
  refine ⟨?_, h1, h2, h3, not_digit fun hh => h.1 (.inl hh)⟩
  rw [not_hex h.1, Bool.false_or]
  have : ∀ k : Fin 256, UInt8.ofNat k ≠ 120 → UInt8.ofNat k ≠ 88 → (charToLower (UInt8.ofNat k) == 120) = false := by decide +kernel
  have e : UInt8.ofNat d.toNat = d := by simp
  have := this ⟨d.toNat, d.toNat_lt⟩
  simp only [e] at this
  exact this h2 h3

theorem cmp_ne (lt : Bool) {t : Bytes} (hne : t ≠ []) (ht : ∀ c ∈ t, IsDigit c) {d : UInt8} (x : UInt8) (hx : x = 120 ∨ x = 88) (hd : d ≠ x) (rest : Bytes) :
    ∃ k, k ≠ 0 ∧ CStr.compareLen lt (t ++ d :: rest) ([48, x] ++ [0]) 2 = .ok k := by
  have hs : ((if lt = true then (-1 : Int) else 1)) ≠ 0 := by cases lt <;> simp
  obtain ⟨c, cs, rfl⟩ := List.exists_cons_of_ne_nil hne
  refine ⟨if lt then -1 else 1, hs, ?_⟩
  by_cases h : c = 48
  · subst h
    match cs with
    | [] =>
      simp only [List.cons_append, List.nil_append, CStr.compareLen]
      rw [if_neg (by simp), if_neg (by simp), if_pos hd]
    | e :: es =>
      have he := digit_facts (ht e (by simp))
      simp only [List.cons_append, CStr.compareLen]
      rw [if_neg (by simp), if_neg (by simp), if_pos (by rcases hx with rfl | rfl; exact he.2.2.2.2.1; exact he.2.2.2.2.2.1)]
  · simp only [List.cons_append, CStr.compareLen]
    rw [if_pos h]

/-- The mantissa of a decimal integer. -/
theorem mantissa_integer (lt : Bool) {a t u g : Bytes} {d : UInt8} (rest : Bytes) (hne : t ≠ []) (ht : ∀ c ∈ t, IsDigit c) (hd : Ends d)
    (hg : t.length ≤ g.length) :
    mantissa lt (a ++ (t ++ d :: rest)) (u ++ g) u.length a.length =
      .ok (some ⟨u ++ (t ++ g.drop t.length), a.length + t.length, .integer, .none, false⟩) := by
  obtain ⟨hd1, hd2, hd3, hd4, -⟩ := ends_facts hd
  obtain ⟨k1, hk1, e1⟩ := cmp_ne lt hne ht 120 (.inl rfl) hd3 rest
  obtain ⟨k2, hk2, e2⟩ := cmp_ne lt hne ht 88 (.inr rfl) hd4 rest
  have hw := whole_run hd1 rest t a u g ((a ++ (t ++ d :: rest)).length + 1)
    (fun c hc => by rw [(isHex_iff c).mpr (.inl (ht c hc))]; rfl) (by simp; omega) hg
  have hat : Csv.at_ (a ++ (t ++ d :: rest)) (a.length + t.length) = .ok d := by
    rw [← List.append_assoc]; exact at_split (a ++ t) rest d (by simp)
  have hdrop : (a ++ (t ++ d :: rest)).drop a.length = t ++ d :: rest := by simp
  obtain ⟨c, cs, rfl⟩ := List.exists_cons_of_ne_nil hne
  have hc := digit_facts (ht c (by simp))
  have hlow : (charToLower c == 120) = false := by
    have := ht c (by simp)
    have e : charToLower c = c := by
      unfold charToLower
      rw [if_neg]
      intro hh
      have := this.2
      simp only [Bool.and_eq_true, decide_eq_true_eq, UInt8.le_iff_toNat_le] at hh
      have h65 : (65 : UInt8).toNat = 65 := rfl
      omega
    rw [e]
    simpa using hc.2.2.2.2.1
  have hc0 : Csv.at_ (a ++ (c :: cs ++ d :: rest)) a.length = .ok c := at_split a _ c rfl
  unfold mantissa
  simp only [Res.bind_eq, hc0, Res.ok_bind, if_neg hc.2.2.2.1, hdrop]
  have e1' : CStr.compareLen lt (c :: cs ++ d :: rest) (b!"0x" ++ [0]) 2 = .ok k1 := e1
  have e2' : CStr.compareLen lt (c :: cs ++ d :: rest) (b!"0X" ++ [0]) 2 = .ok k2 := e2
  simp only [e1', e2', Res.ok_bind, if_neg hk1, hlow, Bool.false_and, Bool.false_eq_true, if_false, hw, hat, if_neg hd2, Res.pure_eq, beq_eq_false_iff_ne.mpr hk2]

/-- The mantissa of a hexadecimal integer. -/
theorem mantissa_hex (lt : Bool) {a t u g : Bytes} {d : UInt8} (rest : Bytes) (ht : ∀ c ∈ t, IsHex c) (hd : Ends d)
    (hg : t.length + 2 ≤ g.length) :
    mantissa lt (a ++ (b!"0x" ++ t ++ d :: rest)) (u ++ g) u.length a.length =
      .ok (some ⟨u ++ (b!"0x" ++ t ++ g.drop (t.length + 2)), a.length + (t.length + 2), .integer, .isHex, false⟩) := by
  obtain ⟨hd1, hd2, hd3, hd4, -⟩ := ends_facts hd
  have hw := whole_run hd1 rest (b!"0x" ++ t) a u g ((a ++ (b!"0x" ++ t ++ d :: rest)).length + 1)
    (fun c hc => by
      rcases List.mem_append.mp hc with hc | hc
      · simp at hc; rcases hc with rfl | rfl <;> decide
      · rw [(isHex_iff c).mpr (ht c hc)]; rfl) (by simp; omega) (by simp; omega)
  have hl : (b!"0x" ++ t).length = t.length + 2 := by simp
  rw [hl] at hw
  have hat : Csv.at_ (a ++ (b!"0x" ++ t ++ d :: rest)) (a.length + (t.length + 2)) = .ok d := by
    rw [← List.append_assoc]; exact at_split (a ++ (b!"0x" ++ t)) rest d (by simp)
  have hdrop : (a ++ (b!"0x" ++ t ++ d :: rest)).drop a.length = b!"0x" ++ t ++ d :: rest := by simp
  have hc0 : Csv.at_ (a ++ (b!"0x" ++ t ++ d :: rest)) a.length = .ok 48 := at_split a _ 48 rfl
  have e1 : CStr.compareLen lt (b!"0x" ++ t ++ d :: rest) (b!"0x" ++ [0]) 2 = .ok 0 := by simp [CStr.compareLen]
  unfold mantissa
  simp only [Res.bind_eq, hc0, Res.ok_bind, if_neg (show ¬ ((48 : UInt8) = 46) by decide), hdrop, e1, if_true, Bool.not_true, Bool.and_false,
    Bool.false_eq_true, if_false, hw, hat, if_neg hd2, Res.pure_eq]

/-- The mantissa of a number with digits in front of the point and behind it. -/
theorem mantissa_real (lt : Bool) {a t fs u g : Bytes} {d : UInt8} (rest : Bytes) (hne : t ≠ []) (ht : ∀ c ∈ t, IsDigit c) (hfn : fs ≠ [])
    (hf : ∀ c ∈ fs, IsDigit c) (hd : ¬ IsDigit d) (hg : t.length + fs.length < g.length) :
    mantissa lt (a ++ (t ++ 46 :: (fs ++ d :: rest))) (u ++ g) u.length a.length =
      .ok (some ⟨u ++ (t ++ 46 :: (fs ++ g.drop (t.length + fs.length + 1))), a.length + (t.length + fs.length + 1), .real, .none, true⟩) := by
  obtain ⟨k1, hk1, e1⟩ := cmp_ne lt hne ht (d := 46) 120 (.inl rfl) (by decide) (fs ++ d :: rest)
  obtain ⟨k2, hk2, e2⟩ := cmp_ne lt hne ht (d := 46) 88 (.inr rfl) (by decide) (fs ++ d :: rest)
  have hw := whole_run (d := 46) (by decide) (fs ++ d :: rest) t a u g ((a ++ (t ++ 46 :: (fs ++ d :: rest))).length + 1)
    (fun c hc => by rw [(isHex_iff c).mpr (.inl (ht c hc))]; rfl) (by simp; omega) (by omega)
  have hat : Csv.at_ (a ++ (t ++ 46 :: (fs ++ d :: rest))) (a.length + t.length) = .ok 46 := by
    rw [← List.append_assoc]; exact at_split (a ++ t) _ 46 (by simp)
  have hfr := fraction_run (not_digit hd) rest fs (a ++ t) (u ++ t) (g.drop t.length) 46 (a ++ (t ++ 46 :: (fs ++ d :: rest))).length
    (fun c hc => (isDigit_iff c).mpr (hf c hc)) (by simp; omega) (by simp; omega)
  simp only [List.append_assoc, List.length_append, List.drop_drop, List.cons_append] at hfr
  have hlen : (a ++ (t ++ 46 :: (fs ++ d :: rest))).length = a.length + (t.length + (46 :: (fs ++ d :: rest)).length) := by simp
  have hdrop : (a ++ (t ++ 46 :: (fs ++ d :: rest))).drop a.length = t ++ 46 :: (fs ++ d :: rest) := by simp
  have hfp : 0 < fs.length := List.length_pos_iff.mpr hfn
  obtain ⟨c, cs, rfl⟩ := List.exists_cons_of_ne_nil hne
  have hc := digit_facts (ht c (by simp))
  have hlow : (charToLower c == 120) = false := by
    have := ht c (by simp)
    have e : charToLower c = c := by
      unfold charToLower
      rw [if_neg]
      intro hh
      have := this.2
      simp only [Bool.and_eq_true, decide_eq_true_eq, UInt8.le_iff_toNat_le] at hh
      have h65 : (65 : UInt8).toNat = 65 := rfl
      omega
    rw [e]
    simpa using hc.2.2.2.2.1
  have hc0 : Csv.at_ (a ++ (c :: cs ++ 46 :: (fs ++ d :: rest))) a.length = .ok c := at_split a _ c rfl
  have e1' : CStr.compareLen lt (c :: cs ++ 46 :: (fs ++ d :: rest)) (b!"0x" ++ [0]) 2 = .ok k1 := e1
  have e2' : CStr.compareLen lt (c :: cs ++ 46 :: (fs ++ d :: rest)) (b!"0X" ++ [0]) 2 = .ok k2 := e2
  unfold mantissa
  simp only [Res.bind_eq, hc0, Res.ok_bind, if_neg hc.2.2.2.1, hdrop, e1', e2', if_neg hk1, hlow, Bool.false_and, Bool.false_eq_true, if_false, hw, hat, if_true,
    Res.pure_eq, beq_eq_false_iff_ne.mpr hk2]
  rw [hlen, hfr]
  simp only [Res.ok_bind]
  rw [if_neg (by omega)]
  congr 3
  omega

/-- The mantissa of a number that ends in its point: a zero is added. -/
theorem mantissa_last (lt : Bool) {a t u g : Bytes} {d : UInt8} (rest : Bytes) (hne : t ≠ []) (ht : ∀ c ∈ t, IsDigit c) (hd : ¬ IsDigit d) (hg : t.length + 1 < g.length) :
    mantissa lt (a ++ (t ++ 46 :: d :: rest)) (u ++ g) u.length a.length =
      .ok (some ⟨u ++ (t ++ 46 :: 48 :: g.drop (t.length + 2)), a.length + (t.length + 1), .real, .none, true⟩) := by
  obtain ⟨k1, hk1, e1⟩ := cmp_ne lt hne ht (d := 46) 120 (.inl rfl) (by decide) (d :: rest)
  obtain ⟨k2, hk2, e2⟩ := cmp_ne lt hne ht (d := 46) 88 (.inr rfl) (by decide) (d :: rest)
  have hw := whole_run (d := 46) (by decide) (d :: rest) t a u g ((a ++ (t ++ 46 :: (d :: rest))).length + 1)
    (fun c hc => by rw [(isHex_iff c).mpr (.inl (ht c hc))]; rfl) (by simp; omega) (by omega)
  have hat : Csv.at_ (a ++ (t ++ 46 :: (d :: rest))) (a.length + t.length) = .ok 46 := by
    rw [← List.append_assoc]; exact at_split (a ++ t) _ 46 (by simp)
  have hfr := fraction_run (not_digit hd) rest [] (a ++ t) (u ++ t) (g.drop t.length) 46 (a ++ (t ++ 46 :: (d :: rest))).length
    (by intro c hc; cases hc) (by simp; omega) (by simp; omega)
  simp only [List.append_assoc, List.length_append, List.drop_drop, List.cons_append] at hfr
  have hlen : (a ++ (t ++ 46 :: (d :: rest))).length = a.length + (t.length + (46 :: (d :: rest)).length) := by simp
  have hdrop : (a ++ (t ++ 46 :: (d :: rest))).drop a.length = t ++ 46 :: (d :: rest) := by simp
  obtain ⟨c, cs, rfl⟩ := List.exists_cons_of_ne_nil hne
  have hc := digit_facts (ht c (by simp))
  have hlow : (charToLower c == 120) = false := by
    have := ht c (by simp)
    have e : charToLower c = c := by
      unfold charToLower
      rw [if_neg]
      intro hh
      have := this.2
      simp only [Bool.and_eq_true, decide_eq_true_eq, UInt8.le_iff_toNat_le] at hh
      have h65 : (65 : UInt8).toNat = 65 := rfl
      omega
    rw [e]
    simpa using hc.2.2.2.2.1
  have hc0 : Csv.at_ (a ++ (c :: cs ++ 46 :: (d :: rest))) a.length = .ok c := at_split a _ c rfl
  have e1' : CStr.compareLen lt (c :: cs ++ 46 :: (d :: rest)) (b!"0x" ++ [0]) 2 = .ok k1 := e1
  have e2' : CStr.compareLen lt (c :: cs ++ 46 :: (d :: rest)) (b!"0X" ++ [0]) 2 = .ok k2 := e2
  unfold mantissa
  simp only [Res.bind_eq, hc0, Res.ok_bind, if_neg hc.2.2.2.1, hdrop, e1', e2', if_neg hk1, hlow, Bool.false_and, Bool.false_eq_true, if_false, hw, hat, if_true,
    Res.pure_eq, beq_eq_false_iff_ne.mpr hk2]
  rw [List.nil_append] at hfr
  rw [hlen, hfr]
  simp only [Res.ok_bind]
  obtain ⟨tl, htl⟩ : ∃ tl, tl = c :: cs := ⟨_, rfl⟩
  rw [← htl] at hg ⊢
  obtain ⟨y, g', hy⟩ : ∃ y g', g.drop (tl.length + 1) = y :: g' := by
    cases hh : g.drop (tl.length + 1) with
    | nil => have := congrArg List.length hh; simp at this; omega
    | cons y g' => exact ⟨y, g', rfl⟩
  have hy2 : g.drop (tl.length + 2) = g' := by rw [show tl.length + 2 = tl.length + 1 + 1 by omega, ← List.drop_drop, hy]; rfl
  have hput := put_split (u ++ (tl ++ [46])) g' y 48 _ rfl
  simp only [List.append_assoc, List.length_append, List.length_singleton, List.singleton_append] at hput
  rw [if_pos (by simp only [List.length_nil]; omega)]
  simp only [List.length_nil, Nat.add_zero, List.nil_append, List.cons_append, hy, hy2, Nat.add_assoc, hput, Res.ok_bind]

/-- The mantissa of a number that starts with its point. -/
theorem mantissa_point (lt : Bool) {a fs u g : Bytes} {d : UInt8} (rest : Bytes)
    (hf : ∀ c ∈ fs, IsDigit c) (hd : ¬ IsDigit d) (hg : 1 + fs.length < g.length) :
    mantissa lt (a ++ 46 :: (fs ++ d :: rest)) (u ++ g) u.length a.length =
      .ok (some ⟨u ++ (48 :: 46 :: (fs ++ g.drop (1 + fs.length + 1))), a.length + (fs.length + 1), .real, .isParsedReal, false⟩) := by
  obtain ⟨x, g, rfl⟩ : ∃ x g', g = x :: g' := by cases g with
    | nil => simp at hg
    | cons x g => exact ⟨x, g, rfl⟩
  have hfr := fraction_run (not_digit hd) rest fs a (u ++ [48]) g 46 (a ++ 46 :: (fs ++ d :: rest)).length
    (fun c hc => (isDigit_iff c).mpr (hf c hc)) (by simp; omega) (by simp at hg; omega)
  simp only [List.append_assoc, List.length_append, List.length_singleton, List.singleton_append, List.cons_append, List.nil_append] at hfr
  have hlen : (a ++ 46 :: (fs ++ d :: rest)).length = a.length + (46 :: (fs ++ d :: rest)).length := by simp
  unfold mantissa
  simp only [Res.bind_eq, at_split a _ 46 rfl, Res.ok_bind, if_true, put_split u g x 48 _ rfl]
  rw [hlen, hfr]
  simp only [Res.ok_bind, Res.pure_eq]
  congr 3
  rw [show 1 + fs.length + 1 = (fs.length + 1) + 1 by omega, List.drop_succ_cons]

theorem wrap_small {n : Nat} (hn : 0 < n) {x : Int} (h1 : -(2 ^ (n - 1)) ≤ x) (h2 : x < 2 ^ (n - 1)) : wrap n x = x := by
  have e : (2 : Int) ^ n = 2 ^ (n - 1) + 2 ^ (n - 1) := by
    obtain ⟨m, rfl⟩ : ∃ m, n = m + 1 := ⟨n - 1, by omega⟩
    rw [Int.pow_succ]
    simp
    omega
  unfold wrap
  rw [Int.emod_eq_of_lt (by omega) (by omega)]
  omega

theorem zeros_run {y : UInt8} (hy : y ≠ 48) (z : Bytes) : ∀ (k : Nat) (a : Bytes) (fuel : Nat), k < fuel →
    zeros (a ++ (List.replicate k 48 ++ y :: z)) fuel a.length = .ok k
  | 0, a, fuel + 1, _ => by
    simp only [List.replicate_zero, List.nil_append, zeros, Res.bind_eq, at_split a z y rfl, Res.ok_bind, if_neg hy, Res.pure_eq]
  | k + 1, a, fuel + 1, h => by
    have ih := zeros_run hy z k (a ++ [48]) fuel (by omega)
    simp only [List.append_assoc, List.singleton_append, List.length_append, List.length_singleton] at ih
    simp only [List.replicate_succ, List.cons_append, zeros, Res.bind_eq, at_split a _ 48 rfl, Res.ok_bind, if_true, ih]

theorem skip_run : ∀ (a r : Bytes), (0 : UInt8) ∉ a → (46 : UInt8) ∉ a → CStr.skip (a ++ 46 :: r) 46 = .ok a.length
  | [], r, _, _ => by simp [CStr.skip]
  | c :: a, r, h0, h1 => by
    simp only [List.mem_cons, not_or] at h0 h1
    simp only [List.cons_append, CStr.skip]
    rw [if_pos ⟨Ne.symm h0.1, Ne.symm h1.1⟩, skip_run a r h0.2 h1.2]
    rfl

theorem leadZeros_split : ∀ fs : Bytes, ∃ r, fs = List.replicate (leadZeros fs) 48 ++ r ∧ r.head? ≠ some 48
  | [] => ⟨[], rfl, by simp⟩
  | c :: cs => by
    unfold leadZeros
    split
    · rename_i h
      obtain ⟨r, hr, h2⟩ := leadZeros_split cs
      refine ⟨r, ?_, h2⟩
      rw [List.replicate_succ, List.cons_append, ← hr, h]
    · rename_i h
      exact ⟨c :: cs, rfl, by simpa using h⟩

/-- A node filled in with a real number: digits `i` in front of the point (with a minus perhaps), `fs` behind it. -/
theorem fill_real (F : F64) (lt : Bool) (sg : Sign) {i fs : Bytes} (k pos : Nat) (props : Props) (lead : Bool) (exp : Int) (neg : Bool) (n : Number)
    (hin : i ≠ []) (hi : ∀ c ∈ i, IsDigit c) (hfn : fs ≠ []) (hf : ∀ c ∈ fs, IsDigit c) (hvi : numeral 10 i < 2 ^ 31) (hvf : numeral 10 fs < 2 ^ 31)
    (hz : leadZeros fs < 16) (he : -8 < exp ∧ exp < 8) :
    fill F lt ⟨sg.kept ++ (i ++ 46 :: (fs ++ 0 :: List.replicate k 0)), pos, .real, props, lead⟩ exp neg n =
      .ok { n with type := .real, props := if exp ≠ 0 then .isExp else props, real := scaleReal F neg exp.toNat (F.ofText (sg.kept ++ (i ++ 46 :: (fs ++ 0 :: List.replicate k 0)))), base := sg.apply (numeral 10 i), base2 := (numeral 10 fs : Nat), base2Offset := leadZeros fs, exp := if neg then -exp else exp, negZero := decide (sg = .minus ∧ numeral 10 i = 0), leadDigit := lead } := by
  obtain ⟨c, cs, hcs⟩ := List.exists_cons_of_ne_nil hin
  have hc : IsDigit c := hi c (by rw [hcs]; simp)
  have h0 : (0 : UInt8) ∉ sg.kept ++ i := by
    intro h
    rcases List.mem_append.mp h with h | h
    · cases sg <;> revert h <;> decide
    · exact (digit_facts (hi _ h)).1 rfl
  have h46 : (46 : UInt8) ∉ sg.kept ++ i := by
    intro h
    rcases List.mem_append.mp h with h | h
    · cases sg <;> revert h <;> decide
    · exact (digit_facts (hi _ h)).2.2.2.1 rfl
  obtain ⟨z, hzz⟩ : ∃ z, z = fs ++ 0 :: List.replicate k (0 : UInt8) := ⟨_, rfl⟩
  have hskip := skip_run (sg.kept ++ i) z h0 h46
  have hput := put_split (sg.kept ++ i) z 46 0 _ rfl
  have hzr : zeros (sg.kept ++ i ++ 0 :: z) (sg.kept ++ i ++ 0 :: z).length ((sg.kept ++ i).length + 1) = .ok (leadZeros fs) := by
    obtain ⟨r, hr, hr2⟩ := leadZeros_split fs
    have hlen : leadZeros fs ≤ fs.length := by
      have := congrArg List.length hr
      simp at this
      omega
    have hy : ∃ y w, r ++ 0 :: List.replicate k (0 : UInt8) = y :: w ∧ y ≠ 48 := by
      cases r with
      | nil => exact ⟨0, _, rfl, by decide⟩
      | cons y w => exact ⟨y, _, rfl, by simpa using hr2⟩
    obtain ⟨y, w, hyw, hy⟩ := hy
    have := zeros_run hy w (leadZeros fs) (sg.kept ++ i ++ [0]) (sg.kept ++ i ++ 0 :: z).length (by rw [hzz]; simp; omega)
    rw [← hyw, ← List.append_assoc (List.replicate _ _), ← hr, ← hzz] at this
    simp only [List.append_assoc, List.singleton_append, List.length_append, List.length_singleton] at this
    simpa [Nat.add_assoc] using this
  obtain ⟨k1, hbase⟩ := i64_decimal lt sg hin hi (by omega) z
  obtain ⟨k2, hbase2⟩ := i64_decimal lt .none hfn hf (by omega) (List.replicate k 0)
  have hdrop : (sg.kept ++ i ++ 0 :: z).drop ((sg.kept ++ i).length + 1) = fs ++ 0 :: List.replicate k 0 := by
    rw [hzz]
    rw [show sg.kept ++ i ++ 0 :: (fs ++ 0 :: List.replicate k (0 : UInt8)) = (sg.kept ++ i ++ [0]) ++ (fs ++ 0 :: List.replicate k 0) by rw [List.append_assoc (sg.kept ++ i)]; rfl]
    exact List.drop_left' (by simp; omega)
  have hw1 : wrap 32 (sg.apply (numeral 10 i)) = sg.apply (numeral 10 i) := by
    apply wrap_small (by decide) <;> (cases sg <;> simp only [Sign.apply] <;> omega)
  have hw2 : wrap 32 ((numeral 10 fs : Nat) : Int) = (numeral 10 fs : Nat) := by
    apply wrap_small (by decide) <;> omega
  have hw3 : wrap 4 (wrap 8 (if neg then -exp else exp)) = if neg then -exp else exp := by
    have : -8 < (if neg then -exp else exp) ∧ (if neg then -exp else exp) < 8 := by
      cases neg <;> simp <;> omega
    rw [wrap_small (n := 8) (by decide) (by omega) (by omega)]
    exact wrap_small (n := 4) (by decide) (by omega) (by omega)
  have hfirst : ∃ x, Csv.at_ (sg.kept ++ i ++ 46 :: z) 0 = .ok x ∧
      ((sg.apply (numeral 10 i) == 0 && x == 45) = decide (sg = .minus ∧ numeral 10 i = 0)) := by
    cases sg with
    | minus =>
      refine ⟨45, rfl, ?_⟩
      rw [Bool.eq_iff_iff]
      simp [Sign.apply]
    | none =>
      refine ⟨c, by rw [hcs]; rfl, ?_⟩
      have := (digit_facts hc).2.1
      rw [Bool.eq_iff_iff]
      simp [this]
    | plus =>
      refine ⟨c, by rw [hcs]; rfl, ?_⟩
      have := (digit_facts hc).2.1
      rw [Bool.eq_iff_iff]
      simp [this]
  obtain ⟨x, hx, hneg⟩ := hfirst
  have hassoc : sg.kept ++ (i ++ 46 :: z) = sg.kept ++ i ++ 46 :: z := by simp
  have hassoc0 : sg.kept ++ i ++ 0 :: z = sg.kept ++ (i ++ 0 :: z) := by simp
  have hb2 : cStrToI64 lt (fs ++ 0 :: List.replicate k 0) 0 = .ok ((numeral 10 fs : Nat), k2) := hbase2
  rw [← hzz]
  unfold fill
  simp only [Res.bind_eq, hassoc, hx, Res.ok_bind, show ¬ (Ty.real = Ty.integer) by decide, if_false, hskip, hput, hzr, hdrop, hb2]
  rw [hassoc0, hbase]
  simp only [Res.ok_bind, Res.pure_eq, hw1, hw2, hw3, hneg]
  rw [show leadZeros fs % 256 % 16 = leadZeros fs by omega]

/-- No exponent. -/
theorem exponent_none (lt : Bool) {a : Bytes} {d : UInt8} (rest : Bytes) (hd : d ≠ 101 ∧ d ≠ 69) :
    exponent lt (a ++ d :: rest) a.length = .ok (0, false, a.length) := by
  unfold exponent
  simp only [Res.bind_eq, at_split a rest d rfl, Res.ok_bind]
  by_cases h0 : d = 0
  · subst h0
    have : among b!"eE" 0 = .ok true := rfl
    simp only [this, Res.ok_bind]
    rfl
  · have : among b!"eE" d = .ok false := among_false (by
      intro x hx; simp at hx; rcases hx with rfl | rfl
      · exact Ne.symm hd.1
      · exact Ne.symm hd.2) h0 (by decide)
    simp only [this, Res.ok_bind, Bool.not_false, Bool.or_true, if_true, Res.pure_eq]


theorem scan10 (lt : Bool) {t : Bytes} (hne : t ≠ []) (ht : ∀ c ∈ t, IsDigit c) (hv : numeral 10 t < 2 ^ 63) (rest : Bytes) :
    ∃ k, cStrToI64 lt (t ++ 0 :: rest) 10 = .ok ((numeral 10 t : Nat), k) := by
  have hscan := scan_numeral (b := 10) (by omega) (M := 2 ^ 63) (fun _ h => s64_nat h) rest (digitOf_nul 10) t 0
    (fun c hc => digit_val (.inl rfl) (ht c hc)) hv
  obtain ⟨c, cs, rfl⟩ := List.exists_cons_of_ne_nil hne
  have hc := (digit_facts (ht c (by simp))).2.1
  unfold cStrToI64
  rw [if_neg (by decide), Res.ok_bind]
  simp only [List.cons_append] at hscan ⊢
  simp only [scan, hc, if_false, skip0x, show ¬ (10 = 16) by decide, Res.ok_bind, List.drop_zero]
  rw [show (0 : Int) = ((0 : Nat) : Int) from rfl, hscan]
  exact ⟨_, rfl⟩

/-- An exponent is read as its value. -/
theorem exponent_run (lt : Bool) (x : Expo) (hx : x.Ok) (a : Bytes) {d : UInt8} (rest : Bytes) (hd : ¬ IsDigit d) (hd2 : d ≠ 101 ∧ d ≠ 69) :
    exponent lt (a ++ (x.text ++ d :: rest)) a.length = .ok ((x.value : Int), x.neg, a.length + x.text.length) := by
  cases x with
  | none => exact exponent_none lt rest hd2
  | some u sg ks =>
    obtain ⟨hne, hk, hl, hv⟩ := hx
    obtain ⟨c, cs, hcs⟩ := List.exists_cons_of_ne_nil hne
    have hc : IsDigit c := hk c (by rw [hcs]; simp)
    obtain ⟨e, he⟩ : ∃ e : UInt8, e = if u then 69 else 101 := ⟨_, rfl⟩
    have hamong : among b!"eE" e = .ok true := by rw [he]; cases u <;> rfl
    have he0 : (e = 0 || !true) = false := by rw [he]; cases u <;> decide
    obtain ⟨kx, hscan⟩ := scan10 lt hne hk (by omega) (List.replicate (6 - ks.length - 1) 0)
    have hwrap : wrap 8 (((numeral 10 ks : Nat) : Int) % 256) = (numeral 10 ks : Nat) := by
      rw [Int.emod_eq_of_lt (by omega) (by omega)]
      exact wrap_small (by decide) (by omega) (by omega)
    have hdig : (List.replicate 6 (0 : UInt8)).drop ks.length = 0 :: List.replicate (6 - ks.length - 1) 0 := by
      rw [List.drop_replicate, show 6 - ks.length = (6 - ks.length - 1) + 1 by omega, List.replicate_succ]
      rfl
    have h1 : Csv.at_ (a ++ e :: (sg.text ++ ks ++ d :: rest)) a.length = .ok e := at_split a _ e rfl
    have hrun := expDigits_run (not_digit hd) rest ks (a ++ e :: sg.text) [] (List.replicate 6 0) (a ++ e :: (sg.text ++ ks ++ d :: rest)).length
      (fun c hc => (isDigit_iff c).mpr (hk c hc)) (by simp; omega) (by simp; omega)
    rw [hdig] at hrun
    simp only [List.append_assoc, List.cons_append, List.nil_append, List.length_nil] at hrun h1
    have hlen : (a ++ e :: (sg.text ++ (ks ++ d :: rest))).length = a.length + (e :: (sg.text ++ (ks ++ d :: rest))).length := by simp
    have htext : (Expo.some u sg ks).text = e :: (sg.text ++ ks) := by rw [he]; rfl
    rw [htext]
    unfold exponent
    simp only [List.append_assoc, List.cons_append, Res.bind_eq, h1, Res.ok_bind, hamong]
    rw [if_neg (by rw [he0]; decide)]
    have hnext : ∃ y, Csv.at_ (a ++ e :: (sg.text ++ (ks ++ d :: rest))) (a.length + 1) = .ok y ∧ (y = 43 ∨ y = 45 ∨ charIsDigit y = true) ∧
        (if charIsDigit y = true then a.length + 1 else a.length + 2) = (a ++ e :: sg.text).length ∧ (y == 45) = (Expo.some u sg ks).neg := by
      cases sg with
      | none =>
        have hdc := (isDigit_iff c).mpr hc
        refine ⟨c, ?_, .inr (.inr hdc), ?_, ?_⟩
        · rw [hcs]
          have := at_split (a ++ [e]) (cs ++ d :: rest) c (i := a.length + 1) (by simp)
          simpa [Sign.text] using this
        · rw [if_pos hdc]; simp [Sign.text]
        · simpa [Expo.neg] using (digit_facts hc).2.1
      | plus =>
        refine ⟨43, ?_, .inl rfl, ?_, rfl⟩
        · have := at_split (a ++ [e]) (ks ++ d :: rest) 43 (i := a.length + 1) (by simp)
          simpa [Sign.text] using this
        · rw [if_neg (by decide)]; simp [Sign.text]
      | minus =>
        refine ⟨45, ?_, .inr (.inl rfl), ?_, rfl⟩
        · have := at_split (a ++ [e]) (ks ++ d :: rest) 45 (i := a.length + 1) (by simp)
          simpa [Sign.text] using this
        · rw [if_neg (by decide)]; simp [Sign.text]
    obtain ⟨y, hy, hy2, hy3, hy4⟩ := hnext
    simp only [hy, Res.ok_bind]
    rw [if_pos hy2, hy3, hrun]
    simp only [Res.ok_bind, hscan, Res.pure_eq, hwrap, hy4]
    simp only [Expo.value, List.length_append, List.length_cons]
    congr 3
    omega

end Verif.Adt
