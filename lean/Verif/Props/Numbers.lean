import Verif.Model.Numbers
import Verif.Props.CStr
/-!
# Property C17 (integers to text and back)
-/
namespace Verif.Num

/-- The digits of `v` in base `b`, most significant first, no leading zeros (`0` is `[0]`). -/
def D (b v : Nat) : List Nat :=
  if h : v < b ∨ b < 2 then [v] else D b (v / b) ++ [v % b]
termination_by v
decreasing_by exact Nat.div_lt_self (by omega) (by omega)

theorem D_small {b v : Nat} (h : v < b) : D b v = [v] := by rw [D]; simp [h]
theorem D_big {b v : Nat} (hb : 2 ≤ b) (h : b ≤ v) : D b v = D b (v / b) ++ [v % b] := by
  rw [D, dif_neg (by omega)]

theorem D_lt {b : Nat} (hb : 2 ≤ b) : ∀ v, ∀ d ∈ D b v, d < b := by
  intro v
  induction v using Nat.strongRecOn with
  | _ v ih =>
    intro d hd
    by_cases h : v < b
    · rw [D_small h] at hd; simp at hd; omega
    · rw [D_big hb (by omega)] at hd
      rcases List.mem_append.mp hd with hd | hd
      · exact ih (v / b) (Nat.div_lt_self (by omega) (by omega)) d hd
      · simp at hd; rw [hd]; exact Nat.mod_lt _ (by omega)

theorem D_len {b : Nat} (hb : 2 ≤ b) : ∀ (k v : Nat), v < 2 ^ (k+1) → (D b v).length ≤ k + 1 := by
  intro k
  induction k with
  | zero =>
    intro v h
    rw [D_small (by omega)]; simp
  | succ k ih =>
    intro v h
    by_cases hv : v < b
    · rw [D_small hv]; simp
    · rw [D_big hb (by omega)]
      have : v / b < 2 ^ (k+1) := by
        rw [Nat.div_lt_iff_lt_mul (by omega)]
        calc v < 2 ^ (k+1+1) := h
          _ = 2 ^ (k+1) * 2 := by rw [Nat.pow_succ]
          _ ≤ 2 ^ (k+1) * b := Nat.mul_le_mul_left _ hb
      have := ih _ this
      simp; omega

theorem D_ne_nil (b v : Nat) : D b v ≠ [] := by
  rw [D]; split <;> simp

/-- Horner evaluation of digits. -/
def horner (b : Nat) (r : Nat) (ds : List Nat) : Nat := ds.foldl (fun r d => r * b + d) r

theorem horner_D {b : Nat} (hb : 2 ≤ b) : ∀ v, horner b 0 (D b v) = v := by
  intro v
  induction v using Nat.strongRecOn with
  | _ v ih =>
    by_cases h : v < b
    · rw [D_small h]; simp [horner]
    · rw [D_big hb (by omega)]
      have := ih (v / b) (Nat.div_lt_self (by omega) (by omega))
      simp only [horner, List.foldl_append, List.foldl_cons, List.foldl_nil] at this ⊢
      rw [this, Nat.mul_comm]; exact Nat.div_add_mod v b

theorem horner_mono {b : Nat} (hb : 1 ≤ b) : ∀ (ds : List Nat) (r : Nat), r ≤ horner b r ds := by
  intro ds
  induction ds with
  | nil => intro r; exact Nat.le_refl _
  | cons d ds ih =>
    intro r
    have h1 := ih (r * b + d)
    have h2 : r ≤ r * b := Nat.le_mul_of_pos_right r hb
    show r ≤ horner b (r * b + d) ds
    omega

/-- The character written for a digit. -/
def chr (d : Nat) : UInt8 := numToChar.getD d 0

theorem chr_get {d : Nat} (h : d < 64) : numToChar[d]? = some (chr d) := by
  have hl : numToChar.length = 65 := rfl
  unfold chr
  rw [List.getD_eq_getElem?_getD, List.getElem?_eq_getElem (by omega)]; rfl

theorem put_split (a r : Bytes) (x c : UInt8) (i : Nat) (hi : i = a.length) :
    put (a ++ x :: r) i c = .ok (a ++ c :: r) := by
  subst hi
  simp [put]

theorem digitsLoop_spec {b : Nat} (hb : 2 ≤ b) (hb2 : b ≤ 64) : ∀ (v : Nat), 0 < v → ∀ (fuel : Nat) (a g r : Bytes),
    g.length = (D b v).length → (D b v).length ≤ fuel →
    digitsLoop b fuel v (a ++ (g ++ r)) a.length =
      .ok (a ++ (((D b v).map chr).reverse ++ r), a.length + (D b v).length) := by
  intro v
  induction v using Nat.strongRecOn with
  | _ v ih =>
    intro hv fuel a g r hg hf
    have hd : v % b < 64 := Nat.lt_of_lt_of_le (Nat.mod_lt _ (by omega)) hb2
    have hpos : 0 < (D b v).length := List.length_pos_iff.mpr (D_ne_nil b v)
    obtain ⟨fuel, rfl⟩ : ∃ k, fuel = k + 1 := ⟨fuel - 1, by omega⟩
    cases g with
    | nil => simp at hg; omega
    | cons x g =>
      unfold digitsLoop
      rw [if_neg (by omega), if_neg (by omega)]
      simp only [chr_get hd, Res.ofOption_some, Res.ok_bind, List.cons_append]
      rw [put_split a (g ++ r) x _ _ rfl]
      simp only [Res.ok_bind]
      by_cases h : v < b
      · have : v / b = 0 := Nat.div_eq_of_lt h
        rw [this]
        rw [D_small h] at hg hf ⊢
        have hg0 : g = [] := List.eq_nil_of_length_eq_zero (by simpa using hg)
        subst hg0
        unfold digitsLoop
        simp [Nat.mod_eq_of_lt h]
      · have hDb := D_big (v := v) hb (by omega)
        rw [hDb] at hg hf ⊢
        simp at hg hf
        have := ih (v / b) (Nat.div_lt_self (by omega) (by omega)) (Nat.div_pos (by omega) (by omega)) fuel
          (a ++ [chr (v % b)]) g r (by omega) (by omega)
        simp only [List.append_assoc, List.cons_append, List.nil_append, List.length_append, List.length_cons,
          List.length_nil, Nat.zero_add] at this
        rw [this]
        simp; omega

theorem digitsOrZero_spec {b : Nat} (hb : 2 ≤ b) (hb2 : b ≤ 64) (v : Nat) (g r : Bytes) (hg : g.length = (D b v).length) :
    digitsOrZero v (g ++ r) b = .ok (((D b v).map chr).reverse ++ r, (D b v).length) := by
  unfold digitsOrZero
  by_cases hv : v = 0
  · subst hv
    rw [D_small (by omega)] at hg ⊢
    match g, hg with
    | [x], _ => simp [put]; rfl
  · rw [if_pos hv]
    have := digitsLoop_spec hb hb2 v (by omega) (g ++ r).length [] g r hg (by simp; omega)
    simpa using this

theorem chr_ne_zero : ∀ d, d < 64 → chr d ≠ 0 := by decide +kernel

theorem text_no_nul {b : Nat} (hb : 2 ≤ b) (hb2 : b ≤ 64) (v : Nat) : (0 : UInt8) ∉ (D b v).map chr := by
  intro h
  obtain ⟨d, hd, he⟩ := List.mem_map.mp h
  exact chr_ne_zero d (Nat.lt_of_lt_of_le (D_lt hb v d hd) hb2) he

/-- The text of an unsigned number. -/
theorem u64ToStr_eq {b : Nat} (hb : 2 ≤ b) (hb2 : b ≤ 64) (v : Nat) (buf : Bytes) (hl : (D b v).length < buf.length) :
    u64ToStr v buf b = .ok ((D b v).map chr ++ 0 :: buf.drop ((D b v).length + 1)) := by
  unfold u64ToStr
  have hsplit : buf = buf.take (D b v).length ++ (buf[(D b v).length] :: buf.drop ((D b v).length + 1)) := by
    rw [← List.drop_eq_getElem_cons hl, List.take_append_drop]
  have hnn := text_no_nul hb hb2 v
  conv => lhs; rw [hsplit]
  rw [digitsOrZero_spec hb hb2 v _ _ (by simp; omega)]
  simp only [Res.ok_bind]
  rw [put_split _ _ _ _ _ (by simp)]
  simp only [Res.ok_bind]
  have := CStr.C39_reverse ((D b v).map chr).reverse (buf.drop ((D b v).length + 1)) (by simpa using hnn)
  rw [this, List.reverse_reverse]

/-- The text of a signed number. -/
def signedText (b : Nat) (value : Int) : Bytes :=
  (if value < 0 then b!"-" else []) ++ (D b value.natAbs).map chr

theorem i64ToStr_eq {b : Nat} (hb : 2 ≤ b) (hb2 : b ≤ 64) (value : Int) (h1 : -(2^63) < value) (h2 : value < 2^63)
    (buf : Bytes) (hl : (signedText b value).length < buf.length) :
    i64ToStr value buf b = .ok (signedText b value ++ 0 :: buf.drop ((signedText b value).length + 1)) := by
  unfold i64ToStr
  have hv : (if value < 0 then s64 (-value) else .ok value) = .ok (value.natAbs : Int) := by
    split
    · rw [s64, if_pos (by unfold inS64; omega)]; congr 1; omega
    · congr 1; omega
  rw [hv]
  simp only [Res.ok_bind, Int.toNat_natCast]
  have hnn := text_no_nul hb hb2 value.natAbs
  by_cases hneg : value < 0
  · have hst : signedText b value = 45 :: (D b value.natAbs).map chr := by simp [signedText, hneg]
    rw [hst] at hl ⊢
    simp at hl
    generalize hn : (D b value.natAbs).length = n at *
    have h1' : n < buf.length := by omega
    have hsplit : buf = buf.take n ++ (buf[n] :: (buf[n+1] :: buf.drop (n + 2))) := by
      rw [← List.drop_eq_getElem_cons hl, ← List.drop_eq_getElem_cons h1', List.take_append_drop]
    conv => lhs; rw [hsplit]
    rw [digitsOrZero_spec hb hb2 _ _ _ (by simp; omega)]
    simp only [Res.ok_bind, putSign, hneg, decide_true, if_true]
    rw [put_split _ _ _ _ _ (by simp)]
    simp only [Res.ok_bind]
    have e : ((D b value.natAbs).map chr).reverse ++ 45 :: buf[n+1] :: buf.drop (n+2) =
        (((D b value.natAbs).map chr).reverse ++ [45]) ++ buf[n+1] :: buf.drop (n+2) := by simp
    rw [e, put_split _ _ _ _ _ (by simp)]
    simp only [Res.ok_bind]
    have := CStr.C39_reverse (((D b value.natAbs).map chr).reverse ++ [45]) (buf.drop (n + 2)) (by
      simp only [List.mem_append, List.mem_reverse, List.mem_singleton]
      rintro (h | h)
      · exact hnn h
      · simp at h)
    rw [this]
    simp [hn]
  · have hst : signedText b value = (D b value.natAbs).map chr := by simp [signedText, hneg]
    rw [hst] at hl ⊢
    simp at hl
    have := u64ToStr_eq hb hb2 value.natAbs buf hl
    unfold u64ToStr at this
    simp only [putSign, hneg, decide_false, Bool.false_eq_true, if_false]
    cases hd : digitsOrZero value.natAbs buf b with
    | ok p => rw [hd] at this; simp at this ⊢; rw [this]
    | stop => rw [hd] at this; simp at this
    | ub => rw [hd] at this; simp at this
    | hang => rw [hd] at this; simp at this

/-- Bases whose digits the parser understands. -/
def GoodBase (b : Nat) : Prop := (2 ≤ b ∧ b ≤ 10) ∨ b = 16

theorem digit_small : ∀ d, d < 10 → ∀ b, digitOf b (chr d) = some (d : Int) := by
  intro d hd b
  have h : ∀ d, d < 10 → charIsDigit (chr d) = true ∧ ((chr d).toNat : Int) - 48 = d := by decide +kernel
  simp [digitOf, (h d hd).1, (h d hd).2]

theorem digit16 : ∀ d, d < 16 → digitOf 16 (chr d) = some (d : Int) := by decide +kernel

theorem digitOf_chr {b d : Nat} (hb : GoodBase b) (hd : d < b) : digitOf b (chr d) = some (d : Int) := by
  rcases hb with hb | rfl
  · exact digit_small d (by omega) b
  · exact digit16 d hd

theorem digitOf_nul (b : Nat) : digitOf b 0 = none := by
  have h1 : charIsDigit 0 = false := by decide
  have h2 : charIsHexDigit 0 = false := by decide
  rw [digitOf, h1, h2]; simp

theorem scanDigits_stop (b : Nat) (rest : Bytes) (r : Int) : scanDigits b (0 :: rest) r = .ok (r, 0) := by
  rw [scanDigits, digitOf_nul]

theorem scanDigits_step {b : Nat} (c : UInt8) (cs : Bytes) (r v r1 r2 : Int) (h : digitOf b c = some v)
    (h1 : s64 (r * b) = .ok r1) (h2 : s64 (r1 + v) = .ok r2) :
    scanDigits b (c :: cs) r = (scanDigits b cs r2).bind fun p => .ok (p.1, p.2 + 1) := by
  rw [scanDigits, h]
  show ((s64 (r * b)).bind fun r => (s64 (r + v)).bind fun r => _) = _
  rw [h1, Res.ok_bind, h2, Res.ok_bind]

theorem s64_nat {n : Nat} (h : n < 2^63) : s64 (n : Int) = .ok (n : Int) := by
  rw [s64, if_pos (by unfold inS64; omega)]

theorem scanDigits_spec {b : Nat} (hb : GoodBase b) (rest : Bytes) (M : Nat) (hM : ∀ n, n < M → s64 (n : Int) = .ok (n : Int)) :
    ∀ (ds : List Nat) (r : Nat), (∀ d ∈ ds, d < b) → horner b r ds < M →
    scanDigits b (ds.map chr ++ 0 :: rest) (r : Int) = .ok ((horner b r ds : Nat), ds.length) := by
  have hb1 : 1 ≤ b := by rcases hb with h | h <;> omega
  intro ds
  induction ds with
  | nil =>
    intro r _ _
    rw [List.map_nil, List.nil_append, scanDigits_stop]; rfl
  | cons d ds ih =>
    intro r hd hlt
    have hd0 := hd d List.mem_cons_self
    have hm := horner_mono hb1 ds (r * b + d)
    have hh : horner b r (d :: ds) = horner b (r * b + d) ds := rfl
    rw [hh] at hlt ⊢
    have c1 : r * b + d < M := Nat.lt_of_le_of_lt hm hlt
    have e1 : (r : Int) * (b : Int) = ((r * b : Nat) : Int) := (Int.natCast_mul r b).symm
    have e2 : ((r * b : Nat) : Int) + (d : Int) = ((r * b + d : Nat) : Int) := (Int.natCast_add _ _).symm
    have s1 := hM (r * b) (by omega)
    have s2 := hM _ c1
    rw [← e1] at s1
    rw [← e2, ← e1] at s2
    rw [List.map_cons, List.cons_append, scanDigits_step _ _ _ _ _ _ (digitOf_chr hb hd0) s1 s2,
      e1, e2, ih (r * b + d) (fun x hx => hd x (List.mem_cons_of_mem _ hx)) hlt, Res.ok_bind, List.length_cons]

/-- No text of digits starts with `0x`. -/
theorem not_0x (lt : Bool) (b : Nat) (hb : 2 ≤ b) (hb2 : b ≤ 16) (v : Nat) (rest : Bytes) :
    ∃ k, k ≠ 0 ∧ CStr.compareLen lt ((D b v).map chr ++ 0 :: rest) (b!"0x" ++ [0]) 2 = .ok k := by
  have hx : ∀ d, d < 16 → chr d ≠ 120 := by decide +kernel
  have hlt := D_lt hb v
  have hs : ((if lt = true then (-1 : Int) else 1)) ≠ 0 := by cases lt <;> simp
  match hD : D b v with
  | [] => exact absurd hD (D_ne_nil b v)
  | [d] =>
    simp only [List.map_cons, List.map_nil, List.cons_append, List.nil_append, CStr.compareLen]
    by_cases h : chr d = 48
    · exact ⟨if lt then -1 else 1, hs, by rw [if_neg (by simp [h]), if_neg (by simp [h]), if_pos (by decide)]⟩
    · exact ⟨if lt then -1 else 1, hs, by rw [if_pos (by simpa using h)]⟩
  | d :: d' :: ds =>
    simp only [List.map_cons, List.cons_append, CStr.compareLen]
    by_cases h : chr d = 48
    · have : chr d' ≠ 120 := hx d' (by have := hlt d' (by rw [hD]; simp); omega)
      exact ⟨if lt then -1 else 1, hs, by rw [if_neg (by simp [h]), if_neg (by simp [h]), if_pos this]⟩
    · exact ⟨if lt then -1 else 1, hs, by rw [if_pos (by simpa using h)]⟩

theorem scan_text (lt : Bool) {b : Nat} (hb : GoodBase b) (value : Int) (h1 : -(2^63) < value) (h2 : value < 2^63)
    (rest : Bytes) :
    scan lt (signedText b value ++ 0 :: rest) b = .ok (value, (signedText b value).length) := by
  have hb2 : 2 ≤ b ∧ b ≤ 16 := by rcases hb with h | h <;> omega
  have hsk : skip0x lt b ((D b value.natAbs).map chr ++ 0 :: rest) = .ok 0 := by
    unfold skip0x
    split
    · obtain ⟨k, hk, e⟩ := not_0x lt b hb2.1 hb2.2 value.natAbs rest
      rw [e]; simp [hk]
    · rfl
  have hsc := scanDigits_spec hb rest (2^63) (fun _ h => s64_nat h) (D b value.natAbs) 0 (D_lt hb2.1 _) (by rw [horner_D hb2.1]; omega)
  rw [horner_D hb2.1] at hsc
  by_cases hneg : value < 0
  · simp only [signedText, hneg, if_true, List.cons_append, List.nil_append, scan]
    simp only [hsk, Res.ok_bind, List.drop_zero]
    rw [show (0 : Int) = ((0 : Nat) : Int) from rfl, hsc]
    simp only [Res.ok_bind]
    rw [s64, if_pos (by unfold inS64; omega)]
    simp; omega
  · simp only [signedText, hneg, if_false, List.nil_append]
    have hne : ((D b value.natAbs).map chr) ≠ [] := by simp [D_ne_nil]
    have hm : ∀ d, d < 16 → chr d ≠ 45 := by decide +kernel
    match hT : (D b value.natAbs).map chr, hne with
    | c :: cs, _ =>
      have hc : c ≠ 45 := by
        have : c ∈ (D b value.natAbs).map chr := by rw [hT]; simp
        obtain ⟨d, hd, he⟩ := List.mem_map.mp this
        rw [← he]; exact hm d (Nat.lt_of_lt_of_le (D_lt hb2.1 _ d hd) hb2.2)
      rw [hT] at hsk hsc
      simp only [List.cons_append] at hsk hsc ⊢
      simp only [scan, hc, if_false, hsk, Res.ok_bind, List.drop_zero]
      rw [show (0 : Int) = ((0 : Nat) : Int) from rfl, hsc]
      have hl : (D b value.natAbs).length = (c :: cs).length := by rw [← hT]; simp
      simp [hl]; omega

theorem signed_len {b : Nat} (hb : 2 ≤ b) (value : Int) (h1 : -(2^63) < value) (h2 : value < 2^63) :
    (signedText b value).length ≤ 64 := by
  have := D_len hb 62 value.natAbs (by omega)
  unfold signedText
  split <;> simp <;> omega

/-- C17: for every `s64` except the least one, every base the parser understands (2..10 and 16) and every buffer of at
least 65 characters, `i64_to_str` writes a NUL-terminated text inside the buffer, and `c_str_to_i64` of it in the same base
gives the value back and stops at the terminator. -/
theorem C17_i64_round_trip (lt : Bool) (b : Nat) (hb : GoodBase b) (value : Int) (h1 : -(2^63) < value) (h2 : value < 2^63)
    (buf : Bytes) (hl : 65 ≤ buf.length) :
    ∃ text rest, (0 : UInt8) ∉ text ∧ i64ToStr value buf b = .ok (text ++ 0 :: rest) ∧
      (text ++ 0 :: rest).length = buf.length ∧ cStrToI64 lt (text ++ 0 :: rest) b = .ok (value, text.length) := by
  have hb2 : 2 ≤ b ∧ b ≤ 16 := by rcases hb with h | h <;> omega
  have hsl := signed_len hb2.1 value h1 h2
  refine ⟨signedText b value, buf.drop ((signedText b value).length + 1), ?_,
    i64ToStr_eq hb2.1 (by omega) value h1 h2 buf (by omega), by simp; omega, ?_⟩
  · unfold signedText
    simp only [List.mem_append, not_or]
    exact ⟨by split <;> simp, text_no_nul hb2.1 (by omega) _⟩
  · unfold cStrToI64
    rw [if_neg (by omega)]
    exact scan_text lt hb value h1 h2 _

/-- C17: the same for `u64_to_str` and values below 2^63. -/
theorem C17_u64_round_trip (lt : Bool) (b : Nat) (hb : GoodBase b) (v : Nat) (h2 : v < 2^63)
    (buf : Bytes) (hl : 65 ≤ buf.length) :
    ∃ text rest, (0 : UInt8) ∉ text ∧ u64ToStr v buf b = .ok (text ++ 0 :: rest) ∧
      (text ++ 0 :: rest).length = buf.length ∧ cStrToI64 lt (text ++ 0 :: rest) b = .ok ((v : Int), text.length) := by
  have hb2 : 2 ≤ b ∧ b ≤ 16 := by rcases hb with h | h <;> omega
  have hst : signedText b (v : Int) = (D b v).map chr := by simp [signedText]
  have hsl := signed_len hb2.1 (v : Int) (by omega) (by omega)
  rw [hst] at hsl
  simp at hsl
  refine ⟨(D b v).map chr, buf.drop ((D b v).length + 1), text_no_nul hb2.1 (by omega) _,
    u64ToStr_eq hb2.1 (by omega) v buf (by omega), by simp; omega, ?_⟩
  unfold cStrToI64
  rw [if_neg (by omega)]
  have := scan_text lt hb (v : Int) (by omega) (by omega) (buf.drop ((D b v).length + 1))
  rw [hst] at this; exact this

/-- C17: the text of any `u64` in base 10 or 16 is its standard numeral (`Nat.toDigits`), hexadecimal digits in upper
case, whatever the buffer held before. -/
theorem C17_u64_text (b : Nat) (hb : b = 10 ∨ b = 16) (v : Nat) (h2 : v < 2^64) (buf : Bytes) (hl : 65 ≤ buf.length) :
    ∃ rest, u64ToStr v buf b = .ok ((Nat.toDigits b v).map (fun c => UInt8.ofNat c.toUpper.toNat) ++ 0 :: rest) := by
  have hb2 : 2 ≤ b ∧ b ≤ 16 := by omega
  have hchr : ∀ d, d < 16 → UInt8.ofNat (Nat.digitChar d).toUpper.toNat = chr d := by decide +kernel
  have hD : ∀ v, (Nat.toDigits b v).map (fun c => UInt8.ofNat c.toUpper.toNat) = (D b v).map chr := by
    intro v
    induction v using Nat.strongRecOn with
    | _ v ih =>
      by_cases h : v < b
      · rw [D_small h, Nat.toDigits_of_lt_base h]
        simp [hchr v (by omega)]
      · rw [D_big hb2.1 (by omega), Nat.toDigits_of_base_le (by omega) (by omega), List.map_append, List.map_append,
          ih _ (Nat.div_lt_self (by omega) (by omega))]
        simp [hchr (v % b) (Nat.lt_of_lt_of_le (Nat.mod_lt _ (by omega)) hb2.2)]
  have hlen := D_len hb2.1 63 v (by omega)
  exact ⟨_, by rw [hD]; exact u64ToStr_eq hb2.1 (by omega) v buf (by omega)⟩

/-- C17, refuted for the least `s64`: negating it overflows. -/
theorem C17_i64_min_refuted (b : Nat) (buf : Bytes) : i64ToStr (-(2^63)) buf b = .ub := by
  unfold i64ToStr
  rw [if_pos (by omega), s64, if_neg (by unfold inS64; omega)]; rfl

/-- C17, refuted for `u64` values from 2^63 on: the parser's accumulator overflows (shown for 2^63). -/
theorem C17_u64_large_refuted : ∃ buf, u64ToStr (2^63) (List.replicate 65 0) 10 = .ok buf ∧ cStrToI64 true buf 10 = .ub :=
  ⟨_, rfl, rfl⟩

/-- C17, refuted for bases between 11 and 36 other than 16: the formatter writes letters the parser does not read. -/
theorem C17_base36_refuted : ∃ buf, i64ToStr 35 (List.replicate 65 0) 36 = .ok buf ∧ cStrToI64 true buf 36 = .ok (0, 0) :=
  ⟨_, rfl, rfl⟩

/-- Non-vacuity: -255 in base 16 is `-FF`. -/
example : ∃ rest, i64ToStr (-255) (List.replicate 65 7) 16 = .ok (b!"-FF" ++ 0 :: rest) := ⟨_, rfl⟩
example : GoodBase 16 ∧ GoodBase 10 := ⟨.inr rfl, .inl (by omega)⟩

/-- A hexadecimal numeral with its `0x` prefix. -/
def hexText (v : Nat) : Bytes := b!"0x" ++ (D 16 v).map chr

theorem scan_hex (lt : Bool) (v : Nat) (h : v < 2^63) (rest : Bytes) :
    scan lt (hexText v ++ 0 :: rest) 16 = .ok ((v : Int), (hexText v).length) := by
  have hsc := scanDigits_spec (b := 16) (.inr rfl) rest (2^63) (fun _ h => s64_nat h) (D 16 v) 0 (D_lt (by omega) _)
    (by rw [horner_D (by omega)]; omega)
  rw [horner_D (by omega)] at hsc
  have hx : hexText v ++ 0 :: rest = 48 :: (120 :: ((D 16 v).map chr ++ 0 :: rest)) := rfl
  have hsk : skip0x lt 16 (48 :: (120 :: ((D 16 v).map chr ++ 0 :: rest))) = .ok 2 := by
    simp [skip0x, CStr.compareLen]
  rw [hx]
  unfold scan
  simp only [show ((48 : UInt8) = 45) = False from by simp, if_false, hsk, Res.ok_bind, List.drop_succ_cons, List.drop_zero]
  rw [show (0 : Int) = ((0 : Nat) : Int) from rfl, hsc]
  simp only [Res.ok_bind, hexText, List.length_append, List.length_map]
  congr 2
  simp; omega

/-- C17: base 0 means hexadecimal after a `0x` prefix (with at least one digit) and decimal otherwise; the end pointer is at the
terminator. -/
theorem C17_auto_base_hex (lt : Bool) (v : Nat) (h : v < 2^63) (rest : Bytes) :
    cStrToI64 lt (hexText v ++ 0 :: rest) 0 = .ok ((v : Int), (hexText v).length) := by
  have hnn : (0 : UInt8) ∉ hexText v := by
    unfold hexText
    simp only [List.mem_append, not_or]
    exact ⟨by decide, text_no_nul (by omega) (by omega) _⟩
  have hpos : 0 < (D 16 v).length := List.length_pos_iff.mpr (D_ne_nil 16 v)
  unfold cStrToI64
  rw [if_pos rfl]
  unfold autoBase
  rw [CStr.len_spec _ _ hnn]
  simp only [Res.ok_bind]
  rw [if_pos (by simp [hexText]; omega), show CStr.compareLen lt (hexText v ++ 0 :: rest) (b!"0x" ++ [0]) 2 = .ok 0 from by
    simp [hexText, CStr.compareLen]]
  simp only [Res.ok_bind, if_true]
  exact scan_hex lt v h rest

theorem C17_auto_base_dec (lt : Bool) (value : Int) (h1 : -(2^63) < value) (h2 : value < 2^63) (rest : Bytes) :
    cStrToI64 lt (signedText 10 value ++ 0 :: rest) 0 = .ok (value, (signedText 10 value).length) := by
  unfold cStrToI64
  rw [if_pos rfl]
  have hnn : (0 : UInt8) ∉ signedText 10 value := by
    unfold signedText
    simp only [List.mem_append, not_or]
    exact ⟨by split <;> simp, text_no_nul (by omega) (by omega) _⟩
  have hs : ((if lt = true then (-1 : Int) else 1)) ≠ 0 := by cases lt <;> simp
  have : autoBase lt (signedText 10 value ++ 0 :: rest) = .ok 10 := by
    unfold autoBase
    rw [CStr.len_spec _ _ hnn]
    simp only [Res.ok_bind]
    split
    · by_cases hneg : value < 0
      · have : CStr.compareLen lt (signedText 10 value ++ 0 :: rest) (b!"0x" ++ [0]) 2 = .ok (if lt then -1 else 1) := by
          simp only [signedText, hneg, if_true, List.cons_append, List.nil_append, CStr.compareLen]
          rw [if_pos (by decide)]
        rw [this, Res.ok_bind, if_neg hs]
      · obtain ⟨k, hk, e⟩ := not_0x lt 10 (by omega) (by omega) value.natAbs rest
        simp only [signedText, hneg, if_false, List.nil_append]
        rw [e, Res.ok_bind, if_neg hk]
    · rfl
  rw [this, Res.ok_bind]
  exact scan_text lt (.inl (by omega)) value h1 h2 rest

example : cStrToI64 true (b!"0x1F" ++ [0]) 0 = .ok (31, 4) := rfl
example : hexText 31 = b!"0x1F" := by simp [hexText, D_big, D_small]; decide

end Verif.Num
