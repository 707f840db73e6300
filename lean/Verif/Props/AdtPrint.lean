import Verif.Proof.AdtPrint
import Verif.Props.AdtNumber
/-!
# C60: numbers of a data tree are written the way they were read
-/
namespace Verif.Adt
open Verif.Fmt
open Verif.CsvWrite (fileFmt)

/-! ### Digits -/

theorem numeral_snoc (b : Nat) (u : Bytes) (c : UInt8) : numeral b (u ++ [c]) = numeral b u * b + digitVal c := by
  unfold numeral; simp

theorem numeral_pos {b : Nat} (hb : 1 ≤ b) {c : UInt8} (hc : digitVal c ≠ 0) (u : Bytes) : 0 < numeral b (c :: u) := by
  unfold numeral
  simp only [List.foldl_cons, Nat.zero_mul, Nat.zero_add]
  have : ∀ (u : Bytes) (r : Nat), 0 < r → 0 < u.foldl (fun r c => r * b + digitVal c) r := by
    intro u
    induction u with
    | nil => intro r h; exact h
    | cons x u ih => intro r h; exact ih _ (by have h2 := Nat.mul_pos h hb; simp only; omega)
  exact this u _ (by omega)

/-- Digits without a leading zero are the digits of their value. -/
theorem canon {b : Nat} (hb : 2 ≤ b) (f : Nat → UInt8) : ∀ (n : Nat) (t : Bytes), t.length = n → (∀ c ∈ t, digitVal c < b ∧ f (digitVal c) = c) → t ≠ [] →
    (t.length = 1 ∨ ∀ c, t.head? = some c → digitVal c ≠ 0) → (Num.D b (numeral b t)).map f = t
  | 0, t, hn, _, hne, _ => absurd (List.length_eq_zero_iff.mp hn) hne
  | n + 1, t, hn, h, hne, hh => by
    rcases List.eq_nil_or_concat t with rfl | ⟨u, c, rfl⟩
    · exact absurd rfl hne
    · rw [List.concat_eq_append] at hn h hh ⊢
      obtain ⟨hc1, hc2⟩ := h c (by simp)
      rw [numeral_snoc]
      by_cases hu : u = []
      · subst hu
        rw [show numeral b [] = 0 from rfl, Nat.zero_mul, Nat.zero_add, Num.D_small hc1]
        simp [hc2]
      · obtain ⟨x, xs, hx⟩ := List.exists_cons_of_ne_nil hu
        have hlead : digitVal x ≠ 0 := by
          rcases hh with hl | hl
          · rw [hx] at hl; simp at hl
          · exact hl x (by rw [hx]; rfl)
        have hpos : 0 < numeral b u := by rw [hx]; exact numeral_pos (by omega) hlead xs
        have hbig : b ≤ numeral b u * b + digitVal c := by
          have := Nat.mul_le_mul_right b hpos
          omega
        have ih := canon hb f n u (by simp at hn; omega) (fun d hd => h d (by simp [hd])) hu (.inr (by intro d hd; rw [hx] at hd; simp at hd; rw [← hd]; exact hlead))
        rw [Num.D_big hb hbig]
        have e1 : (numeral b u * b + digitVal c) / b = numeral b u := by
          rw [Nat.mul_comm, Nat.mul_add_div (by omega), Nat.div_eq_of_lt hc1, Nat.add_zero]
        have e2 : (numeral b u * b + digitVal c) % b = digitVal c := by
          rw [Nat.mul_comm, Nat.mul_add_mod, Nat.mod_eq_of_lt hc1]
        rw [e1, e2, List.map_append, ih]
        simp [hc2]

/-- No leading zero, unless it is the only digit. -/
def NoLead (t : Bytes) : Prop := t.length = 1 ∨ t.head? ≠ some 48

theorem digit_chr {c : UInt8} (h : IsDigit c) : digitVal c < 10 ∧ Num.chr (digitVal c) = c ∧ (c ≠ 48 → digitVal c ≠ 0) := by
  have hall : ∀ k : Fin 256, 48 ≤ (UInt8.ofNat k).toNat ∧ (UInt8.ofNat k).toNat ≤ 57 →
      digitVal (UInt8.ofNat k) < 10 ∧ Num.chr (digitVal (UInt8.ofNat k)) = UInt8.ofNat k ∧ (UInt8.ofNat k ≠ 48 → digitVal (UInt8.ofNat k) ≠ 0) := by decide +kernel
  have e : UInt8.ofNat c.toNat = c := by simp
  have := hall ⟨c.toNat, c.toNat_lt⟩
  simp only [e] at this
  exact this h

theorem canon10 {t : Bytes} (hne : t ≠ []) (ht : ∀ c ∈ t, IsDigit c) (hz : NoLead t) : (Num.D 10 (numeral 10 t)).map Num.chr = t := by
  refine canon (by omega) Num.chr t.length t rfl (fun c hc => ⟨(digit_chr (ht c hc)).1, (digit_chr (ht c hc)).2.1⟩) hne ?_
  rcases hz with h | h
  · exact .inl h
  · refine .inr fun c hc => (digit_chr (ht c (List.mem_of_head? hc))).2.2 ?_
    intro e; rw [hc, e] at h; exact h rfl

/-- Small letters. -/
def small (c : UInt8) : UInt8 := if 65 ≤ c.toNat ∧ c.toNat ≤ 70 then UInt8.ofNat (c.toNat + 32) else c

theorem hex_chr {c : UInt8} (h : IsHex c) : digitVal c < 16 ∧ UInt8.ofNat (if digitVal c < 10 then 48 + digitVal c else 87 + digitVal c) = small c ∧
    digitVal (small c) = digitVal c ∧ small (small c) = small c ∧ IsHex (small c) ∧ (c ≠ 48 → digitVal c ≠ 0) := by
  have hall : ∀ k : Fin 256, ((48 ≤ (UInt8.ofNat k).toNat ∧ (UInt8.ofNat k).toNat ≤ 57) ∨ (65 ≤ (UInt8.ofNat k).toNat ∧ (UInt8.ofNat k).toNat ≤ 70) ∨ (97 ≤ (UInt8.ofNat k).toNat ∧ (UInt8.ofNat k).toNat ≤ 102)) →
      digitVal (UInt8.ofNat k) < 16 ∧ UInt8.ofNat (if digitVal (UInt8.ofNat k) < 10 then 48 + digitVal (UInt8.ofNat k) else 87 + digitVal (UInt8.ofNat k)) = small (UInt8.ofNat k) ∧
      digitVal (small (UInt8.ofNat k)) = digitVal (UInt8.ofNat k) ∧ small (small (UInt8.ofNat k)) = small (UInt8.ofNat k) ∧
      ((48 ≤ (small (UInt8.ofNat k)).toNat ∧ (small (UInt8.ofNat k)).toNat ≤ 57) ∨ (65 ≤ (small (UInt8.ofNat k)).toNat ∧ (small (UInt8.ofNat k)).toNat ≤ 70) ∨ (97 ≤ (small (UInt8.ofNat k)).toNat ∧ (small (UInt8.ofNat k)).toNat ≤ 102)) ∧
      (UInt8.ofNat k ≠ 48 → digitVal (UInt8.ofNat k) ≠ 0) := by decide +kernel
  have e : UInt8.ofNat c.toNat = c := by simp
  have := hall ⟨c.toNat, c.toNat_lt⟩
  simp only [e] at this
  exact this h

theorem numeral_small (t : Bytes) (ht : ∀ c ∈ t, IsHex c) : numeral 16 (t.map small) = numeral 16 t := by
  have : ∀ (t : Bytes) (r : Nat), (∀ c ∈ t, IsHex c) → (t.map small).foldl (fun r c => r * 16 + digitVal c) r = t.foldl (fun r c => r * 16 + digitVal c) r := by
    intro t
    induction t with
    | nil => intro r _; rfl
    | cons c t ih =>
      intro r h
      simp only [List.map_cons, List.foldl_cons, (hex_chr (h c (by simp))).2.2.1]
      exact ih _ fun d hd => h d (by simp [hd])
  exact this t 0 ht

theorem canon16 {t : Bytes} (hne : t ≠ []) (ht : ∀ c ∈ t, IsHex c) (hz : NoLead t) : hexText (numeral 16 t) = t.map small := by
  unfold hexText
  rw [← numeral_small t ht]
  refine canon (by omega) _ (t.map small).length (t.map small) rfl ?_ (by simpa using hne) ?_
  · intro c hc
    obtain ⟨x, hx, rfl⟩ := List.mem_map.mp hc
    have h1 := hex_chr (ht x hx)
    have h2 := hex_chr h1.2.2.2.2.1
    exact ⟨h2.1, h2.2.1.trans h1.2.2.2.1⟩
  · rcases hz with h | h
    · left; simpa using h
    · refine .inr fun c hc => ?_
      rw [List.head?_map] at hc
      cases hh : t.head? with
      | none => rw [hh] at hc; cases hc
      | some x =>
        rw [hh] at hc h
        simp only [Option.map_some, Option.some.injEq] at hc
        have h1 := hex_chr (ht x (List.mem_of_head? hh))
        rw [← hc, h1.2.2.1]
        exact h1.2.2.2.2.2 fun e => h (by rw [e])

/-! ### Writing -/

theorem ok_lit (l : Bytes) (h : (0 : UInt8) ∉ l ∧ (37 : UInt8) ∉ l) : OkLit l := h

theorem ll_len (v : Int) (h1 : -(2 ^ 63) < v) (h2 : v < 2 ^ 63) : (Num.signedText 10 v).length ≤ 65 := by
  have := Num.signed_len (b := 10) (by omega) v h1 h2
  omega

/-- The pieces of the four formats. -/
theorem digits_decimal (F : F64) (lt : Bool) (n : Number) (ht : n.type = .integer) (hp : n.props ≠ .isHex) (h1 : -(2 ^ 63) < n.integer) (h2 : n.integer < 2 ^ 63) :
    digits F lt n = .ok (Num.signedText 10 n.integer) := by
  unfold digits
  rw [if_pos ht, if_neg hp]
  have hl := ll_len n.integer h1 h2
  have := fileFmt_pieces lt (fmt := b!"%lld") (args := [.int n.integer]) [.llong [] n.integer] rfl rfl
    (by intro p hp; simp at hp; subst hp; exact llong_runs lt (ok_lit _ (by decide)) h1 h2)
    (by simp only [pieceText, Piece.llong]; simp; unfold printfMax; omega) (by simp [pieceFmt, Piece.llong, Piece.pad, Piece.hex])
  simpa [pieceText, Piece.llong] using this

theorem digits_hex (F : F64) (lt : Bool) (n : Number) (v : Nat) (ht : n.type = .integer) (hp : n.props = .isHex) (hv : n.integer = v) (h2 : v < 2 ^ 63) :
    digits F lt n = .ok (b!"0x" ++ hexText v) := by
  unfold digits
  rw [if_pos ht, if_pos hp, hv]
  have hl := Num.D_len (b := 16) (by omega) 63 v (by omega)
  have := fileFmt_pieces lt (fmt := b!"0x%llx") (args := [.int v]) [.hex b!"0x" v] rfl rfl
    (by intro p hp; simp at hp; subst hp; exact hex_runs lt (ok_lit _ (by decide)) (by omega))
    (by simp only [pieceText, Piece.hex, hexText]; simp; unfold printfMax; omega) (by simp [pieceFmt, Piece.llong, Piece.pad, Piece.hex])
  simpa [pieceText, Piece.hex] using this

theorem digits_exp (F : F64) (lt : Bool) (n : Number) (w : Nat) (ht : n.type = .real) (hp : n.props = .isExp) (hw : n.base2Offset = w) (hw2 : w < 16)
    (h1 : -(2 ^ 63) < n.base ∧ n.base < 2 ^ 63) (h2 : -(2 ^ 63) < n.base2 ∧ n.base2 < 2 ^ 63) (h3 : -(2 ^ 63) < n.exp ∧ n.exp < 2 ^ 63) :
    digits F lt n = .ok (Num.signedText 10 n.base ++ b!"." ++ List.replicate w 48 ++ Num.signedText 10 n.base2 ++ b!"e" ++ Num.signedText 10 n.exp) := by
  have l1 := ll_len _ h1.1 h1.2
  have l2 := ll_len _ h2.1 h2.2
  have l3 := ll_len _ h3.1 h3.2
  have := fileFmt_pieces lt (fmt := b!"%lld.%0*d%llde%lld") (args := [.int n.base, .int w, .int 0, .int n.base2, .int n.exp])
    [.llong [] n.base, .pad b!"." w, .llong [] n.base2, .llong b!"e" n.exp] rfl rfl
    (by
      intro p hp
      simp only [List.mem_cons, List.not_mem_nil, or_false] at hp
      rcases hp with rfl | rfl | rfl | rfl
      · exact llong_runs lt (ok_lit _ (by decide)) h1.1 h1.2
      · exact pad_runs lt (ok_lit _ (by decide)) (by omega)
      · exact llong_runs lt (ok_lit _ (by decide)) h2.1 h2.2
      · exact llong_runs lt (ok_lit _ (by decide)) h3.1 h3.2)
    (by simp only [pieceText, Piece.llong, Piece.pad]; simp; unfold printfMax; omega) (by simp [pieceFmt, Piece.llong, Piece.pad, Piece.hex])
  unfold digits
  rw [if_neg (by rw [ht]; decide), hp]
  simp only [hw]
  rw [this]
  simp [pieceText, Piece.llong, Piece.pad]

theorem digits_point (F : F64) (lt : Bool) (n : Number) (w : Nat) (ht : n.type = .real) (hp : n.props = .isParsedReal) (hd : n.leadDigit = false)
    (hw : n.base2Offset = w) (hw2 : w < 16) (h2 : -(2 ^ 63) < n.base2 ∧ n.base2 < 2 ^ 63) :
    digits F lt n = .ok (b!"." ++ List.replicate w 48 ++ Num.signedText 10 n.base2) := by
  have l2 := ll_len _ h2.1 h2.2
  have := fileFmt_pieces lt (fmt := b!".%0*d%lld") (args := [.int w, .int 0, .int n.base2])
    [.pad b!"." w, .llong [] n.base2] rfl rfl
    (by
      intro p hp
      simp only [List.mem_cons, List.not_mem_nil, or_false] at hp
      rcases hp with rfl | rfl
      · exact pad_runs lt (ok_lit _ (by decide)) (by omega)
      · exact llong_runs lt (ok_lit _ (by decide)) h2.1 h2.2)
    (by simp only [pieceText, Piece.llong, Piece.pad]; simp; unfold printfMax; omega) (by simp [pieceFmt, Piece.llong, Piece.pad, Piece.hex])
  unfold digits
  rw [if_neg (by rw [ht]; decide), hp]
  simp only [hw, hd]
  rw [if_pos (by rfl), this]
  simp [pieceText, Piece.llong, Piece.pad]

/-! ### Round trips -/

/-- The sign the library writes: a `+` is dropped. -/
def Sign.written : Sign → Bytes
  | .minus => b!"-"
  | _ => []

/-- A signed value and the mark for a negative zero are written as the sign and the digits of the value. -/
theorem sign_written (sg : Sign) (v : Nat) : (if decide (sg = .minus ∧ v = 0) = true then b!"-" else []) ++ Num.signedText 10 (sg.apply v) =
    sg.written ++ (Num.D 10 v).map Num.chr := by
  have hu : Num.signedText 10 (v : Int) = (Num.D 10 v).map Num.chr := by
    unfold Num.signedText
    rw [if_neg (by omega)]
    simp
  have hm : v ≠ 0 → Num.signedText 10 (-(v : Int)) = b!"-" ++ (Num.D 10 v).map Num.chr := by
    intro h
    unfold Num.signedText
    rw [if_pos (by omega)]
    simp
  cases sg with
  | none => exact hu
  | plus => exact hu
  | minus =>
    show _ ++ Num.signedText 10 (-(v : Int)) = _
    by_cases h : v = 0
    · subst h
      exact congrArg (b!"-" ++ ·) hu
    · rw [if_neg (by simp [h]), hm h]
      rfl

theorem unsigned_text (v : Nat) : Num.signedText 10 (v : Int) = (Num.D 10 v).map Num.chr := by
  unfold Num.signedText
  rw [if_neg (by omega)]
  simp

theorem apply_bounds (sg : Sign) {v k : Nat} (h : v < 2 ^ k) (hk : k ≤ 63) : -(2 ^ 63) < sg.apply v ∧ sg.apply v < 2 ^ 63 := by
  have : 2 ^ k ≤ 2 ^ 63 := Nat.pow_le_pow_right (by omega) hk
  cases sg <;> simp only [Sign.apply] <;> omega

theorem sign_flat (n : Number) (d : Bytes) : (sign n ++ [d]).flatten = (if n.negZero = true then b!"-" else []) ++ d := by
  unfold sign
  cases n.negZero <;> simp

theorem printed {F : F64} {lt : Bool} {n : Number} {d : Bytes} (ht : n.type = .integer ∨ n.type = .real) (h : digits F lt n = .ok d) :
    printNumber F lt n = .ok (some (sign n ++ [d])) := by
  unfold printNumber
  rw [if_pos ht, h, Res.ok_bind]

/-- C60: a decimal integer without superfluous zeros is written as it was read; a plus in front is dropped, a minus in front of a zero is kept. -/
theorem C60_decimal_round_trip (F : F64) (lt : Bool) (sg : Sign) (t : Bytes) (d : UInt8) (rest : Bytes) (n : Number) (hne : t ≠ []) (ht : ∀ c ∈ t, IsDigit c)
    (hz : NoLead t) (hd : Ends d) (hv : numeral 10 t < 2 ^ 63) (hl : t.length ≤ 46) :
    ∃ n' ps, parseNumber F lt (sg.text ++ (t ++ d :: rest)) n = .ok ((sg.text ++ t).length, n') ∧ printNumber F lt n' = .ok (some ps) ∧ ps.flatten = sg.written ++ t := by
  refine ⟨_, _, C60_decimal F lt sg t d rest n hne ht hd hl hv, printed (.inl rfl) (digits_decimal F lt _ rfl (by simp) (apply_bounds sg hv (Nat.le_refl _)).1 (apply_bounds sg hv (Nat.le_refl _)).2), ?_⟩
  · rw [sign_flat]
    simp only
    rw [sign_written, canon10 hne ht hz]

/-- C60: a hexadecimal number without superfluous zeros is written as it was read, with small letters. -/
theorem C60_hexadecimal_round_trip (F : F64) (lt : Bool) (plus : Bool) (t : Bytes) (d : UInt8) (rest : Bytes) (n : Number) (hne : t ≠ []) (ht : ∀ c ∈ t, IsHex c)
    (hz : NoLead t) (hd : Ends d) (hv : numeral 16 t < 2 ^ 63) (hl : t.length ≤ 45) :
    ∃ n' ps, parseNumber F lt ((if plus then b!"+" else []) ++ (b!"0x" ++ t ++ d :: rest)) n = .ok ((if plus then 1 else 0) + (t.length + 2), n') ∧
      printNumber F lt n' = .ok (some ps) ∧ ps.flatten = b!"0x" ++ t.map small := by
  refine ⟨_, _, C60_hexadecimal F lt plus t d rest n hne ht hd hl hv, printed (.inl rfl) (digits_hex F lt _ (numeral 16 t) rfl rfl rfl hv), ?_⟩
  · rw [sign_flat]
    simp only
    rw [canon16 hne ht hz]
    rfl

/-- Leading zeros and the digits behind them. -/
theorem frac_text : ∀ (fs : Bytes), (∀ c ∈ fs, IsDigit c) → (∃ c ∈ fs, c ≠ 48) →
    List.replicate (leadZeros fs) 48 ++ (Num.D 10 (numeral 10 fs)).map Num.chr = fs
  | [], _, h => by obtain ⟨c, hc, _⟩ := h; cases hc
  | c :: cs, hd, h => by
    by_cases hc : c = 48
    · subst hc
      have h' : ∃ c ∈ cs, c ≠ 48 := by
        obtain ⟨x, hx, hx2⟩ := h
        rcases List.mem_cons.mp hx with rfl | hx
        · exact absurd rfl hx2
        · exact ⟨x, hx, hx2⟩
      have ih := frac_text cs (fun x hx => hd x (by simp [hx])) h'
      have e1 : leadZeros (48 :: cs) = leadZeros cs + 1 := by simp [leadZeros]
      have e2 : numeral 10 (48 :: cs) = numeral 10 cs := by
        unfold numeral
        simp only [List.foldl_cons]
        rfl
      rw [e1, e2, List.replicate_succ, List.cons_append, ih]
    · have e1 : leadZeros (c :: cs) = 0 := by simp [leadZeros, hc]
      rw [e1, canon10 (by simp) hd (.inr (by simp [hc]))]
      rfl

theorem signed_exp (neg : Bool) (v : Nat) (hv : v ≠ 0) : Num.signedText 10 (if neg then -(v : Int) else v) = (if neg then b!"-" else []) ++ (Num.D 10 v).map Num.chr := by
  unfold Num.signedText
  cases neg
  · simp only [Bool.false_eq_true, if_false]
    rw [if_neg (by omega)]
    simp
  · simp only [if_true]
    rw [if_pos (by omega)]
    simp

/-- C60: a number with digits on both sides of its point and an exponent from 1 to 7 or -7 to -1 is written as it was read, but for a plus. -/
theorem C60_exponent_round_trip (F : F64) (lt : Bool) (sg : Sign) (i fs ks : Bytes) (upper : Bool) (es : Sign) (d : UInt8) (rest : Bytes) (n : Number)
    (hin : i ≠ []) (hi : ∀ c ∈ i, IsDigit c) (hiz : NoLead i) (hf : ∀ c ∈ fs, IsDigit c) (hfz : ∃ c ∈ fs, c ≠ 48) (hkn : ks ≠ []) (hk : ∀ c ∈ ks, IsDigit c) (hkz : NoLead ks)
    (hkl : ks.length ≤ 5) (hkv : 1 ≤ numeral 10 ks ∧ numeral 10 ks < 8) (hd : ¬ IsDigit d ∧ d ≠ 46) (hd2 : d ≠ 101 ∧ d ≠ 69) (hl : i.length + fs.length ≤ 45)
    (hvi : numeral 10 i < 2 ^ 31) (hvf : numeral 10 fs < 2 ^ 31) (hz : leadZeros fs < 16) :
    ∃ n' ps, parseNumber F lt (sg.text ++ i ++ b!"." ++ fs ++ ((if upper then b!"E" else b!"e") ++ es.text ++ ks) ++ d :: rest) n =
        .ok ((sg.text ++ i ++ b!"." ++ fs ++ ((if upper then b!"E" else b!"e") ++ es.text ++ ks)).length, n') ∧
      printNumber F lt n' = .ok (some ps) ∧ ps.flatten = sg.written ++ i ++ b!"." ++ fs ++ b!"e" ++ es.written ++ ks := by
  have hfn : fs ≠ [] := by obtain ⟨c, hc, _⟩ := hfz; intro e; rw [e] at hc; cases hc
  have hx : (Expo.some upper es ks).Ok := ⟨hkn, hk, hkl, hkv.2⟩
  have htx : (if upper then b!"E" else b!"e") ++ es.text ++ ks = (Expo.some upper es ks).text := by cases upper <;> simp [Expo.text]
  have hval : (Expo.some upper es ks).value = numeral 10 ks := rfl
  obtain ⟨m, k, hm, hml, hp⟩ := C60_real F lt sg i fs (.some upper es ks) d rest n hin hi hfn hf hx hd hd2 hl hvi hvf hz
  rw [htx]
  refine ⟨_, _, hp, printed (.inr rfl) (digits_exp F lt _ (leadZeros fs) rfl (by rw [hval]; exact if_pos (by omega)) rfl hz (apply_bounds sg hvi (by omega)) (by constructor <;> simp only <;> omega)
      (by rw [hval]; constructor <;> simp only <;> split <;> omega)), ?_⟩
  · rw [sign_flat]
    simp only [hval]
    rw [signed_exp _ _ (by omega), unsigned_text, canon10 hkn hk hkz]
    have h1 := sign_written sg (numeral 10 i)
    rw [canon10 hin hi hiz] at h1
    have h2 := frac_text fs hf hfz
    have h3 : (if (Expo.some upper es ks).neg = true then b!"-" else []) = es.written := by cases es <;> rfl
    rw [h3]
    simp only [List.append_assoc] at h1 h2 ⊢
    rw [← List.append_assoc, h1, ← List.append_assoc (List.replicate _ _), h2]
    simp only [List.append_assoc]

/-- C60: a number that starts with its point is written as it was read, but for a plus. -/
theorem C60_point_round_trip (F : F64) (lt : Bool) (sg : Sign) (fs : Bytes) (d : UInt8) (rest : Bytes) (n : Number)
    (hf : ∀ c ∈ fs, IsDigit c) (hfz : ∃ c ∈ fs, c ≠ 48) (hd : ¬ IsDigit d ∧ d ≠ 46) (hd2 : d ≠ 101 ∧ d ≠ 69) (hl : fs.length ≤ 44)
    (hvf : numeral 10 fs < 2 ^ 31) (hz : leadZeros fs < 16) :
    ∃ n' ps, parseNumber F lt (sg.text ++ b!"." ++ fs ++ d :: rest) n = .ok ((sg.text ++ b!"." ++ fs).length, n') ∧
      printNumber F lt n' = .ok (some ps) ∧ ps.flatten = sg.written ++ b!"." ++ fs := by
  have hfn : fs ≠ [] := by obtain ⟨c, hc, _⟩ := hfz; intro e; rw [e] at hc; cases hc
  obtain ⟨m, k, hm, hml, hp⟩ := C60_point F lt sg fs .none d rest n hfn hf trivial hd hd2 hl hvf hz
  simp only [Expo.text, List.append_nil] at hp
  refine ⟨_, _, hp, printed (.inr rfl) (digits_point F lt _ (leadZeros fs) rfl rfl rfl rfl hz (by constructor <;> simp only <;> omega)), ?_⟩
  · rw [sign_flat]
    simp only
    rw [unsigned_text]
    have h2 := frac_text fs hf hfz
    simp only [List.append_assoc] at h2 ⊢
    rw [h2]
    cases sg <;> rfl

end Verif.Adt
