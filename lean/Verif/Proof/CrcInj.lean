import Verif.Proof.Crc
namespace Verif.Crc

/-- Feeding the low `k` bits of `c`, least significant first, one at a time. -/
def feed {n : Nat} (p : BitVec n) : BitVec n → List Bool → BitVec n
  | r, [] => r
  | r, b :: bs => feed p (if r.getLsbD 0 != b then (r >>> 1) ^^^ p else r >>> 1) bs

theorem bitStep_bit {n} (hn : 0 < n) (p r : BitVec n) (b : Bool) :
    bitStep p (r ^^^ (BitVec.ofBool b).setWidth n) = if r.getLsbD 0 != b then (r >>> 1) ^^^ p else r >>> 1 := by
  have h1 : (r ^^^ (BitVec.ofBool b).setWidth n).getLsbD 0 = (r.getLsbD 0 != b) := by
    rw [BitVec.getLsbD_xor, BitVec.getLsbD_setWidth, BitVec.getLsbD_ofBool]
    simp [hn]
  have h2 : (r ^^^ (BitVec.ofBool b).setWidth n) >>> 1 = r >>> 1 := by
    rw [BitVec.ushiftRight_xor_distrib]
    have : ((BitVec.ofBool b).setWidth n) >>> 1 = 0#n := by
      apply BitVec.eq_of_getLsbD_eq
      intro i hi
      simp [BitVec.getLsbD_ushiftRight, BitVec.getLsbD_setWidth, BitVec.getLsbD_ofBool]
    rw [this, BitVec.xor_zero]
  unfold bitStep
  rw [h1, h2]

theorem feed_eq {n} (hn : 0 < n) (p : BitVec n) (k : Nat) (r c : BitVec n) (hc : ∀ i, k ≤ i → c.getLsbD i = false) :
    bitSteps p k (r ^^^ c) = feed p r ((List.range k).map fun i => c.getLsbD i) := by
  induction k generalizing r c with
  | zero =>
    have : c = 0#n := by
      apply BitVec.eq_of_getLsbD_eq; intro i _; rw [hc i (by omega)]; simp
    simp [bitSteps, feed, this]
  | succ k ih =>
    let b : BitVec n := (BitVec.ofBool (c.getLsbD 0)).setWidth n
    have hb : ∀ i, b.getLsbD i = (decide (i = 0) && c.getLsbD 0) := by
      intro i
      show ((BitVec.ofBool (c.getLsbD 0)).setWidth n).getLsbD i = _
      rw [BitVec.getLsbD_setWidth, BitVec.getLsbD_ofBool]
      by_cases h : i = 0
      · subst h; simp [hn]
      · simp [h]
    have hsplit : r ^^^ c = (r ^^^ b) ^^^ (c ^^^ b) := by
      apply BitVec.eq_of_getLsbD_eq; intro i _
      simp only [BitVec.getLsbD_xor]
      cases r.getLsbD i <;> cases c.getLsbD i <;> cases b.getLsbD i <;> rfl
    have hcb0 : (c ^^^ b).getLsbD 0 = false := by
      rw [BitVec.getLsbD_xor, hb]; simp
    have hcb : bitStep p (c ^^^ b) = c >>> 1 := by
      unfold bitStep
      rw [hcb0]
      simp only [Bool.false_eq_true, if_false]
      apply BitVec.eq_of_getLsbD_eq; intro i _
      simp only [BitVec.getLsbD_ushiftRight, BitVec.getLsbD_xor, hb]
      simp
    simp only [bitSteps]
    rw [hsplit, bitStep_xor, hcb, bitStep_bit hn, ih]
    · rw [List.range_succ_eq_map]
      simp only [List.map_cons, List.map_map, feed]
      congr 1
      apply List.map_congr_left
      intro i _
      simp [BitVec.getLsbD_ushiftRight, Nat.add_comm]
    · intro i hi
      rw [BitVec.getLsbD_ushiftRight]; exact hc _ (by omega)

theorem byte_feed {n} (hn : 8 ≤ n) (p r : BitVec n) (c : BitVec 8) :
    bitSteps p 8 (r ^^^ c.setWidth n) = feed p r ((List.range 8).map fun i => c.getLsbD i) := by
  rw [feed_eq (by omega)]
  · congr 1
    apply List.map_congr_left
    intro i hi
    have : i < 8 := by simpa using hi
    rw [BitVec.getLsbD_setWidth]; simp; omega
  · intro i hi
    rw [BitVec.getLsbD_setWidth, BitVec.getLsbD_of_ge c i hi]; simp

theorem feed_append {n} (p r : BitVec n) (a b : List Bool) : feed p r (a ++ b) = feed p (feed p r a) b := by
  induction a generalizing r with
  | nil => rfl
  | cons x xs ih => simp [feed, ih]

/-! ## Injectivity -/

theorem bitStep_zero_inj {n} (p x : BitVec n) (hp : p.msb = true) (h : bitStep p x = 0#n) : x = 0#n := by
  have hn : 0 < n := by
    rcases Nat.eq_zero_or_pos n with h0 | h0
    · subst h0; simp [BitVec.msb, BitVec.getMsbD] at hp
    · exact h0
  unfold bitStep at h
  split at h
  · rename_i h0
    have : (x >>> 1 ^^^ p).getLsbD (n-1) = false := by rw [h]; simp
    rw [BitVec.getLsbD_xor, BitVec.getLsbD_ushiftRight, BitVec.getLsbD_of_ge x _ (by omega)] at this
    rw [BitVec.msb_eq_getLsbD_last] at hp
    simp [hp] at this
  · rename_i h0
    apply BitVec.eq_of_getLsbD_eq
    intro i hi
    cases i with
    | zero => simpa using h0
    | succ i =>
      have : (x >>> 1).getLsbD i = false := by rw [h]; simp
      rw [BitVec.getLsbD_ushiftRight, Nat.add_comm] at this
      rw [this]; simp

theorem bitSteps_zero_inj {n} (p : BitVec n) (hp : p.msb = true) (k : Nat) (x : BitVec n) (h : bitSteps p k x = 0#n) :
    x = 0#n := by
  induction k generalizing x with
  | zero => exact h
  | succ k ih => exact bitStep_zero_inj p x hp (ih _ h)

theorem bitSteps_inj {n} (p : BitVec n) (hp : p.msb = true) (k : Nat) (x y : BitVec n)
    (h : bitSteps p k x = bitSteps p k y) : x = y := by
  have : bitSteps p k (x ^^^ y) = 0#n := by rw [bitSteps_xor, h, BitVec.xor_self]
  have := bitSteps_zero_inj p hp k _ this
  exact (BitVec.xor_eq_zero_iff).mp this

theorem step32_inj (r r' : BitVec 32) (c : UInt8) (h : step32 r c = step32 r' c) : r = r' := by
  rw [step32_eq, step32_eq] at h
  have := bitSteps_inj _ (by decide) _ _ _ h
  have h2 := congrArg (· ^^^ c.toBitVec.setWidth 32) this
  simpa [BitVec.xor_assoc] using h2

theorem foldl_inj (s : Bytes) (r r' : BitVec 32) (h : s.foldl step32 r = s.foldl step32 r') : r = r' := by
  induction s generalizing r r' with
  | nil => exact h
  | cons c s ih => exact step32_inj _ _ c (ih _ _ h)

/-- The state difference after feeding two strings is the fold of the byte differences from 0. -/
def lstep (r : BitVec 32) (e : BitVec 8) : BitVec 32 := bitSteps 0xEDB88320#32 8 (r ^^^ e.setWidth 32)

theorem lstep_back (r : BitVec 32) (e : BitVec 8) (y : BitVec 32) (hy : ∀ i, 24 ≤ i → y.getLsbD i = false)
    (h : lstep r e = y) : r ^^^ e.setWidth 32 = y <<< 8 := by
  apply bitSteps_inj 0xEDB88320#32 (by decide) 8
  unfold lstep at h
  rw [h, bitSteps_high]
  · apply BitVec.eq_of_getLsbD_eq
    intro i hi
    rw [BitVec.getLsbD_ushiftRight, BitVec.getLsbD_shiftLeft]
    by_cases h24 : i < 24
    · simp; omega
    · rw [hy i (by omega)]; simp; omega
  · intro i hi
    rw [BitVec.getLsbD_shiftLeft]; simp [hi]

theorem lstep_diff (r r' : BitVec 32) (c c' : UInt8) :
    step32 r c ^^^ step32 r' c' = lstep (r ^^^ r') (c.toBitVec ^^^ c'.toBitVec) := by
  rw [step32_eq, step32_eq, ← bitSteps_xor, lstep, BitVec.setWidth_xor]
  congr 1
  apply BitVec.eq_of_getLsbD_eq; intro i _
  simp only [BitVec.getLsbD_xor]
  cases r.getLsbD i <;> cases r'.getLsbD i <;> cases (c.toBitVec.setWidth 32).getLsbD i <;>
    cases (c'.toBitVec.setWidth 32).getLsbD i <;> rfl

/-- Feeding at most four byte differences (last first in `rs`) from a zero state and ending in a state below
`2^(32-8k)` forces them all to be zero. -/
theorem ldiff_zero (rs : List (BitVec 8)) (hk : rs.length ≤ 4) (y : BitVec 32)
    (hy : ∀ i, 32 - 8 * rs.length ≤ i → y.getLsbD i = false)
    (h : rs.foldr (fun e r => lstep r e) 0#32 = y) : (∀ e ∈ rs, e = 0#8) ∧ y = 0#32 := by
  induction rs generalizing y with
  | nil => simp_all
  | cons e rs ih =>
    simp only [List.length_cons] at hk hy
    simp only [List.foldr_cons] at h
    have hb := lstep_back _ _ _ (fun i hi => hy i (by omega)) h
    have hr : rs.foldr (fun e r => lstep r e) 0#32 = y <<< 8 ^^^ e.setWidth 32 := by
      rw [← hb, BitVec.xor_assoc, BitVec.xor_self, BitVec.xor_zero]
    have := ih (by omega) (y <<< 8 ^^^ e.setWidth 32) (by
      intro i hi
      rw [BitVec.getLsbD_xor, BitVec.getLsbD_shiftLeft, BitVec.getLsbD_setWidth,
        BitVec.getLsbD_of_ge e i (by omega), hy (i-8) (by omega)]
      simp) hr
    have hxe := BitVec.xor_eq_zero_iff.mp this.2
    have he : e = 0#8 := by
      apply BitVec.eq_of_getLsbD_eq
      intro i hi
      have h1 : (e.setWidth 32).getLsbD i = e.getLsbD i := by
        rw [BitVec.getLsbD_setWidth]; simp; omega
      rw [← h1, ← hxe, BitVec.getLsbD_shiftLeft]; simp [hi]
    refine ⟨?_, ?_⟩
    · intro x hx
      rcases List.mem_cons.mp hx with rfl | hx
      · exact he
      · exact this.1 x hx
    · apply BitVec.eq_of_getLsbD_eq
      intro i hi
      by_cases h24 : i < 24
      · have h1 : (y <<< 8).getLsbD (i+8) = y.getLsbD i := by
          rw [BitVec.getLsbD_shiftLeft]; simp; omega
        rw [← h1, hxe, he]; simp
      · rw [hy i (by omega)]; simp

theorem foldl_diff (w w' : Bytes) (hl : w.length = w'.length) (r r' : BitVec 32) :
    w.foldl step32 r ^^^ w'.foldl step32 r' =
      (List.zipWith (fun a b : UInt8 => a.toBitVec ^^^ b.toBitVec) w w').foldl lstep (r ^^^ r') := by
  induction w generalizing w' r r' with
  | nil => cases w' <;> simp_all
  | cons c w ih =>
    cases w' with
    | nil => simp at hl
    | cons c' w' =>
      simp only [List.foldl_cons, List.zipWith_cons_cons]
      rw [ih _ (by simpa using hl), lstep_diff]

theorem zip_zero (w w' : Bytes) (hl : w.length = w'.length)
    (h : ∀ e ∈ List.zipWith (fun a b : UInt8 => a.toBitVec ^^^ b.toBitVec) w w', e = 0#8) : w = w' := by
  induction w generalizing w' with
  | nil => cases w' <;> simp_all
  | cons c w ih =>
    cases w' with
    | nil => simp at hl
    | cons c' w' =>
      simp only [List.zipWith_cons_cons, List.mem_cons, forall_eq_or_imp] at h
      have h1 := BitVec.xor_eq_zero_iff.mp h.1
      rw [ih w' (by simpa using hl) h.2, UInt8.toBitVec_inj.mp h1]

theorem window_inj (w w' : Bytes) (hl : w.length = w'.length) (h4 : w.length ≤ 4) (r : BitVec 32)
    (h : w.foldl step32 r = w'.foldl step32 r) : w = w' := by
  have hd := foldl_diff w w' hl r r
  rw [h, BitVec.xor_self, BitVec.xor_self] at hd
  have := ldiff_zero ((List.zipWith (fun a b : UInt8 => a.toBitVec ^^^ b.toBitVec) w w').reverse)
    (by simp; omega) 0#32 (by intros; simp) (by rw [List.foldr_reverse]; exact hd.symm)
  exact zip_zero w w' hl (fun e he => this.1 e (List.mem_reverse.mpr he))

end Verif.Crc
