import Verif.Model.Mem
/-! Helper lemmas for the alignment functions. -/
namespace Verif

theorem and_half (a b : Nat) : (a &&& b) / 2 = (a / 2) &&& (b / 2) := by
  have := Nat.shiftRight_and_distrib (a := a) (b := b) (i := 1)
  simpa [Nat.shiftRight_eq_div_pow] using this

theorem isPowerOfTwo_iff (x : Nat) : isPowerOfTwo x = true ↔ ∃ k, x = 2^k := by
  constructor
  · induction x using Nat.strongRecOn with
    | ind x ih =>
      intro h
      unfold isPowerOfTwo at h
      by_cases h0 : x = 0
      · simp [h0] at h
      rw [if_neg h0] at h
      have h : x &&& (x-1) = 0 := by simpa using h
      by_cases h1 : x = 1
      · exact ⟨0, h1⟩
      by_cases ho : x % 2 = 1
      · exfalso
        have : (x &&& (x-1)) / 2 = x / 2 := by
          rw [and_half]
          have : (x-1)/2 = x/2 := by omega
          rw [this, Nat.and_self]
        rw [h] at this
        omega
      · have hx : x = 2 * (x/2) := by omega
        have h2 : isPowerOfTwo (x/2) = true := by
          unfold isPowerOfTwo
          rw [if_neg (by omega)]
          have : (x &&& (x-1)) / 2 = x/2 &&& (x/2 - 1) := by
            rw [and_half]
            have : (x-1)/2 = x/2 - 1 := by omega
            rw [this]
          rw [h] at this
          simp [← this]
        obtain ⟨k, hk⟩ := ih (x/2) (by omega) h2
        exact ⟨k+1, by rw [Nat.pow_succ]; omega⟩
  · rintro ⟨k, rfl⟩
    unfold isPowerOfTwo
    have : 0 < 2^k := Nat.pow_pos (by decide)
    rw [if_neg (by omega)]
    rw [Nat.and_two_pow_sub_one_eq_mod, Nat.mod_self]
    rfl

/-- The masked sum, as arithmetic. -/
theorem alignForward_toNat (p : BitVec 64) (k : Nat) (hk : k < 64) (hp : p.toNat + 2^k ≤ 2^64) :
    alignForward p (2^k) = some (BitVec.ofNat 64 ((p.toNat + (2^k - 1)) / 2^k * 2^k)) := by
  unfold alignForward
  have hpos : 0 < 2^k := Nat.pow_pos (by decide)
  rw [if_pos ((isPowerOfTwo_iff _).mpr ⟨k, rfl⟩)]
  congr 1
  have hlt : 2^k < 2^64 := Nat.pow_lt_pow_right (by decide) hk
  have hm : (BitVec.ofNat 64 (2^k) - 1#64).toNat = 2^k - 1 := by
    rw [BitVec.toNat_sub]
    simp only [BitVec.toNat_ofNat]
    rw [Nat.mod_eq_of_lt hlt]
    omega
  generalize hM : BitVec.ofNat 64 (2^k) - 1#64 = M at hm
  have hsum : (p + M).toNat = p.toNat + (2^k - 1) := by
    rw [BitVec.toNat_add, hm, Nat.mod_eq_of_lt (by omega)]
  apply BitVec.eq_of_getLsbD_eq
  intro i hi
  rw [BitVec.getLsbD_and, BitVec.getLsbD_not]
  simp only [BitVec.getLsbD, hsum, hm, BitVec.toNat_ofNat]
  have hle : (p.toNat + (2^k-1)) / 2^k * 2^k < 2^64 := by
    have := Nat.div_mul_le_self (p.toNat + (2^k-1)) (2^k)
    omega
  rw [Nat.mod_eq_of_lt hle, Nat.testBit_mul_two_pow, Nat.testBit_div_two_pow, Nat.testBit_two_pow_sub_one]
  simp only [hi, decide_true, Bool.true_and]
  by_cases hik : k ≤ i
  · have h1 : ¬ i < k := by omega
    have h2 : i - k + k = i := by omega
    simp [hik, h1, h2]
  · have h1 : i < k := by omega
    simp [hik, h1]

theorem alignForwardS64_spec (v a : Nat) (ha : 0 < a) :
    v ≤ alignForwardS64 v a ∧ alignForwardS64 v a % a = 0 ∧ alignForwardS64 v a < v + a := by
  unfold alignForwardS64
  have h1 : v % a < a := Nat.mod_lt _ ha
  refine ⟨by omega, ?_, by have := Nat.mod_lt (a - v % a) ha; omega⟩
  by_cases h0 : v % a = 0
  · rw [h0, Nat.sub_zero, Nat.mod_self, Nat.add_zero, h0]
  · rw [Nat.mod_eq_of_lt (by omega : a - v % a < a)]
    have h2 : v + (a - v % a) = a * (v / a) + a := by
      have := Nat.div_add_mod v a
      omega
    rw [h2, Nat.add_mod_right, Nat.mul_mod_right]
end Verif
