import Verif.Model.Crc
namespace Verif.Crc

/-- One bit of a reflected CRC division step with polynomial `p`. -/
def bitStep {n : Nat} (p x : BitVec n) : BitVec n :=
  if x.getLsbD 0 then (x >>> 1) ^^^ p else x >>> 1

/-- `k` bits. -/
def bitSteps {n : Nat} (p : BitVec n) : Nat → BitVec n → BitVec n
  | 0, x => x
  | k+1, x => bitSteps p k (bitStep p x)

theorem bitStep_xor {n} (p x y : BitVec n) : bitStep p (x ^^^ y) = bitStep p x ^^^ bitStep p y := by
  unfold bitStep
  rw [BitVec.getLsbD_xor]
  cases x.getLsbD 0 <;> cases y.getLsbD 0 <;> simp only [Bool.xor_false, Bool.xor_true, Bool.not_false, Bool.not_true,
    if_true, if_false, BitVec.ushiftRight_xor_distrib, Bool.false_eq_true]
  · rw [BitVec.xor_assoc]
  · rw [BitVec.xor_assoc, BitVec.xor_assoc, BitVec.xor_comm p]
  · rw [BitVec.xor_assoc, BitVec.xor_comm p, BitVec.xor_assoc, BitVec.xor_self, BitVec.xor_zero]

theorem bitSteps_xor {n} (p : BitVec n) (k : Nat) (x y : BitVec n) :
    bitSteps p k (x ^^^ y) = bitSteps p k x ^^^ bitSteps p k y := by
  induction k generalizing x y with
  | zero => rfl
  | succ k ih => simp only [bitSteps, bitStep_xor, ih]

theorem bitSteps_high {n} (p x : BitVec n) (k : Nat) (h : ∀ i, i < k → x.getLsbD i = false) :
    bitSteps p k x = x >>> k := by
  induction k generalizing x with
  | zero => simp [bitSteps]
  | succ k ih =>
    have h0 := h 0 (by omega)
    simp only [bitSteps, bitStep, h0, Bool.false_eq_true, if_false]
    rw [ih]
    · rw [BitVec.shiftRight_add]
      rw [← BitVec.shiftRight_add, ← BitVec.shiftRight_add, Nat.add_comm]
    · intro i hi
      rw [BitVec.getLsbD_ushiftRight]
      exact h _ (by omega)

theorem getLsbD_ff {n} (hn : 8 ≤ n) (i : Nat) : (BitVec.ofNat n 0xff).getLsbD i = decide (i < 8) := by
  rw [BitVec.getLsbD_ofNat]
  have h : (0xff : Nat) = 2 ^ 8 - 1 := rfl
  rw [h, Nat.testBit_two_pow_sub_one]
  by_cases hi : i < 8
  · simp [hi]; omega
  · simp [hi]

theorem split8 {n} (hn : 8 ≤ n) (p x : BitVec n) :
    bitSteps p 8 x = bitSteps p 8 (x &&& BitVec.ofNat n 0xff) ^^^ (x >>> 8) := by
  have hx : x = (x &&& BitVec.ofNat n 0xff) ^^^ (x &&& ~~~ BitVec.ofNat n 0xff) := by
    apply BitVec.eq_of_getLsbD_eq
    intro i hi
    simp only [BitVec.getLsbD_xor, BitVec.getLsbD_and, BitVec.getLsbD_not, getLsbD_ff hn, hi, decide_true, Bool.true_and]
    cases x.getLsbD i <;> cases decide (i < 8) <;> rfl
  have hh : bitSteps p 8 (x &&& ~~~ BitVec.ofNat n 0xff) = x >>> 8 := by
    rw [bitSteps_high]
    · apply BitVec.eq_of_getLsbD_eq
      intro i hi
      simp only [BitVec.getLsbD_ushiftRight, BitVec.getLsbD_and, BitVec.getLsbD_not, getLsbD_ff hn]
      by_cases h : 8 + i < n
      · simp [h]
      · simp [BitVec.getLsbD_of_ge x (8+i) (by omega)]
    · intro i hi
      simp [BitVec.getLsbD_and, BitVec.getLsbD_not, getLsbD_ff hn, hi]
  conv => lhs; rw [hx]
  rw [bitSteps_xor, hh]

theorem byte_shift {n} (c : BitVec 8) : (c.setWidth n) >>> 8 = 0#n := by
  apply BitVec.eq_of_getLsbD_eq
  intro i hi
  simp only [BitVec.getLsbD_ushiftRight, BitVec.getLsbD_setWidth, BitVec.getLsbD_zero]
  rw [BitVec.getLsbD_of_ge c (8+i) (by omega)]; simp

theorem and_ff_toNat {n} (x : BitVec n) (hn : 8 ≤ n) : (x &&& BitVec.ofNat n 0xff).toNat < 256 := by
  rw [BitVec.toNat_and, BitVec.toNat_ofNat]
  have h2 : (2:Nat)^8 ≤ 2^n := Nat.pow_le_pow_right (by omega) hn
  rw [Nat.mod_eq_of_lt (by omega)]
  exact Nat.lt_of_le_of_lt Nat.and_le_right (by omega)

set_option maxRecDepth 20000 in
theorem table32_ok : ∀ i : Fin 256, table32.getD i.val 0 = bitSteps 0xEDB88320#32 8 (BitVec.ofNat 32 i.val) := by
  decide +kernel

set_option maxRecDepth 20000 in
theorem table64_ok : ∀ i : Fin 256, table64.getD i.val 0 = bitSteps 0x95AC9329AC4BC9B5#64 8 (BitVec.ofNat 64 i.val) := by
  decide +kernel

theorem step32_eq (r : BitVec 32) (c : UInt8) :
    step32 r c = bitSteps 0xEDB88320#32 8 (r ^^^ c.toBitVec.setWidth 32) := by
  rw [split8 (by omega)]
  have h := table32_ok ⟨_, and_ff_toNat (r ^^^ c.toBitVec.setWidth 32) (by omega)⟩
  simp only [BitVec.ofNat_toNat, BitVec.setWidth_eq] at h
  unfold step32
  rw [h, BitVec.ushiftRight_xor_distrib, byte_shift, BitVec.xor_zero, BitVec.xor_comm]

theorem step64_eq (r : BitVec 64) (c : UInt8) :
    step64 r c = bitSteps 0x95AC9329AC4BC9B5#64 8 (r ^^^ c.toBitVec.setWidth 64) := by
  rw [split8 (by omega)]
  have h := table64_ok ⟨_, and_ff_toNat (r ^^^ c.toBitVec.setWidth 64) (by omega)⟩
  simp only [BitVec.ofNat_toNat, BitVec.setWidth_eq] at h
  unfold step64
  rw [h, BitVec.ushiftRight_xor_distrib, byte_shift, BitVec.xor_zero, BitVec.xor_comm]

end Verif.Crc
