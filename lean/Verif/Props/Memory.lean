import Verif.Proof.MemSet
import Verif.Proof.MemMove
import Verif.Proof.MemFind
import Verif.Proof.Align
/-!
# Properties C01-C04: raw memory primitives and alignment

The specification vocabulary is only: "the range is mapped" and pointwise statements about the bytes before and after.
Because an access to an unmapped address is a fault, and the hypotheses map nothing but the ranges named, success of
the call also says that no other address is touched.
-/
namespace Verif
open Mem

/-- The addresses `[a, a+n)` are mapped. -/
def RangeMapped (m : Mem) (a n : Nat) : Prop := ∀ i, a ≤ i → i < a + n → (m i).isSome

/-- C01. `mem_set` succeeds whenever the destination range is mapped and sets exactly that range. -/
theorem C01_mem_set_exact (m : Mem) (dest n : Nat) (c : UInt8) (hd : dest ≠ 0) (h : RangeMapped m dest n) :
    ∃ m', memSet m dest c n = some m' ∧
      ∀ i, m' i = if dest ≤ i ∧ i < dest + n then some c else m i := by
  refine ⟨_, memSet_cov m dest c n hd h, fun i => ?_⟩
  unfold cov
  by_cases hi : dest ≤ i ∧ i < dest + n
  · simp only [if_pos hi]
  · simp only [if_neg hi]

/-- C01. A null destination is left alone. -/
theorem C01_mem_set_null (m : Mem) (c : UInt8) (n : Nat) : memSet m 0 c n = some m := rfl

/-- A memory with exactly `[a, a+n)` mapped, used for the non-vacuity examples. -/
def window (a n : Nat) (f : Nat → UInt8) : Mem := fun i => if a ≤ i ∧ i < a + n then some (f i) else none

theorem window_mapped (a n : Nat) (f : Nat → UInt8) (b k : Nat) (h1 : a ≤ b) (h2 : b + k ≤ a + n) :
    RangeMapped (window a n f) b k := by
  intro i hi1 hi2
  unfold window
  rw [if_pos (by omega)]; rfl

example : RangeMapped (window 1001 77 (fun i => UInt8.ofNat i)) 1001 77 ∧ (1001:Nat) ≠ 0 :=
  ⟨window_mapped _ _ _ _ _ (by omega) (by omega), by omega⟩

/-- C02. `mem_move` succeeds whenever both ranges are mapped, for every overlap and alignment, and the destination
receives the bytes the source range held before the call; everything else is unchanged. -/
theorem C02_mem_move_as_if_buffered (m : Mem) (dest src n : Nat) (hd : dest ≠ 0)
    (hs : RangeMapped m src n) (ht : RangeMapped m dest n) :
    ∃ m', memMove m dest src n = some m' ∧
      ∀ i, m' i = if dest ≤ i ∧ i < dest + n then m (src + (i - dest)) else m i :=
  ⟨_, memMove_mv hd hs ht, fun i => by simp only [mv, Nat.add_zero]⟩

example : RangeMapped (window 96 60 (fun i => UInt8.ofNat i)) 104 40 ∧
    RangeMapped (window 96 60 (fun i => UInt8.ofNat i)) 96 40 :=
  ⟨window_mapped _ _ _ _ _ (by omega) (by omega), window_mapped _ _ _ _ _ (by omega) (by omega)⟩

/-- C02. `mem_copy` (libc memcpy) on disjoint ranges. -/
theorem C02_mem_copy_disjoint (m : Mem) (dest src n : Nat) (hdis : dest + n ≤ src ∨ src + n ≤ dest)
    (hs : RangeMapped m src n) (ht : RangeMapped m dest n) :
    ∃ m', memCopy m dest src n = some m' ∧
      ∀ i, m' i = if dest ≤ i ∧ i < dest + n then m (src + (i - dest)) else m i := by
  refine ⟨mv m dest src 0 n, ?_, fun i => by simp only [mv, Nat.add_zero]⟩
  have := memCopy_mv hs ht (by omega) n 0 (by omega)
  rwa [mv_empty _ _ _ _ _ (Nat.le_refl _)] at this

/-- C03. If some byte of the range equals `c`, `mem_find` returns the first such address. -/
theorem C03_mem_find_first (m : Mem) (data n : Nat) (c : UInt8) (hm : RangeMapped m data n)
    (a : Nat) (ha1 : data ≤ a) (ha2 : a < data + n) (hc : m a = some c)
    (hfirst : ∀ i, data ≤ i → i < a → m i ≠ some c) :
    memFind m data c n = some (some a) := by
  rcases memFind_spec (c := c) hm with ⟨b, hb, h1, h2, h3, h4⟩ | ⟨_, h⟩
  · have : a = b := by
      rcases Nat.lt_trichotomy a b with h | h | h
      · exact absurd hc (h4 a ha1 h)
      · exact h
      · exact absurd h3 (hfirst b h1 h)
    rw [this, hb]
  · exact absurd hc (h a ha1 ha2)

/-- C03. `mem_find` returns null exactly when no byte of the range equals `c`. -/
theorem C03_mem_find_null_iff (m : Mem) (data n : Nat) (c : UInt8) (hm : RangeMapped m data n) :
    memFind m data c n = some none ↔ ∀ i, data ≤ i → i < data + n → m i ≠ some c := by
  rcases memFind_spec (c := c) hm with ⟨b, hb, h1, h2, h3, h4⟩ | ⟨hr, h⟩
  · rw [hb]
    constructor
    · intro h; simp at h
    · intro h; exact absurd h3 (h b h1 h2)
  · exact ⟨fun _ => h, fun _ => hr⟩

example : RangeMapped (window 13 40 (fun i => UInt8.ofNat (i * 3))) 13 40 ∧
    window 13 40 (fun i => UInt8.ofNat (i * 3)) 37 = some 111 ∧
    ∀ i, 13 ≤ i → i < 37 → window 13 40 (fun i => UInt8.ofNat (i * 3)) i ≠ some 111 := by
  refine ⟨window_mapped _ _ _ _ _ (by omega) (by omega), rfl, ?_⟩
  intro i h1 h2
  have : i = 13 + (i - 13) := by omega
  have : i - 13 < 24 := by omega
  generalize i - 13 = j at *
  subst_vars
  revert j; decide

/-- C04. `is_power_of_two` accepts exactly the powers of two. -/
theorem C04_is_power_of_two_iff (x : Nat) : isPowerOfTwo x = true ↔ ∃ k, x = 2^k := isPowerOfTwo_iff x

/-- `r` is the least multiple of `a` that is at least `v`. -/
def LeastMultipleGE (r v a : Nat) : Prop := v ≤ r ∧ a ∣ r ∧ ∀ q, v ≤ q → a ∣ q → r ≤ q

theorem leastMultiple_of {r v a : Nat} (h1 : v ≤ r) (h2 : r % a = 0) (h3 : r < v + a) : LeastMultipleGE r v a := by
  refine ⟨h1, Nat.dvd_of_mod_eq_zero h2, ?_⟩
  intro q hq ⟨t, ht⟩
  obtain ⟨s, hs⟩ := Nat.dvd_of_mod_eq_zero h2
  by_cases hle : s ≤ t
  · rw [ht, hs]; exact Nat.mul_le_mul_left a hle
  · exfalso
    have : a * (t + 1) ≤ a * s := Nat.mul_le_mul_left a (by omega)
    rw [Nat.mul_add, Nat.mul_one] at this
    omega

/-- C04. `align_forward_s64` rounds up to the least multiple, for every positive alignment. -/
theorem C04_align_forward_s64_least (v a : Nat) (ha : 0 < a) : LeastMultipleGE (alignForwardS64 v a) v a := by
  obtain ⟨h1, h2, h3⟩ := alignForwardS64_spec v a ha
  exact leastMultiple_of h1 h2 h3

/-- C04. `align_forward` on a power-of-two alignment, when the rounded address is still a 64-bit address. -/
theorem C04_align_forward_least (p : BitVec 64) (a : Nat) (ha : isPowerOfTwo a = true) (hp : p.toNat + a ≤ 2^64)
    (hlt : a < 2^64) :
    ∃ r, alignForward p a = some r ∧
      (r.toNat = (p.toNat + (a - 1)) / a * a) ∧ LeastMultipleGE r.toNat p.toNat a := by
  obtain ⟨k, rfl⟩ := (isPowerOfTwo_iff a).mp ha
  have hk : k < 64 := (Nat.pow_lt_pow_iff_right (by decide)).mp hlt
  have hpos : 0 < 2^k := Nat.pow_pos (by decide)
  refine ⟨_, alignForward_toNat p k hk hp, ?_⟩
  have hle := Nat.div_mul_le_self (p.toNat + (2^k-1)) (2^k)
  have hr : (BitVec.ofNat 64 ((p.toNat + (2^k-1)) / 2^k * 2^k)).toNat = (p.toNat + (2^k-1)) / 2^k * 2^k := by
    rw [BitVec.toNat_ofNat, Nat.mod_eq_of_lt (by omega)]
  rw [hr]
  have hmod := Nat.div_add_mod (p.toNat + (2^k-1)) (2^k)
  have hml := Nat.mod_lt (p.toNat + (2^k-1)) hpos
  rw [Nat.mul_comm] at hmod
  exact ⟨rfl, leastMultiple_of (by omega) (Nat.mul_mod_left _ _) (by omega)⟩

/-- C04. A non-power-of-two alignment is rejected (assertion). -/
theorem C04_align_forward_rejects (p : BitVec 64) (a : Nat) (ha : ¬ ∃ k, a = 2^k) : alignForward p a = none := by
  unfold alignForward
  rw [if_neg]
  intro h
  exact ha ((isPowerOfTwo_iff a).mp h)

example : isPowerOfTwo 16 = true ∧ (BitVec.ofNat 64 1001).toNat + 16 ≤ 2^64 := by decide

end Verif
