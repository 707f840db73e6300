import Verif.Model.Arena
import Verif.Proof.Align
import Verif.Proof.MemSet
/-! Helper lemmas for the arena. -/
namespace Verif.Arena

/-- Two blocks do not share a byte. -/
def Block.Disjoint (a b : Block) : Prop := a.addr + a.size ≤ b.addr ∨ b.addr + b.size ≤ a.addr

/-- Requests whose alignments are powers of two dividing the arena start and (within a clear period) the previous
alignment; `cur` is the previous alignment, 0 right after a clear. -/
def Descending (start : Nat) : Nat → List Op → Prop
  | _, [] => True
  | cur, .alloc _ a :: ops => (∃ k, a = 2^k) ∧ a ∣ start ∧ a ∣ cur ∧ Descending start a ops
  | cur, .free _ :: ops => Descending start cur ops
  | _, .freeAll :: ops => Descending start 0 ops

structure Inv (start size cur : Nat) (s : Arena × List Block) : Prop where
  hstart : s.1.start = start
  hsize : s.1.totalSize = size
  used_le : s.1.totalUsed ≤ size
  cur_dvd : cur ∣ s.1.totalUsed
  bounds : ∀ b ∈ s.2, start ≤ b.addr ∧ b.addr + b.size ≤ start + s.1.totalUsed ∧ b.align ∣ b.addr
  disj : s.2.Pairwise Block.Disjoint

theorem alloc_eq {ar : Arena} {size k : Nat} (hs : 2^k ∣ ar.start) (hu : 2^k ∣ ar.totalUsed)
    (hfit : ar.totalUsed + alignForwardS64 size (2^k) ≤ ar.totalSize) :
    ar.alloc size (2^k) = .ok (ar.start + ar.totalUsed,
      { ar with totalUsed := ar.totalUsed + alignForwardS64 size (2^k) }) := by
  have hpos : 0 < 2^k := Nat.pow_pos (by decide)
  unfold alloc
  rw [if_neg (by omega)]
  simp only
  rw [if_neg (by omega)]
  unfold alignPtr
  rw [if_pos ((isPowerOfTwo_iff _).mpr ⟨k, rfl⟩)]
  have hd : 2^k ∣ ar.start + ar.totalUsed := Nat.dvd_add hs hu
  obtain ⟨q, hq⟩ := hd
  have : (ar.start + ar.totalUsed + (2^k - 1)) / 2^k * 2^k = ar.start + ar.totalUsed := by
    rw [hq]
    have h1 : (2^k * q + (2^k - 1)) / 2^k = q := by
      rw [Nat.mul_add_div hpos, Nat.div_eq_of_lt (by omega), Nat.add_zero]
    rw [h1, Nat.mul_comm]
  rw [this]
  rfl

theorem alloc_refused {ar : Arena} {size a : Nat} (ha : a ≠ 0)
    (h : ar.totalSize < ar.totalUsed + alignForwardS64 size a) : ar.alloc size a = .stop := by
  unfold alloc
  rw [if_neg ha]
  simp only
  rw [if_pos h]

theorem run_inv {start size : Nat} : ∀ (ops : List Op) (cur : Nat) (s : Arena × List Block),
    Inv start size cur s → Descending start cur ops →
    run s ops = .stop ∨ ∃ s' cur', run s ops = .ok s' ∧ Inv start size cur' s' := by
  intro ops
  induction ops with
  | nil => intro cur s hi _; exact Or.inr ⟨s, cur, rfl, hi⟩
  | cons op ops ih =>
    intro cur s hi hd
    cases op with
    | alloc sz a =>
      obtain ⟨⟨k, rfl⟩, hs, hc, hd⟩ := hd
      have hpos : 0 < 2^k := Nat.pow_pos (by decide)
      have hu : 2^k ∣ s.1.totalUsed := Nat.dvd_trans hc hi.cur_dvd
      by_cases hfit : s.1.totalUsed + alignForwardS64 sz (2^k) ≤ s.1.totalSize
      · have he := alloc_eq (size := sz) (by rw [hi.hstart]; exact hs) hu hfit
        obtain ⟨h1, h2, h3⟩ := alignForwardS64_spec sz (2^k) hpos
        simp only [run, step, Res.bind_eq, he, Res.ok_bind, Res.pure_eq]
        refine ih (2^k) _ ?_ hd
        refine ⟨hi.hstart, hi.hsize, by rw [← hi.hsize]; exact hfit,
          Nat.dvd_add hu (Nat.dvd_of_mod_eq_zero h2), ?_, ?_⟩
        · intro b hb
          simp only [List.mem_cons] at hb
          rcases hb with rfl | hb
          · simp only [hi.hstart]
            exact ⟨by omega, by omega, Nat.dvd_add hs hu⟩
          · obtain ⟨g1, g2, g3⟩ := hi.bounds b hb
            exact ⟨g1, by simp only; omega, g3⟩
        · simp only [List.pairwise_cons]
          refine ⟨?_, hi.disj⟩
          intro b hb
          obtain ⟨g1, g2, g3⟩ := hi.bounds b hb
          right
          simp only [hi.hstart]
          omega
      · left
        have hr : s.1.alloc sz (2^k) = .stop := alloc_refused (by omega) (by omega)
        simp only [run, step, Res.bind_eq, hr, Res.stop_bind]
    | free p =>
      simp only [run, step, Res.bind_eq, Res.ok_bind]
      exact ih cur _ ⟨hi.hstart, hi.hsize, hi.used_le, hi.cur_dvd, hi.bounds, hi.disj⟩ hd
    | freeAll =>
      simp only [run, step, Res.bind_eq, Res.ok_bind]
      refine ih 0 _ ⟨hi.hstart, hi.hsize, Nat.zero_le _, Nat.dvd_refl _, ?_, List.Pairwise.nil⟩ hd
      intro b hb; simp at hb

theorem init_inv (start size : Nat) : Inv start size 0 (initFromMemory start size, []) :=
  ⟨rfl, rfl, Nat.zero_le _, Nat.dvd_refl _, by intro b hb; simp at hb, List.Pairwise.nil⟩
end Verif.Arena
