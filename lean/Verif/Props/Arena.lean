import Verif.Proof.Arena
/-!
# Property C05: arena allocator

`run (initFromMemory start size, []) ops` executes a history of requests; the second component collects the blocks
handed out since the last clear.
-/
namespace Verif.Arena

/-- Every request of the history that allocates uses alignment `a`. -/
def UniformAlign (a : Nat) (ops : List Op) : Prop := ∀ op ∈ ops, ∀ sz al, op = .alloc sz al → al = a

/-- All live blocks are inside the arena memory and aligned, and no two share a byte. -/
def Sound (start size : Nat) (live : List Block) : Prop :=
  (∀ b ∈ live, start ≤ b.addr ∧ b.addr + b.size ≤ start + size ∧ b.align ∣ b.addr) ∧
  live.Pairwise (fun a b => a.addr + a.size ≤ b.addr ∨ b.addr + b.size ≤ a.addr)

theorem uniform_descending {a start : Nat} (hp : ∃ k, a = 2^k) (hs : a ∣ start) :
    ∀ (ops : List Op) (cur : Nat), (cur = 0 ∨ cur = a) → UniformAlign a ops → Descending start cur ops := by
  intro ops
  induction ops with
  | nil => intros; trivial
  | cons op ops ih =>
    intro cur hc hu
    have hu' : UniformAlign a ops := fun o ho => hu o (List.mem_cons_of_mem _ ho)
    cases op with
    | alloc sz al =>
      have hal : al = a := hu _ List.mem_cons_self sz al rfl
      subst hal
      refine ⟨hp, hs, ?_, ih _ (Or.inr rfl) hu'⟩
      rcases hc with rfl | rfl
      · exact Nat.dvd_zero _
      · exact Nat.dvd_refl _
    | free p => exact ih cur hc hu'
    | freeAll => exact ih 0 (Or.inl rfl) hu'

/-- C05, general form: for any history whose alignments are non-increasing powers of two (each dividing the arena start
and the previous alignment since the last clear), the run either stops with "out of memory" or ends with all live
blocks in bounds, aligned and pairwise disjoint. It never has undefined behaviour. -/
theorem C05_arena_sound_descending (start size : Nat) (ops : List Op) (h : Descending start 0 ops) :
    run (initFromMemory start size, []) ops = .stop ∨
    ∃ ar live, run (initFromMemory start size, []) ops = .ok (ar, live) ∧ Sound start size live := by
  rcases run_inv ops 0 _ (init_inv start size) h with h | ⟨s', cur', hr, hi⟩
  · exact Or.inl h
  · refine Or.inr ⟨s'.1, s'.2, hr, ?_, hi.disj⟩
    intro b hb
    obtain ⟨g1, g2, g3⟩ := hi.bounds b hb
    have := hi.used_le
    exact ⟨g1, by omega, g3⟩

/-- C05: one power-of-two alignment throughout, arena start aligned to it (how the library uses arenas: every request
has the default alignment 16). -/
theorem C05_arena_sound (start size a : Nat) (ops : List Op) (hp : ∃ k, a = 2^k) (hs : a ∣ start)
    (hu : UniformAlign a ops) :
    run (initFromMemory start size, []) ops = .stop ∨
    ∃ ar live, run (initFromMemory start size, []) ops = .ok (ar, live) ∧ Sound start size live :=
  C05_arena_sound_descending start size ops (uniform_descending hp hs ops 0 (Or.inl rfl) hu)

/-- C05: a request is served exactly when its rounded size fits in what is left, and the served block is the next one;
otherwise the call stops (out of memory). -/
theorem C05_alloc_served_iff (ar : Arena) (size k : Nat) (hs : 2^k ∣ ar.start) (hu : 2^k ∣ ar.totalUsed) :
    (∃ p ar', ar.alloc size (2^k) = .ok (p, ar')) ↔ ar.totalUsed + (size + (2^k - 1)) / 2^k * 2^k ≤ ar.totalSize := by
  have hpos : 0 < 2^k := Nat.pow_pos (by decide)
  have e : alignForwardS64 size (2^k) = (size + (2^k - 1)) / 2^k * 2^k := by
    obtain ⟨h1, h2, h3⟩ := alignForwardS64_spec size (2^k) hpos
    obtain ⟨q, hq⟩ := Nat.dvd_of_mod_eq_zero h2
    have : (size + (2^k - 1)) / 2^k = q := by
      apply Nat.div_eq_of_lt_le
      · rw [Nat.mul_comm]; omega
      · rw [Nat.mul_comm, Nat.mul_add]; omega
    rw [this, hq, Nat.mul_comm]
  constructor
  · rintro ⟨p, ar', h⟩
    by_cases hf : ar.totalUsed + (size + (2^k - 1)) / 2^k * 2^k ≤ ar.totalSize
    · exact hf
    · rw [alloc_refused (by omega : (2^k) ≠ 0) (by rw [e]; omega)] at h
      cases h
  · intro hf
    exact ⟨_, _, alloc_eq hs hu (by rw [e]; exact hf)⟩

/-- C05: with the default flags the new block is zeroed and no other byte of memory changes. -/
theorem C05_alloc_zeroes (ar : Arena) (m : Mem) (size k : Nat) (hs : 2^k ∣ ar.start) (hu : 2^k ∣ ar.totalUsed)
    (h0 : 0 < ar.start) (hfit : ar.totalUsed + alignForwardS64 size (2^k) ≤ ar.totalSize)
    (hm : ∀ i, ar.start ≤ i → i < ar.start + ar.totalSize → (m i).isSome) :
    ∃ p ar' m', ar.allocZeroed m size (2^k) = .ok (p, ar', m') ∧
      ∀ i, m' i = if p ≤ i ∧ i < p + size then some 0 else m i := by
  have hpos : 0 < 2^k := Nat.pow_pos (by decide)
  obtain ⟨h1, h2, h3⟩ := alignForwardS64_spec size (2^k) hpos
  unfold allocZeroed
  simp only [Res.bind_eq, alloc_eq hs hu hfit, Res.ok_bind]
  rw [Mem.memSet_cov m _ 0 size (by omega) (fun i g1 g2 => hm i (by omega) (by omega))]
  refine ⟨_, _, _, rfl, fun i => ?_⟩
  unfold Mem.cov
  by_cases hi : ar.start + ar.totalUsed ≤ i ∧ i < ar.start + ar.totalUsed + size
  · simp only [if_pos hi]
  · simp only [if_neg hi]

/-- Non-vacuity: a history of three served requests meets the hypotheses. -/
example : UniformAlign 16 [.alloc 24 16, .free 0, .alloc 100 16, .freeAll, .alloc 7 16, .alloc 16 16] ∧
    (run (initFromMemory 4096 256, []) [.alloc 24 16, .free 0, .alloc 100 16, .freeAll, .alloc 7 16, .alloc 16 16]) =
      .ok (⟨4096, 256, 32⟩, [⟨4112, 16, 16⟩, ⟨4096, 7, 16⟩]) := by
  refine ⟨?_, by decide⟩
  intro op hop sz al he
  simp only [List.mem_cons, List.not_mem_nil, or_false] at hop
  rcases hop with h|h|h|h|h|h <;> subst h <;> simp at he <;> exact he.2.symm

/-- C05, refutation without the alignment discipline: alignment padding is not accounted for, so three requests with
increasing/mixed alignment hand out two overlapping live blocks from a 16-aligned arena. -/
theorem C05_mixed_alignment_refuted :
    ∃ ops ar live, run (initFromMemory 4096 64, []) ops = .ok (ar, live) ∧ ¬ Sound 4096 64 live := by
  refine ⟨[.alloc 8 8, .alloc 16 16, .alloc 8 8], _, _, rfl, ?_⟩
  rintro ⟨_, hd⟩
  have hd2 := (List.pairwise_cons.mp hd).1
  have := hd2 ⟨4112, 16, 16⟩ (by decide)
  revert this
  decide

/-- C05, refutation: a block may even end past the arena memory. -/
theorem C05_mixed_alignment_out_of_bounds :
    ∃ ops ar live, run (initFromMemory 4096 24, []) ops = .ok (ar, live) ∧
      ∃ b ∈ live, 4096 + 24 < b.addr + b.size := by
  refine ⟨[.alloc 8 8, .alloc 16 16], _, _, rfl, ⟨4112, 16, 16⟩, by decide, by decide⟩

/-- C05: `arena_size_remaining` is the distance from the aligned cursor to the end, for a power-of-two alignment. -/
theorem C05_size_remaining (ar : Arena) (k : Nat) :
    ∃ r, ar.sizeRemaining (2^k) = .ok r ∧
      r = ((ar.start + ar.totalSize : Nat) : Int) -
        (((ar.start + ar.totalUsed + (2^k - 1)) / 2^k * 2^k : Nat) : Int) := by
  have hpos : 0 < 2^k := Nat.pow_pos (by decide)
  unfold sizeRemaining alignmentOf
  rw [if_pos ((isPowerOfTwo_iff _).mpr ⟨k, rfl⟩)]
  simp only [Res.bind_eq, Res.ok_bind, Res.pure_eq]
  refine ⟨_, rfl, ?_⟩
  rw [Nat.and_two_pow_sub_one_eq_mod]
  have hq := Nat.div_add_mod (ar.start + ar.totalUsed) (2^k)
  have hr := Nat.mod_lt (ar.start + ar.totalUsed) hpos
  generalize (ar.start + ar.totalUsed) / 2^k = q at *
  generalize (ar.start + ar.totalUsed) % 2^k = r at *
  have e : (ar.start + ar.totalUsed + (2^k - 1)) / 2^k * 2^k = if r = 0 then 2^k * q else 2^k * q + 2^k := by
    rw [← hq, Nat.add_assoc, Nat.mul_add_div hpos]
    split
    · next h => subst h; rw [Nat.zero_add, Nat.div_eq_of_lt (by omega), Nat.add_zero, Nat.mul_comm]
    · next h =>
      have : (r + (2^k - 1)) / 2^k = 1 := Nat.div_eq_of_lt_le (by omega) (by omega)
      rw [this, Nat.add_mul, Nat.one_mul, Nat.mul_comm]
  rw [e]
  by_cases h : r = 0
  · simp only [h, ne_eq, not_true, if_false, if_true]; omega
  · simp only [h, ne_eq, not_false_iff, if_true, if_false]
    omega
end Verif.Arena
