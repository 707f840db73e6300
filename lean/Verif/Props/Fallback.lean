import Verif.Model.Fallback
import Verif.Props.Arena
/-!
# Property C38: the fallback allocator
-/
namespace Verif.Fallback

/-- The heap contract: `[p, p+n)` is 16-aligned, non-null, and disjoint from everything obtained from the heap before. -/
def Fresh (st : St) (p n : Nat) : Prop :=
  p ≠ 0 ∧ 16 ∣ p ∧ (∀ a ∈ st.buckets, a.start + a.totalSize ≤ p ∨ p + n ≤ a.start) ∧
  (∀ d ∈ st.direct, d.addr + d.size ≤ p ∨ p + n ≤ d.addr)

/-- Requests whose every use of the heap meets the heap contract. A resize that needs a new bucket gets the bucket first. -/
inductive Reach (bsize b : Nat) : St → Prop
  | init (h0 : b ≠ 0) (h16 : 16 ∣ b) : Reach bsize b (init bsize b)
  | alloc {st st' : St} {size h p : Nat} (hr : Reach bsize b st) (hf : Fresh st h bsize)
      (he : alloc bsize st size 16 h = .ok (p, st')) : Reach bsize b st'
  | free {st : St} (hr : Reach bsize b st) : Reach bsize b (free st)
  | resize {st st' : St} {old oldSize size h1 h2 p : Nat} (hr : Reach bsize b st) (hf : Fresh st h1 bsize)
      (hf2 : Fresh st h2 size) (hd : h1 + bsize ≤ h2 ∨ h2 + size ≤ h1)
      (he : resize bsize st old oldSize size h1 h2 = .ok (p, st')) : Reach bsize b st'

/-- Two blocks share no byte. -/
def Apart (x y : Blk) : Prop := x.addr + x.size ≤ y.addr ∨ y.addr + y.size ≤ x.addr

theorem Apart.symm {x y : Blk} (h : Apart x y) : Apart y x := Or.symm h

structure Inv (bsize : Nat) (st : St) : Prop where
  ne : st.buckets ≠ []
  ar : ∀ a ∈ st.buckets, a.totalSize = bsize ∧ 16 ∣ a.start ∧ 16 ∣ a.totalUsed ∧ a.totalUsed ≤ bsize
  apart : st.buckets.Pairwise (fun a c => a.start + bsize ≤ c.start ∨ c.start + bsize ≤ a.start)
  dir : ∀ d ∈ st.direct, 16 ∣ d.addr ∧ ∀ a ∈ st.buckets, a.start + bsize ≤ d.addr ∨ d.addr + d.size ≤ a.start
  dirp : st.direct.Pairwise Apart
  inb : ∀ s ∈ st.served, 16 ∣ s.addr ∧ ∃ a ∈ st.buckets, a.start ≤ s.addr ∧ s.addr + s.size ≤ a.start + a.totalUsed
  srv : st.served.Pairwise Apart

theorem open_spec {bsize : Nat} {st : St} (h : Inv bsize st) {size p : Nat} (hf : Fresh st p bsize) :
    ∃ st' last, openBucket bsize st size p = .ok st' ∧ Inv bsize st' ∧ st'.served = st.served ∧ st'.direct = st.direct ∧
      st'.buckets.getLast? = some last ∧ (size ≤ bsize → last.totalUsed + size ≤ bsize) ∧
      (∃ old, st.buckets.getLast? = some old ∧
        st'.buckets = if old.totalUsed + size > bsize then st.buckets ++ [⟨p, bsize, 0⟩] else st.buckets) := by
  obtain ⟨pre, last, e⟩ : ∃ pre last, st.buckets = pre ++ [last] :=
    ⟨_, _, (List.dropLast_concat_getLast h.ne).symm⟩
  have hl : st.buckets.getLast? = some last := by rw [e]; simp
  obtain ⟨z1, z2, z3, z4⟩ := h.ar last (by rw [e]; simp)
  unfold openBucket
  rw [hl]
  simp only [Res.ofOption_some, Res.ok_bind, z1]
  by_cases hfull : last.totalUsed + size > bsize
  · rw [if_pos hfull, if_neg hf.1]
    refine ⟨_, ⟨p, bsize, 0⟩, rfl, ⟨by simp, ?_, ?_, ?_, h.dirp, ?_, h.srv⟩, rfl, rfl, by simp, by simp, last, rfl, by rw [if_pos hfull]⟩
    · intro a ha
      simp only [List.mem_append, List.mem_singleton] at ha
      rcases ha with ha | rfl
      · exact h.ar a ha
      · exact ⟨rfl, hf.2.1, by simp, by simp⟩
    · rw [List.pairwise_append]
      refine ⟨h.apart, by simp, fun a ha c hc => ?_⟩
      simp at hc; subst hc
      have := hf.2.2.1 a ha
      rw [(h.ar a ha).1] at this
      exact this
    · intro d hd
      refine ⟨(h.dir d hd).1, fun a ha => ?_⟩
      simp only [List.mem_append, List.mem_singleton] at ha
      rcases ha with ha | rfl
      · exact (h.dir d hd).2 a ha
      · have := hf.2.2.2 d hd
        simp only; omega
    · intro s hs
      obtain ⟨q1, a, ha, q2⟩ := h.inb s hs
      exact ⟨q1, a, by simp [ha], q2⟩
  · rw [if_neg hfull]
    exact ⟨st, last, rfl, h, rfl, rfl, hl, fun _ => by omega, last, rfl, by rw [if_neg hfull]⟩

theorem alloc_spec {bsize : Nat} (hb : 16 ∣ bsize) {st : St} (h : Inv bsize st) {size p : Nat} (hf : Fresh st p bsize) :
    (size ≤ bsize → ∃ q st', alloc bsize st size 16 p = .ok (q, st') ∧ Inv bsize st' ∧
      st'.served = ⟨q, size⟩ :: st.served ∧ st'.direct = st.direct ∧
      (∃ old, st.buckets.getLast? = some old ∧ st'.buckets.length = st.buckets.length + (if old.totalUsed + size > bsize then 1 else 0))) ∧
    (bsize < size → alloc bsize st size 16 p = .stop) := by
  obtain ⟨st1, last, e1, h1, s1, d1, hl, hroom, old, ho, hbk⟩ := open_spec h (size := size) hf
  obtain ⟨pre, e⟩ : ∃ pre, st1.buckets = pre ++ [last] := by
    refine ⟨st1.buckets.dropLast, ?_⟩
    have := List.dropLast_concat_getLast h1.ne
    rw [List.getLast?_eq_some_getLast h1.ne] at hl
    rw [← Option.some.inj hl]; exact this.symm
  have hlm : last ∈ st1.buckets := by rw [e]; simp
  obtain ⟨z1, z2, z3, z4⟩ := h1.ar last hlm
  obtain ⟨a1, a2, a3⟩ := alignForwardS64_spec size 16 (by omega)
  constructor
  · intro hsz
    have hroom' := hroom hsz
    have hall := Arena.alloc_eq (k := 4) (ar := last) (size := size) z2 z3 (by
      rw [z1]; show last.totalUsed + alignForwardS64 size 16 ≤ bsize; omega)
    have hall' : last.alloc size 16 = .ok (last.start + last.totalUsed,
      { last with totalUsed := last.totalUsed + alignForwardS64 size 16 }) := hall
    refine ⟨last.start + last.totalUsed, ⟨pre ++ [{ last with totalUsed := last.totalUsed + alignForwardS64 size 16 }],
      ⟨last.start + last.totalUsed, size⟩ :: st1.served, st1.direct⟩, ?_, ⟨?_, ?_, ?_, ?_, ?_, ?_, ?_⟩, by rw [← s1], d1, old, ho, ?_⟩
    · unfold alloc
      rw [e1]
      simp only [Res.ok_bind, hl, Res.ofOption_some, hall']
      simp [e]
    · simp
    · intro a ha
      simp only [List.mem_append, List.mem_singleton] at ha
      rcases ha with ha | rfl
      · exact h1.ar a (by rw [e]; simp [ha])
      · exact ⟨z1, z2, by simp only; omega, by simp only; omega⟩
    · have := h1.apart
      rw [e, List.pairwise_append] at this
      rw [List.pairwise_append]
      refine ⟨this.1, by simp, fun a ha c hc => ?_⟩
      simp at hc; subst hc
      exact this.2.2 a ha last (by simp)
    · intro d hd
      refine ⟨(h1.dir d hd).1, fun a ha => ?_⟩
      simp only [List.mem_append, List.mem_singleton] at ha
      rcases ha with ha | rfl
      · exact (h1.dir d hd).2 a (by rw [e]; simp [ha])
      · exact (h1.dir d hd).2 last hlm
    · exact h1.dirp
    · intro s hs
      rcases List.mem_cons.mp hs with rfl | hs
      · exact ⟨by simp only; omega, _, List.mem_append_right _ (List.mem_singleton.mpr rfl), by simp only; omega, by simp only; omega⟩
      · obtain ⟨q1, a, ha, q2, q3⟩ := h1.inb s hs
        rw [e] at ha
        simp only [List.mem_append, List.mem_singleton] at ha
        rcases ha with ha | rfl
        · exact ⟨q1, a, by simp [ha], q2, q3⟩
        · exact ⟨q1, _, List.mem_append_right _ (List.mem_singleton.mpr rfl), q2, by simp only; omega⟩
    · rw [List.pairwise_cons]
      refine ⟨fun s hs => ?_, h1.srv⟩
      obtain ⟨q1, a, ha, q2, q3⟩ := h1.inb s hs
      unfold Apart
      simp only
      have hz := h1.ar a ha
      rw [e] at ha
      simp only [List.mem_append, List.mem_singleton] at ha
      rcases ha with ha | rfl
      · have := h1.apart
        rw [e, List.pairwise_append] at this
        have := this.2.2 a ha last (by simp)
        omega
      · omega
    · have : (pre ++ [last]).length = st.buckets.length + (if old.totalUsed + size > bsize then 1 else 0) := by
        rw [← e, hbk]; split <;> simp
      simpa using this
  · intro hsz
    unfold alloc
    rw [e1]
    simp only [Res.ok_bind, hl, Res.ofOption_some]
    rw [Arena.alloc_refused (by omega) (by rw [z1]; omega)]
    rfl

theorem reach_inv {bsize b : Nat} (hb : 16 ∣ bsize) {st : St} (h : Reach bsize b st) : Inv bsize st := by
  induction h with
  | init h0 h16 => exact ⟨by simp [init], by simp [init, h16], by simp [init], by simp [init], by simp [init], by simp [init], by simp [init]⟩
  | @alloc st st' size hh p hr hf he ih =>
    by_cases hs : size ≤ bsize
    · obtain ⟨q, st2, e, hi, -⟩ := (alloc_spec hb ih (size := size) hf).1 hs
      rw [he] at e; cases e; exact hi
    · have := (alloc_spec hb ih (size := size) hf).2 (by omega)
      rw [he] at this; cases this
  | free _ ih => exact ih
  | @resize st st' old oldSize size h1 h2 p hr hf hf2 hd he ih =>
    obtain ⟨st1, last, e1, i1, s1, d1, hl, -, o, ho, hbk⟩ := open_spec ih (size := size) hf
    unfold resize at he
    rw [e1] at he
    simp only [Res.ok_bind, if_neg hf2.1] at he
    split at he
    · cases he
    · cases he
      have hsep : ∀ a ∈ st1.buckets, a.start + bsize ≤ h2 ∨ h2 + size ≤ a.start := by
        intro a ha
        rw [hbk] at ha
        split at ha
        · simp only [List.mem_append, List.mem_singleton] at ha
          rcases ha with ha | rfl
          · have := hf2.2.2.1 a ha
            rw [(ih.ar a ha).1] at this
            exact this
          · exact hd
        · have := hf2.2.2.1 a ha
          rw [(ih.ar a ha).1] at this
          exact this
      refine ⟨i1.ne, i1.ar, i1.apart, ?_, ?_, i1.inb, i1.srv⟩
      · intro d hd'
        rcases List.mem_cons.mp hd' with rfl | hd'
        · exact ⟨hf2.2.1, hsep⟩
        · exact i1.dir d hd'
      · rw [List.pairwise_cons]
        refine ⟨fun d hd' => ?_, i1.dirp⟩
        rw [d1] at hd'
        exact (Or.symm (hf2.2.2.2 d hd'))

/-- C38: for every request history (default alignment, bucket size a multiple of 16), every block ever handed out is
16-aligned, no two blocks share a byte, and every block from an allocation lies inside one bucket. -/
theorem C38_blocks_disjoint (bsize b : Nat) (hb : 16 ∣ bsize) (st : St) (h : Reach bsize b st) :
    (st.served ++ st.direct).Pairwise Apart ∧ (∀ x ∈ st.served ++ st.direct, 16 ∣ x.addr) ∧
    (∀ x ∈ st.served, ∃ a ∈ st.buckets, a.start ≤ x.addr ∧ x.addr + x.size ≤ a.start + a.totalSize) := by
  have hi := reach_inv hb h
  refine ⟨?_, ?_, ?_⟩
  · rw [List.pairwise_append]
    refine ⟨hi.srv, hi.dirp, fun s hs d hd => ?_⟩
    obtain ⟨-, a, ha, q1, q2⟩ := hi.inb s hs
    have := (hi.dir d hd).2 a ha
    have := (hi.ar a ha).2.2.2
    unfold Apart
    omega
  · intro x hx
    rcases List.mem_append.mp hx with hx | hx
    · exact (hi.inb x hx).1
    · exact (hi.dir x hx).1
  · intro x hx
    obtain ⟨-, a, ha, q1, q2⟩ := hi.inb x hx
    have := (hi.ar a ha)
    exact ⟨a, ha, q1, by omega⟩

/-- C38: a request that fits a bucket always succeeds; it opens a new bucket exactly when the current one has not enough left. -/
theorem C38_alloc_succeeds (bsize b : Nat) (hb : 16 ∣ bsize) (st : St) (h : Reach bsize b st) (size fromHeap : Nat)
    (hs : size ≤ bsize) (hf : Fresh st fromHeap bsize) :
    ∃ p st' last, alloc bsize st size 16 fromHeap = .ok (p, st') ∧ st'.served = ⟨p, size⟩ :: st.served ∧
      st.buckets.getLast? = some last ∧
      st'.buckets.length = st.buckets.length + (if last.totalUsed + size > bsize then 1 else 0) := by
  obtain ⟨q, st', e, -, hs', -, old, ho, hl⟩ := (alloc_spec hb (reach_inv hb h) (size := size) hf).1 hs
  exact ⟨q, st', old, e, hs', ho, hl⟩

/-- C38, refuted for requests larger than a bucket: the process is stopped although the heap could serve them. -/
theorem C38_oversize_refuted (bsize b : Nat) (hb : 16 ∣ bsize) (st : St) (h : Reach bsize b st) (size fromHeap : Nat)
    (hs : bsize < size) (hf : Fresh st fromHeap bsize) : alloc bsize st size 16 fromHeap = .stop :=
  (alloc_spec hb (reach_inv hb h) (size := size) hf).2 hs

/-- C38, refuted for resizes: the new block is not in any bucket but straight from the heap (and so is never released by
`deinit`, which frees the buckets only). -/
theorem C38_resize_not_in_bucket_refuted (bsize b : Nat) (hb : 16 ∣ bsize) (st st' : St) (h : Reach bsize b st)
    (old oldSize size h1 h2 p : Nat) (hpos : 0 < size) (hf : Fresh st h1 bsize) (hf2 : Fresh st h2 size)
    (hd : h1 + bsize ≤ h2 ∨ h2 + size ≤ h1) (he : resize bsize st old oldSize size h1 h2 = .ok (p, st')) :
    ∀ a ∈ st'.buckets, ¬ (a.start ≤ p ∧ p + size ≤ a.start + a.totalSize) := by
  have hi := reach_inv hb (Reach.resize h hf hf2 hd he)
  obtain ⟨st1, last, e1, i1, s1, d1, hl, -⟩ := open_spec (reach_inv hb h) (size := size) hf
  unfold resize at he
  rw [e1] at he
  simp only [Res.ok_bind, if_neg hf2.1] at he
  split at he
  · cases he
  · cases he
    intro a ha
    have h1 := (hi.dir ⟨h2, size⟩ (by simp)).2 a ha
    have h2 := (hi.ar a ha).1
    simp only at h1
    omega

/-- C38, refuted for a shrinking resize: more bytes are copied than the new block holds. -/
theorem C38_shrink_overflow_refuted (bsize b : Nat) (hb : 16 ∣ bsize) (st : St) (h : Reach bsize b st)
    (old oldSize size h1 h2 : Nat) (hf : Fresh st h1 bsize) (hf2 : Fresh st h2 size) (h0 : old ≠ 0) (hlt : size < oldSize) :
    resize bsize st old oldSize size h1 h2 = .ub := by
  obtain ⟨st1, last, e1, -⟩ := open_spec (reach_inv hb h) (size := size) hf
  unfold resize
  rw [e1]
  simp only [Res.ok_bind, if_neg hf2.1]
  rw [if_pos ⟨h0, hlt⟩]

/-- Non-vacuity: a reachable state with two buckets, three served blocks and a resized one. -/
example : ∃ st, Reach 64 4096 st ∧ st.served = [⟨8192, 48⟩, ⟨4112, 20⟩, ⟨4096, 10⟩] ∧ st.direct = [⟨16384, 16⟩] ∧
    st.buckets.length = 2 := by
  refine ⟨⟨[⟨4096, 64, 48⟩, ⟨8192, 64, 48⟩], [⟨8192, 48⟩, ⟨4112, 20⟩, ⟨4096, 10⟩], [⟨16384, 16⟩]⟩, ?_, rfl, rfl, rfl⟩
  have r0 := Reach.init (bsize := 64) (b := 4096) (by decide) (by decide)
  have r1 := Reach.alloc (size := 10) (h := 8192) (p := 4096) (st' := ⟨[⟨4096, 64, 16⟩], [⟨4096, 10⟩], []⟩) r0
    ⟨by decide, by decide, by decide, by decide⟩ rfl
  have r2 := Reach.alloc (size := 20) (h := 8192) (p := 4112) (st' := ⟨[⟨4096, 64, 48⟩], [⟨4112, 20⟩, ⟨4096, 10⟩], []⟩) r1
    ⟨by decide, by decide, by decide, by decide⟩ rfl
  have r3 := Reach.resize (old := 4096) (oldSize := 10) (size := 16) (h1 := 8192) (h2 := 16384) (p := 16384)
    (st' := ⟨[⟨4096, 64, 48⟩], [⟨4112, 20⟩, ⟨4096, 10⟩], [⟨16384, 16⟩]⟩) r2
    ⟨by decide, by decide, by decide, by decide⟩ ⟨by decide, by decide, by decide, by decide⟩ (by decide) rfl
  exact Reach.alloc (size := 48) (h := 8192) (p := 8192) r3 ⟨by decide, by decide, by decide, by decide⟩ rfl

end Verif.Fallback
