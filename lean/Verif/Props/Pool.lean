import Verif.Proof.Pool
/-!
# Properties C06 (pool allocator) and C07 (default resize)
-/
namespace Verif.Pool
open Mem

/-- The uses a program is allowed to make: free only live blocks (or null), write only inside a live block. -/
def Legal (bs : Nat) (s : St) : Op → Prop
  | .alloc => True
  | .free p => p = 0 ∨ p ∈ s.live
  | .clear => True
  | .freeAll => True
  | .write a _ => ∃ p ∈ s.live, p ≤ a ∧ a < p + bs

/-- States reachable from a freshly initialised pool by legal uses. -/
inductive Reach (start n bs ba : Nat) : St → Prop
  | init (m : Mem) (pool : Pool) (m' : Mem) (hm : ∀ i, start ≤ i → i < start + n * (bs + ba) → (m i).isSome)
      (hi : Pool.init m start n bs ba = .ok (pool, m')) : Reach start n bs ba ⟨pool, m', []⟩
  | step {s s' : St} (op : Op) (hr : Reach start n bs ba s) (hl : Legal bs s op) (hs : step s op = .ok s') :
      Reach start n bs ba s'

/-- `pool_init` succeeds on any mapped backing memory of the requested size. -/
theorem C06_init_ok {start n bs ba : Nat} (g : Geo start n bs ba) (m : Mem)
    (hm : ∀ i, start ≤ i → i < start + n * (bs + ba) → (m i).isSome) :
    ∃ pool m', Pool.init m start n bs ba = .ok (pool, m') := by
  obtain ⟨m', e, -⟩ := build_inv g hm ⟨start, start, bs, ba, 0, n⟩ rfl rfl rfl rfl rfl
  exact ⟨_, m', by simp [Pool.init, e]; rfl⟩

theorem step_inv {start n bs ba : Nat} (g : Geo start n bs ba) {s : St} (h : Inv start n bs ba s) (op : Op)
    (hl : Legal bs s op) :
    (op = .alloc ∧ n ≤ s.live.length ∧ step s op = .stop) ∨ ∃ s', step s op = .ok s' ∧ Inv start n bs ba s' := by
  cases op with
  | alloc =>
    by_cases hlt : s.live.length < n
    · right
      obtain ⟨p, pool, m, e, _, hi, _⟩ := alloc_spec g h hlt
      exact ⟨⟨pool, m, p :: s.live⟩, by simp [step, h.pbs, h.pba, e], hi⟩
    · left
      exact ⟨rfl, by omega, by simp [step, h.pbs, h.pba, alloc_full h (by omega)]⟩
  | free p =>
    right
    rcases hl with rfl | hp
    · refine ⟨⟨s.pool, s.mem, s.live.erase 0⟩, by simp [step, free], ?_⟩
      have : (0:Nat) ∉ s.live := fun hc => by
        have h1 := blocks_bound (h.live_mem hc)
        have := g.ne; omega
      rw [List.erase_of_not_mem this]
      exact h
    · obtain ⟨pool, m, e, hi, _⟩ := free_spec g h hp
      exact ⟨⟨pool, m, s.live.erase p⟩, by simp [step, e], hi⟩
  | clear =>
    right
    obtain ⟨m', e, hi, _⟩ := build_inv g h.map { s.pool with freeList := s.pool.start } h.pstart h.pn h.pbs h.pba h.pstart
    refine ⟨_, ?_, hi⟩
    simp only [step, clear, stride, h.pstart, h.pn, h.pbs, h.pba, e, Res.bind_eq, Res.ofOption_some, Res.ok_bind, Res.pure_eq]
  | freeAll =>
    right
    obtain ⟨m', e, hi, _⟩ := build_inv g h.map { s.pool with freeList := s.pool.start, totalSize := 0 } h.pstart h.pn h.pbs h.pba h.pstart
    refine ⟨_, ?_, hi⟩
    simp only [step, freeAll, stride, h.pstart, h.pn, h.pbs, h.pba, e, Res.bind_eq, Res.ofOption_some, Res.ok_bind, Res.pure_eq]
  | write a v =>
    right
    obtain ⟨p, hp, h1, h2⟩ := hl
    have hpb := h.live_mem hp
    have hb := blocks_bound hpb
    have hst := store_eq (m := s.mem) (a := a) (v := v) (h.map a (by omega) (by omega))
    refine ⟨⟨s.pool, fun i => if i = a then some v else s.mem i, s.live⟩, by simp only [step, hst, Res.bind_eq, Res.ofOption_some, Res.ok_bind, Res.pure_eq], ?_⟩
    obtain ⟨fl, hc, hperm⟩ := h.ex
    refine ⟨h.pstart, h.pn, h.pbs, h.pba, ?_, fl, ?_, hperm⟩
    · intro i g1 g2
      simp only
      split
      · rfl
      · exact h.map i g1 g2
    · refine Chain.congr (m := s.mem) (fun y hy => ?_) hc
      intro i g1 g2
      have hyb : y ∈ blocks start (bs+ba) n := hperm.mem_iff.mp (by simp [hy])
      have hnd := hperm.nodup_iff.mpr (blocks_nodup (by have := g.h8; omega))
      have hne : p ≠ y := by
        intro e; subst e
        exact (List.nodup_append.mp hnd).2.2 p hy p hp rfl
      have := blocks_apart hpb hyb hne
      have h8 := g.h8
      simp only
      rw [if_neg (by omega)]

theorem reach_inv {start n bs ba : Nat} (g : Geo start n bs ba) {s : St} (h : Reach start n bs ba s) :
    Inv start n bs ba s := by
  induction h with
  | init m pool m' hm hi =>
    obtain ⟨m'', e, hinv, _⟩ := build_inv g hm ⟨start, start, bs, ba, 0, n⟩ rfl rfl rfl rfl rfl
    simp only [Pool.init, e, Res.bind_eq, Res.ofOption_some, Res.ok_bind, Res.pure_eq, Res.ok.injEq, Prod.mk.injEq] at hi
    obtain ⟨rfl, rfl⟩ := hi
    exact hinv
  | step op hr hl hs ih =>
    rcases step_inv g ih op hl with ⟨_, _, e⟩ | ⟨s', e, hi⟩
    · rw [e] at hs; cases hs
    · rw [e] at hs; cases hs; exact hi

/-- C06: in every reachable state the live blocks are pairwise disjoint, each is one of the `n` slots and lies inside
the backing memory, and there are at most `n` of them. -/
theorem C06_live_blocks_sound {start n bs ba : Nat} (g : Geo start n bs ba) {s : St} (h : Reach start n bs ba s) :
    s.live.length ≤ n ∧
    (∀ p ∈ s.live, (∃ i, i < n ∧ p = start + i * (bs + ba)) ∧ start ≤ p ∧ p + bs ≤ start + n * (bs + ba)) ∧
    s.live.Pairwise (fun p q => p + bs ≤ q ∨ q + bs ≤ p) := by
  have hi := reach_inv g h
  refine ⟨?_, ?_, ?_⟩
  · obtain ⟨fl, _, hperm⟩ := hi.ex
    have := hperm.length_eq
    rw [blocks_length, List.length_append] at this
    omega
  · intro p hp
    have hb := hi.live_mem hp
    have := blocks_bound hb
    exact ⟨mem_blocks.mp hb, by omega, by omega⟩
  · have hnd := hi.live_nodup g
    refine List.Pairwise.imp_of_mem ?_ hnd
    intro p q hp hq hne
    have := blocks_apart (hi.live_mem hp) (hi.live_mem hq) hne
    omega

/-- C06: an allocation succeeds exactly while fewer than `n` blocks are live; it then returns a block that is not live,
cleared to zero, and changes no other byte. With `n` live blocks it stops. -/
theorem C06_alloc {start n bs ba : Nat} (g : Geo start n bs ba) {s : St} (h : Reach start n bs ba s) :
    (s.live.length < n → ∃ p pool m, s.pool.alloc s.mem bs ba = .ok (p, pool, m) ∧ p ∉ s.live ∧
        (∀ q ∈ s.live, p + bs ≤ q ∨ q + bs ≤ p) ∧ start ≤ p ∧ p + bs ≤ start + n * (bs + ba) ∧
        (∀ i, m i = if p ≤ i ∧ i < p + bs then some 0 else s.mem i)) ∧
    (s.live.length = n → s.pool.alloc s.mem bs ba = .stop) := by
  have hi := reach_inv g h
  refine ⟨fun hlt => ?_, fun he => alloc_full hi (by omega)⟩
  obtain ⟨p, pool, m, e, hnl, hinv, _, hm⟩ := alloc_spec g hi hlt
  have hpb : p ∈ blocks start (bs+ba) n := hinv.live_mem (List.mem_cons_self)
  have hb := blocks_bound hpb
  refine ⟨p, pool, m, e, hnl, ?_, by omega, by omega, hm⟩
  intro q hq
  have := blocks_apart hpb (hi.live_mem hq) (fun e => hnl (e ▸ hq))
  omega

/-- C06: no legal use of a reachable pool is undefined behaviour; the only way to stop is to allocate with every block
live. -/
theorem C06_no_fault {start n bs ba : Nat} (g : Geo start n bs ba) {s : St} (h : Reach start n bs ba s) (op : Op)
    (hl : Legal bs s op) :
    (∃ s', step s op = .ok s') ∨ (op = .alloc ∧ s.live.length = n ∧ step s op = .stop) := by
  have hb := (C06_live_blocks_sound g h).1
  rcases step_inv g (reach_inv g h) op hl with ⟨h1, h2, h3⟩ | ⟨s', e, _⟩
  · exact Or.inr ⟨h1, by omega, h3⟩
  · exact Or.inl ⟨s', e⟩

/-- C06: freeing a block changes no byte of any other live block. -/
theorem C06_free_frame {start n bs ba : Nat} (g : Geo start n bs ba) {s : St} (h : Reach start n bs ba s) {p : Nat}
    (hp : p ∈ s.live) :
    ∃ pool m, s.pool.free s.mem p = .ok (pool, m) ∧
      ∀ q ∈ s.live, q ≠ p → ∀ i, q ≤ i → i < q + bs → m i = s.mem i := by
  have hi := reach_inv g h
  obtain ⟨pool, m, e, hinv, _, hm⟩ := free_spec g hi hp
  refine ⟨pool, m, e, fun q hq hne i h1 h2 => hm i ?_⟩
  have := blocks_apart (hi.live_mem hq) (hi.live_mem hp) hne
  have := g.h8
  omega

/-- C06: a freed block is the next one handed out. -/
theorem C06_free_then_alloc {start n bs ba : Nat} (g : Geo start n bs ba) {s : St} (h : Reach start n bs ba s) {p : Nat}
    (hp : p ∈ s.live) :
    ∃ pool m, s.pool.free s.mem p = .ok (pool, m) ∧ ∃ pool' m', pool.alloc m bs ba = .ok (p, pool', m') := by
  have hi := reach_inv g h
  obtain ⟨pool, m, e, hinv, _, hm⟩ := free_spec g hi hp
  refine ⟨pool, m, e, ?_⟩
  have hlt : (s.live.erase p).length < n := by
    rw [List.length_erase_of_mem hp]
    have := List.length_pos_of_mem hp
    have := (C06_live_blocks_sound g h).1
    omega
  obtain ⟨q, pool', m', e', -⟩ := alloc_spec g hinv hlt
  have hq : q = pool.freeList := by
    unfold alloc at e'
    simp only [Res.bind_eq, Res.bind_eq_ok, Res.pure_eq, Res.ok.injEq, Prod.mk.injEq] at e'
    obtain ⟨_, _, _, _, _, _, _, _, _, _, rfl, _⟩ := e'
    rfl
  have hf : pool.freeList = p := by
    unfold free at e
    have hp0 : p ≠ 0 := by
      have := blocks_bound (hi.live_mem hp)
      have := g.ne
      omega
    rw [if_neg hp0] at e
    simp only [Res.bind_eq, Res.bind_eq_ok, Res.pure_eq, Res.ok.injEq, Prod.mk.injEq] at e
    obtain ⟨_, _, rfl, _⟩ := e
    rfl
  exact ⟨pool', m', by rw [← hf, ← hq]; exact e'⟩

/-- C06: the counter `TotalSize` is `BlockSize` times the number of live blocks, in every history that does not call
`pool_clear`. -/
inductive ReachNoClear (start n bs ba : Nat) : St → Prop
  | init (m : Mem) (pool : Pool) (m' : Mem) (hm : ∀ i, start ≤ i → i < start + n * (bs + ba) → (m i).isSome)
      (hi : Pool.init m start n bs ba = .ok (pool, m')) : ReachNoClear start n bs ba ⟨pool, m', []⟩
  | step {s s' : St} (op : Op) (hr : ReachNoClear start n bs ba s) (hl : Legal bs s op) (hc : op ≠ .clear)
      (hs : step s op = .ok s') : ReachNoClear start n bs ba s'

theorem ReachNoClear.reach {start n bs ba : Nat} {s : St} (h : ReachNoClear start n bs ba s) : Reach start n bs ba s := by
  induction h with
  | init m pool m' hm hi => exact .init m pool m' hm hi
  | step op _ hl _ hs ih => exact .step op ih hl hs

theorem C06_total_size {start n bs ba : Nat} (g : Geo start n bs ba) {s : St} (h : ReachNoClear start n bs ba s) :
    s.pool.totalSize = (bs : Int) * s.live.length := by
  induction h with
  | init m pool m' hm hi =>
    simp only [Pool.init, Res.bind_eq, Res.bind_eq_ok, Res.pure_eq, Res.ok.injEq, Prod.mk.injEq] at hi
    obtain ⟨_, _, rfl, _⟩ := hi
    simp
  | @step s s' op hr hl hc hs ih =>
    have hi := reach_inv g hr.reach
    cases op with
    | alloc =>
      by_cases hlt : s.live.length < n
      · obtain ⟨p, pool, m, e, _, _, ht, _⟩ := alloc_spec g hi hlt
        simp [Pool.step, hi.pbs, hi.pba, e] at hs
        subst hs
        simp only [ht, ih, List.length_cons, Int.natCast_add, Int.mul_add]
        simp
      · simp [Pool.step, hi.pbs, hi.pba, alloc_full hi (by omega)] at hs
    | free p =>
      rcases hl with rfl | hp
      · have h0 : (0:Nat) ∉ s.live := fun hc => by
          have h1 := blocks_bound (hi.live_mem hc)
          have := g.ne; omega
        simp [Pool.step, free] at hs
        subst hs
        simp only [List.erase_of_not_mem h0, ih]
      · obtain ⟨pool, m, e, _, ht, _⟩ := free_spec g hi hp
        simp [Pool.step, e] at hs
        subst hs
        have := List.length_pos_of_mem hp
        simp only [ht, ih, List.length_erase_of_mem hp]
        rw [Int.natCast_sub (by omega), Int.mul_sub]
        simp
    | clear => exact absurd rfl hc
    | freeAll =>
      simp only [Pool.step, freeAll, Res.bind_eq, Res.bind_eq_ok, Res.pure_eq, Res.ok.injEq] at hs
      obtain ⟨_, ⟨_, _, rfl⟩, rfl⟩ := hs
      simp
    | write a v =>
      simp only [Pool.step, Res.bind_eq, Res.bind_eq_ok, Res.pure_eq, Res.ok.injEq] at hs
      obtain ⟨_, _, rfl⟩ := hs
      exact ih

/-- C06: blocks are aligned when the block size is a multiple of the block alignment and the start is aligned. -/
theorem C06_aligned {start n bs ba : Nat} (g : Geo start n bs ba) {s : St} (h : Reach start n bs ba s)
    (h1 : ba ∣ start) (h2 : ba ∣ bs) : ∀ p ∈ s.live, ba ∣ p := by
  intro p hp
  obtain ⟨i, _, rfl⟩ := mem_blocks.mp ((reach_inv g h).live_mem hp)
  exact Nat.dvd_add h1 (Nat.dvd_trans (Nat.dvd_add h2 (Nat.dvd_refl _)) (Nat.dvd_mul_left _ _))

/-- A memory with all of `[4096, 8192)` mapped to zero. -/
def testMem : Mem := fun i => if 4096 ≤ i ∧ i < 8192 then some 0 else none

/-- Run a list of uses. -/
def runOps : St → List Op → Res St
  | s, [] => .ok s
  | s, op :: ops => do
    let s' ← step s op
    runOps s' ops

/-- Observable part of a state. -/
def view (r : Res St) : Option (List Nat × Int) :=
  match r with
  | .ok s => some (s.live, s.pool.totalSize)
  | _ => none

def testInit (n bs ba : Nat) : Res St :=
  (Pool.init testMem 4096 n bs ba).bind fun (p, m) => .ok ⟨p, m, []⟩

/-- Non-vacuity of the geometry and of a non-trivial history. -/
example : Geo 4096 3 16 16 := ⟨by decide, by decide, by decide, by decide⟩
example : view ((testInit 3 16 16).bind fun s => runOps s [.alloc, .alloc, .write 4130 7, .free 4096, .alloc, .alloc])
    = some ([4160, 4096, 4128], 48) := by decide +kernel

/-- C06, refutation for illegal histories: after a double free the same block is handed out twice. -/
theorem C06_double_free_refuted :
    view ((testInit 3 16 16).bind fun s => runOps s [.alloc, .free 4096, .free 4096, .alloc, .alloc])
      = some ([4096, 4096], 16) := by decide +kernel

/-- C06, refutation: `pool_clear` releases every block but leaves `TotalSize` as it was. -/
theorem C06_clear_total_size_refuted :
    view ((testInit 3 16 16).bind fun s => runOps s [.alloc, .alloc, .clear]) = some ([], 32) := by decide +kernel

/-- C06, refutation: with a block size that is not a multiple of the alignment the second block is misaligned. -/
theorem C06_misaligned_block :
    view ((testInit 3 24 16).bind fun s => runOps s [.alloc, .alloc]) = some ([4136, 4096], 48) ∧ 4136 % 16 = 8 := by
  decide +kernel

end Verif.Pool

namespace Verif

/-- What is assumed of the allocator used by a resize: it returns null, or a fresh mapped block disjoint from the old
one and leaves the old block's bytes alone; freeing changes no byte of the new block. -/
structure GoodAlloc (alloc : Mem → Nat → Res (Nat × Mem)) (free : Mem → Nat → Res Mem)
    (m : Mem) (old oldSize newSize : Nat) : Prop where
  alloc_ok : ∃ p m1, alloc m newSize = .ok (p, m1) ∧ (p ≠ 0 →
    (p + newSize ≤ old ∨ old + oldSize ≤ p) ∧ (∀ i, p ≤ i → i < p + newSize → (m1 i).isSome) ∧
    (∀ i, old ≤ i → i < old + oldSize → m1 i = m i) ∧
    ∀ m2, ∃ m3, free m2 old = .ok m3 ∧ ∀ i, p ≤ i → i < p + newSize → m3 i = m2 i)

/-- C07: growing a block gives a block that starts with all the old bytes (or null if the allocator is out of memory). -/
theorem C07_resize_grow (alloc : Mem → Nat → Res (Nat × Mem)) (free : Mem → Nat → Res Mem)
    (m : Mem) (old oldSize newSize : Nat) (hold : old ≠ 0) (hlt : oldSize < newSize)
    (hm : ∀ i, old ≤ i → i < old + oldSize → (m i).isSome) (ga : GoodAlloc alloc free m old oldSize newSize) :
    ∃ p m', defaultResizeAlign alloc free m old oldSize newSize = .ok (p, m') ∧
      (p ≠ 0 → ∀ i, i < oldSize → m' (p + i) = m (old + i)) := by
  obtain ⟨p, m1, ea, hp⟩ := ga.alloc_ok
  unfold defaultResizeAlign
  rw [if_neg hold, if_neg (by omega)]
  simp only
  rw [if_neg (by omega : ¬ newSize < oldSize), if_neg (by omega)]
  simp only [Res.bind_eq, ea, Res.ok_bind]
  by_cases h0 : p = 0
  · rw [if_pos h0]; exact ⟨0, m1, rfl, fun h => absurd rfl h⟩
  · rw [if_neg h0]
    obtain ⟨hd, hmap, hsame, hfree⟩ := hp h0
    have hmv := Mem.memMove_mv (m0 := m1) (dest := p) (src := old) (n := min newSize oldSize) h0
      (fun i h1 h2 => by rw [hsame i h1 (by omega)]; exact hm i h1 (by omega))
      (fun i h1 h2 => hmap i h1 (by omega))
    rw [hmv]
    obtain ⟨m3, ef, hs3⟩ := hfree (Mem.mv m1 p old 0 (min newSize oldSize))
    refine ⟨p, m3, by simp [ef], fun _ i hi => ?_⟩
    rw [hs3 (p + i) (by omega) (by omega)]
    unfold Mem.mv
    rw [if_pos (by omega)]
    rw [show old + (p + i - p) = old + i by omega]
    exact hsame _ (by omega) (by omega)

/-- C07: asking for a smaller (nonzero) or equal size returns the same block untouched. -/
theorem C07_resize_shrink (alloc : Mem → Nat → Res (Nat × Mem)) (free : Mem → Nat → Res Mem)
    (m : Mem) (old oldSize newSize : Nat) (hold : old ≠ 0) (hn : newSize ≠ 0) (hle : newSize ≤ oldSize) :
    defaultResizeAlign alloc free m old oldSize newSize = .ok (old, m) := by
  unfold defaultResizeAlign
  rw [if_neg hold, if_neg hn]
  simp only
  by_cases h : newSize < oldSize
  · rw [if_pos h, if_pos rfl]
  · rw [if_neg h, if_pos (by omega)]

/-- C07: size 0 frees the block and returns null; a null old block is an allocation. -/
theorem C07_resize_zero (alloc : Mem → Nat → Res (Nat × Mem)) (free : Mem → Nat → Res Mem)
    (m : Mem) (old oldSize : Nat) (hold : old ≠ 0) (m' : Mem) (hf : free m old = .ok m') :
    defaultResizeAlign alloc free m old oldSize 0 = .ok (0, m') := by
  unfold defaultResizeAlign
  rw [if_neg hold, if_pos rfl]
  simp [hf]

theorem C07_resize_null (alloc : Mem → Nat → Res (Nat × Mem)) (free : Mem → Nat → Res Mem)
    (m : Mem) (oldSize newSize : Nat) :
    defaultResizeAlign alloc free m 0 oldSize newSize = alloc m newSize := if_pos rfl

/-- Non-vacuity: a bump allocation in unused memory meets `GoodAlloc`, for every old and new size. -/
example (oldSize newSize : Nat) :
    GoodAlloc (fun m _ => .ok (4096 + oldSize, m)) (fun m _ => .ok m)
      (fun i => if 4096 ≤ i then some 1 else none) 4096 oldSize newSize := by
  refine ⟨_, _, rfl, fun _ => ⟨Or.inr (by omega), ?_, fun _ _ _ => rfl, fun m2 => ⟨m2, rfl, fun _ _ _ => rfl⟩⟩⟩
  intro i h1 _
  rw [if_pos (by omega)]; rfl

end Verif
