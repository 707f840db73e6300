import Verif.Model.MakeCode
import Verif.Props.Pool
/-!
# Property C23: fresh AST nodes
-/
namespace Verif.Code
open Verif.Mem

/-- The backing allocator is sane: every block it returns is non-null, mapped, below 2^64, and disjoint from the others. -/
structure GoodHeap (cfg : PCfg) (mem : Mem) (bs : List Nat) : Prop where
  npos : 0 < cfg.numBlocks
  blocks : ∀ b ∈ bs, b ≠ 0 ∧ b + cfg.numBlocks * (cfg.size + 16) < 2^64 ∧
    ∀ i, b ≤ i → i < b + cfg.numBlocks * (cfg.size + 16) → (mem i).isSome
  apart : bs.Pairwise (fun a b => a + cfg.numBlocks * (cfg.size + 16) ≤ b ∨ b + cfg.numBlocks * (cfg.size + 16) ≤ a)

/-- The states a program can reach: from `init`, by making nodes (as long as the backing allocator has a block in reserve)
and by writing inside nodes it has been given. -/
inductive Reach (cfg : PCfg) (mem : Mem) (b : Nat) (heap : List Nat) : PSt → Prop
  | init {st : PSt} (h : pinit cfg mem b heap = .ok st) : Reach cfg mem b heap st
  | make {st st' : PSt} (hr : Reach cfg mem b heap st) (hh : st.heap ≠ []) (h : pstep cfg st .make = .ok st') : Reach cfg mem b heap st'
  | write {st st' : PSt} {a : Nat} {v : UInt8} (hr : Reach cfg mem b heap st)
      (ha : ∃ p ∈ st.nodes, p ≤ a ∧ a < p + cfg.size) (h : pstep cfg st (.write a v) = .ok st') : Reach cfg mem b heap st'

/-- Bytes of one pool. -/
abbrev span (cfg : PCfg) : Nat := cfg.numBlocks * (cfg.size + 16)

structure MInv (cfg : PCfg) (st : PSt) : Prop where
  good : GoodHeap cfg st.mem (st.pools.map (·.start) ++ st.heap)
  last : ∃ pre L live, st.pools = pre ++ [L] ∧ Pool.Inv L.start cfg.numBlocks cfg.size 16 ⟨L, st.mem, live⟩ ∧
    ∀ x ∈ st.nodes, x ∈ live ∨ ∃ p ∈ pre, x ∈ Pool.blocks p.start (cfg.size + 16) cfg.numBlocks
  inb : ∀ x ∈ st.nodes, ∃ p ∈ st.pools, x ∈ Pool.blocks p.start (cfg.size + 16) cfg.numBlocks
  nodup : st.nodes.Nodup

theorem geo {cfg : PCfg} {mem : Mem} {bs : List Nat} (h : GoodHeap cfg mem bs) {b : Nat} (hb : b ∈ bs) :
    Pool.Geo b cfg.numBlocks cfg.size 16 :=
  ⟨(h.blocks b hb).1, h.npos, by omega, (h.blocks b hb).2.1⟩

theorem GoodHeap.mono {cfg : PCfg} {mem mem' : Mem} {bs : List Nat} (h : GoodHeap cfg mem bs)
    (hm : ∀ i, (mem i).isSome → (mem' i).isSome) : GoodHeap cfg mem' bs :=
  ⟨h.npos, fun b hb => ⟨(h.blocks b hb).1, (h.blocks b hb).2.1, fun i h1 h2 => hm i ((h.blocks b hb).2.2 i h1 h2)⟩, h.apart⟩

/-- A pool initialised in a good block. -/
theorem init_spec {cfg : PCfg} {mem : Mem} {bs : List Nat} (h : GoodHeap cfg mem bs) {b : Nat} (hb : b ∈ bs) :
    ∃ pool m', Pool.init mem b cfg.numBlocks cfg.size 16 = .ok (pool, m') ∧ pool.start = b ∧
      Pool.Inv b cfg.numBlocks cfg.size 16 ⟨pool, m', []⟩ ∧ pool.freeList = b ∧
      (∀ i, ¬ (b ≤ i ∧ i < b + span cfg) → m' i = mem i) ∧ (∀ i, (mem i).isSome → (m' i).isSome) := by
  obtain ⟨m', e, hi, hf⟩ := Pool.build_inv (geo h hb) (h.blocks b hb).2.2 ⟨b, b, cfg.size, 16, 0, cfg.numBlocks⟩ rfl rfl rfl rfl rfl
  refine ⟨_, m', by simp [Pool.init, e], rfl, hi, rfl, hf, ?_⟩
  intro i h1
  by_cases hin : b ≤ i ∧ i < b + span cfg
  · exact hi.map i hin.1 hin.2
  · rw [hf i hin]; exact h1

theorem pinit_inv {cfg : PCfg} {mem : Mem} {b : Nat} {heap : List Nat} (h : GoodHeap cfg mem (b :: heap)) :
    ∃ st, pinit cfg mem b heap = .ok st ∧ MInv cfg st ∧ st.heap = heap := by
  obtain ⟨pool, m', e, hs, hi, -, -, hm⟩ := init_spec h List.mem_cons_self
  refine ⟨⟨m', heap, [pool], []⟩, by simp only [pinit, e, Res.ok_bind], ⟨?_, ⟨[], pool, [], rfl, by rw [hs]; exact hi, by simp⟩, by simp, List.nodup_nil⟩, rfl⟩
  simp only [List.map_cons, List.map_nil, List.cons_append, List.nil_append, hs]
  exact h.mono hm

theorem ensurePool_spec {cfg : PCfg} {st : PSt} (h : MInv cfg st) (hh : 1 ≤ st.heap.length) :
    ∃ st', ensurePool cfg st = .ok st' ∧ MInv cfg st' ∧ st'.nodes = st.nodes ∧ st.heap.length ≤ st'.heap.length + 1 ∧
      (∀ L, st'.pools.getLast? = some L → L.freeList ≠ 0) ∧
      (∀ x ∈ st.nodes, ∀ i, x ≤ i → i < x + cfg.size → st'.mem i = st.mem i) := by
  obtain ⟨pre, L, live, e, hi, hn⟩ := h.last
  unfold ensurePool
  rw [e]
  simp only [List.getLast?_append, List.getLast?_singleton, Res.ofOption_some, Res.ok_bind, Option.some_or]
  by_cases hf : L.freeList = 0
  · rw [if_pos hf]
    obtain ⟨b, heap, hb⟩ : ∃ b heap, st.heap = b :: heap := by
      cases hx : st.heap with
      | nil => rw [hx] at hh; simp at hh
      | cons b heap => exact ⟨b, heap, rfl⟩
    have hmem : b ∈ st.pools.map (·.start) ++ st.heap := by rw [hb]; simp
    obtain ⟨pool, m', e1, hs, hi1, hfl, hfr, hm⟩ := init_spec h.good hmem
    simp only [hb, e1, Res.ok_bind]
    have sep : ∀ x ∈ st.nodes, x + cfg.size ≤ b ∨ b + span cfg ≤ x := by
      intro x hx
      obtain ⟨p, hp, hxb⟩ := h.inb x hx
      have hbd := Pool.blocks_bound hxb
      have hap := h.good.apart
      rw [hb, List.pairwise_append] at hap
      have := hap.2.2 p.start (List.mem_map.mpr ⟨p, hp, rfl⟩) b List.mem_cons_self
      unfold span
      omega
    refine ⟨_, rfl, ⟨?_, ⟨pre ++ [L], pool, [], rfl, by rw [hs]; exact hi1, ?_⟩, ?_, h.nodup⟩, rfl, by simp, ?_, ?_⟩
    · have := h.good.mono hm
      rw [e, hb] at this
      simpa [hs] using this
    · intro x hx
      right
      obtain ⟨p, hp, hxb⟩ := h.inb x hx
      exact ⟨p, by rw [← e]; exact hp, hxb⟩
    · intro x hx
      obtain ⟨p, hp, hxb⟩ := h.inb x hx
      exact ⟨p, by rw [e] at hp; exact List.mem_append_left _ hp, hxb⟩
    · intro L' hL'
      simp at hL'
      subst hL'
      rw [hfl]
      exact (h.good.blocks b hmem).1
    · intro x hx i h1 h2
      have := sep x hx
      exact hfr i (by omega)
  · rw [if_neg hf]
    refine ⟨st, rfl, h, rfl, by omega, ?_, fun _ _ _ _ _ => rfl⟩
    intro L' hL'
    rw [e] at hL'
    simp at hL'
    subst hL'
    exact hf

theorem makeCode_spec {cfg : PCfg} {st : PSt} (h : MInv cfg st) (hh : 1 ≤ st.heap.length) :
    ∃ p st', makeCode cfg st = .ok (p, st') ∧ MInv cfg st' ∧ st'.nodes = p :: st.nodes ∧ st.heap.length ≤ st'.heap.length + 1 ∧
      (∀ i, p ≤ i → i < p + cfg.size → st'.mem i = some 0) ∧
      (∀ x ∈ st.nodes, (x + cfg.size ≤ p ∨ p + cfg.size ≤ x) ∧ x ≠ p ∧ ∀ i, x ≤ i → i < x + cfg.size → st'.mem i = st.mem i) := by
  obtain ⟨st1, e1, h1, hn1, hh1, hf1, hfr1⟩ := ensurePool_spec h hh
  obtain ⟨pre, L, live, e, hi, hn⟩ := h1.last
  have hL : st1.pools.getLast? = some L := by rw [e]; simp
  have hfree := hf1 L hL
  have hLm : L ∈ st1.pools := by rw [e]; simp
  have hLr : L.start ∈ st1.pools.map (·.start) ++ st1.heap :=
    List.mem_append_left _ (List.mem_map.mpr ⟨L, hLm, rfl⟩)
  have g := geo h1.good hLr
  have hlt : live.length < cfg.numBlocks := by
    obtain ⟨fl, hc, hp⟩ := hi.ex
    have hlen := hp.length_eq
    rw [Pool.blocks_length, List.length_append] at hlen
    cases fl with
    | nil => simp only [Pool.Chain] at hc; exact absurd hc hfree
    | cons a l => simp only [List.length_cons] at hlen; omega
  obtain ⟨p, pool, m, ea, hnl, hinv, -, hm⟩ := Pool.alloc_spec g hi hlt
  simp only at ea hnl hm
  have hpb : p ∈ Pool.blocks L.start (cfg.size + 16) cfg.numBlocks := hinv.live_mem List.mem_cons_self
  have hbd := Pool.blocks_bound hpb
  have hp0 : p ≠ 0 := by have := g.ne; omega
  have hmap : ∀ i, (st1.mem i).isSome → (m i).isSome := by
    intro i hi'; rw [hm]; split
    · rfl
    · exact hi'
  have hset := memSet_cov m p 0 cfg.size hp0 (fun i a b => by rw [hm, if_pos ⟨a, b⟩]; rfl)
  have hsame : cov m (fun i => p ≤ i ∧ i < p + cfg.size) 0 = m := by
    funext i
    unfold cov
    by_cases hc : p ≤ i ∧ i < p + cfg.size
    · rw [hm]; simp only [if_pos hc]
    · simp only [if_neg hc]
  rw [hsame] at hset
  have hps : pool.start = L.start := hinv.pstart
  have hsep : ∀ x ∈ st1.nodes, x ≠ p ∧ (x + cfg.size ≤ p ∨ p + cfg.size ≤ x) := by
    intro x hx
    rcases hn x hx with hxl | ⟨q, hq, hxq⟩
    · have hne : x ≠ p := fun he => hnl (he ▸ hxl)
      have := Pool.blocks_apart (hi.live_mem hxl) hpb hne
      exact ⟨hne, by omega⟩
    · have hxb := Pool.blocks_bound hxq
      have hap := h1.good.apart
      rw [e] at hap
      simp only [List.map_append, List.map_cons, List.map_nil, List.append_assoc] at hap
      rw [List.pairwise_append] at hap
      have hap := hap.2.2 q.start (List.mem_map.mpr ⟨q, hq, rfl⟩) L.start (by simp)
      exact ⟨by omega, by omega⟩
  refine ⟨p, ⟨m, st1.heap, st1.pools.dropLast ++ [pool], p :: st1.nodes⟩, ?_, ⟨?_, ?_, ?_, ?_⟩, by rw [hn1], hh1, ?_, ?_⟩
  · unfold makeCode
    rw [e1]
    simp only [Res.ok_bind, hL, Res.ofOption_some, ea, hset]
  · have := h1.good.mono hmap
    rw [e] at this
    simp only [e, List.dropLast_append_cons, List.dropLast_singleton, List.append_nil]
    simpa [hps] using this
  · refine ⟨pre, pool, p :: live, by simp [e], by rw [hps]; exact hinv, ?_⟩
    intro x hx
    rcases List.mem_cons.mp hx with rfl | hx
    · exact Or.inl List.mem_cons_self
    · rcases hn x hx with h | h
      · exact Or.inl (List.mem_cons_of_mem _ h)
      · exact Or.inr h
  · intro x hx
    rcases List.mem_cons.mp hx with rfl | hx
    · exact ⟨pool, by simp, by rw [hps]; exact hpb⟩
    · obtain ⟨q, hq, hxq⟩ := h1.inb x hx
      rw [e] at hq
      simp only [List.mem_append, List.mem_singleton] at hq
      rcases hq with hq | rfl
      · exact ⟨q, by simp [e, hq], hxq⟩
      · exact ⟨pool, by simp, by rw [hps]; exact hxq⟩
  · simp only [List.nodup_cons]
    exact ⟨fun hx => (hsep p hx).1 rfl, h1.nodup⟩
  · intro i a b
    simp only
    rw [hm, if_pos ⟨a, b⟩]
  · intro x hx
    have hx1 : x ∈ st1.nodes := by rw [hn1]; exact hx
    obtain ⟨s1, s2⟩ := hsep x hx1
    refine ⟨s2, s1, fun i a b => ?_⟩
    simp only
    rw [hm, if_neg (by omega)]
    exact hfr1 x hx i a b

theorem write_inv {cfg : PCfg} {st st' : PSt} {a : Nat} {v : UInt8} (h : MInv cfg st)
    (ha : ∃ p ∈ st.nodes, p ≤ a ∧ a < p + cfg.size) (hs : pstep cfg st (.write a v) = .ok st') : MInv cfg st' := by
  obtain ⟨p, hp, h1, h2⟩ := ha
  obtain ⟨q, hq, hpb⟩ := h.inb p hp
  have hbd := Pool.blocks_bound hpb
  have hqr : q.start ∈ st.pools.map (·.start) ++ st.heap := List.mem_append_left _ (List.mem_map.mpr ⟨q, hq, rfl⟩)
  have hmapa : (st.mem a).isSome := (h.good.blocks q.start hqr).2.2 a (by omega) (by omega)
  simp only [pstep, store_eq hmapa, Res.ofOption_some, Res.ok_bind] at hs
  cases hs
  have hmm : ∀ i, (st.mem i).isSome → ((fun i => if i = a then some v else st.mem i) i).isSome := by
    intro i hi; simp only; split
    · rfl
    · exact hi
  obtain ⟨pre, L, live, e, hi, hn⟩ := h.last
  have hLm : L ∈ st.pools := by rw [e]; simp
  have hLr : L.start ∈ st.pools.map (·.start) ++ st.heap := List.mem_append_left _ (List.mem_map.mpr ⟨L, hLm, rfl⟩)
  have g := geo h.good hLr
  refine ⟨h.good.mono hmm, ⟨pre, L, live, e, ⟨hi.pstart, hi.pn, hi.pbs, hi.pba, fun i a b => hmm i (hi.map i a b), ?_⟩, hn⟩, h.inb, h.nodup⟩
  obtain ⟨fl, hc, hperm⟩ := hi.ex
  refine ⟨fl, Pool.Chain.congr (m := st.mem) (fun y hy => ?_) hc, hperm⟩
  have hyb : y ∈ Pool.blocks L.start (cfg.size + 16) cfg.numBlocks := hperm.mem_iff.mp (List.mem_append_left _ hy)
  have hyd := Pool.blocks_bound hyb
  have hsep : p ≠ y ∧ (p + (cfg.size + 16) ≤ y ∨ y + 8 ≤ p) := by
    rcases hn p hp with hpl | ⟨q', hq', hpq⟩
    · have hnd := hperm.nodup_iff.mpr (Pool.blocks_nodup (by omega))
      have hne : p ≠ y := by
        rintro rfl
        exact (List.nodup_append.mp hnd).2.2 p hy p hpl rfl
      have := Pool.blocks_apart (hi.live_mem hpl) hyb hne
      exact ⟨hne, by omega⟩
    · have hxb := Pool.blocks_bound hpq
      have hap := h.good.apart
      rw [e] at hap
      simp only [List.map_append, List.map_cons, List.map_nil, List.append_assoc] at hap
      rw [List.pairwise_append] at hap
      have hap := hap.2.2 q'.start (List.mem_map.mpr ⟨q', hq', rfl⟩) L.start (by simp)
      exact ⟨by omega, by omega⟩
  intro i g1 g2
  simp only
  rw [if_neg (by omega)]

theorem ne_len {α : Type} {l : List α} (h : l ≠ []) : 1 ≤ l.length := List.length_pos_iff.mpr h

theorem reach_inv {cfg : PCfg} {mem : Mem} {b : Nat} {heap : List Nat} (hg : GoodHeap cfg mem (b :: heap)) {st : PSt}
    (h : Reach cfg mem b heap st) : MInv cfg st := by
  induction h with
  | @init st1 h =>
    obtain ⟨st0, e, hi, hh⟩ := pinit_inv hg
    rw [h] at e; cases e
    exact hi
  | @make st st' hr hh h ih =>
    obtain ⟨p, st2, e, hi2, -⟩ := makeCode_spec ih (ne_len hh)
    simp only [pstep, e, Res.ok_bind] at h
    cases h
    exact hi2
  | @write st st' a v hr ha h ih => exact write_inv ih ha h

/-- C23: in every reachable state (any number of nodes, pool roll-overs and writes into nodes), `make_code` succeeds and
returns a node whose bytes are all zero, which shares no byte with any node returned before, and whose creation changes no
byte of any of them. -/
theorem C23_make_code_fresh (cfg : PCfg) (mem : Mem) (b : Nat) (heap : List Nat) (hg : GoodHeap cfg mem (b :: heap)) (st : PSt)
    (h : Reach cfg mem b heap st) (hh : st.heap ≠ []) :
    ∃ p st', makeCode cfg st = .ok (p, st') ∧ st'.nodes = p :: st.nodes ∧
      (∀ i, p ≤ i → i < p + cfg.size → st'.mem i = some 0) ∧
      (∀ x ∈ st.nodes, x ≠ p ∧ (x + cfg.size ≤ p ∨ p + cfg.size ≤ x) ∧ ∀ i, x ≤ i → i < x + cfg.size → st'.mem i = st.mem i) := by
  obtain ⟨p, st', e, -, hn, -, hz, hx⟩ := makeCode_spec (reach_inv hg h) (ne_len hh)
  exact ⟨p, st', e, hn, hz, fun x hxm => ⟨(hx x hxm).2.1, (hx x hxm).1, (hx x hxm).2.2⟩⟩

/-- C23: all nodes handed out are pairwise distinct and lie in blocks obtained from the backing allocator. -/
theorem C23_nodes_distinct (cfg : PCfg) (mem : Mem) (b : Nat) (heap : List Nat) (hg : GoodHeap cfg mem (b :: heap)) (st : PSt)
    (h : Reach cfg mem b heap st) :
    st.nodes.Nodup ∧ ∀ x ∈ st.nodes, ∃ p ∈ st.pools, p.start ≤ x ∧ x + cfg.size ≤ p.start + span cfg := by
  have hi := reach_inv hg h
  refine ⟨hi.nodup, fun x hx => ?_⟩
  obtain ⟨p, hp, hb⟩ := hi.inb x hx
  have := Pool.blocks_bound hb
  exact ⟨p, hp, this.1, by unfold span; omega⟩

/-- C23: `n` calls in a row with `n` spare blocks always succeed. -/
theorem C23_many (cfg : PCfg) (mem : Mem) (b : Nat) (heap : List Nat) (hg : GoodHeap cfg mem (b :: heap)) (n : Nat)
    (hn : n ≤ heap.length) : ∃ st, Reach cfg mem b heap st ∧ st.nodes.length = n ∧ heap.length ≤ st.heap.length + n := by
  induction n with
  | zero =>
    obtain ⟨st, e, -, hh⟩ := pinit_inv hg
    refine ⟨st, .init e, ?_, by rw [hh]; omega⟩
    simp only [pinit, Res.bind_eq_ok] at e
    obtain ⟨r, -, e⟩ := e
    cases e; rfl
  | succ n ih =>
    obtain ⟨st, hr, hl, hh⟩ := ih (by omega)
    have h1 : 1 ≤ st.heap.length := by omega
    obtain ⟨p, st', e, -, hn', hl', -⟩ := makeCode_spec (reach_inv hg hr) h1
    refine ⟨st', .make hr (by intro h0; rw [h0] at h1; simp at h1) (by simp only [pstep, e, Res.ok_bind]), by rw [hn']; simp [hl], by omega⟩

/-- Memory mapped on `[4096, 8192)`. -/
def mMem : Mem := fun i => if 4096 ≤ i ∧ i < 8192 then some 7 else none

/-- Non-vacuity: three pools of two 24-byte nodes. -/
example : GoodHeap ⟨2, 24⟩ mMem [4096, 4352, 4608] := by
  refine ⟨by decide, ?_, by decide⟩
  intro x hx
  have hx' : x = 4096 ∨ x = 4352 ∨ x = 4608 := by simpa using hx
  refine ⟨by omega, by simp only; omega, fun i h1 h2 => ?_⟩
  simp only at h2
  simp only [mMem]
  rw [if_pos (by omega)]; rfl

/-- Non-vacuity: five nodes roll over to two new pools. -/
example : (match (pinit ⟨2, 24⟩ mMem 4096 [4352, 4608]).bind fun s => (pstep ⟨2, 24⟩ s .make).bind fun s =>
      (pstep ⟨2, 24⟩ s .make).bind fun s => (pstep ⟨2, 24⟩ s .make).bind fun s => (pstep ⟨2, 24⟩ s .make).bind fun s =>
      pstep ⟨2, 24⟩ s .make with | .ok s => some s.nodes | _ => none) = some [4608, 4392, 4352, 4136, 4096] := by
  decide +kernel

end Verif.Code
