import Verif.Model.StrCache
import Verif.Proof.Arena
import Verif.Proof.Pool
import Verif.Props.Arena
import Verif.Props.HashTable
/-! Helper lemmas for interning and the macro registry. -/
namespace Verif.Ctx
open Verif.Mem

/-- The characters of `s`, then a NUL, are at address `p`. -/
def Stored (m : Mem) (p : Nat) (s : Bytes) : Prop := ∀ t, t < s.length + 1 → m (p + t) = (s ++ [0])[t]?

theorem Stored.load {m : Mem} {p : Nat} {s : Bytes} (h : Stored m p s) : m.loadN p s.length = some s :=
  loadN_bytes fun t ht => by rw [h t (by omega), List.getElem?_append_left ht]

theorem Stored.nul {m : Mem} {p : Nat} {s : Bytes} (h : Stored m p s) : m (p + s.length) = some 0 := by
  rw [h s.length (by omega)]; simp

theorem Stored.congr {m m' : Mem} {p : Nat} {s : Bytes} (h : Stored m p s)
    (hs : ∀ i, p ≤ i → i < p + s.length + 1 → m' i = m i) : Stored m' p s := by
  intro t ht
  rw [hs (p+t) (by omega) (by omega)]
  exact h t ht

theorem header_length (a b n : Nat) : (header a b n).length = 32 := by
  simp [header, leBytes_length]

theorem header_len_word (a b n t : Nat) (ht : t < 8) : (header a b n)[24 + t]? = (leBytes 8 n)[t]? := by
  unfold header
  rw [List.getElem?_append_right (by simp [leBytes_length])]
  congr 1
  simp [leBytes_length]

/-- Filling a mapped block stores the string and its length and changes nothing outside. -/
theorem fillStr_spec {m : Mem} {p : Nat} {s : Bytes} (hp : p ≠ 0) (hm : Map m p (33 + s.length)) (hn : s.length < 2^64) :
    ∃ m', fillStr m p 0 0 s = some m' ∧ Stored m' (p + 32) s ∧ loadWord m' (p + 24) = some s.length ∧
      (∀ i, ¬ (p ≤ i ∧ i < p + (33 + s.length)) → m' i = m i) ∧ (∀ i, (m i).isSome → (m' i).isSome) := by
  unfold fillStr
  have h32 := header_length 0 0 s.length
  have e1 := storeN_eq (w := header 0 0 s.length) (m := m) (a := p) (by
    rw [h32]; exact fun i h1 h2 => hm i h1 (by omega))
  rw [e1, Option.bind_some]
  rw [h32]
  generalize hm1 : (fun i : Nat => if p ≤ i ∧ i < p + 32 then (header 0 0 s.length)[i - p]? else m i) = m1
  have f1 : ∀ i, m1 i = if p ≤ i ∧ i < p + 32 then (header 0 0 s.length)[i - p]? else m i := fun i => by rw [← hm1]
  have mp1 : ∀ i, (m i).isSome → (m1 i).isSome := by
    intro i hi
    rw [f1]; split
    · rw [List.getElem?_eq_getElem (by rw [h32]; omega)]; rfl
    · exact hi
  have key : ∃ m2 : Mem, (if s.length ≠ 0 then Mem.storeN m1 (p + 32) s else Mem.memSet m1 (p + 32) 0 1) = some m2 ∧
      (∀ t, t < s.length → m2 (p + 32 + t) = s[t]?) ∧
      (∀ i, ¬ (p + 32 ≤ i ∧ i < p + 33 + s.length) → m2 i = m1 i) ∧ (∀ i, (m1 i).isSome → (m2 i).isSome) := by
    by_cases h0 : s.length ≠ 0
    · rw [if_pos h0]
      rw [storeN_eq (w := s) (m := m1) (a := p+32) (fun i h1 h2 => mp1 i (hm i (by omega) (by omega)))]
      refine ⟨_, rfl, ?_, ?_, ?_⟩
      · intro t ht; rw [if_pos (by omega)]; congr 1; omega
      · intro i hi; rw [if_neg (by omega)]
      · intro i hi; split
        · rw [List.getElem?_eq_getElem (by omega)]; rfl
        · exact hi
    · rw [if_neg h0]
      rw [memSet_cov m1 (p+32) 0 1 (by omega) (fun i h1 h2 => mp1 i (hm i (by omega) (by omega)))]
      refine ⟨_, rfl, ?_, ?_, ?_⟩
      · intro t ht; omega
      · intro i hi; unfold cov; rw [if_neg (by omega)]
      · intro i hi; unfold cov; split <;> simp [hi]
  obtain ⟨m2, e2, c2, fr2, mp2⟩ := key
  rw [e2, Option.bind_some]
  rw [store_eq (mp2 _ (mp1 _ (hm _ (by omega) (by omega))))]
  refine ⟨_, rfl, ?_, ?_, ?_, ?_⟩
  · intro t ht
    simp only
    by_cases htl : t = s.length
    · subst htl
      rw [if_pos rfl]; simp
    · rw [if_neg (by omega), c2 t (by omega), List.getElem?_append_left (by omega)]
  · have hl8 := leBytes_length 8 s.length
    have : loadN (fun i => if i = p + 32 + s.length then some 0 else m2 i) (p + 24) (leBytes 8 s.length).length =
        some (leBytes 8 s.length) := by
      apply loadN_bytes
      intro t ht
      rw [hl8] at ht
      rw [if_neg (by omega), fr2 _ (by omega), f1, if_pos (by omega)]
      rw [show p + 24 + t - p = 24 + t by omega]
      exact header_len_word 0 0 s.length t ht
    rw [hl8] at this
    unfold loadWord
    rw [this]
    simp only [Option.map_some]
    rw [leWord_leBytes 8 _ (by simpa using hn)]
  · intro i hi
    rw [if_neg (by omega), fr2 i (by omega), f1, if_neg (by omega)]
  · intro i hi
    split
    · rfl
    · exact mp2 i (mp1 i hi)

/-- The addresses of the arenas in use and of those still to come. -/
def regions (st : St) : List Nat := st.arenas.map (·.start) ++ st.heap

/-- Memory layout invariant. -/
structure Lay (cfg : Cfg) (st : St) : Prop where
  ne : st.arenas ≠ []
  reg : ∀ b ∈ regions st, b ≠ 0 ∧ 16 ∣ b ∧ Map st.mem b cfg.arenaSize
  apart : (regions st).Pairwise (fun a b => a + cfg.arenaSize ≤ b ∨ b + cfg.arenaSize ≤ a)
  ar : ∀ a ∈ st.arenas, a.totalSize = cfg.arenaSize ∧ 16 ∣ a.totalUsed ∧ a.totalUsed ≤ a.totalSize

/-- `s` is stored at `r` in the used part of an arena. -/
def Interned (st : St) (s : Bytes) (r : Ref) : Prop :=
  r.len = s.length ∧ Stored st.mem r.ptr s ∧
  ∃ a ∈ st.arenas, a.start ≤ r.ptr ∧ r.ptr + s.length + 1 ≤ a.start + a.totalUsed

theorem last_split {α : Type} {l : List α} (h : l ≠ []) : ∃ pre x, l = pre ++ [x] ∧ l.getLast? = some x ∧ l.dropLast = pre :=
  ⟨l.dropLast, l.getLast h, (List.dropLast_concat_getLast h).symm, List.getLast?_eq_some_getLast h, rfl⟩

/-- `get_cached_str_allocator`: afterwards the last arena has room. -/
theorem getAlloc_spec {cfg : Cfg} {st : St} (h : Lay cfg st) (hc : 16 ∣ cfg.arenaSize) {n : Nat}
    (hn : n + 33 ≤ cfg.arenaSize) (hh : 1 ≤ st.heap.length) :
    ∃ st', getCachedStrAllocator cfg st n = .ok st' ∧ Lay cfg st' ∧ st'.mem = st.mem ∧ st'.cache = st.cache ∧
      st'.macros = st.macros ∧ st.heap.length ≤ st'.heap.length + 1 ∧
      (∀ s r, Interned st s r → Interned st' s r) ∧
      (∀ last, st'.arenas.getLast? = some last → last.totalUsed + alignForwardS64 (32 + n + 1) 16 ≤ last.totalSize) := by
  obtain ⟨pre, last, e, hg, -⟩ := last_split h.ne
  have hlast : last ∈ st.arenas := by rw [e]; simp
  obtain ⟨z1, z2, z3⟩ := h.ar last hlast
  obtain ⟨a1, a2, a3⟩ := alignForwardS64_spec (32 + n + 1) 16 (by omega)
  unfold getCachedStrAllocator
  rw [hg]
  simp only [Res.ofOption_some, Res.ok_bind]
  by_cases hfull : last.totalUsed + (n + 32 + 8) > last.totalSize
  · rw [if_pos hfull]
    obtain ⟨b, heap, hb⟩ : ∃ b heap, st.heap = b :: heap := by
      cases hx : st.heap with
      | nil => rw [hx] at hh; simp at hh
      | cons b heap => exact ⟨b, heap, rfl⟩
    simp only [newArena, hb]
    have hreg : regions { st with heap := heap, arenas := st.arenas ++ [⟨b, cfg.arenaSize, 0⟩] } = regions st := by
      simp [regions, hb]
    refine ⟨_, rfl, ⟨by simp, ?_, ?_, ?_⟩, rfl, rfl, rfl, by simp, ?_, ?_⟩
    · rw [hreg]; exact h.reg
    · rw [hreg]; exact h.apart
    · intro a ha
      simp only [List.mem_append, List.mem_singleton] at ha
      rcases ha with ha | ha
      · exact h.ar a ha
      · subst ha; simp
    · rintro s r ⟨i1, i2, a, ha, i3⟩
      exact ⟨i1, i2, a, by simp [ha], i3⟩
    · intro l hl
      simp at hl
      subst hl
      simp only
      omega
  · rw [if_neg hfull]
    refine ⟨st, rfl, h, rfl, rfl, rfl, by omega, fun _ _ h => h, ?_⟩
    intro l hl
    rw [hg] at hl
    cases hl
    omega

/-- `strbuilder_make_str` in the last arena. -/
theorem makeStr_spec {cfg : Cfg} {st : St} (h : Lay cfg st) (s : Bytes) (hn : s.length < 2^64)
    (hroom : ∀ last, st.arenas.getLast? = some last → last.totalUsed + alignForwardS64 (32 + s.length + 1) 16 ≤ last.totalSize) :
    ∃ r st', makeStr st s = .ok (r, st') ∧ Lay cfg st' ∧ st'.cache = st.cache ∧ st'.macros = st.macros ∧
      st'.heap = st.heap ∧ Interned st' s r ∧
      (∀ t q, Interned st t q → Interned st' t q ∧ (q.ptr + t.length + 1 ≤ r.ptr ∨ r.ptr + s.length + 1 ≤ q.ptr)) := by
  obtain ⟨pre, last, e, hg, hd⟩ := last_split h.ne
  have hlast : last ∈ st.arenas := by rw [e]; simp
  obtain ⟨z1, z2, z3⟩ := h.ar last hlast
  obtain ⟨r1, r2, r3⟩ := h.reg last.start (by unfold regions; simp only [List.mem_append, List.mem_map]; exact Or.inl ⟨last, hlast, rfl⟩)
  have hfit := hroom last hg
  obtain ⟨a1, a2, a3⟩ := alignForwardS64_spec (32 + s.length + 1) 16 (by omega)
  have hall := Arena.alloc_eq (k := 4) (ar := last) (size := 32 + s.length + 1) r2 z2 hfit
  have hmap : ∀ i, last.start + last.totalUsed ≤ i → i < last.start + last.totalUsed + (32 + s.length + 1) → (st.mem i).isSome :=
    fun i h1 h2 => r3 i (by omega) (by omega)
  have hz := memSet_cov st.mem (last.start + last.totalUsed) 0 (32 + s.length + 1) (by omega) hmap
  generalize hm0 : cov st.mem (fun i => last.start + last.totalUsed ≤ i ∧ i < last.start + last.totalUsed + (32 + s.length + 1)) 0 = m0 at hz
  have f0 : ∀ i, m0 i = if last.start + last.totalUsed ≤ i ∧ i < last.start + last.totalUsed + (32 + s.length + 1) then some 0 else st.mem i := by
    intro i; rw [← hm0]; unfold cov; congr
  have mp0 : ∀ i, (st.mem i).isSome → (m0 i).isSome := by
    intro i hi; rw [f0]; split
    · rfl
    · exact hi
  generalize hp : last.start + last.totalUsed = p at *
  obtain ⟨m, em, hst, hlw, hfr, hmm⟩ := fillStr_spec (m := m0) (p := p) (s := s) (by omega)
    (fun i h1 h2 => mp0 i (hmap i (by omega) (by omega))) hn
  have emk : makeStr st s = .ok (⟨p + 32, s.length⟩,
      { st with mem := m, arenas := pre ++ [{ last with totalUsed := last.totalUsed + alignForwardS64 (32 + s.length + 1) 16 }] }) := by
    unfold makeStr
    rw [hg]
    simp only [Res.ofOption_some, Res.ok_bind, Arena.allocZeroed, Res.bind_eq, Res.pure_eq]
    rw [show (16 : Nat) = 2^4 from rfl] at *
    rw [hall]
    simp only [Res.ok_bind, hz, Res.ofOption_some]
    rw [if_neg (by omega), em]
    simp only [Res.ofOption_some, Res.ok_bind, hlw, hd]
  have frame : ∀ i, ¬ (p ≤ i ∧ i < p + (33 + s.length)) → m i = st.mem i := by
    intro i hi
    rw [hfr i hi, f0, if_neg (by omega)]
  have hreg : regions { st with mem := m, arenas := pre ++ [{ last with totalUsed := last.totalUsed + alignForwardS64 (32 + s.length + 1) 16 }] } = regions st := by
    simp [regions, e]
  refine ⟨_, _, emk, ⟨by simp, ?_, ?_, ?_⟩, rfl, rfl, rfl, ?_, ?_⟩
  · rw [hreg]
    intro b hb
    obtain ⟨g1, g2, g3⟩ := h.reg b hb
    exact ⟨g1, g2, fun i h1 h2 => hmm i (mp0 i (g3 i h1 h2))⟩
  · rw [hreg]; exact h.apart
  · intro a ha
    simp only [List.mem_append, List.mem_singleton] at ha
    rcases ha with ha | ha
    · exact h.ar a (by rw [e]; simp [ha])
    · subst ha
      simp only
      exact ⟨z1, by omega, by omega⟩
  · refine ⟨rfl, hst, { last with totalUsed := last.totalUsed + alignForwardS64 (32 + s.length + 1) 16 }, by simp, ?_, ?_⟩
    · simp only; omega
    · simp only; omega
  · rintro t q ⟨q1, q2, a, ha, q3, q4⟩
    have sep : q.ptr + t.length + 1 ≤ p ∨ p + (33 + s.length) ≤ q.ptr := by
      rw [e] at ha
      simp only [List.mem_append, List.mem_singleton] at ha
      rcases ha with ha | ha
      · have hap := h.apart
        unfold regions at hap
        rw [e] at hap
        simp only [List.map_append, List.map_cons, List.map_nil, List.append_assoc] at hap
        rw [List.pairwise_append] at hap
        have := hap.2.2 a.start (List.mem_map.mpr ⟨a, ha, rfl⟩) last.start (by simp)
        obtain ⟨za, zb, zc⟩ := h.ar a (by rw [e]; simp [ha])
        omega
      · subst ha; omega
    refine ⟨⟨q1, q2.congr fun i h1 h2 => frame i (by omega), ?_⟩, by show _ ≤ p + 32 ∨ p + 32 + s.length + 1 ≤ _; omega⟩
    rw [e] at ha
    simp only [List.mem_append, List.mem_singleton] at ha
    rcases ha with ha | ha
    · exact ⟨a, by simp [ha], q3, q4⟩
    · subst ha
      exact ⟨{ a with totalUsed := a.totalUsed + alignForwardS64 (32 + s.length + 1) 16 }, by simp, q3, by simp only; omega⟩

/-- The key of a string in the two tables. -/
def key (s : Bytes) : Nat := (Crc.crc32 s).toNat

/-- Invariant of the interning state; `log` lists the strings interned so far with the result given. -/
structure Inv (cfg : Cfg) (st : St) (log : List (Bytes × Ref)) : Prop where
  lay : Lay cfg st
  stored : ∀ x ∈ log, Interned st x.1 x.2
  table : ∃ m, HTable.Holds st.cache m ∧ (∀ k r, m k = some r → ∃ s, key s = k ∧ s.length ≤ cfg.maxLen ∧ (s, r) ∈ log) ∧
    ∀ x ∈ log, x.1.length ≤ cfg.maxLen → m (key x.1) = some x.2
  dist : ∀ x ∈ log, ∀ y ∈ log, x.1 ≠ y.1 →
    x.2.ptr + x.1.length + 1 ≤ y.2.ptr ∨ y.2.ptr + y.1.length + 1 ≤ x.2.ptr

theorem get_holds {α : Type} {t : HTable α} {m : Nat → Option α} (h : HTable.Holds t m) (k : Nat) :
    t.get k = .ok ((m k).map some) := by
  rw [HTable.get_spec h.1, h.2]

/-- One call of `cache_str`. `S` is the set of strings ever given; no two of them share a CRC. -/
theorem cacheStr_spec {cfg : Cfg} {st : St} {log : List (Bytes × Ref)} (h : Inv cfg st log) (hc : 16 ∣ cfg.arenaSize)
    (hc2 : cfg.arenaSize < 2^63) (S : Bytes → Prop) (hS : ∀ s t, S s → S t → key s = key t → s = t)
    (hlog : ∀ x ∈ log, S x.1) (s : Bytes) (hs : S s) (hn : s.length + 33 ≤ cfg.arenaSize) (hh : 1 ≤ st.heap.length) :
    ∃ r st', cacheStr cfg st s = .ok (r, st') ∧ Inv cfg st' (log ++ [(s, r)]) ∧ st'.macros = st.macros ∧
      st.heap.length ≤ st'.heap.length + 1 ∧ (s.length ≤ cfg.maxLen → ∀ q, (s, q) ∈ log → q = r) := by
  obtain ⟨m, hm, hm1, hm2⟩ := h.table
  by_cases hlong : s.length > cfg.maxLen
  · obtain ⟨st1, e1, l1, me1, c1, ma1, he1, i1, room⟩ := getAlloc_spec h.lay hc hn hh
    obtain ⟨r, st2, e2, l2, c2, ma2, he2, hi2, old2⟩ := makeStr_spec l1 s (by omega) room
    refine ⟨r, st2, ?_, ⟨l2, ?_, ⟨m, by rw [c2, c1]; exact hm, ?_, ?_⟩, ?_⟩, by rw [ma2, ma1], by rw [he2]; exact he1, by omega⟩
    · unfold cacheStr; rw [if_pos hlong, e1]; simp only [Res.ok_bind, e2]
    · intro x hx
      simp only [List.mem_append, List.mem_singleton] at hx
      rcases hx with hx | rfl
      · exact (old2 _ _ (i1 _ _ (h.stored x hx))).1
      · exact hi2
    · intro k q hk
      obtain ⟨t, t1, t2, t3⟩ := hm1 k q hk
      exact ⟨t, t1, t2, by simp [t3]⟩
    · intro x hx hl
      simp only [List.mem_append, List.mem_singleton] at hx
      rcases hx with hx | rfl
      · exact hm2 x hx hl
      · simp only at hl; omega
    · intro x hx y hy hne
      simp only [List.mem_append, List.mem_singleton] at hx hy
      rcases hx with hx | rfl <;> rcases hy with hy | rfl
      · exact h.dist x hx y hy hne
      · exact (old2 _ _ (i1 _ _ (h.stored x hx))).2
      · exact (old2 _ _ (i1 _ _ (h.stored y hy))).2.symm
      · exact absurd rfl hne
  · cases hk : m (key s) with
    | some r =>
      obtain ⟨t, t1, t2, t3⟩ := hm1 _ _ hk
      have : t = s := hS t s (hlog _ t3) hs t1
      subst this
      refine ⟨r, st, ?_, ⟨h.lay, ?_, ⟨m, hm, ?_, ?_⟩, ?_⟩, rfl, by omega, ?_⟩
      · unfold cacheStr
        rw [if_neg hlong]
        simp only
        rw [show (Crc.crc32 t).toNat = key t from rfl, get_holds hm, hk]
        simp
      · intro x hx
        simp only [List.mem_append, List.mem_singleton] at hx
        rcases hx with hx | rfl
        · exact h.stored x hx
        · exact h.stored _ t3
      · intro k q hk
        obtain ⟨t, t1, t2, t3⟩ := hm1 k q hk
        exact ⟨t, t1, t2, by simp [t3]⟩
      · intro x hx hl
        simp only [List.mem_append, List.mem_singleton] at hx
        rcases hx with hx | rfl
        · exact hm2 x hx hl
        · exact hk
      · intro x hx y hy hne
        simp only [List.mem_append, List.mem_singleton] at hx hy
        have hx : x ∈ log := by rcases hx with hx | rfl <;> assumption
        have hy : y ∈ log := by rcases hy with hy | rfl <;> assumption
        exact h.dist x hx y hy hne
      · intro _ q hq
        have := hm2 _ hq (by simp only; omega)
        simp only at this
        rw [hk] at this
        exact (Option.some.inj this).symm
    | none =>
      obtain ⟨st1, e1, l1, me1, c1, ma1, he1, i1, room⟩ := getAlloc_spec h.lay hc hn hh
      obtain ⟨r, st2, e2, l2, c2, ma2, he2, hi2, old2⟩ := makeStr_spec l1 s (by omega) room
      obtain ⟨c3, e3, h3⟩ := HTable.step_holds cfg.crit (t := st2.cache) (m := m) (by rw [c2, c1]; exact hm) (.set (key s) r) trivial
      have fresh : ∀ x ∈ log, x.1.length ≤ cfg.maxLen → x.1 ≠ s := by
        intro x hx hl he
        have := hm2 x hx hl
        rw [he, hk] at this; cases this
      refine ⟨r, { st2 with cache := c3 }, ?_, ⟨⟨l2.ne, l2.reg, l2.apart, l2.ar⟩, ?_, ⟨_, h3, ?_, ?_⟩, ?_⟩, by simp only; rw [ma2, ma1],
        by simp only; rw [he2]; exact he1, ?_⟩
      · unfold cacheStr
        rw [if_neg hlong]
        simp only
        rw [show (Crc.crc32 s).toNat = key s from rfl, get_holds hm, hk]
        simp only [Option.map_none, Res.ok_bind, e1, e2]
        have e3' : st2.cache.set cfg.crit (key s) r = .ok c3 := e3
        rw [e3']; rfl
      · intro x hx
        simp only [List.mem_append, List.mem_singleton] at hx
        rcases hx with hx | rfl
        · exact (old2 _ _ (i1 _ _ (h.stored x hx))).1
        · exact hi2
      · intro k q hkq
        simp only [HTable.spec] at hkq
        split at hkq
        · rename_i he
          cases hkq
          exact ⟨s, he.symm, by omega, by simp⟩
        · obtain ⟨t, t1, t2, t3⟩ := hm1 k q hkq
          exact ⟨t, t1, t2, by simp [t3]⟩
      · intro x hx hl
        simp only [List.mem_append, List.mem_singleton] at hx
        simp only [HTable.spec]
        rcases hx with hx | rfl
        · rw [if_neg]
          · exact hm2 x hx hl
          · intro he
            exact fresh x hx hl (hS _ _ (hlog x hx) hs he)
        · simp
      · intro x hx y hy hne
        simp only [List.mem_append, List.mem_singleton] at hx hy
        rcases hx with hx | rfl <;> rcases hy with hy | rfl
        · exact h.dist x hx y hy hne
        · exact (old2 _ _ (i1 _ _ (h.stored x hx))).2
        · exact (old2 _ _ (i1 _ _ (h.stored y hy))).2.symm
        · exact absurd rfl hne
      · intro hl q hq
        exact absurd rfl (fresh _ hq hl)

end Verif.Ctx
