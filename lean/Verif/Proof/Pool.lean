import Verif.Model.Pool
import Verif.Proof.MemMove
import Verif.Proof.MemFind
import Verif.Proof.MemSet
/-! Helper lemmas for the pool. -/
namespace Verif
namespace Mem

theorem leBytes_length : ∀ k v, (leBytes k v).length = k
  | 0, _ => rfl
  | k+1, v => by simp [leBytes, leBytes_length k]

theorem leWord_leBytes : ∀ k v, v < 2^(8*k) → leWord (leBytes k v) = v
  | 0, v, h => by simp at h; simp [leBytes, leWord, h]
  | k+1, v, h => by
    have e : 2^(8*(k+1)) = 256 * 2^(8*k) := by rw [Nat.mul_add, Nat.pow_add]; omega
    have h2 : v / 256 < 2^(8*k) := by rw [e] at h; omega
    simp only [leBytes, leWord, leWord_leBytes k _ h2]
    have e3 : (UInt8.ofNat (v % 256)).toNat = v % 256 % 256 := rfl
    rw [e3]
    omega

/-- All of `[a, a+n)` is mapped. -/
def Map (m : Mem) (a n : Nat) : Prop := ∀ i, a ≤ i → i < a + n → (m i).isSome

/-- Same bytes on `[a, a+n)`. -/
def Same (m m' : Mem) (a n : Nat) : Prop := ∀ i, a ≤ i → i < a + n → m' i = m i

theorem loadN_congr {m m' : Mem} : ∀ {k a : Nat}, Same m m' a k → loadN m' a k = loadN m a k := by
  intro k
  induction k with
  | zero => intros; rfl
  | succ k ih =>
    intro a h
    simp only [loadN, load]
    rw [h a (by omega) (by omega), ih (fun i h1 h2 => h i (by omega) (by omega))]

theorem loadWord_congr {m m' : Mem} {a : Nat} (h : Same m m' a 8) : loadWord m' a = loadWord m a := by
  simp only [loadWord, loadN_congr h]

theorem loadN_bytes {m : Mem} {a : Nat} : ∀ {w : List UInt8}, (∀ t, t < w.length → m (a + t) = w[t]?) →
    loadN m a w.length = some w := by
  intro w
  induction w generalizing a with
  | nil => intro _; rfl
  | cons b w ih =>
    intro h
    have h0 := h 0 (by simp)
    simp at h0
    have := ih (a := a+1) (fun t ht => by
      have := h (t+1) (by simp; omega)
      simp only [List.getElem?_cons_succ] at this
      rw [← this]; congr 1; omega)
    simp [loadN, load, h0, this]

/-- A word store on mapped memory succeeds, changes only its eight bytes, and is read back. -/
theorem storeWord_spec {m : Mem} {a v : Nat} (hm : Map m a 8) (hv : v < 2^64) :
    ∃ m', storeWord m a v = some m' ∧ (∀ i, ¬ (a ≤ i ∧ i < a + 8) → m' i = m i) ∧ loadWord m' a = some v ∧
      (∀ i, (m i).isSome → (m' i).isSome) := by
  have hl := leBytes_length 8 v
  have he := storeN_eq (w := leBytes 8 v) (m := m) (a := a) (by rw [hl]; exact hm)
  refine ⟨_, he, ?_, ?_, ?_⟩
  · intro i hi; rw [hl]; simp only [if_neg hi]
  · have : loadN (fun i => if a ≤ i ∧ i < a + (leBytes 8 v).length then (leBytes 8 v)[i - a]? else m i) a 8
        = some (leBytes 8 v) := by
      have := loadN_bytes (m := fun i => if a ≤ i ∧ i < a + (leBytes 8 v).length then (leBytes 8 v)[i - a]? else m i)
        (a := a) (w := leBytes 8 v) (fun t ht => by
          rw [if_pos (by omega)]
          congr 1; omega)
      rw [hl] at this; rw [hl]; exact this
    simp only [loadWord, this, Option.map_some]
    rw [leWord_leBytes 8 v hv]
  · intro i hi
    split
    · next h => simp; rw [hl] at h ⊢; omega
    · exact hi

end Mem

namespace Pool
open Mem

/-- The free list in memory: starting at `a`, following stored words, gives exactly the addresses `l`, then null. -/
def Chain (m : Mem) : Nat → List Nat → Prop
  | a, [] => a = 0
  | a, x :: xs => a = x ∧ x ≠ 0 ∧ ∃ nxt, m.loadWord x = some nxt ∧ Chain m nxt xs

theorem Chain.congr {m m' : Mem} : ∀ {l : List Nat} {a : Nat}, (∀ x ∈ l, Same m m' x 8) → Chain m a l → Chain m' a l
  | [], _, _, h => h
  | x :: xs, a, hs, ⟨h1, h2, nxt, h3, h4⟩ =>
    ⟨h1, h2, nxt, by rw [loadWord_congr (hs x List.mem_cons_self), h3],
      Chain.congr (fun y hy => hs y (List.mem_cons_of_mem _ hy)) h4⟩

/-- Addresses of `k` consecutive blocks. -/
def blocks (start stride : Nat) : Nat → List Nat
  | 0 => []
  | k+1 => start :: blocks (start + stride) stride k

theorem mem_blocks {stride : Nat} : ∀ {k start x : Nat}, x ∈ blocks start stride k ↔ ∃ i, i < k ∧ x = start + i * stride
  | 0, start, x => by simp [blocks]
  | k+1, start, x => by
    simp only [blocks, List.mem_cons, mem_blocks (k := k)]
    constructor
    · rintro (rfl | ⟨i, hi, rfl⟩)
      · exact ⟨0, by omega, by simp⟩
      · exact ⟨i+1, by omega, by rw [Nat.add_mul]; omega⟩
    · rintro ⟨i, hi, rfl⟩
      cases i with
      | zero => left; simp
      | succ i => right; exact ⟨i, by omega, by rw [Nat.add_mul]; omega⟩

theorem blocks_length {stride : Nat} : ∀ {k start : Nat}, (blocks start stride k).length = k
  | 0, _ => rfl
  | k+1, start => by simp [blocks, blocks_length]

theorem blocks_nodup {stride : Nat} (hs : 0 < stride) : ∀ {k start : Nat}, (blocks start stride k).Nodup
  | 0, _ => List.nodup_nil
  | k+1, start => by
    simp only [blocks, List.nodup_cons]
    refine ⟨?_, blocks_nodup hs⟩
    rw [mem_blocks]
    rintro ⟨i, _, h⟩
    omega

theorem blocks_apart {stride start k x y : Nat} (hx : x ∈ blocks start stride k) (hy : y ∈ blocks start stride k)
    (hne : x ≠ y) : x + stride ≤ y ∨ y + stride ≤ x := by
  obtain ⟨i, hi, rfl⟩ := mem_blocks.mp hx
  obtain ⟨j, hj, rfl⟩ := mem_blocks.mp hy
  rcases Nat.lt_trichotomy i j with h | h | h
  · left
    have := Nat.mul_le_mul_right stride (show i + 1 ≤ j from h)
    rw [Nat.add_mul] at this; omega
  · subst h; exact absurd rfl hne
  · right
    have := Nat.mul_le_mul_right stride (show j + 1 ≤ i from h)
    rw [Nat.add_mul] at this; omega

theorem blocks_bound {stride start k x : Nat} (hx : x ∈ blocks start stride k) :
    start ≤ x ∧ x + stride ≤ start + k * stride := by
  obtain ⟨i, hi, rfl⟩ := mem_blocks.mp hx
  have := Nat.mul_le_mul_right stride (show i + 1 ≤ k from hi)
  rw [Nat.add_mul] at this; omega

/-- Linking `k+1` blocks succeeds and makes the chain of all of them; bytes outside the region are unchanged. -/
theorem buildList_spec {stride : Nat} (h8 : 8 ≤ stride) : ∀ (k start : Nat) (m : Mem), start ≠ 0 →
    Map m start ((k+1) * stride) → start + (k+1) * stride < 2^64 →
    ∃ m', buildList m start stride (k+1) = some m' ∧ Chain m' start (blocks start stride (k+1)) ∧
      (∀ i, ¬ (start ≤ i ∧ i < start + (k+1) * stride) → m' i = m i) ∧ (∀ i, (m i).isSome → (m' i).isSome) := by
  intro k
  induction k with
  | zero =>
    intro start m h0 hm hb
    obtain ⟨m', e, hf, hl, hs⟩ := storeWord_spec (m := m) (a := start) (v := 0)
      (fun i g1 g2 => hm i g1 (by omega)) (by decide)
    refine ⟨m', ?_, ?_, ?_, hs⟩
    · simp [buildList, link, e]
    · exact ⟨rfl, h0, 0, hl, rfl⟩
    · intro i hi; exact hf i (by omega)
  | succ k ih =>
    intro start m h0 hm hb
    have hmul : (k+1+1) * stride = (k+1) * stride + stride := by rw [Nat.add_mul (k+1)]; omega
    obtain ⟨m1, e, hf, hl, hs⟩ := storeWord_spec (m := m) (a := start) (v := start + stride)
      (fun i g1 g2 => hm i g1 (by omega)) (by omega)
    obtain ⟨m2, e2, hc, hf2, hs2⟩ := ih (start + stride) m1 (by omega)
      (fun i g1 g2 => hs i (hm i (by omega) (by omega))) (by omega)
    refine ⟨m2, ?_, ?_, ?_, fun i h => hs2 i (hs i h)⟩
    · simp only [buildList, Nat.add_sub_cancel, link, e, Option.bind_eq_bind, Option.bind_some] at e2 ⊢
      exact e2
    · rw [blocks]
      refine ⟨rfl, h0, start + stride, ?_, hc⟩
      rw [loadWord_congr (m := m1) (m' := m2), hl]
      intro i g1 g2
      exact hf2 i (by omega)
    · intro i hi
      rw [hf2 i (by omega), hf i (by omega)]

/-- Geometry assumed of the backing memory. -/
structure Geo (start n bs ba : Nat) : Prop where
  ne : start ≠ 0
  npos : 0 < n
  h8 : 8 ≤ bs + ba
  bound : start + n * (bs + ba) < 2^64

/-- Invariant of a pool in use. -/
structure Inv (start n bs ba : Nat) (s : St) : Prop where
  pstart : s.pool.start = start
  pn : s.pool.numBlocks = n
  pbs : s.pool.blockSize = bs
  pba : s.pool.blockAlign = ba
  map : Map s.mem start (n * (bs + ba))
  ex : ∃ fl, Chain s.mem s.pool.freeList fl ∧ (fl ++ s.live).Perm (blocks start (bs + ba) n)

theorem build_inv {start n bs ba : Nat} (g : Geo start n bs ba) {m : Mem} (hm : Map m start (n * (bs + ba)))
    (pool : Pool) (h1 : pool.start = start) (h2 : pool.numBlocks = n) (h3 : pool.blockSize = bs)
    (h4 : pool.blockAlign = ba) (h5 : pool.freeList = start) :
    ∃ m', buildList m start (bs + ba) n = some m' ∧ Inv start n bs ba ⟨pool, m', []⟩ ∧
      ∀ i, ¬ (start ≤ i ∧ i < start + n * (bs + ba)) → m' i = m i := by
  obtain ⟨k, rfl⟩ : ∃ k, n = k + 1 := ⟨n - 1, by have := g.npos; omega⟩
  obtain ⟨m', e, hc, hf, hs⟩ := buildList_spec g.h8 k start m g.ne hm g.bound
  exact ⟨m', e, ⟨h1, h2, h3, h4, fun i a b => hs i (hm i a b), _, by rw [h5]; exact hc, by simp⟩, hf⟩

theorem Inv.live_mem {start n bs ba : Nat} {s : St} (h : Inv start n bs ba s) {p : Nat} (hp : p ∈ s.live) :
    p ∈ blocks start (bs+ba) n := by
  obtain ⟨fl, _, hperm⟩ := h.ex
  exact hperm.mem_iff.mp (List.mem_append_right _ hp)

theorem Inv.live_nodup {start n bs ba : Nat} (g : Geo start n bs ba) {s : St} (h : Inv start n bs ba s) :
    s.live.Nodup := by
  obtain ⟨fl, _, hperm⟩ := h.ex
  have := hperm.nodup_iff.mpr (blocks_nodup (by have := g.h8; omega))
  exact (List.nodup_append.mp this).2.1

/-- What an allocation does in a reachable state that has room. -/
theorem alloc_spec {start n bs ba : Nat} (g : Geo start n bs ba) {s : St} (h : Inv start n bs ba s)
    (hlt : s.live.length < n) :
    ∃ p pool m, s.pool.alloc s.mem bs ba = .ok (p, pool, m) ∧ p ∉ s.live ∧
      Inv start n bs ba ⟨pool, m, p :: s.live⟩ ∧ pool.totalSize = s.pool.totalSize + bs ∧
      (∀ i, m i = if p ≤ i ∧ i < p + bs then some 0 else s.mem i) := by
  obtain ⟨fl, hc, hperm⟩ := h.ex
  have hlen := hperm.length_eq
  rw [blocks_length, List.length_append] at hlen
  have hnd := hperm.nodup_iff.mpr (blocks_nodup (by have := g.h8; omega))
  cases fl with
  | nil => simp at hlen; omega
  | cons x xs =>
    obtain ⟨hx, hx0, nxt, hl, hc'⟩ := hc
    have hxb : x ∈ blocks start (bs+ba) n := hperm.mem_iff.mp (by simp)
    have hb := blocks_bound hxb
    have hmap : ∀ i, x ≤ i → i < x + bs → (s.mem i).isSome := fun i h1 h2 => h.map i (by omega) (by omega)
    have hset := memSet_cov s.mem x 0 bs hx0 hmap
    simp only [List.cons_append, List.nodup_cons, List.mem_append, not_or] at hnd
    obtain ⟨⟨hxf, hxl⟩, hnd'⟩ := hnd
    refine ⟨x, { s.pool with freeList := nxt, totalSize := s.pool.totalSize + bs },
      cov s.mem (fun i => x ≤ i ∧ i < x + bs) 0, ?_, hxl, ?_, rfl, ?_⟩
    · unfold alloc
      simp only [Res.bind_eq, h.pbs, h.pba, Res.assert_true, Res.ok_bind, hx, hl, Res.ofOption_some, hset, Res.pure_eq]
      rw [Res.assert_true hx0]
      rfl
    · refine ⟨h.pstart, h.pn, h.pbs, h.pba, ?_, xs, ?_, ?_⟩
      · intro i h1 h2
        simp only [cov]
        split
        · rfl
        · exact h.map i h1 h2
      · refine Chain.congr (m := s.mem) (fun y hy => ?_) hc'
        intro i h1 h2
        have hyb : y ∈ blocks start (bs+ba) n := hperm.mem_iff.mp (by simp [hy])
        have hne : x ≠ y := fun e => hxf (e ▸ hy)
        have := blocks_apart hxb hyb hne
        have h8 := g.h8
        simp only [cov]
        rw [if_neg (by omega)]
      · exact List.Perm.trans List.perm_middle hperm
    · intro i
      simp only [cov]
      by_cases hi : x ≤ i ∧ i < x + bs
      · simp only [if_pos hi]
      · simp only [if_neg hi]

/-- An allocation with every block live stops. -/
theorem alloc_full {start n bs ba : Nat} {s : St} (h : Inv start n bs ba s)
    (hge : n ≤ s.live.length) : s.pool.alloc s.mem bs ba = .stop := by
  obtain ⟨fl, hc, hperm⟩ := h.ex
  have hlen := hperm.length_eq
  rw [blocks_length, List.length_append] at hlen
  have : fl = [] := List.eq_nil_of_length_eq_zero (by omega)
  subst this
  unfold alloc
  simp only [Res.bind_eq, h.pbs, h.pba, Res.assert_true, Res.ok_bind]
  rw [Res.assert_false (by simp only [Chain] at hc; simp [hc])]
  rfl

theorem free_spec {start n bs ba : Nat} (g : Geo start n bs ba) {s : St} (h : Inv start n bs ba s)
    {p : Nat} (hp : p ∈ s.live) :
    ∃ pool m, s.pool.free s.mem p = .ok (pool, m) ∧ Inv start n bs ba ⟨pool, m, s.live.erase p⟩ ∧
      pool.totalSize = s.pool.totalSize - bs ∧ ∀ i, ¬ (p ≤ i ∧ i < p + 8) → m i = s.mem i := by
  obtain ⟨fl, hc, hperm⟩ := h.ex
  have hpb := h.live_mem hp
  have hb := blocks_bound hpb
  have hp0 : p ≠ 0 := by have := g.ne; omega
  have hnd := hperm.nodup_iff.mpr (blocks_nodup (by have := g.h8; omega))
  have h8 := g.h8
  have hbd := g.bound
  have hfl : s.pool.freeList < 2^64 := by
    cases fl with
    | nil => simp only [Chain] at hc; omega
    | cons x xs =>
      obtain ⟨hx, -⟩ := hc
      have := blocks_bound (hperm.mem_iff.mp (by simp) : x ∈ blocks start (bs+ba) n)
      omega
  obtain ⟨m', e, hf, hl, hs⟩ := storeWord_spec (m := s.mem) (a := p) (v := s.pool.freeList)
    (fun i g1 g2 => h.map i (by omega) (by omega)) hfl
  refine ⟨{ s.pool with freeList := p, totalSize := s.pool.totalSize - bs }, m', ?_, ?_, rfl, hf⟩
  · unfold free
    rw [if_neg hp0]
    simp only [Res.bind_eq, e, Res.ofOption_some, Res.ok_bind, Res.pure_eq, h.pbs]
  · refine ⟨h.pstart, h.pn, h.pbs, h.pba, fun i a b => hs i (h.map i a b), p :: fl, ?_, ?_⟩
    · refine ⟨rfl, hp0, _, hl, Chain.congr (m := s.mem) (fun y hy => ?_) hc⟩
      intro i h1 h2
      have hyb : y ∈ blocks start (bs+ba) n := hperm.mem_iff.mp (by simp [hy])
      have hne : p ≠ y := by
        intro e; subst e
        exact (List.nodup_append.mp hnd).2.2 p hy p hp rfl
      have := blocks_apart hpb hyb hne
      exact hf i (by omega)
    · have h1 : (fl ++ (p :: s.live.erase p)).Perm (fl ++ s.live) :=
        List.Perm.append_left fl (List.perm_cons_erase hp).symm
      exact (List.perm_middle.symm.trans h1).trans hperm

end Pool
end Verif
