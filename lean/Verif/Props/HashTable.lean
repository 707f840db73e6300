import Verif.Proof.HashTable
import Verif.Model.HashTableC
/-!
# Properties C10, C11 (C++ hash table), C12 (C library hash table)
-/
namespace Verif.HTable
variable {α : Type}

/-- A call that changes a table. -/
inductive Op (α : Type) where
  | set (key : Nat) (v : α)
  | remove (key : Nat)
  | clear
  | grow
  | rehash (n : Nat)
  deriving Repr, DecidableEq

/-- Perform a call. -/
def step (crit : Nat → Nat) (t : HTable α) : Op α → Res (HTable α)
  | .set k v => t.set crit k v
  | .remove k => t.remove k
  | .clear => .ok t.clear
  | .grow => t.grow
  | .rehash n => t.rehash n

def run (crit : Nat → Nat) : HTable α → List (Op α) → Res (HTable α)
  | t, [] => .ok t
  | t, op :: ops => do
    let t ← step crit t op
    run crit t ops

/-- Specification: a finite map, updated point-wise. -/
def spec (m : Nat → Option α) : Op α → (Nat → Option α)
  | .set k v => fun x => if x = k then some v else m x
  | .remove k => fun x => if x = k then none else m x
  | .clear => fun _ => none
  | .grow => m
  | .rehash _ => m

/-- The map after a history. -/
def specRun (m : Nat → Option α) (ops : List (Op α)) : Nat → Option α := ops.foldl spec m

/-- `rehash` needs at least one bucket (asserted by the code). -/
def Legal : Op α → Prop
  | .rehash n => 0 < n
  | _ => True

/-- The table holds exactly the map `m`. -/
def Holds (t : HTable α) (m : Nat → Option α) : Prop :=
  WF t ∧ ∀ key, ((t.kvs.find? (fun p => p.1 = key)).map (·.2)) = (m key).map some

theorem find_upsert {l : List (Nat × Option α)} {key : Nat} {v : α} (x : Nat) :
    ((upsert l key v).find? (fun p => p.1 = x)).map (·.2) =
      if x = key then some (some v) else (l.find? (fun p => p.1 = x)).map (·.2) := by
  unfold upsert
  split
  · next hin =>
    induction l with
    | nil => simp at hin
    | cons p l ih =>
      rw [List.map_cons, List.find?_cons, List.find?_cons]
      by_cases hp : p.1 = key
      · rw [if_pos hp]
        by_cases hx : x = key
        · subst hx; simp
        · have : ¬ key = x := fun h => hx h.symm
          have hpx : ¬ p.1 = x := by rw [hp]; exact this
          simp only [this, decide_false, hpx]
          by_cases hin' : key ∈ l.map (·.1)
          · have := ih hin'; simp only [hx, if_false] at this ⊢; exact this
          · have hid : l.map (fun p => if p.1 = key then (key, some v) else p) = l := by
              conv => rhs; rw [← List.map_id l]
              apply List.map_congr_left
              intro q hq
              rw [if_neg]; rfl
              intro hqk; exact hin' (List.mem_map.mpr ⟨q, hq, hqk⟩)
            rw [hid]; simp [hx]
      · rw [if_neg hp]
        have hin' : key ∈ l.map (·.1) := by
          rw [List.map_cons, List.mem_cons] at hin
          rcases hin with h | h
          · exact absurd h.symm hp
          · exact h
        by_cases hpx : p.1 = x
        · simp only [hpx, decide_true]
          have : ¬ x = key := fun h => hp (hpx.trans h)
          simp [this]
        · simp only [hpx, decide_false]
          exact ih hin'
  · next hno =>
    rw [List.find?_append]
    by_cases hx : x = key
    · subst hx
      have : l.find? (fun p => p.1 = x) = none := by
        apply List.find?_eq_none.mpr
        intro p hp hpk
        simp at hpk
        exact hno (List.mem_map.mpr ⟨p, hp, hpk⟩)
      simp [this]
    · have hkx : ¬ key = x := fun h => hx h.symm
      simp [hx, hkx]

theorem find_filter {l : List (Nat × Option α)} {key : Nat} (x : Nat) :
    ((l.filter (fun p => p.1 ≠ key)).find? (fun p => p.1 = x)).map (·.2) =
      if x = key then none else (l.find? (fun p => p.1 = x)).map (·.2) := by
  induction l with
  | nil => simp
  | cons p l ih =>
    rw [List.filter_cons]
    by_cases hp : p.1 = key
    · simp only [hp, ne_eq, not_true, decide_false, Bool.false_eq_true, if_false]
      rw [ih, List.find?_cons]
      by_cases hx : x = key
      · simp [hx]
      · have : ¬ p.1 = x := by rw [hp]; exact fun h => hx h.symm
        simp [hx, this]
    · simp only [hp, ne_eq, not_false_iff, decide_true, if_true, List.find?_cons]
      by_cases hpx : p.1 = x
      · have : ¬ x = key := fun h => hp (hpx.trans h)
        simp [hpx, this]
      · simp only [hpx, decide_false]
        exact ih

theorem step_holds (crit : Nat → Nat) {t : HTable α} {m : Nat → Option α} (h : Holds t m) (op : Op α) (hl : Legal op) :
    ∃ t', step crit t op = .ok t' ∧ Holds t' (spec m op) := by
  obtain ⟨hw, hm⟩ := h
  cases op with
  | set k v =>
    obtain ⟨t', e, hw', hk⟩ := set_spec crit hw k v
    refine ⟨t', e, hw', fun x => ?_⟩
    rw [hk, find_upsert]
    simp only [spec]
    split
    · rfl
    · exact hm x
  | remove k =>
    obtain ⟨t', e, hw', hk⟩ := remove_spec hw k
    refine ⟨t', e, hw', fun x => ?_⟩
    rw [hk, find_filter]
    simp only [spec]
    split
    · rfl
    · exact hm x
  | clear =>
    obtain ⟨hw', hk⟩ := clear_wf hw
    exact ⟨t.clear, rfl, hw', fun x => by rw [hk]; rfl⟩
  | grow =>
    obtain ⟨t', e, hw', hk⟩ := grow_spec hw
    exact ⟨t', e, hw', fun x => by rw [hk]; exact hm x⟩
  | rehash n =>
    obtain ⟨t', e, hw', hk, _⟩ := rehash_spec hw hl
    exact ⟨t', e, hw', fun x => by rw [hk]; exact hm x⟩

theorem run_holds (crit : Nat → Nat) : ∀ (ops : List (Op α)) (t : HTable α) (m : Nat → Option α), Holds t m →
    (∀ op ∈ ops, Legal op) → ∃ t', run crit t ops = .ok t' ∧ Holds t' (specRun m ops) := by
  intro ops
  induction ops with
  | nil => intro t m h _; exact ⟨t, rfl, h⟩
  | cons op ops ih =>
    intro t m h hl
    obtain ⟨t1, e1, h1⟩ := step_holds crit h op (hl op List.mem_cons_self)
    obtain ⟨t', e', h'⟩ := ih t1 _ h1 (fun o ho => hl o (List.mem_cons_of_mem _ ho))
    exact ⟨t', by simp [run, e1, e'], h'⟩

/-- C10 (and C11 for histories with removals): from a fresh table with any positive number of buckets, after any history
of set / remove / clear / grow / rehash, whatever the load threshold, no call faults or hangs and `get(key)` returns the
value most recently set for `key` (not removed or cleared since), and null iff there is none. -/
theorem C10_get_returns_latest_set (crit : Nat → Nat) (n : Nat) (hn : 0 < n) (ops : List (Op α))
    (hl : ∀ op ∈ ops, Legal op) :
    ∃ t0 t : HTable α, initReserve n = .ok t0 ∧ run crit t0 ops = .ok t ∧
      ∀ key, t.get key = .ok ((specRun (fun _ => none) ops key).map some) := by
  obtain ⟨t0, e0, hw0, hk0, _⟩ := init_wf (α := α) hn
  obtain ⟨t, e, hw, hm⟩ := run_holds crit ops t0 (fun _ => none) ⟨hw0, fun x => by rw [hk0]; rfl⟩ hl
  exact ⟨t0, t, e0, e, fun key => by rw [get_spec hw, hm key]⟩

/-- C10: iteration (`hashtable_map`) visits each present key once, with its current value. -/
theorem C10_map_visits_once (crit : Nat → Nat) (n : Nat) (hn : 0 < n) (ops : List (Op α))
    (hl : ∀ op ∈ ops, Legal op) :
    ∃ t0 t : HTable α, initReserve n = .ok t0 ∧ run crit t0 ops = .ok t ∧
      (t.mapCalls.map (·.1)).Nodup ∧
      ∀ key v, (key, v) ∈ t.mapCalls ↔ ∃ w, specRun (fun _ => none) ops key = some w ∧ v = some w := by
  obtain ⟨t0, e0, hw0, hk0, _⟩ := init_wf (α := α) hn
  obtain ⟨t, e, hw, hm⟩ := run_holds crit ops t0 (fun _ => none) ⟨hw0, fun x => by rw [hk0]; rfl⟩ hl
  have hmc : t.mapCalls = t.kvs := rfl
  refine ⟨t0, t, e0, e, by rw [hmc]; exact hw.keys, fun key v => ?_⟩
  rw [hmc]
  have hmk := hm key
  constructor
  · intro hin
    cases hfd : t.kvs.find? (fun p => p.1 = key) with
    | none =>
      have := List.find?_eq_none.mp hfd _ hin
      simp at this
    | some p =>
      have hp := List.find?_some hfd
      simp at hp
      have hpm := List.mem_of_find?_eq_some hfd
      have hpe : p = (key, v) := by
        obtain ⟨i, hi, hie⟩ := List.getElem_of_mem hin
        obtain ⟨j, hj, hje⟩ := List.getElem_of_mem hpm
        have h1 : (t.kvs.map (·.1))[i]? = some key := by simp [List.getElem?_eq_getElem hi, hie]
        have h2 : (t.kvs.map (·.1))[j]? = some key := by simp [List.getElem?_eq_getElem hj, hje, hp]
        have := (List.getElem?_inj (by simpa using hi) hw.keys).mp (h1.trans h2.symm)
        subst this
        rw [← hie, ← hje]
      rw [hfd, hpe] at hmk
      cases hs : specRun (fun _ => none) ops key with
      | none => rw [hs] at hmk; simp at hmk
      | some w => rw [hs] at hmk; simp at hmk; exact ⟨w, rfl, hmk⟩
  · rintro ⟨w, hs, rfl⟩
    rw [hs] at hmk
    cases hfd : t.kvs.find? (fun p => p.1 = key) with
    | none => rw [hfd] at hmk; simp at hmk
    | some p =>
      have hp := List.find?_some hfd
      simp at hp
      have hpm := List.mem_of_find?_eq_some hfd
      rw [hfd] at hmk
      simp at hmk
      have : p = (key, some w) := by rw [← hp, ← hmk]
      rw [← this]; exact hpm

/-- C11: removing a key of any reachable table forgets exactly that key. -/
theorem C11_remove_forgets_exactly (crit : Nat → Nat) (n : Nat) (hn : 0 < n) (ops : List (Op α))
    (hl : ∀ op ∈ ops, Legal op) (key : Nat) :
    ∃ t0 t t' : HTable α, initReserve n = .ok t0 ∧ run crit t0 ops = .ok t ∧ t.remove key = .ok t' ∧
      t'.get key = .ok none ∧ ∀ other, other ≠ key → t'.get other = t.get other := by
  obtain ⟨t0, e0, hw0, hk0, _⟩ := init_wf (α := α) hn
  obtain ⟨t, e, hw, hm⟩ := run_holds crit ops t0 (fun _ => none) ⟨hw0, fun x => by rw [hk0]; rfl⟩ hl
  obtain ⟨t', e', hw', hk'⟩ := remove_spec hw key
  refine ⟨t0, t, t', e0, e, e', ?_, fun o ho => ?_⟩
  · rw [get_spec hw', hk', find_filter]; simp
  · rw [get_spec hw', get_spec hw, hk', find_filter]; simp [ho]

/-- C11, refuted for `hashtable_remove_entry`: it does not relink, so after removing an entry another key's lookup reads
outside the entries. -/
theorem C11_remove_entry_refuted :
    ∃ t : HTable Nat, run (fun n => n * 7 / 10) ⟨List.replicate 8 (-1), []⟩ [.set 1 10, .set 2 20] = .ok t ∧
      ∃ t', t.removeEntry 0 = .ok t' ∧ t'.get 2 = .ub := ⟨_, rfl, _, rfl, rfl⟩

/-- C10, refuted for `hashtable_slot`: it compares the key with entry indices, so a key that was never set can get a
slot and a key that was set gets none. -/
theorem C10_slot_refuted :
    ∃ t : HTable Nat, run (fun n => n * 7 / 10) ⟨List.replicate 8 (-1), []⟩ [.set 5 10] = .ok t ∧
      t.slot 0 = 5 ∧ t.slot 5 = -1 := ⟨_, rfl, by decide, by decide⟩

/-- Non-vacuity: a history with collisions, a rehash and a removal. -/
example : ∃ t : HTable Nat, run (fun n => n * 7 / 10) ⟨List.replicate 8 (-1), []⟩
    [.set 0 1, .set 8 2, .set 16 3, .set 1 4, .set 2 5, .set 8 6, .set 3 7, .remove 16] = .ok t ∧
    t.get 8 = .ok (some (some 6)) ∧ t.get 16 = .ok none ∧ t.get 0 = .ok (some (some 1)) ∧ t.hashes.length = 20 :=
  ⟨_, rfl, by decide, by decide, by decide, by decide⟩

end Verif.HTable

namespace Verif.CTable

/-- Threshold used in the witnesses (agrees with `usize(0.7f * 8.0f) = 5` for the default 8 buckets). -/
def crit7 (n : Nat) : Nat := n * 7 / 10

/-- C12, refuted: in the C library the first key set in a table is never found. General form: for every key, value and
positive bucket count, and any threshold not exceeded by one entry. -/
theorem C12_first_key_lost_refuted {α : Type} (crit : Nat → Nat) (n : Nat) (hn : 0 < n) (hc : 1 ≤ crit n) (key : Nat) (v : α) :
    ∃ t0 t : CTable α, initReserve n = .ok t0 ∧ t0.set crit key v = .ok t ∧ t.get key = .ok none := by
  have hmod : key % n < n := Nat.mod_lt _ hn
  obtain ⟨k, rfl⟩ : ∃ k, n = k + 1 := ⟨n - 1, by omega⟩
  refine ⟨_, ⟨(List.replicate (k+1) (-1)).set (key % (k+1)) 0,
    ⟨k+1, 1, some ⟨key, -1, some v⟩ :: List.replicate k none⟩⟩, by simp [initReserve, Res.assert_true hn]; rfl, ?_, ?_⟩
  · have hf : CTable.find (⟨List.replicate (k+1) (-1), ⟨k+1, 0, List.replicate (k+1) none⟩⟩ : CTable α) key
        = .ok ⟨(key % (k+1) : Nat), -1, -1⟩ := by
      simp [CTable.find, List.getElem?_replicate, hmod, findLoop]
    unfold set
    have hge : (CTable.growIfEmpty (⟨List.replicate (k+1) (-1), ⟨k+1, 0, List.replicate (k+1) none⟩⟩ : CTable α))
        = .ok ⟨List.replicate (k+1) (-1), ⟨k+1, 0, List.replicate (k+1) none⟩⟩ := by simp [growIfEmpty]
    simp only [Res.bind_eq, hge, Res.ok_bind, insert, hf]
    have hneg : ¬ ((-1 : Int) ≥ 0) := by omega
    simp only [hneg, if_false, addEntry, Arr.append, Nat.zero_ne_add_one, List.replicate_succ, Arr.setCell,
      List.length_cons, Nat.zero_lt_succ, if_true, Res.bind_eq, Res.ok_bind, List.set_cons_zero, Res.pure_eq, linkSet,
      setHash]
    have hput : HTable.put (-1 :: List.replicate k (-1 : Int)) ((key % (k+1) : Nat) : Int) ((0 : Nat) : Int)
        = .ok ((-1 :: List.replicate k (-1)).set (key % (k+1)) 0) := by
      unfold HTable.put
      have hl : ((key % (k+1) : Nat) : Int).toNat < (-1 :: List.replicate k (-1 : Int)).length := by
        rw [Int.toNat_natCast]; simpa using hmod
      rw [if_neg (by omega), if_pos hl]; rfl
    rw [hput]
    simp only [Res.ok_bind, setValue, entryAt]
    simp [putEntry, Arr.setCell, growIfFull, full]
    omega
  · have hf : CTable.find (⟨(List.replicate (k+1) (-1)).set (key % (k+1)) 0,
        ⟨k+1, 1, some ⟨key, -1, some v⟩ :: List.replicate k none⟩⟩ : CTable α) key = .ok ⟨(key % (k+1) : Nat), -1, 0⟩ := by
      simp [CTable.find, hmod, findLoop, entryAt]
    simp [CTable.get, hf]

/-- C12, refuted: a table of the default 8 buckets loses a key as soon as it has been rehashed: after seven distinct
keys, the seventh, just set, is not found. -/
theorem C12_rehash_loses_key_refuted :
    ∃ t0 t : CTable Nat, initReserve 8 = .ok t0 ∧
      t0.setAll crit7 [(1,1),(2,2),(3,3),(4,4),(5,5),(6,6),(7,7)] = .ok t ∧ t.get 7 = .ok none :=
  ⟨_, _, rfl, rfl, rfl⟩

/-- C12, refuted: after the rehash the table reports a value for key 0, which was never set (zero bytes read beyond the
entries). -/
theorem C12_phantom_key_refuted :
    ∃ t0 t : CTable Nat, initReserve 8 = .ok t0 ∧
      t0.setAll crit7 [(1,1),(2,2),(3,3),(4,4),(5,5),(6,6)] = .ok t ∧ t.get 0 = .ok (some none) :=
  ⟨_, _, rfl, rfl, rfl⟩

/-- C12, refuted: the number of buckets never grows. -/
theorem C12_buckets_never_grow {α : Type} (t t' : CTable α) (n : Nat) (h : t.rehash n = .ok t') :
    t'.hashes.length = t.hashes.length := by
  unfold rehash at h
  simp only [Res.bind_eq, Res.bind_eq_ok] at h
  obtain ⟨_, _, nt, hnt, hloop⟩ := h
  have hlen : nt.hashes.length = t.hashes.length := by
    unfold initReserve at hnt
    simp only [Res.bind_eq, Res.bind_eq_ok, Res.pure_eq, Res.ok.injEq] at hnt
    obtain ⟨_, _, rfl⟩ := hnt
    simp
  rw [← hlen]
  generalize t.hashes.length = k at hloop
  clear hnt hlen
  have hset : ∀ (a b : CTable α) (i : Int) (e : HEntry α), a.putEntry i e = .ok b → b.hashes.length = a.hashes.length := by
    intro a b i e h
    unfold putEntry at h
    split at h
    · cases h
    · simp only [Res.bind_eq, Res.bind_eq_ok, Res.pure_eq, Res.ok.injEq] at h
      obtain ⟨_, _, rfl⟩ := h; rfl
  have hnx : ∀ (a b : CTable α) (i n : Int), a.setNext i n = .ok b → b.hashes.length = a.hashes.length := by
    intro a b i n h
    simp only [setNext, Res.bind_eq, Res.bind_eq_ok] at h
    obtain ⟨_, _, h⟩ := h
    exact hset _ _ _ _ h
  have hv : ∀ (a b : CTable α) (i : Int) (v : Option α), a.setValue i v = .ok b → b.hashes.length = a.hashes.length := by
    intro a b i n h
    simp only [setValue, Res.bind_eq, Res.bind_eq_ok] at h
    obtain ⟨_, _, h⟩ := h
    exact hset _ _ _ _ h
  have hlk : ∀ (a b : CTable α) (r : FindResult) (i : Int), a.linkAt r i = .ok b → b.hashes.length = a.hashes.length := by
    intro a b r i h
    unfold linkAt at h
    split at h
    · simp only [setHash, Res.bind_eq, Res.bind_eq_ok, Res.pure_eq, Res.ok.injEq] at h
      obtain ⟨hs, h1, rfl⟩ := h
      unfold HTable.put at h1
      split at h1
      · cases h1
      · split at h1
        · cases h1; simp
        · cases h1
    · exact hnx _ _ _ _ h
  suffices H : ∀ (k idx : Nat) (nt : CTable α), rehashLoop t nt idx k = .ok t' → t'.hashes.length = nt.hashes.length from
    H k 0 nt hloop
  intro k
  induction k with
  | zero => intro idx nt h; cases h; rfl
  | succ k ih =>
    intro idx nt h
    simp only [rehashLoop, Res.bind_eq, Res.bind_eq_ok] at h
    obtain ⟨e, _, r, _, ⟨nt1, last⟩, ha, nt2, hl2, nt3, hn3, nt4, hv4, hr⟩ := h
    rw [ih _ _ hr, hv _ _ _ _ hv4, hnx _ _ _ _ hn3, hlk _ _ _ _ hl2]
    simp only [addEntry, Res.bind_eq, Res.bind_eq_ok, Res.pure_eq, Res.ok.injEq, Prod.mk.injEq] at ha
    obtain ⟨_, _, rfl, _⟩ := ha
    rfl

end Verif.CTable
