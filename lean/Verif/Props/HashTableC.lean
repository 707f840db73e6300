import Verif.Props.HashTable
import Verif.Proof.Array
/-!
# Property C12, the part that holds

A table of the C library that never reaches its load threshold behaves as a map, but for the first key ever set. The proof is a
simulation of the C++ table.
-/
namespace Verif.CTable
variable {α : Type}

/-- The C table `c` stores the entries of the C++ table `t`. -/
structure Sim (c : CTable α) (t : HTable α) : Prop where
  hashes : c.hashes = t.hashes
  inv : c.entries.Inv
  contents : c.entries.contents = t.entries.map some

theorem Sim.num {c : CTable α} {t : HTable α} (s : Sim c t) : c.entries.num = t.entries.length := by
  rw [← Arr.contents_length s.inv, s.contents]; simp

theorem Sim.cell {c : CTable α} {t : HTable α} (s : Sim c t) {i : Nat} {e : HEntry α} (h : t.entries[i]? = some e) :
    c.entries.cells[i]? = some (some e) := by
  have hi : i < t.entries.length := (List.getElem?_eq_some_iff.mp h).1
  have : c.entries.contents[i]? = some (some e) := by rw [s.contents]; simp [h]
  simp only [Arr.contents, List.getElem?_take] at this
  rw [if_pos (by rw [s.num]; exact hi)] at this
  exact this

theorem Sim.entryAt {c : CTable α} {t : HTable α} (s : Sim c t) {i : Int} {e : HEntry α} (h : HTable.at? t.entries i = .ok e) :
    c.entryAt i = .ok e := by
  unfold HTable.at? at h
  unfold CTable.entryAt
  split at h
  · cases h
  · next hi =>
    rw [if_neg hi]
    cases he : t.entries[i.toNat]? with
    | none => rw [he] at h; cases h
    | some x => rw [he] at h; cases h; rw [s.cell he]

theorem Sim.findLoop {c : CTable α} {t : HTable α} (s : Sim c t) (key : Nat) : ∀ (f f' : Nat) (r r' : FindResult), f ≤ f' →
    HTable.findLoop t key f r = .ok r' → CTable.findLoop c key f' r = .ok r' := by
  intro f
  induction f with
  | zero => intro f' r r' _ h; cases h
  | succ f ih =>
    intro f' r r' hf h
    obtain ⟨g, rfl⟩ : ∃ g, f' = g + 1 := ⟨f' - 1, by omega⟩
    unfold HTable.findLoop at h
    unfold CTable.findLoop
    by_cases hr : r.entryIndex < 0
    · rw [if_pos hr] at h ⊢; exact h
    · rw [if_neg hr] at h ⊢
      simp only [Res.bind_eq] at h ⊢
      obtain ⟨e, he, h⟩ := Res.bind_eq_ok.1 h
      rw [s.entryAt he]
      simp only [Res.ok_bind]
      by_cases hk : e.key = key
      · rw [if_pos hk] at h ⊢; exact h
      · rw [if_neg hk] at h ⊢; exact ih g _ _ (by omega) h

theorem Sim.find {c : CTable α} {t : HTable α} (s : Sim c t) {key : Nat} {r : FindResult} (h : t.find key = .ok r) :
    c.find key = .ok r := by
  unfold HTable.find at h
  unfold CTable.find
  rw [s.hashes]
  by_cases h0 : t.hashes.length = 0
  · rw [if_pos h0] at h ⊢; exact h
  · rw [if_neg h0] at h ⊢
    simp only [Res.bind_eq] at h ⊢
    obtain ⟨e, he, h⟩ := Res.bind_eq_ok.1 h
    rw [he]
    simp only [Res.ok_bind]
    refine s.findLoop key _ _ _ _ ?_ h
    have := s.num; have := s.inv.num_le; have := s.inv.len
    omega

theorem Sim.putEntry {c : CTable α} {t : HTable α} (s : Sim c t) {i : Int} {e : HEntry α} {es : List (HEntry α)}
    (h : HTable.put t.entries i e = .ok es) : ∃ c', c.putEntry i e = .ok c' ∧ Sim c' { t with entries := es } := by
  unfold HTable.put at h
  unfold CTable.putEntry
  split at h
  · cases h
  · next hi =>
    rw [if_neg hi]
    split at h
    · next hl =>
      cases h
      have hn := s.num; have h1 := s.inv.num_le; have h2 := s.inv.len
      rw [Arr.setCell_spec (by omega)]
      refine ⟨_, rfl, s.hashes, ⟨s.inv.cap, s.inv.num_le, by simp [h2]⟩, ?_⟩
      show (c.entries.cells.set _ _).take c.entries.num = _
      rw [List.take_set]
      have := s.contents
      unfold Arr.contents at this
      rw [this, List.map_set]
    · cases h

theorem Sim.setValue {c : CTable α} {t t' : HTable α} (s : Sim c t) {i : Int} {v : Option α} (h : t.setValue i v = .ok t') :
    ∃ c', c.setValue i v = .ok c' ∧ Sim c' t' := by
  unfold HTable.setValue at h
  simp only [Res.bind_eq] at h
  obtain ⟨e, he, h⟩ := Res.bind_eq_ok.1 h
  obtain ⟨es, hes, h⟩ := Res.bind_eq_ok.1 h
  cases h
  unfold CTable.setValue
  simp only [Res.bind_eq]
  rw [s.entryAt he]
  exact s.putEntry hes

theorem Sim.setNext {c : CTable α} {t t' : HTable α} (s : Sim c t) {i n : Int} (h : t.setNext i n = .ok t') :
    ∃ c', c.setNext i n = .ok c' ∧ Sim c' t' := by
  unfold HTable.setNext at h
  simp only [Res.bind_eq] at h
  obtain ⟨e, he, h⟩ := Res.bind_eq_ok.1 h
  obtain ⟨es, hes, h⟩ := Res.bind_eq_ok.1 h
  cases h
  unfold CTable.setNext
  simp only [Res.bind_eq]
  rw [s.entryAt he]
  exact s.putEntry hes

theorem Sim.setHash {c : CTable α} {t t' : HTable α} (s : Sim c t) {i n : Int} (h : t.setHash i n = .ok t') :
    ∃ c', c.setHash i n = .ok c' ∧ Sim c' t' := by
  unfold HTable.setHash at h
  simp only [Res.bind_eq] at h
  obtain ⟨hs, he, h⟩ := Res.bind_eq_ok.1 h
  cases h
  unfold CTable.setHash
  simp only [Res.bind_eq]
  rw [s.hashes, he]
  exact ⟨_, rfl, rfl, s.inv, s.contents⟩

theorem Sim.linkSet {c : CTable α} {t t' : HTable α} (s : Sim c t) {r : FindResult} {i : Int} (h : t.linkSet r i = .ok t') :
    ∃ c', c.linkSet r i = .ok c' ∧ Sim c' t' := by
  unfold HTable.linkSet at h
  unfold CTable.linkSet
  by_cases hp : r.prevIndex ≥ 0
  · rw [if_pos hp] at h ⊢; exact s.setNext h
  · rw [if_neg hp] at h ⊢; exact s.setHash h

theorem Sim.addEntry {c : CTable α} {t : HTable α} (s : Sim c t) (key : Nat) :
    ∃ c', c.addEntry key = .ok (c', (t.addEntry key).2) ∧ Sim c' (t.addEntry key).1 := by
  obtain ⟨b, a, e, hi, hf, ht⟩ := Arr.append_spec (lib := .clib) (heap := false) (mem := true) (by simp) s.inv
    (⟨key, -1, none⟩ : HEntry α)
  have hb : b = true := by
    cases b
    · exact absurd (hf rfl).1 (by simp)
    · rfl
  unfold CTable.addEntry
  rw [e]
  refine ⟨{ c with entries := a }, ?_, s.hashes, hi, ?_⟩
  · show Res.ok (_, (c.entries.num : Int)) = _
    rw [s.num]; rfl
  · show a.contents = _
    rw [ht hb, s.contents]
    simp [HTable.addEntry]

theorem Sim.insert {c : CTable α} {t t' : HTable α} (s : Sim c t) {key : Nat} {v : α} (h : t.insert key v = .ok t') :
    ∃ c', c.insert key v = .ok c' ∧ Sim c' t' := by
  unfold HTable.insert at h
  simp only [Res.bind_eq] at h
  obtain ⟨r, hr, h⟩ := Res.bind_eq_ok.1 h
  unfold CTable.insert
  simp only [Res.bind_eq]
  rw [s.find hr]
  simp only [Res.ok_bind]
  by_cases hi : r.entryIndex ≥ 0
  · rw [if_pos hi] at h ⊢; exact s.setValue h
  · rw [if_neg hi] at h ⊢
    obtain ⟨c1, e1, s1⟩ := s.addEntry key
    rw [e1]
    simp only [Res.ok_bind]
    obtain ⟨t2, h2, h⟩ := Res.bind_eq_ok.1 h
    obtain ⟨c2, e2, s2⟩ := s1.linkSet h2
    rw [e2]
    exact s2.setValue h

theorem nodup_subset_length : ∀ (l m : List Nat), l.Nodup → (∀ x ∈ l, x ∈ m) → l.length ≤ m.length
  | [], _, _, _ => by simp
  | x :: l, m, hn, hs => by
    rw [List.nodup_cons] at hn
    have := nodup_subset_length l (m.erase x) hn.2 (by
      intro y hy
      have : y ≠ x := fun h => hn.1 (h ▸ hy)
      exact (List.mem_erase_of_ne this).2 (hs y (by simp [hy])))
    have hx := hs x (by simp)
    rw [List.length_erase_of_mem hx] at this
    have := List.length_pos_of_mem hx
    simp only [List.length_cons]
    omega

theorem put_length {β : Type} {l l' : List β} {i : Int} {v : β} (h : HTable.put l i v = .ok l') : l'.length = l.length := by
  unfold HTable.put at h
  split at h
  · cases h
  · split at h
    · cases h; simp
    · cases h

theorem setValue_buckets {t t' : HTable α} {i : Int} {v : Option α} (h : t.setValue i v = .ok t') : t'.hashes = t.hashes := by
  unfold HTable.setValue at h
  simp only [Res.bind_eq] at h
  obtain ⟨_, _, h⟩ := Res.bind_eq_ok.1 h
  obtain ⟨_, _, h⟩ := Res.bind_eq_ok.1 h
  cases h; rfl

theorem insert_buckets {t t' : HTable α} {key : Nat} {v : α} (h : t.insert key v = .ok t') :
    t'.hashes.length = t.hashes.length := by
  unfold HTable.insert at h
  simp only [Res.bind_eq] at h
  obtain ⟨r, hr, h⟩ := Res.bind_eq_ok.1 h
  by_cases hi : r.entryIndex ≥ 0
  · rw [if_pos hi] at h; rw [setValue_buckets h]
  · rw [if_neg hi] at h
    obtain ⟨t2, h2, h⟩ := Res.bind_eq_ok.1 h
    rw [setValue_buckets h]
    unfold HTable.linkSet at h2
    split at h2
    · unfold HTable.setNext at h2
      simp only [Res.bind_eq] at h2
      obtain ⟨_, _, h2⟩ := Res.bind_eq_ok.1 h2
      obtain ⟨_, _, h2⟩ := Res.bind_eq_ok.1 h2
      cases h2; rfl
    · unfold HTable.setHash at h2
      simp only [Res.bind_eq] at h2
      obtain ⟨_, hp, h2⟩ := Res.bind_eq_ok.1 h2
      cases h2
      exact put_length hp

/-- The latest value set for a key in a history of sets. -/
def latest (kvs : List (Nat × α)) (key : Nat) : Option α := (kvs.reverse.find? (fun p => p.1 = key)).map (·.2)

theorem insertAll {crit : Nat → Nat} {ks : List Nat} : ∀ (kvs : List (Nat × α)) (c : CTable α) (t : HTable α), Sim c t → t.WF →
    (∀ p ∈ kvs, p.1 ∈ ks) → (∀ p ∈ t.kvs, p.1 ∈ ks) → ks.length ≤ crit t.hashes.length →
    ∃ c' t', c.setAll crit kvs = .ok c' ∧ Sim c' t' ∧ t'.WF ∧
      t'.kvs = kvs.foldl (fun l p => HTable.upsert l p.1 p.2) t.kvs
  | [], c, t, s, w, _, _, _ => ⟨c, t, rfl, s, w, rfl⟩
  | (k, v) :: kvs, c, t, s, w, hk, ht, hc => by
    obtain ⟨t1, e1, w1, k1⟩ := HTable.insert_spec w k v
    obtain ⟨c1, f1, s1⟩ := s.insert e1
    have hk1 : ∀ p ∈ t1.kvs, p.1 ∈ ks := by
      intro p hp
      rw [k1] at hp
      unfold HTable.upsert at hp
      split at hp
      · obtain ⟨q, hq, rfl⟩ := List.mem_map.1 hp
        split
        · exact hk (k, v) (by simp)
        · exact ht q hq
      · rcases List.mem_append.1 hp with hp | hp
        · exact ht p hp
        · simp at hp; subst hp; exact hk (k, v) (by simp)
    have hlen1 : t1.hashes.length = t.hashes.length := by
      exact insert_buckets e1
    have hle : t1.entries.length ≤ ks.length := by
      have := w1.keys
      rw [← HTable.kvs_length, ← List.length_map (·.1)]
      exact nodup_subset_length _ _ this (by
        intro x hx
        obtain ⟨p, hp, rfl⟩ := List.mem_map.1 hx
        exact hk1 p hp)
    have hset : c.set crit k v = .ok c1 := by
      have hne := w.linked.hne
      unfold CTable.set CTable.growIfEmpty
      rw [s.hashes, if_neg (by omega)]
      simp only [Res.bind_eq, Res.ok_bind, f1]
      unfold CTable.growIfFull CTable.full
      rw [s1.num, s1.hashes, if_neg]
      simp only [hlen1, decide_eq_true_eq]
      omega
    obtain ⟨c', t', e', s', w', k'⟩ := insertAll kvs c1 t1 s1 w1 (fun p hp => hk p (by simp [hp])) hk1 (by rw [hlen1]; exact hc)
    refine ⟨c', t', ?_, s', w', by rw [k', k1]; rfl⟩
    unfold CTable.setAll
    simp only [Res.bind_eq, hset, Res.ok_bind]
    exact e'

theorem find_foldl (x : Nat) : ∀ (kvs : List (Nat × α)) (l : List (Nat × Option α)),
    ((kvs.foldl (fun l p => HTable.upsert l p.1 p.2) l).find? (fun p => p.1 = x)).map (·.2) =
      match latest kvs x with | some v => some (some v) | none => (l.find? (fun p => p.1 = x)).map (·.2)
  | [], l => rfl
  | (k, v) :: kvs, l => by
    rw [List.foldl_cons, find_foldl x kvs]
    unfold latest
    simp only [List.reverse_cons, List.find?_append]
    cases (kvs.reverse.find? (fun p => p.1 = x)) with
    | some p => rfl
    | none =>
      simp only [Option.map_none, Option.none_or, HTable.find_upsert]
      by_cases hx : x = k
      · simp [hx]
      · have : ¬ k = x := fun h => hx h.symm
        simp [hx, this]

theorem head_foldl : ∀ (kvs : List (Nat × α)) (l : List (Nat × Option α)) (k : Nat), (l.map (·.1)).head? = some k →
    ((kvs.foldl (fun l p => HTable.upsert l p.1 p.2) l).map (·.1)).head? = some k
  | [], l, k, h => h
  | (k1, v) :: kvs, l, k, h => by
    rw [List.foldl_cons]
    apply head_foldl kvs
    unfold HTable.upsert
    cases l with
    | nil => cases h
    | cons p l =>
      simp at h
      split
      · simp only [List.map_cons, List.head?_cons]
        split
        · next hp => simp [← hp, h]
        · simp [h]
      · simp [h]

/-- The C library's `get` in terms of the C++ table's. -/
theorem Sim.get {c : CTable α} {t : HTable α} (s : Sim c t) (w : t.WF) (key : Nat) :
    c.get key = if (t.kvs.map (·.1)).head? = some key then .ok none else t.get key := by
  unfold CTable.get HTable.get
  simp only [Res.bind_eq]
  rcases HTable.find_spec w.linked key with ⟨p', x, hx, ⟨e, he, hk⟩, hf⟩ | ⟨hnone, hd, l, _, _, _, _, hf⟩
  · rw [s.find hf, hf]
    simp only [Res.ok_bind]
    have hkx : (t.kvs.map (·.1))[x]? = some key := by simp [HTable.kvs, he, HEntry.kv, hk]
    by_cases h0 : x = 0
    · subst h0
      rw [if_neg (by decide), if_pos]
      · rfl
      · rw [List.head?_eq_getElem?]; exact hkx
    · rw [if_pos (by omega), if_neg, if_pos (by omega)]
      · rw [s.entryAt (e := e) (by rw [HTable.at?_ofNat, he]; rfl), HTable.at?_ofNat, he]
        rfl
      · rw [List.head?_eq_getElem?]
        intro hh
        have hl : 0 < (t.kvs.map (·.1)).length := (List.getElem?_eq_some_iff.mp hh).1
        exact h0 ((List.getElem?_inj hl w.keys).mp (hh.trans hkx.symm)).symm
  · rw [s.find hf, hf]
    simp only [Res.ok_bind]
    have n1 : ¬ ((-1 : Int) > 0) := by decide
    have n2 : ¬ ((-1 : Int) ≥ 0) := by decide
    simp only [n1, n2, if_false, Res.pure_eq, ite_self]

/-- C12, the part that holds: as long as the number of distinct keys stays within the load threshold, no call faults, and in any
history of sets (keys and values arbitrary, in any order, with any repetitions) `get` returns the value most recently set for
each key and null for keys never set. The exception is the key that was set first, for which `get` returns null
(`C12_first_key_lost_refuted`); histories that pass the threshold are `C12_rehash_loses_key_refuted` and
`C12_phantom_key_refuted`. -/
theorem C12_no_growth_partial (crit : Nat → Nat) (n : Nat) (hn : 0 < n) (k0 : Nat) (v0 : α) (kvs : List (Nat × α)) (ks : List Nat)
    (hk : ∀ p ∈ (k0, v0) :: kvs, p.1 ∈ ks) (hc : ks.length ≤ crit n) :
    ∃ t0 t : CTable α, initReserve n = .ok t0 ∧ t0.setAll crit ((k0, v0) :: kvs) = .ok t ∧ t.get k0 = .ok none ∧
      ∀ key, key ≠ k0 → t.get key = .ok ((latest ((k0, v0) :: kvs) key).map some) := by
  obtain ⟨t0, e0, w0, kv0, hl⟩ := HTable.init_wf (α := α) hn
  have et0 : t0 = ⟨List.replicate n (-1), []⟩ := by
    unfold HTable.initReserve at e0
    rw [Res.assert_true hn] at e0
    cases e0; rfl
  have ec0 : initReserve (α := α) n = .ok ⟨List.replicate n (-1), ⟨n, 0, List.replicate n none⟩⟩ := by
    unfold initReserve; rw [Res.assert_true hn]; rfl
  have s0 : Sim (⟨List.replicate n (-1), ⟨n, 0, List.replicate n none⟩⟩ : CTable α) t0 := by
    subst et0
    exact ⟨rfl, ⟨hn, Nat.zero_le _, by simp⟩, by simp [Arr.contents]⟩
  obtain ⟨c, t, e, s, w, k⟩ := insertAll (crit := crit) (ks := ks) ((k0, v0) :: kvs) _ t0 s0 w0 hk (by rw [kv0]; simp)
    (by rw [hl]; exact hc)
  have hhead : (t.kvs.map (·.1)).head? = some k0 := by
    rw [k, List.foldl_cons, kv0]
    exact head_foldl kvs _ k0 (by simp [HTable.upsert])
  refine ⟨_, c, ec0, e, ?_, ?_⟩
  · rw [s.get w, if_pos hhead]
  · intro key hne
    rw [s.get w, if_neg (by rw [hhead]; simp; exact fun h => hne h.symm), HTable.get_spec w, k, find_foldl, kv0]
    cases latest ((k0, v0) :: kvs) key <;> rfl

/-- The hypotheses are met: five distinct keys, three of them in one bucket, one set twice. -/
example : ∀ p ∈ ((1, 10) :: [(9, 20), (17, 30), (2, 40), (9, 50), (3, 60)] : List (Nat × Nat)), p.1 ∈ [1, 9, 17, 2, 3] := by decide
example : [1, 9, 17, 2, 3].length ≤ crit7 8 := by decide
example : latest ((1, 10) :: [(9, 20), (17, 30), (2, 40), (9, 50), (3, 60)] : List (Nat × Nat)) 9 = some 50 := by decide

end Verif.CTable
