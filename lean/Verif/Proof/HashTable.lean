import Verif.Model.HashTable
/-! Helper lemmas for the hash table. -/
namespace Verif.HTable
variable {α : Type}

/-- Key and value of an entry. -/
def _root_.Verif.HEntry.kv (e : HEntry α) : Nat × Option α := (e.key, e.value)

/-- Following `next` from `i` visits exactly the entry indices `l` and then `-1`. -/
def Chain (E : List (HEntry α)) : Int → List Nat → Prop
  | i, [] => i = -1
  | i, x :: xs => i = (x : Int) ∧ ∃ e, E[x]? = some e ∧ Chain E e.next xs

/-- The first `k` entries are linked: each bucket's chain lists exactly the indices below `k` whose key falls in it. -/
structure Linked (t : HTable α) (k : Nat) : Prop where
  hne : 0 < t.hashes.length
  kle : k ≤ t.entries.length
  chain : ∀ b, b < t.hashes.length → ∃ h l, t.hashes[b]? = some h ∧ Chain t.entries h l ∧ l.Nodup ∧
    ∀ i, i ∈ l ↔ i < k ∧ ∃ e, t.entries[i]? = some e ∧ e.key % t.hashes.length = b

/-- No two entries share a key. -/
def KeysNodup (E : List (HEntry α)) : Prop := (E.map (·.key)).Nodup

/-- A consistent table. -/
structure WF (t : HTable α) : Prop where
  linked : Linked t t.entries.length
  nodup : KeysNodup t.entries

theorem at?_ofNat {β : Type} (l : List β) (i : Nat) : at? l (i : Int) = Res.ofOption l[i]? := by
  unfold at?
  rw [if_neg (by omega)]; rfl

theorem put_ofNat {β : Type} {l : List β} {i : Nat} (v : β) (h : i < l.length) : put l (i : Int) v = .ok (l.set i v) := by
  simp [put, h]

theorem Chain.append {E : List (HEntry α)} {E' : List (HEntry α)} : ∀ {l : List Nat} {i : Int},
    (∀ x ∈ l, E'[x]? = E[x]?) → Chain E i l → Chain E' i l
  | [], _, _, h => h
  | x :: xs, i, hs, ⟨h1, e, h2, h3⟩ =>
    ⟨h1, e, by rw [hs x List.mem_cons_self, h2], Chain.append (fun y hy => hs y (List.mem_cons_of_mem _ hy)) h3⟩

theorem nodup_length_le : ∀ {n : Nat} {l : List Nat}, l.Nodup → (∀ i ∈ l, i < n) → l.length ≤ n := by
  intro n
  induction n with
  | zero =>
    intro l _ h
    cases l with
    | nil => simp
    | cons x xs => exact absurd (h x List.mem_cons_self) (by omega)
  | succ n ih =>
    intro l hn h
    by_cases hm : n ∈ l
    · have h1 := ih (l := l.erase n) (hn.erase n) (fun i hi => by
        have := h i (List.mem_of_mem_erase hi)
        have hne : i ≠ n := by
          intro e; subst e
          exact (List.Nodup.not_mem_erase hn) hi
        omega)
      rw [List.length_erase_of_mem hm] at h1
      omega
    · have := ih hn (fun i hi => by
        have := h i hi
        have hne : i ≠ n := fun e => hm (e ▸ hi)
        omega)
      omega

/-- Result of the pointer chase along a chain. -/
theorem findLoop_spec (t : HTable α) (key : Nat) (hi : Int) : ∀ (l : List Nat) (i p : Int) (fuel : Nat),
    Chain t.entries i l → l.length < fuel →
    (∃ p' : Int, ∃ x : Nat, x ∈ l ∧ (∃ e, t.entries[x]? = some e ∧ e.key = key) ∧
        findLoop t key fuel ⟨hi, p, i⟩ = .ok ⟨hi, p', x⟩) ∨
    ((∀ x ∈ l, ∀ e, t.entries[x]? = some e → e.key ≠ key) ∧
      findLoop t key fuel ⟨hi, p, i⟩ = .ok ⟨hi, match l.getLast? with | some x => (x : Int) | none => p, -1⟩) := by
  intro l
  induction l with
  | nil =>
    intro i p fuel hc hf
    obtain ⟨f, rfl⟩ : ∃ f, fuel = f + 1 := ⟨fuel - 1, by simp at hf; omega⟩
    simp only [Chain] at hc
    subst hc
    exact Or.inr ⟨by simp, by simp [findLoop]⟩
  | cons x xs ih =>
    intro i p fuel hc hf
    obtain ⟨f, rfl⟩ : ∃ f, fuel = f + 1 := ⟨fuel - 1, by simp at hf; omega⟩
    obtain ⟨rfl, e, he, hc'⟩ := hc
    have hneg : ¬ ((x : Int) < 0) := by omega
    by_cases hk : e.key = key
    · refine Or.inl ⟨p, x, List.mem_cons_self, ⟨e, he, hk⟩, ?_⟩
      simp only [findLoop, hneg, if_false, at?_ofNat, he, Res.ofOption_some, Res.bind_eq, Res.ok_bind, hk, if_true,
        Res.pure_eq]
    · have hstep : findLoop t key (f+1) ⟨hi, p, (x:Int)⟩ = findLoop t key f ⟨hi, x, e.next⟩ := by
        simp only [findLoop, hneg, if_false, at?_ofNat, he, Res.ofOption_some, Res.bind_eq, Res.ok_bind, hk]
      rw [hstep]
      rcases ih e.next x f hc' (by simp at hf; omega) with ⟨p', y, hy, hye, hr⟩ | ⟨hno, hr⟩
      · exact Or.inl ⟨p', y, List.mem_cons_of_mem _ hy, hye, hr⟩
      · refine Or.inr ⟨?_, ?_⟩
        · intro y hy e' he'
          rcases List.mem_cons.mp hy with rfl | hy
          · rw [he] at he'; cases he'; exact hk
          · exact hno y hy e' he'
        · rw [hr]
          cases xs with
          | nil => rfl
          | cons y ys =>
            rw [List.getLast?_cons_cons]
            have : ∃ z, (y :: ys).getLast? = some z := ⟨_, List.getLast?_eq_some_getLast (by simp)⟩
            obtain ⟨z, hz⟩ := this
            rw [hz]

/-- `find` in a table with `k` linked entries: either an entry `< k` with that key, or not found together with the tail
of the bucket's chain. -/
theorem find_spec {t : HTable α} {k : Nat} (h : Linked t k) (key : Nat) :
    (∃ p' : Int, ∃ x : Nat, x < k ∧ (∃ e, t.entries[x]? = some e ∧ e.key = key) ∧
        t.find key = .ok ⟨(key % t.hashes.length : Nat), p', x⟩) ∨
    ((∀ x, x < k → ∀ e, t.entries[x]? = some e → e.key ≠ key) ∧
      ∃ hd l, t.hashes[key % t.hashes.length]? = some hd ∧ Chain t.entries hd l ∧ l.Nodup ∧
        (∀ i, i ∈ l ↔ i < k ∧ ∃ e, t.entries[i]? = some e ∧ e.key % t.hashes.length = key % t.hashes.length) ∧
        t.find key = .ok ⟨(key % t.hashes.length : Nat), match l.getLast? with | some x => (x : Int) | none => -1, -1⟩) := by
  have hlt : key % t.hashes.length < t.hashes.length := Nat.mod_lt _ h.hne
  obtain ⟨hd, l, hh, hc, hnd, hmem⟩ := h.chain _ hlt
  have hlen : l.length ≤ t.entries.length := by
    apply nodup_length_le hnd
    intro i hi
    have := (hmem i).mp hi
    have := h.kle
    omega
  have hfind : t.find key = findLoop t key (t.entries.length + 1) ⟨(key % t.hashes.length : Nat), -1, hd⟩ := by
    unfold find
    have hne := h.hne
    rw [if_neg (by omega)]
    simp only [hh, Res.ofOption_some, Res.bind_eq, Res.ok_bind]
  rw [hfind]
  rcases findLoop_spec t key ((key % t.hashes.length : Nat) : Int) l hd (-1) (t.entries.length + 1) hc (by omega) with
    ⟨p', x, hx, hxe, hr⟩ | ⟨hno, hr⟩
  · exact Or.inl ⟨p', x, ((hmem x).mp hx).1, hxe, hr⟩
  · refine Or.inr ⟨?_, hd, l, hh, hc, hnd, hmem, hr⟩
    intro x hx e he hk
    exact hno x ((hmem x).mpr ⟨hx, e, he, by rw [hk]⟩) e he hk

/-- Appending `k` to the end of the chain of its bucket. -/
theorem Chain.snoc {E : List (HEntry α)} {k : Nat} {ek : HEntry α} (hk : E[k]? = some ek) (hkn : ek.next = -1) :
    ∀ {l : List Nat} {i : Int} {x : Nat} {ex : HEntry α}, Chain E i l → l.Nodup → l.getLast? = some x →
      E[x]? = some ex → k ∉ l → Chain (E.set x { ex with next := (k : Int) }) i (l ++ [k]) := by
  intro l
  induction l with
  | nil => intro i x ex _ _ hl; simp at hl
  | cons y ys ih =>
    intro i x ex hc hnd hl hx hkl
    obtain ⟨hi, e, he, hc'⟩ := hc
    have hxlt : x < E.length := (List.getElem?_eq_some_iff.mp hx).1
    have hne : k ≠ y := fun h => hkl (h ▸ List.mem_cons_self)
    cases ys with
    | nil =>
      simp at hl
      subst hl
      rw [he] at hx
      obtain rfl : e = ex := Option.some.inj hx
      refine ⟨hi, { e with next := (k : Int) }, by rw [List.getElem?_set_self hxlt], ?_⟩
      refine ⟨rfl, ek, ?_, hkn⟩
      rw [List.getElem?_set_ne (Ne.symm hne), hk]
    | cons z zs =>
      rw [List.getLast?_cons_cons] at hl
      have hxz : x ∈ z :: zs := List.mem_of_getLast? hl
      have hxy : x ≠ y := fun h => (List.nodup_cons.mp hnd).1 (h ▸ hxz)
      refine ⟨hi, e, by rw [List.getElem?_set_ne hxy, he], ?_⟩
      exact ih hc' (List.nodup_cons.mp hnd).2 hl hx (fun h => hkl (List.mem_cons_of_mem _ h))

/-- Linking entry `k` (present, with `next = -1`, key not among the first `k`) after a failed `find`. -/
theorem link_spec {t : HTable α} {k : Nat} (h : Linked t k) {ek : HEntry α} (hk : t.entries[k]? = some ek)
    (hkn : ek.next = -1) {hd : Int} {l : List Nat} (hh : t.hashes[ek.key % t.hashes.length]? = some hd)
    (hc : Chain t.entries hd l) (hnd : l.Nodup)
    (hmem : ∀ i, i ∈ l ↔ i < k ∧ ∃ e, t.entries[i]? = some e ∧ e.key % t.hashes.length = ek.key % t.hashes.length)
    (p : Int) (hp : p = match l.getLast? with | some x => (x : Int) | none => -1) :
    ∃ t', t.linkAt ⟨((ek.key % t.hashes.length : Nat) : Int), p, -1⟩ k = .ok t' ∧
      Linked t' (k+1) ∧ t'.hashes.length = t.hashes.length ∧ t'.entries.length = t.entries.length ∧
      t'.entries[k]? = some ek ∧
      (∀ i : Nat, (t'.entries[i]?).map HEntry.kv = (t.entries[i]?).map HEntry.kv) ∧
      (∀ i : Nat, k < i → t'.entries[i]? = t.entries[i]?) := by
  have hlt : ek.key % t.hashes.length < t.hashes.length := Nat.mod_lt _ h.hne
  have hklt : k < t.entries.length := (List.getElem?_eq_some_iff.mp hk).1
  have hkl : k ∉ l := fun hm => by have := ((hmem k).mp hm).1; omega
  cases hl : l.getLast? with
  | none =>
    have hl0 : l = [] := by simpa using hl
    subst hl0
    rw [hl] at hp
    simp only at hp
    subst hp
    unfold linkAt
    rw [if_pos (by show (-1 : Int) < 0; omega)]
    refine ⟨{ t with hashes := t.hashes.set (ek.key % t.hashes.length) k }, ?_, ?_, by simp, rfl, hk,
      fun _ => rfl, fun _ _ => rfl⟩
    · simp only [setHash, put_ofNat _ hlt, Res.bind_eq, Res.ok_bind, Res.pure_eq]
    · refine ⟨by simpa using h.hne, hklt, ?_⟩
      intro b hb
      simp only [List.length_set] at hb ⊢
      obtain ⟨hd', l', hh', hc', hnd', hmem'⟩ := h.chain b hb
      by_cases hbe : b = ek.key % t.hashes.length
      · subst hbe
        refine ⟨k, [k], by rw [List.getElem?_set_self hlt], ⟨rfl, ek, hk, hkn⟩, by simp, ?_⟩
        intro i
        simp only [List.mem_singleton]
        constructor
        · rintro rfl; exact ⟨by omega, ek, hk, rfl⟩
        · rintro ⟨hi, e, he, hke⟩
          by_cases hik : i = k
          · exact hik
          · have := (hmem i).mpr ⟨by omega, e, he, hke⟩
            simp at this
      · refine ⟨hd', l', by rw [List.getElem?_set_ne (Ne.symm hbe), hh'], hc', hnd', ?_⟩
        intro i
        rw [hmem' i]
        constructor
        · rintro ⟨hi, r⟩; exact ⟨by omega, r⟩
        · rintro ⟨hi, e, he, hke⟩
          refine ⟨?_, e, he, hke⟩
          by_cases hik : i = k
          · subst hik; rw [hk] at he; cases he; exact absurd hke.symm hbe
          · omega
  | some x =>
    rw [hl] at hp
    simp only at hp
    subst hp
    unfold linkAt
    rw [if_neg (by show ¬ ((x : Int) < 0); omega)]
    have hxl : x ∈ l := List.mem_of_getLast? hl
    obtain ⟨hxk, ex, hex, hexk⟩ := (hmem x).mp hxl
    have hxlt : x < t.entries.length := (List.getElem?_eq_some_iff.mp hex).1
    have hxne : x ≠ k := by omega
    have hkeys : ∀ i : Nat, ((t.entries.set x { ex with next := (k : Int) })[i]?).map HEntry.kv
        = (t.entries[i]?).map HEntry.kv := by
      intro i
      by_cases hix : i = x
      · subst hix; rw [List.getElem?_set_self hxlt, hex]; rfl
      · rw [List.getElem?_set_ne (Ne.symm hix)]
    have hkeyiff : ∀ (i : Nat) (P : Nat → Prop), (∃ e, (t.entries.set x { ex with next := (k : Int) })[i]? = some e ∧ P e.key) ↔
        (∃ e, t.entries[i]? = some e ∧ P e.key) := by
      intro i P
      have := hkeys i
      constructor
      · rintro ⟨e, he, hP⟩
        rw [he] at this
        cases h2 : t.entries[i]? with
        | none => rw [h2] at this; simp at this
        | some e' => rw [h2] at this; simp [HEntry.kv] at this; exact ⟨e', rfl, by rw [← this.1]; exact hP⟩
      · rintro ⟨e, he, hP⟩
        rw [he] at this
        cases h2 : (t.entries.set x { ex with next := (k : Int) })[i]? with
        | none => rw [h2] at this; simp at this
        | some e' => rw [h2] at this; simp [HEntry.kv] at this; exact ⟨e', rfl, by rw [this.1]; exact hP⟩
    refine ⟨{ t with entries := t.entries.set x { ex with next := (k : Int) } }, ?_, ?_, rfl, by simp, ?_, hkeys, ?_⟩
    · simp only [setNext, at?_ofNat, hex, Res.ofOption_some, Res.bind_eq, Res.ok_bind, put_ofNat _ hxlt, Res.pure_eq]
    · refine ⟨h.hne, by rw [List.length_set]; exact hklt, ?_⟩
      intro b hb
      simp only at hb ⊢
      obtain ⟨hd', l', hh', hc', hnd', hmem'⟩ := h.chain b hb
      by_cases hbe : b = ek.key % t.hashes.length
      · subst hbe
        refine ⟨hd, l ++ [k], hh, hc.snoc hk hkn hnd hl hex hkl, ?_, ?_⟩
        · rw [List.nodup_append]
          exact ⟨hnd, by simp, by intro a ha b hb; simp at hb; subst hb; intro e; exact hkl (e ▸ ha)⟩
        · intro i
          rw [List.mem_append, hmem i, hkeyiff i (fun q => q % t.hashes.length = ek.key % t.hashes.length)]
          simp only [List.mem_singleton]
          constructor
          · rintro (⟨hi, r⟩ | rfl)
            · exact ⟨by omega, r⟩
            · exact ⟨by omega, ek, hk, rfl⟩
          · rintro ⟨hi, r⟩
            by_cases hik : i = k
            · exact Or.inr hik
            · exact Or.inl ⟨by omega, r⟩
      · have hxl' : x ∉ l' := by
          intro hm
          obtain ⟨_, e, he, hke⟩ := (hmem' x).mp hm
          rw [hex] at he; cases he
          exact hbe (hke.symm.trans hexk)
        refine ⟨hd', l', hh', hc'.append (fun y hy => ?_), hnd', ?_⟩
        · rw [List.getElem?_set_ne (fun (e : x = y) => hxl' (e ▸ hy))]
        · intro i
          rw [hmem' i, hkeyiff i (fun q => q % t.hashes.length = b)]
          constructor
          · rintro ⟨hi, r⟩; exact ⟨by omega, r⟩
          · rintro ⟨hi, e, he, hke⟩
            refine ⟨?_, e, he, hke⟩
            by_cases hik : i = k
            · subst hik; rw [hk] at he; cases he; exact absurd hke.symm hbe
            · omega
    · simp only; rw [List.getElem?_set_ne hxne, hk]
    · intro i hi
      simp only; rw [List.getElem?_set_ne (by omega)]

/-- Changing only values keeps the links. -/
theorem setValue_spec {t : HTable α} {k i : Nat} (h : Linked t k) {e : HEntry α} (he : t.entries[i]? = some e)
    (v : Option α) :
    t.setValue i v = .ok { t with entries := t.entries.set i { e with value := v } } ∧
    Linked { t with entries := t.entries.set i { e with value := v } } k := by
  have hlt : i < t.entries.length := (List.getElem?_eq_some_iff.mp he).1
  refine ⟨by simp only [setValue, at?_ofNat, he, Res.ofOption_some, Res.bind_eq, Res.ok_bind, put_ofNat _ hlt, Res.pure_eq], ?_⟩
  have hchain : ∀ {l : List Nat} {s : Int}, Chain t.entries s l → Chain (t.entries.set i { e with value := v }) s l := by
    intro l
    induction l with
    | nil => intro s h; exact h
    | cons x xs ih =>
      rintro s ⟨h1, ex, hex, h3⟩
      by_cases hx : x = i
      · subst hx
        rw [he] at hex; cases hex
        exact ⟨h1, { e with value := v }, by rw [List.getElem?_set_self hlt], ih h3⟩
      · exact ⟨h1, ex, by rw [List.getElem?_set_ne (Ne.symm hx), hex], ih h3⟩
  refine ⟨h.hne, by simpa using h.kle, ?_⟩
  intro b hb
  obtain ⟨hd, l, hh, hc, hnd, hmem⟩ := h.chain b hb
  refine ⟨hd, l, hh, hchain hc, hnd, ?_⟩
  intro j
  rw [hmem j]
  simp only
  by_cases hj : j = i
  · subst hj
    rw [List.getElem?_set_self hlt, he]
    constructor
    · rintro ⟨a, e', h1, h2⟩; cases h1; exact ⟨a, _, rfl, h2⟩
    · rintro ⟨a, e', h1, h2⟩; cases h1; exact ⟨a, _, rfl, h2⟩
  · rw [List.getElem?_set_ne (Ne.symm hj)]


/-- Keys and values in insertion order. -/
def kvs (t : HTable α) : List (Nat × Option α) := t.entries.map HEntry.kv

theorem kvs_length (t : HTable α) : t.kvs.length = t.entries.length := by simp [kvs]

theorem kvs_congr {E E' : List (HEntry α)} (h : ∀ i : Nat, (E'[i]?).map HEntry.kv = (E[i]?).map HEntry.kv) :
    E'.map HEntry.kv = E.map HEntry.kv := by
  apply List.ext_getElem?
  intro i
  rw [List.getElem?_map, List.getElem?_map, h i]

theorem keys_eq (t : HTable α) : t.entries.map (·.key) = t.kvs.map (·.1) := by
  simp [kvs, HEntry.kv, Function.comp_def]

theorem wf_of_kvs {t : HTable α} (h : Linked t t.entries.length) (hk : (t.kvs.map (·.1)).Nodup) : WF t :=
  ⟨h, by unfold KeysNodup; rw [keys_eq]; exact hk⟩

theorem WF.keys {t : HTable α} (h : WF t) : (t.kvs.map (·.1)).Nodup := by
  rw [← keys_eq]; exact h.nodup

theorem init_wf {n : Nat} (hn : 0 < n) :
    ∃ t : HTable α, initReserve n = .ok t ∧ WF t ∧ t.kvs = [] ∧ t.hashes.length = n := by
  refine ⟨⟨List.replicate n (-1), []⟩, by simp [initReserve, Res.assert_true hn], ?_, rfl, by simp⟩
  refine wf_of_kvs ⟨by simpa using hn, Nat.le_refl _, ?_⟩ (by simp [kvs])
  intro b hb
  simp only [List.length_replicate] at hb
  exact ⟨-1, [], by simp [hb], rfl, List.nodup_nil, by simp⟩

/-- Adding an unlinked entry. -/
theorem addEntry_linked {t : HTable α} (h : Linked t t.entries.length) (key : Nat) :
    Linked (t.addEntry key).1 t.entries.length := by
  refine ⟨h.hne, by simp [addEntry], ?_⟩
  intro b hb
  obtain ⟨hd, l, hh, hc, hnd, hmem⟩ := h.chain b hb
  have hlt : ∀ i ∈ l, i < t.entries.length := fun i hi => ((hmem i).mp hi).1
  refine ⟨hd, l, hh, hc.append (fun x hx => ?_), hnd, ?_⟩
  · simp only [addEntry]; rw [List.getElem?_append_left (hlt x hx)]
  · intro i
    rw [hmem i]
    constructor
    · rintro ⟨hi, e, he, hk⟩
      exact ⟨hi, e, by simp only [addEntry]; rw [List.getElem?_append_left hi, he], hk⟩
    · rintro ⟨hi, e, he, hk⟩
      simp only [addEntry] at he
      rw [List.getElem?_append_left hi] at he
      exact ⟨hi, e, he, hk⟩

theorem not_mem_keys {t : HTable α} {key : Nat}
    (h : ∀ x, x < t.entries.length → ∀ e, t.entries[x]? = some e → e.key ≠ key) : key ∉ t.kvs.map (·.1) := by
  rw [← keys_eq]
  intro hm
  obtain ⟨e, he, hk⟩ := List.mem_map.mp hm
  obtain ⟨i, hi, rfl⟩ := List.getElem_of_mem he
  exact h i hi _ (List.getElem?_eq_getElem hi) hk

/-- Common core of `set` and `rehash`: add an entry for a key that is not present, link it and set its value. -/
theorem addLink_spec {t : HTable α} (h : WF t) (key : Nat) (v : Option α) (hno : key ∉ t.kvs.map (·.1)) :
    ∃ r t1 t2, t.find key = .ok r ∧ r.entryIndex = -1 ∧
      (t.addEntry key).1.linkAt r (t.entries.length : Nat) = .ok t1 ∧
      t1.setNext (t.entries.length : Nat) (-1) = .ok t1 ∧
      t1.setValue (t.entries.length : Nat) v = .ok t2 ∧ WF t2 ∧ t2.kvs = t.kvs ++ [(key, v)] ∧
      t2.hashes.length = t.hashes.length := by
  rcases find_spec h.linked key with ⟨p', x, hx, ⟨e, he, hk⟩, _⟩ | ⟨hnone, hd, l, hh, hc, hnd, hmem, hf⟩
  · exfalso
    apply hno
    rw [← keys_eq]
    exact List.mem_map.mpr ⟨e, List.mem_of_getElem? he, hk⟩
  · have hadd := addEntry_linked h.linked key
    have hek : (t.addEntry key).1.entries[t.entries.length]? = some ⟨key, -1, none⟩ := by
      simp [addEntry]
    have hlt : ∀ i ∈ l, i < t.entries.length := fun i hi => ((hmem i).mp hi).1
    obtain ⟨t1, e1, hl1, hh1, hlen1, hk1, hkv1, _⟩ := link_spec hadd hek rfl (hd := hd) (l := l) hh
      (hc.append (fun x hx => by simp only [addEntry]; rw [List.getElem?_append_left (hlt x hx)])) hnd
      (fun i => by
        rw [hmem i]
        constructor
        · rintro ⟨hi, e, he, hk⟩
          exact ⟨hi, e, by simp only [addEntry]; rw [List.getElem?_append_left hi, he], hk⟩
        · rintro ⟨hi, e, he, hk⟩
          simp only [addEntry] at he
          rw [List.getElem?_append_left hi] at he
          exact ⟨hi, e, he, hk⟩) _ rfl
    have hlen1' : t1.entries.length = t.entries.length + 1 := by rw [hlen1]; simp [addEntry]
    obtain ⟨ev, hl2⟩ := setValue_spec hl1 hk1 v
    have hnext : t1.setNext (t.entries.length : Nat) (-1) = .ok t1 := by
      simp only [setNext, at?_ofNat, hk1, Res.ofOption_some, Res.bind_eq, Res.ok_bind]
      rw [put_ofNat _ (by omega)]
      simp only [Res.ok_bind, Res.pure_eq]
      congr 1
      cases t1 with
      | mk hs es =>
        simp only at hk1 ⊢
        congr 1
        apply List.ext_getElem?
        intro i
        rw [List.getElem?_set]
        split
        · next hi =>
          subst hi
          rw [hk1, if_pos (by simp only at hlen1'; omega)]
        · rfl
    have hkvs : HTable.kvs { t1 with entries := t1.entries.set t.entries.length ⟨key, -1, v⟩ } = t.kvs ++ [(key, v)] := by
      have hb : t1.entries.map HEntry.kv = t.entries.map HEntry.kv ++ [(key, none)] := by
        rw [kvs_congr hkv1]; simp [addEntry, HEntry.kv]
      simp only [kvs]
      rw [List.map_set, hb]
      rw [List.set_append_right _ _ (by simp)]
      simp [HEntry.kv]
    refine ⟨_, t1, _, hf, rfl, e1, hnext, ev, ?_, hkvs, ?_⟩
    · refine wf_of_kvs (by simpa [hlen1'] using hl2) ?_
      rw [hkvs, List.map_append, List.nodup_append]
      refine ⟨h.keys, by simp, ?_⟩
      intro a ha b hb hab
      simp at hb
      subst hb; subst hab
      exact hno ha
    · simp only [hh1, addEntry]

theorem rehashOne_spec {nt : HTable α} (h : WF nt) (e : HEntry α) (hno : e.key ∉ nt.kvs.map (·.1)) :
    ∃ t', rehashOne nt e = .ok t' ∧ WF t' ∧ t'.kvs = nt.kvs ++ [e.kv] ∧ t'.hashes.length = nt.hashes.length := by
  obtain ⟨r, t1, t2, hf, hr, h1, h2, h3, hw, hk, hl⟩ := addLink_spec h e.key e.value hno
  refine ⟨t2, ?_, hw, hk, hl⟩
  unfold rehashOne
  simp only [hf, Res.bind_eq, Res.ok_bind]
  have : (nt.addEntry e.key).2 = ((nt.entries.length : Nat) : Int) := rfl
  rw [this, h1]
  simp only [Res.ok_bind, hr, h2, h3]

theorem rehashLoop_spec : ∀ (es : List (HEntry α)) (nt : HTable α), WF nt →
    ((nt.kvs ++ es.map HEntry.kv).map (·.1)).Nodup →
    ∃ t', rehashLoop nt es = .ok t' ∧ WF t' ∧ t'.kvs = nt.kvs ++ es.map HEntry.kv ∧ t'.hashes.length = nt.hashes.length := by
  intro es
  induction es with
  | nil => intro nt h _; exact ⟨nt, rfl, h, by simp, rfl⟩
  | cons e es ih =>
    intro nt h hnd
    have hno : e.key ∉ nt.kvs.map (·.1) := by
      rw [List.map_append, List.nodup_append] at hnd
      intro hm
      exact hnd.2.2 _ hm e.key (by simp [HEntry.kv]) rfl
    obtain ⟨t1, e1, hw1, hk1, hl1⟩ := rehashOne_spec h e hno
    obtain ⟨t', e', hw', hk', hl'⟩ := ih t1 hw1 (by rw [hk1]; simpa using hnd)
    exact ⟨t', by simp [rehashLoop, e1, e'], hw', by rw [hk', hk1]; simp, by rw [hl', hl1]⟩

theorem rehash_spec {t : HTable α} (h : WF t) {n : Nat} (hn : 0 < n) :
    ∃ t', t.rehash n = .ok t' ∧ WF t' ∧ t'.kvs = t.kvs ∧ t'.hashes.length = n := by
  obtain ⟨t0, e0, hw0, hk0, hl0⟩ := init_wf (α := α) hn
  obtain ⟨t', e', hw', hk', hl'⟩ := rehashLoop_spec t.entries t0 hw0 (by rw [hk0]; simpa [kvs] using h.keys)
  exact ⟨t', by simp [rehash, e0, e'], hw', by rw [hk', hk0]; rfl, by rw [hl', hl0]⟩

theorem grow_spec {t : HTable α} (h : WF t) :
    ∃ t', t.grow = .ok t' ∧ WF t' ∧ t'.kvs = t.kvs := by
  obtain ⟨t', e, hw, hk, _⟩ := rehash_spec h (n := 2 * t.entries.length + 8) (by omega)
  exact ⟨t', e, hw, hk⟩

/-- Updating an association list in place, or appending. -/
def upsert (l : List (Nat × Option α)) (key : Nat) (v : α) : List (Nat × Option α) :=
  if key ∈ l.map (·.1) then l.map (fun p => if p.1 = key then (key, some v) else p) else l ++ [(key, some v)]

theorem upsert_keys_nodup {l : List (Nat × Option α)} {key : Nat} {v : α} (h : (l.map (·.1)).Nodup) :
    ((upsert l key v).map (·.1)).Nodup := by
  unfold upsert
  split
  · have : (l.map (fun p => if p.1 = key then (key, some v) else p)).map (·.1) = l.map (·.1) := by
      rw [List.map_map]
      apply List.map_congr_left
      intro p _
      simp only [Function.comp]
      split
      · next hp => exact hp.symm
      · rfl
    rw [this]; exact h
  · next hno =>
    rw [List.map_append, List.nodup_append]
    refine ⟨h, by simp, ?_⟩
    intro a ha b hb hab
    simp at hb
    subst hb; subst hab
    exact hno ha

theorem set_map_eq {l : List (Nat × Option α)} {key : Nat} {v : α} (hnd : (l.map (·.1)).Nodup) {i : Nat}
    {w : Option α} (hi : l[i]? = some (key, w)) :
    l.set i (key, some v) = l.map (fun p => if p.1 = key then (key, some v) else p) := by
  have hlt : i < l.length := (List.getElem?_eq_some_iff.mp hi).1
  apply List.ext_getElem?
  intro j
  rw [List.getElem?_set, List.getElem?_map]
  by_cases hj : i = j
  · subst hj
    rw [if_pos rfl, if_pos hlt, hi]
    simp
  · rw [if_neg hj]
    cases hjl : l[j]? with
    | none => rfl
    | some p =>
      have hne : p.1 ≠ key := by
        intro hp
        have hjlt : j < l.length := (List.getElem?_eq_some_iff.mp hjl).1
        have h1 : (l.map (·.1))[i]? = some key := by simp [hi]
        have h2 : (l.map (·.1))[j]? = some key := by simp [hjl, hp]
        exact hj ((List.getElem?_inj (by simpa using hlt) hnd).mp (h1.trans h2.symm))
      simp [hne]

theorem insert_spec {t : HTable α} (h : WF t) (key : Nat) (v : α) :
    ∃ t', t.insert key v = .ok t' ∧ WF t' ∧ t'.kvs = upsert t.kvs key v := by
  by_cases hin : key ∈ t.kvs.map (·.1)
  · rcases find_spec h.linked key with ⟨p', x, hx, ⟨e, he, hk⟩, hf⟩ | ⟨hnone, _⟩
    · obtain ⟨ev, hl⟩ := setValue_spec h.linked he (some v)
      have hge : (x : Int) ≥ 0 := by omega
      have hi : t.kvs[x]? = some (key, e.value) := by simp [kvs, he, HEntry.kv, hk]
      have hkv : HTable.kvs { t with entries := t.entries.set x { e with value := some v } } = upsert t.kvs key v := by
        unfold upsert
        rw [if_pos hin, ← set_map_eq h.keys hi]
        simp [kvs, List.map_set, HEntry.kv, hk]
      refine ⟨_, by simp [insert, hf, hge, ev], ?_, hkv⟩
      refine wf_of_kvs (by simpa using hl) ?_
      rw [hkv]
      exact upsert_keys_nodup h.keys
    · exact absurd hin (not_mem_keys hnone)
  · obtain ⟨r, t1, t2, hf, hr, h1, h2, h3, hw, hk, hl⟩ := addLink_spec h key (some v) hin
    refine ⟨t2, ?_, hw, by rw [hk]; unfold upsert; rw [if_neg hin]⟩
    unfold insert
    have hneg : ¬ ((-1 : Int) ≥ 0) := by omega
    simp only [hf, Res.bind_eq, Res.ok_bind, hr, hneg, if_false]
    have h1' : (t.addEntry key).1.linkSet r (t.addEntry key).2 = .ok t1 := by
      rw [← h1]
      unfold linkSet linkAt
      by_cases hp : r.prevIndex < 0
      · rw [if_neg (by omega), if_pos hp]; rfl
      · rw [if_pos (by omega), if_neg hp]; rfl
    rw [h1']
    simp only [Res.ok_bind]
    exact h3

theorem set_spec (crit : Nat → Nat) {t : HTable α} (h : WF t) (key : Nat) (v : α) :
    ∃ t', t.set crit key v = .ok t' ∧ WF t' ∧ t'.kvs = upsert t.kvs key v := by
  unfold set
  have hpre : ∃ t1, t.growIfFull crit = .ok t1 ∧ WF t1 ∧ t1.kvs = t.kvs := by
    unfold growIfFull
    split
    · exact grow_spec h
    · exact ⟨t, rfl, h, rfl⟩
  obtain ⟨t1, e1, hw1, hk1⟩ := hpre
  obtain ⟨t2, e2, hw2, hk2⟩ := insert_spec hw1 key v
  have hpost : ∃ t3, t2.growIfFull crit = .ok t3 ∧ WF t3 ∧ t3.kvs = t2.kvs := by
    unfold growIfFull
    split
    · exact grow_spec hw2
    · exact ⟨t2, rfl, hw2, rfl⟩
  obtain ⟨t3, e3, hw3, hk3⟩ := hpost
  exact ⟨t3, by simp only [Res.bind_eq, e1, Res.ok_bind, e2, e3], hw3, by rw [hk3, hk2, hk1]⟩

theorem get_spec {t : HTable α} (h : WF t) (key : Nat) :
    t.get key = .ok ((t.kvs.find? (fun p => p.1 = key)).map (·.2)) := by
  unfold get
  rcases find_spec h.linked key with ⟨p', x, hx, ⟨e, he, hk⟩, hf⟩ | ⟨hnone, hd, l, _, _, _, _, hf⟩
  · have hge : (x : Int) ≥ 0 := by omega
    simp only [hf, Res.bind_eq, Res.ok_bind, hge, if_true, at?_ofNat, he, Res.ofOption_some, Res.pure_eq]
    congr 1
    have hi : t.kvs[x]? = some (key, e.value) := by simp [kvs, he, HEntry.kv, hk]
    have hm : (key, e.value) ∈ t.kvs := List.mem_of_getElem? hi
    cases hfd : t.kvs.find? (fun p => p.1 = key) with
    | none =>
      have := List.find?_eq_none.mp hfd _ hm
      simp at this
    | some p =>
      have hp := List.find?_some hfd
      simp at hp
      have hpm := List.mem_of_find?_eq_some hfd
      obtain ⟨j, hj, hje⟩ := List.getElem_of_mem hpm
      have h1 : (t.kvs.map (·.1))[x]? = some key := by simp [hi]
      have h2 : (t.kvs.map (·.1))[j]? = some key := by simp [List.getElem?_eq_getElem hj, hje, hp]
      have hxlt : x < t.kvs.length := (List.getElem?_eq_some_iff.mp hi).1
      have := (List.getElem?_inj (by simpa using hxlt) h.keys).mp (h1.trans h2.symm)
      subst this
      rw [List.getElem?_eq_getElem hj, hje] at hi
      cases hi
      rfl
  · have hneg : ¬ ((-1 : Int) ≥ 0) := by omega
    simp only [hf, Res.bind_eq, Res.ok_bind, hneg, if_false, Res.pure_eq]
    have hno := not_mem_keys hnone
    have : t.kvs.find? (fun p => p.1 = key) = none := by
      apply List.find?_eq_none.mpr
      intro p hp hpk
      simp at hpk
      exact hno (List.mem_map.mpr ⟨p, hp, hpk⟩)
    rw [this]; rfl

theorem clear_wf {t : HTable α} (h : WF t) : WF t.clear ∧ t.clear.kvs = [] := by
  refine ⟨wf_of_kvs ⟨by simpa [clear] using h.linked.hne, Nat.le_refl _, ?_⟩ (by simp [kvs, clear]), rfl⟩
  intro b hb
  simp only [clear, List.length_map] at hb ⊢
  exact ⟨-1, [], by simp [hb], rfl, List.nodup_nil, by simp⟩

theorem relink_spec : ∀ (n : Nat) (t : HTable α) (k : Nat), Linked t k → k + n = t.entries.length →
    (t.kvs.map (·.1)).Nodup → (∀ i, k ≤ i → ∀ e, t.entries[i]? = some e → e.next = -1) →
    ∃ t', relink t k n = .ok t' ∧ WF t' ∧ t'.kvs = t.kvs ∧ t'.hashes.length = t.hashes.length := by
  intro n
  induction n with
  | zero =>
    intro t k h hk hnd _
    exact ⟨t, rfl, wf_of_kvs (by rw [← hk]; exact h) hnd, rfl, rfl⟩
  | succ n ih =>
    intro t k h hk hnd hnx
    have hlt : k < t.entries.length := by omega
    have hek := List.getElem?_eq_getElem hlt
    have hkn := hnx k (Nat.le_refl _) _ hek
    generalize t.entries[k] = ek at hek hkn
    rcases find_spec h ek.key with ⟨p', x, hx, ⟨e, he, hke⟩, hf⟩ | ⟨hnone, hd, l, hh, hc, hnd', hmem, hf⟩
    · exfalso
      have hxlt : x < t.kvs.length := by rw [kvs_length]; omega
      have h1 : (t.kvs.map (·.1))[x]? = some ek.key := by simp [kvs, he, HEntry.kv, hke]
      have h2 : (t.kvs.map (·.1))[k]? = some ek.key := by simp [kvs, hek, HEntry.kv]
      have := (List.getElem?_inj (by simpa using hxlt) hnd).mp (h1.trans h2.symm)
      omega
    · obtain ⟨t1, e1, hl1, hh1, hlen1, hk1, hkv1, hrest⟩ := link_spec h hek hkn hh hc hnd' hmem _ rfl
      have hkvs : t1.kvs = t.kvs := kvs_congr hkv1
      obtain ⟨t', e', hw', hk', hl'⟩ := ih t1 (k+1) hl1 (by omega) (by rw [hkvs]; exact hnd)
        (fun i hi e he => hnx i (by omega) e (by rw [← hrest i (by omega)]; exact he))
      refine ⟨t', ?_, hw', by rw [hk', hkvs], by rw [hl', hh1]⟩
      simp only [relink, at?_ofNat, hek, Res.ofOption_some, Res.bind_eq, Res.ok_bind, hf, e1]
      exact e'

theorem rehashFast_spec {t : HTable α} (hne : 0 < t.hashes.length) (hnd : (t.kvs.map (·.1)).Nodup) :
    ∃ t', t.rehashFast = .ok t' ∧ WF t' ∧ t'.kvs = t.kvs ∧ t'.hashes.length = t.hashes.length := by
  have hkv : HTable.kvs ⟨t.hashes.map (fun _ => (-1 : Int)), t.entries.map (fun e => { e with next := -1 })⟩ = t.kvs := by
    simp [kvs, HEntry.kv, Function.comp_def]
  obtain ⟨t', e, hw, hk, hl⟩ := relink_spec t.entries.length
    ⟨t.hashes.map (fun _ => -1), t.entries.map (fun e => { e with next := -1 })⟩ 0
    ⟨by simpa using hne, Nat.zero_le _, fun b hb => ⟨-1, [], by simp at hb; simp [hb], rfl, List.nodup_nil, by simp⟩⟩
    (by simp) (by rw [hkv]; exact hnd)
    (by
      intro i _ e he
      simp only [List.getElem?_map, Option.map_eq_some_iff] at he
      obtain ⟨e', _, rfl⟩ := he
      rfl)
  exact ⟨t', e, hw, by rw [hk, hkv], by rw [hl]; simp⟩

theorem remove_spec {t : HTable α} (h : WF t) (key : Nat) :
    ∃ t', t.remove key = .ok t' ∧ WF t' ∧ t'.kvs = t.kvs.filter (fun p => p.1 ≠ key) := by
  unfold remove
  rcases find_spec h.linked key with ⟨p', x, hx, ⟨e, he, hk⟩, hf⟩ | ⟨hnone, hd, l, _, _, _, _, hf⟩
  · have hge : (x : Int) ≥ 0 := by omega
    have hi : t.kvs[x]? = some (key, e.value) := by simp [kvs, he, HEntry.kv, hk]
    have hxlt : x < t.kvs.length := (List.getElem?_eq_some_iff.mp hi).1
    have hkv : (t.entries.eraseIdx x).map HEntry.kv = t.kvs.filter (fun p => p.1 ≠ key) := by
      have e0 : (t.entries.eraseIdx x).map HEntry.kv = t.kvs.eraseIdx x := by
        simp only [kvs, List.eraseIdx_eq_take_drop_succ, List.map_append, List.map_take, List.map_drop]
      rw [e0]
      have hsplit : t.kvs = t.kvs.take x ++ (key, e.value) :: t.kvs.drop (x+1) := by
        rw [List.getElem?_eq_some_iff] at hi
        obtain ⟨h1, h2⟩ := hi
        rw [← h2, ← List.drop_eq_getElem_cons h1, List.take_append_drop]
      have hnd := h.keys
      rw [hsplit, List.map_append, List.map_cons, List.nodup_append, List.nodup_cons] at hnd
      obtain ⟨_, ⟨hn1, _⟩, hn2⟩ := hnd
      rw [List.eraseIdx_eq_take_drop_succ]
      conv => rhs; rw [hsplit]
      rw [List.filter_append, List.filter_cons]
      have f1 : (t.kvs.take x).filter (fun p => p.1 ≠ key) = t.kvs.take x := by
        rw [List.filter_eq_self]
        intro p hp
        simp only [ne_eq, decide_not, Bool.not_eq_true', decide_eq_false_iff_not]
        intro hpk
        exact hn2 p.1 (List.mem_map.mpr ⟨p, hp, rfl⟩) key (by simp) hpk
      have f2 : (t.kvs.drop (x+1)).filter (fun p => p.1 ≠ key) = t.kvs.drop (x+1) := by
        rw [List.filter_eq_self]
        intro p hp
        simp only [ne_eq, decide_not, Bool.not_eq_true', decide_eq_false_iff_not]
        intro hpk
        exact hn1 (List.mem_map.mpr ⟨p, hp, hpk⟩)
      rw [f1, f2]
      simp
    obtain ⟨t', e', hw', hk', hl'⟩ := rehashFast_spec (t := { t with entries := t.entries.eraseIdx x }) h.linked.hne
      (by
        simp only [kvs]
        rw [hkv]
        exact h.keys.sublist (List.filter_sublist.map _))
    refine ⟨t', ?_, hw', ?_⟩
    · simp only [hf, Res.bind_eq, Res.ok_bind, hge, if_true]
      exact e'
    · rw [hk']; exact hkv
  · have hneg : ¬ ((-1 : Int) ≥ 0) := by omega
    simp only [hf, Res.bind_eq, Res.ok_bind, hneg, if_false, Res.pure_eq]
    refine ⟨t, rfl, h, ?_⟩
    have hno := not_mem_keys hnone
    symm
    rw [List.filter_eq_self]
    intro p hp
    simp only [ne_eq, decide_not, Bool.not_eq_true', decide_eq_false_iff_not]
    intro hpk
    exact hno (List.mem_map.mpr ⟨p, hp, hpk⟩)

end Verif.HTable
