import Verif.Props.Ast
/-!
# Property C20: specifier lists
-/
namespace Verif.Ast

/-- Node `p` is a specifier list holding `l`. -/
structure IsSpecs (h : Heap) (p : Nat) (l : List Specifier) : Prop where
  valid : h.Valid p
  count : (h.cell p).num = l.length
  cap : (h.cell p).arrSpecs.length = specsCap
  holds : (h.cell p).arrSpecs.take l.length = l
  fits : l.length ≤ specsCap

theorem cap_eq : specsCap = 14 := rfl

/-- C20: iteration enumerates the specifiers in order. -/
theorem C20_iteration {h : Heap} {p : Nat} {l : List Specifier} (hs : IsSpecs h p l) : iterSpecifiers h p = .ok l := by
  rw [iterSpecifiers, get_ok hs.valid, Res.ok_bind, hs.count, Int.toNat_natCast, if_neg (by rw [hs.cap]; exact Nat.not_lt.2 hs.fits),
    hs.holds]

theorem take_set_snoc {α : Type} : ∀ (a l : List α) (s : α), a.take l.length = l → l.length < a.length →
    (a.set l.length s).take (l.length + 1) = l ++ [s]
  | a, [], s, _, hl => by cases a with | nil => simp at hl | cons x a => simp
  | [], x :: l, s, h, _ => by simp at h
  | y :: a, x :: l, s, h, hl => by
    simp only [List.length_cons, List.take_succ_cons, List.cons.injEq] at h
    simp only [List.length_cons, List.set_cons_succ, List.take_succ_cons, List.cons_append, List.cons.injEq]
    exact ⟨h.1, take_set_snoc a l s h.2 (by simpa using hl)⟩

/-- C20: `specifiers_append` on a list that is not full adds the specifier at the end and changes nothing else. -/
theorem C20_append (fatal : Bool) {h : Heap} {p : Nat} {l : List Specifier} (hs : IsSpecs h p l) (hl : l.length < specsCap) (s : Specifier) :
    ∃ h', specifiersAppend fatal h p s = .ok (true, h') ∧ IsSpecs h' p (l ++ [s]) ∧ h'.next = h.next ∧ ∀ q, q ≠ p → h'.cell q = h.cell q := by
  have hc := hs.count
  have hcap := hs.cap
  rw [specifiersAppend, if_neg (Nat.ne_of_gt hs.valid.1), get_ok hs.valid, Res.ok_bind, if_neg (by omega), if_neg (by omega),
    upd_ok hs.valid]
  refine ⟨_, rfl, ⟨hs.valid, ?_, ?_, ?_, ?_⟩, rfl, ?_⟩
  · simp [hc]
  · simp [hcap]
  · simp only [if_true, hc, Int.toNat_natCast, List.length_append, List.length_cons, List.length_nil]
    exact take_set_snoc _ _ _ hs.holds (by omega)
  · simp; omega
  · intro q hq; simp [hq]

/-- C20: on a full list it reports the failure and changes nothing. -/
theorem C20_append_full {h : Heap} {p : Nat} {l : List Specifier} (hs : IsSpecs h p l) (hl : l.length = specsCap) (s : Specifier) :
    specifiersAppend false h p s = .ok (false, h) ∧ specifiersAppend true h p s = .stop := by
  have hc := hs.count
  constructor <;>
  · rw [specifiersAppend, if_neg (Nat.ne_of_gt hs.valid.1), get_ok hs.valid, Res.ok_bind, if_pos (by omega)]
    rfl

theorem scan_spec {arr l : List Specifier} {num : Int} (hn : num = l.length) (ht : arr.take l.length = l) (s : Specifier) :
    ∀ (k i : Nat), l.length - i = k → specifiersScan arr num s i =
      .ok (match (l.drop i).findIdx? (· = s) with | some j => ((i + j : Nat) : Int) | none => -1) := by
  intro k
  induction k with
  | zero =>
    intro i hk
    rw [specifiersScan, dif_neg (by omega), List.drop_eq_nil_of_le (by omega)]
    rfl
  | succ k ih =>
    intro i hk
    have hi : i < l.length := by omega
    have hget : arr[i]? = some l[i] := by
      have : l[i]? = some l[i] := List.getElem?_eq_getElem hi
      rw [← this]
      conv => rhs; rw [← ht]
      rw [List.getElem?_take, if_pos hi]
    rw [specifiersScan, dif_pos (by omega), hget, Res.ofOption_some, Res.ok_bind, List.drop_eq_getElem_cons hi, List.findIdx?_cons]
    by_cases he : l[i] = s
    · simp [he]
    · rw [if_neg he, ih (i + 1) (by omega)]
      simp only [decide_eq_true_eq, he, if_false]
      congr 1
      generalize hf : List.findIdx? (fun x => decide (x = s)) (List.drop (i + 1) l) = r
      cases r with
      | none => simp
      | some j => simp; omega

/-- C20: `specifiers_index_of` is the position of the first occurrence, -1 if there is none. -/
theorem C20_index_of {h : Heap} {p : Nat} {l : List Specifier} (hs : IsSpecs h p l) (s : Specifier) :
    specifiersIndexOf h p s = .ok (match l.findIdx? (· = s) with | some j => (j : Int) | none => -1) := by
  rw [specifiersIndexOf, Res.assert_true (Nat.ne_of_gt hs.valid.1), Res.ok_bind, get_ok hs.valid, Res.ok_bind,
    scan_spec hs.count hs.holds s _ 0 rfl]
  simp

/-- C20: `specifiers_has` is membership. -/
theorem C20_has {h : Heap} {p : Nat} {l : List Specifier} (hs : IsSpecs h p l) (s : Specifier) :
    specifiersHas h p s = .ok (decide (s ∈ l)) := by
  rw [specifiersHas, Res.assert_true (Nat.ne_of_gt hs.valid.1), Res.ok_bind, get_ok hs.valid, Res.ok_bind,
    scan_spec hs.count hs.holds s _ 0 rfl, Res.ok_bind, List.drop_zero]
  congr 1
  cases hf : l.findIdx? (· = s) with
  | none =>
    have : s ∉ l := by
      intro hm
      rw [List.findIdx?_eq_none_iff] at hf
      have := hf s hm
      simp at this
    simp [this]
  | some j =>
    have : s ∈ l := by
      rw [List.findIdx?_eq_some_iff_getElem] at hf
      obtain ⟨hj, h1, _⟩ := hf
      simp at h1
      exact h1 ▸ List.getElem_mem hj
    simp [this]

/-- The loop after the removed element has been passed: every later element moves one place down. -/
theorem removeLoop_shift (num : Nat) (rm : Specifier) : ∀ (k : Nat) (arr : List Specifier) (n : Nat) (r : Int), num - n = k → 0 < n →
    num ≤ arr.length → (∀ i, n ≤ i → i < num → arr[i]? ≠ some rm) →
    ∃ arr', specifiersRemoveLoop num rm arr (n - 1) n r = .ok (arr', r) ∧ arr'.length = arr.length ∧
      (∀ i, i < n - 1 → arr'[i]? = arr[i]?) ∧ (∀ i, n - 1 ≤ i → i + 1 < num → arr'[i]? = arr[i + 1]?) := by
  intro k
  induction k with
  | zero =>
    intro arr n r hk hn hl hne
    exact ⟨arr, by rw [specifiersRemoveLoop, dif_neg (by omega)], rfl, fun _ _ => rfl, fun i h1 h2 => by omega⟩
  | succ k ih =>
    intro arr n r hk hn hl hne
    have hi : n < arr.length := by omega
    have hg : arr[n]? = some arr[n] := List.getElem?_eq_getElem hi
    have hne' : arr[n] ≠ rm := fun e => hne n (Nat.le_refl _) (by omega) (by rw [hg, e])
    obtain ⟨arr', e1, e2, e3, e4⟩ := ih (arr.set (n - 1) arr[n]) (n + 1) r (by omega) (by omega) (by simpa using hl) (by
      intro i h1 h2
      rw [List.getElem?_set_ne (by omega)]
      exact hne i (by omega) h2)
    refine ⟨arr', ?_, by simpa using e2, ?_, ?_⟩
    · rw [specifiersRemoveLoop, dif_pos (by omega), hg, Res.ofOption_some, Res.ok_bind, if_neg hne',
        show n - 1 + 1 = n + 1 - 1 from by omega, e1]
    · intro i h1
      rw [e3 i (by omega), List.getElem?_set_ne (by omega)]
    · intro i h1 h2
      by_cases hi' : i = n - 1
      · subst hi'
        rw [e3 _ (by omega), List.getElem?_set_self (by omega), show n - 1 + 1 = n from by omega, hg]
      · rw [e4 i (by omega) h2, List.getElem?_set_ne (by omega)]

theorem removeLoop_spec (num : Nat) (rm : Specifier) : ∀ (k : Nat) (arr : List Specifier) (n : Nat), num - n = k →
    num ≤ arr.length →
    ((∀ i, n ≤ i → i < num → arr[i]? ≠ some rm) → specifiersRemoveLoop num rm arr n n (-1) = .ok (arr, -1)) ∧
    (∀ j, n ≤ j → j < num → arr[j]? = some rm → (∀ i, n ≤ i → i < num → i ≠ j → arr[i]? ≠ some rm) →
      ∃ arr', specifiersRemoveLoop num rm arr n n (-1) = .ok (arr', (j : Int)) ∧ arr'.length = arr.length ∧
        (∀ i, i < j → arr'[i]? = arr[i]?) ∧ (∀ i, j ≤ i → i + 1 < num → arr'[i]? = arr[i + 1]?)) := by
  intro k
  induction k with
  | zero =>
    intro arr n hk hl
    exact ⟨fun _ => by rw [specifiersRemoveLoop, dif_neg (by omega)], fun j h1 h2 => by omega⟩
  | succ k ih =>
    intro arr n hk hl
    have hi : n < arr.length := by omega
    have hg : arr[n]? = some arr[n] := List.getElem?_eq_getElem hi
    have hset : arr.set n arr[n] = arr := List.set_getElem_self hi
    obtain ⟨ih1, ih2⟩ := ih arr (n + 1) (by omega) hl
    constructor
    · intro hne
      have hne' : arr[n] ≠ rm := fun e => hne n (Nat.le_refl _) (by omega) (by rw [hg, e])
      rw [specifiersRemoveLoop, dif_pos (by omega), hg, Res.ofOption_some, Res.ok_bind, if_neg hne', hset]
      exact ih1 fun i h1 h2 => hne i (by omega) h2
    · intro j h1 h2 hj hne
      by_cases hjn : j = n
      · subst hjn
        rw [hg] at hj
        have hrm : arr[j] = rm := by simpa using hj
        rw [specifiersRemoveLoop, dif_pos (by omega), hg, Res.ofOption_some, Res.ok_bind, if_pos hrm]
        by_cases hend : num ≤ j + 1
        · rw [if_pos hend]
          exact ⟨arr, rfl, rfl, fun _ _ => rfl, fun i _ _ => by omega⟩
        · have hi1 : j + 1 < arr.length := by omega
          have hg1 : arr[j + 1]? = some arr[j + 1] := List.getElem?_eq_getElem hi1
          rw [if_neg hend, hg1, Res.ofOption_some, Res.ok_bind]
          obtain ⟨arr', e1, e2, e3, e4⟩ := removeLoop_shift num rm _ (arr.set j arr[j + 1]) (j + 2) (j : Int) rfl (by omega)
            (by simpa using hl) (by
              intro i g1 g2
              rw [List.getElem?_set_ne (by omega)]
              exact hne i (by omega) g2 (by omega))
          refine ⟨arr', by rw [show j + 2 - 1 = j + 1 from by omega] at e1; exact e1, by simpa using e2, ?_, ?_⟩
          · intro i g1
            rw [e3 i (by omega), List.getElem?_set_ne (by omega)]
          · intro i g1 g2
            by_cases hij : i = j
            · subst hij
              rw [e3 i (by omega), List.getElem?_set_self (by omega), hg1]
            · rw [e4 i (by omega) g2, List.getElem?_set_ne (by omega)]
      · have hne' : arr[n] ≠ rm := fun e => hne n (Nat.le_refl _) (by omega) (fun e' => hjn e'.symm) (by rw [hg, e])
        rw [specifiersRemoveLoop, dif_pos (by omega), hg, Res.ofOption_some, Res.ok_bind, if_neg hne', hset]
        exact ih2 j (by omega) h2 hj fun i g1 g2 g3 => hne i (by omega) g2 g3

/-- C20: removing a specifier that is not in the list returns -1 and changes nothing. -/
theorem C20_remove_absent (fatal : Bool) {h : Heap} {p : Nat} {l : List Specifier} (hs : IsSpecs h p l) (hl : l.length < specsCap)
    (s : Specifier) (hm : s ∉ l) :
    ∃ h', specifiersRemove fatal h p s = .ok (-1, h') ∧ IsSpecs h' p l ∧ ∀ q, h'.cell q = h.cell q := by
  have hc := hs.count
  have hcap := hs.cap
  have harr : ∀ i, 0 ≤ i → i < l.length → (h.cell p).arrSpecs[i]? ≠ some s := by
    intro i _ hi e
    have : (List.take l.length (h.cell p).arrSpecs)[i]? = some s := by rw [List.getElem?_take, if_pos hi, e]
    rw [hs.holds] at this
    exact hm (List.mem_of_getElem? this)
  have e := (removeLoop_spec l.length s _ (h.cell p).arrSpecs 0 rfl (by omega)).1 harr
  have hcell : ∀ q, (if q = p then { h.cell p with arrSpecs := (h.cell p).arrSpecs, num := (h.cell p).num } else h.cell q) = h.cell q := by
    intro q; by_cases hq : q = p
    · subst hq; simp
    · simp [hq]
  rw [specifiersRemove, if_neg (Nat.ne_of_gt hs.valid.1), get_ok hs.valid, Res.ok_bind, if_neg (by omega), hc, Int.toNat_natCast, e,
    Res.ok_bind]
  simp only []
  rw [upd_ok hs.valid]
  refine ⟨_, rfl, ⟨hs.valid, ?_, ?_, ?_, hs.fits⟩, ?_⟩
  · simp [hc]
  · simp [hcap]
  · simp [hs.holds]
  · intro q
    have := hcell q
    simpa using this

/-- C20: removing a specifier that occurs exactly once (before `a`, after `b`) returns its position and leaves the others in order. -/
theorem C20_remove (fatal : Bool) {h : Heap} {p : Nat} {a b : List Specifier} {s : Specifier} (hs : IsSpecs h p (a ++ s :: b))
    (hl : (a ++ s :: b).length < specsCap) (ha : s ∉ a) (hb : s ∉ b) :
    ∃ h', specifiersRemove fatal h p s = .ok ((a.length : Int), h') ∧ IsSpecs h' p (a ++ b) ∧ h'.next = h.next ∧
      ∀ q, q ≠ p → h'.cell q = h.cell q := by
  have hc := hs.count
  have hcap := hs.cap
  have hlen : (a ++ s :: b).length = a.length + b.length + 1 := by simp; omega
  have harr : ∀ i, i < (a ++ s :: b).length → (h.cell p).arrSpecs[i]? = (a ++ s :: b)[i]? := by
    intro i hi
    conv => rhs; rw [← hs.holds]
    rw [List.getElem?_take, if_pos hi]
  obtain ⟨arr', e, e2, e3, e4⟩ := (removeLoop_spec (a ++ s :: b).length s _ (h.cell p).arrSpecs 0 rfl (by omega)).2 a.length (Nat.zero_le _)
    (by omega) (by rw [harr _ (by omega)]; simp) (by
      intro i _ hi hne
      rw [harr i hi]
      intro e
      by_cases hia : i < a.length
      · rw [List.getElem?_append_left hia] at e
        exact ha (List.mem_of_getElem? e)
      · rw [List.getElem?_append_right (by omega)] at e
        obtain ⟨m, hm⟩ : ∃ m, i - a.length = m + 1 := ⟨i - a.length - 1, by omega⟩
        rw [hm, List.getElem?_cons_succ] at e
        exact hb (List.mem_of_getElem? e))
  rw [specifiersRemove, if_neg (Nat.ne_of_gt hs.valid.1), get_ok hs.valid, Res.ok_bind, if_neg (by omega), hc, Int.toNat_natCast, e,
    Res.ok_bind]
  simp only []
  rw [upd_ok hs.valid]
  refine ⟨_, rfl, ⟨hs.valid, ?_, ?_, ?_, ?_⟩, rfl, ?_⟩
  · simp only [if_true]
    rw [if_pos (by omega), hc, hlen]
    simp
  · simp only [if_true]; rw [e2, hcap]
  · simp only [if_true]
    apply List.ext_getElem?
    intro i
    by_cases hi : i < (a ++ b).length
    · rw [List.getElem?_take, if_pos hi]
      rw [List.length_append] at hi
      by_cases hia : i < a.length
      · rw [e3 i hia, harr i (by omega), List.getElem?_append_left hia, List.getElem?_append_left hia]
      · rw [e4 i (by omega) (by omega), harr _ (by omega), List.getElem?_append_right (by omega), List.getElem?_append_right (by omega),
          show i + 1 - a.length = (i - a.length) + 1 from by omega, List.getElem?_cons_succ]
    · rw [List.getElem?_take, if_neg hi, List.getElem?_eq_none (by omega)]
  · simp at hl ⊢; omega
  · intro q hq; simp [hq]

/-- An operation on a specifier list. -/
inductive SpecOp where
  | append (s : Specifier)
  | remove (s : Specifier)

/-- What it does to the list. -/
def SpecOp.apply : SpecOp → List Specifier → List Specifier
  | .append s, l => l ++ [s]
  | .remove s, l => l.erase s

def SpecOp.run (fatal : Bool) (p : Nat) : SpecOp → Heap → Res Heap
  | .append s, h => (specifiersAppend fatal h p s).bind fun r => .ok r.2
  | .remove s, h => (specifiersRemove fatal h p s).bind fun r => .ok r.2

/-- The histories covered: no specifier is added twice, and the list does not fill up. -/
def SpecsOk : List Specifier → List SpecOp → Prop
  | _, [] => True
  | l, .append s :: ops => s ∉ l ∧ l.length + 1 < specsCap ∧ SpecsOk (l ++ [s]) ops
  | l, .remove s :: ops => SpecsOk (l.erase s) ops

def runSpecs (fatal : Bool) (p : Nat) : Heap → List SpecOp → Res Heap
  | h, [] => .ok h
  | h, op :: ops => (op.run fatal p h).bind fun h => runSpecs fatal p h ops

/-- C20: any history of appends and removes in which no specifier is present twice and the list does not become full leaves
exactly the list that the list operations give. -/
theorem C20_history (fatal : Bool) (p : Nat) : ∀ (ops : List SpecOp) (h : Heap) (l : List Specifier), IsSpecs h p l → l.Nodup →
    l.length < specsCap → SpecsOk l ops →
    ∃ h', runSpecs fatal p h ops = .ok h' ∧ iterSpecifiers h' p = .ok (ops.foldl (fun l op => op.apply l) l)
  | [], h, l, hs, _, _, _ => ⟨h, rfl, C20_iteration hs⟩
  | .append s :: ops, h, l, hs, hnd, hl, hok => by
    obtain ⟨k1, k2, k3⟩ := hok
    obtain ⟨h1, e1, hs1, _, _⟩ := C20_append fatal hs hl s
    obtain ⟨h2, e2, e3⟩ := C20_history fatal p ops h1 _ hs1
      (List.nodup_append.2 ⟨hnd, by simp, by intro a ha c hc; simp at hc; subst hc; exact fun e => k1 (e ▸ ha)⟩) (by simpa using k2) k3
    exact ⟨h2, by rw [runSpecs, SpecOp.run, e1]; exact e2, e3⟩
  | .remove s :: ops, h, l, hs, hnd, hl, hok => by
    by_cases hm : s ∈ l
    · obtain ⟨a, b, rfl⟩ := List.append_of_mem hm
      have hnd' := List.nodup_append.1 hnd
      have ha : s ∉ a := fun e => hnd'.2.2 s e s (by simp) rfl
      have hb : s ∉ b := (List.nodup_cons.1 hnd'.2.1).1
      obtain ⟨h1, e1, hs1, _, _⟩ := C20_remove fatal hs hl ha hb
      have her : (a ++ s :: b).erase s = a ++ b := by
        rw [List.erase_append_right _ ha]; simp
      have hok' : SpecsOk (a ++ b) ops := by have := hok; rw [SpecsOk, her] at this; exact this
      obtain ⟨h2, e2, e3⟩ := C20_history fatal p ops h1 _ hs1 (her ▸ hnd.erase s) (by simp at hl ⊢; omega) hok'
      exact ⟨h2, by rw [runSpecs, SpecOp.run, e1]; exact e2, by rw [e3, List.foldl_cons, SpecOp.apply, her]⟩
    · obtain ⟨h1, e1, hs1, _⟩ := C20_remove_absent fatal hs hl s hm
      have her : l.erase s = l := List.erase_of_not_mem hm
      have hok' : SpecsOk l ops := by have := hok; rw [SpecsOk, her] at this; exact this
      obtain ⟨h2, e2, e3⟩ := C20_history fatal p ops h1 _ hs1 hnd hl hok'
      exact ⟨h2, by rw [runSpecs, SpecOp.run, e1]; exact e2, by rw [e3, List.foldl_cons, SpecOp.apply, her]⟩

/-- A heap with one empty specifier list. -/
def oneSpecs : Heap := { next := 2, cell := fun _ => { type := .Specifiers } }

theorem oneSpecs_is : IsSpecs oneSpecs 1 [] := ⟨by decide, rfl, by decide, by decide, by decide⟩

/-- Non-vacuity of the conditions of `C20_history` (and of the theorems above). -/
example : SpecsOk [] [.append .Static, .append .Inline, .append .Const, .remove .Inline, .append .Volatile, .remove .Virtual] ∧
    ((runSpecs true 1 oneSpecs [.append .Static, .append .Inline, .append .Const, .remove .Inline, .append .Volatile, .remove .Virtual]).bind
      fun h => iterSpecifiers h 1) = .ok [.Static, .Const, .Volatile] := by
  refine ⟨⟨by decide, by decide, by decide, by decide, by decide, by decide, by decide, by decide, trivial⟩, by decide +kernel⟩

/-- C20, refuted for a specifier present twice: removing `*` from `* const *` leaves `const const`. -/
theorem C20_remove_twice_refuted :
    ((runSpecs true 1 oneSpecs [.append .Ptr, .append .Const, .append .Ptr, .remove .Ptr]).bind fun h => iterSpecifiers h 1) =
      .ok [.Const, .Const] := by decide +kernel

/-- C20, refuted for a full list: nothing can be removed from it. -/
theorem C20_remove_full_refuted {h : Heap} {p : Nat} {l : List Specifier} (hs : IsSpecs h p l) (hl : l.length = specsCap) (s : Specifier) :
    specifiersRemove false h p s = .ok (-1, h) ∧ specifiersRemove true h p s = .stop := by
  have hc := hs.count
  constructor <;>
  · rw [specifiersRemove, if_neg (Nat.ne_of_gt hs.valid.1), get_ok hs.valid, Res.ok_bind, if_pos (by omega)]
    rfl

end Verif.Ast
