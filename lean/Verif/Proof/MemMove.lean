import Verif.Model.Mem
/-! Helper lemmas for `mem_copy` / `mem_move` / `mem_find`. -/
namespace Verif.Mem

theorem store_eq {m : Mem} {a : Nat} {v : UInt8} (h : (m a).isSome) :
    store m a v = some (fun i => if i = a then some v else m i) := by
  obtain ⟨w, hw⟩ := Option.isSome_iff_exists.mp h
  simp [store, hw]

theorem loadN_eq {m : Mem} {k : Nat} : ∀ {a : Nat}, (∀ i, a ≤ i → i < a + k → (m i).isSome) →
    ∃ w : List UInt8, loadN m a k = some w ∧ w.length = k ∧ ∀ t, t < k → m (a + t) = w[t]? := by
  induction k with
  | zero => intro a _; exact ⟨[], rfl, rfl, fun t ht => absurd ht (by omega)⟩
  | succ k ih =>
    intro a h
    obtain ⟨b, hb⟩ := Option.isSome_iff_exists.mp (h a (by omega) (by omega))
    obtain ⟨w, hw, hl, hs⟩ := ih (a := a+1) (fun i h1 h2 => h i (by omega) (by omega))
    refine ⟨b :: w, ?_, by simp [hl], ?_⟩
    · simp [loadN, load, hb, hw]
    · intro t ht
      cases t with
      | zero => simp [hb]
      | succ t =>
        have := hs t (by omega)
        simp only [List.getElem?_cons_succ]
        rw [← this]; congr 1; omega

theorem storeN_eq {w : List UInt8} : ∀ {m : Mem} {a : Nat}, (∀ i, a ≤ i → i < a + w.length → (m i).isSome) →
    storeN m a w = some (fun i => if a ≤ i ∧ i < a + w.length then w[i - a]? else m i) := by
  induction w with
  | nil => intro m a _; simp only [storeN]; congr 1; funext i; rw [if_neg]; simp
  | cons b bs ih =>
    intro m a h
    simp only [storeN]
    rw [store_eq (h a (by omega) (by simp))]
    simp only [Option.bind_eq_bind, Option.bind_some]
    rw [ih]
    · congr 1
      funext i
      simp only [List.length_cons]
      by_cases hi : i = a
      · subst hi
        rw [if_neg (by omega), if_pos rfl, if_pos (by omega)]; simp
      · by_cases hr : a ≤ i ∧ i < a + (bs.length + 1)
        · rw [if_pos (by omega), if_pos hr]
          have : i - a = (i - (a+1)) + 1 := by omega
          rw [this]; simp
        · rw [if_neg (by omega), if_neg hr, if_neg hi]
    · intro i h1 h2
      split
      · rfl
      · exact h i (by omega) (by simp at *; omega)

/-- Memory after the offsets `[a,b)` of the block have been moved from `src` to `dest`. -/
def mv (m0 : Mem) (dest src a b : Nat) : Mem :=
  fun i => if dest + a ≤ i ∧ i < dest + b then m0 (src + (i - dest)) else m0 i

theorem mv_empty (m0 : Mem) (dest src a b : Nat) (h : b ≤ a) : mv m0 dest src a b = m0 := by
  funext i; simp only [mv]; rw [if_neg]; omega

/-- The two ranges are mapped. -/
def Mapped (m : Mem) (a n : Nat) : Prop := ∀ i, a ≤ i → i < a + n → (m i).isSome

theorem mv_mapped {m0 : Mem} {dest src a b n p k : Nat} (hs : Mapped m0 src n) (hb : b ≤ n)
    (hp : Mapped m0 p k) : Mapped (mv m0 dest src a b) p k := by
  intro i h1 h2
  simp only [mv]
  split
  · exact hs _ (by omega) (by omega)
  · exact hp i h1 h2

/-- One access of width `k` at offset `j`, upwards: nothing it reads has been overwritten. -/
theorem fwd_step {m0 : Mem} {dest src n j k : Nat} (hs : Mapped m0 src n) (hd : Mapped m0 dest n)
    (hj : j + k ≤ n) (hov : dest ≤ src ∨ dest + n ≤ src ∨ src + n ≤ dest) :
    ((loadN (mv m0 dest src 0 j) (src + j) k).bind fun w => storeN (mv m0 dest src 0 j) (dest + j) w) =
      some (mv m0 dest src 0 (j + k)) := by
  have hm : Mapped (mv m0 dest src 0 j) (src + j) k :=
    mv_mapped hs (by omega) (fun i h1 h2 => hs i (by omega) (by omega))
  obtain ⟨w, hw, hl, hg⟩ := loadN_eq hm
  have hmd : Mapped (mv m0 dest src 0 j) (dest + j) k :=
    mv_mapped hs (by omega) (fun i h1 h2 => hd i (by omega) (by omega))
  rw [hw, Option.bind_some, storeN_eq (by rw [hl]; exact hmd)]
  congr 1
  funext i
  rw [hl]
  by_cases h1 : dest + j ≤ i ∧ i < dest + j + k
  · rw [if_pos h1, ← hg (i - (dest + j)) (by omega)]
    simp only [mv]
    rw [if_neg (by omega), if_pos (by omega)]
    congr 1; omega
  · rw [if_neg h1]
    simp only [mv]
    by_cases h2 : dest + 0 ≤ i ∧ i < dest + j
    · rw [if_pos h2, if_pos (by omega)]
    · rw [if_neg h2, if_neg (by omega)]

/-- One access of width `k` ending at offset `j + k`, downwards. -/
theorem bwd_step {m0 : Mem} {dest src n j k : Nat} (hs : Mapped m0 src n) (hd : Mapped m0 dest n)
    (hj : j + k ≤ n) (hov : src ≤ dest) :
    ((loadN (mv m0 dest src (j+k) n) (src + j) k).bind fun w => storeN (mv m0 dest src (j+k) n) (dest + j) w) =
      some (mv m0 dest src j n) := by
  have hm : Mapped (mv m0 dest src (j+k) n) (src + j) k :=
    mv_mapped hs (by omega) (fun i h1 h2 => hs i (by omega) (by omega))
  obtain ⟨w, hw, hl, hg⟩ := loadN_eq hm
  have hmd : Mapped (mv m0 dest src (j+k) n) (dest + j) k :=
    mv_mapped hs (by omega) (fun i h1 h2 => hd i (by omega) (by omega))
  rw [hw, Option.bind_some, storeN_eq (by rw [hl]; exact hmd)]
  congr 1
  funext i
  rw [hl]
  by_cases h1 : dest + j ≤ i ∧ i < dest + j + k
  · rw [if_pos h1, ← hg (i - (dest + j)) (by omega)]
    simp only [mv]
    rw [if_neg (by omega), if_pos (by omega)]
    congr 1; omega
  · rw [if_neg h1]
    simp only [mv]
    by_cases h2 : dest + (j+k) ≤ i ∧ i < dest + n
    · rw [if_pos h2, if_pos (by omega)]
    · rw [if_neg h2, if_neg (by omega)]

theorem loadN_one (m : Mem) (a : Nat) (f : List UInt8 → Option Mem) :
    (loadN m a 1).bind f = (load m a).bind fun b => f [b] := by
  simp only [loadN]
  cases load m a <;> simp

theorem storeN_one (m : Mem) (a : Nat) (b : UInt8) : storeN m a [b] = store m a b := by
  simp only [storeN]
  cases store m a b <;> simp

theorem fwd_step1 {m0 : Mem} {dest src n j : Nat} (hs : Mapped m0 src n) (hd : Mapped m0 dest n)
    (hj : j + 1 ≤ n) (hov : dest ≤ src ∨ dest + n ≤ src ∨ src + n ≤ dest) :
    ((load (mv m0 dest src 0 j) (src + j)).bind fun b => store (mv m0 dest src 0 j) (dest + j) b) =
      some (mv m0 dest src 0 (j + 1)) := by
  have := fwd_step (k := 1) hs hd hj hov
  rw [loadN_one] at this
  simpa only [storeN_one] using this

theorem bwd_step1 {m0 : Mem} {dest src n j : Nat} (hs : Mapped m0 src n) (hd : Mapped m0 dest n)
    (hj : j + 1 ≤ n) (hov : src ≤ dest) :
    ((load (mv m0 dest src (j+1) n) (src + j)).bind fun b => store (mv m0 dest src (j+1) n) (dest + j) b) =
      some (mv m0 dest src j n) := by
  have := bwd_step (k := 1) hs hd hj hov
  rw [loadN_one] at this
  simpa only [storeN_one] using this

theorem memCopy_mv {m0 : Mem} {dest src n : Nat} (hs : Mapped m0 src n) (hd : Mapped m0 dest n)
    (hov : dest ≤ src ∨ dest + n ≤ src ∨ src + n ≤ dest) :
    ∀ (r j : Nat), j + r = n →
      memCopy (mv m0 dest src 0 j) (dest + j) (src + j) r = some (mv m0 dest src 0 n) := by
  intro r
  induction r with
  | zero => intro j h; simp only [memCopy]; congr 2
  | succ r ih =>
    intro j h
    have h1 := fwd_step1 (j := j) hs hd (by omega) hov
    simp only [memCopy, Option.bind_eq_bind]
    rw [← Option.bind_assoc, h1, Option.bind_some]
    exact ih (j+1) (by omega)

theorem fwdAlign_mv {m0 : Mem} {dest src n : Nat} (hs : Mapped m0 src n) (hd : Mapped m0 dest n)
    (hov : dest ≤ src) :
    ∀ (fuel r j : Nat), j + r = n → (8 - (dest + j) % 8) % 8 < fuel →
      fwdAlign (mv m0 dest src 0 j) (dest + j) (src + j) r fuel = some (.inr (mv m0 dest src 0 n)) ∨
      ∃ j' r', j' + r' = n ∧
        fwdAlign (mv m0 dest src 0 j) (dest + j) (src + j) r fuel =
          some (.inl (mv m0 dest src 0 j', dest + j', src + j', r')) := by
  intro fuel
  induction fuel with
  | zero => intro r j _ h; omega
  | succ fuel ih =>
    intro r j hr hf
    unfold fwdAlign
    by_cases hz : (dest + j) % 8 = 0
    · rw [if_pos hz]; exact Or.inr ⟨j, r, hr, rfl⟩
    · rw [if_neg hz]
      cases r with
      | zero => left; simp only; congr 3
      | succ r =>
        have h1 := fwd_step1 (j := j) hs hd (by omega) (Or.inl hov)
        simp only [Option.bind_eq_bind]
        rw [← Option.bind_assoc, h1, Option.bind_some]
        exact ih r (j+1) (by omega) (by omega)

theorem fwdWords_mv {m0 : Mem} {dest src n : Nat} (hs : Mapped m0 src n) (hd : Mapped m0 dest n)
    (hov : dest ≤ src) :
    ∀ (r j : Nat), j + r = n →
      ∃ j' r', j' + r' = n ∧ fwdWords (mv m0 dest src 0 j) (dest + j) (src + j) r =
          some (mv m0 dest src 0 j', dest + j', src + j', r') := by
  intro r
  induction r using Nat.strongRecOn with
  | ind r ih =>
    intro j hr
    unfold fwdWords
    by_cases h8 : 8 ≤ r
    · rw [dif_pos h8]
      have h1 := fwd_step (k := 8) (j := j) hs hd (by omega) (Or.inl hov)
      simp only [Option.bind_eq_bind]
      rw [← Option.bind_assoc, h1, Option.bind_some]
      exact ih (r-8) (by omega) (j+8) (by omega)
    · rw [dif_neg h8]; exact ⟨j, r, hr, rfl⟩

theorem bwdAlign_mv {m0 : Mem} {dest src n : Nat} (hs : Mapped m0 src n) (hd : Mapped m0 dest n)
    (hov : src ≤ dest) :
    ∀ (fuel r : Nat), r ≤ n → (dest + r) % 8 < fuel →
      bwdAlign (mv m0 dest src r n) dest src r fuel = some (.inr (mv m0 dest src 0 n)) ∨
      ∃ r', r' ≤ n ∧ bwdAlign (mv m0 dest src r n) dest src r fuel = some (.inl (mv m0 dest src r' n, r')) := by
  intro fuel
  induction fuel with
  | zero => intro r _ h; omega
  | succ fuel ih =>
    intro r hr hf
    unfold bwdAlign
    by_cases hz : (dest + r) % 8 = 0
    · rw [if_pos hz]; exact Or.inr ⟨r, hr, rfl⟩
    · rw [if_neg hz]
      cases r with
      | zero => left; rfl
      | succ r =>
        have h1 := bwd_step1 (j := r) hs hd (by omega) hov
        simp only [Option.bind_eq_bind]
        rw [← Option.bind_assoc, h1, Option.bind_some]
        exact ih r (by omega) (by omega)

theorem bwdWords_mv {m0 : Mem} {dest src n : Nat} (hs : Mapped m0 src n) (hd : Mapped m0 dest n)
    (hov : src ≤ dest) :
    ∀ (r : Nat), r ≤ n →
      ∃ r', r' ≤ n ∧ bwdWords (mv m0 dest src r n) dest src r = some (mv m0 dest src r' n, r') := by
  intro r
  induction r using Nat.strongRecOn with
  | ind r ih =>
    intro hr
    unfold bwdWords
    by_cases h8 : 8 ≤ r
    · rw [dif_pos h8]
      have h1 := bwd_step (k := 8) (j := r - 8) hs hd (by omega) hov
      have h2 : r - 8 + 8 = r := by omega
      rw [h2] at h1
      simp only [Option.bind_eq_bind]
      rw [← Option.bind_assoc, h1, Option.bind_some]
      exact ih (r-8) (by omega) (by omega)
    · rw [dif_neg h8]; exact ⟨r, hr, rfl⟩

theorem bwdBytes_mv {m0 : Mem} {dest src n : Nat} (hs : Mapped m0 src n) (hd : Mapped m0 dest n)
    (hov : src ≤ dest) :
    ∀ (r : Nat), r ≤ n → bwdBytes (mv m0 dest src r n) dest src r = some (mv m0 dest src 0 n) := by
  intro r
  induction r with
  | zero => intro _; rfl
  | succ r ih =>
    intro hr
    have h1 := bwd_step1 (j := r) hs hd (by omega) hov
    simp only [bwdBytes, Option.bind_eq_bind]
    rw [← Option.bind_assoc, h1, Option.bind_some]
    exact ih (by omega)

theorem memMove_mv {m0 : Mem} {dest src n : Nat} (h0 : dest ≠ 0) (hs : Mapped m0 src n) (hd : Mapped m0 dest n) :
    memMove m0 dest src n = some (mv m0 dest src 0 n) := by
  unfold memMove
  rw [if_neg h0]
  by_cases he : dest = src
  · rw [if_pos he]
    subst he
    congr 1; funext i; simp only [mv]
    split
    · congr 1; omega
    · rfl
  rw [if_neg he]
  have hstart : m0 = mv m0 dest src 0 0 := (mv_empty _ _ _ _ _ (Nat.le_refl _)).symm
  have hcopy : (dest ≤ src ∨ dest + n ≤ src ∨ src + n ≤ dest) → memCopy m0 dest src n = some (mv m0 dest src 0 n) := by
    intro hov
    have := memCopy_mv hs hd hov n 0 (by omega)
    rwa [← hstart] at this
  by_cases hno : src + n ≤ dest ∨ dest + n ≤ src
  · rw [if_pos hno]; exact hcopy (by omega)
  rw [if_neg hno]
  by_cases hlt : dest < src
  · rw [if_pos hlt]
    by_cases hc : src % 8 = dest % 8
    · rw [if_pos hc]
      have ha := fwdAlign_mv hs hd (by omega) 8 n 0 (by omega) (by omega)
      rw [← hstart] at ha
      simp only [Nat.add_zero] at ha
      simp only [Option.bind_eq_bind]
      rcases ha with ha | ⟨j, r, hj, ha⟩
      · rw [ha]; rfl
      · rw [ha, Option.bind_some]
        obtain ⟨j2, r2, hj2, hw⟩ := fwdWords_mv hs hd (by omega) r j hj
        simp only [hw, Option.bind_some]
        exact memCopy_mv hs hd (by omega) r2 j2 hj2
    · rw [if_neg hc]; exact hcopy (by omega)
  · rw [if_neg hlt]
    have hst2 : m0 = mv m0 dest src n n := (mv_empty _ _ _ _ _ (Nat.le_refl _)).symm
    by_cases hc : src % 8 = dest % 8
    · rw [if_pos hc]
      have ha := bwdAlign_mv hs hd (by omega) 8 n (by omega) (by omega)
      rw [← hst2] at ha
      simp only [Option.bind_eq_bind]
      rcases ha with ha | ⟨r, hr, ha⟩
      · rw [ha]; rfl
      · rw [ha, Option.bind_some]
        obtain ⟨r2, hr2, hw⟩ := bwdWords_mv hs hd (by omega) r hr
        simp only [hw, Option.bind_some]
        exact bwdBytes_mv hs hd (by omega) r2 hr2
    · rw [if_neg hc]
      have := bwdBytes_mv hs hd (by omega) n (by omega)
      rwa [← hst2] at this
end Verif.Mem
