import Verif.Model.Mem
/-! Helper lemmas for `mem_set`. -/
namespace Verif.Mem
open Classical

/-- `m` with the addresses in `P` overwritten by `c`. -/
noncomputable def cov (m : Mem) (P : Nat → Prop) (c : UInt8) : Mem :=
  fun i => if P i then some c else m i

theorem cov_congr {m : Mem} {P Q : Nat → Prop} {c : UInt8} (h : ∀ i, P i ↔ Q i) : cov m P c = cov m Q c := by
  have : P = Q := funext fun i => propext (h i)
  rw [this]

theorem store_cov {m0 : Mem} {P : Nat → Prop} {c : UInt8} {a : Nat} (h : (m0 a).isSome) :
    store (cov m0 P c) a c = some (cov m0 (fun i => P i ∨ i = a) c) := by
  have h1 : ∃ v, cov m0 P c a = some v := by
    unfold cov
    split
    · exact ⟨_, rfl⟩
    · exact Option.isSome_iff_exists.mp h
  obtain ⟨v, hv⟩ := h1
  unfold store
  rw [hv]
  simp only [Option.some.injEq]
  funext i
  unfold cov
  by_cases hi : i = a
  · subst hi; simp
  · simp [hi]

theorem store4_cov {m0 : Mem} {P : Nat → Prop} {c : UInt8} {a : Nat}
    (h : ∀ i, a ≤ i → i < a + 4 → (m0 i).isSome) :
    store4 (cov m0 P c) a c = some (cov m0 (fun i => P i ∨ (a ≤ i ∧ i < a+4)) c) := by
  unfold store4
  simp only [storeN]
  rw [store_cov (h a (by omega) (by omega))]
  simp only [Option.bind_eq_bind, Option.bind_some]
  rw [store_cov (h _ (by omega) (by omega))]
  simp only [Option.bind_some]
  rw [store_cov (h _ (by omega) (by omega))]
  simp only [Option.bind_some]
  rw [store_cov (h _ (by omega) (by omega))]
  simp only [Option.bind_some]
  congr 1
  apply cov_congr
  intro i
  constructor
  · rintro ((((hP|h)|h)|h)|h)
    · exact Or.inl hP
    all_goals (right; omega)
  · rintro (hP|h)
    · simp [hP]
    · have : i = a ∨ i = a+1 ∨ i = a+2 ∨ i = a+3 := by omega
      rcases this with h|h|h|h <;> simp [h]

theorem store8_cov {m0 : Mem} {P : Nat → Prop} {c : UInt8} {a : Nat}
    (h : ∀ i, a ≤ i → i < a + 8 → (m0 i).isSome) :
    store8 (cov m0 P c) a c = some (cov m0 (fun i => P i ∨ (a ≤ i ∧ i < a+8)) c) := by
  unfold store8
  simp only [storeN, Option.bind_eq_bind]
  rw [store_cov (h a (by omega) (by omega)), Option.bind_some]
  rw [store_cov (h _ (by omega) (by omega)), Option.bind_some]
  rw [store_cov (h _ (by omega) (by omega)), Option.bind_some]
  rw [store_cov (h _ (by omega) (by omega)), Option.bind_some]
  rw [store_cov (h _ (by omega) (by omega)), Option.bind_some]
  rw [store_cov (h _ (by omega) (by omega)), Option.bind_some]
  rw [store_cov (h _ (by omega) (by omega)), Option.bind_some]
  rw [store_cov (h _ (by omega) (by omega)), Option.bind_some]
  congr 1
  apply cov_congr
  intro i
  constructor
  · rintro ((((((((hP|h)|h)|h)|h)|h)|h)|h)|h)
    · exact Or.inl hP
    all_goals (right; omega)
  · rintro (hP|h)
    · simp [hP]
    · have : i = a ∨ i = a+1 ∨ i = a+2 ∨ i = a+3 ∨ i = a+4 ∨ i = a+5 ∨ i = a+6 ∨ i = a+7 := by omega
      rcases this with h|h|h|h|h|h|h|h <;> simp [h]

theorem setLoop_cov (m0 : Mem) (c : UInt8) (n : Nat) : ∀ (P : Nat → Prop) (d : Nat),
    (∀ i, d ≤ i → i < d + n → (m0 i).isSome) →
    setLoop (cov m0 P c) d n c = some (cov m0 (fun i => P i ∨ (d ≤ i ∧ i < d + n / 32 * 32)) c) := by
  induction n using Nat.strongRecOn with
  | ind n ih =>
    intro P d h
    unfold setLoop
    by_cases hn : 31 < n
    · rw [dif_pos hn]
      simp only [Option.bind_eq_bind]
      rw [store8_cov (fun i h1 h2 => h i (by omega) (by omega)), Option.bind_some]
      rw [store8_cov (fun i h1 h2 => h i (by omega) (by omega)), Option.bind_some]
      rw [store8_cov (fun i h1 h2 => h i (by omega) (by omega)), Option.bind_some]
      rw [store8_cov (fun i h1 h2 => h i (by omega) (by omega)), Option.bind_some]
      rw [ih (n-32) (by omega) _ _ (fun i h1 h2 => h i (by omega) (by omega))]
      congr 1
      apply cov_congr
      intro i
      have hdiv : (n - 32) / 32 * 32 = n / 32 * 32 - 32 := by omega
      have hge : 32 ≤ n / 32 * 32 := by omega
      rw [hdiv]
      constructor
      · rintro (((((hP|h)|h)|h)|h)|h)
        · exact Or.inl hP
        all_goals (right; omega)
      · rintro (hP|h)
        · simp [hP]
        · by_cases hP : P i
          · simp [hP]
          · simp only [hP, false_or]; omega
    · rw [dif_neg hn]
      congr 1
      apply cov_congr
      intro i
      have : n / 32 * 32 = 0 := by omega
      rw [this]
      constructor
      · exact Or.inl
      · rintro (h|h)
        · exact h
        · omega

theorem memSet_cov (m0 : Mem) (d : Nat) (c : UInt8) (n : Nat) (hd : d ≠ 0)
    (h : ∀ i, d ≤ i → i < d + n → (m0 i).isSome) :
    memSet m0 d c n = some (cov m0 (fun i => d ≤ i ∧ i < d + n) c) := by
  have h0 : m0 = cov m0 (fun _ => False) c := by funext i; simp [cov]
  unfold memSet
  rw [if_neg hd]
  by_cases hn : n = 0
  · rw [if_pos hn]
    subst hn
    congr 1
    conv => lhs; rw [h0]
    exact cov_congr fun i => by simp only [false_iff]; omega
  rw [if_neg hn]
  conv => lhs; rw [h0]
  simp only [Option.bind_eq_bind, Option.pure_def]
  rw [store_cov (h _ (by omega) (by omega)), Option.bind_some]
  rw [store_cov (h _ (by omega) (by omega)), Option.bind_some]
  by_cases h3 : n < 3
  · rw [if_pos h3]; congr 1; exact cov_congr fun i => by (try simp only [false_or]); omega
  rw [if_neg h3]
  rw [store_cov (h _ (by omega) (by omega)), Option.bind_some]
  rw [store_cov (h _ (by omega) (by omega)), Option.bind_some]
  rw [store_cov (h _ (by omega) (by omega)), Option.bind_some]
  rw [store_cov (h _ (by omega) (by omega)), Option.bind_some]
  by_cases h7 : n < 7
  · rw [if_pos h7]; congr 1; exact cov_congr fun i => by (try simp only [false_or]); omega
  rw [if_neg h7]
  rw [store_cov (h _ (by omega) (by omega)), Option.bind_some]
  rw [store_cov (h _ (by omega) (by omega)), Option.bind_some]
  by_cases h9 : n < 9
  · rw [if_pos h9]; congr 1; exact cov_congr fun i => by (try simp only [false_or]); omega
  rw [if_neg h9]
  generalize hoff : (4 - d % 4) % 4 = off
  have hofflt : off < 4 := by omega
  have hoffz : (d + off) % 4 = 0 := by omega
  generalize hk : (n - off) / 4 * 4 = k
  have hk1 : k ≤ n - off := by omega
  have hk2 : n - off < k + 4 := by omega
  have hk3 : k % 4 = 0 := by omega
  rw [store4_cov (fun i h1 h2 => h _ (by omega) (by omega)), Option.bind_some]
  rw [store4_cov (fun i h1 h2 => h _ (by omega) (by omega)), Option.bind_some]
  by_cases hk9 : k < 9
  · rw [if_pos hk9]; congr 1; exact cov_congr fun i => by (try simp only [false_or]); omega
  rw [if_neg hk9]
  rw [store4_cov (fun i h1 h2 => h _ (by omega) (by omega)), Option.bind_some]
  rw [store4_cov (fun i h1 h2 => h _ (by omega) (by omega)), Option.bind_some]
  rw [store4_cov (fun i h1 h2 => h _ (by omega) (by omega)), Option.bind_some]
  rw [store4_cov (fun i h1 h2 => h _ (by omega) (by omega)), Option.bind_some]
  by_cases hk25 : k < 25
  · rw [if_pos hk25]; congr 1; exact cov_congr fun i => by (try simp only [false_or]); omega
  rw [if_neg hk25]
  rw [store4_cov (fun i h1 h2 => h _ (by omega) (by omega)), Option.bind_some]
  rw [store4_cov (fun i h1 h2 => h _ (by omega) (by omega)), Option.bind_some]
  rw [store4_cov (fun i h1 h2 => h _ (by omega) (by omega)), Option.bind_some]
  rw [store4_cov (fun i h1 h2 => h _ (by omega) (by omega)), Option.bind_some]
  rw [store4_cov (fun i h1 h2 => h _ (by omega) (by omega)), Option.bind_some]
  rw [store4_cov (fun i h1 h2 => h _ (by omega) (by omega)), Option.bind_some]
  rw [store4_cov (fun i h1 h2 => h _ (by omega) (by omega)), Option.bind_some]
  rw [store4_cov (fun i h1 h2 => h _ (by omega) (by omega)), Option.bind_some]
  generalize hoff2 : (24 + (d + off)) / 4 % 2 * 4 = off2
  have hoff2le : off2 ≤ 4 := by omega
  have hoff2m : off2 % 4 = 0 := by omega
  rw [setLoop_cov _ _ _ _ _ (fun i h1 h2 => h i (by omega) (by omega))]
  congr 1
  apply cov_congr
  intro i
  simp only [false_or]
  generalize hq : (k - off2) / 32 * 32 = q
  have hq1 : q ≤ k - off2 := by omega
  have hq2 : k - off2 < q + 32 := by omega
  have hq3 : q % 4 = 0 := by omega
  clear h h0 hq hk hoff hoff2
  constructor
  · intro hh
    omega
  · intro hh
    by_cases c1 : i < d + 4
    · omega
    by_cases c2 : d + n - 4 ≤ i
    · omega
    by_cases c3 : i < d + off + 28
    · omega
    by_cases c4 : d + off + k - 28 ≤ i
    · omega
    right; omega
end Verif.Mem
