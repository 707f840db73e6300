import Verif.Proof.MemMove
/-! Helper lemmas for `mem_find`: the word-at-a-time zero test and the three loops. -/
namespace Verif.Mem

theorem bit_of_hasZero {x : BitVec 64} (k : Nat) (hk : k = 7 ∨ k = 15 ∨ k = 23 ∨ k = 31 ∨ k = 39 ∨ k = 47 ∨ k = 55 ∨ k = 63)
    (h1 : (x - ones).toNat / 2^k % 2 = 1) (h2 : x.toNat / 2^k % 2 = 0) : hasZero x = true := by
  unfold hasZero
  simp only [bne_iff_ne, ne_eq]
  intro he
  have hk64 : k < 64 := by omega
  have := congrArg (fun v => v.getLsbD k) he
  simp only [BitVec.getLsbD_and, BitVec.getLsbD_not, BitVec.getLsbD_zero] at this
  have a1 : (x - ones).getLsbD k = true := by
    rw [BitVec.getLsbD, Nat.testBit_eq_decide_div_mod_eq, h1]; rfl
  have a2 : x.getLsbD k = false := by
    rw [BitVec.getLsbD, Nat.testBit_eq_decide_div_mod_eq]; simp [h2]
  have a3 : highs.getLsbD k = true := by
    rcases hk with h|h|h|h|h|h|h|h <;> subst h <;> decide
  rw [a1, a2, a3] at this
  simp [hk64] at this

theorem hasZero_of_byte {x : BitVec 64}
    (h : x.toNat % 256 = 0 ∨ x.toNat / 2^8 % 256 = 0 ∨ x.toNat / 2^16 % 256 = 0 ∨ x.toNat / 2^24 % 256 = 0 ∨
      x.toNat / 2^32 % 256 = 0 ∨ x.toNat / 2^40 % 256 = 0 ∨ x.toNat / 2^48 % 256 = 0 ∨ x.toNat / 2^56 % 256 = 0) :
    hasZero x = true := by
  have hlt := x.isLt
  have hones : ones.toNat = 72340172838076673 := by decide
  have hsub : (x - ones).toNat = (18446744073709551616 - 72340172838076673 + x.toNat) % 18446744073709551616 := by
    rw [BitVec.toNat_sub, hones]
  generalize hy : (x - ones).toNat = y at hsub
  generalize hx : x.toNat = n at *
  by_cases c0 : n % 256 = 0
  · exact bit_of_hasZero 7 (by simp) (by omega) (by omega)
  by_cases c1 : n / 2^8 % 256 = 0
  · exact bit_of_hasZero 15 (by simp) (by omega) (by omega)
  by_cases c2 : n / 2^16 % 256 = 0
  · exact bit_of_hasZero 23 (by simp) (by omega) (by omega)
  by_cases c3 : n / 2^24 % 256 = 0
  · exact bit_of_hasZero 31 (by simp) (by omega) (by omega)
  by_cases c4 : n / 2^32 % 256 = 0
  · exact bit_of_hasZero 39 (by simp) (by omega) (by omega)
  by_cases c5 : n / 2^40 % 256 = 0
  · exact bit_of_hasZero 47 (by simp) (by omega) (by omega)
  by_cases c6 : n / 2^48 % 256 = 0
  · exact bit_of_hasZero 55 (by simp) (by omega) (by omega)
  by_cases c7 : n / 2^56 % 256 = 0
  · exact bit_of_hasZero 63 (by simp) (by omega) (by omega)
  omega

theorem xor_byte (a b : Nat) (j : Nat) (h : a / 2^j % 256 = b / 2^j % 256) : (a ^^^ b) / 2^j % 256 = 0 := by
  have e1 : (a ^^^ b) / 2^j = (a / 2^j) ^^^ (b / 2^j) := by
    rw [← Nat.shiftRight_eq_div_pow, ← Nat.shiftRight_eq_div_pow, ← Nat.shiftRight_eq_div_pow, Nat.shiftRight_xor_distrib]
  have : (256:Nat) = 2^8 := by decide
  rw [e1, this, Nat.xor_mod_two_pow, ← this, h, Nat.xor_self]

theorem leWord_byte : ∀ (w : List UInt8) (j : Nat) (b : UInt8), w[j]? = some b →
    leWord w / 2^(8*j) % 256 = b.toNat
  | [], j, b, h => by simp at h
  | a :: w, 0, b, h => by
    simp only [List.getElem?_cons_zero, Option.some.injEq] at h
    have := a.toNat_lt
    simp only [leWord, Nat.mul_zero, Nat.pow_zero, Nat.div_one, ← h]
    omega
  | a :: w, j+1, b, h => by
    simp only [List.getElem?_cons_succ] at h
    have ih := leWord_byte w j b h
    have := a.toNat_lt
    have e : 2^(8*(j+1)) = 256 * 2^(8*j) := by
      rw [Nat.mul_add, Nat.pow_add]; omega
    rw [e, ← Nat.div_div_eq_div_mul]
    have e2 : leWord (a :: w) / 256 = leWord w := by simp only [leWord]; omega
    rw [e2, ih]

theorem leWord_lt : ∀ (w : List UInt8), leWord w < 2^(8 * w.length)
  | [] => by simp [leWord]
  | a :: w => by
    have ih := leWord_lt w
    have := a.toNat_lt
    simp only [leWord, List.length_cons, Nat.mul_add, Nat.pow_add]
    omega

theorem hasZero_word (w : List UInt8) (hw : w.length = 8) (c : UInt8) (hc : c ∈ w) :
    hasZero (BitVec.ofNat 64 (leWord w) ^^^ (ones * BitVec.ofNat 64 c.toNat)) = true := by
  have lc := c.toNat_lt
  have hones : ones.toNat = 72340172838076673 := by decide
  have hk : (72340172838076673 * (c.toNat % 2^64)) % 2^64 = leWord (List.replicate 8 c) := by
    simp only [List.replicate, leWord]; omega
  have hlt := leWord_lt w
  rw [hw] at hlt
  obtain ⟨j, hj, hjc⟩ := List.getElem_of_mem hc
  have hx : ((leWord w ^^^ leWord (List.replicate 8 c)) / 2^(8*j)) % 256 = 0 := by
    apply xor_byte
    rw [leWord_byte w j c (by rw [List.getElem?_eq_getElem hj, hjc]),
      leWord_byte (List.replicate 8 c) j c (by rw [List.getElem?_replicate]; simp; omega)]
  apply hasZero_of_byte
  rw [BitVec.toNat_xor, BitVec.toNat_mul, BitVec.toNat_ofNat, BitVec.toNat_ofNat, hones, hk, Nat.mod_eq_of_lt hlt]
  rw [hw] at hj
  have : j = 0 ∨ j = 1 ∨ j = 2 ∨ j = 3 ∨ j = 4 ∨ j = 5 ∨ j = 6 ∨ j = 7 := by omega
  rcases this with h|h|h|h|h|h|h|h <;> subst h <;> simp only [Nat.mul_zero, Nat.pow_zero, Nat.div_one, Nat.reduceMul] at hx
  · exact Or.inl hx
  · right; left; exact hx
  · right; right; left; exact hx
  · right; right; right; left; exact hx
  · right; right; right; right; left; exact hx
  · right; right; right; right; right; left; exact hx
  · right; right; right; right; right; right; left; exact hx
  · right; right; right; right; right; right; right; exact hx

/-- No byte of `[a, a+k)` is `c`. -/
def NoByte (m : Mem) (c : UInt8) (a b : Nat) : Prop := ∀ i, a ≤ i → i < b → m i ≠ some c

theorem findAlign_spec {m : Mem} {c : UInt8} {e : Nat} : ∀ (fuel s n : Nat), s + n = e → Mapped m s n →
    (8 - s % 8) % 8 < fuel →
    ∃ s' n', findAlign m c s n fuel = some (s', n') ∧ s' + n' = e ∧ s ≤ s' ∧ NoByte m c s s' := by
  intro fuel
  induction fuel with
  | zero => intro s n _ _ h; omega
  | succ fuel ih =>
    intro s n he hm hf
    unfold findAlign
    by_cases hz : s % 8 = 0
    · rw [if_pos hz]; exact ⟨s, n, rfl, he, Nat.le_refl _, fun i h1 h2 => by omega⟩
    rw [if_neg hz]
    cases n with
    | zero => exact ⟨s, 0, rfl, he, Nat.le_refl _, fun i h1 h2 => by omega⟩
    | succ n =>
      obtain ⟨b, hb⟩ := Option.isSome_iff_exists.mp (hm s (by omega) (by omega))
      simp only [load, hb, Option.bind_eq_bind, Option.bind_some]
      by_cases hbc : b = c
      · rw [if_pos hbc]; exact ⟨s, n+1, rfl, he, Nat.le_refl _, fun i h1 h2 => by omega⟩
      · rw [if_neg hbc]
        obtain ⟨s', n', h1, h2, h3, h4⟩ := ih (s+1) n (by omega) (fun i h1 h2 => hm i (by omega) (by omega)) (by omega)
        refine ⟨s', n', h1, h2, by omega, ?_⟩
        intro i hi1 hi2
        by_cases hs : i = s
        · subst hs; rw [hb]; simpa using hbc
        · exact h4 i (by omega) hi2

theorem findWords_spec {m : Mem} {c : UInt8} {e : Nat} : ∀ (n s : Nat), s + n = e → Mapped m s n →
    ∃ s' n', findWords m c s n = some (s', n') ∧ s' + n' = e ∧ s ≤ s' ∧ NoByte m c s s' := by
  intro n
  induction n using Nat.strongRecOn with
  | ind n ih =>
    intro s he hm
    unfold findWords
    by_cases h8 : 8 ≤ n
    · rw [dif_pos h8]
      obtain ⟨w, hw, hl, hg⟩ := loadN_eq (m := m) (a := s) (k := 8) (fun i h1 h2 => hm i h1 (by omega))
      simp only [hw, Option.bind_eq_bind, Option.bind_some]
      split
      · exact ⟨s, n, rfl, he, Nat.le_refl _, fun i h1 h2 => by omega⟩
      · rename_i hz
        obtain ⟨s', n', h1, h2, h3, h4⟩ := ih (n-8) (by omega) (s+8) (by omega)
          (fun i h1 h2 => hm i (by omega) (by omega))
        refine ⟨s', n', h1, h2, by omega, ?_⟩
        intro i hi1 hi2
        by_cases hi : i < s + 8
        · intro hic
          apply hz
          apply hasZero_word w hl
          have := hg (i - s) (by omega)
          have e1 : s + (i - s) = i := by omega
          rw [e1, hic] at this
          exact List.mem_of_getElem? this.symm
        · exact h4 i (by omega) hi2
    · rw [dif_neg h8]; exact ⟨s, n, rfl, he, Nat.le_refl _, fun i h1 h2 => by omega⟩

theorem findBytes_spec {m : Mem} {c : UInt8} {e : Nat} : ∀ (n s : Nat), s + n = e → Mapped m s n →
    ∃ s' n', findBytes m c s n = some (s', n') ∧ s' + n' = e ∧ s ≤ s' ∧ NoByte m c s s' ∧
      (n' ≠ 0 → m s' = some c) := by
  intro n
  induction n with
  | zero => intro s he _; exact ⟨s, 0, rfl, he, Nat.le_refl _, fun i h1 h2 => by omega, by simp⟩
  | succ n ih =>
    intro s he hm
    obtain ⟨b, hb⟩ := Option.isSome_iff_exists.mp (hm s (by omega) (by omega))
    simp only [findBytes, load, hb, Option.bind_eq_bind, Option.bind_some]
    by_cases hbc : b = c
    · rw [if_pos hbc]; exact ⟨s, n+1, rfl, he, Nat.le_refl _, fun i h1 h2 => by omega, fun _ => by rw [hb, hbc]⟩
    · rw [if_neg hbc]
      obtain ⟨s', n', h1, h2, h3, h4, h5⟩ := ih (s+1) (by omega) (fun i h1 h2 => hm i (by omega) (by omega))
      refine ⟨s', n', h1, h2, by omega, ?_, h5⟩
      intro i hi1 hi2
      by_cases hs : i = s
      · subst hs; rw [hb]; simpa using hbc
      · exact h4 i (by omega) hi2

theorem memFind_spec {m : Mem} {c : UInt8} {d n : Nat} (hm : Mapped m d n) :
    (∃ a, memFind m d c n = some (some a) ∧ d ≤ a ∧ a < d + n ∧ m a = some c ∧ NoByte m c d a) ∨
    (memFind m d c n = some none ∧ NoByte m c d (d + n)) := by
  obtain ⟨s1, n1, h1, he1, hle1, hno1⟩ := findAlign_spec (m := m) (c := c) 8 d n rfl hm (by omega)
  unfold memFind
  simp only [h1, Option.bind_eq_bind, Option.bind_some, Option.pure_def]
  by_cases hz : n1 = 0
  · right
    rw [if_pos hz]
    refine ⟨rfl, ?_⟩
    have : s1 = d + n := by omega
    rw [← this]; exact hno1
  rw [if_neg hz]
  obtain ⟨b, hb⟩ := Option.isSome_iff_exists.mp (hm s1 (by omega) (by omega))
  simp only [load, hb, Option.bind_some]
  by_cases hbc : b = c
  · left; rw [if_pos hbc]
    exact ⟨s1, rfl, hle1, by omega, by rw [hb, hbc], hno1⟩
  rw [if_neg hbc]
  obtain ⟨s2, n2, h2, he2, hle2, hno2⟩ := findWords_spec (m := m) (c := c) n1 s1 he1
    (fun i h1 h2 => hm i (by omega) (by omega))
  simp only [h2, Option.bind_some]
  obtain ⟨s3, n3, h3, he3, hle3, hno3, hfound⟩ := findBytes_spec (m := m) (c := c) n2 s2 he2
    (fun i h1 h2 => hm i (by omega) (by omega))
  simp only [h3, Option.bind_some]
  have hno : NoByte m c d s3 := by
    intro i hi1 hi2
    by_cases a1 : i < s1
    · exact hno1 i hi1 a1
    by_cases a2 : i < s2
    · exact hno2 i (by omega) a2
    · exact hno3 i (by omega) hi2
  by_cases hz3 : n3 = 0
  · right; rw [if_pos hz3]
    refine ⟨rfl, ?_⟩
    have : s3 = d + n := by omega
    rw [← this]; exact hno
  · left; rw [if_neg hz3]
    exact ⟨s3, rfl, by omega, by omega, hfound hz3, hno⟩
end Verif.Mem
