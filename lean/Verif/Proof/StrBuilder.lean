import Verif.Model.StrBuilder
import Verif.Props.CStr
namespace Verif.SB

/-- The builder's header and cells are consistent and it holds the text `c`. -/
structure Holds (sb : SB) (c : Bytes) : Prop where
  len : sb.len = c.length
  cap : sb.len ≤ sb.cap
  cells : ∃ tail, sb.data = c.map some ++ tail ∧ c.length + tail.length = sb.cap + 1

/-- A NUL follows the text. -/
def Terminated (sb : SB) : Prop := sb.data[sb.len]? = some (some 0)

theorem write_split {a m r : List (Option UInt8)} {bs : Bytes} {i : Nat} (hi : i = a.length) (h : m.length = bs.length) :
    write (a ++ (m ++ r)) i bs = .ok (a ++ (bs.map some ++ r)) := by
  subst hi
  unfold write
  rw [if_pos (by simp; omega)]
  rw [List.take_left' rfl, ← List.drop_drop, List.drop_left' rfl, List.drop_left' h, List.append_assoc]

theorem source_ok {s : Bytes} {n : Nat} (h : n ≤ s.length) : source s n = .ok (s.take n) := if_pos h

theorem readN_split (bs : Bytes) : ∀ (a r : List (Option UInt8)) (i : Nat), i = a.length →
    readN (a ++ (bs.map some ++ r)) i bs.length = .ok bs := by
  induction bs with
  | nil => intros; rfl
  | cons b bs ih =>
    intro a r i hi
    subst hi
    have h1 : (a ++ (List.map some (b :: bs) ++ r))[a.length]? = some (some b) := by simp
    have h2 := ih (a ++ [some b]) r (a.length + 1) (by simp)
    have e : a ++ [some b] ++ (List.map some bs ++ r) = a ++ (List.map some (b :: bs) ++ r) := by simp
    rw [e] at h2
    simp only [readN, read, h1, Res.ok_bind, List.length_cons, h2]

theorem Holds.readAll {sb : SB} {c : Bytes} (h : Holds sb c) : readN sb.data 0 sb.len = .ok c := by
  obtain ⟨t, ht, _⟩ := h.cells
  rw [h.len, ht]; exact readN_split c [] t 0 rfl

theorem Holds.readAt {sb : SB} {a r : Bytes} {x : UInt8} (h : Holds sb (a ++ x :: r)) : read sb.data a.length = .ok x := by
  obtain ⟨t, ht, _⟩ := h.cells
  have : sb.data[a.length]? = some (some x) := by rw [ht]; simp
  simp [read, this]

theorem Holds.mk' {cap : Nat} {c : Bytes} {tail : List (Option UInt8)} {n : Nat} (hn : n = c.length) (hl : c.length ≤ cap)
    (ht : c.length + tail.length = cap + 1) : Holds ⟨cap, n, c.map some ++ tail⟩ c :=
  ⟨hn, by rw [hn]; exact hl, tail, rfl, ht⟩

theorem term_mk {cap : Nat} {c : Bytes} {tail : List (Option UInt8)} {n : Nat} (hn : n = c.length) :
    Terminated ⟨cap, n, c.map some ++ (some 0 :: tail)⟩ := by
  subst hn; simp [Terminated]

theorem makeLength_holds (s : Bytes) (n : Nat) (h : n ≤ s.length) :
    ∃ sb, makeLength (some s) n = .ok sb ∧ Holds sb (s.take n) ∧ Terminated sb := by
  unfold makeLength
  by_cases hn : n = 0
  · subst hn
    exact ⟨⟨0, 0, [some 0]⟩, by simp [write], ⟨by simp, by simp, [some 0], by simp, by simp⟩, by simp [Terminated]⟩
  · have hl : (s.take n).length = n := by simp; omega
    simp only [ne_eq, hn, not_false_iff, if_true, source_ok h, Res.ok_bind]
    have e : (List.replicate (n+1) none : List (Option UInt8)) = [] ++ (List.replicate n none ++ [none]) := by
      simp [List.replicate_succ']
    rw [e, write_split (by simp) (by simp; omega)]
    simp only [Res.ok_bind, List.nil_append]
    have := write_split (a := (s.take n).map some) (m := [none]) (r := []) (bs := [0]) (i := n) (by simp; omega) rfl
    simp only [List.append_nil] at this
    rw [this]
    simp only [Res.ok_bind]
    exact ⟨_, rfl, Holds.mk' hl.symm (by omega) (by simp; omega), term_mk hl.symm⟩

theorem makeSpaceFor_spec {sb : SB} {c : Bytes} (h : Holds sb c) (n : Nat) :
    ∃ sb', makeSpaceFor sb n = .ok sb' ∧ Holds sb' c ∧ sb.len + n ≤ sb'.cap ∧ sb'.len = sb.len := by
  unfold makeSpaceFor
  have hl := h.len; have hc := h.cap
  obtain ⟨t, ht, hts⟩ := h.cells
  by_cases ha : sb.availSpace ≥ n
  · refine ⟨sb, by simp [ha], h, ?_, rfl⟩
    unfold availSpace at ha; omega
  · simp only [ha, if_false]
    have hdl : sb.data.length = sb.cap + 1 := by rw [ht]; simp; omega
    rw [if_pos (by omega)]
    have : sb.data.take (sb.len + 1) = c.map some ++ t.take 1 := by
      rw [ht, List.take_append, List.take_of_length_le (by simp; omega)]; simp [hl]
    have htl : (t.take 1).length = 1 := by simp; omega
    refine ⟨_, rfl, ⟨hl, by simp [growFormula]; omega, t.take 1 ++ List.replicate (growFormula (sb.len + n) - sb.len) none, ?_, ?_⟩, ?_, rfl⟩
    · show sb.data.take (sb.len + 1) ++ _ = _
      rw [this, List.append_assoc]
    · rw [List.length_append, htl]; simp [growFormula]; omega
    · simp [growFormula]; omega

theorem split_at_len {α : Type} (t : List α) (n : Nat) (h : n < t.length) :
    ∃ m x r, t = m ++ (x :: r) ∧ m.length = n :=
  ⟨t.take n, t[n], t.drop (n+1), by rw [← List.drop_eq_getElem_cons h, List.take_append_drop], by simp; omega⟩

theorem appendLen_holds {sb : SB} {c : Bytes} (h : Holds sb c) (s : Bytes) (n : Nat) (hn : n ≤ s.length) :
    ∃ sb', appendLen sb (some s) n = .ok (true, sb') ∧ Holds sb' (c ++ s.take n) ∧ Terminated sb' := by
  obtain ⟨sb1, e1, h1, hcap, hlen⟩ := makeSpaceFor_spec h n
  have hl := h.len
  obtain ⟨t, ht, hts⟩ := h1.cells
  have htl : (s.take n).length = n := by simp; omega
  obtain ⟨m, x, r, hm, hml⟩ := split_at_len t n (by omega)
  unfold appendLen
  simp only [e1, Res.ok_bind, source_ok hn]
  rw [ht, hm, write_split (by simp; omega) (by omega)]
  simp only [Res.ok_bind]
  have e2 : c.map some ++ ((s.take n).map some ++ x :: r) = (c ++ s.take n).map some ++ ([x] ++ r) := by simp
  rw [e2, write_split (by simp; omega) rfl]
  simp only [Res.ok_bind]
  refine ⟨_, rfl, Holds.mk' (by simp; omega) (by simp; omega) ?_, term_mk (by simp; omega)⟩
  have : t.length = n + 1 + r.length := by rw [hm]; simp; omega
  rw [List.length_append, htl]; simp; omega

theorem appendChar_holds {sb : SB} {c : Bytes} (h : Holds sb c) (x : UInt8) :
    ∃ sb', appendChar sb x = .ok (true, sb') ∧ Holds sb' (c ++ [x]) ∧ Terminated sb' :=
  appendLen_holds h [x] 1 (by simp)

theorem appendStr_holds {sb : SB} {c : Bytes} (h : Holds sb c) (s : Bytes) :
    ∃ sb', appendStr sb s = .ok (true, sb') ∧ Holds sb' (c ++ s) ∧ Terminated sb' := by
  have := appendLen_holds h s s.length (Nat.le_refl _)
  rw [List.take_length] at this
  exact this

theorem appendCStr_holds {sb : SB} {c : Bytes} (h : Holds sb c) (s rest : Bytes) (h0 : (0 : UInt8) ∉ s) :
    ∃ sb', appendCStr sb (s ++ 0 :: rest) = .ok (true, sb') ∧ Holds sb' (c ++ s) ∧ Terminated sb' := by
  have := appendLen_holds h (s ++ 0 :: rest) s.length (by simp)
  rw [List.take_left' rfl] at this
  unfold appendCStr
  rw [CStr.len_spec s rest h0]
  exact this

theorem appendString_holds {sb other : SB} {c d : Bytes} (h : Holds sb c) (ho : Holds other d) :
    ∃ sb', appendString sb other = .ok (true, sb') ∧ Holds sb' (c ++ d) ∧ Terminated sb' := by
  unfold appendString
  rw [ho.readAll, Res.ok_bind, ho.len]
  exact appendStr_holds h d

theorem clear_holds {sb : SB} {c : Bytes} (h : Holds sb c) : Holds sb.clear [] := by
  obtain ⟨t, ht, hts⟩ := h.cells
  exact ⟨rfl, Nat.zero_le _, c.map some ++ t, by simpa [clear] using ht, by simpa [clear] using hts⟩

theorem duplicate_holds {sb : SB} {c : Bytes} (h : Holds sb c) :
    ∃ sb', duplicate sb = .ok sb' ∧ Holds sb' c ∧ Terminated sb' := by
  unfold duplicate
  rw [h.readAll, Res.ok_bind, h.len]
  have := makeLength_holds c c.length (Nat.le_refl _)
  rw [List.take_length] at this
  exact this

/-! ## Trim -/

/-- The characters `strbuilder_trim` cuts. -/
def cuts (cut : Bytes) (c : UInt8) : Bool := decide (c ∈ cut) || c == 0

theorem occ_isSome (cut rest : Bytes) (h0 : (0 : UInt8) ∉ cut) (c : UInt8) :
    ∃ o, CStr.charFirstOccurence (cut ++ 0 :: rest) c = .ok o ∧ o.isSome = cuts cut c := by
  refine ⟨_, CStr.C39_first_occurence cut rest c h0, ?_⟩
  unfold cuts
  by_cases h : c ∈ cut ∨ c = 0
  · rw [if_pos h]; simp; exact h
  · rw [if_neg h]; simp only [not_or] at h; simp [h.1, h.2]

theorem trimStart_spec {sb : SB} (cut rest : Bytes) (h0 : (0 : UInt8) ∉ cut) : ∀ (c a : Bytes), Holds sb (a ++ c) →
    trimStart sb.data (cut ++ 0 :: rest) c.length a.length = .ok (a.length + (c.takeWhile (cuts cut)).length) := by
  intro c
  induction c with
  | nil => intro a _; simp [trimStart]
  | cons x c ih =>
    intro a h
    obtain ⟨o, ho, hs⟩ := occ_isSome cut rest h0 x
    simp only [List.length_cons, trimStart, h.readAt, Res.ok_bind, ho, hs, List.takeWhile_cons]
    by_cases hx : cuts cut x = true
    · simp only [hx, if_true]
      have h2 : Holds sb ((a ++ [x]) ++ c) := by simpa using h
      have := ih (a ++ [x]) h2
      simp at this
      rw [this]; simp; omega
    · simp [hx]

theorem trimEnd_spec {sb : SB} (cut rest : Bytes) (h0 : (0 : UInt8) ∉ cut) : ∀ (k : Nat) (a c r : Bytes) (y : UInt8),
    k = c.length → Holds sb (a ++ y :: c ++ r) → cuts cut y = false →
    trimEnd sb.data (cut ++ 0 :: rest) k (a.length + 1 + c.length) =
      .ok (a.length + (((y :: c).reverse.dropWhile (cuts cut)).length)) := by
  intro k
  induction k with
  | zero =>
    intro a c r y hk h hy
    have : c = [] := List.eq_nil_of_length_eq_zero hk.symm
    subst this
    simp [trimEnd, hy]
  | succ k ih =>
    intro a c r y hk h hy
    rcases CStr.snoc_cases c with hc | ⟨ci, z, hc⟩
    · subst hc; simp at hk
    · subst hc
      obtain ⟨o, ho, hs⟩ := occ_isSome cut rest h0 z
      have hr : read sb.data (a.length + 1 + (ci ++ [z]).length - 1) = .ok z := by
        have h2 : Holds sb ((a ++ y :: ci) ++ z :: r) := by simpa using h
        have := h2.readAt
        have e : (a ++ y :: ci).length = a.length + 1 + (ci ++ [z]).length - 1 := by simp; omega
        rw [e] at this; exact this
      simp only [trimEnd, hr, Res.ok_bind, ho, hs]
      have hrev : (y :: (ci ++ [z])).reverse = z :: (y :: ci).reverse := by simp
      rw [hrev, List.dropWhile_cons]
      by_cases hz : cuts cut z = true
      · simp only [hz, if_true]
        have h2 : Holds sb (a ++ y :: ci ++ z :: r) := by simpa using h
        have := ih a ci (z :: r) y (by simp at hk; omega) h2 hy
        have e : a.length + 1 + (ci ++ [z]).length - 1 = a.length + 1 + ci.length := by simp
        rw [e]; exact this
      · simp [hz]; omega

/-- Both ends trimmed. -/
def trimmed (p : UInt8 → Bool) (c : Bytes) : Bytes := (((c.dropWhile p).reverse).dropWhile p).reverse

theorem Holds.move {sb : SB} {a b r : Bytes} (h : Holds sb (a ++ b ++ r)) {n : Nat} (hn : n = b.length) (hi : i = a.length) :
    ∃ d, readN sb.data i n = .ok b ∧ write sb.data 0 b = .ok d ∧
      ∃ d', write d n [0] = .ok d' ∧ Holds ⟨sb.cap, n, d'⟩ b ∧ Terminated ⟨sb.cap, n, d'⟩ := by
  subst hn; subst hi
  obtain ⟨t, ht, hts⟩ := h.cells
  have hl := h.len; have hc := h.cap
  have e1 : sb.data = a.map some ++ (b.map some ++ (r.map some ++ t)) := by rw [ht]; simp
  have hrd : readN sb.data a.length b.length = .ok b := by
    rw [e1]; exact readN_split b (a.map some) _ _ (by simp)
  have hdl : sb.data.length = sb.cap + 1 := by rw [ht]; simp at hts ⊢; omega
  have hbl : b.length < sb.data.length := by simp at hl; omega
  obtain ⟨m, x, q, hm, hml⟩ := split_at_len sb.data b.length hbl
  have hw : write sb.data 0 b = .ok (b.map some ++ (x :: q)) := by
    rw [hm]; exact write_split (a := []) rfl hml
  refine ⟨_, hrd, hw, _, write_split (m := [x]) (by simp) rfl, ?_, ?_⟩
  · refine Holds.mk' rfl (by simp at hl; omega) ?_
    have : sb.data.length = b.length + 1 + q.length := by rw [hm]; simp; omega
    simp; omega
  · exact term_mk rfl

theorem trim_holds {sb : SB} {c : Bytes} (h : Holds sb c) (cut rest : Bytes) (h0 : (0 : UInt8) ∉ cut) :
    ∃ sb', trim sb (cut ++ 0 :: rest) = .ok sb' ∧ Holds sb' (trimmed (cuts cut) c) ∧ Terminated sb' := by
  unfold trim
  have hs := trimStart_spec (sb := sb) cut rest h0 c [] (by simpa using h)
  simp only [List.length_nil, Nat.zero_add] at hs
  rw [h.len, hs]
  simp only [Res.ok_bind]
  have hsplit : c = c.takeWhile (cuts cut) ++ c.dropWhile (cuts cut) := List.takeWhile_append_dropWhile.symm
  cases hdw : c.dropWhile (cuts cut) with
  | nil =>
    have hall : (c.takeWhile (cuts cut)).length = c.length := by
      have := congrArg List.length hsplit
      rw [hdw] at this; simp at this; omega
    have hk : c.length - 1 - c.length = 0 := by omega
    rw [hall, hk]
    simp only [trimEnd, Res.ok_bind, ge_iff_le, Nat.le_refl, if_true]
    have h2 : Holds sb (c ++ [] ++ []) := by simpa using h
    obtain ⟨d, hr, hw, d', hw', hh, ht⟩ := h2.move (n := 0) rfl rfl
    rw [hr]; simp only [Res.ok_bind]; rw [hw]; simp only [Res.ok_bind]; rw [hw']
    exact ⟨_, rfl, by simpa [trimmed, hdw] using hh, ht⟩
  | cons y m =>
    have hy : cuts cut y = false := by
      have := List.head_dropWhile_not (p := cuts cut) (l := c) (by rw [hdw]; simp)
      simpa [hdw] using this
    generalize ha : c.takeWhile (cuts cut) = a at *
    have hc : c = a ++ y :: m := by rw [hsplit, hdw]
    have hlen : c.length - 1 - a.length = m.length := by rw [hc, List.length_append, List.length_cons]; omega
    have hlen2 : c.length = a.length + 1 + m.length := by rw [hc, List.length_append, List.length_cons]; omega
    have he := trimEnd_spec (sb := sb) cut rest h0 m.length a m [] y rfl (by rw [List.append_nil, ← hc]; exact h) hy
    rw [hlen, hlen2, he]
    simp only [Res.ok_bind]
    have hbl : (y :: m).reverse.dropWhile (cuts cut) ≠ [] := by
      intro hn
      have hmem : y ∈ (y :: m).reverse := by simp
      have h1 := List.takeWhile_append_dropWhile (p := cuts cut) (l := (y :: m).reverse)
      rw [hn, List.append_nil] at h1
      rw [← h1] at hmem
      have := List.all_eq_true.mp (List.all_takeWhile (p := cuts cut)) y hmem
      rw [hy] at this; simp at this
    have hpos : 0 < ((y :: m).reverse.dropWhile (cuts cut)).length := List.length_pos_iff.mpr hbl
    rw [if_neg (by omega)]
    have hsub : a.length + ((y :: m).reverse.dropWhile (cuts cut)).length - a.length
        = ((y :: m).reverse.dropWhile (cuts cut)).reverse.length := by rw [List.length_reverse]; omega
    rw [hsub]
    -- split the text
    have hrev : (y :: m) = ((y :: m).reverse.dropWhile (cuts cut)).reverse ++ ((y :: m).reverse.takeWhile (cuts cut)).reverse := by
      rw [← List.reverse_append, List.takeWhile_append_dropWhile, List.reverse_reverse]
    have h2 : Holds sb (a ++ ((y :: m).reverse.dropWhile (cuts cut)).reverse ++
        ((y :: m).reverse.takeWhile (cuts cut)).reverse) := by
      rw [List.append_assoc, ← hrev, ← hc]; exact h
    obtain ⟨d, hr, hw, d', hw', hh, ht⟩ := h2.move rfl rfl
    rw [hr]; simp only [Res.ok_bind]; rw [hw]; simp only [Res.ok_bind]; rw [hw']
    refine ⟨_, rfl, ?_, ht⟩
    have : trimmed (cuts cut) c = ((y :: m).reverse.dropWhile (cuts cut)).reverse := by unfold trimmed; rw [hdw]
    rw [this]; exact hh

/-! ## strip_space -/

theorem stripLoop_spec : ∀ (s : Bytes) (w : Bytes) (gap t : List (Option UInt8)) (fuel : Nat), (0 : UInt8) ∉ s →
    s.length < fuel →
    stripLoop fuel (w.map some ++ (gap ++ (s.map some ++ (some 0 :: t)))) (w.length + gap.length) w.length =
      .ok ((w ++ s.filter (fun b => !charIsSpace b)).map some ++
            ((gap ++ (s.map some ++ (some 0 :: t))).drop (s.filter (fun b => !charIsSpace b)).length),
          w.length + (s.filter (fun b => !charIsSpace b)).length) := by
  intro s
  induction s with
  | nil =>
    intro w gap t fuel _ hf
    match fuel, hf with
    | fuel+1, _ =>
      have hr : (w.map some ++ (gap ++ (List.map some [] ++ (some 0 :: t))))[w.length + gap.length]? = some (some 0) := by
        rw [← List.append_assoc, List.getElem?_append_right (by simp)]
        simp
      simp only [stripLoop, read, hr, Res.ok_bind, if_true]
      simp
  | cons x s ih =>
    intro w gap t fuel h0 hf
    simp only [List.mem_cons, not_or] at h0
    have hx : ¬ x = 0 := fun e => h0.1 e.symm
    match fuel, hf with
    | fuel+1, hf =>
      simp only [List.length_cons] at hf
      have hr : (w.map some ++ (gap ++ (List.map some (x :: s) ++ (some 0 :: t))))[w.length + gap.length]? = some (some x) := by
        rw [← List.append_assoc, List.getElem?_append_right (by simp)]
        simp
      simp only [stripLoop, read, hr, Res.ok_bind, hx, if_false]
      by_cases hsp : charIsSpace x = true
      · simp only [hsp, if_true]
        have := ih w (gap ++ [some x]) t fuel h0.2 (by omega)
        simp only [List.append_assoc, List.length_append, List.length_cons, List.length_nil, List.cons_append, List.nil_append,
          ← Nat.add_assoc, Nat.zero_add] at this
        simp only [List.map_cons, List.cons_append]
        rw [this]
        simp [hsp]
      · simp only [hsp, Bool.false_eq_true, if_false]
        cases gap with
        | nil =>
          have hw := write_split (a := w.map some) (m := [some x]) (r := s.map some ++ (some 0 :: t)) (bs := [x]) (i := w.length)
            (by simp) rfl
          simp only [List.map_cons, List.cons_append, List.nil_append, List.map_nil] at hw ⊢
          rw [hw]
          simp only [Res.ok_bind]
          have := ih (w ++ [x]) [] t fuel h0.2 (by omega)
          simp only [List.map_append, List.map_cons, List.map_nil, List.append_assoc, List.cons_append, List.nil_append,
            List.length_append, List.length_cons, List.length_nil, Nat.add_zero, Nat.zero_add] at this
          rw [show w.length + ([] : List (Option UInt8)).length + 1 = w.length + 1 by simp, this]
          simp [hsp, Nat.add_assoc, Nat.add_comm 1]
        | cons g gap =>
          have hw := write_split (a := w.map some) (m := [g]) (r := gap ++ (some x :: (s.map some ++ (some 0 :: t)))) (bs := [x])
            (i := w.length) (by simp) rfl
          simp only [List.map_cons, List.cons_append, List.nil_append, List.map_nil] at hw ⊢
          rw [hw]
          simp only [Res.ok_bind]
          have := ih (w ++ [x]) (gap ++ [some x]) t fuel h0.2 (by omega)
          simp only [List.map_append, List.map_cons, List.map_nil, List.append_assoc, List.cons_append, List.nil_append,
            List.length_append, List.length_cons, List.length_nil, Nat.zero_add] at this
          rw [show w.length + (g :: gap).length + 1 = w.length + 1 + (gap.length + 1) by simp; omega, this]
          simp [hsp, Nat.add_assoc, Nat.add_comm 1]

theorem stripSpace_holds {sb : SB} {c : Bytes} (h : Holds sb c) (ht : Terminated sb) (h0 : (0 : UInt8) ∉ c) :
    ∃ sb', stripSpace sb = .ok sb' ∧ Holds sb' (c.filter fun b => !charIsSpace b) ∧ Terminated sb' := by
  obtain ⟨t, hd, hts⟩ := h.cells
  have hl := h.len; have hc := h.cap
  have : ∃ t', t = some 0 :: t' := by
    unfold Terminated at ht
    rw [hd, hl, List.getElem?_append_right (by simp)] at ht
    simp at ht
    cases t with
    | nil => simp at ht
    | cons a t => simp at ht; exact ⟨t, by rw [ht]⟩
  obtain ⟨t', rfl⟩ := this
  have hdl : sb.data.length = sb.cap + 1 := by rw [hd]; simp at hts ⊢; omega
  have hs := stripLoop_spec c [] [] t' sb.data.length h0 (by omega)
  simp only [List.map_nil, List.nil_append, List.length_nil, Nat.add_zero, Nat.zero_add] at hs
  unfold stripSpace
  rw [hdl] at hs ⊢
  rw [hd, hs]
  simp only [Res.ok_bind]
  have hfl : (c.filter fun b => !charIsSpace b).length ≤ c.length := List.length_filter_le _ _
  obtain ⟨x, q, hq⟩ : ∃ x q, (c.map some ++ (some 0 :: t')).drop (c.filter fun b => !charIsSpace b).length = x :: q := by
    have hlt : (c.filter fun b => !charIsSpace b).length < (c.map some ++ (some 0 :: t')).length := by simp; omega
    exact ⟨_, _, List.drop_eq_getElem_cons hlt⟩
  rw [hq]
  have := write_split (a := (c.filter fun b => !charIsSpace b).map some) (m := [x]) (r := q) (bs := [0])
    (i := (c.filter fun b => !charIsSpace b).length) (by simp) rfl
  simp only [List.cons_append, List.nil_append] at this
  rw [this]
  refine ⟨_, rfl, Holds.mk' rfl (by omega) ?_, term_mk rfl⟩
  have := congrArg List.length hq
  simp at this hts
  simp; omega

end Verif.SB
