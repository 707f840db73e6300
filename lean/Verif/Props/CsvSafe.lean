import Verif.Props.CsvTable
/-!
# C37: parsing comma-separated values is safe and ends, for every text; quotes that are not closed; examples
-/
namespace Verif.Csv
open Verif.CStr

/-- A buffer with a NUL at its end. -/
def Ended (b : Bytes) : Prop := ∃ a, b = a ++ [0]

theorem Ended.drop {b : Bytes} {n : Nat} (h : Ended b) (hn : n < b.length) : Ended (b.drop n) := by
  obtain ⟨a, rfl⟩ := h
  simp at hn
  exact ⟨a.drop n, by rw [List.drop_append_of_le_length (by omega)]⟩

theorem at_lt {b : Bytes} {i : Nat} (h : i < b.length) : at_ b i = .ok b[i] := by
  unfold at_
  rw [List.getElem?_eq_getElem h]
  rfl

theorem Ended.next {b : Bytes} {i : Nat} (h : Ended b) (hi : i < b.length) (h0 : b[i] ≠ 0) : i + 1 < b.length := by
  obtain ⟨a, rfl⟩ := h
  rcases Nat.lt_or_ge (i + 1) (a ++ [0]).length with h | h
  · exact h
  · simp at hi h
    have : i = a.length := by omega
    subst this
    simp at h0

theorem Ended.pos {b : Bytes} (h : Ended b) : 0 < b.length := by
  obtain ⟨a, rfl⟩ := h
  simp

theorem skip_ok {b : Bytes} (h : Ended b) (c : UInt8) : ∃ n, skip b c = .ok n ∧ n < b.length := by
  obtain ⟨a, rfl⟩ := h
  induction a with
  | nil => exact ⟨0, by simp [skip], by simp⟩
  | cons d a ih =>
    obtain ⟨n, h1, h2⟩ := ih
    show ∃ n, skip (d :: (a ++ [0])) c = .ok n ∧ _
    unfold skip
    split
    · exact ⟨n + 1, by rw [h1]; rfl, by simp at h2 ⊢; omega⟩
    · exact ⟨0, rfl, by simp⟩

theorem len_ok {b : Bytes} (h : Ended b) : ∃ n, CStr.len b = .ok n ∧ n < b.length := by
  obtain ⟨a, rfl⟩ := h
  induction a with
  | nil => exact ⟨0, by simp [CStr.len], by simp⟩
  | cons d a ih =>
    obtain ⟨n, h1, h2⟩ := ih
    show ∃ n, CStr.len (d :: (a ++ [0])) = .ok n ∧ _
    unfold CStr.len
    split
    · exact ⟨0, rfl, by simp⟩
    · exact ⟨n + 1, by rw [h1]; rfl, by simp at h2 ⊢; omega⟩

/-- Where it stops, it is not at white space (except at a newline that it was told to stop at). -/
theorem trim_ok {b : Bytes} (h : Ended b) (nl : Bool) :
    ∃ n, trim b nl = .ok n ∧ ∃ hn : n < b.length, charIsSpace b[n] = true → nl = true := by
  obtain ⟨a, rfl⟩ := h
  induction a with
  | nil => exact ⟨0, by simp [trim], by simp, by intro h; exact absurd h (by decide)⟩
  | cons d a ih =>
    obtain ⟨n, h1, h2, h3⟩ := ih
    show ∃ n, trim (d :: (a ++ [0])) nl = .ok n ∧ _
    unfold trim
    split
    · exact ⟨n + 1, by rw [h1]; rfl, by simp at h2 ⊢; omega, h3⟩
    · rename_i hc
      refine ⟨0, rfl, by simp, fun hs => ?_⟩
      cases nl with
      | true => rfl
      | false => exact absurd ⟨by rintro rfl; exact absurd (show charIsSpace 0 = true from hs) (by decide), hs, .inl (by simp)⟩ hc

theorem quoteEnd_ok {b : Bytes} (h : Ended b) : ∀ (fuel e : Nat), e < b.length → b.length - e < fuel → ∃ e', quoteEnd b fuel e = .ok e' ∧ e' < b.length
  | 0, _, _, hf => absurd hf (by omega)
  | fuel + 1, e, he, hf => by
    unfold quoteEnd
    obtain ⟨n, h1, h2⟩ := skip_ok (h.drop he) 34
    simp at h2
    rw [h1, Res.ok_bind]
    simp only []
    rw [at_lt (show e + n < b.length by omega), Res.ok_bind]
    split
    · exact ⟨_, rfl, by omega⟩
    · rename_i h0
      have h3 := h.next (by omega) h0
      rw [at_lt h3, Res.ok_bind]
      split
      · rename_i hq
        have h4 := h.next h3 (by rw [hq]; decide)
        rw [at_lt h4, Res.ok_bind]
        split
        · exact ⟨_, rfl, h4⟩
        · exact quoteEnd_ok h fuel (e + n + 2) h4 (by omega)
      · exact ⟨_, rfl, by omega⟩

theorem closeUp_ok {b : Bytes} (h : Ended b) {p : Nat} (hp : p < b.length) (h0 : b[p] ≠ 0) :
    ∃ b', closeUp b p = .ok b' ∧ Ended b' ∧ b'.length = b.length := by
  unfold closeUp
  have hd := h.drop hp
  obtain ⟨n, h1, h2⟩ := len_ok hd
  have hpos : 0 < n := by
    cases n with
    | succ n => omega
    | zero =>
      rw [List.drop_eq_getElem_cons hp] at h1
      unfold CStr.len at h1
      rw [if_neg h0] at h1
      cases hl : CStr.len (b.drop (p + 1)) <;> rw [hl] at h1 <;> cases h1
  simp at h2
  rw [h1, Res.ok_bind, if_pos (by omega)]
  refine ⟨_, rfl, ?_, ?_⟩
  · obtain ⟨a, ha⟩ := h.drop (n := p + n) (by omega)
    exact ⟨b.take p ++ (b.drop (p + 1)).take n ++ a, by rw [ha]; simp⟩
  · simp only [List.length_append, List.length_take, List.length_drop]
    omega

theorem unescape_ok : ∀ (fuel : Nat) {b : Bytes} (p : Nat), Ended b → p + 1 < b.length → b.length - p < fuel →
    ∃ b', unescape fuel b p = .ok b' ∧ Ended b' ∧ b'.length = b.length
  | 0, _, _, _, _, hf => absurd hf (by omega)
  | fuel + 1, b, p, h, hp, hf => by
    unfold unescape
    rw [at_lt (show p < b.length by omega), Res.ok_bind]
    have step : ∀ b' : Bytes, Ended b' → b'.length = b.length → ∃ b'', ((at_ b' (p + 1)).bind fun c =>
        if c = 0 then .ok b' else unescape fuel b' (p + 1)) = .ok b'' ∧ Ended b'' ∧ b''.length = b.length := by
      intro b' hb hl
      rw [at_lt (show p + 1 < b'.length by omega), Res.ok_bind]
      split
      · exact ⟨_, rfl, hb, hl⟩
      · rename_i hne
        have := hb.next (i := p + 1) (by omega) hne
        obtain ⟨b'', h1, h2, h3⟩ := unescape_ok fuel (p + 1) hb this (by omega)
        exact ⟨b'', h1, h2, by omega⟩
    by_cases hc : b[p] = 34
    · rw [if_pos hc, at_lt hp, Res.ok_bind, Res.ok_bind]
      by_cases hd : b[p + 1] = 34
      · obtain ⟨b', h1, h2, h3⟩ := closeUp_ok h (p := p) (by omega) (by rw [hc]; decide)
        rw [if_pos (by simp [hd]), h1, Res.ok_bind]
        exact step b' h2 h3
      · rw [if_neg (by simp [hd]), Res.ok_bind]
        exact step b h rfl
    · rw [if_neg hc, Res.ok_bind, if_neg (by simp), Res.ok_bind]
      exact step b h rfl

/-- What a cell is read into. -/
def GoodCell (b : Bytes) (x : Cell) : Prop :=
  Ended x.rest ∧ x.rest.length < b.length + 1 ∧ (x.delimiter ≠ 0 → 1 < x.rest.length)

theorem Ended.put {b : Bytes} (h : Ended b) {e : Nat} : Ended (b.set e 0) := by
  obtain ⟨a, rfl⟩ := h
  rcases Nat.lt_trichotomy e a.length with he | he | he
  · exact ⟨a.set e 0, by rw [List.set_append_left _ _ he]⟩
  · subst he; exact ⟨a, by simp⟩
  · exact ⟨a, by rw [List.set_eq_of_length_le (by simp; omega)]⟩

theorem quoted_ok {b : Bytes} (h : Ended b) : ∃ o, quoted b = .ok o ∧ ∀ x, o = some x → GoodCell b x := by
  unfold quoted
  obtain ⟨e, h1, h2⟩ := quoteEnd_ok h (b.length + 1) 0 h.pos (by omega)
  rw [h1, Res.ok_bind, at_lt h2, Res.ok_bind]
  split
  · exact ⟨none, rfl, fun x hx => by cases hx⟩
  · rename_i h0
    have h3 := h.next h2 h0
    unfold put
    rw [if_pos h2, Res.ok_bind]
    have hb := h.put (e := e)
    have hl : (b.set e 0).length = b.length := by simp
    obtain ⟨n, h4, h5, _⟩ := trim_ok (hb.drop (n := e + 1) (by omega)) true
    simp at h5
    rw [h4, Res.ok_bind]
    simp only []
    rw [at_lt (show e + 1 + n < (b.set e 0).length by omega), Res.ok_bind]
    obtain ⟨b', h6, h7, h8⟩ := unescape_ok ((b.set e 0).length + 1) 0 hb (by omega) (by omega)
    rw [h6, Res.ok_bind]
    obtain ⟨l, h9, _⟩ := len_ok h7
    rw [h9, Res.ok_bind]
    refine ⟨_, rfl, fun x hx => ?_⟩
    cases hx
    refine ⟨h7.drop (by omega), by simp; omega, fun hx => ?_⟩
    have := hb.next (i := e + 1 + n) (by omega) hx
    simp
    omega

theorem plainEnd_ok {delim : UInt8} {b : Bytes} (h : Ended b) : ∀ (fuel e : Nat), e + 1 < b.length → b.length - e < fuel + 1 →
    ∃ e', plainEnd delim b fuel e = .ok e' ∧ e' < b.length ∧ 0 < e'
  | 0, e, he, hf => absurd hf (by omega)
  | fuel + 1, e, he, hf => by
    unfold plainEnd
    rw [at_lt he, Res.ok_bind]
    split
    · rename_i hc
      exact plainEnd_ok h fuel (e + 1) (h.next he hc.1) (by omega)
    · exact ⟨_, rfl, he, by omega⟩

theorem backUp_ok {b : Bytes} (hb : 0 < b.length) (h : charIsSpace b[0] = false) : ∀ e, 0 < e → e < b.length → ∃ l, backUp b e = .ok l ∧ l ≤ e
  | 0, he, _ => absurd he (by omega)
  | e + 1, _, hl => by
    unfold backUp
    rw [at_lt (show e < b.length by omega), Res.ok_bind]
    split
    · rename_i hs
      cases e with
      | zero => rw [h] at hs; cases hs
      | succ e =>
        obtain ⟨l, h1, h2⟩ := backUp_ok hb h (e + 1) (by omega) (by omega)
        exact ⟨l, h1, by omega⟩
    · exact ⟨_, rfl, by omega⟩

theorem plain_ok {delim : UInt8} {b : Bytes} (h : Ended b) (hp : 0 < b.length) (h0 : b[0] ≠ 0) (hs : charIsSpace b[0] = false) :
    ∃ x, plain delim b = .ok x ∧ GoodCell b x ∧ x.rest.length < b.length := by
  unfold plain
  obtain ⟨e, h1, h2, h3⟩ := plainEnd_ok (delim := delim) h (b.length + 1) 0 (h.next hp h0) (by omega)
  rw [h1, Res.ok_bind, at_lt h2, Res.ok_bind]
  split
  · refine ⟨_, rfl, ⟨h.drop h2, by simp; omega, fun hx => absurd rfl hx⟩, by simp; omega⟩
  · obtain ⟨n, h4, h5, _⟩ := trim_ok (h.drop h2) true
    simp at h5
    obtain ⟨l, h6, h7⟩ := backUp_ok hp hs e h3 h2
    rw [h4, Res.ok_bind, h6, Res.ok_bind, at_lt (show e + n < b.length by omega), Res.ok_bind]
    unfold put
    rw [if_pos (by omega), Res.ok_bind]
    have hb := h.put (e := l)
    obtain ⟨t, h8, _⟩ := len_ok hb
    rw [h8, Res.ok_bind]
    refine ⟨_, rfl, ⟨hb.drop (by simp; omega), by simp; omega, fun hx => ?_⟩, by simp; omega⟩
    have := h.next (i := e + n) (by omega) hx
    simp
    omega

theorem cell_ok {delim : UInt8} {b : Bytes} (h : Ended b) (hp : 0 < b.length) (h0 : b[0] ≠ 0) (hs : charIsSpace b[0] = false) :
    ∃ o, cell delim b = .ok o ∧ ∀ x, o = some x → Ended x.rest ∧ (x.delimiter ≠ 0 → 1 < x.rest.length) ∧
      (x.rest.length < b.length ∨ (x.delimiter = delim ∧ x.rest = b)) := by
  have hn := h.next hp h0
  unfold cell
  rw [at_lt hp, Res.ok_bind]
  split
  · obtain ⟨o, h1, h2⟩ := quoted_ok (h.drop (n := 1) (by omega))
    refine ⟨o, h1, fun x hx => ?_⟩
    obtain ⟨h3, h4, h5⟩ := h2 x hx
    simp at h4
    exact ⟨h3, h5, .inl (by omega)⟩
  · split
    · rename_i hd
      refine ⟨_, rfl, fun x hx => ?_⟩
      cases hx
      exact ⟨h, fun _ => hn, .inr ⟨hd, rfl⟩⟩
    · obtain ⟨x, h1, h2, h3⟩ := plain_ok (delim := delim) h hp h0 hs
      rw [h1, Res.ok_bind]
      refine ⟨_, rfl, fun y hy => ?_⟩
      cases hy
      exact ⟨h2.1, h2.2.2, .inl h3⟩

theorem advance_ok {delim : UInt8} (hd : delim ≠ 0) {s : State} {x : Cell} {n : Nat} (h : Ended x.rest) (hx : x.delimiter ≠ 0 → 1 < x.rest.length)
    (hn : x.rest.length < n ∨ (x.delimiter = delim ∧ x.rest.length = n)) :
    ∃ o, advance delim s x = .ok o ∧ ∀ s', o = some s' → Ended s'.rest ∧ s'.rest.length < n := by
  have hpos := h.pos
  unfold advance
  simp only []
  split
  · rename_i hxd
    have := hx (by rw [hxd]; exact hd)
    refine ⟨_, rfl, fun s' hs => ?_⟩
    cases hs
    refine ⟨h.drop this, ?_⟩
    simp only [List.length_drop]
    omega
  · rename_i hxd
    have hn' : x.rest.length < n := hn.resolve_right fun h => hxd h.1
    split
    · split
      · refine ⟨_, rfl, fun s' hs => ?_⟩
        cases hs
        by_cases h0 : x.delimiter = 0
        · simp only [h0, ne_eq, not_true_eq_false, if_false]
          exact ⟨h, hn'⟩
        · have := hx h0
          simp only [ne_eq, h0, not_false_eq_true, if_true]
          refine ⟨h.drop this, ?_⟩
          simp only [List.length_drop]
          omega
      · exact ⟨none, rfl, fun s' hs => by cases hs⟩
    · refine ⟨_, rfl, fun s' hs => ?_⟩
      cases hs
      exact ⟨h, hn'⟩

theorem loop_ok {delim : UInt8} (hd : delim ≠ 0) : ∀ (fuel : Nat) (s : State), Ended s.rest → s.rest.length < fuel → ∃ r, loop delim fuel s = .ok r
  | 0, _, _, hf => absurd hf (by omega)
  | fuel + 1, s, h, hf => by
    obtain ⟨n, h1, h2, h3⟩ := trim_ok h false
    rw [loop.eq_def]
    simp only []
    rw [h1, Res.ok_bind]
    have hb := h.drop h2
    have hp := hb.pos
    have e : (s.rest.drop n)[0] = s.rest[n] := by simp
    rw [at_lt hp, Res.ok_bind]
    split
    · exact ⟨_, rfl⟩
    · rename_i h0
      have hs : charIsSpace (s.rest.drop n)[0] = false := by
        rw [e]
        cases hsp : charIsSpace s.rest[n] with
        | false => rfl
        | true => exact absurd (h3 hsp) (by simp)
      obtain ⟨o, h4, h5⟩ := cell_ok (delim := delim) hb hp h0 hs
      rw [h4, Res.ok_bind]
      cases o with
      | none => exact ⟨_, rfl⟩
      | some x =>
        obtain ⟨h6, h7, h8⟩ := h5 x rfl
        simp only []
        obtain ⟨o2, h9, h10⟩ := advance_ok (s := s) (n := s.rest.length) hd h6 h7 (by
          rcases h8 with h8 | ⟨h8, h9⟩
          · left
            simp at h8
            omega
          · rw [h9]
            simp only [List.length_drop]
            rcases Nat.eq_zero_or_pos n with h | h
            · right; exact ⟨h8, by omega⟩
            · left; omega)
        rw [h9, Res.ok_bind]
        cases o2 with
        | none => exact ⟨_, rfl⟩
        | some s' =>
          obtain ⟨h11, h12⟩ := h10 s' rfl
          simp only []
          rw [at_lt h11.pos, Res.ok_bind]
          split
          · exact ⟨_, rfl⟩
          · exact loop_ok hd fuel s' h11 (by omega)

/-- **C37**: for every text and every delimiter, parsing stays inside the buffer and ends. -/
theorem C37_safe (text : Bytes) (hh : Bool) (delim : UInt8) (hd : delim ≠ 0) : ∃ r, parse text hh delim = .ok r := by
  unfold parse
  obtain ⟨r, h⟩ := loop_ok hd (text.length + 2) ⟨text ++ [0], [], 0, 0⟩ ⟨text, rfl⟩ (by simp)
  rw [h, Res.ok_bind]
  split
  · exact ⟨_, rfl⟩
  · split <;> exact ⟨_, rfl⟩

/-! ## Quotes that are not closed -/

theorem skip_end {u : Bytes} (h0 : (0 : UInt8) ∉ u) (h : (34 : UInt8) ∉ u) (b : Bytes) : skip (u ++ 0 :: b) 34 = .ok u.length := by
  induction u with
  | nil => rfl
  | cons c u ih =>
    show skip (c :: (u ++ 0 :: b)) 34 = _
    unfold skip
    rw [if_pos ⟨fun e => h0 (by simp [e]), fun e => h (by simp [e])⟩, ih (fun e => h0 (by simp [e])) (fun e => h (by simp [e]))]
    rfl

theorem quoteEnd_open {z : Bytes} : ∀ (n : Nat) {t a : Bytes} {fuel : Nat}, t.length ≤ n → (0 : UInt8) ∉ t → t.length < fuel →
    quoteEnd (a ++ (escape t ++ 0 :: z)) fuel a.length = .ok (a ++ escape t).length := by
  intro n
  induction n with
  | zero =>
    intro t a fuel hn h0 hf
    cases t with
    | cons => simp at hn
    | nil =>
      obtain ⟨fuel, rfl⟩ := Nat.exists_eq_succ_of_ne_zero (Nat.ne_of_gt hf)
      unfold quoteEnd
      rw [List.drop_left, show escape [] ++ 0 :: z = [] ++ 0 :: z from rfl, skip_end (by simp) (by simp), Res.ok_bind]
      simp only [List.nil_append, List.length_nil, Nat.add_zero]
      rw [at_append rfl, Res.ok_bind, if_pos rfl]
      simp [escape]
  | succ n ih =>
    intro t a fuel hn h0 hf
    obtain ⟨fuel, rfl⟩ := Nat.exists_eq_succ_of_ne_zero (Nat.ne_of_gt (Nat.lt_of_le_of_lt (Nat.zero_le _) hf))
    unfold quoteEnd
    rw [List.drop_left]
    rcases first_quote t with hq | ⟨u, v, rfl, hu⟩
    · rw [escape_plain hq, skip_end h0 hq, Res.ok_bind]
      simp only []
      rw [← List.length_append, ← List.append_assoc, at_append rfl, Res.ok_bind, if_pos rfl]
    · have hu0 : (0 : UInt8) ∉ u := fun e => h0 (by simp [e])
      have hv0 : (0 : UInt8) ∉ v := fun e => h0 (by simp [e])
      rw [escape_append, escape_plain hu, escape_quote]
      have e1 : u ++ 34 :: 34 :: escape v ++ 0 :: z = u ++ 34 :: (34 :: (escape v ++ 0 :: z)) := by simp
      rw [e1, skip_to hu0 hu, Res.ok_bind]
      simp only []
      rw [← List.length_append, ← List.append_assoc, at_append rfl, Res.ok_bind, if_neg (by decide),
        show a ++ u ++ 34 :: 34 :: (escape v ++ 0 :: z) = (a ++ u ++ [34]) ++ 34 :: (escape v ++ 0 :: z) by simp, at_append (by simp; omega),
        Res.ok_bind, if_pos rfl]
      have e2 : a ++ u ++ [34] ++ 34 :: (escape v ++ 0 :: z) = (a ++ u ++ [34, 34]) ++ (escape v ++ 0 :: z) := by simp
      have e3 : (a ++ u).length + 2 = (a ++ u ++ [34, 34]).length := by simp; omega
      rw [e2, e3]
      cases hv : escape v with
      | nil =>
        rw [List.nil_append, at_append rfl, Res.ok_bind, if_pos rfl]
        simp
      | cons c w =>
        have h2 : c ≠ 0 := fun e => escape_nul hv0 (by rw [hv, e]; simp)
        rw [List.cons_append, at_append rfl, Res.ok_bind, if_neg h2, ← List.cons_append, ← hv,
          ih (by simp at hn; omega) hv0 (by simp at hf; omega)]
        simp

/-- **C37**: a quote that is not closed is reported. -/
theorem C37_unclosed {delim : UInt8} (hd : Delim delim) (w : Nat) (rows : List Row) (hne : rows ≠ [])
    (h : ∀ r ∈ rows, r.Ok delim ∧ r.texts.length = w) (t : Bytes) (h0 : (0 : UInt8) ∉ t) (hh : Bool) :
    ∃ cols, parse (source delim rows ++ (b!"\"" ++ escape t)) hh delim = .ok (.unexpectedEnd, cols) := by
  obtain ⟨r, rows, rfl⟩ := List.exists_cons_of_ne_nil hne
  have ht := turns_le (delim := delim) fun q hq => (h q hq).1
  unfold parse
  rw [List.append_assoc]
  have e2 : ∃ k, (source delim (r :: rows) ++ (b!"\"" ++ escape t)).length + 2 = k + 1 + turns (r :: rows) := by
    refine ⟨(source delim (r :: rows) ++ (b!"\"" ++ escape t)).length + 1 - turns (r :: rows), ?_⟩
    simp only [List.length_append] at *
    omega
  obtain ⟨k, e2⟩ := e2
  have e3 : b!"\"" ++ escape t ++ [0] = 34 :: (escape t ++ 0 :: []) := by simp
  have hq := quoteEnd_open (z := []) t.length (t := t) (a := []) (fuel := (escape t ++ [0]).length + 1) (Nat.le_refl _) h0
    (by rw [List.length_append, escape_length]; omega)
  simp only [List.nil_append, List.length_nil] at hq
  have hc : cell delim (34 :: (escape t ++ 0 :: [])) = .ok none := by
    unfold cell
    rw [at_zero, Res.ok_bind, if_pos rfl]
    show quoted (escape t ++ [0]) = _
    unfold quoted
    rw [hq, Res.ok_bind, at_append rfl, Res.ok_bind, if_pos rfl]
  rw [e2, loop_table hd (by simp) h, e3, loop.eq_def]
  simp only []
  rw [show trim (34 :: (escape t ++ 0 :: [])) false = .ok 0 from by unfold trim; rw [if_neg]; rintro ⟨_, h, _⟩; exact absurd h (by decide),
    Res.ok_bind, List.drop_zero, at_zero, Res.ok_bind, if_neg (by decide), hc, Res.ok_bind]
  simp only []
  rw [Res.ok_bind, if_pos (by simp)]
  exact ⟨_, rfl⟩

/-! ## Numbers -/

theorem noHex_true : ∀ (t z : Bytes), noHex (t ++ 0 :: z) = .ok true
  | [], z => by unfold noHex; rw [List.nil_append]; rfl
  | c :: t, z => by
    show noHex (c :: (t ++ 0 :: z)) = _
    unfold noHex
    split
    · rfl
    · split
      · exact noHex_true t z
      · rename_i h1 h2
        have : c = 0 := by simpa using h2
        subst this
        exact absurd (by decide) h1

/-- C37: no cell is ever turned into a number, whatever its text. -/
theorem C37_no_numbers (t z : Bytes) (h : (0 : UInt8) ∉ t) : isNumber (t ++ 0 :: z) = .ok false := by
  unfold isNumber
  rw [len_spec _ _ h, Res.ok_bind]
  split
  · rename_i hc
    have : 2 ≤ t.length := by omega
    rw [List.drop_append_of_le_length this, noHex_true]
    rfl
  · rfl

/-! ## Examples -/

/-- `name , "x ""y""" ; 1,,3`: the hypotheses of `C37_table` are met. -/
def demo : List Row :=
  [⟨[⟨[], .bare b!"name", b!" "⟩, ⟨[], .bare b!"", []⟩], ⟨b!" ", .inQuotes b!"x, \"y\"", b!" \t"⟩⟩,
   ⟨[⟨[], .bare b!"1", []⟩, ⟨[], .inQuotes b!"two\nlines", []⟩], ⟨[], .bare b!"3 \"4", []⟩⟩]

instance (b : Bytes) : Decidable (Blank b) := by unfold Blank; infer_instance

theorem bare_of {delim : UInt8} {t : Bytes} (h : (t.all fun c => c != 0 && c != delim && c != 10) = true)
    (h1 : (t.head?.all fun c => !charIsSpace c && c != 34) = true) (h2 : (t.getLast?.all fun c => !charIsSpace c) = true) : Bare delim t := by
  refine ⟨fun c hc => ?_, fun c hc => ?_, fun c hc => ?_⟩
  · have := List.all_eq_true.mp h c hc
    simp at this
    exact ⟨this.1.1, this.1.2, this.2⟩
  · rw [hc] at h1
    simpa using h1
  · rw [hc] at h2
    simpa using h2

theorem C37_demo_ok : Delim 44 ∧ ∀ r ∈ demo, r.Ok 44 ∧ r.texts.length = 3 := by
  refine ⟨⟨by decide, by decide, by decide⟩, ?_⟩
  intro r hr
  simp only [demo, List.mem_cons, List.not_mem_nil, or_false] at hr
  rcases hr with rfl | rfl
  · refine ⟨⟨?_, by decide⟩, rfl⟩
    intro p hp
    simp only [Row.cells, List.mem_append, List.mem_cons, List.not_mem_nil, or_false] at hp
    rcases hp with (rfl | rfl) | rfl
    · exact ⟨by decide, bare_of (by decide) (by decide) (by decide), by decide⟩
    · exact ⟨by decide, bare_of (by decide) (by decide) (by decide), by decide⟩
    · exact ⟨by decide, ⟨by decide, by decide⟩, by decide⟩
  · refine ⟨⟨?_, by decide⟩, rfl⟩
    intro p hp
    simp only [Row.cells, List.mem_append, List.mem_cons, List.not_mem_nil, or_false] at hp
    rcases hp with (rfl | rfl) | rfl
    · exact ⟨by decide, bare_of (by decide) (by decide) (by decide), by decide⟩
    · exact ⟨by decide, ⟨by decide, by decide⟩, by decide⟩
    · exact ⟨by decide, bare_of (by decide) (by decide) (by decide), by decide⟩

example : source 44 demo = b!"name ,, \"x, \"\"y\"\"\" \t\n1,\"two\nlines\",3 \"4\n" := by decide +kernel
example : parse (source 44 demo) true 44 = .ok (.none, [⟨some b!"name", [b!"1"]⟩, ⟨some b!"", [b!"two\nlines"]⟩, ⟨some b!"x, \"y\"", [b!"3 \"4"]⟩]) := by
  decide +kernel

/-! ## What does not hold -/

/-- A row with more cells than the rows before it is accepted: its columns are of different lengths. -/
theorem C37_wider_accepted : parse b!"a\nb,c\n" false 44 = .ok (.none, [⟨none, [b!"a", b!"b"]⟩, ⟨none, [b!"c"]⟩]) := by decide +kernel

/-- An empty cell at the end of a line swallows the newline: the next row becomes part of this one. -/
theorem C37_empty_last_cell : parse b!"a,\nb,c\n" false 44 = .ok (.none, [⟨none, [b!"a"]⟩, ⟨none, [b!"b"]⟩, ⟨none, [b!"c"]⟩]) := by decide +kernel

/-- Unescaping an empty quoted cell runs into the cells behind it: their doubled quotes are closed up, and the text is lost. -/
theorem C37_empty_quoted : parse b!"\"\",\"a\"\"b\"\n" false 44 ≠ .ok (.none, [⟨none, [b!""]⟩, ⟨none, [b!"a\"b"]⟩]) := by decide +kernel

/-- A delimiter that is white space does not separate anything: all the cells of a row go to the first column. -/
theorem C37_tab_delimiter : parse b!"a\tb\nc\td\n" false 9 = .ok (.none, [⟨none, [b!"a", b!"b", b!"c", b!"d"]⟩]) := by decide +kernel

/-- White space behind a cell at the end of the text is kept. -/
theorem C37_not_trimmed_at_end : parse b!"a \nb " false 44 = .ok (.none, [⟨none, [b!"a", b!"b "]⟩]) := by decide +kernel

/-- Text behind a quoted cell becomes another cell of the same column. -/
theorem C37_after_quote : parse b!"\"a\"b,c\n" false 44 = .ok (.none, [⟨none, [b!"a", b!"b"]⟩, ⟨none, [b!"c"]⟩]) := by decide +kernel

/-- An empty cell at the end of the text is lost. -/
theorem C37_lost_cell : parse b!"a," false 44 = .ok (.none, [⟨none, [b!"a"]⟩]) := by decide +kernel

end Verif.Csv
