import Verif.Model.Csv
import Verif.Props.CStr
/-!
# C37: parsing comma-separated values gives back the cells
-/
namespace Verif.Csv
open Verif.CStr

/-! ## Specification -/

/-- A cell of a table: written as it is, or in quotes. -/
inductive Field where
  | bare (t : Bytes)
  | inQuotes (t : Bytes)

/-- The text of a cell. -/
def Field.text : Field → Bytes
  | .bare t | .inQuotes t => t

/-- Quotes are doubled. -/
def escape (t : Bytes) : Bytes := t.flatMap fun c => if c = 34 then [34, 34] else [c]

/-- How a cell is written. -/
def Field.source : Field → Bytes
  | .bare t => t
  | .inQuotes t => b!"\"" ++ escape t ++ b!"\""

/-- White space inside a line. -/
def Blank (b : Bytes) : Prop := ∀ c ∈ b, charIsSpace c = true ∧ c ≠ 10

/-- What may be written without quotes: no delimiter, newline or NUL, no quote at the beginning, no white space at the ends. -/
structure Bare (delim : UInt8) (t : Bytes) : Prop where
  inside : ∀ c ∈ t, c ≠ 0 ∧ c ≠ delim ∧ c ≠ 10
  first : ∀ c, t.head? = some c → charIsSpace c = false ∧ c ≠ 34
  last : ∀ c, t.getLast? = some c → charIsSpace c = false

def Field.Ok (delim : UInt8) : Field → Prop
  | .bare t => Bare delim t
  | .inQuotes t => t ≠ [] ∧ (0 : UInt8) ∉ t

/-- A cell with white space around it. -/
structure Padded where
  pre : Bytes
  field : Field
  post : Bytes

def Padded.source (p : Padded) : Bytes := p.pre ++ p.field.source ++ p.post

def Padded.Ok (delim : UInt8) (p : Padded) : Prop := Blank p.pre ∧ p.field.Ok delim ∧ Blank p.post

/-- A row: its first cells, and the last one, which is not empty. -/
structure Row where
  init : List Padded
  last : Padded

def Row.cells (r : Row) : List Padded := r.init ++ [r.last]
def Row.texts (r : Row) : List Bytes := r.cells.map (·.field.text)

structure Row.Ok (delim : UInt8) (r : Row) : Prop where
  cells : ∀ p ∈ r.cells, p.Ok delim
  last : r.last.field.text ≠ []

/-- A row as it is written, without the end of the line. -/
def Row.source (delim : UInt8) (r : Row) : Bytes := r.init.flatMap (fun p => p.source ++ [delim]) ++ r.last.source

/-- A table as it is written. -/
def source (delim : UInt8) (rows : List Row) : Bytes := rows.flatMap fun r => r.source delim ++ b!"\n"

/-- The columns of a table of `w` columns. -/
def columns (w : Nat) (rows : List (List Bytes)) : List (List Bytes) := (List.range w).map fun j => rows.map fun r => r.getD j []

/-- A character that can be a delimiter. -/
structure Delim (d : UInt8) : Prop where
  nul : d ≠ 0
  quote : d ≠ 34
  space : charIsSpace d = false

/-! ## Proofs -/

theorem Delim.nl {d : UInt8} (h : Delim d) : d ≠ 10 := by
  rintro rfl
  exact absurd h.space (by decide)

theorem at_zero (c : UInt8) (b : Bytes) : at_ (c :: b) 0 = .ok c := rfl

theorem at_append {a : Bytes} {c : UInt8} {b : Bytes} {i : Nat} (h : i = a.length) : at_ (a ++ c :: b) i = .ok c := by
  subst h
  simp [at_]

theorem trim_blank {pre : Bytes} {c : UInt8} {b : Bytes} (nl : Bool) (h : Blank pre) (hc : charIsSpace c = false ∨ (nl = true ∧ c = 10)) :
    trim (pre ++ c :: b) nl = .ok pre.length := by
  induction pre with
  | nil =>
    show trim (c :: b) nl = _
    unfold trim
    rw [if_neg]
    · rfl
    · rintro ⟨_, h1, h2⟩
      rcases hc with hc | ⟨h3, h4⟩
      · rw [hc] at h1; cases h1
      · rcases h2 with h2 | h2
        · exact h2 h3
        · exact h2.2 h4
  | cons d pre ih =>
    have hd := h d (by simp)
    show trim (d :: (pre ++ c :: b)) nl = _
    unfold trim
    rw [if_pos, ih fun x hx => h x (by simp [hx])]
    · rfl
    · refine ⟨?_, hd.1, ?_⟩
      · rintro rfl; exact absurd hd.1 (by decide)
      · cases nl <;> simp [hd.2]

/-! ### Bare cells -/

theorem plainEnd_eq {delim x : UInt8} {r : Bytes} (hx : x = 0 ∨ x = delim ∨ x = 10) : ∀ (u a : Bytes) (fuel : Nat),
    (∀ c ∈ u, c ≠ 0 ∧ c ≠ delim ∧ c ≠ 10) → u.length < fuel →
    ∀ c : UInt8, plainEnd delim (a ++ c :: (u ++ x :: r)) fuel a.length = .ok (a.length + 1 + u.length)
  | [], a, 0, _, hf, c => by simp at hf
  | [], a, fuel + 1, _, _, c => by
    unfold plainEnd
    rw [show a ++ c :: ([] ++ x :: r) = (a ++ [c]) ++ x :: r by simp, at_append (by simp), Res.ok_bind, if_neg]
    · rfl
    · rintro ⟨h1, h2, h3⟩
      rcases hx with h | h | h
      · exact h1 h
      · exact h2 h
      · exact h3 h
  | d :: u, a, 0, _, hf, c => by simp at hf
  | d :: u, a, fuel + 1, h, hf, c => by
    unfold plainEnd
    rw [show a ++ c :: (d :: u ++ x :: r) = (a ++ [c]) ++ d :: (u ++ x :: r) by simp, at_append (by simp), Res.ok_bind, if_pos (h d (by simp))]
    have := plainEnd_eq (r := r) hx u (a ++ [c]) fuel (fun e he => h e (by simp [he])) (by simp at hf; omega) d
    rw [show a.length + 1 = (a ++ [c]).length by simp, this]
    simp
    omega

theorem backUp_eq {t post : Bytes} {c : UInt8} {r : Bytes} (hc : charIsSpace c = false) (h : ∀ d ∈ post, charIsSpace d = true) :
    backUp ((t ++ [c]) ++ post ++ r) ((t ++ [c]) ++ post).length = .ok (t ++ [c]).length := by
  have key : ∀ (n : Nat), n ≤ post.length → backUp ((t ++ [c]) ++ post ++ r) ((t ++ [c]).length + n) = .ok (t ++ [c]).length := by
    intro n
    induction n with
    | zero =>
      intro _
      rw [Nat.add_zero, show (t ++ [c]).length = t.length + 1 by simp]
      unfold backUp
      rw [show (t ++ [c]) ++ post ++ r = t ++ c :: (post ++ r) by simp, at_append rfl, Res.ok_bind, if_neg (by simp [hc])]
    | succ n ih =>
      intro hn
      rw [← Nat.add_assoc]
      unfold backUp
      have hm : post[n] ∈ post := List.getElem_mem _
      have : at_ ((t ++ [c]) ++ post ++ r) ((t ++ [c]).length + n) = .ok post[n] := by
        unfold at_
        rw [List.append_assoc, List.getElem?_append_right (by omega), List.getElem?_append_left (by omega)]
        rw [List.getElem?_eq_getElem (by omega)]
        simp
      rw [this, Res.ok_bind, if_pos (h _ hm)]
      exact ih (by omega)
  have := key post.length (Nat.le_refl _)
  rwa [← List.length_append] at this

theorem set_append (a : Bytes) (c d : UInt8) (b : Bytes) : (a ++ c :: b).set a.length d = a ++ d :: b := by simp

theorem blank_inside {delim : UInt8} (hd : Delim delim) {post : Bytes} (h : Blank post) : ∀ c ∈ post, c ≠ 0 ∧ c ≠ delim ∧ c ≠ 10 := by
  intro c hc
  refine ⟨?_, ?_, (h c hc).2⟩
  · rintro rfl; exact absurd (h _ hc).1 (by decide)
  · rintro rfl; have := (h _ hc).1; rw [hd.space] at this; cases this

theorem no_nul {delim : UInt8} {t : Bytes} (h : Bare delim t) : (0 : UInt8) ∉ t := fun h0 => (h.inside 0 h0).1 rfl

theorem cell_of_plain {delim c : UInt8} {u : Bytes} (h : Bare delim (c :: u)) (b : Bytes) :
    cell delim (c :: u ++ b) = (plain delim (c :: u ++ b)).bind fun x => .ok (some x) := by
  unfold cell
  rw [List.cons_append, at_zero, Res.ok_bind, if_neg (h.first c rfl).2, if_neg (h.inside c (by simp)).2.1]

/-- A bare cell that something follows. -/
theorem cell_bare {delim x : UInt8} {t post r : Bytes} (hd : Delim delim) (ht : Bare delim t) (hne : t ≠ []) (hp : Blank post)
    (hx : x = delim ∨ x = 10) : ∃ y z, cell delim (t ++ post ++ x :: r) = .ok (some ⟨t, x, y :: z⟩) ∧ z = r := by
  obtain ⟨c, u, rfl⟩ := List.exists_cons_of_ne_nil hne
  rw [List.append_assoc, cell_of_plain ht]
  have hin : ∀ d ∈ u ++ post, d ≠ 0 ∧ d ≠ delim ∧ d ≠ 10 := by
    intro d hd'
    rcases List.mem_append.mp hd' with h | h
    · exact ht.inside d (by simp [h])
    · exact blank_inside hd hp d h
  have he := plainEnd_eq (r := r) (x := x) (delim := delim) (hx.elim (fun h => .inr (.inl h)) fun h => .inr (.inr h)) (u ++ post) []
    (((c :: u) ++ (post ++ x :: r)).length + 1) hin (by simp; omega) c
  have hx0 : x ≠ 0 := by
    rcases hx with rfl | rfl
    · exact hd.nul
    · decide
  have hb : (c :: u) ++ (post ++ x :: r) = [] ++ c :: ((u ++ post) ++ x :: r) := by simp
  have hl : ([] : Bytes).length + 1 + (u ++ post).length = ((c :: u) ++ post).length := by simp; omega
  rw [hl, ← hb] at he
  unfold plain
  rw [show plainEnd delim _ _ 0 = _ from he, Res.ok_bind, ← List.append_assoc, at_append rfl, Res.ok_bind, if_neg hx0]
  have htr : trim (List.drop ((c :: u) ++ post).length ((c :: u) ++ post ++ x :: r)) true = .ok 0 := by
    rw [List.drop_left]
    exact trim_blank (pre := []) true (by intro c hc; cases hc) (hx.elim (fun h => .inl (by rw [h]; exact hd.space)) fun h => .inr ⟨rfl, h⟩)
  rw [htr, Res.ok_bind]
  have hlast : ∃ t' l, c :: u = t' ++ [l] ∧ charIsSpace l = false := by
    rcases List.eq_nil_or_concat (c :: u) with h | ⟨t', l, h⟩
    · cases h
    · rw [List.concat_eq_append] at h
      exact ⟨t', l, h, ht.last l (by rw [h]; simp)⟩
  obtain ⟨t', l, htl, hl2⟩ := hlast
  have hbk : backUp ((c :: u) ++ post ++ x :: r) ((c :: u) ++ post).length = .ok (c :: u).length := by
    rw [htl]
    exact backUp_eq hl2 fun d hd => (hp d hd).1
  rw [hbk, Res.ok_bind, Nat.add_zero, at_append rfl, Res.ok_bind]
  have hput : ∃ v, put ((c :: u) ++ post ++ x :: r) (c :: u).length 0 = .ok ((c :: u) ++ 0 :: v) ∧
      ∃ y, ((c :: u) ++ 0 :: v).drop ((c :: u) ++ post).length = y :: r := by
    cases post with
    | nil =>
      refine ⟨r, ?_, 0, by rw [List.append_nil, List.drop_left]⟩
      unfold put
      rw [if_pos (by simp), List.append_nil, set_append]
    | cons d post =>
      refine ⟨post ++ x :: r, ?_, x, ?_⟩
      · unfold put
        rw [if_pos (by simp), List.append_assoc, show d :: post ++ x :: r = d :: (post ++ x :: r) from rfl, set_append]
      · rw [show (c :: u) ++ 0 :: (post ++ x :: r) = ((c :: u) ++ 0 :: post) ++ x :: r by simp,
          show ((c :: u) ++ d :: post).length = ((c :: u) ++ 0 :: post).length by simp, List.drop_left]
  obtain ⟨v, h1, y, h2⟩ := hput
  rw [h1, Res.ok_bind, len_spec _ _ (no_nul ht), Res.ok_bind, Res.ok_bind, List.take_left, h2]
  exact ⟨y, r, rfl, rfl⟩

/-- A bare cell at the end of the text. -/
theorem cell_bare_end {delim : UInt8} {t : Bytes} (ht : Bare delim t) (hne : t ≠ []) : cell delim (t ++ [0]) = .ok (some ⟨t, 0, [0]⟩) := by
  obtain ⟨c, u, rfl⟩ := List.exists_cons_of_ne_nil hne
  rw [cell_of_plain ht]
  have he := plainEnd_eq (r := []) (x := 0) (delim := delim) (.inl rfl) u [] (((c :: u) ++ [0]).length + 1)
    (fun d hd => ht.inside d (by simp [hd])) (by simp; omega) c
  have hb : (c :: u) ++ [0] = [] ++ c :: (u ++ [0]) := by simp
  have hl : ([] : Bytes).length + 1 + u.length = (c :: u).length := by simp; omega
  rw [hl, ← hb] at he
  unfold plain
  rw [show plainEnd delim _ _ 0 = _ from he, Res.ok_bind, at_append rfl, Res.ok_bind, if_pos rfl, Res.ok_bind, List.take_left, List.drop_left]

/-! ### Quoted cells -/

theorem escape_append (a b : Bytes) : escape (a ++ b) = escape a ++ escape b := by simp [escape]

theorem escape_plain {u : Bytes} (h : (34 : UInt8) ∉ u) : escape u = u := by
  induction u with
  | nil => rfl
  | cons c u ih =>
    have hc : c ≠ 34 := fun e => h (by simp [e])
    have := ih fun e => h (by simp [e])
    unfold escape at this ⊢
    rw [List.flatMap_cons, this, if_neg hc]
    rfl

theorem escape_quote (u : Bytes) : escape (34 :: u) = 34 :: 34 :: escape u := rfl

theorem escape_nul {t : Bytes} (h : (0 : UInt8) ∉ t) : (0 : UInt8) ∉ escape t := by
  intro h0
  obtain ⟨c, hc, h1⟩ := List.mem_flatMap.mp h0
  split at h1
  · simp at h1
  · simp only [List.mem_cons, List.not_mem_nil, or_false] at h1
    exact h (h1 ▸ hc)

/-- The first quote of a text, or none. -/
theorem first_quote (t : Bytes) : (34 : UInt8) ∉ t ∨ ∃ u v, t = u ++ 34 :: v ∧ (34 : UInt8) ∉ u := by
  induction t with
  | nil => exact .inl (by simp)
  | cons c t ih =>
    by_cases hc : c = 34
    · subst hc; exact .inr ⟨[], t, rfl, by simp⟩
    · have hc' : ¬ (34 : UInt8) = c := fun e => hc e.symm
      rcases ih with h | ⟨u, v, rfl, hu⟩
      · exact .inl (by simp [hc', h])
      · exact .inr ⟨c :: u, v, rfl, by simp [hc', hu]⟩

theorem skip_to {u : Bytes} (h0 : (0 : UInt8) ∉ u) (h : (34 : UInt8) ∉ u) (b : Bytes) : skip (u ++ 34 :: b) 34 = .ok u.length := by
  induction u with
  | nil => rfl
  | cons c u ih =>
    show skip (c :: (u ++ 34 :: b)) 34 = _
    unfold skip
    rw [if_pos ⟨fun e => h0 (by simp [e]), fun e => h (by simp [e])⟩, ih (fun e => h0 (by simp [e])) (fun e => h (by simp [e]))]
    rfl

theorem quoteEnd_eq {d : UInt8} {z : Bytes} (hz : d ≠ 34) : ∀ (n : Nat) {t a : Bytes} {fuel : Nat}, t.length ≤ n → (0 : UInt8) ∉ t → t.length < fuel →
    quoteEnd (a ++ (escape t ++ 34 :: d :: z)) fuel a.length = .ok (a ++ escape t).length := by
  intro n
  induction n with
  | zero =>
    intro t a fuel hn h0 hf
    cases t with
    | cons => simp at hn
    | nil =>
      obtain ⟨fuel, rfl⟩ := Nat.exists_eq_succ_of_ne_zero (Nat.ne_of_gt hf)
      unfold quoteEnd
      rw [List.drop_left, show escape [] ++ 34 :: d :: z = [] ++ 34 :: d :: z from rfl, skip_to (by simp) (by simp), Res.ok_bind]
      simp only [List.nil_append, List.length_nil, Nat.add_zero]
      rw [at_append rfl, Res.ok_bind, if_neg (by decide), show a ++ 34 :: d :: z = (a ++ [34]) ++ d :: z by simp, at_append (by simp), Res.ok_bind,
        if_neg hz]
      simp [escape]
  | succ n ih =>
    intro t a fuel hn h0 hf
    obtain ⟨fuel, rfl⟩ := Nat.exists_eq_succ_of_ne_zero (Nat.ne_of_gt (Nat.lt_of_le_of_lt (Nat.zero_le _) hf))
    unfold quoteEnd
    rw [List.drop_left]
    rcases first_quote t with hq | ⟨u, v, rfl, hu⟩
    · rw [escape_plain hq, skip_to h0 hq, Res.ok_bind]
      simp only []
      rw [← List.length_append, ← List.append_assoc, at_append rfl, Res.ok_bind, if_neg (by decide),
        show a ++ t ++ 34 :: d :: z = (a ++ t ++ [34]) ++ d :: z by simp, at_append (by simp; omega), Res.ok_bind, if_neg hz]
    · have hu0 : (0 : UInt8) ∉ u := fun e => h0 (by simp [e])
      have hv0 : (0 : UInt8) ∉ v := fun e => h0 (by simp [e])
      rw [escape_append, escape_plain hu, escape_quote]
      have e1 : u ++ 34 :: 34 :: escape v ++ 34 :: d :: z = u ++ 34 :: (34 :: (escape v ++ 34 :: d :: z)) := by simp
      rw [e1, skip_to hu0 hu, Res.ok_bind]
      simp only []
      rw [← List.length_append, ← List.append_assoc, at_append rfl, Res.ok_bind, if_neg (by decide),
        show a ++ u ++ 34 :: 34 :: (escape v ++ 34 :: d :: z) = (a ++ u ++ [34]) ++ 34 :: (escape v ++ 34 :: d :: z) by simp, at_append (by simp; omega),
        Res.ok_bind, if_pos rfl]
      have e2 : a ++ u ++ [34] ++ 34 :: (escape v ++ 34 :: d :: z) = (a ++ u ++ [34, 34]) ++ (escape v ++ 34 :: d :: z) := by simp
      have e3 : (a ++ u).length + 2 = (a ++ u ++ [34, 34]).length := by simp; omega
      have hnz : ∃ c w, escape v ++ 34 :: d :: z = c :: w ∧ c ≠ 0 := by
        cases hv : escape v with
        | nil => exact ⟨34, _, rfl, by decide⟩
        | cons c w => exact ⟨c, _, rfl, fun e => escape_nul hv0 (by rw [hv, e]; simp)⟩
      obtain ⟨c, w, h1, h2⟩ := hnz
      rw [e2, e3, h1, at_append rfl, Res.ok_bind, if_neg h2, ← h1, ih (by simp at hn; omega) hv0 (by simp at hf; omega)]
      simp [escape_append, escape_plain hu, escape_quote]

theorem closeUp_eq {a w z : Bytes} (h : (0 : UInt8) ∉ w) : closeUp (a ++ (34 :: w ++ 0 :: z)) a.length = .ok (a ++ (w ++ 0 :: 0 :: z)) := by
  unfold closeUp
  have : (0 : UInt8) ∉ 34 :: w := by simp [h]
  rw [List.drop_left, len_spec _ _ this, Res.ok_bind, if_pos (by simp; omega), List.take_left]
  have e1 : List.drop (a.length + 1) (a ++ (34 :: w ++ 0 :: z)) = (w ++ [0]) ++ z := by
    rw [show a ++ (34 :: w ++ 0 :: z) = (a ++ [34]) ++ (w ++ [0] ++ z) by simp, show a.length + 1 = (a ++ [34]).length by simp, List.drop_left]
  have e2 : List.drop (a.length + (34 :: w).length) (a ++ (34 :: w ++ 0 :: z)) = 0 :: z := by
    rw [← List.append_assoc, ← List.length_append, List.drop_left]
  rw [e1, e2, show (34 :: w).length = (w ++ [0]).length by simp, List.take_left]
  simp

/-- How many quotes. -/
def quotes (t : Bytes) : Nat := t.count 34

theorem escape_length (t : Bytes) : (escape t).length = t.length + quotes t := by
  induction t with
  | nil => rfl
  | cons c t ih =>
    unfold escape quotes at *
    rw [List.flatMap_cons, List.length_append, ih, List.count_cons]
    by_cases hc : c = 34 <;> simp [hc] <;> omega

theorem unescape_eq : ∀ (t : Bytes) {a z : Bytes} {fuel : Nat}, t ≠ [] → (0 : UInt8) ∉ t → t.length < fuel →
    unescape fuel (a ++ (escape t ++ 0 :: z)) a.length = .ok (a ++ t ++ 0 :: (List.replicate (quotes t) 0 ++ z))
  | [], _, _, _, hne, _, _ => absurd rfl hne
  | c :: t, a, z, fuel, _, h0, hf => by
    obtain ⟨fuel, rfl⟩ := Nat.exists_eq_succ_of_ne_zero (Nat.ne_of_gt (Nat.lt_of_le_of_lt (Nat.zero_le _) hf))
    have ht0 : (0 : UInt8) ∉ t := fun e => h0 (by simp [e])
    unfold unescape
    -- what is left to do, once the character itself is there
    have key : ∀ (z' : Bytes), ((at_ (a ++ (c :: escape t ++ 0 :: z')) (a.length + 1)).bind fun d =>
        if d = 0 then .ok (a ++ (c :: escape t ++ 0 :: z')) else unescape fuel (a ++ (c :: escape t ++ 0 :: z')) (a.length + 1)) =
        .ok (a ++ (c :: t) ++ 0 :: (List.replicate (quotes t) 0 ++ z')) := by
      intro z'
      rw [show a ++ (c :: escape t ++ 0 :: z') = (a ++ [c]) ++ (escape t ++ 0 :: z') by simp, show a.length + 1 = (a ++ [c]).length by simp]
      cases t with
      | nil =>
        show ((at_ (a ++ [c] ++ 0 :: z') (a ++ [c]).length).bind _) = _
        rw [at_append rfl, Res.ok_bind, if_pos rfl]
        simp [escape, quotes]
      | cons d t =>
        have hnz : ∃ e w, escape (d :: t) ++ 0 :: z' = e :: w ∧ e ≠ 0 := by
          cases hv : escape (d :: t) with
          | nil =>
            have := congrArg List.length hv
            rw [escape_length] at this
            simp at this
          | cons e w => exact ⟨e, _, rfl, fun h => escape_nul ht0 (by rw [hv, h]; simp)⟩
        obtain ⟨e, w, h1, h2⟩ := hnz
        rw [h1, at_append rfl, Res.ok_bind, if_neg h2, ← h1, unescape_eq (d :: t) (by simp) ht0 (by simp at hf ⊢; omega)]
        simp
    by_cases hc : c = 34
    · subst hc
      rw [escape_quote]
      have e1 : a ++ (34 :: 34 :: escape t ++ 0 :: z) = a ++ 34 :: (34 :: (escape t ++ 0 :: z)) := by simp
      have e2 : a ++ 34 :: (34 :: (escape t ++ 0 :: z)) = (a ++ [34]) ++ 34 :: (escape t ++ 0 :: z) := by simp
      have h34 : (0 : UInt8) ∉ 34 :: escape t := by simp [escape_nul ht0]
      have hcl := closeUp_eq (a := a) (z := z) h34
      rw [e1, at_append rfl, Res.ok_bind, if_pos rfl, e2, at_append (by simp), Res.ok_bind, Res.ok_bind, ← e2, ← e1,
        if_pos (by simp), hcl, Res.ok_bind, key]
      simp [quotes, List.count_cons, List.replicate_succ', List.append_assoc]
    · have e1 : escape (c :: t) = c :: escape t := by simp [escape, hc]
      rw [e1]
      have e2 : a ++ (c :: escape t ++ 0 :: z) = a ++ c :: (escape t ++ 0 :: z) := by simp
      rw [e2, at_append rfl, Res.ok_bind, if_neg hc, Res.ok_bind, if_neg (by simp), Res.ok_bind, ← e2, key]
      simp [quotes, List.count_cons, hc]

/-- A quoted cell. -/
theorem cell_quoted {delim x : UInt8} {t post r : Bytes} (hd : Delim delim) (hne : t ≠ []) (h0 : (0 : UInt8) ∉ t) (hp : Blank post)
    (hx : x = delim ∨ x = 10 ∨ x = 0) :
    cell delim (b!"\"" ++ escape t ++ b!"\"" ++ post ++ x :: r) = .ok (some ⟨t, x, x :: r⟩) := by
  have hx34 : x ≠ 34 := by
    rcases hx with rfl | rfl | rfl
    · exact hd.quote
    · decide
    · decide
  have hz : ∃ d z, post ++ x :: r = d :: z ∧ d ≠ 34 := by
    cases post with
    | nil => exact ⟨x, r, rfl, hx34⟩
    | cons d post => exact ⟨d, _, rfl, by rintro rfl; exact absurd (hp 34 (by simp)).1 (by decide)⟩
  obtain ⟨d, z, hz, hd34⟩ := hz
  have e0 : b!"\"" ++ escape t ++ b!"\"" ++ post ++ x :: r = 34 :: (escape t ++ 34 :: (post ++ x :: r)) := by simp
  have hq := quoteEnd_eq (z := z) hd34 t.length (t := t) (a := []) (fuel := (escape t ++ 34 :: (d :: z)).length + 1) (Nat.le_refl _) h0
    (by rw [List.length_append, escape_length]; omega)
  simp only [List.nil_append, List.length_nil] at hq
  unfold cell
  rw [e0, at_zero, Res.ok_bind, if_pos rfl]
  show quoted (escape t ++ 34 :: (post ++ x :: r)) = _
  unfold quoted
  rw [hz, hq, Res.ok_bind, ← hz, at_append rfl, Res.ok_bind, if_neg (by decide)]
  have hput : put (escape t ++ 34 :: (post ++ x :: r)) (escape t).length 0 = .ok (escape t ++ 0 :: (post ++ x :: r)) := by
    unfold put
    rw [if_pos (by simp), set_append]
  have hdr : (escape t ++ 0 :: (post ++ x :: r)).drop ((escape t).length + 1) = post ++ x :: r := by
    rw [show escape t ++ 0 :: (post ++ x :: r) = (escape t ++ [0]) ++ (post ++ x :: r) by simp,
      show (escape t).length + 1 = (escape t ++ [0]).length by simp, List.drop_left]
  have htr : trim (post ++ x :: r) true = .ok post.length := trim_blank true hp (by
    rcases hx with rfl | rfl | rfl
    · exact .inl hd.space
    · exact .inr ⟨rfl, rfl⟩
    · exact .inl (by decide))
  rw [hput, Res.ok_bind, hdr, htr, Res.ok_bind]
  simp only []
  rw [show escape t ++ 0 :: (post ++ x :: r) = (escape t ++ 0 :: post) ++ x :: r by simp, at_append (by simp; omega), Res.ok_bind]
  rw [show (escape t ++ 0 :: post) ++ x :: r = [] ++ (escape t ++ 0 :: (post ++ x :: r)) by simp]
  have hu := unescape_eq t (a := []) (z := post ++ x :: r) (fuel := ([] ++ (escape t ++ 0 :: (post ++ x :: r))).length + 1) hne h0
    (by rw [List.nil_append, List.length_append, escape_length]; omega)
  simp only [List.length_nil] at hu
  rw [hu, Res.ok_bind, List.nil_append, len_spec _ _ h0, Res.ok_bind, List.take_left]
  have hend : (t ++ 0 :: (List.replicate (quotes t) 0 ++ (post ++ x :: r))).drop ((escape t).length + 1 + post.length) = x :: r := by
    rw [show t ++ 0 :: (List.replicate (quotes t) 0 ++ (post ++ x :: r)) = (t ++ 0 :: (List.replicate (quotes t) 0 ++ post)) ++ x :: r by simp,
      show (escape t).length + 1 + post.length = (t ++ 0 :: (List.replicate (quotes t) 0 ++ post)).length by
        rw [escape_length]; simp; omega, List.drop_left]
  rw [hend]

end Verif.Csv
