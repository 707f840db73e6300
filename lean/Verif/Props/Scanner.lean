import Verif.Model.Scanner
import Verif.Props.CStr
/-!
# C41: scanning a file strips only the intellisense block
-/
namespace Verif.Scanner
open Verif.CStr

/-! ## Specification -/

/-- The end of a line. -/
def IsEol (b : Bytes) : Prop := b = b!"\n" ∨ b = b!"\r\n"

def NoEol (b : Bytes) : Prop := ∀ c ∈ b, c ≠ 10 ∧ c ≠ 13

def Spaces (b : Bytes) : Prop := ∀ c ∈ b, charIsSpace c = true

/-- A text begins with something else than white space. -/
def Starts (b : Bytes) : Prop := ∃ c r, b = c :: r ∧ charIsSpace c = false

/-- What stands behind the `#` of a directive line that is not `ifdef INTELLISENSE_DIRECTIVES`. -/
def Other (b : Bytes) : Prop :=
  Starts b ∧ (¬ b!"ifdef" <+: b ∨ ∃ sp y, b = b!"ifdef" ++ sp ++ y ∧ Spaces sp ∧ Starts y ∧ ¬ b!"INTELLISENSE_DIRECTIVES" <+: y)

/-- Text and directive lines in front of the block. -/
inductive Before : Bytes → Prop
  | nil : Before []
  | text {c : UInt8} {r : Bytes} : c ≠ 35 → Before r → Before (c :: r)
  | line {sp b eol r : Bytes} : Spaces sp → NoEol b → Other b → IsEol eol → Before r → Before (b!"#" ++ sp ++ b ++ eol ++ r)

/-- Text and directives inside the block: none of them is `endif`. -/
inductive Inside : Bytes → Prop
  | nil : Inside []
  | text {c : UInt8} {r : Bytes} : c ≠ 35 → Inside r → Inside (c :: r)
  | directive {sp : Bytes} {c : UInt8} {r : Bytes} : Spaces sp → charIsSpace c = false → c ≠ 35 → ¬ b!"endif" <+: c :: r → Inside r →
      Inside (b!"#" ++ sp ++ c :: r)

/-- The line that begins the block, and the one that ends it; either may have more text behind its words. -/
def blockStart (sp1 sp2 more eol : Bytes) : Bytes := b!"#" ++ sp1 ++ b!"ifdef" ++ sp2 ++ b!"INTELLISENSE_DIRECTIVES" ++ more ++ eol
def blockEnd (sp more eol : Bytes) : Bytes := b!"#" ++ sp ++ b!"endif" ++ more ++ eol

/-! ## Proofs -/

theorem compare_word (lt : Bool) : ∀ (w r : Bytes), 0 ∉ w →
    ∃ v, compareLen lt (r ++ [0]) (w ++ [0]) w.length = .ok v ∧ (v = 0 ↔ w <+: r)
  | [], r, _ => ⟨0, by simp [compareLen], by simp⟩
  | a :: w, [], h => by
    have ha : ¬ (0 : UInt8) = a := fun e => h (by simp [e])
    refine ⟨if lt then -1 else 1, by simp [compareLen, ha], ?_⟩
    cases lt <;> simp
  | a :: w, b :: r, h => by
    obtain ⟨v, hv, hz⟩ := compare_word lt w r (fun e => h (by simp [e]))
    have ha : ¬ a = 0 := fun e => h (by simp [e])
    by_cases hb : b = a
    · subst hb
      refine ⟨v, by simp [compareLen, ha, hv], ?_⟩
      rw [hz, List.cons_prefix_cons]
      simp
    · refine ⟨if lt then -1 else 1, by simp [compareLen, hb], ?_⟩
      have : ¬ a = b := fun e => hb e.symm
      rw [List.cons_prefix_cons]
      cases lt <;> simp [this]

theorem isWord_eq (lt : Bool) {w : Bytes} (r : Bytes) (h0 : 0 ∉ w) (hw : w ≠ []) : isWord lt w r = .ok (decide (w <+: r)) := by
  unfold isWord
  split
  · rename_i h
    subst h
    simp [hw]
  · obtain ⟨v, hv, hz⟩ := compare_word lt w r h0
    rw [hv, Res.ok_bind]
    by_cases h : w <+: r
    · simp [h, hz.mpr h]
    · have : ¬ v = 0 := fun e => h (hz.mp e)
      simp [h, this]

/-- A word does not reach over a byte it does not hold. -/
theorem prefix_stops {c : UInt8} {r : Bytes} : ∀ {b w : Bytes}, c ∉ w → w <+: b ++ c :: r → w <+: b
  | _, [], _, _ => by simp
  | [], y :: w, hc, h => by
    rw [List.nil_append, List.cons_prefix_cons] at h
    exact absurd h.1.symm (fun e => hc (by simp [e]))
  | x :: b, y :: w, hc, h => by
    rw [List.cons_append, List.cons_prefix_cons] at h
    exact List.cons_prefix_cons.mpr ⟨h.1, prefix_stops (fun e => hc (by simp [e])) h.2⟩

theorem prefix_more {b w r : Bytes} (h : w <+: b) : w <+: b ++ r := h.trans (List.prefix_append _ _)

theorem len_skipSpace (r : Bytes) : (skipSpace r).length ≤ r.length := List.Sublist.length_le (List.dropWhile_sublist _)
theorem len_toEol (r : Bytes) : (toEol r).length ≤ r.length := List.Sublist.length_le (List.dropWhile_sublist _)

theorem len_fwd {r r' : Bytes} (h : fwd r = .ok r') : r'.length < r.length := by
  cases r with
  | nil => cases h
  | cons c r => cases h; simp

theorem len_endOfLine {r r' : Bytes} (h : endOfLine r = .ok r') : r'.length < r.length := by
  obtain ⟨x, hx, h⟩ := Res.bind_eq_ok.mp h
  have h1 := len_fwd hx
  have h2 := len_toEol r
  split at h <;> cases h
  · simp only [List.length_cons] at h1
    omega
  · omega

theorem len_beforeBlock {lt : Bool} {r : Bytes} {x : Bool × Bytes} (h : beforeBlock lt r = .ok x) : x.2.length < r.length := by
  obtain ⟨i, _, h⟩ := Res.bind_eq_ok.mp h
  split at h
  · obtain ⟨d, _, h⟩ := Res.bind_eq_ok.mp h
    obtain ⟨y, hy, h⟩ := Res.bind_eq_ok.mp h
    cases h
    have h1 := len_endOfLine hy
    have h2 := len_skipSpace (r.drop 5)
    have h3 : (r.drop 5).length ≤ r.length := by simp
    split at h1
    · have h4 : ((skipSpace (r.drop 5)).drop 23).length ≤ (skipSpace (r.drop 5)).length := by simp
      show y.length < _
      omega
    · show y.length < _
      omega
  · obtain ⟨y, hy, h⟩ := Res.bind_eq_ok.mp h
    cases h
    exact len_endOfLine hy

/-- More fuel than bytes makes no difference. -/
theorem fuel_enough {lt : Bool} {content : Bytes} : ∀ (n : Nat) {f1 f2 : Nat} {found : Bool} {r : Bytes}, r.length ≤ n → r.length < f1 → r.length < f2 →
    loop lt content f1 found r = loop lt content f2 found r := by
  intro n
  induction n with
  | zero =>
    intro f1 f2 found r hn h1 h2
    cases r with
    | cons => simp at hn
    | nil =>
      obtain ⟨f1, rfl⟩ := Nat.exists_eq_succ_of_ne_zero (Nat.ne_of_gt h1)
      obtain ⟨f2, rfl⟩ := Nat.exists_eq_succ_of_ne_zero (Nat.ne_of_gt h2)
      rfl
  | succ n ih =>
    intro f1 f2 found r hn h1 h2
    obtain ⟨f1, rfl⟩ := Nat.exists_eq_succ_of_ne_zero (Nat.ne_of_gt (Nat.lt_of_le_of_lt (Nat.zero_le _) h1))
    obtain ⟨f2, rfl⟩ := Nat.exists_eq_succ_of_ne_zero (Nat.ne_of_gt (Nat.lt_of_le_of_lt (Nat.zero_le _) h2))
    cases r with
    | nil => rfl
    | cons c r =>
      simp only [List.length_cons] at hn h1 h2
      have hs := len_skipSpace r
      unfold loop
      split
      · simp only []
        split
        · cases hb : beforeBlock lt (skipSpace r) with
          | ok x =>
            have := len_beforeBlock hb
            exact ih (by omega) (by omega) (by omega)
          | _ => rfl
        · cases hw : isWord lt b!"endif" (skipSpace r) with
          | ok e =>
            simp only [Res.ok_bind]
            split
            · rfl
            · cases hf : fwd (skipSpace r) with
              | ok x =>
                have := len_fwd hf
                exact ih (by omega) (by omega) (by omega)
              | _ => rfl
          | _ => rfl
      · exact ih (by omega) (by omega) (by omega)

/-- The loop, with enough fuel. -/
def run (lt : Bool) (content : Bytes) (found : Bool) (r : Bytes) : Res Bytes := loop lt content (r.length + 1) found r

variable {lt : Bool} {content : Bytes}

theorem run_nil (found : Bool) : run lt content found [] = .ok content := rfl

theorem run_text {found : Bool} {c : UInt8} {r : Bytes} (h : c ≠ 35) : run lt content found (c :: r) = run lt content found r := by
  unfold run
  rw [loop]
  · rw [if_neg h]
    rfl
  

theorem run_before {r : Bytes} : run lt content false (35 :: r) = (beforeBlock lt (skipSpace r)).bind fun x => run lt content x.1 x.2 := by
  unfold run
  rw [loop]
  simp only [if_true, Bool.not_false]
  cases hb : beforeBlock lt (skipSpace r) with
  | ok x =>
    have := len_beforeBlock hb
    have := len_skipSpace r
    exact fuel_enough _ (Nat.le_refl _) (by simp; omega) (by omega)
  | _ => rfl

theorem run_inside {r : Bytes} : run lt content true (35 :: r) =
    if b!"endif" <+: skipSpace r then endOfLine ((skipSpace r).drop 5) else (fwd (skipSpace r)).bind (run lt content true) := by
  unfold run
  rw [loop]
  simp only [if_true, Bool.not_true, Bool.false_eq_true, if_false]
  rw [isWord_eq lt (skipSpace r) (by decide) (by decide), Res.ok_bind]
  simp only [decide_eq_true_eq]
  split
  · rfl
  · cases hf : fwd (skipSpace r) with
    | ok x =>
      have := len_fwd hf
      have := len_skipSpace r
      exact fuel_enough _ (Nat.le_refl _) (by simp; omega) (by omega)
    | _ => rfl

theorem skipSpace_append {sp r : Bytes} (h : Spaces sp) (hr : Starts r) : skipSpace (sp ++ r) = r := by
  obtain ⟨c, t, rfl, hc⟩ := hr
  unfold skipSpace
  rw [List.dropWhile_append_of_pos h, List.dropWhile_cons_of_neg (by simp [hc])]

theorem Starts.append {b r : Bytes} (h : Starts b) : Starts (b ++ r) := by
  obtain ⟨c, t, rfl, hc⟩ := h
  exact ⟨c, t ++ r, rfl, hc⟩

/-- What the end of a line leaves: a newline that follows is gone too. -/
def afterLine : Bytes → Bytes
  | 10 :: r => r
  | r => r

theorem endOfLine_lf {b r : Bytes} (h : NoEol b) : endOfLine (b ++ 10 :: r) = .ok (afterLine r) := by
  have : toEol (b ++ 10 :: r) = 10 :: r := by
    unfold toEol
    rw [List.dropWhile_append_of_pos (by simpa using fun c hc => (h c hc).symm), List.dropWhile_cons_of_neg (by simp)]
  unfold endOfLine
  rw [this]
  show (match r with | 10 :: r => Res.ok r | r => .ok r) = _
  unfold afterLine
  split <;> rfl

theorem endOfLine_crlf {b r : Bytes} (h : NoEol b) : endOfLine (b ++ b!"\r\n" ++ r) = .ok r := by
  have : toEol (b ++ b!"\r\n" ++ r) = b!"\r\n" ++ r := by
    unfold toEol
    rw [List.append_assoc, List.dropWhile_append_of_pos (by simpa using fun c hc => (h c hc).symm)]
    exact List.dropWhile_cons_of_neg (by simp)
  unfold endOfLine
  rw [this]
  rfl

theorem endOfLine_eol {b eol r : Bytes} (h : NoEol b) (he : IsEol eol) : endOfLine (b ++ eol ++ r) = .ok r ∨ endOfLine (b ++ eol ++ r) = .ok (afterLine r) := by
  rcases he with rfl | rfl
  · right
    rw [List.append_assoc]
    exact endOfLine_lf h
  · exact .inl (endOfLine_crlf h)

theorem endOfLine_plain {b eol r : Bytes} (h : NoEol b) (he : IsEol eol) (hr : r.head? ≠ some 10 ∨ eol = b!"\r\n") :
    endOfLine (b ++ eol ++ r) = .ok r := by
  rcases he with rfl | rfl
  · rw [List.append_assoc]
    refine (endOfLine_lf h).trans ?_
    rcases hr with hr | hr
    · unfold afterLine
      split
      · rename_i heq
        exact absurd (congrArg List.head? heq) hr
      · rfl
    · cases hr
  · exact endOfLine_crlf h

theorem run_afterLine (found : Bool) (r : Bytes) : run lt content found (afterLine r) = run lt content found r := by
  unfold afterLine
  split
  · exact (run_text (by decide)).symm
  · rfl

/-- The line that is left, as far as the loop is concerned. -/
theorem run_eol {found : Bool} {b eol r : Bytes} (h : NoEol b) (he : IsEol eol) :
    ∃ y, endOfLine (b ++ eol ++ r) = .ok y ∧ run lt content found y = run lt content found r := by
  rcases endOfLine_eol (r := r) h he with h | h
  · exact ⟨_, h, rfl⟩
  · exact ⟨_, h, run_afterLine _ _⟩

theorem prefix_line {w b eol r : Bytes} (hw : (10 : UInt8) ∉ w ∧ (13 : UInt8) ∉ w) (he : IsEol eol) (h : w <+: b ++ eol ++ r) : w <+: b := by
  rcases he with rfl | rfl
  · exact prefix_stops hw.1 (by rw [List.append_assoc] at h; exact h)
  · exact prefix_stops hw.2 (by rw [List.append_assoc] at h; exact h)

theorem drop_word (w r : Bytes) : (w ++ r).drop w.length = r := by simp

theorem beforeBlock_other {b eol r : Bytes} (hb : NoEol b) (ho : Other b) (he : IsEol eol) :
    ∃ y, beforeBlock lt (b ++ eol ++ r) = .ok (false, y) ∧ run lt content false y = run lt content false r := by
  unfold beforeBlock
  rw [isWord_eq lt _ (by decide) (by decide), Res.ok_bind]
  simp only [decide_eq_true_eq]
  obtain ⟨hs, ho⟩ := ho
  rcases ho with ho | ⟨sp, y, rfl, hsp, hy, hn⟩
  · rw [if_neg fun h => ho (prefix_line (by decide) he h)]
    obtain ⟨y, h1, h2⟩ := run_eol (lt := lt) (content := content) (found := false) (r := r) hb he
    exact ⟨y, by rw [h1]; rfl, h2⟩
  · have e1 : b!"ifdef" ++ sp ++ y ++ eol ++ r = b!"ifdef" ++ (sp ++ (y ++ eol ++ r)) := by simp only [List.append_assoc]
    rw [if_pos (by rw [e1]; exact List.prefix_append _ _), e1, show (5 : Nat) = (b!"ifdef").length from rfl, drop_word]
    rw [skipSpace_append hsp (by rw [List.append_assoc]; exact hy.append)]
    rw [isWord_eq lt _ (by decide) (by decide), Res.ok_bind, decide_eq_false fun h => hn (prefix_line (by decide) he h)]
    have hy' : NoEol y := fun c hc => hb c (by simp [hc])
    obtain ⟨z, h1, h2⟩ := run_eol (lt := lt) (content := content) (found := false) (r := r) hy' he
    simp only [Bool.false_eq_true, if_false]
    exact ⟨z, by rw [h1]; rfl, h2⟩

theorem run_pre {pre : Bytes} (h : Before pre) (rest : Bytes) : run lt content false (pre ++ rest) = run lt content false rest := by
  induction h with
  | nil => rfl
  | text hc _ ih => exact (run_text hc).trans ih
  | line hsp hb ho he _ ih =>
    rename_i sp b eol r _
    have e1 : b!"#" ++ sp ++ b ++ eol ++ r ++ rest = 35 :: (sp ++ (b ++ eol ++ (r ++ rest))) := by
      simp only [List.append_assoc]
      rfl
    rw [e1, run_before, skipSpace_append hsp (by rw [List.append_assoc]; exact ho.1.append)]
    obtain ⟨y, h1, h2⟩ := beforeBlock_other (lt := lt) (content := content) (r := r ++ rest) hb ho he
    rw [h1]
    exact h2.trans ih

theorem run_mid {mid : Bytes} (h : Inside mid) (rest : Bytes) (hr : ∀ c, rest.head? = some c → c = 35) :
    run lt content true (mid ++ rest) = run lt content true rest := by
  induction h with
  | nil => rfl
  | text hc _ ih => exact (run_text hc).trans ih
  | directive hsp hc _ hn _ ih =>
    rename_i sp c r _ _
    have e1 : b!"#" ++ sp ++ c :: r ++ rest = 35 :: (sp ++ (c :: (r ++ rest))) := by
      simp only [List.append_assoc]
      rfl
    rw [e1, run_inside, skipSpace_append hsp ⟨_, _, rfl, hc⟩, if_neg]
    · exact ih
    · intro h
      cases rest with
      | nil => exact hn (by simpa using h)
      | cons d rest =>
        cases hr d rfl
        exact hn (prefix_stops (r := rest) (c := 35) (by decide) h)

theorem starts_word {w r : Bytes} (h : Starts w) : Starts (w ++ r) := h.append

theorem run_start {sp1 sp2 more eol : Bytes} (h1 : Spaces sp1) (h2 : Spaces sp2) (hm : NoEol more) (he : IsEol eol) (rest : Bytes) :
    run lt content false (blockStart sp1 sp2 more eol ++ rest) = run lt content true rest := by
  have e1 : blockStart sp1 sp2 more eol ++ rest =
      35 :: (sp1 ++ (b!"ifdef" ++ (sp2 ++ (b!"INTELLISENSE_DIRECTIVES" ++ (more ++ eol ++ rest))))) := by
    simp only [blockStart, List.append_assoc]
    rfl
  rw [e1, run_before, skipSpace_append h1 (starts_word ⟨_, _, rfl, rfl⟩)]
  unfold beforeBlock
  rw [isWord_eq lt _ (by decide) (by decide), Res.ok_bind, decide_eq_true (List.prefix_append _ _)]
  rw [show (5 : Nat) = (b!"ifdef").length from rfl, drop_word, if_pos rfl]
  rw [skipSpace_append h2 (starts_word ⟨_, _, rfl, rfl⟩)]
  simp only []
  rw [isWord_eq lt _ (by decide) (by decide), Res.ok_bind, decide_eq_true (List.prefix_append _ _)]
  rw [if_pos rfl, show (23 : Nat) = (b!"INTELLISENSE_DIRECTIVES").length from rfl, drop_word]
  obtain ⟨z, h1, h2⟩ := run_eol (lt := lt) (content := content) (found := true) (r := rest) hm he
  rw [h1]
  exact h2

theorem scanFile_eq {content : Bytes} (h : content ≠ []) : scanFile lt content = run lt content false content := if_neg h

/-! ## C41 -/

/-- C41: everything up to and including the line with the first `#endif` of the block is removed. -/
theorem C41_block {pre sp1 sp2 more1 eol1 mid sp3 more2 eol2 out : Bytes} (hpre : Before pre) (h1 : Spaces sp1) (h2 : Spaces sp2)
    (hm1 : NoEol more1) (he1 : IsEol eol1) (hmid : Inside mid) (h3 : Spaces sp3) (hm2 : NoEol more2) (he2 : IsEol eol2)
    (ho : out.head? ≠ some 10 ∨ eol2 = b!"\r\n") :
    scanFile lt (pre ++ blockStart sp1 sp2 more1 eol1 ++ mid ++ blockEnd sp3 more2 eol2 ++ out) = .ok out := by
  rw [scanFile_eq (by simp [blockEnd]), List.append_assoc, List.append_assoc, List.append_assoc, run_pre hpre,
    run_start h1 h2 hm1 he1, run_mid hmid _ (by simp [blockEnd])]
  have e1 : blockEnd sp3 more2 eol2 ++ out = 35 :: (sp3 ++ (b!"endif" ++ (more2 ++ eol2 ++ out))) := by
    simp only [blockEnd, List.append_assoc]
    rfl
  rw [e1, run_inside, skipSpace_append h3 (starts_word ⟨_, _, rfl, rfl⟩), if_pos (List.prefix_append _ _), show (5 : Nat) = (b!"endif").length from rfl, drop_word]
  exact endOfLine_plain hm2 he2 ho

/-- C41: a content without the block is kept whole. -/
theorem C41_none {content : Bytes} (hne : content ≠ []) (h : Before content) : scanFile lt content = .ok content := by
  rw [scanFile_eq hne]
  have := run_pre (lt := lt) (content := content) h []
  rw [List.append_nil] at this
  exact this

/-- C41: so is one whose block is not closed. -/
theorem C41_unclosed {pre sp1 sp2 more eol mid : Bytes} (hpre : Before pre) (h1 : Spaces sp1) (h2 : Spaces sp2) (hm : NoEol more) (he : IsEol eol)
    (hmid : Inside mid) : scanFile lt (pre ++ blockStart sp1 sp2 more eol ++ mid) = .ok (pre ++ blockStart sp1 sp2 more eol ++ mid) := by
  rw [scanFile_eq (by simp [blockStart]), List.append_assoc, run_pre hpre, run_start h1 h2 hm he]
  have := run_mid (lt := lt) (content := pre ++ (blockStart sp1 sp2 more eol ++ mid)) hmid [] (by simp)
  rw [List.append_nil] at this
  exact this

/-! The hypotheses are met by the files of the library. -/

example : scanFile true b!"// a\n#pragma once\n#ifdef INTELLISENSE_DIRECTIVES\n#\tinclude \"b.hpp\"\n#endif\nint x;\n" = .ok b!"int x;\n" := by
  decide +kernel

/-! ## Every content -/

theorem endOfLine_suffix {r y : Bytes} (h : endOfLine r = .ok y) : y <:+ r := by
  obtain ⟨x, hx, h⟩ := Res.bind_eq_ok.mp h
  have h1 : toEol r <:+ r := List.dropWhile_suffix _
  have h2 : x <:+ toEol r := by
    cases ht : toEol r with
    | nil => rw [ht] at hx; cases hx
    | cons c t => rw [ht] at hx; cases hx; exact List.suffix_cons _ _
  split at h <;> cases h
  · exact ((List.suffix_cons _ _).trans h2).trans h1
  · exact h2.trans h1

theorem beforeBlock_suffix {r : Bytes} {x : Bool × Bytes} (h : beforeBlock lt r = .ok x) : x.2 <:+ r := by
  obtain ⟨i, _, h⟩ := Res.bind_eq_ok.mp h
  split at h
  · obtain ⟨d, _, h⟩ := Res.bind_eq_ok.mp h
    obtain ⟨y, hy, h⟩ := Res.bind_eq_ok.mp h
    cases h
    have h1 := endOfLine_suffix hy
    have h2 : skipSpace (r.drop 5) <:+ r := (List.dropWhile_suffix _).trans (List.drop_suffix _ _)
    split at h1
    · exact (h1.trans (List.drop_suffix _ _)).trans h2
    · exact h1.trans h2
  · obtain ⟨y, hy, h⟩ := Res.bind_eq_ok.mp h
    cases h
    exact endOfLine_suffix hy

theorem run_suffix : ∀ (n : Nat) {r y : Bytes} {found : Bool}, r.length ≤ n → r <:+ content → run lt content found r = .ok y → y <:+ content := by
  intro n
  induction n with
  | zero =>
    intro r y found hn hr h
    cases r with
    | cons => simp at hn
    | nil => cases h; exact List.suffix_rfl
  | succ n ih =>
    intro r y found hn hr h
    cases r with
    | nil => cases h; exact List.suffix_rfl
    | cons c r =>
      simp only [List.length_cons] at hn
      have hr' : r <:+ content := (List.suffix_cons _ _).trans hr
      by_cases hc : c = 35
      · subst hc
        have hs : skipSpace r <:+ content := (List.dropWhile_suffix _).trans hr'
        have hl := len_skipSpace r
        cases found with
        | false =>
          rw [run_before] at h
          obtain ⟨x, hx, h⟩ := Res.bind_eq_ok.mp h
          have := len_beforeBlock hx
          exact ih (by omega) ((beforeBlock_suffix hx).trans hs) h
        | true =>
          rw [run_inside] at h
          split at h
          · exact (endOfLine_suffix h).trans ((List.drop_suffix _ _).trans hs)
          · obtain ⟨x, hx, h⟩ := Res.bind_eq_ok.mp h
            have := len_fwd hx
            refine ih (by omega) ?_ h
            cases hk : skipSpace r with
            | nil => rw [hk] at hx; cases hx
            | cons d t => rw [hk] at hx hs; cases hx; exact (List.suffix_cons _ _).trans hs
      · rw [run_text hc] at h
        exact ih (by omega) hr' h

/-- C41: whatever the content, the result is the end of it. -/
theorem C41_suffix {content out : Bytes} (h : scanFile lt content = .ok out) : out <:+ content := by
  unfold scanFile at h
  split at h
  · cases h
  · exact run_suffix (lt := lt) (content := content) content.length (Nat.le_refl _) List.suffix_rfl h

theorem dropWhile_end {p : UInt8 → Bool} {c : UInt8} {t : Bytes} (hc : p c = false) : ∀ {r : Bytes}, c :: t <:+ r → c :: t <:+ r.dropWhile p := by
  intro r
  induction r with
  | nil => exact fun h => h
  | cons d r ih =>
    intro h
    rcases List.suffix_cons_iff.mp h with h | h
    · cases h
      rw [List.dropWhile_cons_of_neg (by simp [hc])]
      exact List.suffix_rfl
    · by_cases hd : p d = true
      · rw [List.dropWhile_cons_of_pos hd]
        exact ih h
      · rw [List.dropWhile_cons_of_neg hd]
        exact h.trans (List.suffix_cons _ _)

theorem endOfLine_ok {r : Bytes} (h : (10 : UInt8) ∈ r) : ∃ y, endOfLine r = .ok y := by
  have h1 : toEol r ≠ [] := by
    intro h1
    obtain ⟨u, v, rfl⟩ := List.append_of_mem h
    have : 10 :: v <:+ toEol (u ++ 10 :: v) := dropWhile_end (by simp) (List.suffix_append _ _)
    rw [h1] at this
    simp at this
  unfold endOfLine
  cases ht : toEol r with
  | nil => exact absurd ht h1
  | cons c t =>
    simp only [fwd, Res.ok_bind]
    split <;> exact ⟨_, rfl⟩

theorem suffix_longer {a b l : Bytes} (ha : a <:+ l) (hb : b <:+ l) (h : a.length ≤ b.length) : a <:+ b :=
  List.suffix_of_suffix_length_le ha hb h

/-- Behind a word without a newline something is left, up to the last newline. -/
theorem word_left {w s : Bytes} (hw : (10 : UInt8) ∉ w) (h : w <+: s) (hs : [(10 : UInt8)] <:+ s) : [(10 : UInt8)] <:+ s.drop w.length := by
  obtain ⟨t, rfl⟩ := h
  rw [drop_word]
  cases t with
  | nil =>
    rw [List.append_nil] at hs
    exact absurd (hs.subset (List.mem_singleton.mpr rfl)) hw
  | cons d t => exact suffix_longer hs (List.suffix_append _ _) (by simp)

theorem safe_run {c : UInt8} (hend : [c, 10] <:+ content) (hc : charIsSpace c = false) (hh : c ≠ 35) (hi : ¬ b!"ifdef\n" <:+ content) :
    ∀ (n : Nat) {r : Bytes} {found : Bool}, r.length ≤ n → r <:+ content → ∃ y, run lt content found r = .ok y := by
  intro n
  have h10 : [(10 : UInt8)] <:+ [c, 10] := ⟨[c], rfl⟩
  induction n with
  | zero =>
    intro r found hn _
    cases r with
    | cons => simp at hn
    | nil => exact ⟨_, rfl⟩
  | succ n ih =>
    intro r found hn hr
    cases r with
    | nil => exact ⟨_, rfl⟩
    | cons d r =>
      simp only [List.length_cons] at hn
      have hr' : r <:+ content := (List.suffix_cons _ _).trans hr
      by_cases hd : d = 35
      · subst hd
        have hce : [c, 10] <:+ r := by
          rcases Nat.lt_or_ge r.length 2 with hl | hl
          · have h1 := suffix_longer hr hend (by simp; omega)
            rcases List.suffix_cons_iff.mp h1 with h1 | h1
            · cases h1; exact absurd rfl hh
            · rcases List.suffix_cons_iff.mp h1 with h1 | h1
              · cases h1
              · exact absurd h1 (by simp)
          · exact suffix_longer hend hr' (by simpa using hl)
        have hse : [c, 10] <:+ skipSpace r := dropWhile_end hc hce
        have hs : skipSpace r <:+ content := (List.dropWhile_suffix _).trans hr'
        have hl := len_skipSpace r
        cases found with
        | false =>
          rw [run_before]
          suffices h : ∃ x, beforeBlock lt (skipSpace r) = .ok x by
            obtain ⟨x, hx⟩ := h
            have := len_beforeBlock hx
            rw [hx]
            exact ih (by omega) ((beforeBlock_suffix hx).trans hs)
          unfold beforeBlock
          rw [isWord_eq lt _ (by decide) (by decide), Res.ok_bind]
          simp only [decide_eq_true_eq]
          split
          · rename_i hw
            have h1 := word_left (by decide) hw (h10.trans hse)
            have h2 : [c, 10] <:+ (skipSpace r).drop 5 := by
              obtain ⟨t, ht⟩ := hw
              rw [← ht] at h1 hse hs
              rw [← ht, show (5 : Nat) = (b!"ifdef").length from rfl, drop_word]
              rw [drop_word] at h1
              rcases Nat.lt_or_ge t.length 2 with hl | hl
              · have : t = [10] := by
                  have := h1.eq_of_length_le (by simp; omega)
                  exact this.symm
                subst this
                exact absurd hs hi
              · exact suffix_longer hse (List.suffix_append _ _) (by simpa using hl)
            have h3 : [c, 10] <:+ skipSpace ((skipSpace r).drop 5) := dropWhile_end hc h2
            rw [isWord_eq lt _ (by decide) (by decide), Res.ok_bind]
            have h4 : (10 : UInt8) ∈ (if decide (b!"INTELLISENSE_DIRECTIVES" <+: skipSpace ((skipSpace r).drop 5)) = true then
                (skipSpace ((skipSpace r).drop 5)).drop 23 else skipSpace ((skipSpace r).drop 5)) := by
              split
              · rename_i hw
                exact (word_left (by decide) (of_decide_eq_true hw) (h10.trans h3)).subset (by simp)
              · exact h3.subset (by simp)
            obtain ⟨y, hy⟩ := endOfLine_ok h4
            exact ⟨_, by rw [hy]; rfl⟩
          · obtain ⟨y, hy⟩ := endOfLine_ok (hse.subset (by simp) : (10 : UInt8) ∈ _)
            exact ⟨_, by rw [hy]; rfl⟩
        | true =>
          rw [run_inside]
          split
          · rename_i hw
            exact endOfLine_ok ((word_left (by decide) hw (h10.trans hse)).subset (by simp))
          · cases hk : skipSpace r with
            | nil => rw [hk] at hse; simp at hse
            | cons d t =>
              rw [hk] at hs hl
              simp only [List.length_cons] at hl
              exact ih (by omega) ((List.suffix_cons _ _).trans hs)
      · rw [run_text hd]
        exact ih (by omega) hr'

/-- C41: on a content that ends with a line whose last character is neither white space nor `#`, and which is no bare `#ifdef`, nothing is read
outside of it. -/
theorem C41_safe {content : Bytes} {c : UInt8} (hend : [c, 10] <:+ content) (hc : charIsSpace c = false) (hh : c ≠ 35)
    (hi : ¬ b!"ifdef\n" <:+ content) : ∃ out, scanFile lt content = .ok out := by
  rw [scanFile_eq (by rintro rfl; simp at hend)]
  exact safe_run hend hc hh hi content.length (Nat.le_refl _) List.suffix_rfl

example : [59, 10] <:+ b!"int x;\n" ∧ ¬ b!"ifdef\n" <:+ b!"int x;\n" := by decide

/-! ## What is false -/

/-- C41 is false of contents that end with a directive and no newline, or with a `#` or a bare `#ifdef` and white space: bytes behind the buffer are read. -/
theorem C41_overrun : scanFile true b!"#endif" = .ub ∧ scanFile true b!"#ifdef INTELLISENSE_DIRECTIVES\n#endif" = .ub ∧
    scanFile true b!"a\n#\n" = .ub ∧ scanFile true b!"#ifdef\n" = .ub := by decide +kernel

/-- C41 is false of a blank line behind the block: it is removed too. -/
theorem C41_blank_line : scanFile true b!"#ifdef INTELLISENSE_DIRECTIVES\n#endif\n\nint x;\n" = .ok b!"int x;\n" := by decide +kernel

/-- C41 is false of another macro whose name begins in the same way. -/
theorem C41_other_macro : scanFile true b!"#ifdef INTELLISENSE_DIRECTIVES_2\nint a;\n#endif\nint x;\n" = .ok b!"int x;\n" := by decide +kernel

/-- C41 is false of a nested directive: the block ends with the first `#endif`, whichever it closes. -/
theorem C41_nested : scanFile true b!"#ifdef INTELLISENSE_DIRECTIVES\n#ifdef A\n#endif\n#include <b>\n#endif\nint x;\n" =
    .ok b!"#include <b>\n#endif\nint x;\n" := by decide +kernel

end Verif.Scanner
