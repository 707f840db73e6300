import Verif.Model.Builder
import Verif.Props.StrBuilder
import Verif.Props.Printing
/-!
# C40: the file holds what was printed
-/
namespace Verif.Builder
open Verif.Fmt Verif.SB

/-- The text an operation stands for: one newline for `pad_lines`, the text of the code for `print`, the rendered format for `print_fmt`. -/
inductive Prints (e : Ser.Env) (fuel : Nat) : Op → Bytes → Prop
  | padLines (num : Int) : Prints e fuel (.padLines num) b!"\n"
  | print {p : Nat} {t : Bytes} : Ser.codeToStr e fuel p = .ok t → Prints e fuel (.print p) t
  | printFmt {items : List (Bytes × Conv)} {last : Bytes} : OkFmt items last → (rendered items last).length + 2 < printfMax →
      Prints e fuel (.printFmt (fmtText items last) (fmtArgs items)) (rendered items last)

/-- The same for a list of operations. -/
inductive PrintsAll (e : Ser.Env) (fuel : Nat) : List Op → List Bytes → Prop
  | nil : PrintsAll e fuel [] []
  | cons {o : Op} {t : Bytes} {l : List Op} {ts : List Bytes} : Prints e fuel o t → PrintsAll e fuel l ts → PrintsAll e fuel (o :: l) (t :: ts)

theorem step_holds {lt : Bool} {e : Ser.Env} {fuel : Nat} {b : SB} {c t : Bytes} {o : Op} (h : Holds b c) (ho : Prints e fuel o t) :
    ∃ b', step lt e fuel b o = .ok b' ∧ Holds b' (c ++ t) := by
  cases ho with
  | padLines num =>
    obtain ⟨b', h1, h2, _⟩ := appendStr_holds h b!"\n"
    exact ⟨b', by unfold step; rw [h1]; rfl, h2⟩
  | print hp =>
    obtain ⟨s, hs, h1, _⟩ := makeLength_holds t t.length (Nat.le_refl _)
    rw [List.take_length] at h1
    obtain ⟨b', h2, h3, _⟩ := appendLen_holds h t t.length (Nat.le_refl _)
    rw [List.take_length] at h3
    refine ⟨b', ?_, h3⟩
    show (Ser.codeToStr e fuel _).bind _ = _
    rw [hp, Res.ok_bind]
    show (makeLength (some t) t.length).bind _ = _
    rw [hs, Res.ok_bind]
    show ((readN s.data 0 s.len).bind _).bind _ = _
    rw [h1.readAll, Res.ok_bind, h1.len, h2]
    rfl
  | printFmt h1 h2 =>
    rename_i items last
    obtain ⟨b', h3, h4, _⟩ := appendLen_holds h
      (rendered items last ++ 0 :: List.replicate (printfMax - ((rendered items last).length + 1)) 0) (rendered items last).length (by simp)
    rw [List.take_left] at h4
    exact ⟨b', by show (appendFmt lt b _ _).bind _ = _; rw [C36_append_fmt_partial lt b items last h1 h2, h3]; rfl, h4⟩

theorem run_holds {lt : Bool} {e : Ser.Env} {fuel : Nat} {l : List Op} {ts : List Bytes} (hl : PrintsAll e fuel l ts) :
    ∀ {b : SB} {c : Bytes}, Holds b c → ∃ b', run lt e fuel b l = .ok b' ∧ Holds b' (c ++ ts.flatten) := by
  induction hl with
  | nil => exact fun h => ⟨_, rfl, by simpa using h⟩
  | cons ho _ ih =>
    intro b c h
    obtain ⟨b1, h1, h2⟩ := step_holds (lt := lt) h ho
    obtain ⟨b2, h3, h4⟩ := ih h2
    refine ⟨b2, by unfold run; rw [h1]; exact h3, ?_⟩
    rw [List.flatten_cons, ← List.append_assoc]
    exact h4

/-- C40: the content of the file is the concatenation, in order, of everything printed, whatever the initial size of the buffer. -/
theorem C40_concatenates {lt : Bool} {e : Ser.Env} {fuel size : Nat} {l : List Op} {ts : List Bytes} (hl : PrintsAll e fuel l ts) :
    session lt e fuel size l = .ok ts.flatten := by
  have h0 : Holds (openFile size) [] := ⟨rfl, Nat.zero_le _, _, rfl, by simp [openFile, SB.makeReserve]⟩
  obtain ⟨b, h1, h2⟩ := run_holds (lt := lt) hl h0
  unfold session
  rw [h1]
  exact h2.readAll

/-- What is printed does not depend on what was printed before: the file of two lists of operations is the two files in a row. -/
theorem C40_append {lt : Bool} {e : Ser.Env} {fuel size size' size'' : Nat} {l l' : List Op} {ts ts' : List Bytes} (hl : PrintsAll e fuel l ts)
    (hl' : PrintsAll e fuel l' ts') :
    session lt e fuel size (l ++ l') = (session lt e fuel size' l).bind fun a => (session lt e fuel size'' l').bind fun b => .ok (a ++ b) := by
  have : PrintsAll e fuel (l ++ l') (ts ++ ts') := by
    induction hl with
    | nil => exact hl'
    | cons ho _ ih => exact .cons ho ih
  rw [C40_concatenates this, C40_concatenates hl, C40_concatenates hl']
  simp

/-- C40: a code that cannot be printed (`ub`, or a fatal failure) is no file at all; it is the only way `print` can fail. -/
theorem C40_print_fails {lt : Bool} {e : Ser.Env} {fuel : Nat} {b : SB} {c : Bytes} {p : Nat} (h : Holds b c) :
    (∃ b', step lt e fuel b (.print p) = .ok b') ↔ ∃ t, Ser.codeToStr e fuel p = .ok t := by
  constructor
  · rintro ⟨b', h'⟩
    obtain ⟨t, ht, _⟩ := Res.bind_eq_ok.mp h'
    exact ⟨t, ht⟩
  · rintro ⟨t, ht⟩
    obtain ⟨b', h1, _⟩ := step_holds (lt := lt) h (.print ht)
    exact ⟨b', h1⟩

/-! The hypotheses are met. -/

/-- A heap with two codes: a raw text and a newline. -/
def demoEnv : Ser.Env := { h := { next := 3, cell := fun p => if p = 1 then { type := .Untyped, content := b!"int x;" } else if p = 2 then { type := .NewLine } else {} } }

example : PrintsAll demoEnv 2 [.print 1, .padLines 1, .printFmt (fmtText [(b!"a ", .cstr b!"x" b!"\x00")] b!" b") (fmtArgs [(b!"a ", .cstr b!"x" b!"\x00")])]
    [b!"int x;", b!"\n", b!"a x b"] := by
  refine .cons (.print (by decide +kernel)) (.cons (.padLines 1) (.cons ?_ .nil))
  exact .printFmt (items := [(b!"a ", .cstr b!"x" b!"\x00")]) (last := b!" b") (by simp [OkFmt, OkLit, Conv.Ok, Conv.isS]) (by decide)

/-! ## What is false -/

/-- C40 is false of `pad_lines`: whatever the number asked for, it is one line. -/
theorem C40_pad_lines (lt : Bool) (e : Ser.Env) (fuel size : Nat) (num : Int) : session lt e fuel size [.padLines num] = .ok b!"\n" :=
  C40_concatenates (.cons (.padLines num) .nil)

/-- C40 is false of a text of 131071 bytes or more handed to `print_fmt` as a `%SB`: it is left out. -/
theorem C40_print_fmt_dropped (lt : Bool) (e : Ser.Env) (fuel : Nat) (b : SB) (c s : Bytes) (h : Holds b c) (hs : (0 : UInt8) ∉ s)
    (hl : printfMax - 1 < s.length) : ∃ b', step lt e fuel b (.printFmt b!"%SB\x00" [.sb s s.length]) = .ok b' ∧ Holds b' c := by
  have := C36_dropped lt s [] (List.replicate printfMax 0) (printfMax - 1) hs (by decide) hl (by intro h; have := congrArg List.length h; rw [List.length_replicate] at this; exact absurd this (by decide))
  rw [List.append_nil] at this
  obtain ⟨b', h1, h2, _⟩ := appendLen_holds h (0 :: (List.replicate printfMax 0).drop 1) 0 (Nat.zero_le _)
  refine ⟨b', ?_, by simpa using h2⟩
  show (appendFmt lt b _ _).bind _ = _
  unfold appendFmt
  rw [this]
  rw [Res.ok_bind]
  simp only [show ¬ ((1 : Int) - 1 < 0) by decide, if_false, show ((1 : Int) - 1).toNat = 0 from rfl, h1, Res.ok_bind]

end Verif.Builder
