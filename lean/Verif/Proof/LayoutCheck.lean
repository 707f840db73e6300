import Verif.Proof.Layout
/-!
# Checking the pieces of a content by evaluation
-/
namespace Verif.Lex

def wordB : Bytes → Bool
  | [] => false
  | a :: r => (charIsAlpha a || a == 95) && r.all fun b => charIsAlphanumeric b || b == 95

theorem wordB_sound {x : Bytes} (h : wordB x = true) : IsWord x := by
  cases x with
  | nil => cases h
  | cons a r =>
    simp only [wordB, Bool.and_eq_true, Bool.or_eq_true, beq_iff_eq, List.all_eq_true] at h
    exact ⟨a, r, rfl, h.1, h.2⟩

def notNextB (P : UInt8 → Bool) (r : Bytes) : Bool := !(r.head?.any P)

theorem notNextB_sound {P : UInt8 → Bool} {r : Bytes} (h : notNextB P r = true) : NotNext P r := by
  intro b hb
  unfold notNextB at h
  rw [hb] at h
  simpa using h

def lineEndB (e r : Bytes) : Bool :=
  (e.all (· == 32) && notNextB (fun b => b == 32 || b == 10 || b == 13) r) || (e.getLast? == some 10 && e.dropLast.all (· == 32))

theorem lineEndB_sound {e r : Bytes} (h : lineEndB e r = true) : LineEnd e r := by
  have key : ∀ {l : Bytes}, l.all (· == 32) = true → l = List.replicate l.length 32 := fun h =>
    List.eq_replicate_iff.mpr ⟨rfl, fun b hb => by simpa using List.all_eq_true.mp h b hb⟩
  unfold lineEndB at h
  simp only [Bool.or_eq_true, Bool.and_eq_true, beq_iff_eq] at h
  rcases h with h | h
  · rw [key h.1]; exact .none (notNextB_sound h.2)
  · obtain ⟨d, hd⟩ := List.getLast?_eq_some_iff.mp h.1
    subst hd
    rw [List.dropLast_concat] at h
    rw [key h.2]
    exact .lf

/-- The common cases of `Reads`. -/
def readsB (ms : Macros) (q : Piece) (w : Bytes) : Bool :=
  (wordB q.text && q.over.isEmpty && notNextB isWord w && decide (strToTokType q.text = .Invalid) && decide (lookupMacro ms q.text = none) &&
    decide (q.type = .Identifier) && decide (q.flags = 0)) ||
  (wordB q.text && q.over.isEmpty && notNextB isWord w && decide (strToTokType q.text = q.type) && decide (q.flags = keywordFlags q.type) &&
    decide (q.type ∉ [.Invalid, .Decl_Extern_Linkage, .Preprocess_Macro_Stmt, .Preprocess_Macro_Expr])) ||
  (decide (q.text = b!";") && lineEndB q.over w && decide (q.type = .Statement_End) && decide (q.flags = 512)) ||
  (decide (q.text = b!"}") && lineEndB q.over w && decide (q.type = .BraceCurly_Close) && decide (q.flags = 512)) ||
  (q.over.isEmpty && punctuation.any fun a => a.1 == q.text && decide (a.2.2.1 = q.type) && decide (a.2.2.2 = q.flags) && notNextB (fun b => b ∈ a.2.1) w) ||
  (q.over.isEmpty && !q.text.isEmpty && q.text.all charIsDigit && decide (q.type = .Number) && decide (q.flags = 2048) &&
    notNextB (fun b => charIsDigit b || b == 46 || (q.text.length == 1 && b!"xXbBoO".contains b)) w)

theorem readsB_sound {ms : Macros} {q : Piece} {w : Bytes} (h : readsB ms q w = true) : Reads ms q.text q.over w q.type q.flags := by
  obtain ⟨g, x, e, ty, fl⟩ := q
  unfold readsB at h
  simp only [Bool.or_eq_true, Bool.and_eq_true, decide_eq_true_eq, List.isEmpty_iff, Bool.not_eq_true'] at h
  rcases h with ((((h | h) | h) | h) | h) | h
  · obtain ⟨⟨⟨⟨⟨⟨h1, h2⟩, h3⟩, h4⟩, h5⟩, h6⟩, h7⟩ := h
    subst h2; subst h6; subst h7
    exact .word (wordB_sound h1) h4 h5 (notNextB_sound h3)
  · obtain ⟨⟨⟨⟨⟨h1, h2⟩, h3⟩, h4⟩, h5⟩, h6⟩ := h
    subst h2; subst h5
    simp only [List.mem_cons, List.not_mem_nil, or_false, not_or] at h6
    exact .keyword (wordB_sound h1) h4 h6.1 h6.2.1 h6.2.2.1 h6.2.2.2 (notNextB_sound h3)
  · obtain ⟨⟨⟨h1, h2⟩, h3⟩, h4⟩ := h
    subst h1; subst h3; subst h4
    exact .semicolon (lineEndB_sound h2)
  · obtain ⟨⟨⟨h1, h2⟩, h3⟩, h4⟩ := h
    subst h1; subst h3; subst h4
    exact .braceClose (lineEndB_sound h2)
  · obtain ⟨h1, h2⟩ := h
    obtain ⟨⟨a, f, t, n⟩, h3, h4⟩ := List.any_eq_true.mp h2
    simp only [Bool.and_eq_true, beq_iff_eq, decide_eq_true_eq] at h4
    obtain ⟨⟨⟨h5, h6⟩, h7⟩, h8⟩ := h4
    subst h1; subst h5; subst h6; subst h7
    exact .punct h3 (notNextB_sound h8)
  · obtain ⟨⟨⟨⟨⟨h1, h2⟩, h3⟩, h4⟩, h5⟩, h6⟩ := h
    subst h1; subst h4; subst h5
    exact .integer (by rintro rfl; simp at h2) (List.all_eq_true.mp h3) (notNextB_sound h6)

/-- The content of the pieces. -/
def piecesText (l : List Piece) : Bytes := l.flatMap Piece.all

def laidB (ms : Macros) : List Piece → Bool
  | [] => true
  | q :: l => q.gap.all charIsSpace && readsB ms q (piecesText l) && (q.over.getLast? != some 10 || notNextB (fun b => b == 13 || b == 10) (piecesText l)) && laidB ms l

theorem laidB_sound {ms : Macros} {l : List Piece} (h : laidB ms l = true) : Laid ms l (piecesText l) := by
  induction l with
  | nil => exact .nil (by intro b hb; cases hb)
  | cons q l ih =>
    simp only [laidB, Bool.and_eq_true, Bool.or_eq_true, bne_iff_ne, ne_eq] at h
    obtain ⟨⟨⟨h1, h2⟩, h3⟩, h4⟩ := h
    exact .cons (List.all_eq_true.mp h1) (readsB_sound h2) (fun hh => notNextB_sound (h3.resolve_left fun hn => hn hh)) (ih h4)

end Verif.Lex

namespace Verif.Parse
open Verif.Lex

theorem hasToks_pieces {ms : Lex.Macros} {l : List Piece} (h : (laidB ms l && notNextB charIsSpace (piecesText l) && !l.isEmpty) = true) :
    HasToks ms (piecesText l) (toksAt ⟨0, 1, 1⟩ l) := by
  simp only [Bool.and_eq_true, Bool.not_eq_true', List.isEmpty_eq_false_iff] at h
  exact laid_hasToks (g := []) (by intro b hb; cases hb) (laidB_sound h.1.1) (notNextB_sound h.1.2) h.2

end Verif.Parse
