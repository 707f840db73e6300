import Verif.Props.EnumTablesSpec
import Verif.Proof.LayoutCheck
import Verif.Proof.RoundTop
import Verif.Props.Tools
import Verif.Props.TokenFmt
/-!
# Enums and tables of names: texts and their tokens
-/
namespace Verif.EnumTables
open Verif.Lex (Tok Macros Piece Pos Reads Spaces NotNext toksAt readsB)
open Verif.Round Verif.Parse Verif.SB Verif.Fmt

/-! ## Fixed pieces of text -/

/-- Pieces read one by one, if they are followed by `r`; checked by evaluation. -/
def sitsB : Bool → List Piece → Bytes → Bool
  | _, [], _ => true
  | b, q :: l, r => q.gap.all charIsSpace && (!b || Lex.notNextB (fun b => b == 13 || b == 10) q.gap) && readsB [] q (written l ++ r) && sitsB (lineStart b q.all) l r

theorem reads_macros {ms : Macros} {x e r : Bytes} {ty : TokType} {fl : Nat} (h : Reads [] x e r ty fl) (hm : ty = .Identifier → Lex.lookupMacro ms x = none) : Reads ms x e r ty fl := by
  cases h with
  | word h1 h2 h3 h4 => exact .word h1 h2 (hm rfl) h4
  | keyword h1 h2 h3 h4 h5 h6 h7 => exact .keyword h1 h2 h3 h4 h5 h6 h7
  | externSpec h1 h2 h3 h4 h5 => exact .externSpec h1 h2 h3 h4 h5
  | externLinkage h1 h2 h3 h4 h5 => exact .externLinkage h1 h2 h3 h4 h5
  | macroUse _ _ h => cases h
  | macroMisused _ _ h => cases h
  | punct h1 h2 => exact .punct h1 h2
  | braceClose h => exact .braceClose h
  | semicolon h => exact .semicolon h
  | string h => exact .string h
  | char h1 h2 => exact .char h1 h2
  | charEscape h1 h2 => exact .charEscape h1 h2
  | integer h1 h2 h3 => exact .integer h1 h2 h3
  | based h1 h2 h3 h4 => exact .based h1 h2 h3 h4
  | decimal h1 h2 h3 h4 => exact .decimal h1 h2 h3 h4
  | suffixed h1 h2 h3 h4 => exact .suffixed h1 h2 h3 h4

theorem sitsB_sound {ms : Macros} {l : List Piece} {r r' : Bytes} (hr : r'.head? = r.head?) : ∀ {b : Bool}, sitsB b l r = true →
    (∀ q ∈ l, q.type = .Identifier → Lex.lookupMacro ms q.text = none) → Sits ms b l r' := by
  intro b h hm
  refine sits_head hr ?_
  induction l generalizing b with
  | nil => trivial
  | cons q l ih =>
    simp only [sitsB, Bool.and_eq_true, Bool.or_eq_true, Bool.not_eq_true'] at h
    obtain ⟨⟨⟨h1, h2⟩, h3⟩, h4⟩ := h
    refine ⟨List.all_eq_true.mp h1, fun hb => ?_, .token (reads_macros (Lex.readsB_sound h3) (hm q (by simp))), ih h4 fun q hq => hm q (by simp [hq])⟩
    rcases h2 with h2 | h2
    · rw [hb] at h2; cases h2
    · exact Lex.notNextB_sound h2

/-! ## The enum -/

def comma : Piece := puP [] b!"," .Comma 1
def u32 : Ty := ⟨.name ⟨b!"u32", []⟩, []⟩

def enumHead (t : Words) : List Piece :=
  [puP [] b!"enum" .Decl_Enum 0, idP b!" " t.enum, puP b!" " b!":" .Assign_Classifer 0, idP b!" " b!"u32", puP b!" " b!"{" .BraceCurly_Open 0]

def number : Piece := puP b!" " b!"0xffffffff" .Number 2048

def maxFirst (t : Words) : List Piece := [idP b!" " (t.lead ++ b!"UnderlyingType"), puP b!" " b!"=" .Operator 3]
def valuePieces (t : Words) : List Piece := if t.digits = [] then [idP b!" " t.word] else [number, idP [] t.word]
def maxPieces (t : Words) : List Piece := maxFirst t ++ valuePieces t

theorem written_value {t : Words} (ht : Known t) : written (valuePieces t) = b!" " ++ t.digits ++ t.word := by
  rcases ht with rfl | rfl | rfl | rfl <;> decide

def enumEnd : List Piece := [puP b!" " b!"}" .BraceCurly_Close 512, puP [] b!";" .Statement_End 512]

/-- The enumerators. -/
def entryPieces (t : Words) (g : Bytes) : List Bytes → List Piece
  | [] => idP (g ++ b!" ") t.count :: comma :: maxPieces t
  | x :: l => idP g (t.lead ++ x) :: comma :: entryPieces t b!"\n" l

def enumPieces (t : Words) (xs : List Bytes) : List Piece := enumHead t ++ (entryPieces t b!" " xs ++ enumEnd)

theorem written_entries {t : Words} (ht : Known t) : ∀ {g : Bytes} {xs : List Bytes}, written (entryPieces t g xs) =
    g ++ (entriesText t xs ++ b!" " ++ t.count ++ b!", " ++ t.lead ++ b!"UnderlyingType = " ++ t.digits ++ t.word) := by
  intro g xs
  induction xs generalizing g with
  | nil =>
    rw [entryPieces, written_cons, written_cons, maxPieces, written_append, written_value ht]
    simp [idP, Piece.all, comma, puP, maxFirst, entriesText]
  | cons x xs ih =>
    rw [entryPieces, written_cons, written_cons, ih]
    simp [idP, Piece.all, comma, puP, entriesText]

theorem written_enum {t : Words} {xs : List Bytes} (ht : Known t) : written (enumPieces t xs) = enumSource t xs := by
  rw [enumPieces, written_append, written_append, written_entries ht]
  simp [enumHead, enumEnd, written, idP, puP, Piece.all, enumSource]

theorem no_gap : Spaces [] := by intro b hb; cases hb
theorem blank_gap : Spaces b!" " := by intro b hb; simp at hb; subst hb; decide
theorem line_gap : Spaces b!"\n" := by intro b hb; simp at hb; subst hb; decide

theorem comma_reads {ms : Macros} {r : Bytes} : Reads ms b!"," [] r .Comma 1 := .punct (f := []) (by decide) (by intro b _; simp)

theorem idP_sits {ms : Macros} {g x r : Bytes} {l : List Piece} (hg : Spaces g) (hx : IsName ms x) (hn : NotNext Lex.isWord (written l ++ r)) (hl : Sits ms false l r) :
    Sits ms false (idP g x :: l) r := by
  refine ⟨hg, (fun hh => by cases hh), .token (.word hx.word hx.plain hx.free hn), ?_⟩
  have : lineStart false (idP g x).all = false := by
    obtain ⟨b, h1, h2⟩ := Lex.word_last hx.word
    rw [idP_all, lineStart_of (x := b) (by rw [List.getLast?_append, h1]; rfl)]
    simpa using h2
  rw [this]
  exact hl

theorem fixed_sits {ms : Macros} {l : List Piece} {b : Bool} {r r' : Bytes} (hl : sitsB b l r = true) (hr : r'.head? = r.head?)
    (hm : ∀ q ∈ l, q.type = .Identifier → Lex.lookupMacro ms q.text = none) : Sits ms b l r' := sitsB_sound hr hl hm

theorem sits_entries {ms : Macros} {t : Words} {r : Bytes} (ht : Known t) (hm : Free ms t) (hr : r.head? = some 32) : ∀ {xs : List Bytes} {g : Bytes}, Spaces g → (∀ x ∈ xs, IsName ms (t.lead ++ x)) →
    Sits ms false (entryPieces t g xs) r := by
  have hn : IsName ms t.count := by
    refine ⟨?_, ?_, hm _ (by simp [Words.fixed])⟩
    · rcases ht with rfl | rfl | rfl | rfl <;> exact Lex.wordB_sound (by decide)
    · rcases ht with rfl | rfl | rfl | rfl <;> decide +kernel
  have hmax : Sits ms false (maxPieces t) r := by
    rw [maxPieces, sits_append]
    constructor
    · refine fixed_sits (r := b!" ") ?_ (by rw [written_value ht]; rfl) ?_
      · rcases ht with rfl | rfl | rfl | rfl <;> decide +kernel
      · intro q hq hi
        simp only [maxFirst, List.mem_cons, List.not_mem_nil, or_false] at hq
        rcases hq with rfl | rfl
        · exact hm _ (by simp [Words.fixed, idP])
        · cases hi
    · have e : lineStart false (written (maxFirst t)) = false := by
        rcases ht with rfl | rfl | rfl | rfl <;> rfl
      rw [e]
      have hw : IsName ms t.word := ⟨by rcases ht with rfl | rfl | rfl | rfl <;> exact Lex.wordB_sound (by decide), by rcases ht with rfl | rfl | rfl | rfl <;> decide +kernel,
        hm _ (by simp [Words.fixed])⟩
      have hb : NotNext Lex.isWord (written [] ++ r) := by
        intro b hb
        rw [show written [] ++ r = r from rfl, hr] at hb
        cases hb; decide
      unfold valuePieces
      split
      · exact idP_sits blank_gap hw hb trivial
      · refine ⟨blank_gap, (fun hh => by cases hh), .token (.based (d := 48) (b := 120) (w := b!"ffffffff") (by decide) (by decide) (by decide) ?_), idP_sits no_gap hw hb trivial⟩
        intro b hb
        rw [written_cons] at hb
        rcases ht with rfl | rfl | rfl | rfl <;> cases hb <;> decide
  intro xs
  induction xs with
  | nil =>
    intro g hg _
    refine idP_sits (by intro b hb; rcases List.mem_append.mp hb with h | h; exact hg b h; simp at h; subst h; decide) hn ?_ ⟨no_gap, (fun hh => by cases hh), .token comma_reads, ?_⟩
    · intro b hb; cases hb; decide
    · exact hmax
  | cons x xs ih =>
    intro g hg hx
    refine idP_sits hg (hx x (by simp)) ?_ ⟨no_gap, (fun hh => by cases hh), .token comma_reads, ?_⟩
    · intro b hb; cases hb; decide
    · exact ih line_gap fun y hy => hx y (by simp [hy])

theorem sits_enum {ms : Macros} {t : Words} {xs : List Bytes} (ht : Known t) (hm : Free ms t) (hx : ∀ x ∈ xs, IsName ms (t.lead ++ x)) : Sits ms true (enumPieces t xs) [] := by
  rw [enumPieces, sits_append, sits_append]
  refine ⟨?_, ?_, ?_⟩
  · refine fixed_sits (r := b!" ") ?_ (by rw [written_append, written_entries ht]; rfl) ?_
    · rcases ht with rfl | rfl | rfl | rfl <;> decide +kernel
    · intro q hq hi
      simp only [enumHead, List.mem_cons, List.not_mem_nil, or_false] at hq
      rcases hq with rfl | rfl | rfl | rfl | rfl
      · cases hi
      · exact hm _ (by simp [Words.fixed, idP])
      · cases hi
      · exact hm _ (by simp [Words.fixed, idP])
      · cases hi
  · have e : lineStart true (written (enumHead t)) = false := by
      rcases ht with rfl | rfl | rfl | rfl <;> rfl
    rw [e]
    exact sits_entries ht hm rfl blank_gap hx
  · have e : lineStart (lineStart true (written (enumHead t))) (written (entryPieces t b!" " xs)) = false := by
      rw [written_entries ht, ← List.append_assoc, ← List.append_assoc]
      rcases ht with rfl | rfl | rfl | rfl
      · rw [lineStart_of (x := 117) (by rw [List.getLast?_append]; rfl)]; rfl
      · rw [lineStart_of (x := 117) (by rw [List.getLast?_append]; rfl)]; rfl
      · rw [lineStart_of (x := 88) (by rw [List.getLast?_append]; rfl)]; rfl
      · rw [lineStart_of (x := 88) (by rw [List.getLast?_append]; rfl)]; rfl
    rw [e]
    exact fixed_sits (r := []) (by decide +kernel) rfl (by
      intro q hq hi
      simp only [enumEnd, List.mem_cons, List.not_mem_nil, or_false] at hq
      rcases hq with rfl | rfl <;> cases hi)

theorem On.entryToks {c : Bytes} {t : Words} {ms : Macros} (ht : Known t) : ∀ {xs : List Bytes} {g : Bytes} {p : Pos}, (∀ x ∈ xs, IsName ms (t.lead ++ x)) → On c p (entryPieces t g xs) →
    EnumToks c (entriesPrinted t xs ++ t.count ++ b!"," ++ t.lead ++ b!"UnderlyingType = " ++ t.digits ++ t.word) (toksAt p (entryPieces t g xs)) := by
  have step : ∀ {g x y : Bytes} {p : Pos} {l : List Piece}, x ≠ [] → On c p (idP g x :: comma :: l) → EnumToks c y (toksAt ((p.after (idP g x).all).after comma.all) l) →
      EnumToks c (x ++ b!"," ++ y) (toksAt p (idP g x :: comma :: l)) := by
    intro g x y p l hx ho hy
    have hs := (On.left (l := [idP g x, comma]) ho).spans (q := idP g x) (r := comma) (x := x ++ b!",") rfl rfl (by simp [comma, idP, puP, Piece.all])
    have := EnumToks.entry (us := [tokOf p (idP g x)]) (fs := []) (k := tokOf (p.after (idP g x).all) comma) (.plain ⟨ho.tokIs, hx⟩) (by intro t ht; cases ht) rfl hs (by simp) hy
    simpa [toksAt_cons] using this
  intro xs
  induction xs with
  | nil =>
    intro g p _ ho
    have h0 : t.count ≠ [] := by rcases ht with rfl | rfl | rfl | rfl <;> decide
    have hl := ho.tail.tail
    have hv := EnumToks.last (c := c) (us := toksAt ((p.after (idP (g ++ b!" ") t.count).all).after comma.all) (maxPieces t)) (fs := []) (y := t.lead ++ b!"UnderlyingType = " ++ t.digits ++ t.word)
      (.value (name := t.lead ++ b!"UnderlyingType") ⟨hl.tokIs, by simp⟩ hl.tail.tokIs (by
        intro v hv
        obtain ⟨q, h1, h2⟩ := mem_toksAt (l := valuePieces t) hv
        unfold Code
        rw [h2]
        unfold valuePieces at h1
        split at h1
        · simp only [List.mem_cons, List.not_mem_nil, or_false] at h1
          rcases h1 with rfl
          refine ⟨⟨?_, ?_⟩, ?_, ?_⟩ <;> (intro hh; cases hh)
        · simp only [List.mem_cons, List.not_mem_nil, or_false] at h1
          rcases h1 with rfl | rfl <;> (refine ⟨⟨?_, ?_⟩, ?_, ?_⟩ <;> (intro hh; cases hh)))) (by intro t ht; cases ht)
      (by
        have := hl.spans (q := idP b!" " (t.lead ++ b!"UnderlyingType")) (r := idP (if t.digits = [] then b!" " else []) t.word) (x := t.lead ++ b!"UnderlyingType = " ++ t.digits ++ t.word) rfl
          (by rcases ht with rfl | rfl | rfl | rfl <;> rfl) (by rw [maxPieces, written_append, written_value ht]; simp [maxFirst, idP, puP, Piece.all])
        rw [List.append_nil]; exact this) (by simp)
    have := step h0 ho (by rw [List.append_nil] at hv; exact hv)
    rw [entryPieces]
    simpa [entriesPrinted] using this
  | cons x xs ih =>
    intro g p hx ho
    have := step (isWord_ne (hx x (by simp)).word) ho (ih (fun y hy => hx y (by simp [hy])) ho.tail.tail)
    rw [entryPieces]
    simpa [entriesPrinted] using this

theorem u32_ok : u32.Ok [] :=
  ⟨(by intro x hx; simp at hx; subst hx; exact ⟨Lex.wordB_sound (by decide), by decide +kernel, rfl⟩), (by intro s hs; cases hs), (by decide), by
    intro s hs
    have := hs.length_le
    simp [u32] at this⟩

theorem On.enumDecl {c : Bytes} {t : Words} {ms : Macros} {xs : List Bytes} {p : Pos} (ht : Known t) (hx : ∀ x ∈ xs, IsName ms (t.lead ++ x)) (ho : On c p (enumPieces t xs)) :
    EnumDecl c (enumPrinted t xs) (toksAt p (enumPieces t xs)) := by
  rw [enumPieces] at ho ⊢
  have hn : t.enum ≠ [] := by rcases ht with rfl | rfl | rfl | rfl <;> decide
  have hh := ho.left
  have hu : On c (((p.after (puP [] b!"enum" .Decl_Enum 0).all).after (idP b!" " t.enum).all).after (puP b!" " b!":" .Assign_Classifer 0).all) (typeP b!" " u32) := hh.tail.tail.tail.left (l := [_])
  have := EnumDecl.mk (EnumHead.typed (t := tokOf p (puP [] b!"enum" .Decl_Enum 0)) (q := tokOf ((p.after (puP [] b!"enum" .Decl_Enum 0).all).after (idP b!" " t.enum).all) (puP b!" " b!":" .Assign_Classifer 0)) rfl ⟨hh.tail.tokIs, hn⟩ rfl
    (hu.type u32_ok))
    hh.tail.tail.tail.tail.tokIs (On.entryToks ht hx ho.right.left) ho.right.right.tokIs ho.right.right.tail.tokIs
  rw [toksAt_append, toksAt_append, ← List.append_assoc]
  have e : b!"enum " ++ t.enum ++ b!" : " ++ typeText u32.name.text u32.specs ++ b!"\n{\n" ++
      (entriesPrinted t xs ++ t.count ++ b!"," ++ t.lead ++ b!"UnderlyingType = " ++ t.digits ++ t.word) ++ b!"\n};\n" = enumPrinted t xs := by
    simp [enumPrinted, u32, typeText, TypeName.text, Qual.text]
  rw [← e]
  rw [show typeP b!" " u32 = [idP b!" " b!"u32"] from rfl] at this
  exact this

/-! ## The function -/

def quoted (g y : Bytes) : Piece := ⟨g, 34 :: y, [34], .String, 2048⟩

def rowMid (t : Words) : List Piece := [comma, idP t.outer b!"sizeof", puP [] b!"(" .Paren_Open 0]
def rowEnd : List Piece := [puP [] b!")" .Paren_Close 0, puP b!" " b!"-" .Operator 1, puP b!" " b!"1" .Number 2048, puP b!" " b!"}" .BraceCurly_Close 512, comma]

/-- A row of the table. -/
def rowPieces (t : Words) (g y : Bytes) : List Piece := puP g b!"{" .BraceCurly_Open 0 :: quoted t.inner y :: (rowMid t ++ quoted [] y :: rowEnd)

def fnHead (t : Words) : List Piece :=
  [puP [] b!"inline" .Spec_Inline 256, idP b!" " b!"Str", idP b!" " t.fn, puP [] b!"(" .Paren_Open 0, idP b!" " t.enum, idP b!" " t.arg, puP b!" " b!")" .Paren_Close 0,
    puP b!" " b!"{" .BraceCurly_Open 0]

def fnFirst : List Piece :=
  [puP b!" " b!"local_persist" .Spec_LocalPersist 256, idP b!" " b!"Str", idP b!" " b!"lookup", puP [] b!"[]" .Operator 0, puP b!" " b!"=" .Operator 3, puP b!" " b!"{" .BraceCurly_Open 0]

def fnLast (t : Words) (g : Bytes) : List Piece :=
  [puP (g ++ b!" ") b!"}" .BraceCurly_Close 512, ⟨[], b!";", b!" ", .Statement_End, 512⟩, idP [] b!"return", idP b!" " b!"lookup", puP [] b!"[" .BraceSquare_Open 0, idP b!" " t.arg,
    puP b!" " b!"]" .BraceSquare_Close 0, ⟨[], b!";", b!" ", .Statement_End, 512⟩]

/-- The rows, and what follows them. -/
def tablePieces (t : Words) (g : Bytes) : List Bytes → List Piece
  | [] => fnLast t g
  | y :: l => rowPieces t g y ++ tablePieces t b!"\n" l

def fnEnd (e : Bytes) : List Piece := [⟨[], b!"}", e, .BraceCurly_Close, 512⟩]

/-- The function; `e` stands behind it. -/
def fnPieces (t : Words) (e : Bytes) (ys : List Bytes) : List Piece := fnHead t ++ (fnFirst ++ tablePieces t b!" " ys ++ fnEnd e)

theorem written_row {t : Words} {g y : Bytes} : written (rowPieces t g y) ++ b!"\n" = g ++ rowText t y := by
  simp [rowPieces, rowMid, rowEnd, quoted, comma, puP, idP, Piece.all, rowText]

theorem written_table {t : Words} {ys : List Bytes} : ∀ {g : Bytes}, written (tablePieces t g ys) = g ++ (namesText t ys ++ b!" }; return lookup[ " ++ t.arg ++ b!" ]; ") := by
  induction ys with
  | nil => intro g; simp [tablePieces, fnLast, puP, idP, Piece.all, namesText]
  | cons y ys ih =>
    intro g
    rw [tablePieces, written_append, ih, ← List.append_assoc, written_row]
    simp [namesText]

theorem written_fn {t : Words} {e : Bytes} {ys : List Bytes} : written (fnPieces t e ys) = fnSource t ys ++ e := by
  rw [fnPieces, written_append, written_append, written_append, written_table]
  simp [fnHead, fnFirst, fnEnd, puP, idP, Piece.all, fnSource]

theorem open_reads {ms : Macros} {r : Bytes} : Reads ms b!"{" [] r .BraceCurly_Open 0 := .punct (f := []) (by decide) (by intro b _; simp)

theorem blanks_gap {t : Words} (ht : Known t) : Spaces t.inner ∧ Spaces t.outer := by
  rcases ht with rfl | rfl | rfl | rfl <;> (constructor <;> intro b hb <;> revert b <;> decide)

theorem sits_row {ms : Macros} {t : Words} (ht : Known t) (hm : Free ms t) {g y r : Bytes} (hr : r.head? = some 10) (hg : Spaces g) (hy : Lex.StrBody y) : Sits ms false (rowPieces t g y) r := by
  have hf : ∀ l : List Piece, (∀ q ∈ l, q.type = .Identifier → q.text = b!"sizeof") → ∀ q ∈ l, q.type = .Identifier → Lex.lookupMacro ms q.text = none := by
    intro l h q hq hi
    rw [h q hq hi]
    exact hm _ (by simp [Words.fixed])
  refine ⟨hg, (fun hh => by cases hh), .token open_reads, ?_⟩
  have e1 : lineStart false (puP g b!"{" .BraceCurly_Open 0).all = false := by
    rw [lineStart_of (x := 123) (by simp [puP, Piece.all, List.getLast?_append])]; rfl
  rw [e1]
  refine ⟨(blanks_gap ht).1, (fun hh => by cases hh), .token (.string hy), ?_⟩
  have e2 : ∀ g, lineStart false (quoted g y).all = false := by
    intro g
    rw [lineStart_of (x := 34) (by rw [quoted, Piece.all]; simp only [List.getLast?_append]; rfl)]; rfl
  rw [e2, sits_append]
  refine ⟨fixed_sits (r := b!"\"") (by rcases ht with rfl | rfl | rfl | rfl <;> decide +kernel) rfl (hf _ (by rcases ht with rfl | rfl | rfl | rfl <;> decide)), ?_⟩
  rw [show lineStart false (written (rowMid t)) = false by rcases ht with rfl | rfl | rfl | rfl <;> rfl]
  refine ⟨no_gap, (fun hh => by cases hh), .token (.string hy), ?_⟩
  rw [e2]
  exact fixed_sits (r := b!"\n") (by decide +kernel) hr (hf _ (by decide))

theorem table_head {t : Words} {ys : List Bytes} {g r : Bytes} {b : UInt8} (hg : g.head? = some b) : (written (tablePieces t g ys) ++ r).head? = some b := by
  rw [written_table, List.append_assoc, List.head?_append, hg]
  rfl

theorem sits_table {ms : Macros} {t : Words} (ht : Known t) (hm : Free ms t) {r : Bytes} (hr : r.head? = some 125) : ∀ {ys : List Bytes} {g : Bytes}, (g = b!" " ∨ g = b!"\n") →
    (∀ y ∈ ys, Lex.StrBody y) → Sits ms false (tablePieces t g ys) r := by
  intro ys
  induction ys with
  | nil =>
    intro g hg _
    refine fixed_sits (r := b!"}") ?_ hr ?_
    · rcases ht with rfl | rfl | rfl | rfl <;> rcases hg with rfl | rfl <;> decide +kernel
    · intro q hq hi
      simp only [tablePieces, fnLast, List.mem_cons, List.not_mem_nil, or_false] at hq
      rcases hq with rfl | rfl | rfl | rfl | rfl | rfl | rfl | rfl
      · cases hi
      · cases hi
      · exact hm _ (by simp [Words.fixed, idP])
      · exact hm _ (by simp [Words.fixed, idP])
      · cases hi
      · exact hm _ (by simp [Words.fixed, idP])
      · cases hi
      · cases hi
  | cons y ys ih =>
    intro g hg hy
    rw [tablePieces, sits_append]
    refine ⟨sits_row ht hm (table_head rfl) (by rcases hg with rfl | rfl; exact blank_gap; exact line_gap) (hy y (by simp)), ?_⟩
    have e : lineStart false (written (rowPieces t g y)) = false := by
      have h2 : written (rowPieces t g y) = g ++ (b!"{" ++ t.inner ++ b!"\"" ++ y ++ b!"\"," ++ t.outer ++ b!"sizeof(\"" ++ y ++ b!"\") - 1 },") := by
        simp [rowPieces, rowMid, rowEnd, quoted, comma, puP, idP, Piece.all]
      rw [h2, lineStart_of (x := 44) (by simp only [List.getLast?_append]; rfl)]
      rfl
    rw [e]
    exact ih (.inr rfl) fun z hz => hy z (by simp [hz])

theorem sits_fn {ms : Macros} {t : Words} (ht : Known t) (hm : Free ms t) {ys : List Bytes} (hy : ∀ y ∈ ys, Lex.StrBody y) {b : Bool} {e r : Bytes}
    (he : e = [] ∧ r = [] ∨ e = b!" " ∧ r.head? = some 105) : Sits ms b (fnPieces t e ys) r := by
  rw [fnPieces, sits_append, sits_append, sits_append]
  refine ⟨?_, ⟨?_, ?_⟩, ?_⟩
  · refine fixed_sits (r := b!" ") ?_ rfl ?_
    · rcases ht with rfl | rfl | rfl | rfl <;> cases b <;> decide +kernel
    · intro q hq hi
      simp only [fnHead, List.mem_cons, List.not_mem_nil, or_false] at hq
      rcases hq with rfl | rfl | rfl | rfl | rfl | rfl | rfl | rfl <;> first | (cases hi; done) | exact hm _ (by simp [Words.fixed, idP])
  · have e : lineStart b (written (fnHead t)) = false := by
      rcases ht with rfl | rfl | rfl | rfl <;> rfl
    rw [e]
    refine fixed_sits (r := b!" ") (by decide +kernel) (table_head rfl) ?_
    intro q hq hi
    simp only [fnFirst, List.mem_cons, List.not_mem_nil, or_false] at hq
    rcases hq with rfl | rfl | rfl | rfl | rfl | rfl <;> first | (cases hi; done) | exact hm _ (by simp [Words.fixed, idP])
  · rw [show lineStart (lineStart b (written (fnHead t))) (written fnFirst) = false from lineStart_of (x := 123) rfl]
    exact sits_table ht hm rfl (.inl rfl) hy
  · rw [lineStart_of (x := 32) (by rw [written_append, written_table, ← List.append_assoc, List.getLast?_append, List.getLast?_append]; rfl)]
    have hf : ∀ q ∈ fnEnd e, q.type = .Identifier → Lex.lookupMacro ms q.text = none := by
      intro q hq hi
      simp only [fnEnd, List.mem_cons, List.not_mem_nil, or_false] at hq
      subst hq; cases hi
    rcases he with ⟨rfl, rfl⟩ | ⟨rfl, hr⟩
    · exact fixed_sits (r := []) (by decide +kernel) rfl hf
    · exact fixed_sits (r := b!"i") (by decide +kernel) hr hf

/-! The tokens of the body. -/

def lastRest (t : Words) : List Piece := (fnLast t []).tail

theorem table_shape {t : Words} : ∀ {ys : List Bytes} {g : Bytes}, ∃ rows z, shape (tablePieces t g ys) = rows ++ z :: shape (lastRest t) ∧ Balanced rows ∧ z.type = .BraceCurly_Close := by
  intro ys
  induction ys with
  | nil => intro g; exact ⟨[], _, rfl, bal_nil, rfl⟩
  | cons y ys ih =>
    intro g
    obtain ⟨rows, z, h1, h2, h3⟩ := ih (g := b!"\n")
    refine ⟨shape (rowPieces t g y) ++ rows, z, ?_, bal_append ?_ h2, h3⟩
    · rw [tablePieces, shape, List.map_append]
      show shape _ ++ shape _ = _
      rw [h1, List.append_assoc]
    · refine bal_append (a := _ :: [_, _, _, _, _, _, _, _] ++ [_]) (b := [_]) (bal_wrap rfl rfl (bal_all ?_)) (bal_one ⟨(by intro hh; cases hh), by intro hh; cases hh⟩)
      intro t ht
      simp only [List.mem_cons, List.not_mem_nil, or_false] at ht
      rcases ht with rfl | rfl | rfl | rfl | rfl | rfl | rfl | rfl <;> exact ⟨(by intro hh; cases hh), by intro hh; cases hh⟩

theorem body_shape {t : Words} {ys : List Bytes} : Balanced (shape (fnFirst ++ tablePieces t b!" " ys)) := by
  obtain ⟨rows, z, h1, h2, h3⟩ := table_shape (t := t) (ys := ys) (g := b!" ")
  rw [shape, List.map_append]
  show Balanced (shape fnFirst ++ shape _)
  rw [h1]
  have e : shape fnFirst ++ (rows ++ z :: shape (lastRest t)) =
      shape fnFirst.dropLast ++ ((⟨0, 1, .BraceCurly_Open, 0, 0, 0⟩ :: rows ++ [z]) ++ shape (lastRest t)) := by
    simp [shape, fnFirst, puP, idP]
  rw [e]
  refine bal_append (bal_all (by decide)) (bal_append (bal_wrap rfl h3 h2) (bal_all ?_))
  intro q hq
  simp only [lastRest, fnLast, shape, List.tail_cons, List.map_cons, List.map_nil, List.mem_cons, List.not_mem_nil, or_false] at hq
  rcases hq with rfl | rfl | rfl | rfl | rfl | rfl | rfl <;> exact ⟨(by intro hh; cases hh), by intro hh; cases hh⟩

theorem body_balanced {t : Words} {ys : List Bytes} {p : Pos} : Balanced (toksAt p (fnFirst ++ tablePieces t b!" " ys)) :=
  balanced_types (us := shape (fnFirst ++ tablePieces t b!" " ys)) (by rw [toksAt_types, shape_types]) body_shape

theorem table_last {t : Words} : ∀ {ys : List Bytes} {g : Bytes}, (tablePieces t g ys).getLast? = some ⟨[], b!";", b!" ", .Statement_End, 512⟩ := by
  intro ys
  induction ys with
  | nil => intro g; rfl
  | cons y ys ih => intro g; rw [tablePieces, List.getLast?_append, ih]; rfl

theorem named {x : Bytes} (h : Lex.wordB x = true) (hp : strToTokType x = .Invalid) : (⟨.name ⟨x, []⟩, []⟩ : Ty).Ok [] :=
  ⟨(by intro y hy; simp at hy; subst hy; exact ⟨Lex.wordB_sound h, hp, rfl⟩), (by intro s hs; cases hs), (by simp), by
    intro s hs
    have := hs.length_le
    simp at this⟩

theorem FnToks.cast {ms : Macros} {c : Bytes} {f : Tok} {x y : Bytes} {l k : List Tok} (hx : x = y) (hl : l = k) (h : FnToks ms c f x l) : FnToks ms c f y k := by
  subst hx hl; exact h

theorem On.fnToks {ms : Macros} {c : Bytes} {t : Words} {ys : List Bytes} {e : Bytes} {p : Pos} (ht : Known t) (ho : On c p (fnPieces t e ys)) :
    ∃ f, FnToks ms c f (fnPrinted t ys) (toksAt p (fnPieces t e ys)) ∧ f.type ≠ .Spec_Const := by
  rw [fnPieces] at ho ⊢
  have hh := ho.left
  have h1 : On c (p.after (puP [] b!"inline" .Spec_Inline 256).all) (typeP b!" " ⟨.name ⟨b!"Str", []⟩, []⟩) := hh.tail.left (l := [_])
  have h4 : On c ((((p.after (puP [] b!"inline" .Spec_Inline 256).all).after (idP b!" " b!"Str").all).after (idP b!" " t.fn).all).after (puP [] b!"(" .Paren_Open 0).all)
      (typeP b!" " ⟨.name ⟨t.enum, []⟩, []⟩) := hh.tail.tail.tail.tail.left (l := [_])
  have n1 : t.fn ≠ [] := by rcases ht with rfl | rfl | rfl | rfl <;> decide
  have n2 : t.arg ≠ [] := by rcases ht with rfl | rfl | rfl | rfl <;> decide
  have hty := h1.type (named (by decide) (by decide +kernel))
  have hen := h4.type (named (x := t.enum) (by rcases ht with rfl | rfl | rfl | rfl <;> decide) (by rcases ht with rfl | rfl | rfl | rfl <;> decide +kernel))
  refine ⟨tokOf (p.after (puP [] b!"inline" .Spec_Inline 256).all) (idP b!" " b!"Str"), ?_, by intro hh; cases hh⟩
  have hns : noSpaces t.fn = t.fn := by rcases ht with rfl | rfl | rfl | rfl <;> decide
  have hq : QualToks c t.fn [tokOf ((p.after (puP [] b!"inline" .Spec_Inline 256).all).after (idP b!" " b!"Str").all) (idP b!" " t.fn)] :=
    .mk (l := []) ⟨hh.tail.tail.tokIs, n1⟩ (by intro p hp; cases hp) ((hh.tail.tail.left (l := [_])).spans (q := idP b!" " t.fn) (r := idP b!" " t.fn) rfl rfl (by simp [idP, Piece.all])) n1
  have hhead := FnHead.mk (c := c) (lead := [.Inline]) (f := tokOf (p.after (puP [] b!"inline" .Spec_Inline 256).all) (idP b!" " b!"Str"))
    rfl (.cons hh.tokIs .nil) (by decide) hty hq (by rcases ht with rfl | rfl | rfl | rfl <;> decide) (by rw [hns]; exact n1)
  have hp := ParamsToks.some hh.tail.tail.tail.tokIs (.mk hen (.name ⟨hh.tail.tail.tail.tail.tail.tokIs, n2⟩) .none) .nil hh.tail.tail.tail.tail.tail.tail.tokIs
  have hbp : Spans c (toksAt (p.after (written (fnHead t))) (fnFirst ++ tablePieces t b!" " ys)) (b!"local_persist Str lookup[] = { " ++ namesText t ys ++ b!" }; return lookup[ " ++ t.arg ++ b!" ];") :=
    ho.right.left.spans (q := puP b!" " b!"local_persist" .Spec_LocalPersist 256) (r := ⟨[], b!";", b!" ", .Statement_End, 512⟩) rfl
      (by rw [List.getLast?_append, table_last]; rfl)
      (by rw [written_append, written_table]; simp [fnFirst, puP, idP, Piece.all])
  have hb := FnEnd.body (BodyToks.text hh.tail.tail.tail.tail.tail.tail.tail.tokIs (body_balanced (t := t) (ys := ys)) hbp (by simp) ho.right.right.tokIs)
  have h := FnToks.mk (ms := ms) hhead hp .nil (by intro s hs; cases hs) (by intro s hs; cases hs) (by decide) hb
  rw [toksAt_append, toksAt_append (l := fnFirst ++ _)]
  rw [show typeP b!" " ⟨.name ⟨b!"Str", []⟩, []⟩ = [idP b!" " b!"Str"] from rfl, show typeP b!" " ⟨.name ⟨t.enum, []⟩, []⟩ = [idP b!" " t.enum] from rfl] at h
  refine FnToks.cast ?_ ?_ h
  · rw [hns]
    simp [specWords, typeText, TypeName.text, Qual.text, specToStr, fnPrinted, List.intercalate, after, n2, idP]
  · simp [toksAt_cons, toksAt_nil, fnHead, fnEnd]

theorem DeclToks.cast {ms : Macros} {c : Bytes} {p : Place} {next : List Tok} {x y : Bytes} {l k : List Tok} (hx : x = y) (hl : l = k) (h : DeclToks ms c p next x l) : DeclToks ms c p next y k := by
  subst hx hl; exact h

/-- The same function in a file. -/
theorem On.declToks {ms : Macros} {c : Bytes} {t : Words} {ys : List Bytes} {e : Bytes} {p : Pos} {next : List Tok} (ht : Known t) (ho : On c p (fnPieces t e ys)) :
    DeclToks ms c .file next (fnPrinted t ys) (toksAt p (fnPieces t e ys)) := by
  rw [fnPieces] at ho ⊢
  have hh := ho.left
  have h1 : On c (p.after (puP [] b!"inline" .Spec_Inline 256).all) (typeP b!" " ⟨.name ⟨b!"Str", []⟩, []⟩) := hh.tail.left (l := [_])
  have h4 : On c ((((p.after (puP [] b!"inline" .Spec_Inline 256).all).after (idP b!" " b!"Str").all).after (idP b!" " t.fn).all).after (puP [] b!"(" .Paren_Open 0).all)
      (typeP b!" " ⟨.name ⟨t.enum, []⟩, []⟩) := hh.tail.tail.tail.tail.left (l := [_])
  have n1 : t.fn ≠ [] := by rcases ht with rfl | rfl | rfl | rfl <;> decide
  have n2 : t.arg ≠ [] := by rcases ht with rfl | rfl | rfl | rfl <;> decide
  have hty := h1.type (named (by decide) (by decide +kernel))
  have hen := h4.type (named (x := t.enum) (by rcases ht with rfl | rfl | rfl | rfl <;> decide) (by rcases ht with rfl | rfl | rfl | rfl <;> decide +kernel))
  have hns : noSpaces t.fn = t.fn := by rcases ht with rfl | rfl | rfl | rfl <;> decide
  have hq : QualToks c t.fn [tokOf ((p.after (puP [] b!"inline" .Spec_Inline 256).all).after (idP b!" " b!"Str").all) (idP b!" " t.fn)] :=
    .mk (l := []) ⟨hh.tail.tail.tokIs, n1⟩ (by intro p hp; cases hp) ((hh.tail.tail.left (l := [_])).spans (q := idP b!" " t.fn) (r := idP b!" " t.fn) rfl rfl (by simp [idP, Piece.all])) n1
  have hhead := DeclHead.mk (c := c) (k := .file) (specs := [.Inline]) (.cons hh.tokIs .nil) (by decide) (by intro x hx; cases hx; decide) hty (by intro hx; cases hx) hq
  have hp := ParamsToks.some hh.tail.tail.tail.tokIs (.mk hen (.name ⟨hh.tail.tail.tail.tail.tail.tokIs, n2⟩) .none) .nil hh.tail.tail.tail.tail.tail.tail.tokIs
  have hbp : Spans c (toksAt (p.after (written (fnHead t))) (fnFirst ++ tablePieces t b!" " ys)) (b!"local_persist Str lookup[] = { " ++ namesText t ys ++ b!" }; return lookup[ " ++ t.arg ++ b!" ];") :=
    ho.right.left.spans (q := puP b!" " b!"local_persist" .Spec_LocalPersist 256) (r := ⟨[], b!";", b!" ", .Statement_End, 512⟩) rfl
      (by rw [List.getLast?_append, table_last]; rfl)
      (by rw [written_append, written_table]; simp [fnFirst, puP, idP, Piece.all])
  have hb := FnEnd.body (BodyToks.text hh.tail.tail.tail.tail.tail.tail.tail.tokIs (body_balanced (t := t) (ys := ys)) hbp (by simp) ho.right.right.tokIs)
  have h := DeclToks.fn (ms := ms) (next := next) hhead (by decide) (by rcases ht with rfl | rfl | rfl | rfl <;> decide) (by rw [hns]; exact n1) hp
    (by intro t ht; cases ht; intro hh; cases hh) .nil (by intro s hs; cases hs) (by intro s hs; cases hs) (by decide) hb (by
      intro u hu
      have := congrArg List.length hu
      simp [toksAt_length, fnFirst] at this)
  rw [toksAt_append, toksAt_append (l := fnFirst ++ _)]
  rw [show typeP b!" " ⟨.name ⟨b!"Str", []⟩, []⟩ = [idP b!" " b!"Str"] from rfl, show typeP b!" " ⟨.name ⟨t.enum, []⟩, []⟩ = [idP b!" " t.enum] from rfl] at h
  refine DeclToks.cast ?_ ?_ h
  · rw [hns]
    simp [specWords, typeText, TypeName.text, Qual.text, specToStr, fnPrinted, List.intercalate, after, n2, idP]
  · simp [toksAt_cons, toksAt_nil, fnHead, fnEnd]

end Verif.EnumTables
