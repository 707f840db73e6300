import Verif.Props.EnumTables
/-!
# C65: the kinds of codes
-/
namespace Verif.EnumTables
open Verif.Lex (Tok Macros Pos Piece toksAt)
open Verif.Round hiding Fn
open Verif.Parse hiding Calm
open Verif.SB Verif.Fmt Verif.Os Verif.Files

/-! ## The two functions -/

/-- Pieces that are neither `::` nor `~`. -/
def Innocent (q : Piece) : Prop := q.type ≠ .Access_StaticSymbol ∧ (q.type = .Operator → q.text.head? ≠ some 126)

theorem innocent_of {q : Piece} (h : q.type ≠ .Access_StaticSymbol) (h' : q.type ≠ .Operator) : Innocent q := ⟨h, fun hh => absurd hh h'⟩

theorem table_innocent {t : Words} : ∀ {ys : List Bytes} {g : Bytes}, ∀ q ∈ tablePieces t g ys, Innocent q := by
  intro ys
  induction ys with
  | nil =>
    intro g q hq
    simp only [tablePieces, fnLast, List.mem_cons, List.not_mem_nil, or_false] at hq
    rcases hq with rfl | rfl | rfl | rfl | rfl | rfl | rfl | rfl <;> exact innocent_of (by intro hh; cases hh) (by intro hh; cases hh)
  | cons y ys ih =>
    intro g q hq
    rw [tablePieces, List.mem_append] at hq
    rcases hq with hq | hq
    · simp only [rowPieces, rowMid, rowEnd, List.mem_cons, List.mem_append, List.not_mem_nil, or_false] at hq
      rcases hq with rfl | rfl | (rfl | rfl | rfl) | rfl | rfl | rfl | rfl | rfl | rfl <;>
        first | (refine innocent_of ?_ ?_ <;> (intro hh; cases hh; done)) | exact ⟨(by intro hh; cases hh), fun _ => by simp [puP]⟩
    · exact ih q hq

theorem fn_innocent {t : Words} {e : Bytes} {ys : List Bytes} : ∀ q ∈ fnPieces t e ys, Innocent q := by
  intro q hq
  rw [fnPieces, List.mem_append, List.mem_append, List.mem_append] at hq
  rcases hq with hq | (hq | hq) | hq
  · simp only [fnHead, List.mem_cons, List.not_mem_nil, or_false] at hq
    rcases hq with rfl | rfl | rfl | rfl | rfl | rfl | rfl | rfl <;> exact innocent_of (by intro hh; cases hh) (by intro hh; cases hh)
  · simp only [fnFirst, List.mem_cons, List.not_mem_nil, or_false] at hq
    rcases hq with rfl | rfl | rfl | rfl | rfl | rfl <;>
      first | (refine innocent_of ?_ ?_ <;> (intro hh; cases hh; done)) | exact ⟨(by intro hh; cases hh), fun _ => by simp [puP]⟩
  · exact table_innocent q hq
  · simp only [fnEnd, List.mem_cons, List.not_mem_nil, or_false] at hq
    subst hq
    exact innocent_of (by intro hh; cases hh) (by intro hh; cases hh)

theorem fn_balanced {t : Words} {e : Bytes} {ys : List Bytes} : Balanced (shape (fnPieces t e ys)) := by
  have h : shape (fnPieces t e ys) = shape (fnHead t).dropLast ++ (⟨0, 1, .BraceCurly_Open, 0, 0, 0⟩ :: shape (fnFirst ++ tablePieces t b!" " ys) ++ shape (fnEnd e)) := by
    simp [fnPieces, shape, fnHead, puP, idP]
  rw [h]
  refine bal_append (bal_all ?_) (bal_wrap rfl rfl body_shape)
  intro q hq
  simp only [fnHead, shape, List.dropLast_cons_cons, List.dropLast_singleton, List.map_cons, List.map_nil, List.mem_cons, List.not_mem_nil, or_false] at hq
  rcases hq with rfl | rfl | rfl | rfl | rfl | rfl | rfl <;> exact ⟨(by intro hh; cases hh), by intro hh; cases hh⟩

/-- The pieces of both. -/
def codePieces (xs ys : List Bytes) : List Piece := fnPieces codes b!" " xs ++ fnPieces keywords [] ys

theorem code_tame {xs ys : List Bytes} : Tame (codePieces xs ys) := by
  have hi : ∀ q ∈ codePieces xs ys, Innocent q := by
    intro q hq
    rcases List.mem_append.mp hq with hq | hq <;> exact fn_innocent q hq
  refine ⟨?_, ?_, ?_⟩
  · intro pre z post e _
    constructor
    · intro l x y hp _ hx
      exact (hi x (by rw [e, hp]; simp)).2 hx
    · intro l w x y hp hx
      exact absurd hx (hi x (by rw [e, hp]; simp)).1
  · intro q hq
    cases hq
    exact ⟨(by intro hh; cases hh), by intro hh; cases hh⟩
  · rw [codePieces, shape, List.map_append]
    exact bal_append fn_balanced fn_balanced

theorem code_sits {ms : Macros} (h1 : Free ms codes) (h2 : Free ms keywords) {xs ys : List Bytes} (hx : ∀ x ∈ xs, Lex.StrBody x) (hy : ∀ y ∈ ys, Lex.StrBody y) : Sits ms true (codePieces xs ys) [] := by
  rw [codePieces, sits_append]
  exact ⟨sits_fn (.inr (.inr (.inl rfl))) h1 hx (.inr ⟨rfl, by rw [written_fn]; rfl⟩), sits_fn (.inr (.inr (.inr rfl))) h2 hy (.inl ⟨rfl, rfl⟩)⟩

theorem code_written {xs ys : List Bytes} : written (codePieces xs ys) = codeFnsSource xs ys := by
  rw [codePieces, written_append, written_fn, written_fn, List.append_nil]
  rfl

theorem code_starts {xs ys : List Bytes} : Starts (codePieces xs ys) (puP [] b!"inline" .Spec_Inline 256) := ⟨rfl, rfl, (by intro hh; cases hh)⟩

theorem code_lexed {ms : Macros} (h1 : Free ms codes) (h2 : Free ms keywords) {xs ys : List Bytes} (hx : ∀ x ∈ xs, Lex.StrBody x) (hy : ∀ y ∈ ys, Lex.StrBody y) :
    Lex.lex true ms (codeFnsSource xs ys) = .ok (some (toksAt (Pos.after ⟨0, 1, 1⟩ []) (codePieces xs ys), ms)) := by
  have hl := lex_pieces (g := []) (by intro x hx; cases hx) (code_sits h1 h2 hx hy) code_starts
  rwa [code_written, List.nil_append] at hl

/-- What both print. -/
theorem code_parses {w : World} {xs ys : List Bytes} (hr : w.Ready) (hs : Spelled w.env w.heap) (h1 : Free w.env.ms codes) (h2 : Free w.env.ms keywords)
    (hx : ∀ x ∈ xs, Lex.StrBody x) (hy : ∀ y ∈ ys, Lex.StrBody y) (hc : 13 ∉ codeFnsSource xs ys) (hB : Behind (w.env.cells.drop (codePieces xs ys).length)) :
    ParsesAs w parse_global_body (codeFnsSource xs ys) (codePieces xs ys).length (fnPrinted codes xs ++ fnPrinted keywords ys) := by
  have ho := on_all (g := []) (l := codePieces xs ys) (e := [0])
  rw [code_written, List.nil_append] at ho
  have hv : MembersToks w.env.ms (codeFnsSource xs ys ++ [0]) .file (fnPrinted codes xs ++ (fnPrinted keywords ys ++ [])) (toksAt (Pos.after ⟨0, 1, 1⟩ []) (codePieces xs ys)) := by
    have e : toksAt (Pos.after ⟨0, 1, 1⟩ []) (codePieces xs ys) =
        toksAt (Pos.after ⟨0, 1, 1⟩ []) (fnPieces codes b!" " xs) ++ (toksAt ((Pos.after ⟨0, 1, 1⟩ []).after (written (fnPieces codes b!" " xs))) (fnPieces keywords [] ys) ++ []) := by
      rw [codePieces, toksAt_append, List.append_nil]
    rw [e]
    exact .decl (by intro hh; cases hh) (On.declToks (.inr (.inr (.inl rfl))) ho.left) (.decl (by intro hh; cases hh) (On.declToks (.inr (.inr (.inr rfl))) ho.right) .nil)
  rw [List.append_nil] at hv
  have := C56_global_body hr hs (no_return hc) (code_lexed h1 h2 hx hy) hv (no_ctor ho (code_sits h1 h2 hx hy) code_tame) (by rwa [toksAt_length])
  rwa [toksAt_length] at this

/-! ## The builders -/

/-- What the rows of the file have to be for the builders. -/
structure FineCode (p : Bytes × Bytes) : Prop where
  name : (0 : UInt8) ∉ p.1
  text : (0 : UInt8) ∉ p.2
  short : p.1.length ≤ 65500 ∧ p.2.length ≤ 65500

theorem codeRows_holds {lt : Bool} : ∀ {l : List (Bytes × Bytes)} {a b c : SB} {x y z : Bytes}, (∀ p ∈ l, FineCode p) → Holds a x → Holds b y → Holds c z →
    ∃ a' b' c', codeRows lt (l.map (·.1)) (l.map (·.2)) a b c = .ok (a', b', c') ∧ Holds a' (x ++ entriesText codes (l.map (·.1))) ∧
      Holds b' (y ++ namesText codes (l.map (·.1))) ∧ Holds c' (z ++ namesText keywords (l.map (·.2))) := by
  intro l
  induction l with
  | nil => intro a b c x y z _ h1 h2 h3; exact ⟨a, b, c, rfl, by simpa [entriesText] using h1, by simpa [namesText] using h2, by simpa [namesText] using h3⟩
  | cons p l ih =>
    intro a b c x y z hl h1 h2 h3
    have hp := hl p (by simp)
    obtain ⟨a1, e1, h4, -⟩ := Tools.appendArg (lt := lt) h1 (pre := b!"CT_") (post := b!",\n") (t := p.1) ⟨by decide, by decide⟩ ⟨by decide, by decide⟩
      ⟨hp.name, by have := hp.short.1; omega⟩ (by decide)
    obtain ⟨b1, e2, h5⟩ := appendRow (lt := lt) (t := codes) (.inr (.inr (.inl rfl))) h2 hp.name hp.short.1
    obtain ⟨c1, e3, h6⟩ := appendRow (lt := lt) (t := keywords) (.inr (.inr (.inr rfl))) h3 hp.text hp.short.2
    obtain ⟨a', b', c', e4, h7, h8, h9⟩ := ih (fun q hq => hl q (by simp [hq])) h4 h5 h6
    refine ⟨a', b', c', ?_, ?_, ?_, ?_⟩
    · have e1 : appendFmt lt a (b!"CT_%s,\n" ++ [0]) [.cstr (some (p.1 ++ [0]))] = .ok (true, a1) := by
        rw [← e1]; rfl
      rw [List.map_cons, List.map_cons, codeRows]
      simp only [Res.bind_eq]
      rw [e1, Res.ok_bind]
      simp only []
      rw [e2, Res.ok_bind]
      simp only []
      rw [e3, Res.ok_bind]
      exact e4
    · simpa [entriesText, show codes.lead = b!"CT_" from rfl] using h7
    · simpa [namesText] using h8
    · simpa [namesText] using h9

/-! ## The template -/

theorem format_two {crit : Nat → Nat} {tbl : HTable Bytes} (h : HTable.Holds tbl (fun _ => none)) {v u a b c : Bytes} (ha : 60 ∉ a ∧ (0 : UInt8) ∉ a) (hb : 60 ∉ b ∧ (0 : UInt8) ∉ b)
    (hc : 60 ∉ c ∧ (0 : UInt8) ∉ c) (hl : (a ++ v ++ b ++ u ++ c).length ≤ printfMax) :
    ∃ tbl', TokenFmt.tokenFmtVa crit printfMax tbl [(b!"entries" ++ [0], v), (b!"keywords" ++ [0], u)] (a ++ b!"<entries>" ++ b ++ b!"<keywords>" ++ c ++ [0]) = .ok (a ++ v ++ b ++ u ++ c, tbl') ∧
      HTable.Holds tbl' (fun _ => none) := by
  obtain ⟨tbl', h1, h2⟩ := TokenFmt.C19_substitution crit printfMax tbl h [(b!"entries", v), (b!"keywords", u)]
    (by
      intro p hp
      simp only [List.mem_cons, List.not_mem_nil, or_false] at hp
      rcases hp with rfl | rfl
      · show (0 : UInt8) ∉ b!"entries"; decide
      · show (0 : UInt8) ∉ b!"keywords"; decide)
    [.lit a, .tok b!"entries" v, .lit b, .tok b!"keywords" u, .lit c]
    (by
      intro p hp
      simp only [List.mem_cons, List.not_mem_nil, or_false] at hp
      rcases hp with rfl | rfl | rfl | rfl | rfl
      · exact ha
      · exact ⟨by decide, by decide, by simp [TokenFmt.binding]⟩
      · exact hb
      · exact ⟨by decide, by decide, by simp [TokenFmt.binding]⟩
      · exact hc)
    (by
      have key : ∀ x ∈ [b!"entries", b!"keywords", b!"entries", b!"keywords"], ∀ y ∈ [b!"entries", b!"keywords", b!"entries", b!"keywords"], Crc.crc32 x = Crc.crc32 y → x = y := by decide +kernel
      exact key)
    (by simpa [TokenFmt.Piece.dst] using hl)
  refine ⟨tbl', ?_, h2⟩
  have e : [TokenFmt.Piece.lit a, .tok b!"entries" v, .lit b, .tok b!"keywords" u, .lit c].flatMap TokenFmt.Piece.dst = a ++ v ++ b ++ u ++ c := by simp [TokenFmt.Piece.dst]
  rw [e] at h1
  rw [← h1]
  simp [TokenFmt.cstr, TokenFmt.Piece.src]

/-! ## From the file to the codes -/

theorem wordChar_str {b : UInt8} (h : Lex.isWord b = true) : b ≠ 34 ∧ b ≠ 92 ∧ b ≠ 13 ∧ b ≠ 0 := by
  refine ⟨?_, ?_, ?_, ?_⟩ <;> (rintro rfl; revert h; decide)

theorem strBody_of {x : Bytes} (h : ∀ b ∈ x, b ≠ 34 ∧ b ≠ 92) : Lex.StrBody x := by
  induction x with
  | nil => exact .nil
  | cons b x ih => exact .plain (h b (by simp)).1 (h b (by simp)).2 (ih fun c hc => h c (by simp [hc]))

theorem name_chars {ms : Macros} {x : Bytes} (h : IsName ms x) : ∀ b ∈ x, Lex.isWord b = true := by
  obtain ⟨a, r, rfl, h1, h2⟩ := h.word
  have key : ∀ a, charIsAlpha a = true → charIsAlphanumeric a = true := by
    intro a h
    unfold charIsAlphanumeric
    rw [h]
    rfl
  intro b hb
  unfold Lex.isWord
  rcases List.mem_cons.mp hb with rfl | hb
  · rcases h1 with h1 | h1
    · rw [key _ h1]; rfl
    · rw [h1]; decide
  · rcases h2 b hb with h2 | h2
    · rw [h2]; rfl
    · rw [h2]; decide

theorem entryPieces_length {t : Words} {xs : List Bytes} : ∀ {g : Bytes}, (entryPieces t g xs).length = 2 * xs.length + (entryPieces t [] []).length := by
  induction xs with
  | nil => intro g; simp [entryPieces]
  | cons x xs ih =>
    intro g
    have := @ih b!"\n"
    simp only [entryPieces, List.length_cons] at this ⊢
    omega

theorem tablePieces_length {t : Words} {ys : List Bytes} : ∀ {g : Bytes}, (tablePieces t g ys).length = 11 * ys.length + 8 := by
  induction ys with
  | nil => intro g; rfl
  | cons y ys ih => intro g; rw [tablePieces, List.length_append, ih]; simp [rowPieces, rowMid, rowEnd]; omega

theorem shorter {xs ys : List Bytes} : (enumPieces codes xs).length ≤ (codePieces xs ys).length := by
  have h : (entryPieces codes [] []).length = 5 := rfl
  simp only [enumPieces, codePieces, fnPieces, List.length_append, entryPieces_length, tablePieces_length, h, enumHead, enumEnd, fnHead, fnFirst, fnEnd, List.length_cons, List.length_nil]
  omega

theorem behind_after {cells cells' ts : List Tok} {m : Bytes} {n : Nat} (h : Behind (cells.drop n)) (he : cells' = ts ++ (cells.drop ts.length).map (stale m)) (hn : ts.length ≤ n) :
    Behind (cells'.drop n) := by
  obtain ⟨k, rfl⟩ := Nat.le.dest hn
  have e : cells'.drop (ts.length + k) = (cells.drop (ts.length + k)).map (stale m) := by
    rw [he, ← List.drop_drop, List.drop_left, ← List.map_drop, List.drop_drop]
  rw [e]
  exact h.stale

theorem fn_no_return {t : Words} {ys : List Bytes} (ht : Known t) (h : ∀ y ∈ ys, (13 : UInt8) ∉ y) : (13 : UInt8) ∉ fnSource t ys := by
  have hk : ∀ x ∈ [t.enum, t.fn, t.arg, t.inner, t.outer], (13 : UInt8) ∉ x := by rcases ht with rfl | rfl | rfl | rfl <;> decide
  simp only [List.mem_cons, List.not_mem_nil, or_false, forall_eq_or_imp, forall_eq] at hk
  have he : (13 : UInt8) ∉ namesText t ys := by
    intro hh
    obtain ⟨y, h1, h2⟩ := List.mem_flatMap.mp hh
    have := h y h1
    simp [rowText, this, hk] at h2
  simp [fnSource, hk, he]

theorem enumText_eq {xs : List Bytes} : b!"enum CodeType : u32 { " ++ entriesText codes xs ++ b!" CT_NumTypes, CT_UnderlyingType = GEN_U32_MAX };" = enumSource codes xs := by
  unfold enumSource
  simp only [List.append_assoc]
  rfl

theorem fnsText_eq {xs ys : List Bytes} : b!"inline Str codetype_to_str( CodeType type ) { local_persist Str lookup[] = { " ++ namesText codes xs ++
    b!" }; return lookup[ type ]; } inline Str codetype_to_keyword_str( CodeType type ) { local_persist Str lookup[] = { " ++ namesText keywords ys ++ b!" }; return lookup[ type ]; }" =
    codeFnsSource xs ys := by
  unfold codeFnsSource fnSource
  simp only [List.append_assoc]
  rfl

theorem fnsTemplate_eq : b!"inline Str codetype_to_str( CodeType type ) { local_persist Str lookup[] = { " ++ b!"<entries>" ++
    b!" }; return lookup[ type ]; } inline Str codetype_to_keyword_str( CodeType type ) { local_persist Str lookup[] = { " ++ b!"<keywords>" ++ b!" }; return lookup[ type ]; }" = codeFnsTemplate := by
  decide +kernel

theorem fresh_holds {n : Nat} : Holds (makeReserve n) [] := ⟨rfl, Nat.zero_le _, _, rfl, by simp [makeReserve]⟩

theorem enum_world {w w' : World} {c : Bytes} {p : Nat} (hr : w.Ready) (hs : Spelled w.env w.heap) (h : parse_enum w c = .ok (p, w')) : Parsed w w' ∧ Spelled w'.env w'.heap := by
  have hf : (⟨parse_enum, [.Enum, .Enum_Class, .Enum_Fwd, .Enum_Class_Fwd]⟩ : Parser) ∈ parsers := by unfold parsers plainParsers; simp
  have hs' := C56_spelled (f := ⟨parse_enum, [.Enum, .Enum_Class, .Enum_Fwd, .Enum_Class_Fwd]⟩) hr hs hf h
  have := run_outcome hr hf (d := c)
  simp only [h] at this
  exact ⟨this.1, hs'⟩

theorem fits_fns {xs ys : List Bytes} (hx : ∀ x ∈ xs, (0 : UInt8) ∉ x) (hy : ∀ y ∈ ys, (0 : UInt8) ∉ y) (hl : (codeFnsSource xs ys).length ≤ 131000) :
    Ser.Fits (fnPrinted codes xs ++ fnPrinted keywords ys) := by
  have ht : Known codes := .inr (.inr (.inl rfl))
  have ht' : Known keywords := .inr (.inr (.inr rfl))
  have key : ∀ {t t' : Words}, Known t → Known t' → (fnSource t xs ++ b!" " ++ fnSource t' ys).length ≤ 131000 → Ser.Fits (fnPrinted t xs ++ fnPrinted t' ys) := by
    intro t t' ht ht' h1
    have k1 := known_lengths ht
    have k2 := known_lengths ht'
    have e : (fnSource t xs).length ≤ 131000 ∧ (fnSource t' ys).length ≤ 131000 := by
      simp only [List.length_append] at h1
      omega
    have q2 := fits_fn ht hx e.1
    have q3 := fits_fn ht' hy e.2
    refine ⟨by simp [q2.1, q3.1], ?_⟩
    simp only [fnSource, fnPrinted, List.length_append, List.length_cons, List.length_nil] at h1 ⊢
    omega
  exact key ht ht' hl

/-- C65: the kinds of codes. From a file with two columns come an enum and a body with two functions: the enum has an enumerator for every row, in order, named after the first
cell; the tables of the functions have a row for every row of the file, in order, the first with the first cell and the second with the second cell. Nothing else changes. -/
theorem C65_generate_codes {lt : Bool} {crit : Nat → Nat} {tbl : HTable Bytes} {w : World} {s : Sys} {path : Bytes} {csv : List Csv.Row} {l : List (Bytes × Bytes)}
    (hr : w.Ready) (hs : Spelled w.env w.heap) (htbl : HTable.Holds tbl (fun _ => none)) (hcalm : Calm s)
    (hfile : s.file path = some (Csv.source 44 csv)) (hne : csv ≠ []) (hok : ∀ r ∈ csv, r.Ok 44) (hcols : csv.map Csv.Row.texts = l.map fun p => [p.1, p.2])
    (hm : Free w.env.ms codes ∧ Free w.env.ms keywords) (hx : ∀ p ∈ l, IsName w.env.ms (b!"CT_" ++ p.1)) (hy : ∀ p ∈ l, Lex.StrBody p.2) (hy' : ∀ p ∈ l, 13 ∉ p.2)
    (hlen : (enumSource codes (l.map (·.1))).length ≤ 131000 ∧ (codeFnsSource (l.map (·.1)) (l.map (·.2))).length ≤ 131000)
    (hfr : Fresh w (enumSource codes (l.map (·.1)))) (hfr' : Fresh w (codeFnsSource (l.map (·.1)) (l.map (·.2)))) :
    ∃ e f tbl' w' s', generateCodes lt crit tbl w s path = .ok ((e, f), tbl', w', s') ∧
      (∀ E : Ser.Env, E.h = w'.heap → Ser.Prints E .code e (enumPrinted codes (l.map (·.1))) ∧ Ser.Prints E .code f (fnPrinted codes (l.map (·.1)) ++ fnPrinted keywords (l.map (·.2)))) ∧
      Made w w' e ∧ Made w w' f ∧ e ≠ f ∧ (∀ q, w.heap.Valid q → w'.heap.Valid q ∧ w'.heap.cell q = w.heap.cell q) ∧ Unchanged s s' ∧ HTable.Holds tbl' (fun _ => none) := by
  have ht : Known codes := .inr (.inr (.inl rfl))
  have ht' : Known keywords := .inr (.inr (.inr rfl))
  have hnul : ∀ p ∈ l, (0 : UInt8) ∉ p.2 := by
    intro p hp
    have : [p.1, p.2] ∈ csv.map Csv.Row.texts := by rw [hcols]; exact List.mem_map.mpr ⟨p, hp, rfl⟩
    obtain ⟨r, h1, h2⟩ := List.mem_map.mp this
    have h3 : p.2 ∈ r.texts := by rw [h2]; simp
    obtain ⟨c, h4, h5⟩ := List.mem_map.mp h3
    rw [← h5]
    exact field_nul ((hok r h1).cells c h4).2.1
  have hwc : ∀ p ∈ l, ∀ b ∈ p.1, b ≠ 34 ∧ b ≠ 92 ∧ b ≠ 13 ∧ b ≠ 0 := fun p hp b hb => wordChar_str (name_chars (hx p hp) b (List.mem_append_right _ hb))
  have hl1 : (fnSource codes (l.map (·.1))).length ≤ 131000 ∧ (fnSource keywords (l.map (·.2))).length ≤ 131000 := by
    have h2 := hlen.2
    rw [codeFnsSource] at h2
    simp only [List.length_append] at h2
    omega
  have hfine : ∀ p ∈ l, FineCode p := by
    intro p hp
    refine ⟨fun hh => (hwc p hp 0 hh).2.2.2 rfl, hnul p hp, ?_, ?_⟩
    · have h1 := names_length (t := codes) (List.mem_map.mpr ⟨p, hp, rfl⟩ : p.1 ∈ l.map (·.1))
      have h2 := hl1.1
      simp only [fnSource, List.length_append, List.length_cons, List.length_nil] at h2
      omega
    · have h1 := names_length (t := keywords) (List.mem_map.mpr ⟨p, hp, rfl⟩ : p.2 ∈ l.map (·.2))
      have h2 := hl1.2
      simp only [fnSource, List.length_append, List.length_cons, List.length_nil] at h2
      omega
  have hcsv := Csv.C37_table (delim := 44) ⟨by decide, by decide, by decide⟩ 2 csv hne (fun r hr' => ⟨hok r hr', by
    have : r.texts ∈ csv.map Csv.Row.texts := List.mem_map.mpr ⟨r, hr', rfl⟩
    rw [hcols] at this
    obtain ⟨p, -, h2⟩ := List.mem_map.mp this
    rw [← h2]; rfl⟩)
  rw [hcols] at hcsv
  have ecol : (Csv.columns 2 (l.map fun p => [p.1, p.2])).map (⟨none, ·⟩ : List Bytes → Csv.Column) = [⟨none, l.map (·.1)⟩, ⟨none, l.map (·.2)⟩] := by
    simp [Csv.columns, List.range_succ, Function.comp_def]
  rw [ecol] at hcsv
  obtain ⟨s', e1, u1⟩ := C62_two_columns hfile (source_nul (by decide) hok) (source_ne hne) hcalm hcsv
  obtain ⟨z, hz⟩ : ∃ z, z = makeReserve 1024 := ⟨_, rfl⟩
  have h0 : Holds z [] := hz ▸ fresh_holds
  obtain ⟨a, b, c, e2, ha, hb, hc⟩ := codeRows_holds (lt := lt) hfine h0 h0 h0
  rw [List.nil_append] at ha hb hc
  obtain ⟨tbl1, e3, k1⟩ := format_eq (crit := crit) htbl (v := entriesText codes (l.map (·.1))) (a := b!"enum CodeType : u32 { ") (b := b!" CT_NumTypes, CT_UnderlyingType = GEN_U32_MAX };")
    (by decide +kernel) (by decide +kernel) (by rw [enumText_eq]; exact Nat.le_trans hlen.1 (by decide))
  have f1 : b!"enum CodeType : u32 { " ++ b!"<entries>" ++ b!" CT_NumTypes, CT_UnderlyingType = GEN_U32_MAX };" = enumTemplate codes := by decide +kernel
  rw [f1, enumText_eq] at e3
  obtain ⟨tbl2, e4, k2⟩ := format_two (crit := crit) k1 (v := namesText codes (l.map (·.1))) (u := namesText keywords (l.map (·.2)))
    (a := b!"inline Str codetype_to_str( CodeType type ) { local_persist Str lookup[] = { ")
    (b := b!" }; return lookup[ type ]; } inline Str codetype_to_keyword_str( CodeType type ) { local_persist Str lookup[] = { ") (c := b!" }; return lookup[ type ]; }")
    (by decide +kernel) (by decide +kernel) (by decide +kernel) (by rw [fnsText_eq]; exact Nat.le_trans hlen.2 (by decide))
  rw [fnsText_eq, fnsTemplate_eq] at e4
  have hx' : ∀ x ∈ l.map (·.1), IsName w.env.ms (codes.lead ++ x) := by
    intro x h; obtain ⟨p, h1, rfl⟩ := List.mem_map.mp h; exact hx p h1
  have hn' : ∀ x ∈ l.map (·.1), Lex.StrBody x := by
    intro x h; obtain ⟨p, h1, rfl⟩ := List.mem_map.mp h; exact strBody_of fun b hb => ⟨(hwc p h1 b hb).1, (hwc p h1 b hb).2.1⟩
  have hy1 : ∀ y ∈ l.map (·.2), Lex.StrBody y := by
    intro x h; obtain ⟨p, h1, rfl⟩ := List.mem_map.mp h; exact hy p h1
  have h13 : 13 ∉ codeFnsSource (l.map (·.1)) (l.map (·.2)) := by
    have h1 := fn_no_return ht (ys := l.map (·.1)) (by intro x h hh; obtain ⟨p, h1, rfl⟩ := List.mem_map.mp h; exact (hwc p h1 _ hh).2.2.1 rfl)
    have h2 := fn_no_return ht' (ys := l.map (·.2)) (by intro x h; obtain ⟨p, h1, rfl⟩ := List.mem_map.mp h; exact hy' p h1)
    unfold codeFnsSource
    simp [h1, h2]
  have hB : Behind (w.env.cells.drop (codePieces (l.map (·.1)) (l.map (·.2))).length) := by
    have := hfr' _ ⟨_, code_lexed hm.1 hm.2 hn' hy1⟩
    rwa [toksAt_length] at this
  obtain ⟨e, w1, e5, m1, ⟨ts, m, t1, t2⟩, n1, d1, p1⟩ := enum_parsed hr ht hm.1 hx' hfr
  obtain ⟨hp1, hs1⟩ := enum_world hr hs e5
  obtain ⟨f, w2, e6, n2, d2, -, p2⟩ := code_parses (hp1.ready hr) hs1 (m1 ▸ hm.1) (m1 ▸ hm.2) hn' hy1 h13 (behind_after hB t2 (t1 ▸ shorter))
  have z1 : ∀ y ∈ l.map (·.1), (0 : UInt8) ∉ y := by intro y h hh; obtain ⟨p, h1, rfl⟩ := List.mem_map.mp h; exact (hwc p h1 _ hh).2.2.2 rfl
  have z2 : ∀ y ∈ l.map (·.2), (0 : UInt8) ∉ y := by intro y h; obtain ⟨p, h1, rfl⟩ := List.mem_map.mp h; exact hnul p h1
  have q1 : Ser.Fits (enumPrinted codes (l.map (·.1))) := fits_enum (ms := w.env.ms) ht hx' hlen.1
  have q4 : Ser.Fits (fnPrinted codes (l.map (·.1)) ++ fnPrinted keywords (l.map (·.2))) := fits_fns z1 z2 hlen.2
  refine ⟨e, f, tbl2, w2, s', ?_, ?_, ⟨d1.1, ?_⟩, ⟨?_, d2.2⟩, ?_, ?_, u1, k2⟩
  · unfold generateCodes
    simp only [Res.bind_eq, Res.pure_eq, ← hz]
    rw [e1, Res.ok_bind]
    simp only []
    rw [e2, Res.ok_bind]
    simp only []
    rw [ha.readAll, Res.ok_bind, e3, Res.ok_bind]
    simp only []
    rw [e5, Res.ok_bind]
    simp only []
    rw [hb.readAll, Res.ok_bind, hc.readAll, Res.ok_bind, e4, Res.ok_bind]
    simp only []
    rw [e6, Res.ok_bind]
  · intro E hE
    exact ⟨p1 E (hE ▸ n2) q1, p2 E hE q4⟩
  · exact (n2 e ⟨Nat.lt_of_lt_of_le hr.started d1.1, d1.2⟩).1.2
  · exact Nat.le_trans hp1.next d2.1
  · have := d1.2; have := d2.1; omega
  · intro q hq
    obtain ⟨h1, h2⟩ := n1 q hq
    obtain ⟨h3, h4⟩ := n2 q h1
    exact ⟨h3, h4.trans h2⟩

end Verif.EnumTables
