import Verif.Proof.EnumTables
import Verif.Props.CsvTable
import Verif.Props.FilesUse
import Verif.Props.Round
/-!
# C65: enums and tables of names from comma-separated values
-/
namespace Verif.EnumTables
open Verif.Lex (Tok Macros Pos toksAt)
open Verif.Round hiding Fn
open Verif.Parse hiding Calm
open Verif.SB Verif.Fmt Verif.Os Verif.Files

/-! ## The builders -/

/-- A row of the table: the same string twice. -/
theorem appendRow {lt : Bool} {t : Words} (ht : Known t) {sb : SB} {c y : Bytes} (h : Holds sb c) (hy : (0 : UInt8) ∉ y) (hl : y.length ≤ 65500) :
    ∃ sb', appendFmt lt sb (rowTemplate t ++ [0]) [.cstr (some (y ++ [0])), .cstr (some (y ++ [0]))] = .ok (true, sb') ∧ Holds sb' (c ++ rowText t y) := by
  obtain ⟨ps, hps⟩ : ∃ ps, ps = [(b!"{" ++ t.inner ++ b!"\"", Conv.cstr y []), (b!"\"," ++ t.outer ++ b!"sizeof(\"", Conv.cstr y [])] := ⟨_, rfl⟩
  have e : rendered ps b!"\") - 1 },\n" = rowText t y := by
    rw [hps]
    show b!"{" ++ t.inner ++ b!"\"" ++ (y ++ (b!"\"," ++ t.outer ++ b!"sizeof(\"" ++ (y ++ b!"\") - 1 },\n"))) = _
    unfold rowText
    simp only [List.append_assoc]
  have hg : t.inner.length ≤ 2 ∧ t.outer.length ≤ 2 := by rcases ht with rfl | rfl | rfl | rfl <;> decide
  have hlen : (rendered ps b!"\") - 1 },\n").length + 2 < printfMax := by
    rw [e]
    unfold rowText printfMax
    simp only [List.length_append, List.length_cons, List.length_nil]
    omega
  have hok : OkFmt ps b!"\") - 1 },\n" := by
    rw [hps]
    refine ⟨?_, hy, (fun h => by cases h), ?_, hy, (fun h => by cases h), ⟨by decide, by decide⟩⟩
    · rcases ht with rfl | rfl | rfl | rfl <;> exact ⟨by decide, by decide⟩
    · rcases ht with rfl | rfl | rfl | rfl <;> exact ⟨by decide, by decide⟩
  obtain ⟨b', h3, h4, -⟩ := appendLen_holds h
    (rendered ps b!"\") - 1 },\n" ++ 0 :: List.replicate (printfMax - ((rendered ps b!"\") - 1 },\n").length + 1)) 0)
    (rendered ps b!"\") - 1 },\n").length (by simp)
  rw [List.take_left] at h4
  have k := C36_append_fmt_partial lt sb ps b!"\") - 1 },\n" hok hlen
  have e1 : fmtText ps b!"\") - 1 },\n" = rowTemplate t ++ [0] := by
    rw [hps]
    rcases ht with rfl | rfl | rfl | rfl <;> rfl
  have e2 : fmtArgs ps = [.cstr (some (y ++ [0])), .cstr (some (y ++ [0]))] := by rw [hps]; rfl
  rw [e1, e2, h3] at k
  exact ⟨b', k, e ▸ h4⟩

/-- What the rows of a file have to be for the builders. -/
structure Fine (t : Words) (p : Bytes × Bytes) : Prop where
  name : (0 : UInt8) ∉ p.1
  text : (0 : UInt8) ∉ p.2
  short : p.1.length < 131000 ∧ p.2.length ≤ 65500

theorem rows_holds {lt : Bool} {t : Words} (ht : Known t) : ∀ {l : List (Bytes × Bytes)} {a b : SB} {x y : Bytes}, (∀ p ∈ l, Fine t p) → Holds a x → Holds b y →
    ∃ a' b', rows lt t (l.map (·.1)) (l.map (·.2)) a b = .ok (a', b') ∧ Holds a' (x ++ entriesText t (l.map (·.1))) ∧ Holds b' (y ++ namesText t (l.map (·.2))) := by
  intro l
  induction l with
  | nil => intro a b x y _ h1 h2; exact ⟨a, b, rfl, by simpa [entriesText] using h1, by simpa [namesText] using h2⟩
  | cons p l ih =>
    intro a b x y hl h1 h2
    have hp := hl p (by simp)
    obtain ⟨a1, e1, h3, -⟩ := Tools.appendArg (lt := lt) h1 (pre := t.lead) (post := b!",\n") (t := p.1) (by rcases ht with rfl | rfl | rfl | rfl <;> exact ⟨by decide, by decide⟩) ⟨by decide, by decide⟩
      ⟨hp.name, hp.short.1⟩ (by rcases ht with rfl | rfl | rfl | rfl <;> decide)
    obtain ⟨b1, e2, h4⟩ := appendRow (lt := lt) ht h2 hp.text hp.short.2
    obtain ⟨a', b', e3, h5, h6⟩ := ih (fun q hq => hl q (by simp [hq])) h3 h4
    refine ⟨a', b', ?_, ?_, ?_⟩
    · have e1 : appendFmt lt a (t.lead ++ b!"%s,\n" ++ [0]) [.cstr (some (p.1 ++ [0]))] = .ok (true, a1) := by
        rw [← e1]; simp only [List.append_assoc]; rfl
      rw [List.map_cons, List.map_cons, rows]
      simp only [Res.bind_eq]
      rw [e1, Res.ok_bind]
      simp only []
      rw [e2, Res.ok_bind]
      exact e3
    · simpa [entriesText] using h5
    · simpa [namesText] using h6

/-! ## The templates -/

theorem format_eq {crit : Nat → Nat} {tbl : HTable Bytes} (h : HTable.Holds tbl (fun _ => none)) {v a b : Bytes} (ha : 60 ∉ a ∧ (0 : UInt8) ∉ a) (hb : 60 ∉ b ∧ (0 : UInt8) ∉ b)
    (hl : (a ++ v ++ b).length ≤ printfMax) : ∃ tbl', format crit tbl v (a ++ b!"<entries>" ++ b) = .ok (a ++ v ++ b, tbl') ∧ HTable.Holds tbl' (fun _ => none) := by
  obtain ⟨tbl', h1, h2⟩ := TokenFmt.C19_substitution crit printfMax tbl h [(b!"entries", v)] (by intro p hp; simp at hp; subst hp; show (0 : UInt8) ∉ b!"entries"; decide)
    [.lit a, .tok b!"entries" v, .lit b]
    (by
      intro p hp
      simp only [List.mem_cons, List.not_mem_nil, or_false] at hp
      rcases hp with rfl | rfl | rfl
      · exact ha
      · exact ⟨by decide, by decide, by simp [TokenFmt.binding]⟩
      · exact hb)
    (by
      intro x hx y hy _
      simp [TokenFmt.Piece.names] at hx hy
      rw [hx, hy])
    (by simpa [TokenFmt.Piece.dst] using hl)
  refine ⟨tbl', ?_, h2⟩
  unfold format
  have e : [TokenFmt.Piece.lit a, .tok b!"entries" v, .lit b].flatMap TokenFmt.Piece.dst = a ++ v ++ b := by simp [TokenFmt.Piece.dst]
  rw [e] at h1
  rw [← h1]
  simp [TokenFmt.cstr, TokenFmt.Piece.src]

/-! ## The parser -/

/-- Everything that was there is still there. -/
def Within (h g : Ast.Heap) : Prop := ∀ q, h.Valid q → g.Valid q ∧ g.cell q = h.cell q

theorem kept_lexed {w : World} {c x : Bytes} {ts : List Tok} {ms : Macros} {f : P Nat} (hr : w.Ready) (hx : Lex.lex true w.env.ms c = .ok (some (ts, ms)))
    (hf : Here (w.read c ts ms).env ⟨0, w.heap, w.scope⟩ ts ((w.env.cells.drop ts.length).map (stale (c ++ [0]))) →
      Gives f (w.read c ts ms).env ⟨0, w.heap, w.scope⟩ ts.length x) :
    ∃ p w', w.parse c f = .ok (p, w') ∧ w'.env.ms = ms ∧ w'.env.cells = ts ++ (w.env.cells.drop ts.length).map (stale (c ++ [0])) ∧ Within w.heap w'.heap ∧ Made w w' p ∧ ∀ E : Ser.Env, Within w'.heap E.h → Ser.Fits x → Ser.Prints E .code p x := by
  have hc : c ≠ [] := by
    intro hh
    subst hh
    revert hx
    have : Lex.lex true w.env.ms [] = .stop := by rfl
    rw [this]
    simp
  obtain ⟨p, h', r1, r2, r3, r4, r5, r6⟩ := hf here_read
  have hs := hr.started
  have r3 : w.heap.next ≤ p := r3
  refine ⟨p, _, parse_read hc hx r1, rfl, rfl, fun q hq => r2 q hq.1 hq.2, ⟨r3, ?_⟩, ?_⟩
  · show p < h'.next
    omega
  · intro E hE
    have hE : Within h' E.h := hE
    refine r6 E 0 (E.h.cell p).front (E.h.cell p).back ?_ ?_ ?_ (.inl rfl)
    · intro q (h1 : w.heap.next ≤ q) h2
      exact hE q ⟨by omega, by omega⟩
    · exact (hE p ⟨by omega, by omega⟩).1
    · have := (hE p ⟨by omega, by omega⟩).2
      rw [this, ← r5.1]

theorem enum_starts {t : Words} {xs : List Bytes} : Starts (enumPieces t xs) (puP [] b!"enum" .Decl_Enum 0) := ⟨rfl, rfl, (by intro hh; cases hh)⟩
theorem fn_starts {t : Words} {ys : List Bytes} : Starts (fnPieces t [] ys) (puP [] b!"inline" .Spec_Inline 256) := ⟨rfl, rfl, (by intro hh; cases hh)⟩

theorem enum_parsed {w : World} {t : Words} {xs : List Bytes} (hr : w.Ready) (ht : Known t) (hm : Free w.env.ms t) (hx : ∀ x ∈ xs, IsName w.env.ms (t.lead ++ x)) (hf : Fresh w (enumSource t xs)) :
    ∃ p w', parse_enum w (enumSource t xs) = .ok (p, w') ∧ w'.env.ms = w.env.ms ∧
      (∃ ts m, ts.length = (enumPieces t xs).length ∧ w'.env.cells = ts ++ (w.env.cells.drop ts.length).map (stale m)) ∧ Within w.heap w'.heap ∧ Made w w' p ∧
      ∀ E : Ser.Env, Within w'.heap E.h → Ser.Fits (enumPrinted t xs) → Ser.Prints E .code p (enumPrinted t xs) := by
  have hl := lex_pieces (g := []) (by intro x hx; cases hx) (sits_enum ht hm hx) enum_starts
  rw [written_enum ht, List.nil_append] at hl
  have ho := on_all (g := []) (l := enumPieces t xs) (e := [0])
  rw [written_enum ht, List.nil_append] at ho
  have hv := On.enumDecl ht hx ho
  have hm := hf.calm hl
  rw [List.append_nil, List.nil_append] at hm
  refine match kept_lexed hr hl fun hh => enum_gives (more := []) hv ?_ hr.started (by rw [List.append_nil]; exact hh) with
    | ⟨p, w', k1, k2, k3, k4⟩ => ⟨p, w', k1, k2, ⟨_, _, toksAt_length, k3⟩, k4⟩
  intro u hu
  rw [List.nil_append]
  refine hm.stale (more := []) u hu ?_
  obtain ⟨l, v, e, hv'⟩ := hv.last
  rw [e, List.getLast?_concat] at hu
  cases hu
  exact hv'

theorem table_parsed {w : World} {t : Words} {ys : List Bytes} (hr : w.Ready) (ht : Known t) (hm : Free w.env.ms t) (hy : ∀ y ∈ ys, Lex.StrBody y) :
    ∃ p w', parse_function w (fnSource t ys) = .ok (p, w') ∧ w'.env.ms = w.env.ms ∧ Within w.heap w'.heap ∧ Made w w' p ∧
      ∀ E : Ser.Env, Within w'.heap E.h → Ser.Fits (fnPrinted t ys) → Ser.Prints E .code p (fnPrinted t ys) := by
  have hl := lex_pieces (g := []) (by intro x hx; cases hx) (sits_fn ht hm hy (.inl ⟨rfl, rfl⟩)) fn_starts
  rw [written_fn, List.append_nil, List.nil_append] at hl
  have ho := on_all (g := []) (l := fnPieces t [] ys) (e := [0])
  rw [written_fn, List.append_nil, List.nil_append] at ho
  obtain ⟨f, hv, hf⟩ := On.fnToks (ms := w.env.ms) ht ho
  refine match kept_lexed hr hl fun hh => parseFunction_run (more := []) hv hf ?_ hr.started (by rw [List.append_nil]; exact hh) with
    | ⟨p, w', k1, k2, _, k4⟩ => ⟨p, w', k1, k2, k4⟩
  intro u hu he
  rw [fnPieces, ← List.append_assoc, toksAt_append, List.getLast?_append] at hu
  cases hu
  cases he

/-! ## The file -/

theorem field_nul {d : UInt8} {f : Csv.Field} (h : f.Ok d) : (0 : UInt8) ∉ f.text := by
  cases f with
  | bare t => intro hh; exact (h.inside 0 hh).1 rfl
  | inQuotes t => exact h.2

theorem escape_nul {t : Bytes} (h : (0 : UInt8) ∉ t) : (0 : UInt8) ∉ Csv.escape t := by
  intro hh
  obtain ⟨c, h1, h2⟩ := List.mem_flatMap.mp hh
  split at h2 <;> simp at h2
  exact h (h2 ▸ h1)

theorem padded_nul {d : UInt8} {p : Csv.Padded} (h : p.Ok d) : (0 : UInt8) ∉ p.source := by
  have hb : ∀ {b : Bytes}, Csv.Blank b → (0 : UInt8) ∉ b := fun hb hh => absurd (hb 0 hh).1 (by decide)
  have hf : (0 : UInt8) ∉ p.field.source := by
    obtain ⟨-, h, -⟩ := h
    cases hp : p.field with
    | bare t => rw [hp] at h; exact field_nul h
    | inQuotes t =>
      rw [hp] at h
      have := escape_nul h.2
      simp [Csv.Field.source, this]
  unfold Csv.Padded.source
  simp [hb h.1, hb h.2.2, hf]

theorem source_nul {d : UInt8} (hd : d ≠ 0) {csv : List Csv.Row} (h : ∀ r ∈ csv, r.Ok d) : (0 : UInt8) ∉ Csv.source d csv := by
  intro hh
  obtain ⟨r, h1, h2⟩ := List.mem_flatMap.mp hh
  have hc := (h r h1).cells
  unfold Csv.Row.source at h2
  simp only [List.mem_append, List.mem_flatMap] at h2
  rcases h2 with (⟨p, h3, h4⟩ | h4) | h4
  · simp only [List.mem_singleton] at h4
    rcases h4 with h4 | h4
    · exact padded_nul (hc p (by simp [Csv.Row.cells, h3])) h4
    · exact hd h4.symm
  · exact padded_nul (hc _ (by simp [Csv.Row.cells])) h4
  · revert h4; decide

theorem source_ne {d : UInt8} {csv : List Csv.Row} (h : csv ≠ []) : Csv.source d csv ≠ [] := by
  cases csv with
  | nil => exact absurd rfl h
  | cons r l => simp [Csv.source]

theorem entries_length {t : Words} {x : Bytes} {xs : List Bytes} (h : x ∈ xs) : x.length ≤ (entriesText t xs).length := by
  induction xs with
  | nil => cases h
  | cons a l ih =>
    rw [entriesText, List.flatMap_cons]
    show _ ≤ (_ ++ entriesText t l).length
    rw [List.length_append]
    rcases List.mem_cons.mp h with rfl | h
    · simp only [List.length_append]; omega
    · have := ih h; omega

theorem names_length {t : Words} {y : Bytes} {ys : List Bytes} (h : y ∈ ys) : 2 * y.length ≤ (namesText t ys).length := by
  induction ys with
  | nil => cases h
  | cons a l ih =>
    rw [namesText, List.flatMap_cons]
    show _ ≤ (_ ++ namesText t l).length
    rw [List.length_append]
    rcases List.mem_cons.mp h with rfl | h
    · simp only [rowText, List.length_append]; omega
    · have := ih h; omega

theorem printed_length {t : Words} {xs : List Bytes} : (entriesPrinted t xs).length ≤ (entriesText t xs).length := by
  induction xs with
  | nil => exact Nat.le_refl _
  | cons a l ih =>
    rw [entriesPrinted, entriesText, List.flatMap_cons, List.flatMap_cons]
    show (_ ++ entriesPrinted t l).length ≤ (_ ++ entriesText t l).length
    simp only [List.length_append, List.length_cons, List.length_nil]
    omega

theorem word_nul {x : Bytes} {ms : Macros} (h : IsName ms x) : (0 : UInt8) ∉ x := by
  obtain ⟨a, r, rfl, h1, h2⟩ := h.word
  intro hh
  rcases List.mem_cons.mp hh with hh | hh
  · subst hh; revert h1; decide
  · revert h2
    intro h2
    have := h2 0 hh
    revert this; decide

theorem known_lengths {t : Words} (ht : Known t) : t.enum.length ≤ 20 ∧ t.lead.length ≤ 20 ∧ t.count.length ≤ 20 ∧ t.fn.length ≤ 30 ∧ t.arg.length ≤ 20 ∧ t.digits.length ≤ 20 ∧ t.word.length ≤ 20 ∧ t.inner.length ≤ 2 ∧ t.outer.length ≤ 2 := by
  rcases ht with rfl | rfl | rfl | rfl <;> decide

theorem known_clean {t : Words} (ht : Known t) : ∀ x ∈ [t.enum, t.lead, t.count, t.fn, t.arg, t.digits, t.word, t.inner, t.outer], (0 : UInt8) ∉ x ∧ 60 ∉ x := by
  rcases ht with rfl | rfl | rfl | rfl <;> decide

theorem fits_enum {t : Words} {ms : Macros} {xs : List Bytes} (ht : Known t) (hx : ∀ x ∈ xs, IsName ms (t.lead ++ x)) (hl : (enumSource t xs).length ≤ 131000) : Ser.Fits (enumPrinted t xs) := by
  constructor
  · have h := known_clean ht
    simp only [List.mem_cons, List.not_mem_nil, or_false, forall_eq_or_imp, forall_eq] at h
    have he : (0 : UInt8) ∉ entriesPrinted t xs := by
      intro hh
      obtain ⟨x, h1, h2⟩ := List.mem_flatMap.mp hh
      have := word_nul (hx x h1)
      rw [List.mem_append] at h2
      rcases h2 with h2 | h2
      · exact this h2
      · revert h2; decide
    simp [enumPrinted, h, he]
  · have h := known_lengths ht
    have h1 := printed_length (t := t) (xs := xs)
    simp only [enumSource, enumPrinted, List.length_append, List.length_cons, List.length_nil] at *
    omega

theorem fits_fn {t : Words} {ys : List Bytes} (ht : Known t) (hy : ∀ y ∈ ys, (0 : UInt8) ∉ y) (hl : (fnSource t ys).length ≤ 131000) : Ser.Fits (fnPrinted t ys) := by
  constructor
  · have h := known_clean ht
    simp only [List.mem_cons, List.not_mem_nil, or_false, forall_eq_or_imp, forall_eq] at h
    have he : (0 : UInt8) ∉ namesText t ys := by
      intro hh
      obtain ⟨y, h1, h2⟩ := List.mem_flatMap.mp hh
      have := hy y h1
      simp [rowText, this, h] at h2
    simp [fnPrinted, h, he]
  · have h := known_lengths ht
    simp only [fnSource, fnPrinted, List.length_append, List.length_cons, List.length_nil] at *
    omega

/-! ## From the file to the codes -/

/-- C65: from a file with two columns come an enum and a function. The enum has an enumerator for every row, in order, named after the first cell; the table of the
function has a row for every row of the file, in order, with the second cell. Nothing else changes. -/
theorem C65_generate {lt : Bool} {crit : Nat → Nat} {t : Words} {tbl : HTable Bytes} {w : World} {s : Sys} {path : Bytes} {csv : List Csv.Row} {l : List (Bytes × Bytes)}
    (hk : t = operators ∨ t = specifiers) (hr : w.Ready) (htbl : HTable.Holds tbl (fun _ => none)) (hs : Calm s)
    (hfile : s.file path = some (Csv.source 44 csv)) (hne : csv ≠ []) (hok : ∀ r ∈ csv, r.Ok 44) (hcols : csv.map Csv.Row.texts = l.map fun p => [p.1, p.2])
    (hm : Free w.env.ms t) (hx : ∀ p ∈ l, IsName w.env.ms (t.lead ++ p.1)) (hy : ∀ p ∈ l, Lex.StrBody p.2)
    (hlen : (enumSource t (l.map (·.1))).length ≤ 131000 ∧ (fnSource t (l.map (·.2))).length ≤ 131000) (hfr : Fresh w (enumSource t (l.map (·.1)))) :
    ∃ e f tbl' w' s', generate lt crit t tbl w s path = .ok ((e, f), tbl', w', s') ∧
      (∀ E : Ser.Env, E.h = w'.heap → Ser.Prints E .code e (enumPrinted t (l.map (·.1))) ∧ Ser.Prints E .code f (fnPrinted t (l.map (·.2)))) ∧
      Made w w' e ∧ Made w w' f ∧ e ≠ f ∧ (∀ q, w.heap.Valid q → w'.heap.Valid q ∧ w'.heap.cell q = w.heap.cell q) ∧ Unchanged s s' ∧ HTable.Holds tbl' (fun _ => none) := by
  have ht : Known t := hk.imp id .inl
  have hnul : ∀ p ∈ l, (0 : UInt8) ∉ p.2 := by
    intro p hp
    have : [p.1, p.2] ∈ csv.map Csv.Row.texts := by rw [hcols]; exact List.mem_map.mpr ⟨p, hp, rfl⟩
    obtain ⟨r, h1, h2⟩ := List.mem_map.mp this
    have h3 : p.2 ∈ r.texts := by rw [h2]; simp
    obtain ⟨c, h4, h5⟩ := List.mem_map.mp h3
    rw [← h5]
    exact field_nul ((hok r h1).cells c h4).2.1
  have hfine : ∀ p ∈ l, Fine t p := by
    intro p hp
    refine ⟨fun hh => word_nul (hx p hp) (List.mem_append_right _ hh), hnul p hp, ?_, ?_⟩
    · have h1 := entries_length (t := t) (List.mem_map.mpr ⟨p, hp, rfl⟩ : p.1 ∈ l.map (·.1))
      have h2 := hlen.1
      simp only [enumSource, List.length_append, List.length_cons, List.length_nil] at h2
      omega
    · have h1 := names_length (t := t) (List.mem_map.mpr ⟨p, hp, rfl⟩ : p.2 ∈ l.map (·.2))
      have h2 := hlen.2
      simp only [fnSource, List.length_append, List.length_cons, List.length_nil] at h2
      omega
  have hcsv := Csv.C37_table (delim := 44) ⟨by decide, by decide, by decide⟩ 2 csv hne (fun r hr' => ⟨hok r hr', by
    have : r.texts ∈ csv.map Csv.Row.texts := List.mem_map.mpr ⟨r, hr', rfl⟩
    rw [hcols] at this
    obtain ⟨p, -, h2⟩ := List.mem_map.mp this
    rw [← h2]; rfl⟩)
  rw [hcols] at hcsv
  have ecol : (Csv.columns 2 (l.map fun p => [p.1, p.2])).map (⟨none, ·⟩ : List Bytes → Csv.Column) = [⟨none, l.map (·.1)⟩, ⟨none, l.map (·.2)⟩] := by
    simp [Csv.columns, List.range_succ, Function.comp_def]
  rw [ecol] at hcsv
  obtain ⟨s', e1, u1⟩ := C62_two_columns hfile (source_nul (by decide) hok) (source_ne hne) hs hcsv
  have h0 : Holds (makeReserve t.room) [] := ⟨rfl, Nat.zero_le _, _, rfl, by simp [makeReserve]⟩
  obtain ⟨a, b, e2, ha, hb⟩ := rows_holds (lt := lt) ht hfine h0 h0
  rw [List.nil_append] at ha hb
  have hc := known_clean ht
  simp only [List.mem_cons, List.not_mem_nil, or_false, forall_eq_or_imp, forall_eq] at hc
  obtain ⟨tbl1, e3, k1⟩ := format_eq (crit := crit) htbl (v := entriesText t (l.map (·.1))) (a := b!"enum " ++ t.enum ++ b!" : u32 { ") (b := b!" " ++ t.count ++ b!", " ++ t.lead ++ b!"UnderlyingType = " ++ t.digits ++ t.word ++ b!" };")
    (by simp [hc]) (by simp [hc]) (by
      have := hlen.1
      simp only [enumSource, List.length_append, List.length_cons, List.length_nil, printfMax] at this ⊢
      omega)
  obtain ⟨tbl2, e4, k2⟩ := format_eq (crit := crit) k1 (v := namesText t (l.map (·.2))) (a := b!"inline Str " ++ t.fn ++ b!"( " ++ t.enum ++ b!" " ++ t.arg ++ b!" ) { local_persist Str lookup[] = { ")
    (b := b!" }; return lookup[ " ++ t.arg ++ b!" ]; }") (by simp [hc]) (by simp [hc]) (by
      have := hlen.2
      simp only [fnSource, List.length_append, List.length_cons, List.length_nil, printfMax] at this ⊢
      omega)
  have f1 : b!"enum " ++ t.enum ++ b!" : u32 { " ++ b!"<entries>" ++ (b!" " ++ t.count ++ b!", " ++ t.lead ++ b!"UnderlyingType = " ++ t.digits ++ t.word ++ b!" };") = enumTemplate t := by simp [enumTemplate]
  have f2 : b!"enum " ++ t.enum ++ b!" : u32 { " ++ entriesText t (l.map (·.1)) ++ (b!" " ++ t.count ++ b!", " ++ t.lead ++ b!"UnderlyingType = " ++ t.digits ++ t.word ++ b!" };") = enumSource t (l.map (·.1)) := by simp [enumSource]
  rw [f1, f2] at e3
  have f3 : b!"inline Str " ++ t.fn ++ b!"( " ++ t.enum ++ b!" " ++ t.arg ++ b!" ) { local_persist Str lookup[] = { " ++ b!"<entries>" ++ (b!" }; return lookup[ " ++ t.arg ++ b!" ]; }") = fnTemplate t b!"entries" := by simp [fnTemplate]
  have f4 : b!"inline Str " ++ t.fn ++ b!"( " ++ t.enum ++ b!" " ++ t.arg ++ b!" ) { local_persist Str lookup[] = { " ++ namesText t (l.map (·.2)) ++ (b!" }; return lookup[ " ++ t.arg ++ b!" ]; }") = fnSource t (l.map (·.2)) := by simp [fnSource]
  rw [f3, f4] at e4
  have hx' : ∀ x ∈ l.map (·.1), IsName w.env.ms (t.lead ++ x) := by
    intro x h; obtain ⟨p, h1, rfl⟩ := List.mem_map.mp h; exact hx p h1
  have hy' : ∀ y ∈ l.map (·.2), Lex.StrBody y := by
    intro x h; obtain ⟨p, h1, rfl⟩ := List.mem_map.mp h; exact hy p h1
  obtain ⟨e, w1, e5, m1, -, n1, d1, p1⟩ := enum_parsed hr ht hm hx' hfr
  have hp1 : Parsed w w1 := by
    have := run_outcome hr (f := ⟨parse_enum, [.Enum, .Enum_Class, .Enum_Fwd, .Enum_Class_Fwd]⟩) (d := enumSource t (l.map (·.1))) (by unfold parsers plainParsers; simp)
    simp only [e5] at this
    exact this.1
  obtain ⟨f, w2, e6, m2, n2, d2, p2⟩ := table_parsed (hp1.ready hr) ht (m1 ▸ hm) hy'
  refine ⟨e, f, tbl2, w2, s', ?_, ?_, ⟨d1.1, ?_⟩, ⟨?_, d2.2⟩, ?_, ?_, u1, k2⟩
  · unfold generate
    simp only [Res.bind_eq, Res.pure_eq]
    rw [e1, Res.ok_bind]
    simp only []
    rw [e2, Res.ok_bind]
    simp only []
    rw [ha.readAll, Res.ok_bind, e3, Res.ok_bind]
    simp only []
    rw [e5, Res.ok_bind]
    simp only []
    rw [hb.readAll, Res.ok_bind, e4, Res.ok_bind]
    simp only []
    rw [e6, Res.ok_bind]
  · intro E hE
    refine ⟨p1 E (hE ▸ n2) (fits_enum ht hx' hlen.1), p2 E (by rw [hE]; exact fun q hq => ⟨hq, rfl⟩) (fits_fn ht ?_ hlen.2)⟩
    intro y h; obtain ⟨p, h1, rfl⟩ := List.mem_map.mp h; exact hnul p h1
  · exact (n2 e ⟨Nat.lt_of_lt_of_le hr.started d1.1, d1.2⟩).1.2
  · exact Nat.le_trans hp1.next d2.1
  · have := d1.2; have := d2.1; omega
  · intro q hq
    obtain ⟨h1, h2⟩ := n1 q hq
    obtain ⟨h3, h4⟩ := n2 q h1
    exact ⟨h3, h4.trans h2⟩

end Verif.EnumTables
