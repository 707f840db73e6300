import Verif.Props.EnumTablesCodes
import Verif.Props.EnumTablesDemo
/-!
# C65: the texts in full, and a case of the kinds of codes
-/
namespace Verif.EnumTables
open Verif.Round (IsName Fresh name_of)
open Verif.Parse (World initial firstMacros initial_macros initial_cells C56_spelled_init)
open Verif.Os Verif.Files

/-! ## The texts in full -/

/-- C65: the operators. -/
theorem C65_operators_text (xs ys : List Bytes) :
    enumPrinted operators xs = b!"enum Operator : u32\n{\n" ++ xs.flatMap (fun x => b!"Op_" ++ x ++ b!",") ++ b!"Op_NumOps,Op_UnderlyingType = 0xffffffffu\n};\n" ∧
    fnPrinted operators ys = b!" inline\nStr operator_to_str( Operator op)\n{\nlocal_persist Str lookup[] = { " ++
      ys.flatMap (fun y => b!"{ \"" ++ y ++ b!"\", sizeof(\"" ++ y ++ b!"\") - 1 },\n") ++ b!" }; return lookup[ op ];\n}\n" := by
  constructor
  · simp [enumPrinted, entriesPrinted, operators]
  · simp [fnPrinted, namesText, operators]
    exact congrArg (fun f => List.flatMap f ys) (funext fun y => by simp [rowText])

/-- C65: the specifiers. -/
theorem C65_specifiers_text (xs ys : List Bytes) :
    enumPrinted specifiers xs = b!"enum Specifier : u32\n{\n" ++ xs.flatMap (fun x => b!"Spec_" ++ x ++ b!",") ++ b!"Spec_NumSpecifiers,Spec_UnderlyingType = 0xffffffffu\n};\n" ∧
    fnPrinted specifiers ys = b!" inline\nStr spec_to_str( Specifier type)\n{\nlocal_persist Str lookup[] = { " ++
      ys.flatMap (fun y => b!"{ \"" ++ y ++ b!"\", sizeof(\"" ++ y ++ b!"\") - 1 },\n") ++ b!" }; return lookup[ type ];\n}\n" := by
  constructor
  · simp [enumPrinted, entriesPrinted, specifiers]
  · simp [fnPrinted, namesText, specifiers]
    exact congrArg (fun f => List.flatMap f ys) (funext fun y => by simp [rowText])

/-- C65: the kinds of codes. -/
theorem C65_codes_text (xs ys : List Bytes) :
    enumPrinted codes xs = b!"enum CodeType : u32\n{\n" ++ xs.flatMap (fun x => b!"CT_" ++ x ++ b!",") ++ b!"CT_NumTypes,CT_UnderlyingType = GEN_U32_MAX\n};\n" ∧
    fnPrinted codes xs = b!" inline\nStr codetype_to_str( CodeType type)\n{\nlocal_persist Str lookup[] = { " ++
      xs.flatMap (fun x => b!"{ \"" ++ x ++ b!"\",  sizeof(\"" ++ x ++ b!"\") - 1 },\n") ++ b!" }; return lookup[ type ];\n}\n" ∧
    fnPrinted keywords ys = b!" inline\nStr codetype_to_keyword_str( CodeType type)\n{\nlocal_persist Str lookup[] = { " ++
      ys.flatMap (fun y => b!"{  \"" ++ y ++ b!"\", sizeof(\"" ++ y ++ b!"\") - 1 },\n") ++ b!" }; return lookup[ type ];\n}\n" := by
  refine ⟨?_, ?_, ?_⟩
  · simp [enumPrinted, entriesPrinted, codes]
  · simp [fnPrinted, namesText, codes]
    exact congrArg (fun f => List.flatMap f xs) (funext fun y => by simp [rowText])
  · simp [fnPrinted, namesText, codes, keywords]
    exact congrArg (fun f => List.flatMap f ys) (funext fun y => by simp [rowText])

/-! ## A case -/

/-- Rows of base/enums/ECodeTypes.csv. -/
def codeRowsDemo : List Csv.Row := [
  ⟨[⟨[], .bare b!"Invalid", []⟩], ⟨b!"             ", .inQuotes b!"__NA__", []⟩⟩,
  ⟨[⟨[], .bare b!"Comment", []⟩], ⟨b!"             ", .inQuotes b!"//", []⟩⟩]

def codePairs : List (Bytes × Bytes) := [(b!"Invalid", b!"__NA__"), (b!"Comment", b!"//")]

theorem codeRowsDemo_ok : ∀ r ∈ codeRowsDemo, r.Ok 44 := by
  have hb : ∀ {n : Nat}, Csv.Blank (List.replicate n 32) := by
    intro n c hc
    rw [(List.mem_replicate.mp hc).2]
    decide
  intro r hr
  simp only [codeRowsDemo, List.mem_cons, List.not_mem_nil, or_false] at hr
  rcases hr with rfl | rfl
  all_goals
    refine ⟨?_, by decide⟩
    intro p hp
    simp only [Csv.Row.cells, List.cons_append, List.nil_append, List.mem_cons, List.not_mem_nil, or_false] at hp
    rcases hp with rfl | rfl
    · exact ⟨hb (n := 0), ⟨(by decide), (by intro c hc; cases hc; decide), (by intro c hc; cases hc; decide)⟩, hb (n := 0)⟩
    · exact ⟨hb (n := 13), ⟨by decide, by decide⟩, hb (n := 0)⟩

theorem codes_free : Free firstMacros codes ∧ Free firstMacros keywords := by
  unfold Free
  constructor <;> decide +kernel

theorem code_names : ∀ p ∈ codePairs, IsName firstMacros (b!"CT_" ++ p.1) := by
  intro p hp
  simp only [codePairs, List.mem_cons, List.not_mem_nil, or_false] at hp
  rcases hp with rfl | rfl <;> exact name_of (by decide +kernel)

theorem codes_str : ∀ p ∈ codePairs, Lex.StrBody p.1 ∧ Lex.StrBody p.2 := by
  intro p hp
  simp only [codePairs, List.mem_cons, List.not_mem_nil, or_false] at hp
  rcases hp with rfl | rfl <;> exact ⟨strBody_of (by decide), strBody_of (by decide)⟩

theorem fresh_of {w : World} {c : Bytes} {l : List Lex.Piece} (hw : initial true 97 true = .ok w)
    (hl : Lex.lex true firstMacros c = .ok (some (Lex.toksAt (Lex.Pos.after ⟨0, 1, 1⟩ []) l, firstMacros))) (hn : l.length ≤ 95) : Fresh w c := by
  intro ts ⟨ms, hts⟩
  rw [initial_macros hw, hl] at hts
  cases hts
  rw [initial_cells hw, Round.toksAt_length, List.drop_replicate]
  refine ⟨by rw [List.length_replicate]; omega, ?_⟩
  intro t ht
  have := List.mem_of_head? ht
  rw [(List.mem_replicate.mp this).2]
  decide

def codesText : Bytes := b!"enum CodeType : u32\n{\nCT_Invalid,CT_Comment,CT_NumTypes,CT_UnderlyingType = GEN_U32_MAX\n};\n"

def tablesText : Bytes := (b!" inline\nStr codetype_to_str( CodeType type)\n{\nlocal_persist Str lookup[] = { { \"Invalid\",  sizeof(\"Invalid\") - 1 },\n" ++
        b!"{ \"Comment\",  sizeof(\"Comment\") - 1 },\n }; return lookup[ type ];\n}\n" ++
        b!" inline\nStr codetype_to_keyword_str( CodeType type)\n{\nlocal_persist Str lookup[] = { {  \"__NA__\", sizeof(\"__NA__\") - 1 },\n" ++
        b!"{  \"//\", sizeof(\"//\") - 1 },\n }; return lookup[ type ];\n}\n")

theorem demo_texts : enumPrinted codes (codePairs.map (·.1)) = codesText ∧ fnPrinted codes (codePairs.map (·.1)) ++ fnPrinted keywords (codePairs.map (·.2)) = tablesText := by
  constructor <;> decide +kernel

/-- The enum and the functions of these rows. -/
example : ∃ (tbl : HTable Bytes) (w : World) (e f : Nat) (tbl' : HTable Bytes) (w' : World) (s' : Sys), HTable.initReserve 8 = .ok tbl ∧ initial true 97 true = .ok w ∧
    generateCodes true (fun n => n * 7 / 10) tbl w (two (Csv.source 44 codeRowsDemo) []) b!"in" = .ok ((e, f), tbl', w', s') ∧
    ∀ E : Ser.Env, E.h = w'.heap → Ser.Prints E .code e codesText ∧ Ser.Prints E .code f tablesText := by
  obtain ⟨w, hw, hr, hs⟩ := C56_spelled_init true 97 true
  have hm := initial_macros hw
  obtain ⟨tbl, e0, hw0, hk0, -⟩ := HTable.init_wf (α := Bytes) (n := 8) (by decide)
  have h : HTable.Holds tbl (fun _ => none) := ⟨hw0, fun x => by rw [hk0]; rfl⟩
  have hn : ∀ x ∈ codePairs.map (·.1), IsName firstMacros (codes.lead ++ x) := by
    intro x hx; obtain ⟨p, h1, rfl⟩ := List.mem_map.mp hx; exact code_names p h1
  have f1 : Fresh w (enumSource codes (codePairs.map (·.1))) := by
    have hl := Round.lex_pieces (g := []) (by intro x hx; cases hx) (sits_enum (.inr (.inr (.inl rfl))) codes_free.1 hn) enum_starts
    rw [written_enum (.inr (.inr (.inl rfl))), List.nil_append] at hl
    exact fresh_of hw hl (by decide +kernel)
  have f2 : Fresh w (codeFnsSource (codePairs.map (·.1)) (codePairs.map (·.2))) :=
    fresh_of hw (code_lexed codes_free.1 codes_free.2 (by intro x hx; obtain ⟨p, h1, rfl⟩ := List.mem_map.mp hx; exact (codes_str p h1).1)
      (by intro x hx; obtain ⟨p, h1, rfl⟩ := List.mem_map.mp hx; exact (codes_str p h1).2)) (by decide +kernel)
  obtain ⟨e, f, tbl', w', s', h1, h2, -⟩ := C65_generate_codes (lt := true) (crit := fun n => n * 7 / 10) (l := codePairs) (s := two (Csv.source 44 codeRowsDemo) []) (path := b!"in") hr hs h rfl rfl
    (by decide) codeRowsDemo_ok rfl (hm ▸ codes_free) (hm ▸ code_names) (fun p hp => (codes_str p hp).2) (by decide) ⟨by decide +kernel, by decide +kernel⟩ f1 f2
  rw [demo_texts.1, demo_texts.2] at h2
  exact ⟨tbl, w, e, f, tbl', w', s', e0, hw, h1, h2⟩

end Verif.EnumTables
