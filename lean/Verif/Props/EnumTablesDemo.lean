import Verif.Props.EnumTables
import Verif.Props.RoundDemo
import Verif.Props.FilesBuilder
/-!
# C65: where it fails, and a case
-/
namespace Verif.EnumTables
open Verif.Round (IsName Fresh name_of)
open Verif.Parse (World initial firstMacros initial_macros initial_cells shown parse_enum parse_function C56_spelled_init)
open Verif.Os Verif.Files

/-! ## Where it fails -/

/-- C65 is false of a file with one column: the second one is read all the same. -/
theorem C65_one_column_refuted {lt : Bool} {crit : Nat → Nat} {t : Words} {tbl : HTable Bytes} {w : World} {s : Sys} {path c : Bytes} {e : Csv.Error} {c1 : Csv.Column}
    (hf : s.file path = some c) (h0 : (0 : UInt8) ∉ c) (hne : c ≠ []) (hc : Calm s) (hp : Csv.parse c false 44 = .ok (e, [c1])) : generate lt crit t tbl w s path = .ub := by
  unfold generate
  rw [C62_two_columns_refuted hf h0 hne hc hp]
  rfl

/-- C65 is false of names that are no identifiers: `a b` becomes `ab`, and `a=3` gives the enumerator a value, so that the rows of the table no longer belong to the
enumerators behind it; the program is stopped at others. -/
theorem C65_name_refuted :
    shown parse_enum (enumSource operators [b!"a b"]) = .ok (enumPrinted operators [b!"ab"]) ∧
    shown parse_enum (enumSource operators [b!"a=3", b!"c"]) = .ok (enumPrinted operators [b!"a=3", b!"c"]) ∧
    shown parse_enum (enumSource operators [b!"a-b"]) = .stop := by decide +kernel

/-- C65 is false of a backslash in the second column, as a string literal does not end there. -/
theorem C65_backslash_refuted : shown parse_function (fnSource operators [b!"\\"]) = .stop := by decide +kernel

/-! ## A case -/

/-- The first rows of base/enums/EOperator.csv, and `,`. -/
def demoRows : List Csv.Row := [
  ⟨[⟨[], .bare b!"Invalid", []⟩], ⟨b!"         ", .bare b!"INVALID", []⟩⟩,
  ⟨[⟨[], .bare b!"Assign", []⟩], ⟨b!"          ", .inQuotes b!"=", []⟩⟩,
  ⟨[⟨[], .bare b!"Comma", []⟩], ⟨b!"           ", .inQuotes b!",", []⟩⟩]

def demoPairs : List (Bytes × Bytes) := [(b!"Invalid", b!"INVALID"), (b!"Assign", b!"="), (b!"Comma", b!",")]

example : Csv.source 44 demoRows = b!"Invalid,         INVALID\nAssign,          \"=\"\nComma,           \",\"\n" := by decide

theorem demoRows_ok : ∀ r ∈ demoRows, r.Ok 44 := by
  have hb : ∀ {n : Nat}, Csv.Blank (List.replicate n 32) := by
    intro n c hc
    rw [(List.mem_replicate.mp hc).2]
    decide
  have bare : ∀ {t : Bytes}, (∀ c ∈ t, c ≠ 0 ∧ c ≠ 44 ∧ c ≠ 10) → (∀ c, t.head? = some c → charIsSpace c = false ∧ c ≠ 34) → (∀ c, t.getLast? = some c → charIsSpace c = false) →
    (Csv.Field.bare t).Ok 44 := fun h1 h2 h3 => ⟨h1, h2, h3⟩
  intro r hr
  simp only [demoRows, List.mem_cons, List.not_mem_nil, or_false] at hr
  rcases hr with rfl | rfl | rfl
  all_goals
    refine ⟨?_, by decide⟩
    intro p hp
    simp only [Csv.Row.cells, List.cons_append, List.nil_append, List.mem_cons, List.not_mem_nil, or_false] at hp
    rcases hp with rfl | rfl
    · exact ⟨hb (n := 0), bare (by decide) (by intro c hc; cases hc; decide) (by intro c hc; cases hc; decide), hb (n := 0)⟩
    · first
      | exact ⟨hb (n := 9), bare (by decide) (by intro c hc; cases hc; decide) (by intro c hc; cases hc; decide), hb (n := 0)⟩
      | exact ⟨hb (n := 10), ⟨by decide, by decide⟩, hb (n := 0)⟩
      | exact ⟨hb (n := 11), ⟨by decide, by decide⟩, hb (n := 0)⟩

theorem demo_free : Free firstMacros operators := by
  unfold Free
  decide +kernel

theorem demo_names : ∀ p ∈ demoPairs, IsName firstMacros (operators.lead ++ p.1) := by
  intro p hp
  simp only [demoPairs, List.mem_cons, List.not_mem_nil, or_false] at hp
  rcases hp with rfl | rfl | rfl <;> exact name_of (by decide +kernel)

theorem demo_fresh {w : World} (hw : initial true 48 true = .ok w) : Fresh w (enumSource operators (demoPairs.map (·.1))) := by
  intro ts ⟨ms, hts⟩
  rw [initial_macros hw] at hts
  have hl := Round.lex_pieces (g := []) (by intro x hx; cases hx) (sits_enum (.inl rfl) demo_free (xs := demoPairs.map (·.1)) (by
    intro x hx; obtain ⟨p, h1, rfl⟩ := List.mem_map.mp hx; exact demo_names p h1)) enum_starts
  rw [written_enum (.inl rfl), List.nil_append, hts] at hl
  cases hl
  rw [initial_cells hw, Round.toksAt_length, List.drop_replicate]
  refine ⟨by rw [List.length_replicate]; decide, ?_⟩
  intro t ht
  have := List.mem_of_head? ht
  rw [(List.mem_replicate.mp this).2]
  decide

/-- The enum and the function of these rows. -/
example : ∃ (tbl : HTable Bytes) (w : World) (e f : Nat) (tbl' : HTable Bytes) (w' : World) (s' : Sys), HTable.initReserve 8 = .ok tbl ∧ initial true 48 true = .ok w ∧
    generate true (fun n => n * 7 / 10) operators tbl w (two (Csv.source 44 demoRows) []) b!"in" = .ok ((e, f), tbl', w', s') ∧
    ∀ E : Ser.Env, E.h = w'.heap →
      Ser.Prints E .code e b!"enum Operator : u32\n{\nOp_Invalid,Op_Assign,Op_Comma,Op_NumOps,Op_UnderlyingType = 0xffffffffu\n};\n" ∧
      Ser.Prints E .code f (b!" inline\nStr operator_to_str( Operator op)\n{\nlocal_persist Str lookup[] = { { \"INVALID\", sizeof(\"INVALID\") - 1 },\n{ \"=\", sizeof(\"=\") - 1 },\n" ++
        b!"{ \",\", sizeof(\",\") - 1 },\n }; return lookup[ op ];\n}\n") := by
  obtain ⟨w, hw, hr, -⟩ := C56_spelled_init true 48 true
  have hm := initial_macros hw
  obtain ⟨tbl, e0, hw0, hk0, -⟩ := HTable.init_wf (α := Bytes) (n := 8) (by decide)
  have h : HTable.Holds tbl (fun _ => none) := ⟨hw0, fun x => by rw [hk0]; rfl⟩
  obtain ⟨e, f, tbl', w', s', h1, h2, -⟩ := C65_generate (lt := true) (crit := fun n => n * 7 / 10) (l := demoPairs) (s := two (Csv.source 44 demoRows) []) (path := b!"in") (.inl rfl) hr h rfl rfl
    (by decide) demoRows_ok rfl (hm ▸ demo_free) (hm ▸ demo_names) (by
      intro p hp
      simp only [demoPairs, List.mem_cons, List.not_mem_nil, or_false] at hp
      rcases hp with rfl | rfl | rfl
      · repeat (first | exact .nil | refine .plain (by decide) (by decide) ?_)
      · repeat (first | exact .nil | refine .plain (by decide) (by decide) ?_)
      · repeat (first | exact .nil | refine .plain (by decide) (by decide) ?_)) ⟨by decide +kernel, by decide +kernel⟩ (demo_fresh hw)
  exact ⟨tbl, w, e, f, tbl', w', s', e0, hw, h1, h2⟩

end Verif.EnumTables
