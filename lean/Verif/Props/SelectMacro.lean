import Verif.Model.SelectMacro
import Verif.Proof.StrBuilder
import Verif.Props.TokenFmt
import Verif.Proof.AdtQuery
import Verif.Props.Printing
import Verif.Props.DefPrint
/-!
# C67: macros that select a function by type
-/
namespace Verif.Select
open Ast Fmt SB

/-! ## What the macro looks like -/

/-- What the type is taken of. -/
def operand : Opts → Bytes
  | .directType => b!"(*(selector_arg*)NULL )"
  | _ => b!"(selector_arg)"

/-- The arguments of the call: the first one (its address, or nothing, since it is only a type), and the others if there may be some. -/
def arguments : Opts → Bool → Bytes
  | .plain, true => b!"( selector_arg )"
  | .plain, false => b!"( selector_arg, __VA_ARGS__ )"
  | .byRef, true => b!"( & selector_arg )"
  | .byRef, false => b!"( & selector_arg, __VA_ARGS__ )"
  | .directType, true => b!"()"
  | .directType, false => b!"( __VA_ARGS__ )"

/-- The line of a slot. -/
def slotLine (name : Bytes) (n : Nat) : Bytes := b!"GEN_IF_MACRO_DEFINED_INCLUDE_THIS_SLOT( GENERIC_SLOT_" ++ Adt.intText n ++ b!"__" ++ name ++ b!" ) "

/-- The lines of the macro. -/
def lines (name : Bytes) (n : Nat) (o : Opts) (oneArg : Bool) : List Bytes :=
  [b!"#define " ++ name ++ b!"(selector_arg, ...) _Generic( " ++ operand o ++ b!", "] ++ (List.range' 1 n).map (slotLine name) ++
  [b!"default: gen_generic_selection_fail", b!")", b!"GEN_RESOLVED_FUNCTION_CALL" ++ arguments o oneArg]

/-- Lines that are continued, and a blank line behind them. -/
def continued : List Bytes → Bytes
  | [] => b!"\n\n"
  | [l] => l ++ b!"\n\n"
  | l :: ls => l ++ b!"\\\n" ++ continued ls

/-! ## Formatting -/

theorem first_eq {crit : Nat → Nat} {tbl : HTable Bytes} (h : HTable.Holds tbl (fun _ => none)) {v a b : Bytes} (ha : 60 ∉ a ∧ (0 : UInt8) ∉ a) (hb : 60 ∉ b ∧ (0 : UInt8) ∉ b)
    (hl : (a ++ v ++ b).length ≤ printfMax) :
    ∃ tbl', TokenFmt.tokenFmtVa crit printfMax tbl [(b!"macro_name" ++ [0], v)] (a ++ b!"<macro_name>" ++ b ++ [0]) = .ok (a ++ v ++ b, tbl') ∧ HTable.Holds tbl' (fun _ => none) := by
  obtain ⟨tbl', h1, h2⟩ := TokenFmt.C19_substitution crit printfMax tbl h [(b!"macro_name", v)] (by intro p hp; simp at hp; subst hp; show (0 : UInt8) ∉ b!"macro_name"; decide)
    [.lit a, .tok b!"macro_name" v, .lit b]
    (by
      intro p hp
      simp only [List.mem_cons, List.not_mem_nil, or_false] at hp
      rcases hp with rfl | rfl | rfl
      · exact ha
      · exact ⟨by decide, by decide, by simp [TokenFmt.binding]⟩
      · exact hb)
    (by
      intro x hx y hy _
      simp [TokenFmt.Piece.names] at hx hy
      rw [hx, hy])
    (by simpa [TokenFmt.Piece.dst] using hl)
  refine ⟨tbl', ?_, h2⟩
  have e : [TokenFmt.Piece.lit a, .tok b!"macro_name" v, .lit b].flatMap TokenFmt.Piece.dst = a ++ v ++ b := by simp [TokenFmt.Piece.dst]
  rw [e] at h1
  rw [← h1]
  simp [TokenFmt.cstr, TokenFmt.Piece.src]

theorem slot_eq {crit : Nat → Nat} {tbl : HTable Bytes} (h : HTable.Holds tbl (fun _ => none)) {v u a b c : Bytes} (ha : 60 ∉ a ∧ (0 : UInt8) ∉ a) (hb : 60 ∉ b ∧ (0 : UInt8) ∉ b)
    (hc : 60 ∉ c ∧ (0 : UInt8) ∉ c) (hl : (a ++ u ++ b ++ v ++ c).length ≤ printfMax) :
    ∃ tbl', TokenFmt.tokenFmtVa crit printfMax tbl [(b!"macro_name" ++ [0], v), (b!"slot" ++ [0], u)] (a ++ b!"<slot>" ++ b ++ b!"<macro_name>" ++ c ++ [0]) = .ok (a ++ u ++ b ++ v ++ c, tbl') ∧
      HTable.Holds tbl' (fun _ => none) := by
  obtain ⟨tbl', h1, h2⟩ := TokenFmt.C19_substitution crit printfMax tbl h [(b!"macro_name", v), (b!"slot", u)]
    (by
      intro p hp
      simp only [List.mem_cons, List.not_mem_nil, or_false] at hp
      rcases hp with rfl | rfl
      · show (0 : UInt8) ∉ b!"macro_name"; decide
      · show (0 : UInt8) ∉ b!"slot"; decide)
    [.lit a, .tok b!"slot" u, .lit b, .tok b!"macro_name" v, .lit c]
    (by
      intro p hp
      simp only [List.mem_cons, List.not_mem_nil, or_false] at hp
      rcases hp with rfl | rfl | rfl | rfl | rfl
      · exact ha
      · exact ⟨by decide, by decide, by simp [TokenFmt.binding]⟩
      · exact hb
      · exact ⟨by decide, by decide, by simp [TokenFmt.binding]⟩
      · exact hc)
    (by
      have key : ∀ x ∈ [b!"macro_name", b!"slot", b!"slot", b!"macro_name"], ∀ y ∈ [b!"macro_name", b!"slot", b!"slot", b!"macro_name"], Crc.crc32 x = Crc.crc32 y → x = y := by decide +kernel
      exact key)
    (by simpa [TokenFmt.Piece.dst] using hl)
  refine ⟨tbl', ?_, h2⟩
  have e : [TokenFmt.Piece.lit a, .tok b!"slot" u, .lit b, .tok b!"macro_name" v, .lit c].flatMap TokenFmt.Piece.dst = a ++ u ++ b ++ v ++ c := by simp [TokenFmt.Piece.dst]
  rw [e] at h1
  rw [← h1]
  simp [TokenFmt.cstr, TokenFmt.Piece.src]

theorem int_length {n : Nat} (h : n < 2 ^ 31) : (Adt.intText n).length ≤ 64 := by
  rw [Adt.intText_eq]
  exact Num.signed_len (b := 10) (by omega) n (by omega) (by omega)

/-- C36: `strbuilder_fmt_buf` makes a string of the text of the format, whatever its buffer held before, whenever the text is shorter than the buffer. -/
theorem C36_fmt_buf_partial (lt : Bool) (static : Bytes) (hs : printfMax ≤ static.length) (items : List (Bytes × Conv)) (last : Bytes) (ho : OkFmt items last)
    (h : (rendered items last).length + 2 < printfMax) : ∃ sb, fmtBuf lt static (fmtText items last) (fmtArgs items) = .ok sb ∧ Holds sb (rendered items last) := by
  have k := C36_fits_partial lt items last static printfMax ho (by omega) hs
  obtain ⟨sb, h1, h2, -⟩ := makeLength_holds (rendered items last ++ 0 :: static.drop ((rendered items last).length + 1)) (rendered items last).length (by simp)
  rw [List.take_left] at h2
  refine ⟨sb, ?_, h2⟩
  unfold fmtBuf
  rw [k, Res.ok_bind]
  simp only []
  rw [if_neg (by omega), show ((rendered items last).length + 1 - 1 : Int).toNat = (rendered items last).length by omega]
  exact h1

/-- The number of a slot. -/
theorem number {lt : Bool} {n : Nat} (h : n < 2 ^ 31) : ∃ sb, fmtBuf lt (List.replicate printfMax 0) (b!"%d" ++ [0]) [.int n] = .ok sb ∧ Holds sb (Adt.intText n) := by
  have hl := int_length h
  have e : rendered [([], Conv.int n)] [] = Adt.intText n := by
    rw [Adt.intText_eq]
    simp [rendered, Conv.text]
  have k := C36_fmt_buf_partial lt (List.replicate printfMax 0) (by simp) [([], Conv.int n)] [] ⟨⟨by decide, by decide⟩, ⟨by omega, by omega⟩, (fun h => by cases h), ⟨by decide, by decide⟩⟩
    (by rw [e]; unfold printfMax; omega)
  rw [e] at k
  exact k

/-! ## The slots -/

theorem slots_holds {lt : Bool} {crit : Nat → Nat} {name : Bytes} (hn : name.length ≤ 100000) : ∀ {left slot : Nat} {tbl : HTable Bytes} {sb : SB} {c : Bytes}, HTable.Holds tbl (fun _ => none) → Holds sb c →
    slot + left ≤ 2 ^ 31 → ∃ tbl' sb', slots lt crit name left slot tbl sb = .ok (tbl', sb') ∧ HTable.Holds tbl' (fun _ => none) ∧
      Holds sb' (c ++ (List.range' slot left).flatMap fun k => slotLine name k ++ b!"\\\n")
  | 0, slot, tbl, sb, c, ht, hs, _ => ⟨tbl, sb, rfl, ht, by simpa using hs⟩
  | left + 1, slot, tbl, sb, c, ht, hs, hb => by
    obtain ⟨num, e1, h1⟩ := number (lt := lt) (n := slot) (by omega)
    have hl := int_length (n := slot) (by omega)
    obtain ⟨tbl1, e2, h2⟩ := slot_eq (crit := crit) ht (v := name) (u := Adt.intText slot) (a := b!"GEN_IF_MACRO_DEFINED_INCLUDE_THIS_SLOT( GENERIC_SLOT_") (b := b!"__") (c := b!" ) \\\n")
      (by decide +kernel) (by decide +kernel) (by decide +kernel) (by unfold printfMax; simp only [List.length_append, List.length_cons, List.length_nil]; omega)
    have e3 : b!"GEN_IF_MACRO_DEFINED_INCLUDE_THIS_SLOT( GENERIC_SLOT_" ++ b!"<slot>" ++ b!"__" ++ b!"<macro_name>" ++ b!" ) \\\n" = slotTemplate := by decide +kernel
    rw [e3] at e2
    obtain ⟨sb1, e4, h4, -⟩ := appendStr_holds hs (b!"GEN_IF_MACRO_DEFINED_INCLUDE_THIS_SLOT( GENERIC_SLOT_" ++ Adt.intText slot ++ b!"__" ++ name ++ b!" ) \\\n")
    obtain ⟨tbl', sb', e5, h5, h6⟩ := slots_holds hn (lt := lt) (crit := crit) (left := left) (slot := slot + 1) h2 h4 (by omega)
    refine ⟨tbl', sb', ?_, h5, ?_⟩
    · rw [slots]
      simp only [Res.bind_eq]
      rw [e1, Res.ok_bind, h1.readAll, Res.ok_bind, e2, Res.ok_bind]
      simp only []
      rw [e4, Res.ok_bind]
      exact e5
    · rw [List.range'_succ, List.flatMap_cons]
      simpa [slotLine] using h6

theorem continued_snoc : ∀ (l : List Bytes) (x : Bytes), continued (l ++ [x]) = l.flatMap (· ++ b!"\\\n") ++ x ++ b!"\n\n"
  | [], x => by simp [continued]
  | [a], x => by simp [continued]
  | a :: b :: l, x => by
    have := continued_snoc (b :: l) x
    simp only [List.cons_append] at this
    simp only [List.cons_append, continued, this, List.flatMap_cons, List.append_assoc]

/-- C67: the code is the text of the macro, and prints as that; whatever was built before is forgotten. -/
theorem C67_selection_macro {lt : Bool} {crit : Nat → Nat} {c : Cfg} {tbl : HTable Bytes} {sb : SB} {old : Bytes} {e : Ser.Env} {n : Int} {name : Bytes} {o : Opts} {oneArg : Bool}
    (ht : HTable.Holds tbl (fun _ => none)) (hs : Holds sb old) (hh : 0 < e.h.next) (hn : name.length ≤ 100000) (hm : n < 2 ^ 31 - 1) :
    ∃ q h' tbl' sb', selectionMacro lt crit c tbl sb e.h n name o oneArg = .ok (q, h', tbl', sb') ∧ Ser.Prints (e.on h') .code q (continued (lines name n.toNat o oneArg)) ∧
      Kept e.h h' ∧ HTable.Holds tbl' (fun _ => none) ∧ Holds sb' (continued (lines name n.toNat o oneArg)) := by
  have hc := clear_holds hs
  obtain ⟨tbl1, e1, h1⟩ := first_eq (crit := crit) ht (v := name) (a := b!"#define ") (b := b!"(selector_arg, ...) _Generic( " ++ operand o ++ b!", \\\n")
    (by decide +kernel) (by cases o <;> decide +kernel) (by
      have : (operand o).length ≤ 30 := by cases o <;> decide
      unfold printfMax; simp only [List.length_append, List.length_cons, List.length_nil]; omega)
  have e2 : b!"#define " ++ b!"<macro_name>" ++ (b!"(selector_arg, ...) _Generic( " ++ operand o ++ b!", \\\n") = firstTemplate o := by cases o <;> decide +kernel
  rw [e2] at e1
  obtain ⟨s1, e3, h3, -⟩ := appendStr_holds hc (b!"#define " ++ name ++ (b!"(selector_arg, ...) _Generic( " ++ operand o ++ b!", \\\n"))
  obtain ⟨tbl2, s2, e4, h4, h5⟩ := slots_holds hn (lt := lt) (crit := crit) (left := n.toNat) (slot := 1) h1 h3 (by omega)
  obtain ⟨s3, e6, h6, -⟩ := appendStr_holds h5 b!"default: gen_generic_selection_fail\\\n"
  obtain ⟨s4, e7, h7, -⟩ := appendStr_holds h6 (lastLine o oneArg)
  obtain ⟨s5, e8, h8, -⟩ := appendStr_holds h7 b!"\n\n"
  have et : [] ++ (b!"#define " ++ name ++ (b!"(selector_arg, ...) _Generic( " ++ operand o ++ b!", \\\n")) ++ ((List.range' 1 n.toNat).flatMap fun k => slotLine name k ++ b!"\\\n") ++
      b!"default: gen_generic_selection_fail\\\n" ++ lastLine o oneArg ++ b!"\n\n" = continued (lines name n.toNat o oneArg) := by
    have hl : lastLine o oneArg = b!")\\\n" ++ (b!"GEN_RESOLVED_FUNCTION_CALL" ++ arguments o oneArg) := by cases o <;> cases oneArg <;> decide +kernel
    have ef : lines name n.toNat o oneArg = ([b!"#define " ++ name ++ b!"(selector_arg, ...) _Generic( " ++ operand o ++ b!", "] ++ (List.range' 1 n.toNat).map (slotLine name) ++
        [b!"default: gen_generic_selection_fail", b!")"]) ++ [b!"GEN_RESOLVED_FUNCTION_CALL" ++ arguments o oneArg] := by simp [lines]
    have eb : (b!", \\\n" : Bytes) = b!", " ++ b!"\\\n" := by decide
    have ed : (b!"default: gen_generic_selection_fail\\\n" : Bytes) = b!"default: gen_generic_selection_fail" ++ b!"\\\n" := by decide
    have ec : (b!")\\\n" : Bytes) = b!")" ++ b!"\\\n" := by decide
    rw [ef, continued_snoc, hl, eb, ed, ec]
    simp only [List.flatMap_append, List.flatMap_cons, List.flatMap_nil, List.flatMap_map, List.append_assoc, List.nil_append, List.append_nil]
  rw [et] at h8
  have hne : continued (lines name n.toNat o oneArg) ≠ [] := by rw [← et]; simp
  obtain ⟨h', k1, k2, k3, k4⟩ := (C29_untyped_str c hh (continued (lines name n.toNat o oneArg))).1 hne
  have hp : Ser.Prints (e.on h') .code e.h.next (continued (lines name n.toNat o oneArg)) := by
    have := Ser.C48_text (e := e.on h') (p := e.h.next) (n := { type := .Untyped, name := continued (lines name n.toNat o oneArg), content := continued (lines name n.toNat o oneArg) }) (.inl ⟨k2, k3, rfl⟩)
    exact this
  refine ⟨_, h', tbl2, s5, ?_, hp, k4, h4, h8⟩
  unfold selectionMacro
  simp only [Res.bind_eq, Res.pure_eq]
  rw [e1, Res.ok_bind]
  simp only []
  rw [e3, Res.ok_bind]
  simp only []
  rw [e4, Res.ok_bind]
  simp only []
  rw [e6, Res.ok_bind]
  simp only []
  rw [e7, Res.ok_bind]
  simp only []
  rw [e8, Res.ok_bind]
  simp only []
  rw [h8.readAll, Res.ok_bind, k1, Res.ok_bind]

/-! ## A case -/

/-- `hashtable_get` with two slots. -/
example : continued (lines b!"hashtable_get" 2 .plain false) =
    b!"#define hashtable_get(selector_arg, ...) _Generic( (selector_arg), \\\n" ++
    b!"GEN_IF_MACRO_DEFINED_INCLUDE_THIS_SLOT( GENERIC_SLOT_1__hashtable_get ) \\\n" ++
    b!"GEN_IF_MACRO_DEFINED_INCLUDE_THIS_SLOT( GENERIC_SLOT_2__hashtable_get ) \\\n" ++
    b!"default: gen_generic_selection_fail\\\n)\\\nGEN_RESOLVED_FUNCTION_CALL( selector_arg, __VA_ARGS__ )\n\n" := by decide +kernel

theorem empty_builder {k : Nat} : Holds (makeReserve k) [] :=
  ⟨rfl, Nat.zero_le _, List.replicate (k + 1) (some 0), by simp [makeReserve], by simp [makeReserve]⟩

/-- The macro of twelve slots for `array_init`, made in a heap that holds codes already. -/
example (c : Cfg) : ∃ (tbl : HTable Bytes) (q : Nat) (h' : Heap) (tbl' : HTable Bytes) (sb' : SB), HTable.initReserve 8 = .ok tbl ∧
    selectionMacro true (fun n => n * 7 / 10) c tbl (makeReserve 65536) { next := 5, cell := fun _ => {} } 12 b!"array_init" .directType true = .ok (q, h', tbl', sb') ∧
    Ser.Prints (({ h := { next := 5, cell := fun _ => {} } } : Ser.Env).on h') .code q (continued (lines b!"array_init" 12 .directType true)) := by
  obtain ⟨tbl, e0, hw0, hk0, -⟩ := HTable.init_wf (α := Bytes) (n := 8) (by decide)
  have hf : Holds (makeReserve 65536) [] := empty_builder
  obtain ⟨q, h', tbl', sb', h1, h2, -⟩ := C67_selection_macro (lt := true) (crit := fun n => n * 7 / 10) (c := c) (e := { h := { next := 5, cell := fun _ => {} } }) (n := 12) (name := b!"array_init")
    (o := .directType) (oneArg := true) (tbl := tbl) ⟨hw0, fun x => by rw [hk0]; rfl⟩ hf (by decide) (by decide) (by decide)
  exact ⟨tbl, q, h', tbl', sb', e0, h1, h2⟩

end Verif.Select
