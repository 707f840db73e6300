import Verif.Model.ParserApi
/-!
# The constants of the library

Models `define_constants` (base/components/interface.cpp 75-212), which `init` runs for the first context, and the state in which `init`
leaves the parser (interface.cpp 217-330).

The constants are made in the order of the source. The pointers to those that nothing modelled looks at (`t_auto`, `spec_const`, …) are not
kept. `log_failure` is fatal.
-/
namespace Verif.Parse
open Verif.Lex (Tok)
open Verif.Ast

/-- `make_code()`, the assignments, and `code_set_global` (inlines.hpp 393-402): the parent is `Code_Global`, the first node. -/
def global (n : Node) (h : Heap) : Res Heap := (finish h.make.2 h.next { n with parent := 1 }).bind fun r => .ok r.2

/-- A code made by a constructor of the library, and `code_set_global`. -/
def globalBy (f : Cfg → Heap → Out) (h : Heap) : Res Heap :=
  (f { fatal := true, invalid := 2, tVoid := 0, tInt := 0, tBool := 0 } h).bind fun r => r.2.upd r.1 fun n => { n with parent := 1 }

/-- interface.cpp 80-155: one step for each constant. `GEN_API_Export_Code` is no macro. -/
def constantNodes : List (Heap → Res Heap) := [
  fun h => (finish h.make.2 h.next { name := b!"Global Code", content := b!"Global Code" }).bind fun r => .ok r.2,
  global {},
  global { type := .Typename },
  global { type := .Access_Private, name := b!"private:\n" },
  global { type := .Access_Protected, name := b!"protected:\n" },
  global { type := .Access_Public, name := b!"public:\n" },
  globalBy fun c h => defAttributes c h b!"GEN_API_Export_Code",
  globalBy fun c h => defAttributes c h b!"GEN_API_Import_Code",
  global { type := .Untyped, name := b!"module;", content := b!"module;" },
  global { type := .Untyped, name := b!"module : private;", content := b!"module : private;" },
  global { type := .NewLine },
  global { type := .Preprocess_Pragma, name := b!"once", content := b!"once" },
  global { type := .Parameters, name := b!"...", typ := 3 },
  global { type := .Preprocess_Else },
  global { type := .Preprocess_EndIf }]

/-- interface.cpp 157-164: the types. -/
def typeNames : List Bytes := [b!"auto", b!"void", b!"int", b!"bool", b!"char", b!"wchar_t", b!"class", b!"typename"]

/-- interface.cpp 166-184: the types under `GEN_DEFINE_LIBRARY_CODE_CONSTANTS`. -/
def libraryTypeNames : List Bytes := [b!"b32", b!"s8", b!"s16", b!"s32", b!"s64", b!"u8", b!"u16", b!"u32", b!"u64", b!"ssize", b!"usize",
  b!"f32", b!"f64"]

/-- interface.cpp 186-213: the specifiers. -/
def specNodes : List Specifier := [.Const, .Consteval, .Constexpr, .Constinit, .External_Linkage, .Final, .ForceInline, .Global, .Inline,
  .Internal_Linkage, .Local_Persist, .Mutable, .NeverInline, .NoExceptions, .Override, .Ptr, .Pure, .Ref, .Register, .RValue, .Static,
  .Thread_Local, .Virtual, .Volatile]

/-- One after the other. -/
def steps : List (Heap → Res Heap) → Heap → Res Heap
  | [], h => .ok h
  | f :: fs, h => (f h).bind (steps fs)

/-- interface.cpp 75-212 `define_constants`, for the first context. -/
def defineConstants (library : Bool) : Res Heap :=
  steps (constantNodes
    ++ (typeNames ++ if library then libraryTypeNames else []).map (fun n => globalBy fun c h => defType c h n {})
    ++ specNodes.map (fun s => globalBy fun c h => defSpecifier c h s)
    ++ [globalBy fun c h => defSpecifiers c h [.Local_Persist]]) .empty

/-- What a cell of the array of tokens holds at first. -/
def zeroTok : Tok := ⟨0, 0, .Invalid, 0, 0, 0⟩

/-- interface.cpp 217-330 `init`, as far as the parser is concerned: the constants, the macro `enum_underlying` (204-209), an array of tokens
with `room` cells (65536 unless the user sets another number), and no parse yet. -/
def initial (library : Bool) (room : Nat) (lt : Bool) : Res World :=
  (defineConstants library).bind fun h => .ok {
    env := {
      mem := [0], cells := List.replicate room zeroTok, num := 0, ms := [(Crc.crc32 b!"enum_underlying", ⟨0, 1⟩)],
      cfg := { fatal := true, invalid := 2, tVoid := 17, tInt := 18, tBool := 19 }, lt := lt,
      fmtNewline := 11, accessPublic := 6, accessProtected := 5, accessPrivate := 4, preElse := 14, preEndif := 15, paramVaradic := 13,
      tEmpty := 3 }
    idx := none, heap := h, scope := [] }

end Verif.Parse
