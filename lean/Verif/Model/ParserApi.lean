import Verif.Model.ParserBody
/-!
# The parser: the public functions

Models base/components/interface.parsing.cpp, `_check_parse_args` (parser.cpp 141-157) and what the library keeps between two calls: the
tokens of the last content (`_ctx->Lexer_Tokens`, 65536 cells at least, all zero at first) and `_ctx->parser`.

Simplification: the array of tokens does not move. (It has room for 65536 tokens before it grows.)
-/
namespace Verif.Parse
open Verif.Lex (Tok)
open Verif.Ast
open P

/-- What the library keeps between two calls. -/
structure World where
  /-- the constants, the macros, and the array of tokens with the last content -/
  env : Env
  /-- `_ctx->parser.Tokens.Idx`; `none` as long as `_ctx->parser.Tokens.Arr` is null -/
  idx : Option Nat
  heap : Heap
  scope : List Bytes

/-- The content of a cell that is not overwritten: its text is not part of the new content. -/
def stale (mem : Bytes) (t : Tok) : Tok := { t with start := mem.length + 1 + t.start }

/-- `lex( def )`, writing the array of tokens. -/
def World.lex (w : World) (content : Bytes) : Res (Option World) :=
  (Lex.lex true w.env.ms content).bind fun r =>
  match r with
  | none => .ok none
  | some (toks, ms) =>
    .ok (some { w with env := { w.env with
      mem := content ++ [0], num := toks.length, ms := ms,
      cells := toks ++ (w.env.cells.drop toks.length).map (stale (content ++ [0])) } })

/-- A call of a parsing function. -/
def World.call {α : Type} (w : World) (p : P α) : Res (α × World) :=
  match w.idx with
  | none => .ub
  | some i =>
    (p w.env ⟨i, w.heap, w.scope⟩).bind fun r =>
    .ok (r.1, { w with idx := some r.2.idx, heap := r.2.heap, scope := r.2.scope })

/-- `check_parse_args( def ); TokArray toks = lex( def ); if ( toks.Arr == nullptr ) return InvalidCode;`, and the rest. -/
def World.begin (w : World) (content : Bytes) (k : World → Res (Nat × World)) : Res (Nat × World) :=
  if content = [] then .stop else
  (w.lex content).bind fun r =>
  match r with
  | none => .ok (w.env.cfg.invalid, w)
  | some w => k w

/-- `_ctx->parser.Tokens = toks; return p();`. -/
def World.parse (w : World) (content : Bytes) (p : P Nat) : Res (Nat × World) :=
  w.begin content fun w => { w with idx := some 0 }.call p

/-- interface.parsing.cpp 11-24 -/
def parse_class (w : World) (d : Bytes) := w.parse d (inScope b!"parse_class" (withRec fun r => classStruct r .Decl_Class false))

/-- interface.parsing.cpp 36-71: the specifiers that are allowed; `const` ends the loop. -/
def constructorSpecs : List Specifier := [.Constexpr, .Explicit, .Inline, .ForceInline, .NeverInline]

/-- interface.parsing.cpp 26-81. The specifiers are looked for with the index the last parse has left. -/
def parse_constructor (w : World) (d : Bytes) : Res (Nat × World) :=
  w.begin d fun w =>
  (w.call do specsOf (← specifiersLoop (orConst constructorSpecs) [])).bind fun r =>
  { r.2 with idx := some 0 }.call (constructor r.1)

/-- interface.parsing.cpp 83-96 -/
def parse_define (w : World) (d : Bytes) := w.parse d (inScope b!"parse_define" define)
/-- interface.parsing.cpp 98-112 -/
def parse_destructor (w : World) (d : Bytes) := w.parse d (destructor 0)
/-- interface.parsing.cpp 114-129 -/
def parse_enum (w : World) (d : Bytes) := w.parse d (parseEnum false)
/-- interface.parsing.cpp 131-141 -/
def parse_export_body (w : World) (d : Bytes) := w.parse d (withRec exportBody)
/-- interface.parsing.cpp 143-153 -/
def parse_extern_link (w : World) (d : Bytes) := w.parse d (withRec externLink)
/-- interface.parsing.cpp 155-165 -/
def parse_friend (w : World) (d : Bytes) := w.parse d friend
/-- interface.parsing.cpp 167-177 -/
def parse_function (w : World) (d : Bytes) := w.parse d parseFunction
/-- interface.parsing.cpp 179-192 -/
def parse_global_body (w : World) (d : Bytes) := w.parse d (inScope b!"parse_global_body" (withRec fun r => nspaceWith r .Global_Body))
/-- interface.parsing.cpp 194-204 -/
def parse_namespace (w : World) (d : Bytes) := w.parse d (withRec parseNamespace)
/-- interface.parsing.cpp 206-216 -/
def parse_operator (w : World) (d : Bytes) := w.parse d parseOperator
/-- interface.parsing.cpp 218-228 -/
def parse_operator_cast (w : World) (d : Bytes) := w.parse d (operatorCast 0)
/-- interface.parsing.cpp 230-243 -/
def parse_struct (w : World) (d : Bytes) := w.parse d (inScope b!"parse_struct" (withRec fun r => classStruct r .Decl_Struct false))
/-- interface.parsing.cpp 245-255 -/
def parse_template (w : World) (d : Bytes) := w.parse d (withRec templateWith)
/-- interface.parsing.cpp 257-267 -/
def parse_type (w : World) (d : Bytes) := w.parse d type
/-- interface.parsing.cpp 269-279 -/
def parse_typedef (w : World) (d : Bytes) := w.parse d (withRec typedefWith)
/-- interface.parsing.cpp 281-291 -/
def parse_union (w : World) (d : Bytes) := w.parse d (withRec fun r => parseUnion r false)
/-- interface.parsing.cpp 293-303 -/
def parse_using (w : World) (d : Bytes) := w.parse d parseUsing
/-- interface.parsing.cpp 305-315 -/
def parse_variable (w : World) (d : Bytes) := w.parse d parseVariable

end Verif.Parse
