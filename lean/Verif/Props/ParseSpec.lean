import Verif.Model.Constants
/-!
# What the functions that parse promise: the vocabulary

`parsers` lists the functions of the library that take a text and give a code, with the types of code each may give.
-/
namespace Verif.Parse
open Verif.Lex (Tok)
open Verif.Ast

/-- A function that parses a text, and the types of the codes it gives. -/
structure Parser where
  run : World → Bytes → Res (Nat × World)
  types : List CodeType

/-- Those that stop, or go on, at the specifier `const`. -/
def plainParsers : List Parser := [
  ⟨parse_class, [.Class, .Class_Fwd]⟩,
  ⟨parse_constructor, [.Constructor, .Constructor_Fwd]⟩,
  ⟨parse_define, [.Preprocess_Define]⟩,
  ⟨parse_destructor, [.Destructor, .Destructor_Fwd]⟩,
  ⟨parse_enum, [.Enum, .Enum_Class, .Enum_Fwd, .Enum_Class_Fwd]⟩,
  ⟨parse_export_body, [.Export_Body]⟩,
  ⟨parse_extern_link, [.Extern_Linkage]⟩,
  ⟨parse_friend, [.Friend]⟩,
  ⟨parse_global_body, [.Global_Body]⟩,
  ⟨parse_namespace, [.Namespace]⟩,
  ⟨parse_operator_cast, [.Operator_Cast, .Operator_Cast_Fwd]⟩,
  ⟨parse_struct, [.Struct, .Struct_Fwd]⟩,
  ⟨parse_template, [.Template]⟩,
  ⟨parse_type, [.Typename]⟩,
  ⟨parse_typedef, [.Typedef]⟩,
  ⟨parse_union, [.Union, .Union_Fwd]⟩,
  ⟨parse_using, [.Using, .Using_Namespace]⟩,
  ⟨parse_variable, [.Variable]⟩]

/-- The two that loop there. -/
def constParsers : List Parser := [
  ⟨parse_function, [.Function, .Function_Fwd]⟩,
  ⟨parse_operator, [.Operator, .Operator_Fwd, .Operator_Member, .Operator_Member_Fwd]⟩]

/-- All of them (interface.hpp 352-373). -/
def parsers : List Parser := plainParsers ++ constParsers

/-- The codes a code refers to. -/
def links (n : Node) : List Nat :=
  [n.inlineCmt, n.attributes, n.specs, n.typ, n.params, n.body, n.suffix, n.parent, n.front, n.back]

/-- A constant as the library sets it up: it is global, stands in no list, is neither a body nor a type, and refers to nothing else but
the empty type. -/
structure IsConstant (w : World) (p : Nat) : Prop where
  made : p < w.heap.next
  other : p ≠ w.env.tEmpty
  global : (w.heap.cell p).parent ≠ 0
  single : (w.heap.cell p).front = 0 ∧ (w.heap.cell p).back = 0
  kind : isBodyType (w.heap.cell p).type = false ∧ (w.heap.cell p).type ≠ .Typename
  leaf : (w.heap.cell p).inlineCmt = 0 ∧ (w.heap.cell p).attributes = 0 ∧ (w.heap.cell p).specs = 0 ∧
    ((w.heap.cell p).typ = 0 ∨ (w.heap.cell p).typ = w.env.tEmpty) ∧ (w.heap.cell p).params = 0 ∧ (w.heap.cell p).body = 0 ∧
    (w.heap.cell p).suffix = 0

/-- The library is initialised (`C53_init`), and stays so whatever is parsed (`C53_ready`). -/
structure World.Ready (w : World) : Prop where
  fatal : w.env.cfg.fatal = true
  started : 0 < w.heap.next
  index : ∀ i, w.idx = some i → i ≤ w.env.cells.length + 1
  empty : w.env.tEmpty < w.heap.next
  constants : ∀ p ∈ w.env.constants, IsConstant w p

/-- Every code made before is what it was. -/
def Untouched (w w' : World) : Prop := ∀ p, p < w.heap.next → w'.heap.cell p = w.heap.cell p

/-- Every code made before is what it was, but for the parent of the empty type `t_empty`. -/
def UntouchedButEmpty (w w' : World) : Prop :=
  (∀ p, p < w.heap.next → p ≠ w.env.tEmpty → w'.heap.cell p = w.heap.cell p) ∧
  ∃ q, w'.heap.cell w.env.tEmpty = { w.heap.cell w.env.tEmpty with parent := q }

/-- A code made between the two moments. -/
def Made (w w' : World) (p : Nat) : Prop := w.heap.next ≤ p ∧ p < w'.heap.next

/-- No token of this type in the content, nor among the tokens left behind by contents parsed earlier. -/
def NoToken (w : World) (d : Bytes) (ty : TokType) : Prop := ∀ w1, w.lex d = .ok (some w1) → ∀ t ∈ w1.env.cells, t.type ≠ ty

/-- No token that reads as this specifier. -/
def NoSpecifier (w : World) (d : Bytes) (s : Specifier) : Prop :=
  ∀ w1, w.lex d = .ok (some w1) → ∀ t ∈ w1.env.cells, ∀ b, w1.env.bytes (.of t) = .ok b → strToSpecifier b ≠ s

/-- Several parses, one after the other: the codes they give. -/
def parseAll (w : World) : List (Parser × Bytes) → Res (List Nat × World)
  | [] => .ok ([], w)
  | (f, d) :: l => (f.run w d).bind fun r => (parseAll r.2 l).bind fun s => .ok (r.1 :: s.1, s.2)

end Verif.Parse
