import Verif.Model.Ast
import Verif.Model.Keywords
import Verif.Model.Printing
/-!
# Serialization

Models components/code_serialization.cpp, the serializers of components/inlines.hpp 8-312 and `code_to_strbuilder(_ref)`
(components/ast.cpp 379-604).

* A `StrBuilder` is the bytes it holds: C15 shows that the appending operations of the real one do just that. `strbuilder_append_fmt`
  runs the formatter of Model/Printing.lean, with its buffer of 131072 bytes.
* A serializer that appends to `*result` is a function from the bytes before to the bytes after the call (`W`). The functions that
  return a builder of their own (`x_to_strbuilder`) start with the empty one.
* The AST is the heap of Model/Ast.lean, so the slots that overlay each other (`ParentType`/`UnderlyingType`/`ReturnType`/`ValueType`,
  `Body`/`Value`/`ArrExpr`, ...) are one slot here as well.
* An empty `Str` of a node is a null pointer (a name that was never set) or not (an empty string from the string cache): `nullStr` says
  which.
* Recursion and the loops over `Next` take fuel and answer `hang` when it runs out; `fuel` counts calls, not characters.
* The nodes `Code::operator=` duplicates while a loop variable is assigned are dropped by it (see `Ast.codeAssign`) and not modelled.
-/
namespace Verif.Ser
open Ast Fmt

/-- Appends to a builder. -/
abbrev W := Bytes → Res Bytes

/-- `strbuilder_append_str` (strings.hpp 361-365). -/
def str (t : Bytes) : W := fun r => .ok (r ++ t)

/-- Nothing appended. -/
def nop : W := fun r => .ok r

/-- One after the other. -/
def seq (f g : W) : W := fun r => (f r).bind g

infixl:60 " ++> " => seq

/-- Read something, then append. -/
def reading {α : Type} (x : Res α) (k : α → W) : W := fun r => x.bind fun a => k a r

/-- For all of a list. -/
def each {α : Type} (k : α → W) : List α → W
  | [] => nop
  | a :: as => k a ++> each k as

/-- `if ( c ) ...` -/
def opt (c : Prop) [Decidable c] (f : W) : W := if c then f else nop

/-- strings.hpp 374-385 `strbuilder_append_fmt` (see `Fmt.appendFmt`); `f` without its NUL. -/
def fmt (lt : Bool) (f : Bytes) (args : List Arg) : W := fun r =>
  (cStrFmt lt (List.replicate printfMax 0) (printfMax - 1) (f ++ [0]) args).bind fun (buf, res) =>
  if res - 1 < 0 then .ub else .ok (r ++ buf.take (res - 1).toNat)

/-- The argument for `%SB`. -/
def sbArg (t : Bytes) : Arg := .sb (t ++ [0]) t.length

/-- What does not change during a run. -/
structure Env where
  h : Heap
  /-- an answer of `c_str_to_i64` the formatter does not depend on (see `Fmt.widthPart`) -/
  lt : Bool := true
  /-- whether an empty `Str` of this node is the null pointer -/
  nullStr : Nat → Bool := fun _ => true

/-- The entry points of the recursion. -/
inductive Fn where
  /-- `code_to_strbuilder_ref` -/
  | code
  /-- `typename_to_strbuilder_ref` -/
  | typename
  /-- `params_to_strbuilder_ref` -/
  | params
  /-- `define_params_to_strbuilder_ref` -/
  | defParams
  /-- `body_to_strbuilder` -/
  | body
  /-- `var_to_strbuilder_ref` -/
  | var
  deriving DecidableEq, Repr

/-- A `Str` passed for `%S`. -/
def strArg (null : Bool) (t : Bytes) : Arg := if t = [] ∧ null then .str none 0 else .str (some (t ++ [0])) t.length

namespace Env

/-- `self->Name` passed for `%S`; `p` is the node, `n` its contents. -/
def name (e : Env) (p : Nat) (n : Node) : Arg := strArg (e.nullStr p) n.name

/-- `self->Content` passed for `%S`. -/
def content (e : Env) (p : Nat) (n : Node) : Arg := strArg (e.nullStr p) n.content

/-- `strbuilder_append_fmt`. -/
def fmt (e : Env) (f : Bytes) (args : List Arg) : W := Ser.fmt e.lt f args

/-- `strbuilder_append_fmt( result, f, comment->Content )` -/
def cmt (e : Env) (f : Bytes) (c : Nat) : W := reading (e.h.get c) fun n => e.fmt f [e.content c n]

end Env

/-- macros.hpp 47 `bitfield_is_set( u32, flags, ModuleFlag_Export )`. -/
def exported (n : Node) : Prop := n.moduleFlags % 2 = 1

instance (n : Node) : Decidable (exported n) := inferInstanceAs (Decidable (_ = _))

/-- The same test for `ModuleFlag_Import`. -/
def imported (n : Node) : Prop := n.moduleFlags / 2 % 2 = 1

instance (n : Node) : Decidable (imported n) := inferInstanceAs (Decidable (_ = _))

/-- `if ( bitfield_is_set( u32, self->ModuleFlags, ModuleFlag_Export ) ) strbuilder_append_str( result, txt("export ") )` -/
def exportPrefix (n : Node) : W := opt (exported n) (str b!"export ")

/-- A builder made by another serializer and passed on. -/
def sub (rec : Fn → Nat → W) (f : Fn) (p : Nat) (k : Arg → W) : W := reading (rec f p []) fun t => k (sbArg t)

/-- inlines.hpp 8-14 `attributes_to_strbuilder`: `str_duplicate` (strings.hpp 583-587) makes a builder, so that the pointer is one. -/
def attrs (e : Env) (f : Bytes) (p : Nat) : W := reading (e.h.get p) fun n => e.fmt f [sbArg n.content]

/-- types.hpp 46-62 `access_spec_to_str` as an argument of `%S`. The text for `protected` is that of `private` with the length of
`protected`. -/
def accessArg (a : Int) : Arg :=
  if a = 0 then .str (some (b!"" ++ [0])) 0
  else if a = 1 then .str (some (b!"private" ++ [0])) 7
  else if a = 2 then .str (some (b!"private" ++ [0])) 9
  else if a = 3 then .str (some (b!"public" ++ [0])) 6
  else .str (some (b!"Invalid" ++ [0])) 7

/-- The closing of definitions: `if ( self->Parent == nullptr || ( Parent->Type != CT_Typedef && Parent->Type != CT_Variable ) )`. -/
def endStmt (e : Env) (n : Node) (w : W) : W :=
  if n.parent = 0 then w
  else reading (e.h.get n.parent) fun q => if q.type ≠ .Typedef ∧ q.type ≠ .Variable then w else nop

/-- `strbuilder_append_fmt( result, " %.*s", spec_str.Len, spec_str.Ptr )` -/
def specLen (e : Env) (s : Specifier) : W := e.fmt b!" %.*s" [.int (specToStr s).length, .cstr (some (specToStr s ++ [0]))]

/-- `strbuilder_append_fmt( result, "%*s ", spec_str.Len, spec_str.Ptr )` -/
def specWidth (e : Env) (s : Specifier) : W := e.fmt b!"%*s " [.int (specToStr s).length, .cstr (some (specToStr s ++ [0]))]

/-- `strbuilder_append_fmt( result, " %*s", spec_str.Len, spec_str.Ptr )` -/
def specWidthTail (e : Env) (s : Specifier) : W := e.fmt b!" %*s" [.int (specToStr s).length, .cstr (some (specToStr s ++ [0]))]

/-- The specifiers the loops `for ( Specifier* spec = begin_CodeSpecifiers(self->Specs); ... )` visit; none without `Specs`. -/
def specList (e : Env) (p : Nat) : Res (List Specifier) := if p = 0 then .ok [] else iterSpecifiers e.h p

/-- `self->Specs && specifiers_has( self->Specs, s )` -/
def hasSpec (e : Env) (p : Nat) (s : Specifier) : Res Bool := if p = 0 then .ok false else specifiersHas e.h p s

/-- code_serialization.cpp 892-917 `specifiers_to_strbuilder_ref`. A negative count is `ub` (the loop of the source then runs through
the whole memory). -/
def specifiersRef (e : Env) (p : Nat) : W :=
  reading (Res.assert (p ≠ 0)) fun _ => reading (e.h.get p) fun n =>
  if n.num < 0 then fun _ => .ub else
  reading (iterSpecifiers e.h p) fun l =>
  each (fun (i : Specifier × Nat) =>
    opt (i.2 > 0 ∧ i.1 ≠ .Ptr ∧ i.1 ≠ .Ref ∧ i.1 ≠ .RValue) (str b!" ") ++>
    e.fmt b!"%S" [.str (some (specToStr i.1 ++ [0])) (specToStr i.1).length]) l.zipIdx ++>
  str b!" "

/-- inlines.hpp 256-263 `specifiers_to_strbuilder`, passed on. -/
def subSpecs (e : Env) (p : Nat) (k : Arg → W) : W := reading (specifiersRef e p []) fun t => k (sbArg t)

/-- The loops `while ( next ) { append_fmt( f, code_to_strbuilder( next ) ); next = next->Next; }`. -/
def chain (e : Env) (rec : Fn → Nat → W) (f : Bytes) (fn : Fn) : Nat → Nat → W
  | 0, _ => fun _ => .hang
  | fuel + 1, p =>
    if p = 0 then nop
    else sub rec fn p (fun t => e.fmt f [t]) ++> reading (e.h.get p) fun n => chain e rec f fn fuel n.back

/-- inlines.hpp 33-47 `body_to_strbuilder_ref`: the loop. -/
def bodyLoop (e : Env) (rec : Fn → Nat → W) : Nat → Nat → W
  | 0, _ => nop
  | left + 1, curr =>
    rec .code curr ++> fun r => if curr = 0 then bodyLoop e rec left 0 r
      else (e.h.get curr).bind fun n => bodyLoop e rec left n.back r

/-- inlines.hpp 33-47 `body_to_strbuilder_ref`. -/
def bodyRef (e : Env) (rec : Fn → Nat → W) (p : Nat) : W :=
  reading (Res.assert (p ≠ 0)) fun _ => reading (e.h.get p) fun n =>
  if n.num < 0 then fun _ => .ub else bodyLoop e rec n.num.toNat n.front

/-- code_serialization.cpp 34-51 `body_to_strbuilder_export`: the loop starts at the body itself. -/
def bodyExport (e : Env) (rec : Fn → Nat → W) (p : Nat) : W :=
  reading (Res.assert (p ≠ 0)) fun _ => reading (e.h.get p) fun n =>
  e.fmt b!"export\n{\n" [] ++>
  (if n.num < 0 then fun _ => .ub else bodyLoop e rec n.num.toNat p) ++>
  e.fmt b!"};\n" []

/-- code_serialization.cpp 6-32 `body_to_strbuilder`. -/
def body (e : Env) (rec : Fn → Nat → W) (p : Nat) : W :=
  reading (Res.assert (p ≠ 0)) fun _ => reading (e.h.get p) fun n =>
  match n.type with
  | .Untyped | .Execution => str n.content
  | .Enum_Body | .Class_Body | .Extern_Linkage_Body | .Function_Body | .Global_Body | .Namespace_Body | .Struct_Body | .Union_Body =>
    bodyRef e rec p
  | .Export_Body => bodyExport e rec p
  | _ => nop

/-- code_serialization.cpp 73-80, 103-110: the name of the class a constructor belongs to. -/
def ctorName (e : Env) (n : Node) : W :=
  reading (e.h.get n.parent) fun q =>
  if q.parent ≠ 0 then reading (e.h.get q.parent) fun c => str c.name else str n.name

/-- code_serialization.cpp 69-97 `constructor_to_strbuilder_def`. -/
def constructorDef (e : Env) (rec : Fn → Nat → W) (n : Node) : W :=
  ctorName e n ++>
  (if n.params ≠ 0 then sub rec .params n.params (fun t => e.fmt b!"( %SB )" [t]) else str b!"()") ++>
  opt (n.typ ≠ 0) (sub rec .code n.typ fun t => e.fmt b!" : %SB" [t]) ++>
  opt (n.inlineCmt ≠ 0) (e.cmt b!" // %S" n.inlineCmt) ++>
  sub rec .code n.body (fun t => e.fmt b!"\n{\n%SB\n}\n" [t])

/-- code_serialization.cpp 99-124 `constructor_to_strbuilder_fwd`. -/
def constructorFwd (e : Env) (rec : Fn → Nat → W) (n : Node) : W :=
  ctorName e n ++>
  (if n.params ≠ 0 then sub rec .params n.params (fun t => e.fmt b!"( %SB )" [t]) else e.fmt b!"()" []) ++>
  opt (n.body ≠ 0) (sub rec .code n.body fun t => e.fmt b!" = %SB" [t]) ++>
  (if n.inlineCmt ≠ 0 then e.cmt b!"; // %S\n" n.inlineCmt else str b!";\n")

/-- code_serialization.cpp 151-152, 949-950: ` final`. -/
def finalSpec (e : Env) (n : Node) : W := reading (hasSpec e n.specs .Final) fun b => opt b (str b!" final")

/-- code_serialization.cpp 154-169: the parent of a class. One argument too many is passed: the text for `%S` is the name of the class,
and the pointer of the access level is taken for a builder. -/
def classParents (e : Env) (rec : Fn → Nat → W) (fuel p : Nat) (n : Node) : W :=
  opt (n.typ ≠ 0)
    (sub rec .typename n.typ (fun t => e.fmt b!" : %S %SB" [e.name p n, accessArg n.num, t]) ++>
     reading (e.h.get n.typ) fun q =>
     opt (q.back ≠ 0) (str b!"\n") ++> chain e rec b!", public %SB" .typename fuel q.back)

/-- code_serialization.cpp 952-968: the parent of a struct. -/
def structParents (e : Env) (rec : Fn → Nat → W) (fuel : Nat) (n : Node) : W :=
  opt (n.typ ≠ 0)
    (sub rec .typename n.typ (fun t => e.fmt b!" : %S %SB" [accessArg n.num, t]) ++>
     reading (e.h.get n.typ) fun q =>
     opt (q.back ≠ 0) (str b!"\n") ++> chain e rec b!", %SB" .typename fuel q.back)

/-- code_serialization.cpp 142-149, 940-947 and 154-180, 952-978: what class and struct definitions have in common. -/
def recordDef (e : Env) (rec : Fn → Nat → W) (keyword : Bytes) (parents : W) (n : Node) : W :=
  exportPrefix n ++> str keyword ++>
  opt (n.attributes ≠ 0) (attrs e b!"%SB " n.attributes) ++>
  str n.name ++> finalSpec e n ++> parents ++>
  opt (n.inlineCmt ≠ 0) (e.cmt b!" // %S" n.inlineCmt) ++>
  sub rec .body n.body (fun t => e.fmt b!"\n{\n%SB\n}" [t]) ++>
  endStmt e n (str b!";\n")

/-- code_serialization.cpp 142-180 `class_to_strbuilder_def`. -/
def classDef (e : Env) (rec : Fn → Nat → W) (fuel p : Nat) (n : Node) : W :=
  recordDef e rec b!"class " (classParents e rec fuel p n) n

/-- code_serialization.cpp 934-978 `struct_to_strbuilder_def`. -/
def structDef (e : Env) (rec : Fn → Nat → W) (fuel : Nat) (n : Node) : W :=
  recordDef e rec b!"struct " (structParents e rec fuel n) n

/-- code_serialization.cpp 182-205 `class_to_strbuilder_fwd`. -/
def classFwd (e : Env) (p : Nat) (n : Node) : W :=
  exportPrefix n ++>
  (if n.attributes ≠ 0 then reading (e.h.get n.attributes) fun a => e.fmt b!"class %SB %S" [sbArg a.content, e.name p n]
   else e.fmt b!"class %S" [e.name p n]) ++>
  endStmt e n (if n.inlineCmt ≠ 0 then e.cmt b!"; // %S\n" n.inlineCmt else str b!";\n")

/-- code_serialization.cpp 980-1001 `struct_to_strbuilder_fwd`. -/
def structFwd (e : Env) (p : Nat) (n : Node) : W :=
  exportPrefix n ++>
  (if n.attributes ≠ 0 then reading (e.h.get n.attributes) fun a => e.fmt b!"struct %SB %S" [sbArg a.content, e.name p n]
   else e.fmt b!"struct %S" [e.name p n]) ++>
  endStmt e n (if n.inlineCmt ≠ 0 then e.cmt b!";  %S" n.inlineCmt else str b!";\n")

/-- code_serialization.cpp 207-219 `define_to_strbuilder_ref`. -/
def define (e : Env) (rec : Fn → Nat → W) (p : Nat) (n : Node) : W :=
  reading (Res.assert (n.body ≠ 0)) fun _ => reading (e.h.get n.body) fun b =>
  reading (Res.assert (b.content ≠ [])) fun _ =>
  if n.params ≠ 0 then
    reading (rec .defParams n.params []) fun t =>
    e.fmt b!"#define %S(%S) %S" [e.name p n, .str (some (t ++ [0])) t.length, e.content n.body b]
  else e.fmt b!"#define %S %S" [e.name p n, e.content n.body b]

/-- code_serialization.cpp 221-236 `define_params_to_strbuilder_ref`. -/
def defParamsRef (e : Env) (rec : Fn → Nat → W) (fuel p : Nat) : W :=
  reading (Res.assert (p ≠ 0)) fun _ => reading (e.h.get p) fun n =>
  opt (n.name ≠ []) (e.fmt b!" %S" [e.name p n]) ++>
  opt (n.num - 1 > 0) (chain e rec b!", %SB" .defParams fuel n.back)

/-- code_serialization.cpp 254-274 `destructor_to_strbuilder_def`. -/
def destructorDef (e : Env) (rec : Fn → Nat → W) (p : Nat) (n : Node) : W :=
  (if n.name ≠ [] then e.fmt b!"%S()" [e.name p n]
   else reading (hasSpec e n.specs .Virtual) fun v => reading (e.h.get n.parent) fun q =>
     if v then e.fmt b!"virtual ~%S()" [e.name n.parent q] else e.fmt b!"~%S()" [e.name n.parent q]) ++>
  sub rec .code n.body (fun t => e.fmt b!"\n{\n%SB\n}\n" [t])

/-- code_serialization.cpp 276-300 `destructor_to_strbuilder_fwd`. -/
def destructorFwd (e : Env) (rec : Fn → Nat → W) (n : Node) : W :=
  reading (e.h.get n.parent) fun q =>
  (if n.specs ≠ 0 then
    (reading (hasSpec e n.specs .Virtual) fun v =>
      if v then e.fmt b!"virtual ~%S();\n" [e.name n.parent q] else e.fmt b!"~%S()" [e.name n.parent q]) ++>
    (reading (hasSpec e n.specs .Pure) fun v =>
      if v then str b!" = 0;" else opt (n.body ≠ 0) (sub rec .code n.body fun t => e.fmt b!" = %SB;" [t]))
   else e.fmt b!"~%S();" [e.name n.parent q]) ++>
  (if n.inlineCmt ≠ 0 then e.cmt b!"  %S" n.inlineCmt else str b!"\n")

/-- code_serialization.cpp 325-359 `enum_to_strbuilder_def`. -/
def enumDef (e : Env) (rec : Fn → Nat → W) (p : Nat) (n : Node) : W :=
  exportPrefix n ++>
  (if n.attributes ≠ 0 ∨ n.typ ≠ 0 ∨ n.params ≠ 0 then
    str b!"enum " ++> opt (n.attributes ≠ 0) (attrs e b!"%SB " n.attributes) ++>
    (if n.typ ≠ 0 then
      sub rec .typename n.typ fun t => sub rec .body n.body fun b => e.fmt b!"%S : %SB\n{\n%SB\n}" [e.name p n, t, b]
     else if n.params ≠ 0 then
      sub rec .code n.params fun t => sub rec .body n.body fun b => e.fmt b!"%S %SB\n{\n%SB\n}" [e.name p n, t, b]
     else sub rec .body n.body fun b => e.fmt b!"%S\n{\n%SB\n}" [e.name p n, b])
   else sub rec .body n.body fun b => e.fmt b!"enum %S\n{\n%SB\n}" [e.name p n, b]) ++>
  endStmt e n (str b!";\n")

/-- code_serialization.cpp 361-388 `enum_to_strbuilder_fwd` (the log line of 374 left out). -/
def enumFwd (e : Env) (rec : Fn → Nat → W) (p : Nat) (n : Node) : W :=
  exportPrefix n ++>
  opt (n.attributes ≠ 0) (attrs e b!"%SB " n.attributes) ++>
  (if n.typ ≠ 0 then sub rec .typename n.typ fun t => e.fmt b!"enum %S : %SB" [e.name p n, t]
   else if n.params ≠ 0 then sub rec .code n.params fun t => e.fmt b!"enum %S %SB" [e.name p n, t]
   else e.fmt b!"enum %S" [e.name p n]) ++>
  endStmt e n (if n.inlineCmt ≠ 0 then e.cmt b!";  %S" n.inlineCmt else str b!";\n")

/-- code_serialization.cpp 390-419 `enum_to_strbuilder_class_def`. -/
def enumClassDef (e : Env) (rec : Fn → Nat → W) (p : Nat) (n : Node) : W :=
  exportPrefix n ++>
  (if n.attributes ≠ 0 ∨ n.typ ≠ 0 then
    str b!"enum class " ++> opt (n.attributes ≠ 0) (attrs e b!"%SB " n.attributes) ++>
    (if n.typ ≠ 0 then
      sub rec .typename n.typ fun t => sub rec .body n.body fun b => e.fmt b!"%S : %SB\n{\n%SB\n}" [e.name p n, t, b]
     else sub rec .body n.body fun b => e.fmt b!"%S\n{\n%SB\n}" [e.name p n, b])
   else sub rec .body n.body fun b => e.fmt b!"enum %S\n{\n%SB\n}" [e.name p n, b]) ++>
  endStmt e n (str b!";\n")

/-- code_serialization.cpp 421-442 `enum_to_strbuilder_class_fwd`. -/
def enumClassFwd (e : Env) (rec : Fn → Nat → W) (p : Nat) (n : Node) : W :=
  exportPrefix n ++> str b!"enum class " ++>
  opt (n.attributes ≠ 0) (attrs e b!"%SB " n.attributes) ++>
  sub rec .typename n.typ (fun t => e.fmt b!"%S : %SB" [e.name p n, t]) ++>
  endStmt e n (if n.inlineCmt ≠ 0 then e.cmt b!";  %S" n.inlineCmt else str b!";\n")

/-- code_serialization.cpp 488-497, 553-562: return type and name, and the parameters, of a function. -/
def fnSignature (e : Env) (rec : Fn → Nat → W) (p : Nat) (n : Node) : W :=
  (if n.typ ≠ 0 then sub rec .typename n.typ fun t => e.fmt b!"%SB %S(" [t, e.name p n] else e.fmt b!"%S(" [e.name p n]) ++>
  (if n.params ≠ 0 then sub rec .params n.params fun t => e.fmt b!"%SB)" [t] else str b!")")

/-- code_serialization.cpp 460-515 `fn_to_strbuilder_def`. -/
def fnDef (e : Env) (rec : Fn → Nat → W) (p : Nat) (n : Node) : W :=
  opt (exported n) (str b!"export") ++>
  opt (n.attributes ≠ 0) (attrs e b!" %SB " n.attributes) ++>
  (reading (specList e n.specs) fun l =>
    each (specLen e) (l.filter fun s => !specIsTrailing s) ++>
    opt (n.attributes ≠ 0 ∨ (l.any fun s => !specIsTrailing s)) (str b!"\n") ++>
    fnSignature e rec p n ++>
    each (specLen e) (l.filter specIsTrailing)) ++>
  opt (n.suffix ≠ 0) (sub rec .code n.suffix fun t => e.fmt b!" %SB" [t]) ++>
  sub rec .body n.body (fun t => e.fmt b!"\n{\n%SB\n}\n" [t])

/-- code_serialization.cpp 564-580: what follows the parameters of a declared function. -/
def fnFwdSpecs (e : Env) (n : Node) (l : List Specifier) : W :=
  each (specLen e) (l.filter specIsTrailing) ++>
  (reading (hasSpec e n.specs .Pure) fun pure => if pure then str b!" = 0"
    else reading (hasSpec e n.specs .Delete) fun del => opt del (str b!" = delete"))

/-- code_serialization.cpp 517-593 `fn_to_strbuilder_fwd`. -/
def fnFwd (e : Env) (rec : Fn → Nat → W) (p : Nat) (n : Node) : W :=
  exportPrefix n ++>
  opt (n.attributes ≠ 0) (attrs e b!"%SB " n.attributes) ++>
  (reading (specList e n.specs) fun l =>
    each (specLen e) (l.filter fun s => !specIsTrailing s || s == .Pure) ++>
    opt (n.attributes ≠ 0 ∨ (l.any fun s => !specIsTrailing s || s == .Pure)) (str b!"\n") ++>
    fnSignature e rec p n ++> fnFwdSpecs e n l) ++>
  opt (n.suffix ≠ 0) (sub rec .code n.suffix fun t => e.fmt b!" %SB" [t]) ++>
  opt (n.body ≠ 0) (sub rec .body n.body fun t => e.fmt b!" = %SB;" [t]) ++>
  (if n.inlineCmt ≠ 0 then e.cmt b!";  %S" n.inlineCmt else str b!";\n")

/-- code_serialization.cpp 595-606 `module_to_strbuilder_ref`. -/
def module (e : Env) (p : Nat) (n : Node) : W :=
  exportPrefix n ++> opt (imported n) (str b!"import ") ++> e.fmt b!"%S;\n" [e.name p n]

/-- code_serialization.cpp 627-681 `code_op_to_strbuilder_def`: the attributes appear twice. -/
def opDef (e : Env) (rec : Fn → Nat → W) (p : Nat) (n : Node) : W :=
  exportPrefix n ++>
  opt (n.attributes ≠ 0) (attrs e b!"%SB " n.attributes) ++>
  opt (n.attributes ≠ 0) (attrs e b!"%SB " n.attributes) ++>
  (reading (specList e n.specs) fun l =>
    each (specLen e) (l.filter fun s => !specIsTrailing s) ++>
    opt (n.attributes ≠ 0 ∨ n.specs ≠ 0) (str b!"\n") ++>
    opt (n.typ ≠ 0) (sub rec .typename n.typ fun t => e.fmt b!"%SB %S (" [t, e.name p n]) ++>
    (if n.params ≠ 0 then sub rec .params n.params fun t => e.fmt b!"%SB)" [t] else str b!")") ++>
    each (specLen e) (l.filter specIsTrailing)) ++>
  sub rec .body n.body (fun t => e.fmt b!"\n{\n%SB\n}\n" [t])

/-- code_serialization.cpp 683-733 `code_op_to_strbuilder_fwd`. -/
def opFwd (e : Env) (rec : Fn → Nat → W) (p : Nat) (n : Node) : W :=
  exportPrefix n ++>
  opt (n.attributes ≠ 0) (attrs e b!"%SB\n" n.attributes) ++>
  (reading (specList e n.specs) fun l =>
    each (specLen e) (l.filter fun s => !specIsTrailing s) ++>
    opt (n.attributes ≠ 0 ∨ n.specs ≠ 0) (str b!"\n") ++>
    sub rec .typename n.typ (fun t => e.fmt b!"%SB %S (" [t, e.name p n]) ++>
    (if n.params ≠ 0 then sub rec .params n.params fun t => e.fmt b!"%SB)" [t] else e.fmt b!")" []) ++>
    each (specLen e) (l.filter specIsTrailing)) ++>
  (if n.inlineCmt ≠ 0 then e.cmt b!";  %S" n.inlineCmt else str b!";\n")

/-- code_serialization.cpp 751-790 `opcast_to_strbuilder_def`. -/
def opcastDef (e : Env) (rec : Fn → Nat → W) (p : Nat) (n : Node) : W :=
  if n.specs ≠ 0 then
    reading (specList e n.specs) fun l =>
    each (specWidth e) (l.filter fun s => !specIsTrailing s) ++>
    sub rec .typename n.typ (fun t =>
      if n.name ≠ [] then e.fmt b!"%S operator %SB()" [e.name p n, t] else e.fmt b!"operator %SB()" [t]) ++>
    each (specLen e) (l.filter specIsTrailing) ++>
    sub rec .body n.body (fun t => e.fmt b!"\n{\n%SB\n}\n" [t])
  else
    sub rec .typename n.typ fun t => sub rec .body n.body fun b =>
    if n.name ≠ [] then e.fmt b!"%S operator %SB()\n{\n%SB\n}\n" [e.name p n, t, b]
    else e.fmt b!"operator %SB()\n{\n%SB\n}\n" [t, b]

/-- code_serialization.cpp 792-828 `opcast_to_strbuilder_fwd`: in 825 the argument for the second `%SB` is missing. -/
def opcastFwd (e : Env) (rec : Fn → Nat → W) (n : Node) : W :=
  if n.specs ≠ 0 then
    reading (specList e n.specs) fun l =>
    each (specWidth e) (l.filter fun s => !specIsTrailing s) ++>
    sub rec .typename n.typ (fun t => e.fmt b!"operator %SB()" [t]) ++>
    each (specWidthTail e) (l.filter specIsTrailing) ++>
    (if n.inlineCmt ≠ 0 then e.cmt b!";  %S" n.inlineCmt else str b!";\n")
  else
    sub rec .typename n.typ fun t =>
    if n.inlineCmt ≠ 0 then e.fmt b!"operator %SB();  %SB" [t] else e.fmt b!"operator %SB();\n" [t]

/-- code_serialization.cpp 830-866 `params_to_strbuilder_ref`: one parameter. -/
def param (e : Env) (rec : Fn → Nat → W) (p : Nat) (n : Node) : W :=
  opt (n.params ≠ 0) (reading (e.h.get n.params) fun m => str m.content) ++>
  (if n.name ≠ [] then
    if n.typ = 0 then e.fmt b!" %S" [e.name p n] else sub rec .typename n.typ fun t => e.fmt b!" %SB %S" [t, e.name p n]
   else opt (n.typ ≠ 0) (sub rec .typename n.typ fun t => e.fmt b!" %SB" [t])) ++>
  opt (n.suffix ≠ 0) (sub rec .code n.suffix fun t => e.fmt b!" %SB" [t]) ++>
  opt (n.body ≠ 0) (sub rec .code n.body fun t => e.fmt b!" = %SB" [t])

/-- code_serialization.cpp 830-866 `params_to_strbuilder_ref`. -/
def paramsRef (e : Env) (rec : Fn → Nat → W) (fuel p : Nat) : W :=
  reading (Res.assert (p ≠ 0)) fun _ => reading (e.h.get p) fun n =>
  param e rec p n ++> opt (n.num - 1 > 0) (chain e rec b!", %SB" .params fuel n.back)

/-- code_serialization.cpp 1003-1014 `template_to_strbuilder_ref`. -/
def template (e : Env) (rec : Fn → Nat → W) (n : Node) : W :=
  exportPrefix n ++>
  (if n.params ≠ 0 then
    sub rec .params n.params fun t => sub rec .code n.body fun d => e.fmt b!"template< %SB >\n%SB" [t, d]
   else sub rec .code n.body fun d => e.fmt b!"template<>\n%SB" [d])

/-- code_serialization.cpp 1016-1050 `typedef_to_strbuilder_ref`: a `;` after every array bound. -/
def typedef (e : Env) (rec : Fn → Nat → W) (fuel p : Nat) (n : Node) : W :=
  exportPrefix n ++> str b!"typedef " ++>
  (reading (e.h.get n.typ) fun u =>
    (reading (rec .code n.typ []) fun t =>
      if u.typ ≠ 0 then str t else e.fmt b!"%SB %S" [sbArg t, e.name p n]) ++>
    (if u.type = .Typename ∧ u.body ≠ 0 then chain e rec b!"[ %SB ];" .code fuel u.body else str b!";")) ++>
  (if n.inlineCmt ≠ 0 then e.cmt b!"  %S" n.inlineCmt else str b!"\n")

/-- code_serialization.cpp 1091-1100: the tag of a typename. -/
def tagText (t : Nat) : Bytes :=
  if t = 1 then b!"class " else if t = 2 then b!"enum " else if t = 3 then b!"struct " else if t = 4 then b!"union " else b!""

/-- code_serialization.cpp 1052-1109 `typename_to_strbuilder_ref` (without `GEN_USE_NEW_TYPENAME_PARSING`). -/
def typenameRef (e : Env) (rec : Fn → Nat → W) (p : Nat) : W :=
  reading (Res.assert (p ≠ 0)) fun _ => reading (e.h.get p) fun n =>
  if n.typ ≠ 0 ∧ n.params ≠ 0 then
    if n.attributes ≠ 0 then attrs e b!"%SB " n.attributes
    else
      sub rec .typename n.typ fun t => sub rec .params n.params fun a =>
      if n.specs ≠ 0 then subSpecs e n.specs fun s => e.fmt b!"%SB %S ( %SB ) %SB" [t, e.name p n, a, s]
      else e.fmt b!"%SB %S ( %SB )" [t, e.name p n, a]
  else
    opt (n.attributes ≠ 0) (attrs e b!"%SB " n.attributes) ++>
    str (tagText n.typeTag) ++>
    (if n.specs ≠ 0 then subSpecs e n.specs fun s => e.fmt b!"%S %SB" [e.name p n, s] else e.fmt b!"%S" [e.name p n]) ++>
    opt n.isParamPack (str b!"...")

/-- code_serialization.cpp 1127-1157 `union_to_strbuilder_def`. -/
def unionDef (e : Env) (rec : Fn → Nat → W) (p : Nat) (n : Node) : W :=
  exportPrefix n ++> str b!"union " ++>
  opt (n.attributes ≠ 0) (attrs e b!"%SB " n.attributes) ++>
  sub rec .body n.body (fun t =>
    if n.name ≠ [] then e.fmt b!"%S\n{\n%SB\n}" [e.name p n, t] else e.fmt b!"\n{\n%SB\n}" [t]) ++>
  endStmt e n (str b!";\n")

/-- code_serialization.cpp 1159-1178 `union_to_strbuilder_fwd`. -/
def unionFwd (e : Env) (p : Nat) (n : Node) : W :=
  exportPrefix n ++> str b!"union " ++>
  opt (n.attributes ≠ 0) (attrs e b!"%SB " n.attributes) ++>
  opt (n.name ≠ []) (e.fmt b!"%S" [e.name p n]) ++>
  endStmt e n (str b!";\n")

/-- The array bounds of a type: `[ a ][ b ]` (code_serialization.cpp 1194-1205, 1232-1242, 1281-1291). -/
def bounds (e : Env) (rec : Fn → Nat → W) (fuel typ : Nat) : W :=
  opt (typ ≠ 0) (reading (e.h.get typ) fun u => opt (u.body ≠ 0) (chain e rec b!"[ %SB ]" .code fuel u.body))

/-- code_serialization.cpp 1180-1216 `using_to_strbuilder_ref`. -/
def usingRef (e : Env) (rec : Fn → Nat → W) (fuel p : Nat) (n : Node) : W :=
  exportPrefix n ++>
  opt (n.attributes ≠ 0) (attrs e b!"%SB " n.attributes) ++>
  (if n.typ ≠ 0 then
    sub rec .typename n.typ (fun t => e.fmt b!"using %S = %SB" [e.name p n, t]) ++> bounds e rec fuel n.typ ++> str b!";"
   else e.fmt b!"using %S;" [e.name p n]) ++>
  (if n.inlineCmt ≠ 0 then e.cmt b!"  %S\n" n.inlineCmt else str b!"\n")

/-- inlines.hpp 291-300 `using_to_strbuilder_ns`: `$S` where `%S` was meant. -/
def usingNs (e : Env) (p : Nat) (n : Node) : W :=
  if n.inlineCmt ≠ 0 then
    reading (e.h.get n.inlineCmt) fun c => e.fmt b!"using namespace $S;  %S" [e.name p n, e.content n.inlineCmt c]
  else e.fmt b!"using namespace %S;\n" [e.name p n]

/-- code_serialization.cpp 1244-1262, 1296-1310, 1330-1344: initializer, the other variables of the statement, closing parenthesis. -/
def varInit (e : Env) (rec : Fn → Nat → W) (n : Node) : W :=
  opt (n.body ≠ 0) (sub rec .code n.body fun t => if n.num ≠ 0 then e.fmt b!"( %SB " [t] else e.fmt b!" = %SB" [t]) ++>
  opt (n.suffix ≠ 0) (sub rec .var n.suffix fun t => e.fmt b!", %SB" [t]) ++>
  opt (n.num ≠ 0) (str b!" )")

/-- code_serialization.cpp 1224-1266: a variable that follows another in the same statement. -/
def varNext (e : Env) (rec : Fn → Nat → W) (fuel : Nat) (n : Node) : W :=
  opt (n.specs ≠ 0) (subSpecs e n.specs fun s => e.fmt b!"%SB " [s]) ++>
  str n.name ++> bounds e rec fuel n.typ ++> varInit e rec n

/-- code_serialization.cpp 1271-1318: a variable with attributes or specifiers. -/
def varSpecified (e : Env) (rec : Fn → Nat → W) (fuel p : Nat) (n : Node) : W :=
  opt (n.attributes ≠ 0) (attrs e b!"%SB " n.attributes) ++>
  opt (n.specs ≠ 0) (subSpecs e n.specs fun s => e.fmt b!"%SB" [s]) ++>
  sub rec .typename n.typ (fun t => e.fmt b!"%SB %S" [t, e.name p n]) ++>
  bounds e rec fuel n.typ ++>
  opt (n.params ≠ 0) (sub rec .code n.params fun t => e.fmt b!" : %SB" [t]) ++>
  varInit e rec n ++>
  (if n.inlineCmt ≠ 0 then e.cmt b!";  %S" n.inlineCmt else str b!";\n")

/-- code_serialization.cpp 1320-1336: type, name and array bounds of a variable without attributes and specifiers. -/
def varPlainHead (e : Env) (rec : Fn → Nat → W) (fuel p : Nat) (n : Node) : W :=
  sub rec .typename n.typ fun t =>
  if n.params ≠ 0 then sub rec .code n.params fun b => e.fmt b!"%SB %S : %SB" [t, e.name p n, b]
  else reading (e.h.get n.typ) fun u =>
    if u.body ≠ 0 then
      sub rec .code u.body (fun a => e.fmt b!"%SB %S[ %SB ]" [t, e.name p n, a]) ++>
      reading (e.h.get u.body) fun x => chain e rec b!"[ %SB ]" .code fuel x.back
    else e.fmt b!"%SB %S" [t, e.name p n]

/-- code_serialization.cpp 1320-1349: a variable without attributes and specifiers. -/
def varPlain (e : Env) (rec : Fn → Nat → W) (fuel p : Nat) (n : Node) : W :=
  varPlainHead e rec fuel p n ++> varInit e rec n ++> str b!";" ++>
  (if n.inlineCmt ≠ 0 then e.cmt b!"  %S" n.inlineCmt else str b!"\n")

/-- code_serialization.cpp 1218-1349 `var_to_strbuilder_ref`. -/
def varRef (e : Env) (rec : Fn → Nat → W) (fuel p : Nat) : W :=
  reading (Res.assert (p ≠ 0)) fun _ => reading (e.h.get p) fun n =>
  reading (if n.parent = 0 then Res.ok false else (e.h.get n.parent).bind fun q => Res.ok (decide (q.type = .Variable))) fun isNext =>
  if isNext then varNext e rec fuel n
  else exportPrefix n ++>
    (if n.attributes ≠ 0 ∨ n.specs ≠ 0 then varSpecified e rec fuel p n else varPlain e rec fuel p n)

/-- inlines.hpp 86-95 `extern_to_strbuilder`. -/
def externRef (e : Env) (rec : Fn → Nat → W) (p : Nat) (n : Node) : W :=
  if n.body ≠ 0 then sub rec .body n.body fun t => e.fmt b!"extern \"%S\"\n{\n%SB\n}\n" [e.name p n, t]
  else e.fmt b!"extern \"%S\"\n{}\n" [e.name p n]

/-- inlines.hpp 106-122 `friend_to_strbuilder_ref`. -/
def friendRef (e : Env) (rec : Fn → Nat → W) (n : Node) : W :=
  sub rec .code n.body (fun t => e.fmt b!"friend %SB" [t]) ++>
  (reading (e.h.get n.body) fun d => fun r =>
    if d.type ≠ .Function ∧ d.type ≠ .Operator ∧ r.getLast? ≠ some 59 then str b!";" r else .ok r) ++>
  (if n.inlineCmt ≠ 0 then e.cmt b!"  %S" n.inlineCmt else str b!"\n")

/-- inlines.hpp 157-167 `namespace_to_strbuilder_ref`. -/
def namespaceRef (e : Env) (rec : Fn → Nat → W) (p : Nat) (n : Node) : W :=
  exportPrefix n ++> sub rec .body n.body fun t => e.fmt b!"namespace %S\n{\n%SB\n}\n" [e.name p n, t]

/-- ast.cpp 386-604 `code_to_strbuilder_ref`: the dispatch on the type. -/
def dispatch (e : Env) (rec : Fn → Nat → W) (fuel p : Nat) (n : Node) : W :=
  match n.type with
  | .Invalid => e.fmt b!"Invalid Code!" []
  | .NewLine => str b!"\n"
  | .Untyped | .Execution | .Comment | .PlatformAttributes => str n.content
  | .Access_Private | .Access_Protected | .Access_Public => str n.name
  | .Class => classDef e rec fuel p n
  | .Class_Fwd => classFwd e p n
  | .Constructor => constructorDef e rec n
  | .Constructor_Fwd => constructorFwd e rec n
  | .Destructor => destructorDef e rec p n
  | .Destructor_Fwd => destructorFwd e rec n
  | .Enum => enumDef e rec p n
  | .Enum_Fwd => enumFwd e rec p n
  | .Enum_Class => enumClassDef e rec p n
  | .Enum_Class_Fwd => enumClassFwd e rec p n
  | .Export_Body => bodyExport e rec p
  | .Extern_Linkage => externRef e rec p n
  | .Friend => friendRef e rec n
  | .Function => fnDef e rec p n
  | .Function_Fwd => fnFwd e rec p n
  | .Module => module e p n
  | .Namespace => namespaceRef e rec p n
  | .Operator | .Operator_Member => opDef e rec p n
  | .Operator_Fwd | .Operator_Member_Fwd => opFwd e rec p n
  | .Operator_Cast => opcastDef e rec p n
  | .Operator_Cast_Fwd => opcastFwd e rec n
  | .Parameters => paramsRef e rec fuel p
  | .Parameters_Define => defParamsRef e rec fuel p
  | .Preprocess_Define => define e rec p n
  | .Preprocess_If => e.fmt b!"#if %S" [e.content p n]
  | .Preprocess_IfDef => e.fmt b!"#ifdef %S\n" [e.content p n]
  | .Preprocess_IfNotDef => e.fmt b!"#ifndef %S" [e.content p n]
  | .Preprocess_Include => e.fmt b!"#include %S\n" [e.content p n]
  | .Preprocess_ElIf => e.fmt b!"#elif %S\n" [e.content p n]
  | .Preprocess_Else => str b!"#else\n"
  | .Preprocess_EndIf => str b!"#endif\n"
  | .Preprocess_Pragma => e.fmt b!"#pragma %S\n" [e.content p n]
  | .Specifiers => specifiersRef e p
  | .Struct => structDef e rec fuel n
  | .Struct_Fwd => structFwd e p n
  | .Template => template e rec n
  | .Typedef => typedef e rec fuel p n
  | .Typename => typenameRef e rec p
  | .Union => unionDef e rec p n
  | .Union_Fwd => unionFwd e p n
  | .Using => usingRef e rec fuel p n
  | .Using_Namespace => usingNs e p n
  | .Variable => varRef e rec fuel p
  | .Enum_Body | .Class_Body | .Extern_Linkage_Body | .Function_Body | .Global_Body | .Namespace_Body | .Struct_Body | .Union_Body =>
    bodyRef e rec p

/-- ast.cpp 386-604 `code_to_strbuilder_ref`. -/
def codeRef (e : Env) (rec : Fn → Nat → W) (fuel p : Nat) : W :=
  reading (Res.assert (p ≠ 0)) fun _ => reading (e.h.get p) fun n => dispatch e rec fuel p n

/-- One call of an entry point. -/
def step (e : Env) (fuel : Nat) (rec : Fn → Nat → W) : Fn → Nat → W
  | .code, p => codeRef e rec fuel p
  | .typename, p => typenameRef e rec p
  | .params, p => paramsRef e rec fuel p
  | .defParams, p => defParamsRef e rec fuel p
  | .body, p => body e rec p
  | .var, p => varRef e rec fuel p

/-- The entry points, with at most `fuel` calls within each other. -/
def ser (e : Env) : Nat → Fn → Nat → W
  | 0 => fun _ _ _ => .hang
  | fuel + 1 => step e fuel (ser e fuel)

/-- ast.cpp 379-384 `code_to_strbuilder`. -/
def codeToStr (e : Env) (fuel p : Nat) : Res Bytes := ser e fuel .code p []

end Verif.Ser
