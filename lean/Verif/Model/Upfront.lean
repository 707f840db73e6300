import Verif.Model.Equal
import Verif.Model.Bytes
/-!
# Upfront constructors

Models components/interface.upfront.cpp (the `def_*` functions) on the AST heap.

* `Cfg` holds what the functions read from the context: how `log_failure` behaves (types.hpp 26-30), and the constant nodes
  `Code_Invalid`, `t_void`, `t_int`, `t_bool` (interface.cpp `define_constants`).
* `InvalidCode` is the node `Code_Invalid` (ast.hpp 448-450). `GEN_DEBUG_TRAP` is not modelled; nor is the text of diagnostics.
* `Str` arguments are their bytes; a null or empty string is `[]`. `cache_str` gives back the same bytes (C14).
* A node made before a failing check stays allocated, as in the source.
-/
namespace Verif.Ast

/-- The context of the constructors. -/
structure Cfg where
  /-- `log_failure` is `GEN_FATAL` -/
  fatal : Bool
  /-- `Code_Invalid` -/
  invalid : Nat
  tVoid : Nat
  tInt : Nat
  tBool : Nat

/-- A returned code and the heap afterwards. -/
abbrev Out := Res (Nat × Heap)

/-- `log_failure(...); return InvalidCode;` -/
def reject (c : Cfg) (h : Heap) : Out := if c.fatal then .stop else .ok (c.invalid, h)

/-- `if ( p && p->Type != ts... ) { log_failure(...); return InvalidCode; }` -/
def guardOpt (c : Cfg) (h : Heap) (p : Nat) (ts : List CodeType) (k : Out) : Out :=
  if p = 0 then k else (h.get p).bind fun n => if ts.contains n.type then k else reject c h

/-- interface.upfront.cpp 395-401 `null__check`, then a check of the type. -/
def guardReq (c : Cfg) (h : Heap) (p : Nat) (ts : List CodeType) (k : Out) : Out :=
  if p = 0 then reject c h else (h.get p).bind fun n => if ts.contains n.type then k else reject c h

/-- interface.upfront.cpp 380-391 `name__check`, and the like checks of other strings. -/
def guardName (c : Cfg) (h : Heap) (name : Bytes) (k : Out) : Out := if name = [] then reject c h else k

/-- The assignments to the fields of `result`, and `return result`. -/
def finish (h : Heap) (r : Nat) (n : Node) : Out := (h.upd r fun _ => n).bind fun h => .ok (r, h)

/-- A string formatted into a buffer of `GEN_PRINTF_MAXLEN` bytes; that the text comes out right when it fits is C36. -/
def fmtText (t : Bytes) : Res Bytes := if t.length + 1 < 131072 then .ok t else .ub

/-- What `%.*s` and `%S` print of a string: it ends at a NUL (printing.cpp 43-108 through `c_str_copy_nulpad`). -/
def cText (t : Bytes) : Bytes := t.takeWhile (· ≠ 0)

/-- interface.upfront.cpp 416-429 `def_attributes`. -/
def defAttributes (c : Cfg) (h : Heap) (content : Bytes) : Out :=
  guardName c h content <|
  finish h.make.2 h.next { type := .PlatformAttributes, name := content, content := content }

/-- interface.hpp 169-173 -/
structure OptsConstructor where
  params : Nat := 0
  initializerList : Nat := 0
  body : Nat := 0

/-- interface.upfront.cpp 476-511 `def_constructor`. -/
def defConstructor (c : Cfg) (h : Heap) (p : OptsConstructor) : Out :=
  guardOpt c h p.params [.Parameters] <|
  guardOpt c h.make.2 p.body [.Function_Body, .Untyped] <|
  finish h.make.2 h.next {
    type := if p.body = 0 then .Constructor_Fwd else .Constructor, params := p.params,
    typ := p.initializerList, body := p.body }

/-- interface.hpp 157-166; the interfaces are a list. -/
structure OptsStruct where
  body : Nat := 0
  parent : Nat := 0
  parentAccess : Nat := 0
  attributes : Nat := 0
  interfaces : List Nat := []
  specifiers : Nat := 0
  mflags : Nat := 0

/-- inlines.hpp 484-487: the search for the last typename of the chain. -/
def lastSlot (h : Heap) : Nat → Nat → Res Nat
  | 0, _ => .hang
  | fuel + 1, p => (h.get p).bind fun n => if n.back = 0 then .ok p else lastSlot h fuel n.back

/-- inlines.hpp 468-490 `class_add_interface`, 689-708 `struct_add_interface`. `AccessSpec_Public` is 3. -/
def addInterface (fuel : Nat) (h : Heap) (self type : Nat) : Res Heap :=
  (Res.assert (self ≠ 0)).bind fun _ =>
  (Res.assert (type ≠ 0)).bind fun _ =>
  (h.get self).bind fun s =>
  (if s.typ ≠ 0 then h.upd self fun n => { n with num := 3 } else .ok h).bind fun h =>
  (lastSlot h fuel s.typ).bind fun slot => h.upd slot fun n => { n with back := type }

/-- interface.upfront.cpp 558-560: the loop over the interfaces. -/
def addInterfaces (fuel : Nat) (h : Heap) (self : Nat) : List Nat → Res Heap
  | [] => .ok h
  | i :: is => (addInterface fuel h self i).bind fun h => addInterfaces fuel h self is

/-- interface.upfront.cpp 513-562 `def_class`. -/
def defClass (fuel : Nat) (c : Cfg) (h : Heap) (name : Bytes) (p : OptsStruct) : Out :=
  guardName c h name <|
  guardOpt c h p.attributes [.PlatformAttributes] <|
  guardOpt c h p.parent [.Class, .Struct, .Typename, .Untyped] <|
  guardOpt c h.make.2 p.body [.Class_Body, .Untyped] <|
  (finish h.make.2 h.next {
    type := if p.body = 0 then .Class_Fwd else .Class, name := name, moduleFlags := p.mflags,
    attributes := p.attributes, specs := p.specifiers, num := p.parentAccess, typ := p.parent, body := p.body }).bind fun (r, h) =>
  (if p.body = 0 then .ok h else h.upd p.body fun n => { n with parent := r }).bind fun h =>
  (addInterfaces fuel h r p.interfaces).bind fun h => .ok (r, h)

/-- interface.upfront.cpp 1037-1077 `def_struct`; a struct may be anonymous. -/
def defStruct (fuel : Nat) (c : Cfg) (h : Heap) (name : Bytes) (p : OptsStruct) : Out :=
  guardOpt c h p.attributes [.PlatformAttributes] <|
  guardOpt c h p.parent [.Typename] <|
  guardOpt c h p.body [.Struct_Body] <|
  (finish h.make.2 h.next {
    type := if p.body = 0 then .Struct_Fwd else .Struct, name := name, moduleFlags := p.mflags,
    attributes := p.attributes, specs := p.specifiers, num := p.parentAccess, typ := p.parent, body := p.body }).bind fun (r, h) =>
  (addInterfaces fuel h r p.interfaces).bind fun h => .ok (r, h)

/-- interface.untyped.cpp 94-115 `untyped_str`. -/
def untypedStr (c : Cfg) (h : Heap) (content : Bytes) : Out :=
  guardName c h content <| finish h.make.2 h.next { type := .Untyped, name := content, content := content }

/-- interface.hpp 176-181; the macro's type and flags are kept for the registration (C24) and not modelled here. -/
structure OptsDefine where
  params : Nat := 0
  content : Bytes := []

/-- interface.upfront.cpp 564-586 `def_define`, without the registration of the macro (C24). -/
def defDefine (c : Cfg) (h : Heap) (name : Bytes) (p : OptsDefine) : Out :=
  guardName c h name <|
  (finish h.make.2 h.next { type := .Preprocess_Define, name := name, params := p.params }).bind fun (r, h) =>
  (if p.content = [] then .ok [10] else fmtText (cText p.content ++ [10])).bind fun t =>
  (untypedStr c h t).bind fun (b, h) =>
  (h.upd r fun n => { n with body := b }).bind fun h => .ok (r, h)

/-- interface.hpp 184-187 -/
structure OptsDestructor where
  body : Nat := 0
  specifiers : Nat := 0

/-- interface.upfront.cpp 588-620 `def_destructor`. -/
def defDestructor (c : Cfg) (h : Heap) (p : OptsDestructor) : Out :=
  guardOpt c h p.specifiers [.Specifiers] <|
  guardOpt c h.make.2 p.body [.Function_Body, .Untyped] <|
  finish h.make.2 h.next { type := if p.body = 0 then .Destructor_Fwd else .Destructor, specs := p.specifiers, body := p.body }

/-- interface.hpp 190-197; `isClass` is `specifier == EnumDecl_Class`. -/
structure OptsEnum where
  body : Nat := 0
  type : Nat := 0
  isClass : Bool := false
  attributes : Nat := 0
  mflags : Nat := 0
  typeMacro : Nat := 0

/-- interface.upfront.cpp 622-681 `def_enum`: it is the definition without underlying type that is refused (lines 674-679). -/
def defEnum (c : Cfg) (h : Heap) (name : Bytes) (p : OptsEnum) : Out :=
  guardName c h name <|
  guardOpt c h p.type [.Typename] <|
  guardOpt c h p.attributes [.PlatformAttributes] <|
  guardOpt c h.make.2 p.body [.Enum_Body, .Untyped] <|
  if p.type = 0 ∧ p.typeMacro = 0 ∧ p.body ≠ 0 then reject c h.make.2 else
  finish h.make.2 h.next {
    name := name, moduleFlags := p.mflags, attributes := p.attributes, body := p.body,
    type := if p.body = 0 then (if p.isClass then .Enum_Class_Fwd else .Enum_Fwd) else (if p.isClass then .Enum_Class else .Enum),
    typ := p.type, params := if p.type = 0 then p.typeMacro else 0 }

/-- interface.upfront.cpp 683-695 `def_execution`. -/
def defExecution (c : Cfg) (h : Heap) (content : Bytes) : Out :=
  guardName c h content <| finish h.make.2 h.next { type := .Execution, content := content }

/-- interface.upfront.cpp 697-714 `def_extern_link`. -/
def defExternLink (c : Cfg) (h : Heap) (name : Bytes) (body : Nat) : Out :=
  guardName c h name <|
  guardReq c h body [.Extern_Linkage_Body, .Untyped] <|
  finish h.make.2 h.next { type := .Extern_Linkage, name := name, body := body }

/-- interface.upfront.cpp 716-743 `def_friend`. -/
def defFriend (c : Cfg) (h : Heap) (declaration : Nat) : Out :=
  guardReq c h declaration [.Class_Fwd, .Function_Fwd, .Operator_Fwd, .Struct_Fwd, .Class, .Function, .Operator, .Struct] <|
  finish h.make.2 h.next { type := .Friend, body := declaration }

/-- interface.hpp 204-211 -/
structure OptsFunction where
  params : Nat := 0
  retType : Nat := 0
  body : Nat := 0
  specs : Nat := 0
  attrs : Nat := 0
  mflags : Nat := 0

/-- interface.upfront.cpp 745-803 `def_function`. -/
def defFunction (c : Cfg) (h : Heap) (name : Bytes) (p : OptsFunction) : Out :=
  guardName c h name <|
  guardOpt c h p.params [.Parameters] <|
  guardOpt c h p.retType [.Typename] <|
  guardOpt c h p.specs [.Specifiers] <|
  guardOpt c h p.attrs [.PlatformAttributes] <|
  guardOpt c h.make.2 p.body [.Function_Body, .Execution, .Untyped] <|
  finish h.make.2 h.next {
    type := if p.body = 0 then .Function_Fwd else .Function, name := name, moduleFlags := p.mflags,
    body := p.body, attributes := p.attrs, specs := p.specs, params := p.params,
    typ := if p.retType = 0 then c.tVoid else p.retType }

/-- interface.upfront.cpp 805-822 `def_include`. -/
def defInclude (c : Cfg) (h : Heap) (path : Bytes) (foreign : Bool) : Out :=
  guardName c h path <|
  (fmtText (if foreign then [60] ++ cText path ++ [62] else [34] ++ cText path ++ [34])).bind fun t =>
  finish h.make.2 h.next { type := .Preprocess_Include, name := t, content := t }

/-- interface.upfront.cpp 824-836 `def_module`. -/
def defModule (c : Cfg) (h : Heap) (name : Bytes) (mflags : Nat) : Out :=
  guardName c h name <| finish h.make.2 h.next { type := .Module, name := name, moduleFlags := mflags }

/-- interface.upfront.cpp 838-860 `def_namespace`. -/
def defNamespace (c : Cfg) (h : Heap) (name : Bytes) (body mflags : Nat) : Out :=
  guardName c h name <|
  guardReq c h body [.Namespace_Body, .Untyped] <|
  finish h.make.2 h.next { type := .Namespace, name := name, moduleFlags := mflags, body := body }

/-- interface.upfront.cpp 8-13 `OpValidateResult`. -/
inductive OpVal where
  | fail
  | global
  | member
  deriving DecidableEq, Repr

/-- `log_failure(...); return OpValResult_Fail;` -/
def opFail (c : Cfg) : Res OpVal := if c.fatal then .stop else .ok .fail

/-- interface.upfront.cpp 25-35 `check_params`. -/
def opParams (c : Cfg) (h : Heap) (params : Nat) (k : Node → Res OpVal) : Res OpVal :=
  if params = 0 then opFail c
  else (h.get params).bind fun p => if p.type ≠ .Parameters then opFail c else k p

/-- interface.upfront.cpp 16-377 `operator__validate`. A null `ret_type` is reported (line 51) and then dereferenced (line 56).
`fuel` is for `code_is_equal`. -/
def operatorValidate (fuel : Nat) (c : Cfg) (h : Heap) (op : Operator) (params ret : Nat) : Res OpVal :=
  if op = .Invalid then opFail c else
  if ret = 0 ∧ c.fatal = true then .stop else
  (h.get ret).bind fun r =>
  if r.type ≠ .Typename then opFail c else
  match op with
  | .Assign => opParams c h params fun p => if p.num > 1 then opFail c else .ok .member
  | .Assign_Add | .Assign_Subtract | .Assign_Multiply | .Assign_Divide | .Assign_Modulo | .Assign_BAnd | .Assign_BOr
  | .Assign_BXOr | .Assign_LShift | .Assign_RShift =>
    opParams c h params fun p =>
    if p.num = 1 then .ok .member else
    (isEqual c.fatal fuel h p.typ ret).bind fun b => if !b then opFail c else
    if p.num > 2 then opFail c else .ok .global
  | .Increment | .Decrement =>
    if params = 0 then .ok .global else
    (h.get params).bind fun p =>
    if p.type ≠ .Parameters then opFail c else
    if p.num = 1 then
      (isEqual c.fatal fuel h p.typ c.tInt).bind fun b => if b then .ok .member else
      (isEqual c.fatal fuel h p.typ ret).bind fun b => if !b then opFail c else .ok .global
    else if p.num = 2 then
      (isEqual c.fatal fuel h p.typ ret).bind fun b => if !b then opFail c else
      (paramsGet h params 1).bind fun q =>
      (isEqual c.fatal fuel h q c.tInt).bind fun b => if !b then opFail c else .ok .global
    else opFail c
  | .Unary_Plus | .Unary_Minus =>
    if params = 0 then .ok .member else
    (h.get params).bind fun p =>
    if p.type ≠ .Parameters then opFail c else
    (isEqual c.fatal fuel h p.typ ret).bind fun b => if b then opFail c else
    if p.num > 1 then opFail c else .ok .global
  | .BNot =>
    if params = 0 then .ok .member else
    (h.get params).bind fun p =>
    if p.type ≠ .Parameters then opFail c else if p.num > 1 then opFail c else .ok .global
  | .Add | .Subtract | .Multiply | .Divide | .Modulo | .BAnd | .BOr | .BXOr | .LShift | .RShift
  | .LAnd | .LOr | .LEqual | .LNot | .Lesser | .Greater | .LesserEqual | .GreaterEqual =>
    opParams c h params fun p => if p.num = 1 then .ok .member else if p.num = 2 then .ok .global else opFail c
  | .UnaryNot =>
    (if params = 0 then .ok .member else
      (h.get params).bind fun p =>
      if p.type ≠ .Parameters then opFail c else if p.num ≠ 1 then opFail c else .ok .global).bind fun v =>
    if v = .fail then .ok .fail else
    (isEqual c.fatal fuel h ret c.tBool).bind fun b => if !b then opFail c else .ok v
  | .Indirection | .AddressOf | .MemberOfPointer =>
    if params = 0 then .ok .member else
    (h.get params).bind fun p => if p.num > 1 then opFail c else .ok .member
  | .PtrToMemOfPtr => if params = 0 then .ok .global else opFail c
  | .Subscript | .FunctionCall | .Comma => opParams c h params fun _ => .ok .global
  | .New | .NewArray | .Delete | .DeleteArray | .Invalid => .ok .global

/-- interface.hpp 221-228 -/
structure OptsOperator where
  params : Nat := 0
  retType : Nat := 0
  body : Nat := 0
  specifiers : Nat := 0
  attributes : Nat := 0
  mflags : Nat := 0

/-- The index of an operator, as stored in `Op`. -/
def opIndex (op : Operator) : Int := Operator.all.idxOf op

/-- interface.upfront.cpp 862-927 `def_operator`. -/
def defOperator (fuel : Nat) (c : Cfg) (h : Heap) (op : Operator) (nspace : Bytes) (p : OptsOperator) : Out :=
  guardOpt c h p.attributes [.PlatformAttributes] <|
  guardOpt c h p.specifiers [.Specifiers] <|
  (operatorValidate fuel c h op p.params p.retType).bind fun v =>
  if v = .fail then .ok (c.invalid, h) else
  (fmtText (cText nspace ++ b!"operator " ++ operatorToStr op)).bind fun name =>
  guardOpt c h.make.2 p.body [.Function_Body, .Execution, .Untyped] <|
  finish h.make.2 h.next {
    name := name, moduleFlags := p.mflags, num := opIndex op, body := p.body,
    type := if p.body = 0 then (if v = .global then .Operator_Fwd else .Operator_Member_Fwd)
    else (if v = .global then .Operator else .Operator_Member),
    attributes := p.attributes, specs := p.specifiers, typ := p.retType, params := p.params }

/-- interface.upfront.cpp 929-960 `def_operator_cast`. -/
def defOperatorCast (c : Cfg) (h : Heap) (type body specs : Nat) : Out :=
  guardReq c h type [.Typename] <|
  guardOpt c h.make.2 body [.Function_Body, .Execution] <|
  finish h.make.2 h.next { type := if body = 0 then .Operator_Cast_Fwd else .Operator_Cast, body := body, specs := specs, typ := type }

/-- interface.upfront.cpp 962-984 `def_param`. -/
def defParam (c : Cfg) (h : Heap) (type : Nat) (name : Bytes) (value : Nat) : Out :=
  guardName c h name <|
  guardReq c h type [.Typename] <|
  guardOpt c h value [.Untyped] <|
  finish h.make.2 h.next { type := .Parameters, name := name, typ := type, body := value, num := 1 }

/-- interface.upfront.cpp 986-998 `def_pragma`. -/
def defPragma (c : Cfg) (h : Heap) (directive : Bytes) : Out :=
  guardName c h directive <| finish h.make.2 h.next { type := .Preprocess_Pragma, content := directive }

/-- types.hpp `EPreprocessCond`. -/
inductive PreCond where
  | If
  | IfDef
  | IfNotDef
  | ElIf
  deriving DecidableEq, Repr

/-- interface.upfront.cpp 1010-1024: the type for each kind of condition. -/
def PreCond.type : PreCond → CodeType
  | .If => .Preprocess_If
  | .IfDef => .Preprocess_IfDef
  | .IfNotDef => .Preprocess_IfNotDef
  | .ElIf => .Preprocess_ElIf

/-- interface.upfront.cpp 1000-1026 `def_preprocess_cond`. -/
def defPreprocessCond (c : Cfg) (h : Heap) (kind : PreCond) (expr : Bytes) : Out :=
  guardName c h expr <| finish h.make.2 h.next { type := kind.type, content := expr }

/-- interface.upfront.cpp 1028-1035 `def_specifier`. -/
def defSpecifier (c : Cfg) (h : Heap) (spec : Specifier) : Out :=
  (finish h.make.2 h.next { type := .Specifiers }).bind fun (r, h) =>
  (specifiersAppend c.fatal h r spec).bind fun (_, h) => .ok (r, h)

/-- interface.upfront.cpp 1079-1109 `def_template`: a declaration of another type is reported only. -/
def defTemplate (c : Cfg) (h : Heap) (params declaration mflags : Nat) : Out :=
  if declaration = 0 then reject c h else
  guardOpt c h params [.Parameters] <|
  (h.get declaration).bind fun d =>
  if [CodeType.Class, .Function, .Struct, .Variable, .Using].contains d.type = false ∧ c.fatal = true then .stop else
  finish h.make.2 h.next { type := .Template, moduleFlags := mflags, params := params, body := declaration }

/-- interface.hpp 250-255 -/
structure OptsType where
  typeTag : Nat := 0
  arrayExpr : Nat := 0
  specifiers : Nat := 0
  attributes : Nat := 0

/-- interface.upfront.cpp 1111-1144 `def_type`. -/
def defType (c : Cfg) (h : Heap) (name : Bytes) (p : OptsType) : Out :=
  guardName c h name <|
  guardOpt c h p.attributes [.PlatformAttributes] <|
  guardOpt c h p.specifiers [.Specifiers] <|
  guardOpt c h p.arrayExpr [.Untyped] <|
  finish h.make.2 h.next {
    type := .Typename, name := name, attributes := p.attributes, specs := p.specifiers,
    body := p.arrayExpr, typeTag := p.typeTag }

/-- interface.upfront.cpp 1152-1163: the types `def_typedef` accepts. -/
def typedefTypes : List CodeType := [.Class, .Class_Fwd, .Enum, .Enum_Fwd, .Enum_Class, .Enum_Class_Fwd, .Function_Fwd, .Struct,
  .Struct_Fwd, .Union, .Typename]

/-- interface.upfront.cpp 1146-1207 `def_typedef`. `registered_type` is non-null even when `def_type` fails. -/
def defTypedef (c : Cfg) (h : Heap) (name : Bytes) (type attributes mflags : Nat) : Out :=
  guardReq c h type typedefTypes <|
  guardOpt c h attributes [.PlatformAttributes] <|
  (defType c h name {}).bind fun (_, h) =>
  if name = [] then
    (h.get type).bind fun t =>
    if t.type ≠ .Untyped then reject c h.make.2
    else finish h.make.2 h.next { type := .Typedef, moduleFlags := mflags, typ := type, name := t.name, num := 1 }
  else finish h.make.2 h.next { type := .Typedef, moduleFlags := mflags, typ := type, name := name }

/-- interface.upfront.cpp 1209-1234 `def_union`. -/
def defUnion (c : Cfg) (h : Heap) (name : Bytes) (body attributes mflags : Nat) : Out :=
  guardReq c h body [.Union_Body] <|
  guardOpt c h attributes [.PlatformAttributes] <|
  finish h.make.2 h.next { type := .Union, moduleFlags := mflags, body := body, attributes := attributes, name := name }

/-- interface.upfront.cpp 1236-1262 `def_using`: `null_check` is not negated (line 1238); a null type is reported by it. -/
def defUsing (c : Cfg) (h : Heap) (name : Bytes) (type attributes mflags : Nat) : Out :=
  guardName c h name <|
  if type ≠ 0 then .ok (c.invalid, h) else
  if c.fatal = true then .stop else
  (defType c h name {}).bind fun (_, h) =>
  guardOpt c h attributes [.PlatformAttributes] <|
  finish h.make.2 h.next { type := .Using, name := name, moduleFlags := mflags, typ := type, attributes := attributes }

/-- interface.upfront.cpp 1264-1275 `def_using_namespace`. -/
def defUsingNamespace (c : Cfg) (h : Heap) (name : Bytes) : Out :=
  guardName c h name <| finish h.make.2 h.next { type := .Using_Namespace, name := name }

/-- interface.hpp 278-284 -/
structure OptsVariable where
  value : Nat := 0
  specifiers : Nat := 0
  attributes : Nat := 0
  mflags : Nat := 0

/-- interface.upfront.cpp 1277-1313 `def_variable`. -/
def defVariable (c : Cfg) (h : Heap) (type : Nat) (name : Bytes) (p : OptsVariable) : Out :=
  guardName c h name <|
  if type = 0 then reject c h else
  guardOpt c h p.attributes [.PlatformAttributes] <|
  guardOpt c h p.specifiers [.Specifiers] <|
  guardReq c h type [.Typename] <|
  guardOpt c h p.value [.Untyped] <|
  finish h.make.2 h.next {
    type := .Variable, name := name, moduleFlags := p.mflags, typ := type, attributes := p.attributes,
    specs := p.specifiers, body := p.value }

/-! ### Bodies and lists -/

/-- How one `def_*_body` function treats an entry. -/
inductive EntryRule where
  | refuse
  /-- `body_append` -/
  | append
  /-- `body_append_body` -/
  | inline
  deriving DecidableEq

/-- interface.upfront.cpp 1340-2100: the kinds of body the `def_*_body` functions make. -/
inductive BodyKind where
  | class | enum | export | externLink | function | global | namespace | struct | union
  deriving DecidableEq, Repr

/-- The rules of the switch statements. -/
def BodyKind.rule : BodyKind → CodeType → EntryRule
  | .class, t | .struct, t => if classUnallowed.contains t then .refuse else .append
  | .enum, t | .union, t => if t = .Untyped ∨ t = .Comment then .append else .refuse
  | .export, t | .externLink, t | .namespace, t => if globalUnallowed.contains t then .refuse else .append
  | .function, t => if functionUnallowed.contains t then .refuse else .append
  | .global, t => if t = .Global_Body then .inline else if globalUnallowed.contains t then .refuse else .append

/-- The type of the result of the variadic functions. -/
def BodyKind.type : BodyKind → CodeType
  | .class => .Class_Body
  | .enum => .Enum_Body
  | .export => .Export_Body
  | .externLink => .Extern_Linkage_Body
  | .function => .Function_Body
  | .global => .Global_Body
  | .namespace => .Namespace_Body
  | .struct => .Struct_Body
  | .union => .Union_Body

/-- The type of the result of the `_arr` functions: `def_class_body_arr` (line 1380) and `def_namespace_body_arr` (line 1838) use
another one. -/
def BodyKind.typeArr : BodyKind → CodeType
  | .class => .Function_Body
  | .namespace => .Global_Body
  | k => k.type

/-- interface.upfront.cpp 1347-1369 (and the same loop in the other functions). -/
def bodyLoop (fuel : Nat) (c : Cfg) (k : BodyKind) (r : Nat) : Heap → List Nat → Out
  | h, [] => .ok (r, h)
  | h, e :: es =>
    if e = 0 then reject c h else
    (h.get e).bind fun n =>
    match k.rule n.type with
    | .refuse => reject c h
    | .append => (bodyAppend fuel h r e).bind fun h => bodyLoop fuel c k r h es
    | .inline => (bodyAppendBody fuel h r e).bind fun h => bodyLoop fuel c k r h es

/-- interface.upfront.cpp 1338-1372 `def_class_body`, `def_enum_body`, ... (the variadic forms); no entries is `num <= 0`. -/
def defKindBody (fuel : Nat) (c : Cfg) (h : Heap) (k : BodyKind) (entries : List Nat) : Out :=
  if entries = [] then reject c h else
  (finish h.make.2 h.next { type := k.type }).bind fun (r, h) => bodyLoop fuel c k r h entries

/-- interface.upfront.cpp 1374-1403 `def_class_body_arr`, ...: the forms with an array. -/
def defKindBodyArr (fuel : Nat) (c : Cfg) (h : Heap) (k : BodyKind) (entries : List Nat) : Out :=
  if entries = [] then reject c h else
  (finish h.make.2 h.next { type := k.typeArr }).bind fun (r, h) => bodyLoop fuel c k r h entries

/-- interface.upfront.cpp 1879-1888: the loop of `def_params`. -/
def paramsLoop (c : Cfg) (t : CodeType) (r : Nat) : Heap → List Nat → Out
  | h, [] => .ok (r, h)
  | h, p :: ps =>
    (h.get p).bind fun n => if n.type ≠ t then reject c h else
    (paramsAppend h r p).bind fun h => paramsLoop c t r h ps

/-- interface.upfront.cpp 1862-1892 `def_params` (`t` = `CT_Parameters`) and 1405-1435 `def_define_params`
(`CT_Parameters_Define`). A null first parameter is reported and then dereferenced. -/
def defParams (c : Cfg) (t : CodeType) (h : Heap) : List Nat → Out
  | [] => reject c h
  | p :: ps =>
    if p = 0 ∧ c.fatal = true then .stop else
    (h.get p).bind fun n => if n.type ≠ t then reject c h else
    (duplicate h p).bind fun (r, h) => paramsLoop c t r h ps

/-- interface.upfront.cpp 1894-1922 `def_params_arr`: the loop; `after` says whether there is a readable element after the
array: the loop reads `codes[num]` (line 1915). -/
def paramsArrLoop (c : Cfg) (t : CodeType) (r : Nat) (after : Bool) : Heap → List Nat → Out
  | h, [] => if after then .ok (r, h) else .ub
  | h, p :: ps =>
    if p = 0 then reject c h else
    (h.get p).bind fun n => if n.type ≠ t then reject c h else
    (paramsAppend h r p).bind fun h => paramsArrLoop c t r after h ps

/-- interface.upfront.cpp 1894-1922 `def_params_arr`. -/
def defParamsArr (c : Cfg) (h : Heap) (after : Bool) : List Nat → Out
  | [] => reject c h
  | p :: ps =>
    (duplicate h p).bind fun (d, h) =>
    (h.get d).bind fun n => if n.type ≠ .Parameters then reject c h else
    (finish h.make.2 h.next { name := n.name, type := n.type, typ := n.typ }).bind fun (r, h) =>
    paramsArrLoop c .Parameters r after h ps

/-- interface.upfront.cpp 1939-1944: the loop of `def_specifiers`. The result of `specifiers_append` is not looked at. -/
def specsLoop (c : Cfg) (r : Nat) : Heap → List Specifier → Out
  | h, [] => .ok (r, h)
  | h, s :: ss => (specifiersAppend c.fatal h r s).bind fun (_, h) => specsLoop c r h ss

/-- interface.upfront.cpp 1924-1948 `def_specifiers` and `def_specifiers_arr`. -/
def defSpecifiers (c : Cfg) (h : Heap) (specs : List Specifier) : Out :=
  if specs = [] then reject c h else
  if specs.length > specsCap then reject c h else
  (finish h.make.2 h.next { type := .Specifiers }).bind fun (r, h) => specsLoop c r h specs

end Verif.Ast
