import Verif.Model.Ast
/-!
# Comparing and validating ASTs

Models components/ast.cpp 606-1306 (`code_is_equal`, `code_validate_body`) and components/ast_case_macros.cpp. The text of
diagnostics (`log_fmt`, `code_debug_str`) is not modelled; `log_failure` stops the process unless `GEN_DONT_USE_FATAL`.
-/
namespace Verif.Ast

/-- ast.cpp 633-710: the member checks of `code_is_equal`. `check_member_content` never fails (lines 657-676), so it is absent. -/
inductive Chk where
  /-- `check_member_val( ModuleFlags )` -/
  | mflags
  /-- `check_member_str( Name )` -/
  | name
  /-- `check_member_val` of `NumEntries`, `ParentAccess`, `IsFunction` (one union) -/
  | num
  /-- `check_member_val( IsParamPack )` -/
  | pack
  /-- `check_member_ast` of the slot -/
  | ast (slot : Node → Nat)

/-- ast.cpp 712-1124: the checks made for each type of node, in order; the types with a loop are in `isEqual`. A type the switch
does not mention (`Invalid`, `Function_Body`, `Extern_Linkage_Body`) has no checks. `Union_Fwd` falls through into `Using`
(lines 1086-1102). -/
def eqChecks : CodeType → List Chk
  | .Class_Fwd | .Struct_Fwd => [.name, .ast Node.typ, .num, .ast Node.attributes]
  | .Class | .Struct => [.mflags, .name, .ast Node.typ, .num, .ast Node.attributes, .ast Node.body]
  | .Constructor => [.ast Node.typ, .ast Node.params, .ast Node.body]
  | .Constructor_Fwd => [.ast Node.typ, .ast Node.params]
  | .Destructor => [.ast Node.specs, .ast Node.body]
  | .Destructor_Fwd => [.ast Node.specs]
  | .Enum | .Enum_Class => [.mflags, .name, .ast Node.attributes, .ast Node.typ, .ast Node.body, .ast Node.params]
  | .Enum_Fwd | .Enum_Class_Fwd => [.mflags, .name, .ast Node.attributes, .ast Node.typ, .ast Node.params]
  | .Extern_Linkage => [.name, .ast Node.body]
  | .Friend => [.name, .ast Node.body]
  | .Function | .Operator | .Operator_Member =>
    [.mflags, .name, .ast Node.typ, .ast Node.attributes, .ast Node.specs, .ast Node.params, .ast Node.body]
  | .Function_Fwd | .Operator_Fwd | .Operator_Member_Fwd =>
    [.mflags, .name, .ast Node.typ, .ast Node.attributes, .ast Node.specs, .ast Node.params]
  | .Module => [.mflags, .name]
  | .Namespace => [.mflags, .name, .ast Node.body]
  | .Operator_Cast => [.name, .ast Node.specs, .ast Node.typ, .ast Node.body]
  | .Operator_Cast_Fwd => [.name, .ast Node.specs, .ast Node.typ]
  | .Parameters => [.name, .ast Node.typ, .ast Node.body, .ast Node.body]
  | .Template => [.mflags, .name, .ast Node.params, .ast Node.body]
  | .Typedef => [.num, .mflags, .name, .ast Node.specs, .ast Node.typ]
  | .Typename => [.pack, .name, .ast Node.specs, .ast Node.body]
  | .Union => [.mflags, .name, .ast Node.attributes, .ast Node.body]
  | .Union_Fwd => [.mflags, .name, .ast Node.attributes, .mflags, .name, .ast Node.typ, .ast Node.attributes]
  | .Using | .Using_Namespace => [.mflags, .name, .ast Node.typ, .ast Node.attributes]
  | .Variable => [.mflags, .name, .ast Node.typ, .ast Node.params, .ast Node.body, .ast Node.attributes, .ast Node.specs,
      .ast Node.suffix]
  | _ => []

/-- Running the checks; `eq` is the recursive call. -/
def runChecks (eq : Nat → Nat → Res Bool) (s o : Node) : List Chk → Res Bool
  | [] => .ok true
  | .mflags :: cs => if s.moduleFlags ≠ o.moduleFlags then .ok false else runChecks eq s o cs
  | .name :: cs => if s.name ≠ o.name then .ok false else runChecks eq s o cs
  | .num :: cs => if s.num ≠ o.num then .ok false else runChecks eq s o cs
  | .pack :: cs => if s.isParamPack ≠ o.isParamPack then .ok false else runChecks eq s o cs
  | .ast f :: cs =>
    if f s = 0 then runChecks eq s o cs
    else if f o = 0 then .ok false
    else (eq (f s) (f o)).bind fun b => if b then runChecks eq s o cs else .ok false

/-- ast.cpp 918-996: the loop over two parameter lists. The test of the names is the wrong way round in the source (line 940). -/
def eqParamsLoop (eq : Nat → Nat → Res Bool) (h : Heap) : Nat → Nat → Nat → Res Bool
  | 0, _, _ => .hang
  | fuel + 1, curr, other =>
    if curr = 0 then .ok true
    else if other = 0 then .ok false
    else
      (h.get curr).bind fun c => (h.get other).bind fun o =>
      if c.name = o.name then .ok false else
      (if c.typ = 0 then .ok true else eq c.typ o.typ).bind fun b =>
      if !b then .ok false else
      (if c.body = 0 then .ok true else eq c.body o.body).bind fun b =>
      if !b then .ok false else eqParamsLoop eq h fuel c.back o.back

/-- ast.cpp 1129-1164: the loop over two bodies. -/
def eqBodyLoop (eq : Nat → Nat → Res Bool) (h : Heap) : Nat → Nat → Nat → Res Bool
  | 0, _, _ => .hang
  | fuel + 1, curr, other =>
    if curr = 0 then .ok true
    else if other = 0 then .ok false
    else
      (eq curr other).bind fun b =>
      if !b then .ok false else
      (h.get curr).bind fun c => (h.get other).bind fun o => eqBodyLoop eq h fuel c.back o.back

/-- ast.cpp 1035-1044: the loop over two specifier arrays. -/
def eqSpecsLoop (s o : List Specifier) : Nat → Nat → Res Bool
  | 0, _ => .ok true
  | n + 1, idx =>
    (Res.ofOption s[idx]?).bind fun a => (Res.ofOption o[idx]?).bind fun b => if a ≠ b then .ok false else eqSpecsLoop s o n (idx + 1)

/-- ast.cpp 1118-1124: the body types the switch mentions. -/
def eqBodyType : CodeType → Bool
  | .Class_Body | .Enum_Body | .Export_Body | .Global_Body | .Namespace_Body | .Struct_Body | .Union_Body => true
  | _ => false

/-- ast.cpp 606-1176 `code_is_equal`. `fuel` bounds the nesting depth and the lengths of lists; running out is `hang`. A null
`self` is an access through null unless `other` is null as well (the check of `other` comes first, but prints `self`). -/
def isEqual (fatal : Bool) : Nat → Heap → Nat → Nat → Res Bool
  | 0, _, _, _ => .hang
  | fuel + 1, h, self, other =>
    if other = 0 then (Res.assert (self ≠ 0)).bind fun _ => .ok false else
    (h.get self).bind fun s => (h.get other).bind fun o =>
    if s.type ≠ o.type then .ok false else
    match s.type with
    | .Parameters =>
      if s.num > 1 then
        (eqParamsLoop (isEqual fatal fuel h) h fuel self other).bind fun b => .ok (b && decide (s.num = o.num))
      else runChecks (isEqual fatal fuel h) s o (eqChecks .Parameters)
    | .Parameters_Define => if fatal then .stop else .ok false
    | .Preprocess_Define =>
      if s.name ≠ o.name then .ok false
      else (h.get s.body).bind fun _ => (h.get o.body).bind fun _ => .ok true
    | .Specifiers =>
      if s.num ≠ o.num then .ok false
      else if s.name ≠ o.name then .ok false
      else eqSpecsLoop s.arrSpecs o.arrSpecs s.num.toNat 0
    | t =>
      if eqBodyType t then
        (runChecks (isEqual fatal fuel h) s o [.ast Node.front, .ast Node.back]).bind fun b =>
        if !b then .ok false else
        (eqBodyLoop (isEqual fatal fuel h) h fuel s.front o.front).bind fun b => .ok (b && decide (s.num = o.num))
      else runChecks (isEqual fatal fuel h) s o (eqChecks t)

/-- ast_case_macros.cpp 3-19 `GEN_AST_BODY_CLASS_UNALLOWED_TYPES_CASES`, also the list for structs. -/
def classUnallowed : List CodeType := [.PlatformAttributes, .Class_Body, .Enum_Body, .Extern_Linkage, .Function_Body,
  .Function_Fwd, .Global_Body, .Namespace, .Namespace_Body, .Operator, .Operator_Fwd, .Parameters, .Specifiers, .Struct_Body,
  .Typename]

/-- ast_case_macros.cpp 21-42 `GEN_AST_BODY_FUNCTION_UNALLOWED_TYPES_CASES`. -/
def functionUnallowed : List CodeType := [.Access_Public, .Access_Protected, .Access_Private, .PlatformAttributes, .Class_Body,
  .Enum_Body, .Extern_Linkage, .Friend, .Function_Body, .Function_Fwd, .Global_Body, .Namespace, .Namespace_Body, .Operator,
  .Operator_Fwd, .Operator_Member, .Operator_Member_Fwd, .Parameters, .Specifiers, .Struct_Body, .Typename]

/-- ast_case_macros.cpp 44-79: the list shared by global, export, extern linkage and namespace bodies. -/
def globalUnallowed : List CodeType := [.Access_Public, .Access_Protected, .Access_Private, .PlatformAttributes, .Class_Body,
  .Enum_Body, .Execution, .Friend, .Function_Body, .Namespace_Body, .Operator_Member, .Operator_Member_Fwd, .Parameters,
  .Specifiers, .Struct_Body, .Typename]

/-- ast.cpp 1178-1303: what `code_validate_body` rejects in each kind of body; `none` is `default`. -/
def validateRejects : CodeType → Option (CodeType → Bool)
  | .Class_Body | .Struct_Body => some fun t => classUnallowed.contains t
  | .Enum_Body | .Union_Body => some fun t => decide (t ≠ .Untyped)
  | .Export_Body | .Extern_Linkage | .Global_Body | .Namespace_Body => some fun t => globalUnallowed.contains t
  | .Function_Body => some fun t => functionUnallowed.contains t
  | _ => none

/-- ast.cpp 1178-1306: the loop of `code_validate_body`. The increment `next_CodeBody(body, entry)` returns the next entry and
its result is dropped, so `entry` stays what it was. -/
def validateLoop (fatal : Bool) (rejects : CodeType → Bool) (h : Heap) (body : Nat) : Nat → Nat → Res Bool
  | 0, _ => .hang
  | fuel + 1, entry =>
    (h.get body).bind fun b =>
    (h.get b.back).bind fun last =>
    if entry = last.back then .ok false
    else
      (h.get entry).bind fun e =>
      if rejects e.type then (if fatal then .stop else .ok false)
      else validateLoop fatal rejects h body fuel entry

/-- ast.cpp 1178-1306 `code_validate_body`. -/
def validateBody (fatal : Bool) (fuel : Nat) (h : Heap) (self : Nat) : Res Bool :=
  (h.get self).bind fun s =>
  match validateRejects s.type with
  | none => if fatal then .stop else .ok false
  | some rejects => validateLoop fatal rejects h self fuel s.front

end Verif.Ast
