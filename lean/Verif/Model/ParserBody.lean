import Verif.Model.ParserDecl
/-!
# The parser: classes, structs, unions, namespaces, templates and typedefs

Models the functions of base/components/parser.cpp that call one another: `parse_class_struct` 674-793, `parse_class_struct_body` 796-1135,
`parse_complicated_definition` 1154-1333, `parse_forward_or_definition` 1375-1406, `parse_global_nspace` 1594-1908,
`parse_global_nspace_constructor_destructor` 1910-2036, `parser_parse_class` and `parser_parse_struct` 3488-3495 and 4471-4478,
`parser_parse_export_body` and `parser_parse_extern_link_body` 4031-4046, `parser_parse_extern_link` 4048-4082, `parser_parse_namespace`
4270-4297, `parser_parse_template` 4481-4651, `parser_parse_typedef` 5123-5345, `parser_parse_union` 5348-5490.

The recursion goes through a record of functions; its fuel is the number of cells: every call that goes deeper has eaten a token.
-/
namespace Verif.Parse
open Verif.Lex (Tok)
open Verif.Ast
open P

/-- The functions that call one another. -/
structure Rec where
  complicated : TokType → P Nat
  template : P Nat
  typedef : P Nat
  nspace : CodeType → P Nat

/-- `while ( left && currtok_noskip.Type != Tok_BraceCurly_Close )`: the loop over members; `member` appends what it parses. -/
def members (member : P Unit) : P Unit := do
  let _ ← loop (fun (_ : Unit) => do
    let go ← if ← left then do pure ((← curN).type ≠ .BraceCurly_Close : Bool) else pure false
    if go then
      member
      return (true, ())
    else return (false, ())) ()
  return ()

/-- A constant of the library as a member: the token is eaten. -/
def constant (ty : TokType) (f : Env → Nat) : P Nat := do
  let e ← env
  eat ty
  return f e

/-- parser.cpp 843-864: an access label. -/
def accessLabel (ty : TokType) (f : Env → Nat) : P Nat := do
  let r ← constant ty f
  eat .Assign_Classifer
  return r

/-- parser_case_macros.cpp `GEN_PARSER_CLASS_STRUCT_BODY_ALLOWED_MEMBER_SPECIFIER_CASES`, and `consteval`. -/
def memberSpecs : List Specifier := [.Constexpr, .Constinit, .Explicit, .Inline, .ForceInline, .Mutable, .NeverInline, .Static, .Volatile,
  .Virtual, .Consteval]

/-- parser_case_macros.cpp `GEN_PARSER_CLASS_STRUCT_BODY_ALLOWED_MEMBER_TOK_SPECIFIER_CASES`. -/
def memberSpecToks : List TokType := [.Spec_Consteval, .Spec_Constexpr, .Spec_Constinit, .Spec_Explicit, .Spec_ForceInline, .Spec_Inline,
  .Spec_Mutable, .Spec_NeverInline, .Spec_Static, .Spec_Volatile, .Spec_Virtual]

/-- parser_case_macros.cpp `GEN_PARSER_CLASS_GLOBAL_NSPACE_ALLOWED_MEMBER_SPECIFIER_CASES`, and `consteval`. -/
def nspaceSpecs : List Specifier := [.Constexpr, .Constinit, .ForceInline, .Global, .External_Linkage, .Internal_Linkage, .Inline, .Mutable,
  .NeverInline, .Static, .Volatile, .Consteval]

/-- parser_case_macros.cpp `GEN_PARSER_CLASS_GLOBAL_NSPACE_ALLOWED_MEMBER_TOK_SPECIFIER_CASES`. -/
def nspaceSpecToks : List TokType := [.Spec_Consteval, .Spec_Constexpr, .Spec_Constinit, .Spec_Extern, .Spec_ForceInline, .Spec_Global,
  .Spec_Inline, .Spec_Internal_Linkage, .Spec_NeverInline, .Spec_Static]

/-- `case Tok_Attribute_Open: case Tok_Decl_GNU_Attribute: case Tok_Decl_MSVC_Attribute:` and the attribute tokens. -/
def attributeToks : List TokType := [.Attribute_Open, .Decl_GNU_Attribute, .Decl_MSVC_Attribute, .Attribute_GEN_API]

/-- The tokens a declaration may begin with (parser.cpp 1061-1072, 1835-1846). -/
def declToks : List TokType := [.Identifier, .Preprocess_Macro_Typename, .Spec_Const, .Type_Unsigned, .Type_Signed, .Type_Short, .Type_Long,
  .Type_bool, .Type_char, .Type_int, .Type_double]

/-- parser.cpp 1027-1045: attributes behind the specifiers. Two attributes are formatted as `StrBuilder`s, which they are not. -/
def attributesAgain (attrs : Nat) : P Nat := do
  if has (← cur) Lex.fAttribute then
    let more ← attributes
    if attrs ≠ 0 then ub else return more
  else return attrs

/-- parser.cpp 1073-1087: a constructor, or an operator, function or variable. `Len` bytes of the two names are compared. -/
def memberDecl (name : Txt) (expects : Bool) (attrs specs : Nat) : P Nat := do
  let nxt ← next
  let t ← cur
  if nxt.type = .Paren_Open ∧ name.len ≠ 0 ∧ t.type = .Identifier then
    let a ← textAt name.start
    if ← sameLen a (← textFrom t) name.len.toNat then constructor specs
    else opFnOrVar expects attrs specs
  else opFnOrVar expects attrs specs

/-- parser.cpp 973-1087: a member with attributes or specifiers in front. -/
def memberSpecified (name : Txt) (attrs : Nat) : P Nat := do
  let found ← specifiersLoop (orConst memberSpecs) []
  let specs ← specsOf found
  let attrs ← attributesAgain attrs
  let t ← cur
  let tilde ← if t.type = .Operator then do pure ((← chr t 0) = 126 : Bool) else pure false
  if tilde then destructor specs
  else if t.type = .Decl_Operator then operatorCast specs
  else memberDecl name (found.contains .Consteval) attrs specs

/-- parser.cpp 1091-1100: something unknown, up to the closing brace. -/
def unknownMember : P Nat := do
  let t ← cur
  let text ← loop (fun (x : Txt) => do
    if ← leftAnd (·.type ≠ .BraceCurly_Close) then
      let u ← cur
      eat u.type
      return (true, span t.start u)
    else return (false, x)) (.of t)
  untyped text

/-- parser.cpp 824-1101: one member of a class or struct, by its first token. -/
def classMember (r : Rec) (name : Txt) (ty : TokType) : P Nat :=
  match ty with
  | .NewLine => constant .NewLine Env.fmtNewline
  | .Comment => comment
  | .Access_Public => accessLabel .Access_Public Env.accessPublic
  | .Access_Protected => accessLabel .Access_Protected Env.accessProtected
  | .Access_Private => accessLabel .Access_Private Env.accessPrivate
  | .Decl_Class => r.complicated .Decl_Class
  | .Decl_Enum => r.complicated .Decl_Enum
  | .Decl_Friend => friend
  | .Decl_Operator => operatorCast 0
  | .Decl_Struct => r.complicated .Decl_Struct
  | .Decl_Template => r.template
  | .Decl_Typedef => r.typedef
  | .Decl_Union => r.complicated .Decl_Union
  | .Decl_Using => parseUsing
  | .Operator => destructor 0
  | .Preprocess_Include => parseInclude
  | .StaticAssert => staticAssert
  | .Preprocess_Macro_Expr => do
    if has (← cur) Lex.fAttribute then memberSpecified name (← attributes) else fail
  | ty =>
    match directive ty with
    | some p => p
    | none =>
      if attributeToks.contains ty then do memberSpecified name (← attributes)
      else if memberSpecToks.contains ty then memberSpecified name 0
      else if declToks.contains ty then memberDecl name false 0 0
      else unknownMember

/-- parser.cpp 796-1135 `parse_class_struct_body`. -/
def classBody (r : Rec) (which : TokType) (name : Txt) : P Nat := inScope b!"parse_class_struct_body" do
  eat .BraceCurly_Open
  let b ← make { type := if which = .Decl_Class then .Class_Body else .Struct_Body }
  members do
    hash
    let t ← curN
    if t.type = .Statement_End then eat .Statement_End
    else bodyAdd b (← classMember r name t.type)
  eat .BraceCurly_Close
  return b

/-- tok_to_access_specifier: the numbers of AccessSpec (types.hpp): private, protected, public. -/
def accessOf : TokType → Nat
  | .Access_Private => 1
  | .Access_Protected => 2
  | .Access_Public => 3
  | _ => 0

/-- parser.cpp 738-757: the parent of a class, the access to it, and the interfaces. The array of interfaces has room for four; a fifth makes
it grow by an arena that is gone. -/
def parents : P (Nat × Nat × List Nat) := do
  if ← check .Assign_Classifer then
    eat .Assign_Classifer
    let access ← do
      let t ← cur
      if has t Lex.fAccessSpecifier then
        eatAny
        pure (accessOf t.type)
      else pure 0
    let name ← bytes (← identText)
    let parent ← code fun c h => defType c h name {}
    let is ← loop (fun (is : List Nat) => do
      if ← check .Comma then
        eat .Comma
        if has (← cur) Lex.fAccessSpecifier then eatAny
        let name ← bytes (← identText)
        let i ← code fun c h => defType c h name {}
        if is.length ≥ 4 then ub else return (true, is ++ [i])
      else return (false, is)) []
    return (parent, access, is)
  else return (0, 0, [])

/-- parser.cpp 674-793 `parse_class_struct`. -/
def classStruct (r : Rec) (which : TokType) (inplace : Bool) : P Nat := do
  let mflags ← exportFlag
  eat which
  let attrs ← attributes
  let name ← if ← check .Identifier then identText else pure ⟨0, 0⟩
  let specs ← do
    if ← check .Spec_Final then
      let s ← code fun c h => defSpecifier c h .Final
      eat .Spec_Final
      pure s
    else pure 0
  let (parent, access, is) ← parents
  let body ← if ← check .BraceCurly_Open then classBody r which name else pure 0
  let cmt ← if inplace then pure 0 else endStmt
  let text ← bytes name
  let p : OptsStruct := {
    body := body, parent := parent, parentAccess := access, attributes := attrs, interfaces := is, specifiers := specs, mflags := mflags }
  let c ← if which = .Decl_Class then code fun c h => defClass (h.next + 1) c h text p
    else code fun c h => defStruct (h.next + 1) c h text p
  if cmt ≠ 0 then change fun h => h.upd c fun n => { n with inlineCmt := cmt }
  return c

/-- parser.cpp 3488-3495 `parser_parse_class`. -/
def parseClass (r : Rec) (inplace : Bool) : P Nat := inScope b!"parser_parse_class" (classStruct r .Decl_Class inplace)

/-- parser.cpp 4471-4478 `parser_parse_struct`. -/
def parseStruct (r : Rec) (inplace : Bool) : P Nat := inScope b!"parser_parse_struct" (classStruct r .Decl_Struct inplace)

/-- parser.cpp 5392-5461: a member of a union. -/
def unionMember (r : Rec) (ty : TokType) : P Nat :=
  match ty with
  | .NewLine => constant .NewLine Env.fmtNewline
  | .Comment => comment
  | .Decl_Class => r.complicated .Decl_Class
  | .Decl_Enum => r.complicated .Decl_Enum
  | .Decl_Struct => r.complicated .Decl_Struct
  | .Decl_Union => r.complicated .Decl_Union
  | ty =>
    match directive ty with
    | some p => p
    | none => parseVariable

/-- parser.cpp 5381-5470: the body of a union; the loop does not look at `left`. -/
def unionBody (r : Rec) : P Nat := do
  eat .BraceCurly_Open
  let b ← make { type := .Union_Body }
  let _ ← loop (fun (_ : Unit) => do
    if ← checkN .BraceCurly_Close then return (false, ())
    else
      hash
      bodyAdd b (← unionMember r (← curN).type)
      return (true, ())) ()
  eat .BraceCurly_Close
  return b

/-- parser.cpp 5348-5490 `parser_parse_union`. -/
def parseUnion (r : Rec) (inplace : Bool) : P Nat := inScope b!"parser_parse_union" do
  let mflags ← exportFlag
  eat .Decl_Union
  let attrs ← attributes
  let name ← do
    if ← check .Identifier then
      let b ← bytes (.of (← cur))
      eat .Identifier
      pure b
    else pure []
  let bare ← if inplace then check .Identifier else pure false
  let body ← if bare then pure 0 else unionBody r
  if !inplace then eat .Statement_End
  make { type := if body = 0 then .Union_Fwd else .Union, name := name, moduleFlags := mflags, body := body, attributes := attrs }

/-- parser.cpp 1375-1406 `parse_forward_or_definition`. -/
def forwardOrDef (r : Rec) (which : TokType) (inplace : Bool) : P Nat :=
  match which with
  | .Decl_Class => parseClass r inplace
  | .Decl_Enum => parseEnum inplace
  | .Decl_Struct => parseStruct r inplace
  | .Decl_Union => parseUnion r inplace
  | _ => fail

/-- parser.cpp 1166-1181, 5188-5198: the index of the semicolon outside braces, or the number of tokens (no less than the start). A level that
is negative is not 0. -/
def statementEnd (cells : List Tok) (num : Nat) : Nat → Nat → Int → Res Nat
  | 0, _, _ => .hang
  | fuel + 1, i, level =>
    if i < num then
      (Res.ofOption cells[i]?).bind fun t =>
      let level := if t.type = .BraceCurly_Open then level + 1 else if t.type = .BraceCurly_Close then level - 1 else level
      if level = 0 ∧ t.type = .Statement_End then .ok i else statementEnd cells num fuel (i + 1) level
    else .ok i

def endAhead : P Nat := do
  let e ← env
  let s ← get
  res (statementEnd e.cells e.num (e.cells.length + 1) s.idx 0)

/-- `tokens.Arr[ i - k ]`. -/
def tokBefore (i k : Nat) : P Tok := if i < k then ub else tokAt (i - k)

/-- especifier.hpp 77-92 `spec_is_trailing`. -/
def isTrailing : Specifier → Bool
  | .Const | .Final | .NoExceptions | .Override | .Pure | .Delete | .Volatile => true
  | _ => false

/-- `tok_is_specifier(tok) && spec_is_trailing( str_to_specifier( tok.Text ) )`. -/
def trailing (t : Tok) : P Bool := do
  if has t Lex.fSpecifier then return isTrailing (strToSpecifier (← bytes (.of t))) else return false

/-- parser.cpp 1210-1218: back over the trailing specifiers. -/
def beforeTrailing : Nat → P Tok
  | 0 => do
    let t ← tokAt 0
    if ← trailing t then ub else return t
  | i + 1 => do
    let t ← tokAt (i + 1)
    if ← trailing t then beforeTrailing i else return t

/-- parser.cpp 1257-1259: `enum A : B` or `enum class A : B` ends at `i`. The tokens are read as far as they are needed. -/
def enumAhead (which : TokType) (i : Nat) : P Bool := do
  if (← tokBefore i 5).type = which then
    if (← tokBefore i 4).type = .Decl_Class then return true else return (← tokBefore i 4).type = which
  else return (← tokBefore i 4).type = which

/-- parser.cpp 1297-1298: the other one. -/
def notEnumAhead (which : TokType) (i : Nat) : P Bool := do
  if (← tokBefore i 5).type ≠ which then
    if (← tokBefore i 4).type ≠ .Decl_Class then return (← tokBefore i 4).type ≠ which else return false
  else return false

/-- `<which> <name ?> { … } <identifier>;`. -/
def inplaceVar (r : Rec) (which : TokType) : P Nat := do
  let ty ← forwardOrDef r which true
  let name ← identText
  variableAfterName 0 0 0 ty (← bytes name)

/-- parser.cpp 1231-1291: an identifier stands in front of the semicolon. -/
def complicatedIdent (r : Rec) (which : TokType) (i : Nat) : P Nat := do
  let t ← tokBefore i 2
  if t.type = .BraceCurly_Close then inplaceVar r which
  else
    let named ← if t.type = .Identifier then do pure ((← tokBefore i 3).type = which : Bool) else pure false
    if named then opFnOrVar false 0 0
    else
      let isEnum ← if t.type = .Assign_Classifer then enumAhead which i else pure false
      if isEnum then parseEnum false
      else if t.type = .Ampersand ∨ t.type = .Star then opFnOrVar false 0 0
      else fail

/-- parser.cpp 1154-1333 `parse_complicated_definition`. `had_paren` is never set, so the first branch is not there. -/
def complicatedWith (r : Rec) (which : TokType) : P Nat := inScope b!"parse_complicated_definition" do
  let i ← endAhead
  let s ← get
  if i = s.idx + 2 then forwardOrDef r which false
  else
    let t ← tokBefore i 1
    if ← trailing t then
      if (← beforeTrailing (i - 1)).type = .Paren_Close then opFnOrVar false 0 0 else fail
    else if t.type = .Identifier then complicatedIdent r which i
    else if nativeType t.type then
      if (← tokBefore i 2).type ≠ .Assign_Classifer then fail
      else if ← notEnumAhead which i then fail
      else parseEnum false
    else if t.type = .BraceCurly_Close then forwardOrDef r which false
    else if t.type = .BraceSquare_Close then opFnOrVar false 0 0
    else fail

/-- parser.cpp 1939-1961: the inner loop, over template arguments; the index and the token it stops at. -/
def skipTemplate (mem : Bytes) (cells : List Tok) (num : Nat) : Nat → Nat → Tok → Int → Res (Nat × Tok)
  | 0, _, _, _ => .hang
  | fuel + 1, i, nav, level =>
    if i < num then
      (Res.ofOption mem[nav.start]?).bind fun b =>
      (if nav.type = .Operator then Res.ofOption mem[nav.start + 1]? else .ok 0).bind fun b1 =>
      let level := if b = 60 then level + 1 else level
      let level := if b = 62 then level - 1 else level
      let level := if nav.type = .Operator ∧ b1 = 62 then level - 1 else level
      if nav.type = .Paren_Open ∧ level = 0 then .ok (i, nav)
      else (Res.ofOption cells[i + 1]?).bind fun nav => skipTemplate mem cells num fuel (i + 1) nav level
    else .ok (i, nav)

/-- parser.cpp 1929-1966: the index of the opening parenthesis of the parameters, or where the search stops. -/
def parenAhead (mem : Bytes) (cells : List Tok) (num : Nat) : Nat → Nat → Tok → Res Nat
  | 0, _, _ => .hang
  | fuel + 1, i, nav =>
    if i < num then
      (Res.ofOption mem[nav.start]?).bind fun b =>
      (if b = 60 then skipTemplate mem cells num (num + 1) i nav 0 else .ok (i, nav)).bind fun r =>
      if r.2.type = .Paren_Open then .ok r.1
      else (Res.ofOption cells[r.1 + 1]?).bind fun nav => parenAhead mem cells num fuel (r.1 + 1) nav
    else .ok i

/-- parser.cpp 2001-2015: the levels of parentheses and angle brackets, in front of the token `t`. -/
def levelsBefore (mem : Bytes) (t : Tok) (capture level : Int) : Res (Int × Int) :=
  (Res.ofOption mem[t.start]?).bind fun b =>
  (if t.type = .Operator then Res.ofOption mem[t.start + 1]? else .ok 0).bind fun b1 =>
  let level := if b = 60 then level + 1 else level
  let level := if b = 62 then level - 1 else level
  let level := if t.type = .Operator ∧ b1 = 62 then level - 1 else level
  let capture := if level ≠ 0 ∧ t.type = .Paren_Open then capture + 1 else capture
  let capture := if level ≠ 0 ∧ t.type = .Paren_Close then capture - 1 else capture
  .ok (capture, level)

/-- parser.cpp 1999-2021: back to the identifier on the left of `::`, over template arguments. -/
def identBefore (mem : Bytes) (cells : List Tok) (start : Nat) : Nat → Int → Int → Res Tok
  | 0, capture, level =>
    (Res.ofOption cells[0]?).bind fun t =>
    if 0 = start then .ok t else
    (levelsBefore mem t capture level).bind fun l =>
    if l.1 = 0 ∧ l.2 = 0 ∧ t.type = .Identifier then .ok t else .ub
  | i + 1, capture, level =>
    (Res.ofOption cells[i + 1]?).bind fun t =>
    if i + 1 = start then .ok t else
    (levelsBefore mem t capture level).bind fun l =>
    if l.1 = 0 ∧ l.2 = 0 ∧ t.type = .Identifier then .ok t else identBefore mem cells start i l.1 l.2

/-- parser.cpp 1910-2036 `parse_global_nspace_constructor_destructor`; 0 if it is none. -/
def ctorDtor (specs : Nat) : P Nat := do
  let e ← env
  let s ← get
  let nav ← tokAt s.idx
  let i ← res (parenAhead e.mem e.cells e.num (e.num + 1) s.idx nav)
  let right ← tokBefore i 1
  if right.type ≠ .Identifier then return 0 else
  let l ← tokBefore i 2
  let dtor ← if l.type = .Operator then do pure ((← chr l 0) = 126 : Bool) else pure false
  let i := if dtor then i - 1 else i
  if (← tokBefore i 2).type ≠ .Access_StaticSymbol then return 0 else
  let _ ← tokBefore i 3
  let l ← res (identBefore e.mem e.cells s.idx (i - 3) 0 0)
  let same ← sameLen (← textFrom right) (← textFrom l) right.len
  if l.type = .Identifier ∧ same then
    if dtor then destructor specs else constructor specs
  else return 0

/-- parser.cpp 1847-1887: a constructor, destructor or cast operator defined outside its class, or an operator, function or variable. -/
def nspaceDecl (expects : Bool) (attrs specs : Nat) : P Nat := do
  let m ← ctorDtor specs
  if m ≠ 0 then return m
  else if ← operatorComes then operatorCast specs
  else opFnOrVar expects attrs specs

/-- parser.cpp 1791-1887: a member with attributes or specifiers in front. -/
def nspaceSpecified (attrs : Nat) : P Nat := do
  let found ← specifiersLoop (orConst nspaceSpecs) []
  let specs ← specsOf found
  nspaceDecl (found.contains .Consteval) attrs specs

/-- parser.cpp 4048-4082 `parser_parse_extern_link`. -/
def externLink (r : Rec) : P Nat := inScope b!"parser_parse_extern_link" do
  eat .Decl_Extern_Linkage
  let t ← cur
  eat .String
  let name ← bytes ⟨t.start + 1, t.len - 1⟩
  let x ← make { type := .Extern_Linkage, name := name }
  let body ← inScope b!"parser_parse_extern_link_body" (r.nspace .Extern_Linkage_Body)
  change fun h => h.upd x fun n => { n with body := body }
  return x

/-- parser.cpp 4270-4297 `parser_parse_namespace`. -/
def parseNamespace (r : Rec) : P Nat := inScope b!"parser_parse_namespace" do
  eat .Decl_Namespace
  let name ← identText
  let body ← r.nspace .Namespace_Body
  let name ← bytes name
  make { type := .Namespace, name := name, body := body }

/-- parser.cpp 4031-4038 `parser_parse_export_body`. -/
def exportBody (r : Rec) : P Nat := inScope b!"parser_parse_export_body" (r.nspace .Export_Body)

/-- parser.cpp 1625-1887: one member of a namespace or file, by its first token. -/
def nspaceMember (r : Rec) (which : CodeType) (ty : TokType) : P Nat :=
  match ty with
  | .NewLine => constant .NewLine Env.fmtNewline
  | .Comment => comment
  | .Decl_Class => r.complicated .Decl_Class
  | .Decl_Enum => r.complicated .Decl_Enum
  | .Decl_Extern_Linkage => if which = .Extern_Linkage_Body then fail else externLink r
  | .Decl_Namespace => parseNamespace r
  | .Decl_Struct => r.complicated .Decl_Struct
  | .Decl_Template => r.template
  | .Decl_Typedef => r.typedef
  | .Decl_Union => r.complicated .Decl_Union
  | .Decl_Using => parseUsing
  | .Preprocess_Include => parseInclude
  | .StaticAssert => staticAssert
  | .Module_Export => if which = .Export_Body then fail else exportBody r
  | .Preprocess_Macro_Expr => do
    if has (← cur) Lex.fAttribute then fail else nspaceSpecified (← attributes)
  | ty =>
    match directive ty with
    | some p => p
    | none =>
      if attributeToks.contains ty then do nspaceSpecified (← attributes)
      else if nspaceSpecToks.contains ty then nspaceSpecified 0
      else if declToks.contains ty then nspaceDecl false 0 0
      else fail

/-- parser.cpp 1594-1908 `parse_global_nspace`. -/
def nspaceWith (r : Rec) (which : CodeType) : P Nat := inScope b!"parse_global_nspace" do
  if which ≠ .Global_Body then eat .BraceCurly_Open
  let b ← make { type := which }
  members do
    hash
    let t ← curN
    if t.type = .Statement_End then eat .Statement_End
    else bodyAdd b (← nspaceMember r which t.type)
  if which ≠ .Global_Body then eat .BraceCurly_Close
  return b

/-- parser.cpp 4535-4635: a templated function or variable. -/
def templateOther : P Nat := do
  let attrs ← attributes
  let found ← specifiersLoop (orConst templateSpecs) []
  let specs ← specsOf found
  let expects := found.contains .Consteval
  if ← calledFrom b!"parse_global_nspace" then nspaceDecl expects attrs specs else opFnOrVar expects attrs specs

/-- parser.cpp 4503-4636: what is templated; 0 if the tokens have run out. -/
def templateBody (r : Rec) : P Nat := do
  if !(← left) then return 0
  else if ← check .Decl_Class then parseClass r false
  else if ← check .Decl_Struct then parseStruct r false
  else if ← check .Decl_Union then parseUnion r false
  else if ← check .Decl_Using then parseUsing
  else templateOther

/-- parser.cpp 4481-4651 `parser_parse_template`. -/
def templateWith (r : Rec) : P Nat := inScope b!"parser_parse_template" do
  let mflags ← exportFlag
  eat .Decl_Template
  let ps ← params true
  let d ← templateBody r
  make { type := .Template, params := ps, body := d, moduleFlags := mflags }

/-- parser.cpp 5186-5270: a typedef of a class, enum, struct or union. -/
def typedefComplicated (r : Rec) (which : TokType) : P Nat := do
  let i ← endAhead
  let s ← get
  if i = s.idx + 3 then forwardOrDef r which true
  else
    let t ← tokBefore i 1
    if t.type = .Identifier then
      let u ← tokBefore i 2
      let w ← tokBefore i 3
      if u.type = .BraceCurly_Close ∨ (u.type = .Identifier ∧ w.type = which) ∨ u.type = .Ampersand ∨ u.type = .Star then
        forwardOrDef r which true
      else fail
    else if t.type = .BraceCurly_Close then forwardOrDef r (← cur).type true
    else if t.type = .BraceSquare_Close then type
    else fail

/-- parser.cpp 5156-5170: a typedef of a macro: the type and the text of the name. The length of the name is that of the macro's content. -/
def typedefMacro : P (Nat × Txt) := do
  let e ← env
  let t ← cur
  let m ← simplePreprocess t.type
  let u ← cur
  if u.type = .Identifier then
    eat .Identifier
    return (m, .of u)
  else return (e.tEmpty, ⟨t.start, (← node m).content.length⟩)

/-- parser.cpp 5172-5289: another typedef: the type, the text of the name, whether it is a function type, and the array. -/
def typedefOther (r : Rec) : P (Nat × Txt × Bool × Nat) := do
  let t ← cur
  let (ty, fn) ← if tagOf t.type ≠ 0 then do pure (← typedefComplicated r t.type, false) else typedefType false
  let name ← do
    if ← check .Identifier then
      let u ← cur
      eat .Identifier
      pure (Txt.of u)
    else if fn then pure ⟨0, 0⟩ else fail
  return (ty, name, fn, ← arrayDecl)

/-- parser.cpp 5123-5345 `parser_parse_typedef`. -/
def typedefWith (r : Rec) : P Nat := inScope b!"parser_parse_typedef" do
  let mflags ← exportFlag
  eat .Decl_Typedef
  let mac ← leftAnd fun t => t.type = .Preprocess_Macro_Typename ∨ t.type = .Preprocess_Macro_Stmt
  let (ty, name, fn, arr) ← if mac then do
      let m ← typedefMacro
      pure (m.1, m.2, false, 0)
    else typedefOther r
  let cmt ← endStmt
  let text ← if fn then do pure (← node ty).name else bytes name
  let x ← make { type := .Typedef, moduleFlags := mflags, name := text, num := if fn then 1 else 0, typ := ty }
  change fun h => h.upd ty fun n => { n with parent := x }
  if (← node ty).type = .Typename ∧ arr ≠ 0 then change fun h => h.upd ty fun n => { n with body := arr }
  if cmt ≠ 0 then change fun h => h.upd x fun n => { n with inlineCmt := cmt }
  return x

/-- The functions, with fuel. -/
def recN : Nat → Rec
  | 0 => { complicated := fun _ => hang, template := hang, typedef := hang, nspace := fun _ => hang }
  | fuel + 1 => {
      complicated := complicatedWith (recN fuel), template := templateWith (recN fuel), typedef := typedefWith (recN fuel),
      nspace := nspaceWith (recN fuel) }

/-- A call of one of the functions, with enough fuel. -/
def withRec {α : Type} (f : Rec → P α) : P α := fun e s => f (recN (e.cells.length + 2)) e s

end Verif.Parse
