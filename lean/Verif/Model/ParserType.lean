import Verif.Model.Parser
/-!
# The parser: type signatures and parameters

Models base/components/parser.cpp 4584-5120 (`parser_parse_type`) and 2724-3000 (`parse_params`), which call one another. The build without
`GEN_USE_NEW_TYPENAME_PARSING` is modelled. `context_tok` in `parser_parse_type` is not used, and its reading is not modelled.
-/
namespace Verif.Parse
open Verif.Lex (Tok)
open Verif.Ast
open P

/-- `type >= Tok_Type_Unsigned && type <= Tok_Type_MS_W64`. -/
def nativeType : TokType → Bool
  | .Type_Unsigned | .Type_Signed | .Type_Short | .Type_Long | .Type_bool | .Type_char | .Type_int | .Type_double | .Type_MS_int8
  | .Type_MS_int16 | .Type_MS_int32 | .Type_MS_int64 | .Type_MS_W64 => true
  | _ => false

/-- The tags of ETypenameTag (types.hpp). -/
def tagOf : TokType → Nat
  | .Decl_Class => 1
  | .Decl_Enum => 2
  | .Decl_Struct => 3
  | .Decl_Union => 4
  | _ => 0

/-- parser.cpp 4686-4700: only `const` may stand in front of a type. -/
def typePrefix : Specifier → Option (Option Bool)
  | .Const => some (some true)
  | _ => none

/-- parser_case_macros.cpp 105-110 `GEN_PARSER_TYPENAME_ALLOWED_SUFFIX_SPECIFIER_CASES`. -/
def typeSuffix : Specifier → Option (Option Bool)
  | .Const | .Ptr | .Restrict | .Ref | .RValue => some (some true)
  | _ => none

/-- parser.cpp 4999-5017: the specifiers behind the parameters of a function type. -/
def typeFuncSuffix : Specifier → Option (Option Bool)
  | .Const | .RValue => some (some true)
  | _ => none

/-- `name = parse_identifier(nullptr); … if ( ! tok_is_valid(name) ) log_failure( … )`. -/
def validIdentifier : P Bytes := do
  let r ← identifier
  if valid r.1 r.2 then bytes r.1 else fail

/-- parser.cpp 4770-4784: consecutive keywords of built-in types. -/
def nativeName : P Bytes := do
  let t ← cur
  eat t.type
  let _ ← loop (fun (_ : Unit) => do
    if ← leftAnd (fun t => nativeType t.type) then
      eatAny
      return (true, ())
    else return (false, ())) ()
  bytes (← upToPrev t.start)

/-- parser.cpp 4702-4824: the name of the type and its tag. -/
def typeName (fromTemplate : Bool) : P (Bytes × Nat) := do
  let t ← cur
  if fromTemplate ∧ t.type = .Decl_Class then
    eat .Decl_Class
    return (← bytes (.of t), 0)
  else if tagOf t.type ≠ 0 then
    eat t.type
    return (← bytes (← identText), tagOf t.type)
  else if nativeType t.type then return (← nativeName, 0)
  else if t.type = .Type_Typename then
    eat .Type_Typename
    if fromTemplate then return (← bytes (.of t), 0) else return (← validIdentifier, 0)
  else if t.type = .Preprocess_Macro_Typename then
    let m ← simplePreprocess .Preprocess_Macro_Typename
    return ((← node m).content, 0)
  else return (← validIdentifier, 0)

/-- parser.cpp 4859-4869: the scanner goes to the end of the statement and back to the last opening parenthesis: its index, given the cells
and the index the scanner starts at. -/
def lastCapture (cells : List Tok) (first : Nat) : Res Nat :=
  match (cells.drop first).findIdx? (fun t => t.type = .Statement_End ∨ t.type = .BraceCurly_Open) with
  | none => .ub
  | some n =>
    match (((cells.drop first).take (n + 1)).reverse).findIdx? (fun t => t.type = .Paren_Open) with
    | none => .ub
    | some k => .ok (first + n - k)

/-- parser.cpp 4846-4898: whether the type is that of a function, and the index of its last opening parenthesis. In a cast operator it never
is. -/
def functionType (typedefIsFunction : Bool) : P (Option Nat) := do
  let e ← env
  let s ← get
  let t ← tokAt s.idx
  let first ← if typedefIsFunction ∧ t.type = .Identifier then pure (s.idx + 1) else pure s.idx
  if (← tokAt first).type ≠ .Paren_Open then return none else
  let last ← res (lastCapture e.cells first)
  match s.scope with
  | _ :: c :: _ => return if c = b!"parser_parse_operator_cast" then none else some last
  | _ => return some last

/-- parser.cpp 4922-4993: the name of the function type. -/
def functionTypeName (last : Nat) : P Bytes := do
  if !(← check .Paren_Open) then bytes (← identText)
  else
    let s ← get
    if s.idx ≠ last then
      let t ← cur
      eat .Paren_Open
      skipGroup .Paren_Open .Paren_Close
      eat .Paren_Close
      bytes (← upToPrev t.start)
    else return []

/-- parser.cpp 4901-5030: a function type; its name, return type, parameters and specifiers. -/
def functionTypeRest (params : P Nat) (last : Nat) (name : Bytes) (found : List Specifier) : P (Bytes × Nat × Nat × List Specifier) := do
  let ret ← make { type := .Typename, name := name }
  let specs ← specsOf found
  change fun h => h.upd ret fun n => { n with specs := specs }
  let name ← functionTypeName last
  let ps ← params
  let found ← specifiersLoop typeFuncSuffix []
  return (name, ret, ps, found)

/-- parser.cpp 4665-5120 `parser_parse_type( from_template, typedef_is_function )`; `typedefIsFunction` says that the pointer is not null. The
second result is whether `* typedef_is_function` was set. -/
def typeWith (params : Bool → P Nat) (fromTemplate typedefIsFunction : Bool) : P (Nat × Bool) := inScope b!"parser_parse_type" do
  let attrs ← attributes
  let found ← specifiersLoop typePrefix []
  if !(← left) then fail else
  let (name, tag) ← typeName fromTemplate
  let found ← specifiersLoop typeSuffix found
  let (name, ret, ps, found) ← do
    match ← functionType typedefIsFunction with
    | some last => functionTypeRest (params false) last name found
    | none => pure (name, 0, 0, found)
  let pack ← check .Varadic_Argument
  if pack then eat .Varadic_Argument
  let r ← make { type := .Typename }
  let text ← stripped name
  let specs ← specsOf found
  change fun h => h.upd r fun n =>
    { n with name := text, attributes := attrs, specs := specs, isParamPack := pack, typ := ret, params := ps, typeTag := tag }
  return (r, ret ≠ 0)

/-- parser.cpp 2767-2768 `CheckEndParams()`: the parameters do not end here. -/
def notEndParams (tmpl : Bool) (t : Tok) : P Bool := do
  if tmpl then return (← chr t 0) ≠ 62 else return t.type ≠ .Paren_Close

/-- parser.cpp 2827, 2937: `left && currtok.Type != Tok_Comma && template_level >= 0 && CheckEndParams()`. -/
def valueHere (tmpl : Bool) (tl : Int) : P Bool := do
  if ← leftAnd (·.type ≠ .Comma) then
    if tl ≥ 0 then notEndParams tmpl (← cur) else return false
  else return false

/-- parser.cpp 2827, 2937: the condition of the loop over a default value, with the levels of parentheses and angle brackets. -/
def valueGoesOn (tmpl : Bool) (lv : Int × Int) : P Bool := do
  let go ← valueHere tmpl lv.2
  return go ∨ lv.1 > 0 ∨ lv.2 > 0

/-- parser.cpp 2809-2850, 2919-2960: the default value of a parameter, 0 if there is none. -/
def paramValue (tmpl : Bool) : P Nat := do
  if !(has (← cur) Lex.fAssign) then return 0 else
  eat .Operator
  let v ← cur
  if v.type = .Comma then fail else
  let r ← loop (fun (x : (Int × Int) × Txt) => do
    if ← valueGoesOn tmpl x.1 then
      let t ← cur
      let b ← chr t 0
      let b1 ← if t.type = .Operator then chr t 1 else pure 0
      let tl := if b = 60 then x.1.2 + 1 else x.1.2
      let tl := if b = 62 then tl - 1 else tl
      let tl := if t.type = .Operator ∧ b1 = 62 then tl - 1 else tl
      let cl := if t.type = .Paren_Open then x.1.1 + 1 else x.1.1
      let cl := if t.type = .Paren_Close then cl - 1 else cl
      eat t.type
      return (true, ((cl, tl), span v.start t))
    else return (false, x)) ((0, 0), .of v)
  let text ← stripped (← bytes r.2)
  code fun c h => untypedStr c h text

/-- parser.cpp 2790-2795, 2900-2906: the name of a parameter. -/
def paramName : P Bytes := do
  if (← check .Identifier) ∨ has (← cur) Lex.fIdentifier then
    let t ← cur
    eat t.type
    bytes (.of t)
  else return []

/-- `if ( check( Tok_Preprocess_Macro_Expr )) m = parse_simple_preprocess( Tok_Preprocess_Macro_Expr );`. -/
def macroExpr (m : Nat) : P Nat := do
  if ← check .Preprocess_Macro_Expr then simplePreprocess .Preprocess_Macro_Expr else return m

/-- The variables of `parse_params` that outlive a parameter. -/
structure ParamVars where
  type : Nat := 0
  value : Nat := 0
  name : Bytes := []
  mac : Nat := 0
  post : Nat := 0

/-- parser.cpp 2775-2850, 2886-2961: one parameter. Without a type the name stays what it was. -/
def oneParam (type : Bool → P Nat) (tmpl : Bool) (v : ParamVars) : P ParamVars := do
  let m ← macroExpr v.mac
  if (← cur).type = .Comma then return { v with type := 0, value := 0, mac := m }
  else
    let ty ← type tmpl
    let name ← paramName
    let post ← macroExpr v.post
    let value ← paramValue tmpl
    return { type := ty, value := value, name := name, mac := m, post := post }

/-- parser.cpp 2870-2980: the parameters behind the first. -/
def moreParams (type : Bool → P Nat) (tmpl : Bool) (r : Nat) (v : ParamVars) : P Unit := do
  let _ ← loop (fun (v : ParamVars) => do
    if ← check .Comma then
      eat .Comma
      if ← check .Varadic_Argument then
        eat .Varadic_Argument
        let e ← env
        change fun h => paramsAppend h r e.paramVaradic
        return (true, v)
      else
        let v ← oneParam type tmpl v
        let p ← make { type := .Parameters, params := v.mac, name := v.name, suffix := v.post, typ := v.type, body := v.value }
        change fun h => paramsAppend h r p
        return (true, v)
    else return (false, v)) v
  return ()

/-- `check( Tok_Operator ) && currtok.Text.Ptr[ 0 ] == c`. -/
def checkOp (c : UInt8) : P Bool := do
  if ← check .Operator then return (← chr (← cur) 0) = c else return false

/-- parser.cpp 2724-3000 `parse_params( use_template_capture )`. The first parameter's macro behind the name is dropped, and a `...` that
comes first is returned without the closing bracket being looked for. -/
def paramsWith (type : Bool → P Nat) (tmpl : Bool) : P Nat := inScope b!"parse_params" do
  if !tmpl then eat .Paren_Open
  else if ← checkOp 60 then eat .Operator
  let close ← if tmpl then pure false else check .Paren_Close
  if close then
    eat .Paren_Close
    return 0
  else if ← checkOp 62 then
    eat .Operator
    return 0
  else if ← check .Varadic_Argument then
    eat .Varadic_Argument
    return (← env).paramVaradic
  else
    let v ← oneParam type tmpl {}
    let r ← make { type := .Parameters, params := v.mac, name := v.name, typ := v.type, body := v.value, num := 1 }
    moreParams type tmpl r v
    if !tmpl then eat .Paren_Close
    else if ← checkOp 62 then eat .Operator else fail
    return r

/-- `parse_params` and `parser_parse_type` call one another at most once for every opening bracket. -/
def paramsN : Nat → Bool → P Nat
  | 0, _ => hang
  | fuel + 1, tmpl => paramsWith (fun t => do return (← typeWith (paramsN fuel) t false).1) tmpl

def params (tmpl : Bool) : P Nat := fun e s => paramsN (e.cells.length + 2) tmpl e s

/-- `parser_parse_type( from_template, typedef_is_function )`. -/
def typedefType (fromTemplate : Bool) : P (Nat × Bool) := typeWith params fromTemplate true

/-- `parser_parse_type( from_template, nullptr )`. -/
def type (fromTemplate : Bool := false) : P Nat := do return (← typeWith params fromTemplate false).1

end Verif.Parse
