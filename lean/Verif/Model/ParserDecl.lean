import Verif.Model.ParserType
import Verif.Model.Keywords
import Verif.Model.Serialize
/-!
# The parser: variables, functions, operators, constructors, enums and other declarations without members

Models base/components/parser.cpp, the functions cited at each definition.
-/
namespace Verif.Parse
open Verif.Lex (Tok)
open Verif.Ast
open P

/-- `Scope->Prev` is there and is the scope of `proc`. -/
def calledFrom (proc : Bytes) : P Bool := do
  match (← get).scope with
  | _ :: c :: _ => return c = proc
  | _ => return false

/-- `if ( specifiers ) specifiers_append( specifiers, spec ); else specifiers = def_specifier( spec );`. -/
def addSpec (specs : Nat) (spec : Specifier) : P Nat := do
  if specs = 0 then code fun c h => defSpecifier c h spec
  else
    let e ← env
    change fun h => (specifiersAppend e.cfg.fatal h specs spec).bind fun r => .ok r.2
    return specs

/-- parser.cpp 3446-3449: `const` behind a comma reads the specifiers found so far, which may be null. -/
def commaConst (specs : Nat) : P Unit := do
  let n ← node specs
  if n.num ≠ 0 then
    if n.num < 0 then ub else
    match n.arrSpecs[n.num.toNat - 1]? with
    | none => ub
    | some s => if s ≠ .Ptr then fail else return ()
  else return ()

/-- parser.cpp 3418-3455: the specifiers behind a comma. -/
def commaSpecs : P Nat :=
  loop (fun (specs : Nat) => do
    if ← leftAnd (has · Lex.fSpecifier) then
      let t ← cur
      match strToSpecifier (← bytes (.of t)) with
      | .Const =>
        commaConst specs
        let specs ← addSpec specs .Const
        eatAny
        return (true, specs)
      | .Ptr | .Ref | .RValue =>
        let specs ← addSpec specs (strToSpecifier (← bytes (.of t)))
        eatAny
        return (true, specs)
      | _ => fail
    else return (false, specs)) 0

/-- parser.cpp 3271-3296: the braces behind the name of a variable. -/
def braceInit (expr : Nat) : P Nat := do
  let t ← cur
  if t.type = .BraceCurly_Open then
    eat .BraceCurly_Open
    skipGroup .BraceCurly_Open .BraceCurly_Close
    eat .BraceCurly_Close
    untyped (← upToPrev t.start)
  else return expr

/-- parser.cpp 3298-3324: the parentheses behind the name of a variable. -/
def parenInit (expr : Nat) : P (Nat × Bool) := do
  if (← cur).type = .Paren_Open then
    eat .Paren_Open
    let t ← cur
    skipGroup .Paren_Open .Paren_Close
    let expr ← untyped (← upToPrev t.start)
    eat .Paren_Close
    return (expr, true)
  else return (expr, false)

/-- parser.cpp 3326-3346: the size of a bitfield. -/
def bitfield : P Nat := do
  if (← cur).type = .Assign_Classifer then
    eat .Assign_Classifer
    let t ← cur
    if t.type = .Statement_End then fail else
    skipTo .Statement_End
    untyped (← upToPrev t.start)
  else return 0

/-- parser.cpp 3253-3397 `parse_variable_after_name`; `rest` parses what follows if there is a type (the other declarations, the semicolon
and the comment). The array is set on the type, null or not. -/
def varAfterName (rest : P (Nat × Nat)) (mflags attrs specs type : Nat) (name : Bytes) : P Nat :=
  inScope b!"parse_variable_after_name" do
    let arr ← arrayDecl
    let expr ← if has (← cur) Lex.fAssign then assignment else pure 0
    let expr ← braceInit expr
    let (expr, paren) ← parenInit expr
    let bits ← bitfield
    let (next, cmt) ← rest
    let r ← make {
      type := .Variable, name := name, moduleFlags := mflags, typ := type, params := bits, attributes := attrs, specs := specs,
      body := expr, inlineCmt := cmt }
    if arr ≠ 0 then change fun h => h.upd type fun n => { n with body := arr }
    if next ≠ 0 then
      change fun h => h.upd r fun n => { n with suffix := next }
      change fun h => h.upd next fun n => { n with parent := r }
    change fun h => h.upd r fun n => { n with num := if paren then 1 else 0 }
    return r

/-- parser.cpp 3411-3482: one declaration behind a comma. Inside the list there is no type, so nothing follows. -/
def commaVar : P Nat := do
  eat .Comma
  let specs ← commaSpecs
  let name ← bytes (.of (← cur))
  eat .Identifier
  varAfterName (pure (0, 0)) 0 0 specs 0 name

/-- parser.cpp 3403-3485 `parse_variable_declaration_list`: the first of the variables. From the second one on, each is its own parent. -/
def varList : P Nat := inScope b!"parse_variable_declaration_list" do
  let r ← loop (fun (x : Nat × Nat) => do
    if ← check .Comma then
      let v ← commaVar
      if x.1 = 0 then return (true, (v, v))
      else
        change fun h => h.upd x.2 fun n => { n with suffix := v }
        change fun h => h.upd v fun n => { n with parent := v }
        return (true, (x.1, v))
    else return (false, x)) (0, 0)
  return r.1

/-- parser.cpp 3348-3375: what follows the first variable. Here alone `left` is looked at before the comment. -/
def varRest : P (Nat × Nat) := do
  let next ← if (← cur).type = .Comma then varList else pure 0
  let t ← cur
  eat .Statement_End
  let cmt ← if ← left then inlineCmt t else pure 0
  return (next, cmt)

/-- parser.cpp 3253-3397 `parse_variable_after_name` with a type. -/
def variableAfterName (mflags attrs specs type : Nat) (name : Bytes) : P Nat :=
  varAfterName (if type = 0 then pure (0, 0) else varRest) mflags attrs specs type name

/-- `strbuilder_strip_space` of a name (C15_strip_space); it ends at a NUL. -/
def stripSpaces (b : Bytes) : Bytes := (cText b).filter fun c => !charIsSpace c

/-- parser.cpp 1425-1443: the specifiers behind the parameters; a macro among them is kept as a code of its own. -/
def fnSuffix (specs : Nat) : P (Nat × Nat) :=
  loop (fun (x : Nat × Nat) => do
    if ← leftAnd (has · Lex.fSpecifier) then
      let t ← cur
      let b ← bytes (.of t)
      if (← macroOf b).isSome then return (true, (x.1, ← simplePreprocess .Preprocess_Macro_Expr))
      else
        let specs ← addSpec x.1 (strToSpecifier b)
        eatAny
        return (true, (specs, x.2))
    else return (false, x)) (specs, 0)

/-- `str_are_equal( tok.Text, txt )`. -/
def tokIs (t : Tok) (txt : Bytes) : P Bool := do return (← bytes (.of t)) = txt

/-- parser.cpp 1458-1483: `= 0` or `= delete`; the token looked at for `delete` is the one behind the current one. -/
def fnPure (specs : Nat) : P (Nat × Nat) := do
  eat .Operator
  let specs ← if specs = 0 then make { type := .Specifiers } else pure specs
  let specs ← if ← tokIs (← next) b!"delete" then do
      let s ← addSpec specs .Delete
      eatAny
      pure s
    else do
      let s ← addSpec specs .Pure
      eat .Number
      pure s
  return (specs, ← endStmt)

/-- parser.cpp 1410-1548 `parse_function_after_name`. -/
def functionAfterName (mflags attrs specs ret : Nat) (name : Bytes) : P Nat := inScope b!"parse_function_after_name" do
  let ps ← params false
  let (specs, suffix) ← fnSuffix specs
  let (body, specs, cmt) ← do
    if ← check .BraceCurly_Open then pure (← functionBody, specs, 0)
    else if ← checkOp 61 then
      let r ← fnPure specs
      pure (0, r.1, r.2)
    else pure (0, specs, ← endStmt)
  make {
    type := if body = 0 then .Function_Fwd else .Function, name := stripSpaces name, moduleFlags := mflags, body := body,
    attributes := attrs, specs := specs, suffix := suffix, typ := ret, params := ps, inlineCmt := cmt }

/-- `while ( left && currtok.Type == Tok_Identifier ) { eat( Tok_Identifier ); if ( currtok.Type == Tok_Access_StaticSymbol ) eat( … ); }`: the
text of the qualifiers (parser.cpp 2159-2173, 4377-4392). -/
def qualifiers : P Bytes := do
  if ← check .Identifier then
    let t ← cur
    let _ ← loop (fun (_ : Unit) => do
      if ← leftAnd (·.type = .Identifier) then
        eat .Identifier
        if (← cur).type = .Access_StaticSymbol then eat .Access_StaticSymbol
        return (true, ())
      else return (false, ())) ()
    bytes (← upToPrev t.start)
  else return []

/-- parser.cpp 2193-2377: the operator by the first three characters; `none` is the default case. `*` is not here. -/
def opOf (a b c : UInt8) : Option Operator :=
  if a = 43 then some (if b = 61 then .Assign_Add else if b = 43 then .Increment else .Add)
  else if a = 45 then some (if b = 62 then .MemberOfPointer else if b = 61 then .Assign_Subtract else .Subtract)
  else if a = 47 then some (if b = 61 then .Assign_Divide else .Divide)
  else if a = 37 then some (if b = 61 then .Assign_Modulo else .Modulo)
  else if a = 38 then some (if b = 61 then .Assign_BAnd else if b = 38 then .LAnd else .BAnd)
  else if a = 124 then some (if b = 61 then .Assign_BOr else if b = 124 then .LOr else .BOr)
  else if a = 94 then some (if b = 61 then .Assign_BXOr else .BXOr)
  else if a = 126 then some .BNot
  else if a = 33 then some (if b = 61 then .LNot else .UnaryNot)
  else if a = 61 then some (if b = 61 then .LEqual else .Assign)
  else if a = 60 then some (if b = 61 then .LesserEqual else if b = 60 then (if c = 61 then .Assign_LShift else .LShift) else .Lesser)
  else if a = 62 then some (if b = 61 then .GreaterEqual else if b = 62 then (if c = 61 then .Assign_RShift else .RShift) else .Greater)
  else if a = 40 then some (if b = 41 then .FunctionCall else .Invalid)
  else if a = 91 then some (if b = 93 then .Subscript else .Invalid)
  else none

/-- parser.cpp 2223-2240: `*`. The token in front of it is looked at again and again until it is the keyword or an identifier. -/
def starOp : P Operator := do
  let t ← cur
  if (← chr t 1) = 61 then return .Assign_Multiply
  else
    let p ← prev
    if p.type = .Decl_Operator then return .Multiply
    else if p.type = .Identifier then return .Indirection
    else hang

/-- The bytes from an offset on, for `c_str_compare_len`. -/
def textAt (start : Nat) : P Bytes := fun e s => if start ≤ e.mem.length then .ok (e.mem.drop start, s) else .ub

/-- The bytes from the start of a token on. -/
def textFrom (t : Tok) : P Bytes := textAt t.start

/-- parser.cpp 2384-2400, 2407-2423: `[]` behind `new` or `delete`. -/
def arrayOp (single array : Operator) : P Operator := do
  let s ← get
  let e ← env
  let (nxt, _) ← res (skipFmt (·.type = .NewLine) (e.cells.drop (s.idx + 1)) (s.idx + 1))
  let t ← cur
  let brackets ← if t.type = .Operator then do sameLen (← textFrom t) b!"[]" 2 else pure false
  if brackets then
    eat .Operator
    return array
  else if t.type = .BraceSquare_Open ∧ nxt.type = .BraceSquare_Close then
    eat .BraceSquare_Open
    eat .BraceSquare_Close
    return array
  else return single

/-- parser.cpp 2374-2433: `new` and `delete`. The spelling of `operator_to_str` has its NUL counted. -/
def newDelete : P Operator := do
  let t ← cur
  let text ← textFrom t
  if ← sameLen text (b!"new" ++ [0]) (max 3 t.len) then
    eat .Identifier
    arrayOp .New .NewArray
  else if ← sameLen text (b!"delete" ++ [0]) (max 6 t.len) then
    eat .Identifier
    arrayOp .Delete .DeleteArray
  else fail

/-- parser.cpp 2175-2447: the operator behind the keyword `operator`. The second and third characters are read as far as they are needed. -/
def operatorToken : P Operator := do
  let ok ← left
  if !ok then
    let t ← cur
    if t.type ≠ .Operator ∧ t.type ≠ .Star ∧ t.type ≠ .Ampersand ∧ t.type ≠ .Ampersand_DBL then fail
  let t ← cur
  let a ← chr t 0
  if a = 42 then
    let op ← starOp
    eatAny
    return op
  else
    match opOf a 0 0 with
    | none => newDelete
    | some _ =>
      let b ← chr t 1
      let c ← if (a = 60 ∧ b = 60) ∨ (a = 62 ∧ b = 62) then chr t 2 else pure 0
      match opOf a b c with
      | some .Invalid | none => fail
      | some op =>
        eatAny
        return op

/-- parser.cpp 2458-2470: the specifiers behind the parameters of an operator. -/
def opSuffix (specs : Nat) : P Nat :=
  loop (fun (specs : Nat) => do
    if ← leftAnd (has · Lex.fSpecifier) then
      let specs ← addSpec specs (strToSpecifier (← bytes (.of (← cur))))
      eatAny
      return (true, specs)
    else return (false, specs)) specs

/-- parser.cpp 2473-2490: `= delete`. -/
def opDelete (specs : Nat) : P Nat := do
  if ← checkOp 61 then
    eatAny
    if ← tokIs (← cur) b!"delete" then
      let specs ← addSpec specs .Delete
      eatAny
      return specs
    else fail
  else return specs

/-- parser.cpp 2175-2447: the keyword and the operator. -/
def operatorName : P Operator := do
  eat .Decl_Operator
  operatorToken

/-- parser.cpp 2150-2528 `parse_operator_after_ret_type`. -/
def operatorAfterRet (mflags attrs specs ret : Nat) : P Nat := inScope b!"parse_operator_after_ret_type" do
  let nspace ← qualifiers
  let op ← operatorName
  let ps ← params false
  let op := if ps = 0 ∧ op = .Multiply then .MemberOfPointer else op
  let specs ← opSuffix specs
  let specs ← opDelete specs
  let (body, cmt) ← do
    if ← check .BraceCurly_Open then pure (← functionBody, 0) else pure (0, ← endStmt)
  let r ← code fun c h => defOperator (h.next + 1) c h op nspace
    { params := ps, retType := ret, body := body, specifiers := specs, attributes := attrs, mflags := mflags }
  if cmt ≠ 0 then change fun h => h.upd r fun n => { n with inlineCmt := cmt }
  return r

/-- parser.cpp 2570-2589, 1863-1882, 4605-4624: identifiers and `::` up to `operator`, by looking ahead. -/
def operatorAhead (cells : List Tok) (num : Nat) : Nat → Nat → Res Bool
  | 0, _ => .hang
  | fuel + 1, i =>
    if i < num then
      (Res.ofOption cells[i]?).bind fun t =>
      if t.type = .Identifier then
        (Res.ofOption cells[i + 1]?).bind fun u =>
        if u.type = .Access_StaticSymbol then operatorAhead cells num fuel (i + 2) else .ok false
      else .ok (decide (t.type = .Decl_Operator))
    else .ok false

def operatorComes : P Bool := do
  let e ← env
  let s ← get
  res (operatorAhead e.cells e.num (e.cells.length + 1) s.idx)

/-- parser.cpp 2613-2624: the end of the arguments of a macro by looking ahead; the index of the closing parenthesis, or the number of
tokens. -/
def closeAhead (cells : List Tok) (num : Nat) : Nat → Nat → Int → Res Nat
  | 0, _, _ => .hang
  | fuel + 1, i, level =>
    if i < num then
      (Res.ofOption cells[i]?).bind fun t =>
      let level := if t.type = .Paren_Open then level + 1 else if t.type = .Paren_Close ∧ level > 0 then level - 1 else level
      if level = 0 ∧ t.type = .Paren_Close then .ok i else closeAhead cells num fuel (i + 1) level
    else .ok i

/-- parser.cpp 2592-2631: whether the parentheses hold values, as in the initialization of a variable, rather than parameters. The tokens
behind the current one are read whatever the current one is. -/
def valuesAhead : P Bool := do
  let e ← env
  let s ← get
  let comma := (← tokAt (s.idx + 2)).type = .Comma
  let nxt ← next
  if comma ∧ nxt.type ≠ .Varadic_Argument then return true
  else if nxt.type = .Preprocess_Macro_Expr then
    match ← macroOf (← bytes (.of nxt)) with
    | none => return false
    | some m =>
      if !Functional m then return false
      else
        let i ← res (closeAhead e.cells e.num (e.cells.length + 1) (s.idx + 1) 0)
        return (← tokAt (i + 1)).type = .Comma
  else return false

/-- `attributes ? strbuilder_to_str( attributes_to_strbuilder( attributes ) ) : txt("")`. -/
def attrsText (p : Nat) : P Bytes := if p = 0 then pure [] else do return (← node p).content

/-- `specifiers ? strbuilder_to_str( specifiers_to_strbuilder( specifiers ) ) : txt("")`. -/
def specsText (p : Nat) : P Bytes :=
  if p = 0 then pure [] else do
    let e ← env
    let s ← get
    res (Ser.specifiersRef { h := s.heap, lt := e.lt } p [])

/-- parser.cpp 2663-2694 `parse_macro_as_definiton`; 0 if there is none. -/
def macroAsDefinition (attrs specs : Nat) : P Nat := inScope b!"parse_macro_as_definiton" do
  let t ← cur
  if t.type ≠ .Preprocess_Macro_Stmt then return 0
  else
    if !(← macroOf (← bytes (.of t))).any AsDefinition then return 0
    else
      let m ← simplePreprocess .Preprocess_Macro_Stmt
      let a ← attrsText attrs
      let s ← specsText specs
      let text ← res (fmtText (cText a ++ b!" " ++ cText s ++ b!" " ++ cText (← node m).content))
      code fun c h => untypedStr c h text

/-- parser.cpp 2547-2563: attributes behind the return type are joined to those in front. -/
def moreAttributes (attrs : Nat) : P Nat := do
  let more ← attributes
  if more ≠ 0 then
    if attrs ≠ 0 then
      let text ← res (fmtText (cText (← node attrs).content ++ b!" " ++ cText (← node more).content))
      change fun h => h.upd attrs fun n => { n with content := text }
      return attrs
    else return more
  else return attrs

/-- parser.cpp 2531-2660 `parse_operator_function_or_variable`. -/
def opFnOrVar (expectsFunction : Bool) (attrs specs : Nat) : P Nat := inScope b!"parse_operator_function_or_variable" do
  let m ← macroAsDefinition attrs specs
  if m ≠ 0 then return m else
  let ty ← type
  let attrs ← moreAttributes attrs
  if ← operatorComes then operatorAfterRet 0 attrs specs ty
  else
    let name ← identText
    let capture ← check .Paren_Open
    let values ← valuesAhead
    if capture ∧ !values then functionAfterName 0 attrs specs ty (← bytes name)
    else if expectsFunction then fail
    else variableAfterName 0 attrs specs ty (← bytes name)

/-- parser.cpp 3500-3530: the initializer list of a constructor. The level of parentheses may become negative. -/
def initializerList : P Nat := do
  let t ← cur
  let _ ← loop (fun (level : Int) => do
    if ← left then
      let t ← cur
      if t.type = .BraceCurly_Open ∧ ¬ level > 0 then return (false, level)
      else
        eat t.type
        return (true, if t.type = .Paren_Open then level + 1 else if t.type = .Paren_Close then level - 1 else level)
    else return (false, level)) 0
  untyped (← upToPrev t.start)

/-- The node for a constructor or destructor: only a function body is kept. -/
def bodyIfFunction (body : Nat) : P Nat := do
  if body = 0 then return 0 else return if (← node body).type = .Function_Body then body else 0

/-- parser.cpp 3487-3586 `parser_parse_constructor`. -/
def constructor (specs : Nat) : P Nat := inScope b!"parser_parse_constructor" do
  let name ← identText
  let ps ← params false
  let (init, body, cmt) ← do
    if ← check .Assign_Classifer then
      eat .Assign_Classifer
      let i ← initializerList
      pure (i, ← functionBody, 0)
    else if ← check .BraceCurly_Open then pure (0, ← functionBody, 0)
    else if ← checkOp 61 then pure (0, ← assignment, 0)
    else pure (0, 0, ← endStmt)
  let name ← bytes name
  let body ← bodyIfFunction body
  make {
    type := if body = 0 then .Constructor_Fwd else .Constructor, name := name, specs := specs, params := ps, typ := init, body := body,
    inlineCmt := cmt }

/-- parser.cpp 3717-3746: `= 0` or `= default` behind a destructor: the body, the specifiers, and whether there was one. -/
def destructorAssign (specs : Nat) : P (Nat × Bool) := do
  if ← checkOp 61 then
    let up ← next
    if (← chr up 0) = 48 then
      eat .Operator
      eat .Number
      let e ← env
      change fun h => (specifiersAppend e.cfg.fatal h specs .Pure).bind fun r => .ok r.2
      return (0, true)
    else if ← sameLen (← textFrom up) b!"default" 7 then return (← assignment, true)
    else fail
  else return (0, false)

/-- parser.cpp 3676-3785 `parser_parse_destructor`. The name is kept only outside the class: the qualifiers, lengthened by the length of the
name and of the `~`. -/
def destructor (specs : Nat) : P Nat := inScope b!"parser_parse_destructor" do
  let outside ← calledFrom b!"parse_global_nspace"
  let specs ← do
    if ← check .Spec_Virtual then
      let s ← addSpec specs .Virtual
      eat .Spec_Virtual
      pure s
    else pure specs
  let pre ← if outside then do pure (some (← identifier)) else pure none
  if !(← left) then fail else
  if (← chr (← cur) 0) ≠ 126 then fail else
  eat .Operator
  let ident ← identText
  eat .Paren_Open
  eat .Paren_Close
  let (body, assigned) ← destructorAssign specs
  let (body, cmt) ← do
    if assigned then pure (body, ← endStmt)
    else if ← check .BraceCurly_Open then pure (← functionBody, 0)
    else pure (body, ← endStmt)
  let name ← match pre with
    | some p => if valid p.1 p.2 then bytes { p.1 with len := p.1.len + 1 + ident.len } else pure []
    | none => pure []
  let body ← bodyIfFunction body
  make { type := if body = 0 then .Destructor_Fwd else .Destructor, name := name, specs := specs, body := body, inlineCmt := cmt }

/-- parser.cpp 3934-3943: the value of an enumerator. `left` is not looked at. -/
def enumValue : P Unit := do
  let _ ← loop (fun (_ : Unit) => do
    let t ← cur
    if t.type ≠ .Comma ∧ t.type ≠ .BraceCurly_Close then
      eat t.type
      return (true, ())
    else return (false, ())) ()
  return ()

/-- parser.cpp 3924-3980: an enumerator, with its value, macro and comma, as text. -/
def enumEntry : P Nat := do
  let t ← cur
  eat .Identifier
  let u ← cur
  let assigned ← if u.type = .Operator then do pure ((← chr u 0) = 61 : Bool) else pure false
  if assigned then
    eat .Operator
    enumValue
  if (← cur).type = .Preprocess_Macro_Expr then
    let _ ← simplePreprocess .Preprocess_Macro_Expr
  if (← cur).type = .Comma then eat .Comma
  untyped (← upToPrev t.start)

/-- The directives every body takes (parser.cpp 907-951, 1690-1737, 3876-3921, 5404-5437); `none` for other tokens. -/
def directive (ty : TokType) : Option (P Nat) :=
  match ty with
  | .Preprocess_Define => some define
  | .Preprocess_If | .Preprocess_IfDef | .Preprocess_IfNotDef | .Preprocess_ElIf => some preprocessCond
  | .Preprocess_Else => some do
    let e ← env
    eat .Preprocess_Else
    return e.preElse
  | .Preprocess_EndIf => some do
    let e ← env
    eat .Preprocess_EndIf
    return e.preEndif
  | .Preprocess_Macro_Stmt => some (simplePreprocess .Preprocess_Macro_Stmt)
  | .Preprocess_Pragma => some pragma
  | .Preprocess_Unsupported => some (simplePreprocess .Preprocess_Unsupported)
  | _ => none

/-- `if ( currtok_noskip.Type == Tok_Preprocess_Hash ) eat( Tok_Preprocess_Hash );`. -/
def hash : P Unit := do
  if (← curN).type = .Preprocess_Hash then eat .Preprocess_Hash

/-- `body_append( body, member )`. -/
def bodyAdd (body member : Nat) : P Unit := do
  let s ← get
  change fun h => bodyAppend (s.heap.next + 1) h body member

/-- parser.cpp 3863-3998: a member of an enum. -/
def enumMember : P Nat := do
  let t ← curN
  match t.type with
  | .NewLine =>
    let r ← untyped (.of t)
    eat .NewLine
    return r
  | .Comment => comment
  | ty => match directive ty with
    | some p => p
    | none => enumEntry

/-- parser.cpp 3843-4004: the body of an enum. -/
def enumBody : P Nat := do
  if (← cur).type = .BraceCurly_Open then
    let b ← make { type := .Enum_Body }
    eat .BraceCurly_Open
    let _ ← loop (fun (_ : Unit) => do
      let go ← if ← left then do pure ((← curN).type ≠ .BraceCurly_Close : Bool) else pure false
      if go then
        hash
        let m ← enumMember
        bodyAdd b m
        return (true, ())
      else return (false, ())) ()
    eat .BraceCurly_Close
    return b
  else return 0

/-- parser.cpp 3821-3841: the underlying type or the macro for it. -/
def enumUnderlying : P (Nat × Nat) := do
  let t ← cur
  if t.type = .Assign_Classifer then
    eat .Assign_Classifer
    return (← type, 0)
  else if t.type = .Preprocess_Macro_Expr then
    if ← contains (← bytes (.of t)) b!"enum_underlying" then return (0, ← simplePreprocess .Preprocess_Macro_Expr) else return (0, 0)
  else return (0, 0)

/-- parser.cpp 3788-4045 `parser_parse_enum`. -/
def parseEnum (inplace : Bool) : P Nat := inScope b!"parser_parse_enum" do
  eat .Decl_Enum
  let cls ← do
    if (← cur).type = .Decl_Class then
      eat .Decl_Class
      pure true
    else pure false
  let attrs ← attributes
  let name ← do
    if ← check .Identifier then
      let b ← bytes (.of (← cur))
      eat .Identifier
      pure b
    else pure []
  let (ty, mac) ← enumUnderlying
  let body ← enumBody
  let cmt ← if inplace then pure 0 else endStmt
  make {
    type := if body ≠ 0 then (if cls then .Enum_Class else .Enum) else if cls then .Enum_Class_Fwd else .Enum_Fwd, name := name,
    body := body, attributes := attrs, params := mac, typ := ty, inlineCmt := cmt }

/-- `if ( check( Tok_Module_Export ) ) { mflags = ModuleFlag_Export; eat( Tok_Module_Export ); }`. -/
def exportFlag : P Nat := do
  if ← check .Module_Export then
    eat .Module_Export
    return 1
  else return 0

/-- parser_case_macros.cpp: `const` is not taken and ends the loop. -/
def orConst (l : List Specifier) (s : Specifier) : Option (Option Bool) :=
  if s = .Const then some none else if l.contains s then some (some true) else none

/-- parser.cpp 4223-4231, 4328-4336: `const` is allowed, but not eaten: the loop turns for ever. -/
def stuckAtConst (l : List Specifier) (s : Specifier) : Option (Option Bool) :=
  if s = .Const then some (some false) else if l.contains s then some (some true) else none

/-- parser_case_macros.cpp `GEN_PARSER_FRIEND_ALLOWED_SPECIFIER_CASES`. -/
def friendSpecs : List Specifier := [.Inline, .ForceInline]

/-- parser_case_macros.cpp `GEN_PARSER_FUNCTION_ALLOWED_SPECIFIER_CASES`. -/
def functionSpecs : List Specifier := [.Consteval, .Constexpr, .External_Linkage, .Internal_Linkage, .ForceInline, .Inline, .NeverInline, .Static]

/-- parser_case_macros.cpp `GEN_PARSER_OPERATOR_ALLOWED_SPECIFIER_CASES`. -/
def operatorSpecs : List Specifier := [.Constexpr, .ForceInline, .Inline, .NeverInline, .Static]

/-- parser_case_macros.cpp `GEN_PARSER_TEMPLATE_ALLOWED_SPECIFIER_CASES`, and `consteval`. -/
def templateSpecs : List Specifier := [.Consteval, .Constexpr, .Constinit, .External_Linkage, .Global, .Inline, .ForceInline,
  .Local_Persist, .Mutable, .Static, .Thread_Local, .Volatile]

/-- parser_case_macros.cpp `GEN_PARSER_VARIABLE_ALLOWED_SPECIFIER_CASES`. -/
def variableSpecs : List Specifier := [.Constexpr, .Constinit, .External_Linkage, .Global, .Inline, .Local_Persist, .Mutable, .Restrict,
  .Static, .Thread_Local, .Volatile]

/-- parser.cpp 4091-4196 `parser_parse_friend`. A declared function has eaten its semicolon already; another one is expected. -/
def friend : P Nat := inScope b!"parser_parse_friend" do
  eat .Decl_Friend
  let specs ← specsOf (← specifiersLoop (orConst friendSpecs) [])
  let ty ← type
  let fn ← do
    if (← cur).type = .Identifier then
      let name ← identText
      functionAfterName 0 0 specs ty (← bytes name)
    else pure 0
  let op ← if (← cur).type = .Decl_Operator then operatorAfterRet 0 0 specs ty else pure 0
  let fwd ← if fn = 0 then pure false else do pure ((← node fn).type = .Function_Fwd : Bool)
  let cmt ← if fwd then endStmt else pure 0
  make { type := .Friend, body := if fn ≠ 0 then fn else if op ≠ 0 then op else ty, inlineCmt := cmt }

/-- parser.cpp 4199-4267 `parser_parse_function`. -/
def parseFunction : P Nat := inScope b!"parser_parse_function" do
  let mflags ← exportFlag
  let attrs ← attributes
  let specs ← specsOf (← specifiersLoop (stuckAtConst functionSpecs) [])
  let ty ← type
  let name ← identifier
  if !valid name.1 name.2 then return (← env).cfg.invalid
  else functionAfterName mflags attrs specs ty (← bytes name.1)

/-- parser.cpp 4300-4367 `parser_parse_operator`. -/
def parseOperator : P Nat := inScope b!"parser_parse_operator" do
  let mflags ← exportFlag
  let attrs ← attributes
  let specs ← specsOf (← specifiersLoop (stuckAtConst operatorSpecs) [])
  let ty ← type
  operatorAfterRet mflags attrs specs ty

/-- parser.cpp 4370-4471 `parser_parse_operator_cast`. The comment is parsed and dropped. -/
def operatorCast (specs : Nat) : P Nat := inScope b!"parser_parse_operator_cast" do
  let name ← qualifiers
  eat .Decl_Operator
  let ty ← type
  eat .Paren_Open
  eat .Paren_Close
  let specs ← do
    if ← check .Spec_Const then
      let s ← addSpec specs .Const
      eat .Spec_Const
      pure s
    else pure specs
  let body ← do
    if ← check .BraceCurly_Open then
      eat .BraceCurly_Open
      let t ← cur
      skipGroup .BraceCurly_Open .BraceCurly_Close
      let text ← upToPrev t.start
      eat .BraceCurly_Close
      untyped text
    else
      let _ ← endStmt
      pure 0
  make { type := if body = 0 then .Operator_Cast_Fwd else .Operator_Cast, name := name, body := body, specs := specs, typ := ty }

/-- parser.cpp 5493-5591 `parser_parse_using`. Attributes in front of `=` are replaced by those parsed again. -/
def parseUsing : P Nat := inScope b!"parser_parse_using" do
  let mflags ← exportFlag
  eat .Decl_Using
  let ns ← do
    if (← cur).type = .Decl_Namespace then
      eat .Decl_Namespace
      pure true
    else pure false
  let name ← bytes (.of (← cur))
  eat .Identifier
  let (attrs, ty, arr) ← do
    if ns then pure (0, 0, 0)
    else
      let attrs ← attributes
      if has (← cur) Lex.fAssign then
        let attrs ← attributes
        eat .Operator
        let ty ← type
        pure (attrs, ty, ← arrayDecl)
      else pure (attrs, 0, 0)
  let cmt ← endStmt
  let r ← make { type := if ns then .Using_Namespace else .Using, name := name, moduleFlags := mflags }
  if !ns then
    change fun h => h.upd r fun n => { n with typ := ty, attributes := attrs, inlineCmt := cmt }
    if arr ≠ 0 then change fun h => h.upd ty fun n => { n with body := arr }
  return r

/-- parser.cpp 5593-5655 `parser_parse_variable`. -/
def parseVariable : P Nat := inScope b!"parser_parse_variable" do
  let mflags ← exportFlag
  let attrs ← attributes
  let specs ← specsOf (← specifiersLoop (orConst variableSpecs) [])
  let ty ← type
  let name ← identText
  variableAfterName mflags attrs specs ty (← bytes name)

end Verif.Parse
