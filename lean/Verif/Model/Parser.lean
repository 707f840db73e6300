import Verif.Model.Lexer
import Verif.Model.Strip
import Verif.Model.StrBuilder
import Verif.Model.Upfront
/-!
# The parser: tokens, scopes, small parsing functions

Models base/components/lexer.cpp 22-70 (`lex_current`, `lex_peek`, `lex_previous`, `lex_next`) and base/components/parser.cpp.

* Only the default build is modelled: `log_failure` is `GEN_FATAL` and ends the process (`stop`). What follows a `log_failure` in the
  source is therefore not modelled; nor are the texts of the diagnostics.
* `cells` are all the cells of the token array that can be read: the `num` tokens of the content being parsed, and behind them whatever is
  there (tokens of earlier parses; `lex` empties the array by setting its count to 0). Reading behind the cells, or in front of the
  first one, is `ub`. The text of a token that lies outside `mem` (the content and its NUL) is `ub` as well: a token of an earlier
  content.
* A text is an offset into the content and a length, which may come out negative. `cache_str` gives back the bytes (C14).
* A scope on the parser's stack is the name of its procedure; `Start` and `Name` are used for diagnostics only, except where noted.
* `Code::operator=` copies nodes that have a parent and loses the copy (see `Ast.codeAssign`); these unreachable copies are not modelled.
* Loops carry fuel: two more than the number of cells. Running out of it is `hang`.
-/
namespace Verif.Parse
open Verif.Lex (Tok)
open Verif.Ast

/-- What the parsing functions read. -/
structure Env where
  mem : Bytes
  cells : List Tok
  num : Nat
  ms : Lex.Macros
  cfg : Cfg
  /-- `char` comparison by `c_str_compare_len` (C39) -/
  lt : Bool
  /-- `fmt_newline`, `access_public`, … (constants.hpp) -/
  fmtNewline : Nat
  accessPublic : Nat
  accessProtected : Nat
  accessPrivate : Nat
  preElse : Nat
  preEndif : Nat
  paramVaradic : Nat
  tEmpty : Nat

/-- The constants a parsed code may refer to; all but the empty type. -/
def Env.constants (e : Env) : List Nat :=
  [e.fmtNewline, e.accessPublic, e.accessProtected, e.accessPrivate, e.preElse, e.preEndif, e.paramVaradic]

/-- What they change: `Tokens.Idx`, the nodes, `Scope`. -/
structure St where
  idx : Nat
  heap : Heap
  scope : List Bytes

/-- A parsing function. -/
def P (α : Type) : Type := Env → St → Res (α × St)

namespace P
variable {α β : Type}

instance : Monad P where
  pure a := fun _ s => .ok (a, s)
  bind x f := fun e s => (x e s).bind fun r => f r.1 e r.2

/-- `log_failure( … )`. -/
def fail : P α := fun _ _ => .stop
/-- Undefined behaviour. -/
def ub : P α := fun _ _ => .ub
def hang : P α := fun _ _ => .hang
def env : P Env := fun e s => .ok (e, s)
def get : P St := fun _ s => .ok (s, s)
def set (s : St) : P Unit := fun _ _ => .ok ((), s)
/-- A value that may be a failure. -/
def res (x : Res α) : P α := fun _ s => x.bind fun a => .ok (a, s)
/-- A call that makes nodes. -/
def code (f : Cfg → Heap → Out) : P Nat := fun e s => (f e.cfg s.heap).bind fun r => .ok (r.1, { s with heap := r.2 })
/-- A change of nodes. -/
def change (f : Heap → Res Heap) : P Unit := fun _ s => (f s.heap).bind fun h => .ok ((), { s with heap := h })
/-- `*p`. -/
def node (p : Nat) : P Node := fun _ s => (s.heap.get p).bind fun n => .ok (n, s)
/-- `make_code()` and the assignments to the fields of the node. -/
def make (n : Node) : P Nat := code fun _ h => finish h.make.2 h.next n

/-- A loop; `step` says whether it goes on, and with which values. -/
def loopN {σ : Type} (step : σ → P (Bool × σ)) : Nat → σ → P σ
  | 0, _ => hang
  | fuel + 1, x => do
    let r ← step x
    if r.1 then loopN step fuel r.2 else return r.2

/-- A loop, with fuel for every cell. -/
def loop {σ : Type} (step : σ → P (Bool × σ)) (x : σ) : P σ := fun e s => loopN step (e.cells.length + 2) x e s

end P
open P

/-- A text: an offset into the content and a length. -/
structure Txt where
  start : Nat
  len : Int
  deriving DecidableEq, Repr

/-- `Token::Text`. -/
def Txt.of (t : Tok) : Txt := ⟨t.start, t.len⟩

/-- The bytes of a text. A text of length 0 is not looked at. -/
def Env.bytes (e : Env) (t : Txt) : Res Bytes :=
  if t.len = 0 then .ok [] else if t.len < 0 ∨ e.mem.length < t.start + t.len.toNat then .ub else .ok (Lex.slice e.mem t.start t.len.toNat)

def bytes (t : Txt) : P Bytes := fun e s => (e.bytes t).bind fun b => .ok (b, s)

/-- `Text.Ptr[ i ]`. -/
def chr (t : Tok) (i : Nat) : P UInt8 := fun e s => (Res.ofOption e.mem[t.start + i]?).bind fun b => .ok (b, s)

/-- `Tokens.Arr[ i ]`. -/
def tokAt (i : Nat) : P Tok := fun e s => (Res.ofOption e.cells[i]?).bind fun t => .ok (t, s)

/-- Newlines and comments. -/
def isFmt (t : Tok) : Bool := t.type = .NewLine ∨ t.type = .Comment

/-- lexer.cpp 24-28: the loop of `lex_current`; the token it stops at, and its index. -/
def skipFmt (p : Tok → Bool) : List Tok → Nat → Res (Tok × Nat)
  | [], _ => .ub
  | t :: ts, i => if p t then skipFmt p ts (i + 1) else .ok (t, i)

/-- lexer.cpp 22-31, parser.cpp 159 `currtok`: `lex_current` with skipping; it moves the index. -/
def cur : P Tok := fun e s => (skipFmt isFmt (e.cells.drop s.idx) s.idx).bind fun r => .ok (r.1, { s with idx := r.2 })

/-- parser.cpp 158 `currtok_noskip`. -/
def curN : P Tok := fun e s => (Res.ofOption e.cells[s.idx]?).bind fun t => .ok (t, s)

/-- lexer.cpp 33-44, parser.cpp 160 `peektok`: skips newlines only and does not move the index. -/
def peek : P Tok := fun e s => (skipFmt (·.type = .NewLine) (e.cells.drop s.idx) s.idx).bind fun r => .ok (r.1, s)

/-- lexer.cpp 46-57, parser.cpp 161 `prevtok`. In front of the first token lies the array's header. -/
def prev : P Tok := fun e s => if s.idx = 0 then .ub else (Res.ofOption e.cells[s.idx - 1]?).bind fun t => .ok (t, s)

/-- lexer.cpp 59-70, parser.cpp 162 `nexttok`. -/
def next : P Tok := fun e s =>
  (skipFmt (·.type = .NewLine) (e.cells.drop s.idx) s.idx).bind fun r =>
  (Res.ofOption e.cells[r.2 + 1]?).bind fun t => .ok (t, s)

/-- parser.cpp 165 `left`, as a condition. The difference is unsigned: behind the end it is not 0. -/
def left : P Bool := fun e s => .ok (decide (s.idx ≠ e.num), s)

/-- parser.cpp 182 `check`: `left` is looked at before the newlines are skipped. -/
def check (ty : TokType) : P Bool := do
  if ← left then return (← cur).type = ty else return false

/-- parser.cpp 181 `check_noskip`. -/
def checkN (ty : TokType) : P Bool := do
  if ← left then return (← curN).type = ty else return false

/-- `left && p( currtok )`. -/
def leftAnd (p : Tok → Bool) : P Bool := do
  if ← left then return p (← cur) else return false

/-- `bitfield_is_set`. -/
def has (t : Tok) (f : Nat) : Bool := t.flags &&& f == f

/-- parser_types.hpp 41-44 `tok_is_valid`, for a token taken from the array. -/
def valid (t : Txt) (ty : TokType) : Bool := t.len ≠ 0 ∧ ty ≠ .Invalid

/-- interface.cpp 474-477 `lookup_macro`. -/
def macroOf (text : Bytes) : P (Option Lex.MacroInfo) := fun e s => .ok (Lex.lookupMacro e.ms text, s)

/-- parser_types.hpp 148-199: flags of macros. -/
def Functional (m : Lex.MacroInfo) : Bool := m.flags &&& 1 == 1
def ExpectsBody (m : Lex.MacroInfo) : Bool := m.flags &&& 2 == 2
def AsIdentifier (m : Lex.MacroInfo) : Bool := m.flags &&& 4 == 4
def AsDefinition (m : Lex.MacroInfo) : Bool := m.flags &&& 16 == 16

/-- `macro && bitfield_is_set( MacroFlags, macro->Flags, MF_Allow_As_Identifier )` for the macro of that name. -/
def asIdentifier (text : Bytes) : P Bool := do return (← macroOf text).any AsIdentifier

/-- parser.cpp 81-124 `lex__eat`. A newline or comment in front is stepped over, but it is still the one that is looked at. -/
def eat (ty : TokType) : P Unit := do
  if !(← left) then fail else
  let s ← get
  let t ← tokAt s.idx
  if t.type = ty then set { s with idx := s.idx + 1 }
  else if ← asIdentifier (← bytes (.of t)) then
    if ty = .Identifier then set { s with idx := if isFmt t then s.idx + 2 else s.idx + 1 } else fail
  else fail

/-- `eat( currtok.Type )`. -/
def eatAny : P Unit := do eat (← cur).type

/-- parser.cpp 185-188 `push_scope` … `parser_pop`. -/
def inScope {α : Type} (proc : Bytes) (x : P α) : P α := do
  let s ← get
  set { s with scope := proc :: s.scope }
  let a ← x
  let s ← get
  set { s with scope := s.scope.tail }
  return a

/-- `_ctx->parser.Scope->Prev->ProcName`. -/
def callerProc : P Bytes := do
  match (← get).scope with
  | _ :: c :: _ => return c
  | _ => ub

/-- The text from the start of one token to the end of another. -/
def span (start : Nat) (t : Tok) : Txt := ⟨start, (t.start + t.len : Int) - start⟩

/-- The text from `start` to the end of the previous token. -/
def upToPrev (start : Nat) : P Txt := do return span start (← prev)

/-- `untyped_str( text )`. -/
def untyped (t : Txt) : P Nat := do
  let b ← bytes t
  code fun c h => untypedStr c h b

/-- `parser_strip_formatting( text, dont_preserve_newlines )`. -/
def stripped (b : Bytes) : P Bytes := res (Strip.strip b)

/-- `while ( left && ( currtok.Type != cls || level > 0 ) ) { … eat( currtok.Type ); }`, the level counting the pairs of `opn` and `cls`
(parser.cpp 3058, 3083, 3188, 3290, 3315, 4421, 4984). -/
def skipGroup (opn cls : TokType) : P Unit := do
  let _ ← loop (fun (level : Int) => do
    if ← left then
      let t ← cur
      if t.type = cls ∧ ¬ level > 0 then return (false, level)
      else
        eat t.type
        return (true, if t.type = opn then level + 1 else if t.type = cls then level - 1 else level)
    else return (false, level)) 0
  return ()

/-- `while ( left && currtok.Type != ty ) eat( currtok.Type );`. -/
def skipTo (ty : TokType) : P Unit := do
  let _ ← loop (fun (_ : Unit) => do
    if ← leftAnd (·.type ≠ ty) then
      eatAny
      return (true, ())
    else return (false, ())) ()
  return ()

/-- parser.cpp 1138-1150 `parse_comment`. -/
def comment : P Nat := inScope b!"parse_comment" do
  let t ← curN
  let b ← bytes (.of t)
  let r ← make { type := .Comment, content := b }
  eat .Comment
  return r

/-- `if ( currtok_noskip.Type == Tok_Comment && currtok_noskip.Line == stmt_end.Line ) inline_cmt = parse_comment();`. `left` is not looked
at first. -/
def inlineCmt (stmtEnd : Tok) : P Nat := do
  let t ← curN
  if t.type = .Comment ∧ t.line = stmtEnd.line then comment else return 0

/-- `Token stmt_end = currtok; eat( Tok_Statement_End );` and the comment behind it. -/
def endStmt : P Nat := do
  let t ← cur
  eat .Statement_End
  inlineCmt t

/-- parser.cpp 2123-2147 `parse_include`. The node made first is returned with its fields set. -/
def parseInclude : P Nat := inScope b!"parse_include" do
  let r ← make { type := .Preprocess_Include }
  eat .Preprocess_Include
  if !(← check .String) then fail else
  let b ← bytes (.of (← cur))
  change fun h => h.upd r fun n => { n with content := b }
  eat .String
  return r

/-- parser.cpp 2696-2721 `parse_pragma`. -/
def pragma : P Nat := inScope b!"parse_pragma" do
  let r ← make { type := .Preprocess_Pragma }
  eat .Preprocess_Pragma
  if !(← check .Preprocess_Content) then fail else
  let b ← bytes (.of (← cur))
  change fun h => h.upd r fun n => { n with content := b }
  eat .Preprocess_Content
  return r

/-- parser.cpp 3015: `scast(CodeType, currtok.Type - ( Tok_Preprocess_If - CT_Preprocess_If ) )`, for the tokens flagged as conditions. -/
def condType : TokType → CodeType
  | .Preprocess_If => .Preprocess_If
  | .Preprocess_IfDef => .Preprocess_IfDef
  | .Preprocess_IfNotDef => .Preprocess_IfNotDef
  | .Preprocess_ElIf => .Preprocess_ElIf
  | .Preprocess_Else => .Preprocess_Else
  | .Preprocess_EndIf => .Preprocess_EndIf
  | _ => .Invalid

/-- parser.cpp 3002-3034 `parse_preprocess_cond`. -/
def preprocessCond : P Nat := inScope b!"parse_preprocess_cond" do
  if !(has (← cur) Lex.fPreprocessCond) then fail else
  let r ← make { type := condType (← cur).type }
  eatAny
  if !(← check .Preprocess_Content) then fail else
  let b ← bytes (.of (← cur))
  change fun h => h.upd r fun n => { n with content := b }
  eat .Preprocess_Content
  return r

/-- parser.cpp 3617-3643: the parameters of a functional macro. The names are not interned: they point into the content. -/
def defineParams : P Nat := do
  eat .Paren_Open
  let r ← make { type := .Parameters_Define }
  if ← leftAnd (·.type ≠ .Paren_Close) then
    let b ← bytes (.of (← cur))
    change fun h => h.upd r fun n => { n with name := b, num := n.num + 1 }
    eat .Preprocess_Define_Param
  let _ ← loop (fun (_ : Unit) => do
    if ← leftAnd (·.type ≠ .Paren_Close) then
      eat .Comma
      let p ← make { type := .Parameters_Define }
      let b ← bytes (.of (← cur))
      change fun h => h.upd p fun n => { n with name := b }
      change fun h => paramsAppend h r p
      eat .Preprocess_Define_Param
      return (true, ())
    else return (false, ())) ()
  eat .Paren_Close
  return r

/-- parser.cpp 3588-3674 `parser_parse_define`. The macro is looked up and used without a check. -/
def define : P Nat := inScope b!"parser_parse_define" do
  if ← check .Preprocess_Hash then eat .Preprocess_Hash
  eat .Preprocess_Define
  let r ← make { type := .Preprocess_Define }
  if !(← check .Identifier) then fail else
  let name ← bytes (.of (← cur))
  change fun h => h.upd r fun n => { n with name := name }
  eat .Identifier
  match ← macroOf name with
  | none => ub
  | some m =>
    if Functional m then
      let ps ← defineParams
      change fun h => h.upd r fun n => { n with params := ps }
    if !(← check .Preprocess_Content) then fail else
    let t ← cur
    let b ← bytes (.of t)
    let text ← if t.len = 0 then pure b!"\n" else stripped b
    let u ← code fun c h => untypedStr c h text
    change fun h => h.upd r fun n => { n with body := u }
    eat .Preprocess_Content
    return r

/-- `str_contains`. -/
def contains (s sub : Bytes) : P Bool := do
  let e ← env
  res (Str.contains e.lt s sub)

/-- `c_str_compare_len( a, b, len ) == 0`. -/
def sameLen (a b : Bytes) (len : Nat) : P Bool := do
  let e ← env
  return (← res (CStr.compareLen e.lt a b len)) = 0

/-- parser.cpp 3054-3072: the arguments of a functional macro. -/
def macroArgs (start : Nat) : P Txt := do
  eat .Paren_Open
  skipGroup .Paren_Open .Paren_Close
  eat .Paren_Close
  upToPrev start

/-- parser.cpp 3074-3113: the braces behind a macro that expects a body. -/
def macroBody (m : Lex.MacroInfo) (start : Nat) : P Txt := do
  eat .BraceCurly_Open
  skipGroup .BraceCurly_Open .BraceCurly_Close
  eat .BraceCurly_Close
  let p ← callerProc
  if m.type = 2 ∧ !(← sameLen (p ++ [0]) (b!"parser_parse_typedef" ++ [0]) p.length) then
    if ← check .Statement_End then
      let t ← cur
      eat .Statement_End
      let c ← curN
      if c.type = .Comment ∧ c.line = t.line then eat .Comment
  upToPrev start

/-- parser.cpp 3114-3156: the semicolon behind a macro without body. `Len` grows by the length of the semicolon, wherever it is. -/
def macroEnd (m : Option Lex.MacroInfo) (text : Txt) : P Txt := do
  let p ← callerProc
  if ← contains p b!"parser_parse_enum" then return text
  else if m.any (·.type = 2) ∧ (← contains p b!"parser_parse_typedef") then
    if (← peek).type = .Statement_End then
      let t ← cur
      eat .Statement_End
      let text := { text with len := text.len + (← prev).len }
      let c ← curN
      if c.type = .Comment ∧ c.line = t.line then
        eat .Comment
        return { text with len := text.len + (← prev).len }
      else return text
    else return text
  else if (← contains p b!"parse_global_nspace") ∨ (← contains p b!"parse_class_struct_body") then
    if ← left then
      if (← peek).type = .Statement_End then
        let _ ← cur
        eat .Statement_End
        return { text with len := text.len + (← prev).len }
      else return text
    else return text
  else return text

/-- parser.cpp 3074-3156: what follows a macro and its arguments. -/
def macroTail (m : Option Lex.MacroInfo) (start : Nat) (text : Txt) : P Txt :=
  match m with
  | none => macroEnd none text
  | some i => do
    if ExpectsBody i then
      if (← peek).type = .BraceCurly_Open then macroBody i start else macroEnd m text
    else macroEnd m text

/-- parser.cpp 3036-3165 `parse_simple_preprocess`. -/
def simplePreprocess (which : TokType) : P Nat := inScope b!"parse_simple_preprocess" do
  let t ← cur
  eat which
  let m ← macroOf (← bytes (.of t))
  if which ≠ .Preprocess_Unsupported ∧ m = none then fail else
  let text ← if m.any Functional then macroArgs t.start else pure (.of t)
  untyped (← macroTail m t.start text)

/-- parser.cpp 3167-3209 `parse_static_assert`. -/
def staticAssert : P Nat := inScope b!"parse_static_assert" do
  let r ← make { type := .Untyped }
  let t ← cur
  eat .StaticAssert
  eat .Paren_Open
  skipGroup .Paren_Open .Paren_Close
  eat .Paren_Close
  eat .Statement_End
  let b ← bytes (← upToPrev t.start)
  let text ← res (fmtText (cText b ++ [10]))
  change fun h => h.upd r fun n => { n with content := text, name := text }
  return r

/-- parser.cpp 499: `check( Tok_Operator ) && currtok.Text.Ptr[0] == '[' && currtok.Text.Ptr[1] == ']'`. -/
def emptyBrackets : P Bool := do
  if ← check .Operator then
    let t ← cur
    if (← chr t 0) = 91 then return (← chr t 1) = 93 else return false
  else return false

/-- parser.cpp 493-571 `parse_array_decl`; fuel: one call for every dimension. -/
def arrayDeclN : Nat → P Nat
  | 0 => hang
  | fuel + 1 => inScope b!"parse_array_decl" do
    if ← emptyBrackets then
      let r ← code fun c h => untypedStr c h b!" "
      eat .Operator
      return r
    else if ← check .BraceSquare_Open then
      eat .BraceSquare_Open
      if !(← left) then fail else
      let t ← cur
      if t.type = .BraceSquare_Close then fail else
      skipTo .BraceSquare_Close
      let r ← untyped (← upToPrev t.start)
      if !(← left) then fail else
      if (← cur).type ≠ .BraceSquare_Close then fail else
      eat .BraceSquare_Close
      if ← check .BraceSquare_Open then
        let a ← arrayDeclN fuel
        change fun h => h.upd r fun n => { n with back := a }
      return r
    else return 0

def arrayDecl : P Nat := fun e s => arrayDeclN (e.cells.length + 2) e s

/-- parser.cpp 583-651: one attribute. -/
def oneAttribute : P Unit := do
  if ← check .Attribute_Open then
    eat .Attribute_Open
    skipTo .Attribute_Close
    eat .Attribute_Close
  else if ← check .Decl_GNU_Attribute then
    eat .Decl_GNU_Attribute
    eat .Paren_Open
    eat .Paren_Open
    skipTo .Paren_Close
    eat .Paren_Close
    eat .Paren_Close
  else if ← check .Decl_MSVC_Attribute then
    eat .Decl_MSVC_Attribute
    eat .Paren_Open
    skipTo .Paren_Close
    eat .Paren_Close
  else if has (← cur) Lex.fAttribute then
    eatAny
    if ← check .Paren_Open then
      eat .Paren_Open
      let _ ← loop (fun (level : Int) => do
        if ← leftAnd (·.type ≠ .Paren_Close) then
          if level = 0 then
            let t ← cur
            eat t.type
            return (true, if t.type = .Paren_Open then level + 1 else level)
          else return (false, level)
        else return (false, level)) 0
      eat .Paren_Close

/-- parser.cpp 573-672 `parse_attributes`. -/
def attributes : P Nat := do
  let text ← inScope b!"parse_attributes" do
    let start ← cur
    loop (fun (text : Txt) => do
      if ← leftAnd (has · Lex.fAttribute) then
        oneAttribute
        return (true, ← upToPrev start.start)
      else return (false, text)) ⟨start.start, 0⟩
  if text.len > 0 then
    let b ← stripped (← bytes text)
    make { type := .PlatformAttributes, name := b, content := b }
  else return 0

/-- parser.cpp 1336-1373 `parse_assignment_expression`. A single token is kept if the tokens run out. -/
def assignment : P Nat := do
  eat .Operator
  let t ← cur
  if t.type = .Statement_End then fail else
  let _ ← loop (fun (level : Int) => do
    if ← leftAnd (·.type ≠ .Statement_End) then
      let t ← cur
      if t.type = .Comma ∧ ¬ level > 0 then return (false, level)
      else
        eat t.type
        return (true,
          if t.type = .BraceCurly_Open ∨ t.type = .Paren_Open then level + 1
          else if t.type = .BraceCurly_Close ∨ t.type = .Paren_Close then level - 1 else level)
    else return (false, level)) 0
  if ← left then
    let u ← cur
    untyped { start := t.start, len := (span t.start u).len - 1 }
  else untyped (.of t)

/-- parser.cpp 1551-1592 `parse_function_body`. -/
def functionBody : P Nat := inScope b!"parse_function_body" do
  eat .BraceCurly_Open
  let r ← make { type := .Function_Body }
  let start ← curN
  let _ ← loop (fun (level : Int) => do
    if ← left then
      let t ← curN
      if t.type = .BraceCurly_Close ∧ ¬ level > 0 then return (false, level)
      else
        eat t.type
        return (true, if t.type = .BraceCurly_Open then level + 1 else if t.type = .BraceCurly_Close then level - 1 else level)
    else return (false, level)) 0
  let text ← upToPrev start.start
  if text.len > 0 then
    let b ← bytes text
    let x ← code fun c h => defExecution c h b
    change fun h => bodyAppend 1 h r x
  eat .BraceCurly_Close
  return r

/-- parser.cpp 3221: `currtok.Type == Tok_Operator && currtok.Text.Ptr[ 0 ] == (the angle bracket) && currtok.Text.Len == 1`. -/
def isAngle (t : Tok) : P Bool := do
  if t.type = .Operator then return (← chr t 0) = 60 ∧ t.len = 1 else return false

/-- parser.cpp 3217-3248 `parse_template_args`: the text of the name with the arguments. -/
def templateArgs (name : Txt) : P Txt := do
  if ← isAngle (← cur) then
    eat .Operator
    let level ← loop (fun (level : Int) => do
      if ← left then
        if level ≥ 0 then
          let t ← cur
          let b ← chr t 0
          if b ≠ 62 ∨ level > 0 then
            let b1 ← if t.type = .Operator then chr t 1 else pure 0
            eat t.type
            let level := if b = 60 then level + 1 else level
            let level := if b = 62 then level - 1 else level
            let level := if t.type = .Operator ∧ b1 = 62 then level - 1 else level
            return (true, level)
          else return (false, level)
        else return (false, level)
      else return (false, level)) 0
    if level = 0 then eat .Operator
    upToPrev name.start
  else return name

/-- parser.cpp 2042-2119 `parse_identifier( possible_member_function )`; no caller passes a pointer, so a `*` behind `::` is a failure. The
text and the type of the token returned. -/
def identifier : P (Txt × TokType) := inScope b!"parse_identifier" do
  let t ← cur
  let acc ← asIdentifier (← bytes (.of t))
  if (← check .Identifier) ∨ acc then eat .Identifier
  let name ← templateArgs (.of t)
  let name ← loop (fun (name : Txt) => do
    if ← check .Access_StaticSymbol then
      eat .Access_StaticSymbol
      if !(← left) then fail else
      let u ← cur
      if u.type = .Operator ∧ (← chr u 0) = 126 then
        if (← callerProc) = b!"parser_parse_destructor" then return (false, ← upToPrev name.start) else fail
      else if u.type = .Operator ∧ u.len = 1 ∧ (← chr u 0) = 42 then fail
      else if u.type ≠ .Identifier then fail
      else
        eat .Identifier
        return (true, ← templateArgs (span name.start u))
    else return (false, name)) name
  return (name, t.type)

/-- `Str`s of tokens, for `parse_identifier( nullptr ).Text`. -/
def identText : P Txt := do return (← identifier).1

/-- `while ( left && tok_is_specifier(currtok) ) { … specs_found[ NumSpecifiers ] = spec; NumSpecifiers++; eat( currtok.Type ); }`: `ok` says
which specifiers are taken, which end the loop without being taken (`none`), and which are failures. The array has 16 elements. -/
def specifiersLoop (ok : Specifier → Option (Option Bool)) (found : List Specifier) : P (List Specifier) :=
  loop (fun (found : List Specifier) => do
    if ← leftAnd (has · Lex.fSpecifier) then
      let t ← cur
      let spec := strToSpecifier (← bytes (.of t))
      match ok spec with
      | none => fail
      | some none => return (false, found)
      | some (some true) =>
        if found.length ≥ 16 then ub else
        eat t.type
        return (true, found ++ [spec])
      | some (some false) => return (true, found)
    else return (false, found)) found

/-- `if ( NumSpecifiers ) specifiers = def_specifiers_arr( NumSpecifiers, specs_found );`. -/
def specsOf (found : List Specifier) : P Nat :=
  if found = [] then pure 0 else code fun c h => defSpecifiers c h found

end Verif.Parse
