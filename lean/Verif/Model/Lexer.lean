import Verif.Model.Keywords
import Verif.Model.CStr
/-!
# The lexer

Models base/components/lexer.cpp 77-1303: `lexer_move_forward`, `lexer_skip_whitespace`, `lexer_end_line`,
`lex_preprocessor_define`, `lex_preprocessor_directive`, `lex_found_token`, `lex`.

* The readable memory is the content and the NUL behind it; a read behind that is `ub`. `left` (`content.Len` at the start, one less
  for every `lexer_move_forward`) is therefore the number of readable bytes minus one, and -1 once the scanner has moved past the NUL.
* `log_failure` ends the process (`stop`) in the default build and only logs with `GEN_DONT_USE_FATAL`: `fatal` selects which.
  The texts of diagnostics are not modelled.
* The token array is a list (`array_append` at its end; see C08). The macro table is a list of keys with what was registered for them
  (see C24 for the hash table itself). Loops carry fuel; one more than the number of readable bytes is always given, and running out of
  it (`hang`) is excluded by C26. `left`, lines and columns are mathematical integers (contents below 2 GiB).
-/
namespace Verif.Lex

/-- A place in the content: offset of the scanner, `line`, `column`. -/
structure Pos where
  off : Nat
  line : Nat
  col : Nat
  deriving DecidableEq, Repr

/-- parser_types.hpp 100-109 `LexContext` without the token: the readable bytes from the scanner on, and where it is. -/
structure Cur where
  rest : Bytes
  pos : Pos
  deriving DecidableEq, Repr

/-- `ctx->left`. -/
def Cur.left (c : Cur) : Int := (c.rest.length : Int) - 1

/-- parser_types.hpp 31-38 `Token`; the text is `len` bytes from the offset `start` of the content. -/
structure Tok where
  start : Nat
  len : Nat
  type : TokType
  line : Nat
  col : Nat
  flags : Nat
  deriving DecidableEq, Repr

/-- parser_types.hpp 197-202 `Macro` without its name. -/
structure MacroInfo where
  type : Nat
  flags : Nat
  deriving DecidableEq, Repr

abbrev Macros := List (BitVec 32 × MacroInfo)

/-- interface.cpp 474-477 `lookup_macro`. -/
def lookupMacro (ms : Macros) (name : Bytes) : Option MacroInfo := ms.lookup (Crc.crc32 name)

/-- parser_types.hpp 10-30 `TokFlags`. -/
def fOperator : Nat := 1
def fAssign : Nat := 2
def fIdentifier : Nat := 4
def fPreprocess : Nat := 8
def fPreprocessCond : Nat := 16
def fAttribute : Nat := 32
def fAccessOperator : Nat := 64
def fAccessSpecifier : Nat := 128
def fSpecifier : Nat := 256
def fEndDefinition : Nat := 512
def fLiteral : Nat := 2048
def fMacroFunctional : Nat := 4096

/-- lexer.cpp 77-89 `lexer_move_forward`: the line and the column. -/
def Pos.step (p : Pos) (b : UInt8) : Pos :=
  if b = 10 then ⟨p.off + 1, p.line + 1, 1⟩ else ⟨p.off + 1, p.line, p.col + 1⟩

/-- lexer.cpp 77-89 `lexer_move_forward`. -/
def Cur.move (c : Cur) : Res Cur :=
  match c.rest with
  | [] => .ub
  | b :: r => .ok ⟨r, c.pos.step b⟩

/-- `* ctx->scanner`. -/
def Cur.peek (c : Cur) : Res UInt8 :=
  match c.rest with
  | [] => .ub
  | b :: _ => .ok b

/-- `ctx->scanner[1]`. -/
def Cur.peek1 (c : Cur) : Res UInt8 :=
  match c.rest with
  | _ :: b :: _ => .ok b
  | _ => .ub

/-- `while ( ctx->left && P( * ctx->scanner ) ) { move_forward(); Len++; }`: the bytes from the scanner on, the place, the count. -/
def runL (P : UInt8 → Bool) : Bytes → Pos → Res (Cur × Nat)
  | [], _ => .ub
  | [b], p => .ok (⟨[b], p⟩, 0)
  | b :: b2 :: r, p =>
    if P b then (runL P (b2 :: r) (p.step b)).bind fun x => .ok (x.1, x.2 + 1) else .ok (⟨b :: b2 :: r, p⟩, 0)

def run (P : UInt8 → Bool) (c : Cur) : Res (Cur × Nat) := runL P c.rest c.pos

/-- lexer.cpp 92-97 `lexer_skip_whitespace`. -/
def skipWs (c : Cur) : Res Cur := (run charIsSpace c).bind fun x => .ok x.1

/-- lexer.cpp 100-112 `lexer_end_line`. -/
def endLine (c : Cur) : Res Cur :=
  (run (fun b => b == 32) c).bind fun x =>
  if x.1.left = 0 then .ok x.1 else
  x.1.peek.bind fun b =>
  if b = 13 then x.1.move.bind fun c => c.move
  else if b = 10 then x.1.move
  else .ok x.1

/-- `if ( * ctx->scanner == x ) { move_forward(); Len++; }`. -/
def eatIf (x : UInt8) (c : Cur) : Res (Cur × Nat) :=
  c.peek.bind fun b => if b = x then c.move.bind fun c => .ok (c, 1) else .ok (c, 0)

/-- A letter, a digit or `_`. -/
def isWord (b : UInt8) : Bool := charIsAlphanumeric b || b == 95

/-- The text of a token. -/
def slice (mem : Bytes) (start len : Nat) : Bytes := (mem.drop start).take len

/-- A token at the scanner. -/
def Cur.tok (c : Cur) (len : Nat) (type : TokType) (flags : Nat) : Tok := ⟨c.pos.off, len, type, c.pos.line, c.pos.col, flags⟩

/-- `log_failure( … ); return Lex_ReturnNull;`. -/
def fail {α : Type} (fatal : Bool) : Res (Option α) := if fatal then .stop else .ok none

/-- lexer.cpp 175-179: `while ( * scanner == '\\' ) { move_forward(); skip_whitespace(); }`. -/
def slashes : Nat → Cur → Res Cur
  | fuel, c =>
    c.peek.bind fun b =>
    if b = 92 then
      match fuel with
      | 0 => .hang
      | fuel + 1 => c.move.bind fun c => (skipWs c).bind fun c => slashes fuel c
    else .ok c

/-- lexer.cpp 160-234: the loop over the parameters of a `#define`. `none` is `Lex_ReturnNull`. -/
def paramLoop (fatal : Bool) : Nat → Cur → List Tok → Res (Option (Cur × List Tok))
  | fuel, c, toks =>
    if c.left = 0 then .ok (some (c, toks)) else
    c.peek.bind fun b =>
    if b = 41 then .ok (some (c, toks)) else
    match fuel with
    | 0 => .hang
    | fuel + 1 =>
      (skipWs c).bind fun c =>
      if c.left > 3 ∧ c.rest.take 3 = [46, 46, 46] then
        let t := c.tok 3 .Preprocess_Define_Param fPreprocess
        c.move.bind fun c => c.move.bind fun c => c.move.bind fun c =>
        (skipWs c).bind fun c =>
        (slashes (c.rest.length + 1) c).bind fun c =>
        c.peek.bind fun b =>
        if b ≠ 41 then fail fatal else .ok (some (c, toks ++ [t]))
      else
        c.peek.bind fun b =>
        if b = 92 then c.move.bind fun c => (skipWs c).bind fun c => paramLoop fatal fuel c toks
        else if charIsAlpha b ∨ b = 95 then
          let t := c.tok 1 .Preprocess_Define_Param fPreprocess
          c.move.bind fun c =>
          (run isWord c).bind fun x =>
          let toks := toks ++ [{ t with len := 1 + x.2 }]
          (skipWs x.1).bind fun c =>
          c.peek.bind fun b =>
          if b = 41 then .ok (some (c, toks))
          else if b ≠ 44 then fail fatal
          else
            let toks := toks ++ [c.tok 1 .Comma fPreprocess]
            c.move.bind fun c => paramLoop fatal fuel c toks
        else fail fatal

/-- lexer.cpp 116-264 `lex_preprocessor_define`. The warnings are left out. -/
def lexDefine (mem : Bytes) (fatal : Bool) (c : Cur) (toks : List Tok) (ms : Macros) : Res (Option (Cur × List Tok × Macros)) :=
  let name := c.tok 1 .Identifier fPreprocess
  c.move.bind fun c =>
  (run isWord c).bind fun x =>
  let name := { name with len := 1 + x.2 }
  let c := x.1
  let text := slice mem name.start name.len
  let reg := lookupMacro ms text
  let toks := toks ++ [name]
  let done (flags : Nat) (c : Cur) (toks : List Tok) : Res (Option (Cur × List Tok × Macros)) :=
    .ok (some (c, toks, if reg.isNone then (Crc.crc32 text, ⟨0, flags⟩) :: ms else ms))
  if c.left = 0 then done 0 c toks else
  c.peek.bind fun b =>
  if b = 40 then
    let flags := match reg with
      | some m => if m.flags.testBit 0 then 1 else 0
      | none => 1
    let toks := toks ++ [c.tok 1 .Paren_Open fPreprocess]
    c.move.bind fun c =>
    (paramLoop fatal (c.rest.length + 1) c toks).bind fun r =>
    match r with
    | none => .ok none
    | some (c, toks) =>
      c.peek.bind fun b =>
      if b ≠ 41 then fail fatal
      else
        let toks := toks ++ [c.tok 1 .Paren_Close fPreprocess]
        c.move.bind fun c => done flags c toks
  else done 0 c toks

/-- lexer.cpp 287-346: the rest of an unsupported directive; the scanner and the number of bytes counted. -/
def unsupLoop (fatal : Bool) : Nat → Bool → Bool → Cur → Res (Cur × Nat)
  | fuel, inStr, inChr, c =>
    if c.left = 0 then .ok (c, 0) else
    match fuel with
    | 0 => .hang
    | fuel + 1 =>
      c.peek.bind fun b =>
      let inStr := if b = 34 ∧ inChr = false then !inStr else inStr
      let inChr := if b = 39 ∧ inStr = false then !inChr else inChr
      if b = 92 ∧ inStr = false ∧ inChr = false then
        c.move.bind fun c =>
        (eatIf 13 c).bind fun x =>
        x.1.peek.bind fun b =>
        if b = 10 then
          x.1.move.bind fun c => (unsupLoop fatal fuel inStr inChr c).bind fun y => .ok (y.1, 1 + x.2 + 1 + y.2)
        else if fatal then .stop
        else .ok (x.1, 1 + x.2)
      else
        (eatIf 13 c).bind fun x =>
        x.1.peek.bind fun b =>
        if b = 10 then x.1.move.bind fun c => .ok (c, x.2 + 1)
        else x.1.move.bind fun c => (unsupLoop fatal fuel inStr inChr c).bind fun y => .ok (y.1, x.2 + 1 + y.2)

/-- lexer.cpp 422-475: the content of a directive. -/
def contentLoop (fatal : Bool) : Nat → Bool → Bool → Cur → Res (Option (Cur × Nat))
  | fuel, inStr, inChr, c =>
    if c.left = 0 then .ok (some (c, 0)) else
    match fuel with
    | 0 => .hang
    | fuel + 1 =>
      c.peek.bind fun b =>
      let inStr := if b = 34 ∧ inChr = false then !inStr else inStr
      let inChr := if b = 39 ∧ inStr = false then !inChr else inChr
      if b = 92 ∧ inStr = false ∧ inChr = false then
        c.move.bind fun c =>
        (eatIf 13 c).bind fun x =>
        x.1.peek.bind fun b =>
        if b = 10 then
          x.1.move.bind fun c => (contentLoop fatal fuel inStr inChr c).bind fun r =>
          match r with
          | none => .ok none
          | some y => .ok (some (y.1, 1 + x.2 + 1 + y.2))
        else fail fatal
      else if b = 13 ∨ b = 10 then .ok (some (c, 0))
      else
        c.move.bind fun c => (contentLoop fatal fuel inStr inChr c).bind fun r =>
        match r with
        | none => .ok none
        | some y => .ok (some (y.1, 1 + y.2))

/-- The place of a token type in the enumeration (etoktype.hpp 8-113). -/
def ord (t : TokType) : Nat := TokType.all.idxOf t

/-- lexer.cpp 267-480 `lex_preprocessor_directive`; `tok` is `ctx->token` (its text still empty). -/
def lexDirective (mem : Bytes) (fatal : Bool) (c : Cur) (tok : Tok) (toks : List Tok) (ms : Macros) :
    Res (Option (Cur × List Tok × Macros)) :=
  let hash := c.pos.off
  let toks := toks ++ [c.tok 1 .Preprocess_Hash fPreprocess]
  c.move.bind fun c =>
  (skipWs c).bind fun c =>
  let start := c.pos.off
  (run (fun b => !charIsSpace b) c).bind fun x =>
  let c := x.1
  let type := strToTokType (slice mem start x.2)
  if ¬ (ord .Preprocess_Define ≤ ord type ∧ ord type ≤ ord .Preprocess_Pragma) then
    (unsupLoop fatal (c.rest.length + 1) false false c).bind fun y =>
    let t : Tok := { tok with start := hash, len := x.2 + y.2 + start - hash, type := .Preprocess_Unsupported }
    .ok (some (y.1, toks ++ [t], ms))
  else if type = .Preprocess_Else ∨ type = .Preprocess_EndIf then
    let t : Tok := { tok with start := start, len := x.2, type := type, flags := tok.flags ||| fPreprocessCond }
    (endLine c).bind fun c => .ok (some (c, toks ++ [t], ms))
  else
    let flags := if ord .Preprocess_If ≤ ord type ∧ ord type ≤ ord .Preprocess_ElIf then tok.flags ||| fPreprocessCond else tok.flags
    let t : Tok := { tok with start := start, len := x.2, type := type, flags := flags }
    let toks := toks ++ [t]
    (skipWs c).bind fun c =>
    (if type = .Preprocess_Define then lexDefine mem fatal c toks ms else .ok (some (c, toks, ms))).bind fun r =>
    match r with
    | none => .ok none
    | some (c, toks, ms) =>
      if type = .Preprocess_Include then
        c.peek.bind fun b =>
        if b ≠ 34 ∧ b ≠ 60 then fail fatal else
        let t := c.tok 0 .String fPreprocess
        c.move.bind fun c =>
        (run (fun b => b != 34 && b != 62) c).bind fun y =>
        y.1.move.bind fun c =>
        let toks := toks ++ [{ t with len := 1 + y.2 + 1 }]
        c.peek.bind fun b =>
        if b = 13 then
          c.peek1.bind fun b1 =>
          if b1 = 10 then c.move.bind fun c => c.move.bind fun c => .ok (some (c, toks, ms))
          else .ok (some (c, toks, ms))
        else if b = 10 then c.move.bind fun c => .ok (some (c, toks, ms))
        else .ok (some (c, toks, ms))
      else
        let t := c.tok 0 .Preprocess_Content fPreprocess
        (contentLoop fatal (c.rest.length + 1) false false c).bind fun r =>
        match r with
        | none => .ok none
        | some y => .ok (some (y.1, toks ++ [{ t with len := y.2 }], ms))

/-- parser_types.hpp 139-147 `macrotype_to_toktype`. -/
def macroTokType (t : Nat) : TokType :=
  if t = 1 then .Preprocess_Macro_Stmt
  else if t = 0 then .Preprocess_Macro_Expr
  else if t = 2 then .Preprocess_Macro_Typename
  else .Invalid

/-- lexer.cpp 491-500: the flags a word gets for the type `str_to_toktype` gives it. -/
def wordFlags (type : TokType) (flags : Nat) : Nat :=
  let flags := if type = .Preprocess_Define ∨ type = .Preprocess_Include then flags ||| fIdentifier else flags
  let flags := if ord type ≤ ord .Access_Public ∧ ord .Access_Private ≤ ord type then flags ||| fAccessSpecifier else flags
  if ord .__Attributes_Start < ord type then flags ||| fAttribute else flags

/-- lexer.cpp 545-557: the flags a macro gets. -/
def macroFlags (m : MacroInfo) (hasArgs : Bool) (flags : Nat) : Nat :=
  let flags := if hasArgs then flags ||| fMacroFunctional else flags
  let flags := if m.flags.testBit 3 then flags ||| fAttribute else flags
  if m.flags.testBit 5 then flags ||| fSpecifier else flags

/-- lexer.cpp 489-565: a word with the text `text`, for which `str_to_toktype` gives `type`. -/
def foundWord (ms : Macros) (c : Cur) (t : Tok) (text : Bytes) (type : TokType) : Res (Cur × Tok) :=
  if type = .Decl_Extern_Linkage then
    (skipWs c).bind fun c =>
    c.peek.bind fun b =>
    if b ≠ 34 then .ok (c, { t with type := .Spec_Extern, flags := wordFlags type t.flags ||| fSpecifier })
    else .ok (c, { t with type := type, flags := wordFlags type t.flags })
  else if (ord type ≤ ord .Star ∧ ord .Spec_Alignas ≤ ord type) ∨ type = .Ampersand ∨ type = .Ampersand_DBL then
    .ok (c, { t with type := type, flags := wordFlags type t.flags ||| fSpecifier })
  else if type ≠ .Invalid then .ok (c, { t with type := type, flags := wordFlags type t.flags })
  else
    (if c.left = 0 then Res.ok false else c.peek.bind fun b => Res.ok (b == 40)).bind fun hasArgs =>
    match lookupMacro ms text with
    | none => .ok (c, { t with type := .Identifier, flags := wordFlags type t.flags })
    | some m =>
      if m.flags.testBit 0 = hasArgs then
        .ok (c, { t with type := macroTokType m.type, flags := macroFlags m hasArgs (wordFlags type t.flags) })
      else .ok (c, { t with type := .Identifier, flags := wordFlags type t.flags })

/-- lexer.cpp 482-565 `lex_found_token`: the token that is appended, and the scanner. -/
def foundToken (mem : Bytes) (ms : Macros) (c : Cur) (t : Tok) : Res (Cur × Tok) :=
  if t.type ≠ .Invalid then .ok (c, t)
  else foundWord ms c t (slice mem t.start t.len) (strToTokType (slice mem t.start t.len))

/-- lexer.cpp 649-665 and 1269-1290: a newline behind a directive or a macro becomes a token. -/
def newlineAfter (c : Cur) (toks : List Tok) : Res (Cur × List Tok) :=
  let t := c.tok 0 .Invalid 0
  (eatIf 13 c).bind fun x =>
  x.1.peek.bind fun b =>
  if b = 10 then x.1.move.bind fun c => .ok (c, toks ++ [{ t with type := .NewLine, len := x.2 + 1 }])
  else .ok (x.1, toks)

/-- lexer.cpp 1026-1031, 1071-1077: `while ( left && * scanner == * ( scanner - 1 ) && Len < 3 )`; `b` is the byte just passed. -/
def repLoop (b : UInt8) : Nat → Cur → Nat → Res (Cur × Nat)
  | fuel, c, len =>
    if c.left = 0 then .ok (c, len) else
    c.peek.bind fun x =>
    if x = b ∧ len < 3 then
      match fuel with
      | 0 => .hang
      | fuel + 1 => c.move.bind fun c => repLoop b fuel c (len + 1)
    else .ok (c, len)

/-- lexer.cpp 910-932: the inside of a string literal; the scanner and the number of bytes counted. -/
def stringLoop : Nat → Cur → Res (Cur × Nat)
  | fuel, c =>
    if c.left = 0 then .ok (c, 0) else
    match fuel with
    | 0 => .hang
    | fuel + 1 =>
      c.peek.bind fun b =>
      if b = 34 then c.move.bind fun c => .ok (c, 0)
      else if b = 92 then
        c.move.bind fun c =>
        if c.left = 0 then (stringLoop fuel c).bind fun y => .ok (y.1, 1 + y.2)
        else c.move.bind fun c => (stringLoop fuel c).bind fun y => .ok (y.1, 2 + y.2)
      else c.move.bind fun c => (stringLoop fuel c).bind fun y => .ok (y.1, 1 + y.2)

/-- `star && slash` (lexer.cpp 1132-1134, 1140-1142); both bytes are read. -/
def atEnd (c : Cur) : Res Bool := c.peek.bind fun b => c.peek1.bind fun b1 => .ok (b == 42 && b1 == 47)

/-- lexer.cpp 1135-1142: the inside of a block comment. -/
def commentLoop : Nat → Cur → Res (Cur × Nat)
  | fuel, c =>
    (atEnd c).bind fun e =>
    if c.left = 0 ∨ e then .ok (c, 0) else
    match fuel with
    | 0 => .hang
    | fuel + 1 => c.move.bind fun c => (commentLoop fuel c).bind fun y => .ok (y.1, y.2 + 1)

/-- What a case of the switch leaves: a token for `FoundToken`, or one that was appended at once (comments). -/
inductive Found where
  | token (c : Cur) (t : Tok)
  | comment (c : Cur) (t : Tok)
  deriving DecidableEq, Repr

/-- `if ( left ) move_forward();`. -/
def moveIfLeft (c : Cur) : Res Cur := if c.left = 0 then .ok c else c.move

/-- A token of one byte (lexer.cpp 750-758, 791-819, 855-864, 936-947). -/
def single (c : Cur) (t : Tok) (type : TokType) (flags : Nat) : Res Found :=
  (moveIfLeft c).bind fun c' => .ok (.token c' { t with start := c.pos.off, len := 1, type := type, flags := flags })

/-- lexer.cpp 678-708: `.` and `...`. -/
def lexDot (fatal : Bool) (c : Cur) (t : Tok) : Res Found :=
  let t : Tok := { t with start := c.pos.off, len := 1, type := .Access_MemberSymbol, flags := fAccessOperator }
  (moveIfLeft c).bind fun c =>
  c.peek.bind fun b =>
  if b = 46 then
    c.move.bind fun c => c.peek.bind fun b =>
    if b = 46 then c.move.bind fun c => .ok (.token c { t with len := 3, type := .Varadic_Argument, flags := 0 })
    else if fatal then .stop
    else .ok (.token c t)
  else .ok (.token c t)

/-- lexer.cpp 709-730: `&` and `&&`. -/
def lexAmp (c : Cur) (t : Tok) : Res Found :=
  let t : Tok := { t with start := c.pos.off, len := 1, type := .Ampersand, flags := t.flags ||| fOperator ||| fSpecifier }
  (moveIfLeft c).bind fun c =>
  c.peek.bind fun b =>
  if b = 38 then (moveIfLeft c).bind fun c => .ok (.token c { t with len := 2, type := .Ampersand_DBL }) else .ok (.token c t)

/-- lexer.cpp 731-749: `:` and `::`. -/
def lexColon (c : Cur) (t : Tok) : Res Found :=
  let t : Tok := { t with start := c.pos.off, len := 1, type := .Assign_Classifer }
  (moveIfLeft c).bind fun c =>
  c.peek.bind fun b =>
  if b = 58 then c.move.bind fun c => .ok (.token c { t with len := 2, type := .Access_StaticSymbol }) else .ok (.token c t)

/-- lexer.cpp 760-772, 889-901: `}` and `;`, with the rest of the line. -/
def lexEnd (c : Cur) (t : Tok) (type : TokType) : Res Found :=
  let t : Tok := { t with start := c.pos.off, len := 1, type := type, flags := fEndDefinition }
  (moveIfLeft c).bind fun c => (endLine c).bind fun c => .ok (.token c t)

/-- lexer.cpp 773-790: `[` and `[]`. -/
def lexSquare (c : Cur) (t : Tok) : Res Found :=
  let t : Tok := { t with start := c.pos.off, len := 1, type := .BraceSquare_Open }
  if c.left = 0 then .ok (.token c t) else
  c.move.bind fun c => c.peek.bind fun b =>
  if b = 93 then c.move.bind fun c => .ok (.token c { t with len := 2, type := .Operator }) else .ok (.token c t)

/-- lexer.cpp 821-854: a character literal. -/
def lexChar (c : Cur) (t : Tok) : Res Found :=
  let t : Tok := { t with start := c.pos.off, len := 1, type := .Char, flags := fLiteral }
  c.move.bind fun c =>
  (if c.left = 0 then Res.ok (c, 1) else
    c.peek.bind fun b =>
    if b = 92 then
      c.move.bind fun c => (eatIf 39 c).bind fun x => Res.ok (x.1, 2 + x.2)
    else Res.ok (c, 1)).bind fun x =>
  (run (fun b => b != 39) x.1).bind fun y =>
  if y.1.left = 0 then .ok (.token y.1 { t with len := x.2 + y.2 })
  else y.1.move.bind fun c => .ok (.token c { t with len := x.2 + y.2 + 1 })

/-- lexer.cpp 866-888, 949-971: `*`, `=`, each with a possible `=` behind it. `flags1` are the flags if there is one. -/
def lexWithAssign (c : Cur) (t : Tok) (type : TokType) (flags flags1 : Nat) : Res Found :=
  let t : Tok := { t with start := c.pos.off, len := 1, type := type, flags := flags }
  (moveIfLeft c).bind fun c =>
  c.peek.bind fun b =>
  if b = 61 then (moveIfLeft c).bind fun c => .ok (.token c { t with len := 2, flags := flags1 }) else .ok (.token c t)

/-- lexer.cpp 902-935: a string literal; its closing quote is not part of the text. -/
def lexString (c : Cur) (t : Tok) : Res Found :=
  let t : Tok := { t with start := c.pos.off, len := 1, type := .String, flags := t.flags ||| fLiteral }
  c.move.bind fun c =>
  (stringLoop (c.rest.length + 1) c).bind fun y => .ok (.token y.1 { t with len := 1 + y.2 })

/-- lexer.cpp 972-1034: `+ % ^ ~ ! < > |`. -/
def lexOperator (b : UInt8) (c : Cur) (t : Tok) : Res Found :=
  let t : Tok := { t with start := c.pos.off, len := 1, type := .Operator, flags := fOperator }
  (moveIfLeft c).bind fun c =>
  c.peek.bind fun x =>
  if x = 61 then (moveIfLeft c).bind fun c => .ok (.token c { t with len := 2, flags := fOperator ||| fAssign })
  else (repLoop b (c.rest.length + 1) c 1).bind fun y => .ok (.token y.1 { t with len := y.2 })

/-- lexer.cpp 1037-1080: `-`. -/
def lexDash (c : Cur) (t : Tok) : Res Found :=
  let t : Tok := { t with start := c.pos.off, len := 1, type := .Operator, flags := fOperator }
  if c.left = 0 then .ok (.token c t) else
  c.move.bind fun c =>
  c.peek.bind fun x =>
  if x = 62 then
    c.move.bind fun c => c.peek.bind fun x =>
    if x = 42 then c.move.bind fun c => .ok (.token c { t with len := 3, flags := fOperator ||| fAccessOperator })
    else .ok (.token c { t with len := 2, flags := fOperator ||| fAccessOperator })
  else if x = 61 then (moveIfLeft c).bind fun c => .ok (.token c { t with len := 2, flags := fOperator ||| fAssign })
  else (repLoop 45 (c.rest.length + 1) c 1).bind fun y => .ok (.token y.1 { t with len := y.2 })

/-- lexer.cpp 1081-1164: `/`, `/=` and comments. -/
def lexSlash (c : Cur) (t : Tok) : Res Found :=
  let t : Tok := { t with start := c.pos.off, len := 1, type := .Operator, flags := fOperator }
  c.move.bind fun c =>
  if c.left = 0 then .ok (.token c t) else
  c.peek.bind fun b =>
  if b = 61 then c.move.bind fun c => .ok (.token c { t with len := 2, flags := fAssign })
  else if b = 47 then
    c.move.bind fun c =>
    (run (fun b => b != 10 && b != 13) c).bind fun x =>
    (eatIf 13 x.1).bind fun y =>
    (eatIf 10 y.1).bind fun z =>
    .ok (.comment z.1 { t with len := 2 + x.2 + y.2 + z.2, type := .Comment, flags := 0 })
  else if b = 42 then
    c.move.bind fun c =>
    (commentLoop (c.rest.length + 1) c).bind fun x =>
    x.1.move.bind fun c => c.move.bind fun c =>
    (eatIf 13 c).bind fun y =>
    (eatIf 10 y.1).bind fun z =>
    .ok (.comment z.1 { t with len := 2 + x.2 + 2 + y.2 + z.2, type := .Comment, flags := 0 })
  else .ok (.token c t)

/-- lexer.cpp 1167-1179: a word. -/
def lexWord (c : Cur) (t : Tok) : Res Found :=
  let t : Tok := { t with start := c.pos.off, len := 1 }
  c.move.bind fun c => (run isWord c).bind fun x => .ok (.token x.1 { t with len := 1 + x.2 })

/-- lexer.cpp 1190-1194: `x X b B o O`. -/
def isBasePrefix (b : UInt8) : Bool := b == 120 || b == 88 || b == 98 || b == 66 || b == 111 || b == 79

/-- lexer.cpp 1223-1229: `l L u U f F i I z Z`. -/
def isSuffix (b : UInt8) : Bool :=
  b == 108 || b == 76 || b == 117 || b == 85 || b == 102 || b == 70 || b == 105 || b == 73 || b == 122 || b == 90

def isL (b : UInt8) : Bool := b == 108 || b == 76

/-- `if ( left && P( * scanner ) ) { move_forward(); Len++; }`: what was there is returned too. -/
def opt (P : UInt8 → Bool) (c : Cur) : Res (Cur × Option UInt8) :=
  if c.left = 0 then .ok (c, none) else
  c.peek.bind fun b => if P b then c.move.bind fun c => .ok (c, some b) else .ok (c, none)

/-- lexer.cpp 1180-1243: a number. -/
def lexNumber (c : Cur) (t : Tok) : Res Found :=
  let t : Tok := { t with start := c.pos.off, len := 1, type := .Number, flags := fLiteral }
  c.move.bind fun c =>
  (opt isBasePrefix c).bind fun p =>
  match p.2 with
  | some _ => (run charIsHexDigit p.1).bind fun x => .ok (.token x.1 { t with len := 2 + x.2 })
  | none =>
    (run charIsDigit p.1).bind fun x =>
    (opt (fun b => b == 46) x.1).bind fun d =>
    match d.2 with
    | none => .ok (.token d.1 { t with len := 1 + x.2 })
    | some _ =>
      (run charIsDigit d.1).bind fun y =>
      (opt isSuffix y.1).bind fun s =>
      match s.2 with
      | none => .ok (.token s.1 { t with len := 1 + x.2 + 1 + y.2 })
      | some prev =>
        (opt (fun b => isL prev && isL b) s.1).bind fun l =>
        .ok (.token l.1 { t with len := 1 + x.2 + 1 + y.2 + 1 + (if l.2.isSome then 1 else 0) })

/-- lexer.cpp 1244-1264: a character no token begins with. -/
def lexUnknown (fatal : Bool) (c : Cur) (t : Tok) : Res Found :=
  if fatal then .stop else
  (run (fun b => !charIsSpace b) c).bind fun x => .ok (.token x.1 t)

/-- lexer.cpp 637-1264: the switch (without `#`) and what follows it; `b` is `* ctx->scanner`. -/
def lexSwitch (fatal : Bool) (b : UInt8) (c : Cur) (t : Tok) : Res Found :=
  if b = 46 then lexDot fatal c t
  else if b = 38 then lexAmp c t
  else if b = 58 then lexColon c t
  else if b = 123 then single c t .BraceCurly_Open t.flags
  else if b = 125 then lexEnd c t .BraceCurly_Close
  else if b = 91 then lexSquare c t
  else if b = 93 then single c t .BraceSquare_Close t.flags
  else if b = 40 then single c t .Paren_Open t.flags
  else if b = 41 then single c t .Paren_Close t.flags
  else if b = 39 then lexChar c t
  else if b = 44 then single c t .Comma fOperator
  else if b = 42 then lexWithAssign c t .Star (t.flags ||| fSpecifier ||| fOperator) (t.flags ||| fSpecifier ||| fOperator ||| fAssign)
  else if b = 59 then lexEnd c t .Statement_End
  else if b = 34 then lexString c t
  else if b = 63 then single c t .Operator fOperator
  else if b = 61 then lexWithAssign c t .Operator (fOperator ||| fAssign) fOperator
  else if b = 43 ∨ b = 37 ∨ b = 94 ∨ b = 126 ∨ b = 33 ∨ b = 60 ∨ b = 62 ∨ b = 124 then lexOperator b c t
  else if b = 45 then lexDash c t
  else if b = 47 then lexSlash c t
  else if charIsAlpha b ∨ b = 95 then lexWord c t
  else if charIsDigit b then lexNumber c t
  else lexUnknown fatal c t

/-- The state between two turns of the loop. -/
structure State where
  cur : Cur
  toks : List Tok
  macros : Macros
  deriving DecidableEq, Repr

/-- lexer.cpp 611-629: at the first column, an optional `\r` and a newline are a token; without the newline the `\r` is skipped. -/
def firstColumn (c : Cur) : Res (Cur × Option Tok) :=
  if c.pos.col = 1 then
    (eatIf 13 c).bind fun x =>
    x.1.peek.bind fun b =>
    if b = 10 then x.1.move.bind fun c' => .ok (c', some (c.tok (x.2 + 1) .NewLine 0))
    else .ok (x.1, none)
  else .ok (c, none)

/-- lexer.cpp 1266-1291: `FoundToken`. -/
def finishToken (mem : Bytes) (s : State) (c : Cur) (t : Tok) : Res State :=
  (foundToken mem s.macros c t).bind fun x =>
  let toks := s.toks ++ [x.2]
  if x.2.type = .Preprocess_Macro_Stmt ∨ x.2.type = .Preprocess_Macro_Expr then
    (newlineAfter x.1 toks).bind fun y => .ok { s with cur := y.1, toks := y.2 }
  else .ok { s with cur := x.1, toks := toks }

/-- lexer.cpp 595-1292: one turn of the loop. `none` is a returned null array. -/
def turn (mem : Bytes) (fatal : Bool) (s : State) : Res (Option State) :=
  let t := s.cur.tok 0 .Invalid 0
  (firstColumn s.cur).bind fun x =>
  match x.2 with
  | some nl => .ok (some { s with cur := x.1, toks := s.toks ++ [nl] })
  | none =>
    (skipWs x.1).bind fun c =>
    if c.left ≤ 0 then .ok (some { s with cur := c }) else
    c.peek.bind fun b =>
    if b = 35 then
      (lexDirective mem fatal c t s.toks s.macros).bind fun r =>
      match r with
      | none => .ok none
      | some (c, toks, ms) => (newlineAfter c toks).bind fun y => .ok (some ⟨y.1, y.2, ms⟩)
    else
      (lexSwitch fatal b c t).bind fun f =>
      match f with
      | .comment c t => .ok (some { s with cur := c, toks := s.toks ++ [t] })
      | .token c t => (finishToken mem s c t).bind fun s => .ok (some s)

/-- lexer.cpp 595-1292: the loop `while ( c.left )`. The `break` of 635 leaves with nothing left, as the loop itself does. -/
def loop (mem : Bytes) (fatal : Bool) : Nat → State → Res (Option State)
  | fuel, s =>
    if s.cur.left = 0 then .ok (some s) else
    match fuel with
    | 0 => .hang
    | fuel + 1 =>
      (turn mem fatal s).bind fun r =>
      match r with
      | none => .ok none
      | some s => loop mem fatal fuel s

/-- lexer.cpp 570-1303 `lex( content )`: `none` is the null array. The macros registered meanwhile are returned with the tokens. -/
def lex (fatal : Bool) (ms : Macros) (content : Bytes) : Res (Option (List Tok × Macros)) :=
  let mem := content ++ [0]
  (skipWs ⟨mem, ⟨0, 1, 1⟩⟩).bind fun c =>
  if c.left ≤ 0 then fail fatal else
  (loop mem fatal (content.length + 2) ⟨c, [], ms⟩).bind fun r =>
  match r with
  | none => .ok none
  | some s => if s.toks = [] then fail fatal else .ok (some (s.toks, s.macros))

end Verif.Lex
