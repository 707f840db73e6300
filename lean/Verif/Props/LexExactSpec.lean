import Verif.Props.LexSpec
/-!
# Which tokens a text has (specification for the exactness theorems of C27)

`Lexes ms p w ts ms'`: read from the position `p` on, with the macros `ms`, the text `w` has exactly the tokens `ts`, and the macros
are `ms'` afterwards. Every clause names a piece of text, what may follow it, and its tokens.
-/
namespace Verif.Lex

/-- The position behind `w`. -/
def Pos.after (p : Pos) (w : Bytes) : Pos := w.foldl Pos.step p

/-- `r` does not begin with a byte of the kind `P`. -/
def NotNext (P : UInt8 → Bool) (r : Bytes) : Prop := ∀ b, r.head? = some b → P b = false

/-- The keywords that are specifiers, and `*`, `&`, `&&`. -/
def specTypes : List TokType :=
  [.Spec_Alignas, .Spec_Const, .Spec_Consteval, .Spec_Constexpr, .Spec_Constinit, .Spec_Explicit, .Spec_Extern, .Spec_Final,
   .Spec_ForceInline, .Spec_Global, .Spec_Inline, .Spec_Internal_Linkage, .Spec_LocalPersist,
   .Spec_Mutable, .Spec_NeverInline, .Spec_Override, .Spec_Restrict, .Spec_Static, .Spec_ThreadLocal, .Spec_Virtual, .Spec_Volatile,
   .Star, .Ampersand, .Ampersand_DBL]

/-- The flags of a keyword: access words, the attribute word, specifiers, and `define` and
`include` (which are marked as identifiers). -/
def keywordFlags (t : TokType) : Nat :=
  (if t = .Preprocess_Define ∨ t = .Preprocess_Include then 4 else 0) +
  (if t = .Access_Private ∨ t = .Access_Protected ∨ t = .Access_Public then 128 else 0) +
  (if t = .Attribute_GEN_API then 32 else 0) +
  (if t ∈ specTypes then 256 else 0)

/-- Punctuation and operators: text, the bytes that must not follow (they would make a longer token), type, flags
(1 operator, 2 assignment, 64 access, 256 specifier). -/
def punctuation : List (Bytes × Bytes × TokType × Nat) :=
  [(b!".", b!".", .Access_MemberSymbol, 64), (b!"...", b!"", .Varadic_Argument, 0),
   (b!"&", b!"&", .Ampersand, 257), (b!"&&", b!"", .Ampersand_DBL, 257),
   (b!":", b!":", .Assign_Classifer, 0), (b!"::", b!"", .Access_StaticSymbol, 0),
   (b!"{", b!"", .BraceCurly_Open, 0), (b!"[", b!"]", .BraceSquare_Open, 0), (b!"[]", b!"", .Operator, 0),
   (b!"]", b!"", .BraceSquare_Close, 0), (b!"(", b!"", .Paren_Open, 0), (b!")", b!"", .Paren_Close, 0),
   (b!",", b!"", .Comma, 1), (b!"?", b!"", .Operator, 1),
   (b!"*", b!"=", .Star, 257), (b!"*=", b!"", .Star, 259),
   (b!"=", b!"=", .Operator, 3), (b!"==", b!"", .Operator, 1),
   (b!"-", b!">=-", .Operator, 1), (b!"->", b!"*", .Operator, 65), (b!"->*", b!"", .Operator, 65), (b!"-=", b!"", .Operator, 3),
   (b!"--", b!"-", .Operator, 1), (b!"---", b!"", .Operator, 1),
   (b!"/", b!"=/*", .Operator, 1), (b!"/=", b!"", .Operator, 2)] ++
  (b!"+%^~!<>|").flatMap fun b =>
    [([b], [61, b], .Operator, 1), ([b, 61], [], .Operator, 3), ([b, b], [b], .Operator, 1), ([b, b, b], [], .Operator, 1)]

/-- The inside of a string literal: every backslash is followed by a byte, quotes only behind a backslash. -/
inductive StrBody : Bytes → Prop where
  | nil : StrBody []
  | plain {b w} : b ≠ 34 → b ≠ 92 → StrBody w → StrBody (b :: w)
  | escape {b w} : StrBody w → StrBody (92 :: b :: w)

/-- The end of a line behind a `;` or `}`: blanks, and the line break if it comes next. -/
inductive LineEnd : Bytes → Bytes → Prop where
  | none {n r} : NotNext (fun b => b == 32 || b == 10 || b == 13) r → LineEnd (List.replicate n 32) r
  | lf {n r} : LineEnd (List.replicate n 32 ++ [10]) r
  | crlf {n r} : LineEnd (List.replicate n 32 ++ [13, 10]) r

/-- What a registered macro of this kind is in the token array. -/
def macroType (m : MacroInfo) : TokType :=
  if m.type = 0 then .Preprocess_Macro_Expr else if m.type = 1 then .Preprocess_Macro_Stmt
  else if m.type = 2 then .Preprocess_Macro_Typename else .Invalid

/-- A functional macro is one only with `(` behind it, another one only without. -/
def UsedAs (m : MacroInfo) (r : Bytes) : Prop := m.flags.testBit 0 = decide (r.head? = some 40)

/-- The flags of a macro: functional, attribute, specifier. -/
def macroUseFlags (m : MacroInfo) : Nat :=
  (if m.flags.testBit 0 then 4096 else 0) + (if m.flags.testBit 3 then 32 else 0) + (if m.flags.testBit 5 then 256 else 0)

/-- `Reads ms x e r ty fl`: the text `x`, followed by `e` (which the token swallows without it being part of its text) and then `r`,
is a token of the type `ty` with the flags `fl`. -/
inductive Reads (ms : Macros) : Bytes → Bytes → Bytes → TokType → Nat → Prop where
  | word {x r} : IsWord x → strToTokType x = .Invalid → lookupMacro ms x = none → NotNext isWord r → Reads ms x [] r .Identifier 0
  | keyword {x r ty} : IsWord x → strToTokType x = ty → ty ≠ .Invalid → ty ≠ .Decl_Extern_Linkage →
      ty ≠ .Preprocess_Macro_Stmt → ty ≠ .Preprocess_Macro_Expr → NotNext isWord r → Reads ms x [] r ty (keywordFlags ty)
  | externSpec {x e r} : IsWord x → strToTokType x = .Decl_Extern_Linkage → NotNext isWord (e ++ r) → (∀ b ∈ e, charIsSpace b = true) →
      NotNext (fun b => charIsSpace b || b == 34) r → Reads ms x e r .Spec_Extern 256
  | externLinkage {x e r} : IsWord x → strToTokType x = .Decl_Extern_Linkage → NotNext isWord (e ++ r) → (∀ b ∈ e, charIsSpace b = true) →
      r.head? = some 34 → Reads ms x e r .Decl_Extern_Linkage 0
  | macroUse {x r m} : IsWord x → strToTokType x = .Invalid → lookupMacro ms x = some m → NotNext isWord r → UsedAs m r →
      (m.type = 2 ∨ NotNext (fun b => b == 13 || b == 10) r) → macroType m ≠ .Invalid →
      Reads ms x [] r (macroType m) (macroUseFlags m)
  | macroMisused {x r m} : IsWord x → strToTokType x = .Invalid → lookupMacro ms x = some m → NotNext isWord r → ¬ UsedAs m r →
      Reads ms x [] r .Identifier 0
  | punct {x f r ty fl} : (x, f, ty, fl) ∈ punctuation → NotNext (fun b => b ∈ f) r → Reads ms x [] r ty fl
  | braceClose {e r} : LineEnd e r → Reads ms b!"}" e r .BraceCurly_Close 512
  | semicolon {e r} : LineEnd e r → Reads ms b!";" e r .Statement_End 512
  | string {w r} : StrBody w → Reads ms (34 :: w) [34] r .String 2048
  | char {w r} : (∀ b ∈ w, b ≠ 39) → w.head? ≠ some 92 → Reads ms (39 :: w ++ [39]) [] r .Char 2048
  | charEscape {q w r} : (q = [39] ∨ (q = [] ∧ w ≠ [])) → (∀ b ∈ w, b ≠ 39) → Reads ms (39 :: 92 :: (q ++ w ++ [39])) [] r .Char 2048
  | integer {x r} : x ≠ [] → (∀ b ∈ x, charIsDigit b = true) →
      NotNext (fun b => charIsDigit b || b == 46 || (x.length == 1 && b!"xXbBoO".contains b)) r → Reads ms x [] r .Number 2048
  | based {d b w r} : charIsDigit d = true → b ∈ b!"xXbBoO" → (∀ b ∈ w, charIsHexDigit b = true) → NotNext charIsHexDigit r →
      Reads ms (d :: b :: w) [] r .Number 2048
  | decimal {x y r} : x ≠ [] → (∀ b ∈ x, charIsDigit b = true) → (∀ b ∈ y, charIsDigit b = true) →
      NotNext (fun b => charIsDigit b || b!"lLuUfFiIzZ".contains b) r → Reads ms (x ++ 46 :: y) [] r .Number 2048
  | suffixed {x y s r} : x ≠ [] → (∀ b ∈ x, charIsDigit b = true) → (∀ b ∈ y, charIsDigit b = true) → s ∈ b!"uUfFiIzZ" →
      Reads ms (x ++ 46 :: y ++ [s]) [] r .Number 2048

/-- White space in front of a token; at the beginning of a line it must not begin with a line break, which is a token itself. -/
def GapAt (p : Pos) (g : Bytes) : Prop := (∀ b ∈ g, charIsSpace b = true) ∧ (p.col = 1 → NotNext (fun b => b == 13 || b == 10) g)

/-- A comment: `//` up to the end of the line, or `/*` up to the first `*/`; the line break right behind it belongs to it. -/
inductive CommentText : Bytes → Bytes → Prop where
  | lineEof {w} : (∀ b ∈ w, b ≠ 10 ∧ b ≠ 13) → CommentText (b!"//" ++ w) []
  | lineLf {w r} : (∀ b ∈ w, b ≠ 10 ∧ b ≠ 13) → CommentText (b!"//" ++ w ++ [10]) r
  | lineCrlf {w r} : (∀ b ∈ w, b ≠ 10 ∧ b ≠ 13) → CommentText (b!"//" ++ w ++ [13, 10]) r
  | block {w r} : (¬ ∃ p q, w ++ b!"*" = p ++ 42 :: 47 :: q) → NotNext (fun b => b == 13 || b == 10) r → CommentText (b!"/*" ++ w ++ b!"*/") r
  | blockLf {w r} : (¬ ∃ p q, w ++ b!"*" = p ++ 42 :: 47 :: q) → CommentText (b!"/*" ++ w ++ b!"*/\n") r

/-- The rest of a directive up to the end of the line, without quotes, backslashes and line breaks. -/
def PlainLine (c : Bytes) : Prop := ∀ b ∈ c, b ≠ 34 ∧ b ≠ 39 ∧ b ≠ 92 ∧ b ≠ 10 ∧ b ≠ 13

/-- A line break behind a directive or a macro is a token. -/
inductive Break (p : Pos) : Bytes → List Tok → Bytes → Prop where
  | none {r} : NotNext (fun b => b == 13 || b == 10) r → Break p [] [] r
  | lf {r} : Break p [10] [⟨p.off, 1, .NewLine, p.line, p.col, 0⟩] r
  | crlf {r} : Break p [13, 10] [⟨p.off, 2, .NewLine, p.line, p.col, 0⟩] r

/-- White space. -/
def Spaces (g : Bytes) : Prop := ∀ b ∈ g, charIsSpace b = true

/-- The word of a directive, recognised as `ty`. -/
def DirectiveWord (k : Bytes) (ty : TokType) : Prop := (∀ b ∈ k, charIsSpace b = false) ∧ strToTokType k = ty

/-- A token at `p` of the length `n`. -/
def tokAt (p : Pos) (n : Nat) (ty : TokType) (fl : Nat) : Tok := ⟨p.off, n, ty, p.line, p.col, fl⟩

/-- The `#` behind the gap `g`, and the word `k` of the directive behind further white space `s`. The word gets the position of the
turn, that is of the gap. -/
def directiveToks (p : Pos) (g s k : Bytes) (ty : TokType) (fl : Nat) : List Tok :=
  [tokAt (p.after g) 1 .Preprocess_Hash 8, ⟨p.off + (g ++ 35 :: s).length, k.length, ty, p.line, p.col, fl⟩]

/-- The directives with a content up to the end of the line, and the flags of their words. -/
def contentDirectives : List (TokType × Nat) :=
  [(.Preprocess_If, 16), (.Preprocess_IfDef, 16), (.Preprocess_IfNotDef, 16), (.Preprocess_ElIf, 16), (.Preprocess_Pragma, 0)]

/-- The parameters of a `#define`, up to the closing parenthesis. -/
inductive DefParams : Pos → Bytes → List Tok → Prop where
  | nil {p} : DefParams p [] []
  | one {p s x s'} : Spaces s → IsWord x → Spaces s' → DefParams p (s ++ x ++ s') [tokAt (p.after s) x.length .Preprocess_Define_Param 8]
  | dots {p s s'} : Spaces s → Spaces s' → DefParams p (s ++ b!"..." ++ s') [tokAt (p.after s) 3 .Preprocess_Define_Param 8]
  | more {p s x s' w ts} : Spaces s → IsWord x → Spaces s' → DefParams (p.after (s ++ x ++ s' ++ [44])) w ts →
      DefParams p (s ++ x ++ s' ++ [44] ++ w) (tokAt (p.after s) x.length .Preprocess_Define_Param 8 ::
        tokAt (p.after (s ++ x ++ s')) 1 .Comma 8 :: ts)

/-- A `#define` makes its name a macro (an expression; functional if it has parameters), unless it is one already. -/
def defineMacro (ms : Macros) (name : Bytes) (functional : Bool) : Macros :=
  if lookupMacro ms name = none then (Crc.crc32 name, ⟨0, if functional then 1 else 0⟩) :: ms else ms

/-- The name behind `#define`, its parameters if there are any, and their tokens. -/
inductive DefHead : Pos → Bytes → Bytes → List Tok → Bool → Prop where
  | object {p n} : IsWord n → DefHead p n n [tokAt p n.length .Identifier 8] false
  | functional {p n w ts} : IsWord n → DefParams (p.after (n ++ [40])) w ts →
      DefHead p n (n ++ [40] ++ w ++ [41]) ([tokAt p n.length .Identifier 8, tokAt (p.after n) 1 .Paren_Open 8] ++ ts ++
        [tokAt (p.after (n ++ [40] ++ w)) 1 .Paren_Close 8]) true

/-- One line of preprocessing, read from `p` on and followed by `r`: its text, its tokens, the macros before and after. -/
inductive Directive (ms : Macros) (p : Pos) : Bytes → Bytes → List Tok → Macros → Prop where
  /-- `#include <d>` or `#include "d"`: the line break behind it is no token -/
  | include {g s k s' o d c nl r} : GapAt p g → Spaces s → DirectiveWord k .Preprocess_Include → Spaces s' → s' ≠ [] →
      (o = 34 ∨ o = 60) → (∀ b ∈ d, b ≠ 34 ∧ b ≠ 62) → (c = 34 ∨ c = 62) →
      (nl = [10] ∨ nl = [13, 10] ∨ (nl = [] ∧ NotNext (fun b => b == 13 || b == 10) r)) →
      Directive ms p (g ++ 35 :: s ++ k ++ s' ++ (o :: d ++ [c]) ++ nl) r
        (directiveToks p g s k .Preprocess_Include 0 ++ [tokAt (p.after (g ++ 35 :: s ++ k ++ s')) (d.length + 2) .String 8]) ms
  /-- `#if c`, `#pragma c` and so on -/
  | content {g s k s' c r ty fl} : GapAt p g → Spaces s → DirectiveWord k ty → (ty, fl) ∈ contentDirectives → Spaces s' → s' ≠ [] →
      PlainLine c → NotNext charIsSpace (c ++ r) → NotNext (fun b => b != 10 && b != 13) r →
      Directive ms p (g ++ 35 :: s ++ k ++ s' ++ c) r
        (directiveToks p g s k ty fl ++ [tokAt (p.after (g ++ 35 :: s ++ k ++ s')) c.length .Preprocess_Content 8]) ms
  /-- `#else`, `#endif`: the rest of the line belongs to them if it is blank -/
  | plain {g s k e r ty} : GapAt p g → Spaces s → DirectiveWord k ty → (ty = .Preprocess_Else ∨ ty = .Preprocess_EndIf) →
      NotNext (fun b => !charIsSpace b) (e ++ r) → LineEnd e r →
      Directive ms p (g ++ 35 :: s ++ k ++ e) r (directiveToks p g s k ty 16) ms
  /-- `#define h c` -/
  | define {g s k s' n h c r ts f} : GapAt p g → Spaces s → DirectiveWord k .Preprocess_Define → Spaces s' → s' ≠ [] →
      DefHead (p.after (g ++ 35 :: s ++ k ++ s')) n h ts f → (f = false → NotNext (fun b => isWord b || b == 40) (c ++ r)) →
      PlainLine c → NotNext (fun b => b != 10 && b != 13) r →
      Directive ms p (g ++ 35 :: s ++ k ++ s' ++ h ++ c) r
        (directiveToks p g s k .Preprocess_Define 0 ++ ts ++
          [tokAt (p.after (g ++ 35 :: s ++ k ++ s' ++ h)) c.length .Preprocess_Content 8]) (defineMacro ms n f)

/-- `Lexes ms p w ts ms'`: see the head of the file. -/
inductive Lexes : Macros → Pos → Bytes → List Tok → Macros → Prop where
  /-- white space at the end -/
  | done {ms p g} : GapAt p g → Lexes ms p g [] ms
  /-- a line break at the beginning of a line -/
  | newline {ms p w ts ms'} : p.col = 1 → Lexes ms (p.after [10]) w ts ms' →
      Lexes ms p (10 :: w) (tokAt p 1 .NewLine 0 :: ts) ms'
  | newlineCrlf {ms p w ts ms'} : p.col = 1 → Lexes ms (p.after [13, 10]) w ts ms' →
      Lexes ms p (13 :: 10 :: w) (tokAt p 2 .NewLine 0 :: ts) ms'
  /-- a token behind white space; it is recorded at the position in front of the white space -/
  | token {ms p g x e w ty fl ts ms'} : GapAt p g → Reads ms x e w ty fl → Lexes ms (p.after (g ++ x ++ e)) w ts ms' →
      Lexes ms p (g ++ x ++ e ++ w) (⟨p.off + g.length, x.length, ty, p.line, p.col, fl⟩ :: ts) ms'
  /-- a macro at the end of a line -/
  | macroLine {ms p g x nl w m tn ts ms'} : GapAt p g → IsWord x → strToTokType x = .Invalid → lookupMacro ms x = some m →
      m.flags.testBit 0 = false → (m.type = 0 ∨ m.type = 1) → Break (p.after (g ++ x)) nl tn w → nl ≠ [] →
      Lexes ms (p.after (g ++ x ++ nl)) w ts ms' →
      Lexes ms p (g ++ x ++ nl ++ w) (⟨p.off + g.length, x.length, macroType m, p.line, p.col, macroUseFlags m⟩ :: tn ++ ts) ms'
  /-- a comment -/
  | comment {ms p g x w ts ms'} : GapAt p g → CommentText x w → Lexes ms (p.after (g ++ x)) w ts ms' →
      Lexes ms p (g ++ x ++ w) (⟨p.off + g.length, x.length, .Comment, p.line, p.col, 0⟩ :: ts) ms'
  /-- a directive, and the line break behind it -/
  | directive {ms p x nl w td tn ts ms1 ms'} : Directive ms p x (nl ++ w) td ms1 → Break (p.after x) nl tn w →
      Lexes ms1 (p.after (x ++ nl)) w ts ms' → Lexes ms p (x ++ nl ++ w) (td ++ tn ++ ts) ms'

end Verif.Lex
