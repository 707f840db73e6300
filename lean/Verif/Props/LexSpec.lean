import Verif.Model.Lexer
/-!
# What a token array says about the content (specification for C26-C28)
-/
namespace Verif.Lex

/-- The line of the byte behind `w`. -/
def lineOf (w : Bytes) : Nat := 1 + w.count 10
/-- The column of the byte behind `w`: one more than the number of bytes since the last newline. -/
def colOf (w : Bytes) : Nat := 1 + (w.reverse.takeWhile fun b => b != 10).length

/-- The recorded position of a token that begins behind `w`: it is the position of some earlier place from which only whitespace (and,
for the word of a directive, its `#`) leads to the token. -/
def Placed (w : Bytes) (t : Tok) : Prop :=
  ∃ q r, w = q ++ r ∧ t.line = lineOf q ∧ t.col = colOf q ∧
    ∀ b ∈ r, charIsSpace b = true ∨ (b = 35 ∧ ord .Preprocess_Define ≤ ord t.type ∧ ord t.type ≤ ord .Preprocess_Pragma)

/-- What may be dropped in front of a token: whitespace, and backslashes inside the parameter list of a `#define`. -/
def Gap (t : Tok) (g : Bytes) : Prop :=
  ∀ b ∈ g, charIsSpace b = true ∨ (b = 92 ∧ (t.type = .Preprocess_Define_Param ∨ t.type = .Paren_Close))

/-- A letter or `_`, then letters, digits and `_`. -/
def IsWord (x : Bytes) : Prop :=
  ∃ a r, x = a :: r ∧ (charIsAlpha a = true ∨ a = 95) ∧ ∀ b ∈ r, charIsAlphanumeric b = true ∨ b = 95

/-- The bytes an operator of `lexOperator` begins with: `+ % ^ ~ ! < > |`. -/
def OpByte (b : UInt8) : Prop := b = 43 ∨ b = 37 ∨ b = 94 ∨ b = 126 ∨ b = 33 ∨ b = 60 ∨ b = 62 ∨ b = 124

/-- The texts the tokens of a type can have, without keywords. -/
def Shape (t : Tok) (x : Bytes) : Prop :=
  match t.type with
  | .NewLine => x = [10] ∨ x = [13, 10]
  | .Access_MemberSymbol => x = b!"."
  | .Varadic_Argument => x = b!"..."
  | .Access_StaticSymbol => x = b!"::"
  | .Assign_Classifer => x = b!":"
  | .Ampersand => x = b!"&"
  | .Ampersand_DBL => x = b!"&&"
  | .BraceCurly_Open => x = b!"{"
  | .BraceCurly_Close => x = b!"}"
  | .BraceSquare_Open => x = b!"["
  | .BraceSquare_Close => x = b!"]"
  | .Paren_Open => x = b!"("
  | .Paren_Close => x = b!")"
  | .Comma => x = b!","
  | .Statement_End => x = b!";"
  | .Star => x = b!"*" ∨ x = b!"*="
  | .Operator => x = b!"[]" ∨ x = b!"?" ∨ x = b!"=" ∨ x = b!"==" ∨ x = b!"/" ∨ x = b!"/=" ∨ x = b!"->" ∨ x = b!"->*" ∨
      ∃ b, (OpByte b ∨ b = 45) ∧ (x = [b, 61] ∨ x = [b] ∨ x = [b, b] ∨ x = [b, b, b])
  | .Char => ∃ r, x = 39 :: r
  | .String => ∃ r, x = 34 :: r ∨ x = 60 :: r
  | .Number => ∃ a r, x = a :: r ∧ charIsDigit a = true ∧ ∀ b ∈ r, charIsAlphanumeric b = true ∨ b = 46
  | .Comment => ∃ r, x = 47 :: 47 :: r ∨ x = 47 :: 42 :: r
  | .Spec_Extern => strToTokType x = .Decl_Extern_Linkage
  | .Preprocess_Hash => x = b!"#"
  | .Preprocess_Define_Param => x = b!"..." ∨ IsWord x
  | .Preprocess_Content => True
  | .Identifier => (IsWord x ∧ strToTokType x = .Invalid) ∨
      (t.flags = fPreprocess ∧ ∃ a r, x = a :: r ∧ ∀ b ∈ r, charIsAlphanumeric b = true ∨ b = 95)
  | .Preprocess_Macro_Stmt | .Preprocess_Macro_Expr | .Preprocess_Macro_Typename | .Invalid => IsWord x ∧ strToTokType x = .Invalid
  | _ => False

/-- The text of a token suits its type: a keyword (or attribute) with that type, or a text of the right shape. The name behind
`#define` is an identifier that may begin with any byte. -/
def Lexeme (t : Tok) (x : Bytes) : Prop := (t.type ≠ .Invalid ∧ strToTokType x = t.type) ∨ Shape t x

/-- `Tiled w ts`: the text `w`, read from left to right, consists of the texts of the tokens `ts` in this order, of whitespace, of the
closing quotes of string literals and of backslashes between the parameters of a `#define`. An unsupported directive is one token
from its `#` on, behind the token for that `#`. -/
inductive Tiled : Bytes → List Tok → Prop where
  | nil : Tiled [] []
  | white {w ts b} : Tiled w ts → charIsSpace b = true → Tiled (w ++ [b]) ts
  | tok {w ts g x} {t : Tok} : Tiled w ts → Gap t g → t.start = w.length + g.length → t.len = x.length → Lexeme t x → Placed (w ++ g) t →
      Tiled (w ++ g ++ x) (ts ++ [t])
  | quote {w ts} {t : Tok} : Tiled w (ts ++ [t]) → t.type = .String → t.start + t.len = w.length → Tiled (w ++ [34]) (ts ++ [t])
  | unsupported {w ts x} {h t : Tok} : Tiled (w ++ [35]) (ts ++ [h]) → h.type = .Preprocess_Hash → h.start = w.length →
      t.type = .Preprocess_Unsupported → t.start = w.length → t.len = 1 + x.length → Placed w t →
      Tiled (w ++ [35] ++ x) (ts ++ [h] ++ [t])

/-- Every carriage return is followed by a newline. -/
def Crlf (content : Bytes) : Prop := ∀ a b, content = a ++ 13 :: b → ∃ r, b = 10 :: r

/-- What a text must satisfy for the lexer to stay inside it: carriage returns only before newlines; every `/*` is followed by a
`*/`; behind `#include` (more precisely, behind `#`, whitespace, and a word that is recognised as `include`) and an opening quote or
bracket there is a closing one; behind `#define` there is something. -/
structure Safe (content : Bytes) : Prop where
  crlf : Crlf content
  comments : ∀ a b, content = a ++ 47 :: 42 :: b → ∃ p q, b = p ++ 42 :: 47 :: q
  includes : ∀ a s w s' o d, content = a ++ 35 :: (s ++ (w ++ (s' ++ o :: d))) → (∀ b ∈ s, charIsSpace b = true) →
    (∀ b ∈ s', charIsSpace b = true) → strToTokType w = .Preprocess_Include → (o = 34 ∨ o = 60) → ∃ e ∈ d, e = 34 ∨ e = 62
  defines : ∀ a s w d, content = a ++ 35 :: (s ++ (w ++ d)) → (∀ b ∈ s, charIsSpace b = true) →
    strToTokType w = .Preprocess_Define → ∃ b ∈ d, charIsSpace b = false

end Verif.Lex
