import Verif.Props.LayoutSpec
import Verif.Props.ReadBodySpec
/-!
# C59, specification: printed declarations

Declarations as trees, and how they are written in normal form (`text`). Expressions and bodies of functions are any tokens with any white space between them; the
rest is laid out as the library prints it. `Ok` says which trees are meant.
-/
namespace Verif.Round
open Verif.Lex (Tok Macros Piece Reads CommentText Spaces NotNext)
open Verif.Parse (builtinTypes typeSuffixes typeText varSpecs fnSpecs fnSuffixes specWords boundsText Value Inside Balanced depth Tidied after vendorTypes placeSpecs
  firstSpecs Place RecordKind)

/-! ## Pieces of code -/

/-- The text of the pieces. -/
def written (l : List Piece) : Bytes := l.flatMap Piece.all

/-- A piece with `r` behind it: a token, a line break at the beginning of a line (`b`), or a comment. -/
inductive IsPiece (ms : Macros) (b : Bool) : Piece → Bytes → Prop where
  | token {q r} : Reads ms q.text q.over r q.type q.flags → IsPiece ms b q r
  | newline {r} : b = true → IsPiece ms b ⟨[], [10], [], .NewLine, 0⟩ r
  | comment {g x r} : CommentText x r → IsPiece ms b ⟨g, x, [], .Comment, 0⟩ r

/-- Behind `w` a line begins; `b` says so for the place in front of it. -/
def lineStart (b : Bool) (w : Bytes) : Bool :=
  match w.getLast? with
  | none => b
  | some x => x == 10

/-- The lexer reads the pieces one by one, if they are followed by `r`. -/
def Sits (ms : Macros) : Bool → List Piece → Bytes → Prop
  | _, [], _ => True
  | b, q :: l, r => Spaces q.gap ∧ (b = true → NotNext (fun b => b == 13 || b == 10) q.gap) ∧ IsPiece ms b q (written l ++ r) ∧ Sits ms (lineStart b q.all) l r

/-- Tokens of the same types. -/
def shape (k : List Piece) : List Tok := k.map fun q => ⟨0, q.text.length, q.type, 0, 0, q.flags⟩

/-- An expression in front of `r`: some tokens, no comments. -/
structure IsCode (ms : Macros) (k : List Piece) (r : Bytes) : Prop where
  filled : k ≠ []
  tight : ∀ q, k.head? = some q → q.gap = []
  sits : Sits ms false k r
  code : ∀ q ∈ k, q.type ≠ .NewLine ∧ q.type ≠ .Comment

/-- The last token swallows nothing. (A string literal does: its closing quote is not part of the token.) -/
def Closed (k : List Piece) : Prop := ∀ q, k.getLast? = some q → q.over = []

/-! ## Names and types -/

/-- A word that is neither a keyword nor a macro. -/
structure IsName (ms : Macros) (x : Bytes) : Prop where
  word : Lex.IsWord x
  plain : strToTokType x = .Invalid
  free : Lex.lookupMacro ms x = none

/-- `A::B`. -/
structure Qual where
  first : Bytes
  more : List Bytes

def Qual.text (q : Qual) : Bytes := q.first ++ q.more.flatMap fun x => b!"::" ++ x

def Qual.Ok (ms : Macros) (q : Qual) : Prop := ∀ x ∈ q.first :: q.more, IsName ms x

/-- The name of a type: a qualified name, or keywords. -/
inductive TypeName where
  | name (q : Qual)
  | native (first : Bytes) (more : List Bytes)

def TypeName.text : TypeName → Bytes
  | .name q => q.text
  | .native f l => f ++ l.flatMap fun x => b!" " ++ x

def TypeName.Ok (ms : Macros) : TypeName → Prop
  | .name q => q.Ok ms
  | .native f l => ∀ x ∈ f :: l, Lex.IsWord x ∧ strToTokType x ∈ builtinTypes

/-- A type. -/
structure Ty where
  name : TypeName
  specs : List Specifier

def Ty.text (t : Ty) : Bytes := typeText t.name.text t.specs

/-- No `&` stands right in front of `&` or `&&`: they would be read as another token. -/
structure Ty.Ok (ms : Macros) (t : Ty) : Prop where
  name : t.name.Ok ms
  specs : ∀ s ∈ t.specs, s ∈ typeSuffixes
  few : t.specs.length ≤ 14
  refs : ∀ s, [.Ref, s] <:+: t.specs → s ≠ .Ref ∧ s ≠ .RValue

/-! ## Variables -/

inductive Init where
  | none
  | value (k : List Piece)
  | parens (k : List Piece)

def Init.text : Init → Bytes
  | .none => []
  | .value k => b!" = " ++ written k
  | .parens k => b!"( " ++ written k ++ b!"  )"

inductive Init.Ok (ms : Macros) : Init → Prop where
  | none : Init.Ok ms .none
  | value {k} : IsCode ms k b!";" → Value (shape k) → Init.Ok ms (.value k)
  | parens {k} : IsCode ms k b!"  )" → Closed k → Inside .Paren_Open .Paren_Close (shape k) → Init.Ok ms (.parens k)

inductive Tail where
  | array (bounds : List (List Piece)) (init : Init)
  | bits (k : List Piece)

def Tail.text : Tail → Bytes
  | .array l i => boundsText (l.map written) ++ i.text
  | .bits k => b!" : " ++ written k

/-- The bound of an array. -/
def IsBound (ms : Macros) (k : List Piece) : Prop := IsCode ms k b!" ]" ∧ Closed k ∧ ∀ q ∈ k, q.type ≠ .BraceSquare_Close

inductive Tail.Ok (ms : Macros) : Tail → Prop where
  | array {l i} : (∀ k ∈ l, IsBound ms k) → i.Ok ms → Tail.Ok ms (.array l i)
  | bits {k} : IsCode ms k b!";" → Closed k → (∀ q ∈ k, q.type ≠ .Statement_End) → Tail.Ok ms (.bits k)

structure Var where
  specs : List Specifier
  ty : Ty
  name : Qual
  tail : Tail

def Var.text (v : Var) : Bytes :=
  (if v.specs = [] then [] else Ser.specsText v.specs) ++ v.ty.text ++ b!" " ++ v.name.text ++ v.tail.text ++ b!";\n"

/-- A variable with specifiers among `l`; `extern` is not covered. -/
structure Var.Ok (ms : Macros) (l : List Specifier) (v : Var) : Prop where
  specs : ∀ s ∈ v.specs, s ∈ l ∧ s ≠ .External_Linkage
  few : v.specs.length ≤ 14
  ty : v.ty.Ok ms
  name : v.name.Ok ms
  tail : v.tail.Ok ms

/-! ## Functions -/

/-- A parameter; name and default value may be empty. -/
structure Param where
  ty : Ty
  name : Bytes
  value : List Piece

def Param.text (p : Param) : Bytes := b!" " ++ p.ty.text ++ after b!" " p.name ++ after b!" = " (written p.value)

/-- Commas and closing parentheses only inside parentheses. -/
def Shallow (vs : List Tok) : Prop :=
  (∀ pre t post, vs = pre ++ t :: post → t.type = .Comma ∨ t.type = .Paren_Close → 0 < depth [.Paren_Open] [.Paren_Close] pre 0) ∧
    depth [.Paren_Open] [.Paren_Close] vs 0 = 0

/-- A default value, in front of a comma or `)`: no angle brackets, and single spaces. -/
structure IsDefault (ms : Macros) (k : List Piece) : Prop where
  code : IsCode ms k b!")"
  comma : IsCode ms k b!","
  closed : Closed k
  shallow : Shallow (shape k)
  angle : ∀ b ∈ written k, b ≠ 60 ∧ b ≠ 62
  tidy : Tidied (written k) (written k)

structure Param.Ok (ms : Macros) (p : Param) : Prop where
  ty : p.ty.Ok ms
  name : p.name ≠ [] → IsName ms p.name
  value : p.value ≠ [] → IsDefault ms p.value

/-- The text without what the last token swallows. -/
def bare : List Piece → Bytes
  | [] => []
  | [q] => q.gap ++ q.text
  | q :: r :: l => q.all ++ bare (r :: l)

/-- The body of a function: nothing, or lines of code and comments that end with `;` or `}`; the braces are balanced. -/
structure IsFnBody (ms : Macros) (k : List Piece) : Prop where
  tight : ∀ q, k.head? = some q → q.gap = [] ∧ q.type ≠ .NewLine
  sits : Sits ms true k b!"}"
  ends : ∀ q, k.getLast? = some q → (q.type = .Statement_End ∨ q.type = .BraceCurly_Close) ∧ q.over = [10]
  balanced : Balanced (shape k)

structure Fn where
  lead : List Specifier
  ty : Ty
  name : Qual
  params : List Param
  trail : List Specifier
  body : Option (List Piece)

def Fn.ending : Option (List Piece) → Bytes
  | none => b!";\n"
  | some k => b!"\n{\n" ++ bare k ++ b!"\n}\n"

def Fn.text (f : Fn) : Bytes :=
  specWords f.lead ++ (if f.lead = [] then [] else b!"\n") ++ f.ty.text ++ b!" " ++ f.name.text ++ b!"(" ++ b!", ".intercalate (f.params.map Param.text) ++ b!")" ++
    specWords f.trail ++ Fn.ending f.body

/-- A function with specifiers among `l`. -/
structure Fn.Ok (ms : Macros) (l : List Specifier) (f : Fn) : Prop where
  lead : ∀ s ∈ f.lead, s ∈ l ∧ s ≠ .External_Linkage
  ty : f.ty.Ok ms
  name : f.name.Ok ms
  params : ∀ p ∈ f.params, p.Ok ms
  trail : ∀ s ∈ f.trail, s ∈ fnSuffixes ∧ Lex.lookupMacro ms (specToStr s) = none
  few : f.lead.length + f.trail.length ≤ 14
  body : ∀ k, f.body = some k → IsFnBody ms k

/-! ## Names for types, enums -/

inductive Alias where
  | named (name : Bytes) (ty : Ty) (bounds : List (List Piece))
  | space (name : Bytes)
  | typedef (ty : Ty) (name : Bytes) (bounds : List (List Piece))

def Alias.text : Alias → Bytes
  | .named n t l => b!"using " ++ n ++ b!" = " ++ t.text ++ boundsText (l.map written) ++ b!";\n"
  | .space n => b!"using namespace " ++ n ++ b!";\n"
  | .typedef t n l => b!"typedef " ++ t.text ++ b!" " ++ n ++ boundsText (l.map written) ++ b!";\n"

inductive Alias.Ok (ms : Macros) : Alias → Prop where
  | named {n t l} : IsName ms n → t.Ok ms → (∀ k ∈ l, IsBound ms k) → Alias.Ok ms (.named n t l)
  | space {n} : IsName ms n → Alias.Ok ms (.space n)
  | typedef {t n l} : t.Ok ms → IsName ms n → (∀ k ∈ l, IsBound ms k) → l.length ≤ 1 → Alias.Ok ms (.typedef t n l)

/-- An enumerator; the value may be empty. -/
structure Entry where
  name : Bytes
  value : List Piece

def Entry.text (e : Entry) : Bytes := e.name ++ after b!" = " (written e.value)

structure Entry.Ok (ms : Macros) (e : Entry) : Prop where
  name : IsName ms e.name
  value : e.value ≠ [] → IsCode ms e.value b!"," ∧ IsCode ms e.value b!"\n" ∧ Closed e.value ∧ ∀ q ∈ e.value, q.type ≠ .Comma ∧ q.type ≠ .BraceCurly_Close

/-- An enum; `comma` says that a comma stands behind the last enumerator. -/
structure Enum where
  cls : Bool
  name : Bytes
  under : Option Ty
  entries : List Entry
  comma : Bool

def Enum.head (e : Enum) : Bytes :=
  (if e.cls then b!"enum class " else b!"enum ") ++ e.name ++ match e.under with
    | none => []
    | some t => b!" : " ++ t.text

def Enum.inner (e : Enum) : Bytes := b!",".intercalate (e.entries.map Entry.text) ++ if e.comma ∧ e.entries ≠ [] then b!"," else []

def Enum.text (e : Enum) : Bytes := e.head ++ b!"\n{\n" ++ e.inner ++ b!"\n};\n"

/-- An `enum class` has an underlying type. -/
structure Enum.Ok (ms : Macros) (e : Enum) : Prop where
  name : IsName ms e.name
  cls : e.cls = true → e.under ≠ none
  under : ∀ t, e.under = some t → t.Ok ms
  entries : ∀ x ∈ e.entries, x.Ok ms

/-! ## Bodies -/

inductive Access where
  | pub
  | pro
  | pri

def Access.word : Access → Bytes
  | .pub => b!"public"
  | .pro => b!"protected"
  | .pri => b!"private"

/-- The head of a class or struct; a struct needs no name. -/
inductive RecHead where
  | named (k : RecordKind) (name : Qual) (final : Bool)
  | unnamed

def RecHead.text : RecHead → Bytes
  | .named k n f => k.word ++ n.text ++ if f then b!" final" else []
  | .unnamed => b!"struct "

def RecHead.Ok (ms : Macros) : RecHead → Prop
  | .named _ n _ => n.Ok ms
  | .unnamed => True

/-- What stands in a body, one after the other. -/
inductive Body where
  | nil
  | newline (rest : Body)
  | comment (x : Bytes) (rest : Body)
  | label (a : Access) (rest : Body)
  | var (v : Var) (rest : Body)
  | fn (f : Fn) (rest : Body)
  | alias (a : Alias) (rest : Body)
  | forward (k : RecordKind) (name : Bytes) (rest : Body)
  | enumFwd (name : Bytes) (rest : Body)
  | enum (e : Enum) (rest : Body)
  | record (h : RecHead) (inner : Body) (rest : Body)
  | union (name : Bytes) (inner : Body) (rest : Body)
  | space (name : Qual) (inner : Body) (rest : Body)
  | linkage (name : Bytes) (inner : Body) (rest : Body)

def Body.text : Body → Bytes
  | .nil => []
  | .newline r => b!"\n" ++ r.text
  | .comment x r => x ++ r.text
  | .label a r => a.word ++ b!":\n" ++ r.text
  | .var v r => v.text ++ r.text
  | .fn f r => f.text ++ r.text
  | .alias a r => a.text ++ r.text
  | .forward k n r => k.word ++ n ++ b!";\n" ++ r.text
  | .enumFwd n r => b!"enum " ++ n ++ b!";\n" ++ r.text
  | .enum e r => e.text ++ r.text
  | .record h i r => h.text ++ b!"\n{\n" ++ i.text ++ b!"\n};\n" ++ r.text
  | .union n i r => b!"union " ++ n ++ b!"\n{\n" ++ i.text ++ b!"\n};\n" ++ r.text
  | .space n i r => b!"namespace " ++ n.text ++ b!"\n{\n" ++ i.text ++ b!"\n}\n" ++ r.text
  | .linkage n i r => b!"extern \"" ++ n ++ b!"\"\n{\n" ++ i.text ++ b!"\n}\n" ++ r.text

/-- With an empty line at the end, unless there is nothing or a label in front of it; `b`: the body begins behind an opening brace or a label. -/
def Body.closed (b : Bool) : Body → Body
  | .nil => if b then .nil else .newline .nil
  | .newline r => .newline (r.closed false)
  | .comment x r => .comment x (r.closed false)
  | .label a r => .label a (r.closed true)
  | .var v r => .var v (r.closed false)
  | .fn f r => .fn f (r.closed false)
  | .alias a r => .alias a (r.closed false)
  | .forward k n r => .forward k n (r.closed false)
  | .enumFwd n r => .enumFwd n (r.closed false)
  | .enum e r => .enum e (r.closed false)
  | .record h i r => .record h i (r.closed false)
  | .union n i r => .union n i (r.closed false)
  | .space n i r => .space n i (r.closed false)
  | .linkage n i r => .linkage n i (r.closed false)

/-- What comes back: every pair of braces gets an empty line more. -/
def Body.again : Body → Body
  | .nil => .nil
  | .newline r => .newline r.again
  | .comment x r => .comment x r.again
  | .label a r => .label a r.again
  | .var v r => .var v r.again
  | .fn f r => .fn f r.again
  | .alias a r => .alias a r.again
  | .forward k n r => .forward k n r.again
  | .enumFwd n r => .enumFwd n r.again
  | .enum e r => .enum e r.again
  | .record h i r => .record h (i.again.closed true) r.again
  | .union n i r => .union n (i.again.closed true) r.again
  | .space n i r => .space n (i.again.closed true) r.again
  | .linkage n i r => .linkage n (i.again.closed true) r.again

/-- Nothing or a label stands at the end of the body; `b`: so it is in front of it. -/
def bodyEnd (b : Bool) : Body → Bool
  | .nil => b
  | .newline r => bodyEnd false r
  | .comment _ r => bodyEnd false r
  | .label _ r => bodyEnd true r
  | .var _ r => bodyEnd false r
  | .fn _ r => bodyEnd false r
  | .alias _ r => bodyEnd false r
  | .forward _ _ r => bodyEnd false r
  | .enumFwd _ r => bodyEnd false r
  | .enum _ r => bodyEnd false r
  | .record _ _ r => bodyEnd false r
  | .union _ _ r => bodyEnd false r
  | .space _ _ r => bodyEnd false r
  | .linkage _ _ r => bodyEnd false r

/-- The pairs of braces with something in them, up to labels: each of them gets an empty line. -/
def Body.blanks : Body → Nat
  | .nil => 0
  | .newline r => r.blanks
  | .comment _ r => r.blanks
  | .label _ r => r.blanks
  | .var _ r => r.blanks
  | .fn _ r => r.blanks
  | .alias _ r => r.blanks
  | .forward _ _ r => r.blanks
  | .enumFwd _ r => r.blanks
  | .enum _ r => r.blanks
  | .record _ i r => (if bodyEnd true i then 0 else 1) + i.blanks + r.blanks
  | .union _ i r => (if bodyEnd true i then 0 else 1) + i.blanks + r.blanks
  | .space _ i r => (if bodyEnd true i then 0 else 1) + i.blanks + r.blanks
  | .linkage _ i r => (if bodyEnd true i then 0 else 1) + i.blanks + r.blanks

/-- A comment that ends with its line. -/
inductive IsComment : Bytes → Prop where
  | line {w} : (∀ b ∈ w, b ≠ 10 ∧ b ≠ 13) → IsComment (b!"//" ++ w ++ b!"\n")
  | block {w} : (¬ ∃ p q, w ++ b!"*" = p ++ 42 :: 47 :: q) → IsComment (b!"/*" ++ w ++ b!"*/\n")

/-- The code a tail begins with. -/
def Tail.code : Tail → List Piece
  | .array (k :: _) _ => k
  | .array [] (.value k) => k
  | .array [] (.parens k) => k
  | .array [] .none => []
  | .bits k => k

/-- All the code of a tail. -/
def Tail.codes : Tail → List (List Piece)
  | .array l (.value k) => l ++ [k]
  | .array l (.parens k) => l ++ [k]
  | .array l .none => l
  | .bits k => [k]

/-- Where something may be called: `pre` is what stands in front of the parenthesis. Nothing that looks like a destructor or a constructor: no `~a(`, and no `A::B(`
where `A` begins with `B`. -/
structure Callable (pre : List Piece) : Prop where
  tilde : ∀ l x y, pre = l ++ [x, y] → y.type = .Identifier → x.type = .Operator → x.text.head? ≠ some 126
  scope : ∀ l w x y, pre = l ++ [w, x, y] → x.type = .Access_StaticSymbol → y.type = .Identifier → w.type = .Identifier ∧ w.flags = 0 ∧ Lex.IsWord w.text ∧ y.flags = 0 ∧
    Lex.IsWord y.text ∧ ¬ y.text <+: w.text

/-- Code in a file or namespace: no calls that look like constructors, no `::` in front, and braces only in pairs. -/
structure Tame (k : List Piece) : Prop where
  callable : ∀ pre z post, k = pre ++ z :: post → z.type = .Paren_Open → Callable pre
  head : ∀ q, k.head? = some q → q.type ≠ .Access_StaticSymbol ∧ q.type ≠ .Paren_Open
  balanced : Balanced (shape k)

/-- The first keyword of a type is none of Microsoft's. -/
def Ty.NotVendor (t : Ty) : Prop := ∀ f l, t.name = .native f l → strToTokType f ∉ vendorTypes

/-- The specifiers of a declaration in a body. -/
def SpecsAt (p : Place) (l : List Specifier) (t : Ty) : Prop :=
  (∀ s, l.head? = some s → s ∈ firstSpecs p) ∧ (l = [] → t.NotVendor)

/-- A variable in a body: no parentheses behind the name, and no macro at the beginning of its tail. -/
structure Var.At (ms : Macros) (p : Place) (v : Var) : Prop where
  ok : v.Ok ms (placeSpecs p)
  specs : SpecsAt p v.specs v.ty
  eval : .Consteval ∉ v.specs
  parens : ∀ l k, v.tail ≠ .array l (.parens k)
  noMacro : ∀ q, v.tail.code.head? = some q → q.type ≠ .Preprocess_Macro_Expr
  calls : ∀ k ∈ v.tail.codes, Tame k

/-- A function in a body. If it has several parameters, the first one must not be a single word: `f(A, B)` is read as a variable. It has not the name of a constructor. -/
structure Fn.At (ms : Macros) (p : Place) (f : Fn) : Prop where
  ok : f.Ok ms (placeSpecs p)
  specs : SpecsAt p f.lead f.ty
  volatile : .Volatile ∉ f.lead
  first : ∀ a b l, f.params = a :: b :: l → a.name ≠ [] ∨ a.value ≠ [] ∨ a.ty.specs ≠ [] ∨
    (match a.ty.name with | .name q => q.more | .native _ l => l) ≠ []
  ctor : ∀ l w x, f.name.first :: f.name.more = l ++ [w, x] → ¬ x <+: w
  calls : (∀ a ∈ f.params, Tame a.value) ∧ ∀ k, f.body = some k → Tame k

/-- A variable in a union. -/
structure Var.InUnion (ms : Macros) (v : Var) : Prop where
  ok : v.Ok ms varSpecs
  parens : ∀ l k, v.tail ≠ .array l (.parens k)
  calls : ∀ k ∈ v.tail.codes, Tame k

/-- A body at the place `p`; `b`: behind an opening brace, a label, or at the beginning of the file, where empty lines get lost. -/
inductive Body.Ok (ms : Macros) : Place → Bool → Body → Prop where
  | nil {p b} : Ok ms p b .nil
  | newline {p r} : Ok ms p false r → Ok ms p false (.newline r)
  | comment {p b x r} : IsComment x → Ok ms p false r → Ok ms p b (.comment x r)
  | label {b a r} : Ok ms .record true r → Ok ms .record b (.label a r)
  | var {p b v r} : p ≠ .union → v.At ms p → Ok ms p false r → Ok ms p b (.var v r)
  | member {b v r} : v.InUnion ms → Ok ms .union false r → Ok ms .union b (.var v r)
  | fn {p b f r} : p ≠ .union → f.At ms p → Ok ms p false r → Ok ms p b (.fn f r)
  | alias {p b a r} : p ≠ .union → a.Ok ms → (∀ n t l, a = .named n t l → ∀ k ∈ l, Tame k) → (∀ t n l, a = .typedef t n l → ∀ k ∈ l, Tame k) → Ok ms p false r →
      Ok ms p b (.alias a r)
  | forward {p b k n r} : IsName ms n → Ok ms p false r → Ok ms p b (.forward k n r)
  | enumFwd {p b n r} : IsName ms n → Ok ms p false r → Ok ms p b (.enumFwd n r)
  | enum {p b e r} : e.Ok ms → (∀ x ∈ e.entries, Tame x.value) → Ok ms p false r → Ok ms p b (.enum e r)
  | record {p b h i r} : h.Ok ms → Ok ms .record true i → Ok ms p false r → Ok ms p b (.record h i r)
  | union {p b n i r} : (n ≠ [] → IsName ms n) → Ok ms .union true i → Ok ms p false r → Ok ms p b (.union n i r)
  | space {p b n i r} : p = .file ∨ p = .linkage → n.Ok ms → Ok ms .file true i → Ok ms p false r → Ok ms p b (.space n i r)
  | linkage {b n i r} : n ≠ [] → Lex.StrBody n → Ok ms .linkage true i → Ok ms .file false r → Ok ms .file b (.linkage n i r)

/-! ## Parsing what was printed -/

open Verif.Parse (World ParsesAs HasToks Behind)

/-- The parsing function `f` reads `x`, and the code it gives prints as `y`. -/
def Reprints (w : World) (f : World → Bytes → Res (Nat × World)) (x y : Bytes) : Prop := ∃ n, ParsesAs w f x n y

/-- What is left over from an earlier content behind the tokens of `c` is no comment and no macro. -/
def Fresh (w : World) (c : Bytes) : Prop := ∀ ts, HasToks w.env.ms c ts → Behind (w.env.cells.drop ts.length)

end Verif.Round
