import Verif.Props.Strip
import Verif.Props.LexExactSpec
import Verif.Props.ParseSpec
import Verif.Model.Lexer
import Verif.Props.SerSpec
/-!
# C56, specification: declarations as tokens, and their normal form

The relations below say which tokens make up a declaration and what the normal form of it is. `c` is the content the tokens point into, with
its final NUL. The tokens themselves are those of C27 (`Lexes`): white space between them does not matter.
-/
namespace Verif.Parse
open Verif.Lex (Tok)
open Verif.Ast

/-- The token `t` of the content `c`: its type, flags and text. -/
structure TokIs (c : Bytes) (t : Tok) (ty : TokType) (fl : Nat) (x : Bytes) : Prop where
  type : t.type = ty
  flags : t.flags = fl
  len : t.len = x.length
  text : Lex.slice c t.start x.length = x

/-- The text `x` goes from the first of the tokens to the end of the last one. -/
structure Spans (c : Bytes) (ts : List Tok) (x : Bytes) : Prop where
  text : ∃ f l, ts.head? = some f ∧ ts.getLast? = some l ∧ (l.start + l.len : Int) - f.start = x.length ∧ Lex.slice c f.start x.length = x

/-- The text `x` goes from the first of the tokens to the beginning of the token `u`. -/
structure UpTo (c : Bytes) (ts : List Tok) (u : Tok) (x : Bytes) : Prop where
  text : ∃ f, ts.head? = some f ∧ (u.start : Int) - f.start = x.length ∧ Lex.slice c f.start x.length = x

/-- Neither a line break nor a comment. -/
def Code (t : Tok) : Prop := t.type ≠ .NewLine ∧ t.type ≠ .Comment

/-- The parsing function `f`, given the content `c`, succeeds: it reads the first `n` tokens, leaves every node as it is, and gives a new
code that prints as `x` (if that fits into the buffers of the printing functions). -/
def ParsesAs (w : World) (f : World → Bytes → Res (Nat × World)) (c : Bytes) (n : Nat) (x : Bytes) : Prop :=
  ∃ p w', f w c = .ok (p, w') ∧ (∀ q, w.heap.Valid q → w'.heap.Valid q ∧ w'.heap.cell q = w.heap.cell q) ∧ Made w w' p ∧ w'.idx = some n ∧
    ∀ E : Ser.Env, E.h = w'.heap → Ser.Fits x → Ser.Prints E .code p x

/-- The content `c` has the tokens `ts`: the lexer gives them. (C27 says which ones these are.) -/
def HasToks (ms : Lex.Macros) (c : Bytes) (ts : List Tok) : Prop := ∃ ms', Lex.lex true ms c = .ok (some (ts, ms'))

/-! ## Specifiers -/

/-- The type of the token of a specifier. -/
def specTok : Specifier → TokType
  | .Consteval => .Spec_Consteval
  | .Constexpr => .Spec_Constexpr
  | .Constinit => .Spec_Constinit
  | .Explicit => .Spec_Explicit
  | .External_Linkage => .Spec_Extern
  | .ForceInline => .Spec_ForceInline
  | .Global => .Spec_Global
  | .Inline => .Spec_Inline
  | .Internal_Linkage => .Spec_Internal_Linkage
  | .Local_Persist => .Spec_LocalPersist
  | .Mutable => .Spec_Mutable
  | .NeverInline => .Spec_NeverInline
  | .Ptr => .Star
  | .Ref => .Ampersand
  | .Restrict => .Spec_Restrict
  | .RValue => .Ampersand_DBL
  | .Static => .Spec_Static
  | .Thread_Local => .Spec_ThreadLocal
  | .Virtual => .Spec_Virtual
  | .Const => .Spec_Const
  | .Final => .Spec_Final
  | .Override => .Spec_Override
  | .Volatile => .Spec_Volatile
  | _ => .Invalid

/-- The flags of that token: a specifier, and `*`, `&`, `&&` are operators as well. -/
def specFlags : Specifier → Nat
  | .Ptr | .Ref | .RValue => 257
  | _ => 256

/-- The tokens are those of the specifiers `l`. -/
inductive SpecToks (c : Bytes) : List Specifier → List Tok → Prop where
  | nil : SpecToks c [] []
  | cons {x l t ts} : TokIs c t (specTok x) (specFlags x) (specToStr x) → SpecToks c l ts → SpecToks c (x :: l) (t :: ts)

/-! ## Names and types -/

/-- A word of the content. -/
def IdTok (c : Bytes) (t : Tok) (x : Bytes) : Prop := TokIs c t .Identifier 0 x ∧ x ≠ []

/-- `:: a :: b`: the further parts of a qualified name. -/
def Parts (c : Bytes) (l : List (Tok × Tok)) : Prop := ∀ p ∈ l, p.1.type = .Access_StaticSymbol ∧ ∃ x, IdTok c p.2 x

def partToks (p : Tok × Tok) : List Tok := [p.1, p.2]

/-- A qualified name with the text `x`. -/
inductive QualToks (c : Bytes) (x : Bytes) : List Tok → Prop where
  | mk {f y l} : IdTok c f y → Parts c l → Spans c (f :: l.flatMap partToks) x → x ≠ [] → QualToks c x (f :: l.flatMap partToks)

/-- The keywords of built-in types. -/
def builtinTypes : List TokType :=
  [.Type_Unsigned, .Type_Signed, .Type_Short, .Type_Long, .Type_bool, .Type_char, .Type_int, .Type_double, .Type_MS_int8, .Type_MS_int16,
   .Type_MS_int32, .Type_MS_int64, .Type_MS_W64]

/-- The tokens of the name of a type, with the text `x`: a qualified name, or keywords of built-in types. -/
inductive NameToks (c : Bytes) (x : Bytes) : List Tok → Prop where
  | ident {ts} : QualToks c x ts → NameToks c x ts
  | native {f l} : (∀ u ∈ f :: l, u.type ∈ builtinTypes) → f.flags = 0 → Spans c (f :: l) x → x ≠ [] → NameToks c x (f :: l)

/-- The text `raw` consists of words, and `x` is the same with one space between them. -/
def Tidied (raw x : Bytes) : Prop := ∃ w l, Strip.Word w ∧ (∀ g ∈ l, Strip.Gap g.1 ∧ Strip.Word g.2) ∧ raw = w ++ Strip.spread l ∧ x = w ++ Strip.joined l

/-- The specifiers that may stand behind the name of a type. -/
def typeSuffixes : List Specifier := [.Const, .Ptr, .Restrict, .Ref, .RValue]

/-- A type as it is printed: the specifiers come behind the name. -/
def typeText (name : Bytes) (l : List Specifier) : Bytes := name ++ if l = [] then [] else b!" " ++ Ser.specsText l

/-- The tokens of a type: `const`s, the name, and `const`, `*`, `&`, `&&`, `restrict` behind it. The list of specifiers is all of them. -/
inductive TypeToks (c : Bytes) : List Specifier → Bytes → List Tok → Prop where
  | mk {pre post ps ns qs raw name} : SpecToks c pre ps → (∀ x ∈ pre, x = .Const) → NameToks c raw ns → Tidied raw name →
      SpecToks c post qs → (∀ x ∈ post, x ∈ typeSuffixes) → pre.length + post.length ≤ 14 → TypeToks c (pre ++ post) name (ps ++ ns ++ qs)

/-- No comment follows on the line of the token `u`. -/
def NoComment (u : Tok) (more : List Tok) : Prop := ∀ t, more.head? = some t → ¬ (t.type = .Comment ∧ t.line = u.line)

/-! ## Variables -/

/-- The specifiers of a variable. -/
def varSpecs : List Specifier :=
  [.Constexpr, .Constinit, .External_Linkage, .Global, .Inline, .Local_Persist, .Mutable, .Restrict, .Static, .Thread_Local, .Volatile]

/-- `[ a ][ b ]`: the bounds of an array. -/
inductive BoundToks (c : Bytes) : List Bytes → List Tok → Prop where
  | nil : BoundToks c [] []
  | cons {o inner x z l ts} : TokIs c o .BraceSquare_Open 0 b!"[" → (∀ t ∈ inner, Code t ∧ t.type ≠ .BraceSquare_Close) → Spans c inner x → x ≠ [] →
      TokIs c z .BraceSquare_Close 0 b!"]" → BoundToks c l ts → BoundToks c (x :: l) (o :: (inner ++ z :: ts))

/-- The bounds of an array, or `[]`, which is printed with spaces. -/
inductive ArrayToks (c : Bytes) : List Bytes → List Tok → Prop where
  | bounds {l ts} : BoundToks c l ts → ArrayToks c l ts
  | empty {t} : TokIs c t .Operator 0 b!"[]" → ArrayToks c [b!" "] [t]

def boundsText (l : List Bytes) : Bytes := l.flatMap fun x => b!"[ " ++ x ++ b!" ]"

/-- How many of the brackets `o`, `z` are open after the tokens. -/
def depth (o z : List TokType) : List Tok → Int → Int
  | [], n => n
  | t :: ts, n => depth o z ts (if t.type ∈ o then n + 1 else if t.type ∈ z then n - 1 else n)

/-- A value: no semicolon, and commas only inside brackets. -/
def Value (vs : List Tok) : Prop :=
  ∀ pre t post, vs = pre ++ t :: post → Code t ∧ t.type ≠ .Statement_End ∧
    (t.type = .Comma → 0 < depth [.BraceCurly_Open, .Paren_Open] [.BraceCurly_Close, .Paren_Close] pre 0)

/-- The inside of brackets: a closing one belongs to an opening one, and all are closed at the end. -/
def Inside (o z : TokType) (vs : List Tok) : Prop :=
  (∀ pre t post, vs = pre ++ t :: post → Code t ∧ (t.type = z → 0 < depth [o] [z] pre 0)) ∧ depth [o] [z] vs 0 = 0

/-- What gives a variable its value, and how it is printed; `u` is the semicolon. -/
inductive InitToks (c : Bytes) (u : Tok) : Bytes → List Tok → Prop where
  | none : InitToks c u [] []
  | value {q vs x} : TokIs c q .Operator 3 b!"=" → Value vs → UpTo c vs u x → x ≠ [] → InitToks c u (b!" = " ++ x) (q :: vs)
  | braces {o vs z x} : TokIs c o .BraceCurly_Open 0 b!"{" → Inside .BraceCurly_Open .BraceCurly_Close vs → TokIs c z .BraceCurly_Close 512 b!"}" →
      Spans c (o :: vs ++ [z]) x → x ≠ [] → InitToks c u (b!" = " ++ x) (o :: vs ++ [z])
  | parens {o vs z x} : TokIs c o .Paren_Open 0 b!"(" → Inside .Paren_Open .Paren_Close vs → TokIs c z .Paren_Close 0 b!")" → Spans c vs x → x ≠ [] →
      InitToks c u (b!"( " ++ x ++ b!"  )") (o :: vs ++ [z])

/-- What follows the name of a variable. -/
inductive TailToks (c : Bytes) (u : Tok) : Bytes → List Tok → Prop where
  | array {l ts x vs} : ArrayToks c l ts → InitToks c u x vs → TailToks c u (boundsText l ++ x) (ts ++ vs)
  | bits {o vs x} : TokIs c o .Assign_Classifer 0 b!":" → (∀ t ∈ vs, Code t ∧ t.type ≠ .Statement_End) → Spans c vs x → x ≠ [] →
      TailToks c u (b!" : " ++ x) (o :: vs)

/-- The tokens of a variable, and how it is printed. -/
inductive VarToks (c : Bytes) : Bytes → List Tok → Prop where
  | mk {specs ss tspecs tname ts name ns tail vs u} : SpecToks c specs ss → (∀ x ∈ specs, x ∈ varSpecs) → specs.length ≤ 14 →
      TypeToks c tspecs tname ts → QualToks c name ns → TailToks c u tail vs → TokIs c u .Statement_End 512 b!";" →
      VarToks c ((if specs = [] then [] else Ser.specsText specs) ++ typeText tname tspecs ++ b!" " ++ name ++ tail ++ b!";\n")
        (ss ++ ts ++ ns ++ vs ++ [u])

end Verif.Parse
