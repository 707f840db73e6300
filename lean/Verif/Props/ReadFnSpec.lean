import Verif.Props.ReadSpec
/-!
# C56, specification: functions as tokens, and their normal form
-/
namespace Verif.Parse
open Verif.Lex (Tok)
open Verif.Ast

/-! ## Parameters -/

/-- No angle bracket: neither the first byte of the token is one nor, for an operator, the byte behind that a closing one. (A default value
with `->` in it is not parsed: `C56_arrow_refuted`.) -/
def NoAngle (c : Bytes) (t : Tok) : Prop :=
  ∃ b, c[t.start]? = some b ∧ b ≠ 60 ∧ b ≠ 62 ∧ (t.type = .Operator → ∃ b1, c[t.start + 1]? = some b1 ∧ b1 ≠ 62)

/-- A default value: commas and closing parentheses only inside parentheses. -/
def DefaultValue (c : Bytes) (vs : List Tok) : Prop :=
  (∀ pre t post, vs = pre ++ t :: post → Code t ∧ NoAngle c t ∧
    (t.type = .Comma ∨ t.type = .Paren_Close → 0 < depth [.Paren_Open] [.Paren_Close] pre 0)) ∧ depth [.Paren_Open] [.Paren_Close] vs 0 = 0

/-- The name of a parameter, which may be left out. -/
inductive ParamName (c : Bytes) : Bytes → List Tok → Prop where
  | none : ParamName c [] []
  | name {t x} : IdTok c t x → ParamName c x [t]

/-- The default value of a parameter, which may be left out. -/
inductive ParamValue (c : Bytes) : Bytes → List Tok → Prop where
  | none : ParamValue c [] []
  | value {q vs raw x} : TokIs c q .Operator 3 b!"=" → DefaultValue c vs → Spans c vs raw → Tidied raw x → ParamValue c x (q :: vs)

/-- `before` and the text, nothing if there is no text. -/
def after (before x : Bytes) : Bytes := if x = [] then [] else before ++ x

/-- A parameter, and how it is printed. -/
inductive ParamToks (c : Bytes) : Bytes → List Tok → Prop where
  | mk {l tname ts name ns value vs} : TypeToks c l tname ts → ParamName c name ns → ParamValue c value vs →
      ParamToks c (b!" " ++ typeText tname l ++ after b!" " name ++ after b!" = " value) (ts ++ ns ++ vs)

/-- Further parameters of the form `P`, each behind a comma. -/
inductive MoreParams (c : Bytes) (P : Bytes → List Tok → Prop) : List Bytes → List Tok → Prop where
  | nil : MoreParams c P [] []
  | cons {u x ts xs us} : TokIs c u .Comma 1 b!"," → P x ts → MoreParams c P xs us → MoreParams c P (x :: xs) (u :: ts ++ us)

/-- The parameters between parentheses, and how they are printed. -/
inductive ParamsToks (c : Bytes) : Bytes → List Tok → Prop where
  | none {o z} : TokIs c o .Paren_Open 0 b!"(" → TokIs c z .Paren_Close 0 b!")" → ParamsToks c [] [o, z]
  | some {o z x ts xs us} : TokIs c o .Paren_Open 0 b!"(" → ParamToks c x ts → MoreParams c (ParamToks c) xs us → TokIs c z .Paren_Close 0 b!")" →
      ParamsToks c (b!", ".intercalate (x :: xs)) (o :: ts ++ us ++ [z])

/-! ## Parameters of templates -/

/-- The words `class` and `typename`. -/
inductive TypeWord (c : Bytes) (t : Tok) : Bytes → Prop where
  | cls : TokIs c t .Decl_Class 0 b!"class" → TypeWord c t b!"class"
  | typename : TokIs c t .Type_Typename 0 b!"typename" → TypeWord c t b!"typename"

/-- A parameter of a template, and how it is printed. -/
inductive TemplateParam (c : Bytes) : Bytes → List Tok → Prop where
  | type {t w name ns value vs} : TypeWord c t w → ParamName c name ns → ParamValue c value vs →
      TemplateParam c (b!" " ++ w ++ after b!" " name ++ after b!" = " value) (t :: ns ++ vs)
  | value {x ts} : ParamToks c x ts → TemplateParam c x ts

/-- The parameters between angle brackets, and how they are printed. -/
inductive TemplateParams (c : Bytes) : Bytes → List Tok → Prop where
  | none {o z} : TokIs c o .Operator 1 b!"<" → TokIs c z .Operator 1 b!">" → TemplateParams c [] [o, z]
  | some {o z x ts xs us} : TokIs c o .Operator 1 b!"<" → TemplateParam c x ts → MoreParams c (TemplateParam c) xs us → TokIs c z .Operator 1 b!">" →
      TemplateParams c (b!", ".intercalate (x :: xs)) (o :: ts ++ us ++ [z])

/-- `template< … >`, and how it is printed. -/
inductive TemplateHead (c : Bytes) : Bytes → List Tok → Prop where
  | mk {t px ps} : t.type = .Decl_Template → TemplateParams c px ps → TemplateHead c (if px = [] then b!"template<>\n" else b!"template< " ++ px ++ b!" >\n") (t :: ps)

/-! ## Functions -/

/-- The specifiers in front of a function. -/
def fnSpecs : List Specifier := [.Consteval, .Constexpr, .External_Linkage, .Internal_Linkage, .ForceInline, .Inline, .NeverInline, .Static]

/-- The specifiers behind the parameters of a function. -/
def fnSuffixes : List Specifier := [.Const, .Final, .Override, .Volatile]

/-- Between braces: a closing brace belongs to an opening one, and all are closed at the end. Everything else may occur. -/
def Balanced (vs : List Tok) : Prop :=
  (∀ pre t post, vs = pre ++ t :: post → t.type = .BraceCurly_Close → 0 < depth [.BraceCurly_Open] [.BraceCurly_Close] pre 0) ∧
    depth [.BraceCurly_Open] [.BraceCurly_Close] vs 0 = 0

/-- The body of a function, whose text is kept as it is. -/
inductive BodyToks (c : Bytes) : Bytes → List Tok → Prop where
  | empty {o z} : TokIs c o .BraceCurly_Open 0 b!"{" → TokIs c z .BraceCurly_Close 512 b!"}" → o.start + 1 ≤ z.start → BodyToks c [] [o, z]
  | text {o vs z x} : TokIs c o .BraceCurly_Open 0 b!"{" → Balanced vs → Spans c vs x → x ≠ [] → TokIs c z .BraceCurly_Close 512 b!"}" →
      BodyToks c x (o :: vs ++ [z])

/-- What ends a function: a semicolon or a body, and how it is printed. -/
inductive FnEnd (c : Bytes) : Bytes → List Tok → Prop where
  | decl {u} : TokIs c u .Statement_End 512 b!";" → FnEnd c b!";\n" [u]
  | body {x bs} : BodyToks c x bs → FnEnd c (b!"\n{\n" ++ x ++ b!"\n}\n") bs

/-- A list of specifiers, a space in front of each. -/
def specWords (l : List Specifier) : Bytes := l.flatMap fun s => b!" " ++ specToStr s

/-- A name without its white space. -/
def noSpaces (x : Bytes) : Bytes := x.filter fun b => !charIsSpace b

/-- The head of a function: specifiers, the type it returns, which begins with the token `f`, its name, and how it is printed. -/
inductive FnHead (c : Bytes) (f : Tok) : List Specifier → Bytes → List Tok → Prop where
  | mk {lead ss tspecs tname ts name ns} : ts.head? = some f → SpecToks c lead ss → (∀ x ∈ lead, x ∈ fnSpecs) → TypeToks c tspecs tname ts → QualToks c name ns → 0 ∉ name →
      noSpaces name ≠ [] →
      FnHead c f lead (specWords lead ++ (if lead = [] then [] else b!"\n") ++ typeText tname tspecs ++ b!" " ++ noSpaces name) (ss ++ ts ++ ns)

/-- The tokens of a function, and how it is printed; the type begins with the token `f`. No macro has the name of one of the specifiers behind the parameters. -/
inductive FnToks (ms : Lex.Macros) (c : Bytes) (f : Tok) : Bytes → List Tok → Prop where
  | mk {lead x hs px ps trail qs z es} : FnHead c f lead x hs → ParamsToks c px ps → SpecToks c trail qs → (∀ s ∈ trail, s ∈ fnSuffixes) →
      (∀ s ∈ trail, Lex.lookupMacro ms (specToStr s) = none) → lead.length + trail.length ≤ 14 → FnEnd c z es →
      FnToks ms c f (x ++ b!"(" ++ px ++ b!")" ++ specWords trail ++ z) (hs ++ ps ++ qs ++ es)

/-- The cell behind the tokens, that of a previous content if there are no more tokens, is there and holds no comment of the line of `u`. -/
def Quiet (u : Tok) (cells : List Tok) : Prop := ∃ t, cells.head? = some t ∧ ¬ (t.type = .Comment ∧ t.line = u.line)

/-- If the declaration ends in a semicolon, the cell behind it is quiet. -/
def Calm (ts cells : List Tok) : Prop := ∀ u, ts.getLast? = some u → u.type = .Statement_End → Quiet u cells

end Verif.Parse
