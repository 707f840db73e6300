import Verif.Props.ReadFnSpec
import Verif.Props.LexSpec
/-!
# C56, specification: bodies as tokens, and their normal form
-/
namespace Verif.Parse
open Verif.Lex (Tok)
open Verif.Ast

/-- Where a declaration stands: among the members of a class or struct, of a union, in a namespace or file, in a linkage block (`extern "C" { … }`), or behind
`template< … >`. -/
inductive Place where
  | record
  | union
  | file
  | linkage
  | template

/-- The specifiers a declaration may have there. -/
def placeSpecs : Place → List Specifier
  | .record => [.Consteval, .Constexpr, .Constinit, .Explicit, .ForceInline, .Inline, .Mutable, .NeverInline, .Static, .Virtual, .Volatile]
  | .union => []
  | .file | .linkage => [.Consteval, .Constexpr, .Constinit, .External_Linkage, .ForceInline, .Global, .Inline, .Internal_Linkage, .Mutable, .NeverInline,
      .Static, .Volatile]
  | .template => [.Consteval, .Constexpr, .Constinit, .External_Linkage, .Global, .Inline, .ForceInline, .Local_Persist, .Mutable, .Static, .Thread_Local, .Volatile]

/-- Those it may begin with: in a namespace neither `mutable` nor `volatile`. -/
def firstSpecs : Place → List Specifier
  | .record => placeSpecs .record
  | .union => []
  | .file | .linkage => [.Consteval, .Constexpr, .Constinit, .External_Linkage, .ForceInline, .Global, .Inline, .Internal_Linkage, .NeverInline, .Static]
  | .template => placeSpecs .template

/-- The built-in types of Microsoft's compiler, which no declaration in a body begins with. -/
def vendorTypes : List TokType := [.Type_MS_int8, .Type_MS_int16, .Type_MS_int32, .Type_MS_int64, .Type_MS_W64]

/-- The specifiers, type and name of a declaration in a body. -/
inductive DeclHead (c : Bytes) (k : Place) : List Specifier → Bytes → Bytes → List Tok → Prop where
  | mk {specs ss tspecs tname ts name ns} : SpecToks c specs ss → (∀ x ∈ specs, x ∈ placeSpecs k) → (∀ x, specs.head? = some x → x ∈ firstSpecs k) →
      TypeToks c tspecs tname ts → (specs = [] → ∀ t, ts.head? = some t → t.type ∉ vendorTypes) → QualToks c name ns →
      DeclHead c k specs (typeText tname tspecs) name (ss ++ ts ++ ns)

/-- A variable or function in a body, how it is printed, and the tokens `next` behind it. Commas decide between the two: parentheses whose second
token is a comma hold values, others parameters. No comment follows on the same line. -/
inductive DeclToks (ms : Lex.Macros) (c : Bytes) (k : Place) (next : List Tok) : Bytes → List Tok → Prop where
  | var {specs type name hs tail vs u} : DeclHead c k specs type name hs → .Consteval ∉ specs → specs.length ≤ 14 → TailToks c u tail vs →
      TokIs c u .Statement_End 512 b!";" → (∀ t, vs.head? = some t → t.type ≠ .Paren_Open) →
      (∀ t, (vs ++ u :: next)[1]? = some t → t.type ≠ .Preprocess_Macro_Expr) → NoComment u next →
      DeclToks ms c k next ((if specs = [] then [] else Ser.specsText specs) ++ type ++ b!" " ++ name ++ tail ++ b!";\n") (hs ++ vs ++ [u])
  | fn {lead type name hs px ps trail qs z es} : DeclHead c k lead type name hs → .Volatile ∉ lead → 0 ∉ name → noSpaces name ≠ [] →
      ParamsToks c px ps → (∀ t, ps[2]? = some t → t.type ≠ .Comma) → SpecToks c trail qs → (∀ s ∈ trail, s ∈ fnSuffixes) →
      (∀ s ∈ trail, Lex.lookupMacro ms (specToStr s) = none) → lead.length + trail.length ≤ 14 → FnEnd c z es →
      (∀ u, es = [u] → NoComment u next) →
      DeclToks ms c k next (specWords lead ++ (if lead = [] then [] else b!"\n") ++ type ++ b!" " ++ noSpaces name ++ b!"(" ++ px ++ b!")" ++ specWords trail ++ z)
        (hs ++ ps ++ qs ++ es)

/-! ## Classes and structs -/

/-- `class` or `struct`. -/
inductive RecordKind where
  | cls
  | struct

def RecordKind.tok : RecordKind → TokType
  | .cls => .Decl_Class
  | .struct => .Decl_Struct

def RecordKind.word : RecordKind → Bytes
  | .cls => b!"class "
  | .struct => b!"struct "

/-- The keyword and the name of a class or struct, and how they are printed. A struct needs no name. -/
inductive RecordName (c : Bytes) : RecordKind → Bytes → List Tok → Prop where
  | named {k t name ns} : t.type = k.tok → QualToks c name ns → RecordName c k (k.word ++ name) (t :: ns)
  | final {k t name ns f} : t.type = k.tok → QualToks c name ns → TokIs c f .Spec_Final 256 b!"final" → RecordName c k (k.word ++ name ++ b!" final") (t :: ns ++ [f])
  | unnamed {t} : t.type = .Decl_Struct → RecordName c .struct b!"struct " [t]

/-- The access to a base, if it is given, and how it is printed. -/
inductive AccessToks : Bytes → List Tok → Prop where
  | none : AccessToks [] []
  | pub {t} : t.type = .Access_Public → t.flags = 128 → AccessToks b!"public" [t]
  | pri {t} : t.type = .Access_Private → t.flags = 128 → AccessToks b!"private" [t]

/-- The second base of a struct and those behind it. They are public. -/
inductive MoreBases (c : Bytes) : List Bytes → List Tok → Prop where
  | nil : MoreBases c [] []
  | cons {u x as name ns xs ts} : u.type = .Comma → AccessToks x as → x ≠ b!"private" → QualToks c name ns → MoreBases c xs ts →
      MoreBases c (name :: xs) (u :: as ++ ns ++ ts)

/-- The bases of a struct, five at most, and how they are printed: of several, the first is said to be public and the others, which
are so anyway, are not. -/
inductive BasesToks (c : Bytes) : Bytes → List Tok → Prop where
  | one {q x as name ns} : TokIs c q .Assign_Classifer 0 b!":" → AccessToks x as → QualToks c name ns → BasesToks c (b!" : " ++ x ++ b!" " ++ name) (q :: as ++ ns)
  | more {q x as name ns xs ts} : TokIs c q .Assign_Classifer 0 b!":" → AccessToks x as → x ≠ b!"private" → QualToks c name ns → MoreBases c xs ts → xs ≠ [] → xs.length ≤ 4 →
      BasesToks c (b!" : public " ++ name ++ b!"\n" ++ xs.flatMap fun y => b!", " ++ y) (q :: as ++ ns ++ ts)

/-- The head of a class or struct, and how it is printed. Only structs have bases. -/
inductive RecordHead (c : Bytes) : RecordKind → Bytes → List Tok → Prop where
  | plain {k x hs} : RecordName c k x hs → RecordHead c k x hs
  | derived {x hs y bs} : RecordName c .struct x hs → BasesToks c y bs → RecordHead c .struct (x ++ y) (hs ++ bs)

/-! ## Names for types -/

/-- `using` and `typedef`, and how they are printed. A typedef has at most one bound. -/
inductive AliasToks (c : Bytes) : Bytes → List Tok → Prop where
  | alias {t n name q tspecs tname ts l bs u} : t.type = .Decl_Using → IdTok c n name → TokIs c q .Operator 3 b!"=" → TypeToks c tspecs tname ts → ArrayToks c l bs →
      TokIs c u .Statement_End 512 b!";" →
      AliasToks c (b!"using " ++ name ++ b!" = " ++ typeText tname tspecs ++ boundsText l ++ b!";\n") (t :: n :: q :: ts ++ bs ++ [u])
  | space {t v n name u} : t.type = .Decl_Using → v.type = .Decl_Namespace → IdTok c n name → TokIs c u .Statement_End 512 b!";" →
      AliasToks c (b!"using namespace " ++ name ++ b!";\n") [t, v, n, u]
  | typedef {t tspecs tname ts n name l bs u} : t.type = .Decl_Typedef → TypeToks c tspecs tname ts → IdTok c n name → ArrayToks c l bs → l.length ≤ 1 →
      TokIs c u .Statement_End 512 b!";" →
      AliasToks c (b!"typedef " ++ typeText tname tspecs ++ b!" " ++ name ++ boundsText l ++ b!";\n") (t :: ts ++ n :: bs ++ [u])

/-! ## Enums -/

/-- An enumerator, without comma. -/
inductive EnumeratorToks (c : Bytes) : List Tok → Prop where
  | plain {n name} : IdTok c n name → EnumeratorToks c [n]
  | value {n name q vs} : IdTok c n name → TokIs c q .Operator 3 b!"=" → (∀ v ∈ vs, Code v ∧ v.type ≠ .Comma ∧ v.type ≠ .BraceCurly_Close) →
      EnumeratorToks c (n :: q :: vs)

/-- What stands between the braces of an enum, and how it is printed: enumerators as they are written, with all that lies between an enumerator and its
comma, but without the white space behind that; comments and empty lines. -/
inductive EnumToks (c : Bytes) : Bytes → List Tok → Prop where
  | nil : EnumToks c [] []
  | newline {t fl y x ts} : TokIs c t .NewLine fl y → y ≠ [] → EnumToks c x ts → EnumToks c (y ++ x) (t :: ts)
  | comment {t fl y x ts} : TokIs c t .Comment fl y → EnumToks c x ts → EnumToks c (y ++ x) (t :: ts)
  | entry {us fs k y x ts} : EnumeratorToks c us → (∀ t ∈ fs, ¬ Code t) → k.type = .Comma → Spans c (us ++ fs ++ [k]) y → y ≠ [] → EnumToks c x ts →
      EnumToks c (y ++ x) (us ++ fs ++ k :: ts)
  | last {us fs y} : EnumeratorToks c us → (∀ t ∈ fs, ¬ Code t) → Spans c (us ++ fs) y → y ≠ [] → EnumToks c y (us ++ fs)

/-- The head of an enum, and how it is printed. An `enum class` has an underlying type. -/
inductive EnumHead (c : Bytes) : Bytes → List Tok → Prop where
  | plain {t n name} : t.type = .Decl_Enum → IdTok c n name → EnumHead c (b!"enum " ++ name) [t, n]
  | typed {t n name q tspecs tname ts} : t.type = .Decl_Enum → IdTok c n name → q.type = .Assign_Classifer → TypeToks c tspecs tname ts →
      EnumHead c (b!"enum " ++ name ++ b!" : " ++ typeText tname tspecs) (t :: n :: q :: ts)
  | cls {t v n name q tspecs tname ts} : t.type = .Decl_Enum → v.type = .Decl_Class → IdTok c n name → q.type = .Assign_Classifer → TypeToks c tspecs tname ts →
      EnumHead c (b!"enum class " ++ name ++ b!" : " ++ typeText tname tspecs) (t :: v :: n :: q :: ts)

/-- An enum, declared or defined, and how it is printed. -/
inductive EnumDecl (c : Bytes) : Bytes → List Tok → Prop where
  | forward {hx hs u} : EnumHead c hx hs → TokIs c u .Statement_End 512 b!";" → EnumDecl c (hx ++ b!";\n") (hs ++ [u])
  | mk {hx hs o y inner z u} : EnumHead c hx hs → TokIs c o .BraceCurly_Open 0 b!"{" → EnumToks c y inner → TokIs c z .BraceCurly_Close 512 b!"}" →
      TokIs c u .Statement_End 512 b!";" → EnumDecl c (hx ++ b!"\n{\n" ++ y ++ b!"\n};\n") (hs ++ o :: inner ++ [z, u])

/-- The labels `public:`, `protected:`, `private:`. -/
inductive Label : TokType → Bytes → Prop where
  | pub : Label .Access_Public b!"public:\n"
  | pro : Label .Access_Protected b!"protected:\n"
  | pri : Label .Access_Private b!"private:\n"

/-! ## Directives -/

/-- The directives that test something: the word as it is printed, and what is printed behind the condition. -/
inductive Tests : TokType → Bytes → Bytes → Prop where
  | ifs : Tests .Preprocess_If b!"#if " []
  | ifdef : Tests .Preprocess_IfDef b!"#ifdef " b!"\n"
  | ifndef : Tests .Preprocess_IfNotDef b!"#ifndef " []
  | elif : Tests .Preprocess_ElIf b!"#elif " b!"\n"

/-- What a macro stands for, and how it is printed: nothing becomes a line break; of other texts the blank in front and needless ones are dropped. -/
inductive MacroText (c : Bytes) (t : Tok) : Bytes → Prop where
  | none {fl} : TokIs c t .Preprocess_Content fl [] → MacroText c t b!"\n"
  | text {fl raw x} : TokIs c t .Preprocess_Content fl raw → Tidied raw x → MacroText c t x
  | spaced {fl raw x} : TokIs c t .Preprocess_Content fl (b!" " ++ raw) → Tidied raw x → MacroText c t x

/-- Further parameters of a macro, each behind a comma. -/
inductive MoreNames (c : Bytes) : List Bytes → List Tok → Prop where
  | nil : MoreNames c [] []
  | cons {u n fl name xs ts} : u.type = .Comma → TokIs c n .Preprocess_Define_Param fl name → name ≠ [] → MoreNames c xs ts → MoreNames c (name :: xs) (u :: n :: ts)

/-- The parameters of a macro, and how they are printed. -/
inductive NamesToks (c : Bytes) : Bytes → List Tok → Prop where
  | mk {o n fl name xs ts z} : o.type = .Paren_Open → TokIs c n .Preprocess_Define_Param fl name → name ≠ [] → MoreNames c xs ts → z.type = .Paren_Close →
      NamesToks c (b!", ".intercalate ((name :: xs).map fun x => b!" " ++ x)) (o :: n :: ts ++ [z])

/-- A directive, behind its `#`, and how it is printed. There is no `#include` in a union. -/
inductive DirectiveToks (ms : Lex.Macros) (c : Bytes) : Place → Bytes → List Tok → Prop where
  | incl {p t s fl x} : p ≠ .union → t.type = .Preprocess_Include → TokIs c s .String fl x → x ≠ [] → DirectiveToks ms c p (b!"#include " ++ x ++ b!"\n") [t, s]
  | pragma {p t s fl x} : t.type = .Preprocess_Pragma → TokIs c s .Preprocess_Content fl x → x ≠ [] → DirectiveToks ms c p (b!"#pragma " ++ x ++ b!"\n") [t, s]
  | test {p t w a s fl x} : Tests t.type w a → t.flags = 16 → TokIs c s .Preprocess_Content fl x → x ≠ [] → DirectiveToks ms c p (w ++ x ++ a) [t, s]
  | otherwise {p t} : t.type = .Preprocess_Else → DirectiveToks ms c p b!"#else\n" [t]
  | endif {p t} : t.type = .Preprocess_EndIf → DirectiveToks ms c p b!"#endif\n" [t]
  | define {p t n fl name m s x} : t.type = .Preprocess_Define → TokIs c n .Identifier fl name → name ≠ [] → Lex.lookupMacro ms name = some m → m.flags % 2 = 0 →
      MacroText c s x → DirectiveToks ms c p (b!"#define " ++ name ++ b!" " ++ x) [t, n, s]
  | function {p t n fl name m px ps s x} : t.type = .Preprocess_Define → TokIs c n .Identifier fl name → name ≠ [] → Lex.lookupMacro ms name = some m → m.flags % 2 = 1 →
      NamesToks c px ps → MacroText c s x → DirectiveToks ms c p (b!"#define " ++ name ++ b!"(" ++ px ++ b!") " ++ x) (t :: n :: ps ++ [s])

/-! ## Bodies -/

/-- The head of a union, and how it is printed. -/
inductive UnionHead (c : Bytes) : Bytes → List Tok → Prop where
  | named {t n name} : t.type = .Decl_Union → IdTok c n name → UnionHead c (b!"union " ++ name) [t, n]
  | unnamed {t} : t.type = .Decl_Union → UnionHead c b!"union " [t]

/-- The first of the tokens that is no line break is no semicolon. -/
inductive Beyond : List Tok → Prop where
  | here {t ts} : t.type ≠ .NewLine → t.type ≠ .Statement_End → Beyond (t :: ts)
  | skip {t ts} : t.type = .NewLine → Beyond ts → Beyond (t :: ts)

/-- What stands in a class or struct, in a union, in a namespace, in a linkage block or in a file, and how it is printed: one after the other. Semicolons
by themselves vanish; a union has none. It has variables, classes, structs, unions and enums for members. -/
inductive MembersToks (ms : Lex.Macros) (c : Bytes) : Place → Bytes → List Tok → Prop where
  | nil {p} : MembersToks ms c p [] []
  | newline {p t x ts} : t.type = .NewLine → MembersToks ms c p x ts → MembersToks ms c p (b!"\n" ++ x) (t :: ts)
  | comment {p t fl y x ts} : TokIs c t .Comment fl y → MembersToks ms c p x ts → MembersToks ms c p (y ++ x) (t :: ts)
  | semicolon {p t x ts} : p ≠ .union → t.type = .Statement_End → MembersToks ms c p x ts → MembersToks ms c p x (t :: ts)
  | label {t u y x ts} : Label t.type y → u.type = .Assign_Classifer → MembersToks ms c .record x ts → MembersToks ms c .record (y ++ x) (t :: u :: ts)
  | directive {p g us y x ts} : g.type = .Preprocess_Hash → DirectiveToks ms c p y us → MembersToks ms c p x ts → MembersToks ms c p (y ++ x) (g :: us ++ ts)
  | other {p g t fl y x ts} : p ≠ .union → g.type = .Preprocess_Hash → TokIs c t .Preprocess_Unsupported fl y → y ≠ [] → Lex.lookupMacro ms y = none → (ts = [] ∨ Beyond ts) →
      MembersToks ms c p x ts → MembersToks ms c p (y ++ x) (g :: t :: ts)
  | assertion {p t o vs z u y x ts} : p ≠ .union → t.type = .StaticAssert → o.type = .Paren_Open → Inside .Paren_Open .Paren_Close vs → z.type = .Paren_Close → u.type = .Statement_End →
      Spans c (t :: o :: vs ++ [z, u]) y → (0 : UInt8) ∉ y → y.length < 131070 → MembersToks ms c p x ts → MembersToks ms c p (y ++ b!"\n" ++ x) (t :: o :: vs ++ z :: u :: ts)
  | decl {p us y x ts} : p ≠ .union → DeclToks ms c p ts y us → MembersToks ms c p x ts → MembersToks ms c p (y ++ x) (us ++ ts)
  | alias {p us y x ts} : p ≠ .union → AliasToks c y us → (∀ u, us.getLast? = some u → NoComment u ts) → MembersToks ms c p x ts → MembersToks ms c p (y ++ x) (us ++ ts)
  | forward {p} {k : RecordKind} {t n name u x ts} : t.type = k.tok → IdTok c n name → TokIs c u .Statement_End 512 b!";" → NoComment u ts →
      MembersToks ms c p x ts → MembersToks ms c p (k.word ++ name ++ b!";\n" ++ x) (t :: n :: u :: ts)
  | record {p k hx hs o y inner z u x ts} : RecordHead c k hx hs → TokIs c o .BraceCurly_Open 0 b!"{" → MembersToks ms c .record y inner → Balanced inner →
      TokIs c z .BraceCurly_Close 512 b!"}" → TokIs c u .Statement_End 512 b!";" → NoComment u ts → MembersToks ms c p x ts →
      MembersToks ms c p (hx ++ b!"\n{\n" ++ y ++ b!"\n};\n" ++ x) (hs ++ o :: inner ++ z :: u :: ts)
  | enumFwd {p t n name u x ts} : t.type = .Decl_Enum → IdTok c n name → TokIs c u .Statement_End 512 b!";" → NoComment u ts →
      MembersToks ms c p x ts → MembersToks ms c p (b!"enum " ++ name ++ b!";\n" ++ x) (t :: n :: u :: ts)
  | enumDef {p hx hs o y inner z u x ts} : EnumHead c hx hs → TokIs c o .BraceCurly_Open 0 b!"{" → EnumToks c y inner → Balanced inner → TokIs c z .BraceCurly_Close 512 b!"}" → TokIs c u .Statement_End 512 b!";" → NoComment u ts →
      MembersToks ms c p x ts → MembersToks ms c p (hx ++ b!"\n{\n" ++ y ++ b!"\n};\n" ++ x) (hs ++ o :: inner ++ z :: u :: ts)
  | var {us y x ts} : VarToks c y us → (∀ u, us.getLast? = some u → NoComment u ts) → MembersToks ms c .union x ts → MembersToks ms c .union (y ++ x) (us ++ ts)
  | union {p hx hs o y inner z u x ts} : UnionHead c hx hs → TokIs c o .BraceCurly_Open 0 b!"{" → MembersToks ms c .union y inner → Balanced inner →
      TokIs c z .BraceCurly_Close 512 b!"}" → TokIs c u .Statement_End 512 b!";" → MembersToks ms c p x ts →
      MembersToks ms c p (hx ++ b!"\n{\n" ++ y ++ b!"\n};\n" ++ x) (hs ++ o :: inner ++ z :: u :: ts)
  | space {p t name ns o y inner z x ts} : p = .file ∨ p = .linkage → t.type = .Decl_Namespace → QualToks c name ns → TokIs c o .BraceCurly_Open 0 b!"{" →
      MembersToks ms c .file y inner → z.type = .BraceCurly_Close → MembersToks ms c p x ts →
      MembersToks ms c p (b!"namespace " ++ name ++ b!"\n{\n" ++ y ++ b!"\n}\n" ++ x) (t :: ns ++ o :: inner ++ z :: ts)
  | linkage {t l fl name o y inner z x ts} : t.type = .Decl_Extern_Linkage → TokIs c l .String fl (b!"\"" ++ name) → name ≠ [] → TokIs c o .BraceCurly_Open 0 b!"{" →
      MembersToks ms c .linkage y inner → z.type = .BraceCurly_Close → MembersToks ms c .file x ts →
      MembersToks ms c .file (b!"extern \"" ++ name ++ b!"\"\n{\n" ++ y ++ b!"\n}\n" ++ x) (t :: l :: o :: inner ++ z :: ts)
  | tdecl {p hx hs us y x ts} : p ≠ .union → TemplateHead c hx hs → DeclToks ms c .template ts y us → MembersToks ms c p x ts → MembersToks ms c p (hx ++ y ++ x) (hs ++ us ++ ts)
  | talias {p hx hs us y x ts} : p ≠ .union → TemplateHead c hx hs → AliasToks c y us → (∀ t, us.head? = some t → t.type = .Decl_Using) →
      (∀ u, us.getLast? = some u → NoComment u ts) → MembersToks ms c p x ts → MembersToks ms c p (hx ++ y ++ x) (hs ++ us ++ ts)
  | tforward {p hx hs} {k : RecordKind} {t name ns u x ts} : p ≠ .union → TemplateHead c hx hs → t.type = k.tok → QualToks c name ns → TokIs c u .Statement_End 512 b!";" →
      NoComment u ts → MembersToks ms c p x ts → MembersToks ms c p (hx ++ (k.word ++ name ++ b!";\n") ++ x) (hs ++ (t :: ns ++ [u]) ++ ts)
  | trecord {p tx tl k hx hs o y inner z u x ts} : p ≠ .union → TemplateHead c tx tl → RecordHead c k hx hs → TokIs c o .BraceCurly_Open 0 b!"{" → MembersToks ms c .record y inner →
      TokIs c z .BraceCurly_Close 512 b!"}" → TokIs c u .Statement_End 512 b!";" → NoComment u ts → MembersToks ms c p x ts →
      MembersToks ms c p (tx ++ (hx ++ b!"\n{\n" ++ y ++ b!"\n};\n") ++ x) (tl ++ (hs ++ o :: inner ++ [z, u]) ++ ts)
  | tunion {p tx tl hx hs o y inner z u x ts} : p ≠ .union → TemplateHead c tx tl → UnionHead c hx hs → TokIs c o .BraceCurly_Open 0 b!"{" → MembersToks ms c .union y inner →
      TokIs c z .BraceCurly_Close 512 b!"}" → TokIs c u .Statement_End 512 b!";" → MembersToks ms c p x ts →
      MembersToks ms c p (tx ++ (hx ++ b!"\n{\n" ++ y ++ b!"\n};\n") ++ x) (tl ++ (hs ++ o :: inner ++ [z, u]) ++ ts)

/-- A class or struct, declared or defined, and how it is printed. -/
inductive RecordToks (ms : Lex.Macros) (c : Bytes) : RecordKind → Bytes → List Tok → Prop where
  | forward {k : RecordKind} {t name ns u} : t.type = k.tok → QualToks c name ns → TokIs c u .Statement_End 512 b!";" →
      RecordToks ms c k (k.word ++ name ++ b!";\n") (t :: ns ++ [u])
  | mk {k hx hs o y inner z u} : RecordHead c k hx hs → TokIs c o .BraceCurly_Open 0 b!"{" → MembersToks ms c .record y inner → TokIs c z .BraceCurly_Close 512 b!"}" →
      TokIs c u .Statement_End 512 b!";" → RecordToks ms c k (hx ++ b!"\n{\n" ++ y ++ b!"\n};\n") (hs ++ o :: inner ++ [z, u])

/-- What stands behind `template< … >`, how it is printed, and the tokens `next` behind it. -/
inductive TemplatedToks (ms : Lex.Macros) (c : Bytes) (next : List Tok) : Bytes → List Tok → Prop where
  | decl {y us} : DeclToks ms c .template next y us → TemplatedToks ms c next y us
  | alias {y us} : AliasToks c y us → (∀ t, us.head? = some t → t.type = .Decl_Using) → TemplatedToks ms c next y us
  | record {k y us} : RecordToks ms c k y us → TemplatedToks ms c next y us
  | union {hx hs o y inner z u} : UnionHead c hx hs → TokIs c o .BraceCurly_Open 0 b!"{" → MembersToks ms c .union y inner → TokIs c z .BraceCurly_Close 512 b!"}" →
      TokIs c u .Statement_End 512 b!";" → TemplatedToks ms c next (hx ++ b!"\n{\n" ++ y ++ b!"\n};\n") (hs ++ o :: inner ++ [z, u])

/-! ## Files and namespaces -/

/-- In front of an opening parenthesis stands no name that looks like a constructor or destructor: none with `~` in front, and of a qualified name
the last part but one does not begin with the last one. Every declaration in a file or namespace is searched for such a name, from its type to the
next parenthesis, be it in another declaration. -/
structure NoCtor (c : Bytes) (ts : List Tok) : Prop where
  tilde : ∀ (i : Nat) x y z, ts[i]? = some x → ts[i + 1]? = some y → ts[i + 2]? = some z → y.type = .Identifier → z.type = .Paren_Open → x.type = .Operator →
    c[x.start]? ≠ some 126
  scope : ∀ (i : Nat) w x y z, ts[i]? = some w → ts[i + 1]? = some x → ts[i + 2]? = some y → ts[i + 3]? = some z → x.type = .Access_StaticSymbol →
    y.type = .Identifier → z.type = .Paren_Open → ∃ m n, IdTok c w m ∧ Lex.IsWord m ∧ IdTok c y n ∧ Lex.IsWord n ∧
    ¬ n <+: c.drop w.start

/-- There are two cells behind the tokens, and the first of them is neither a comment nor a macro. (They are looked at, although they hold what is
left of an earlier content.) -/
def Behind (cells : List Tok) : Prop := 2 ≤ cells.length ∧ ∀ t, cells.head? = some t → t.type ≠ .Comment ∧ t.type ≠ .Preprocess_Macro_Expr

/-- The codes of the library that bodies are given, as `init` makes them (`C56_spelled_init`, `C56_spelled`). -/
structure Spelled (e : Env) (h : Heap) : Prop where
  made : 0 < e.fmtNewline ∧ 0 < e.accessPublic ∧ 0 < e.accessProtected ∧ 0 < e.accessPrivate ∧ 0 < e.preElse ∧ 0 < e.preEndif
  newline : (h.cell e.fmtNewline).type = .NewLine
  pub : (h.cell e.accessPublic).type = .Access_Public ∧ (h.cell e.accessPublic).name = b!"public:\n"
  pro : (h.cell e.accessProtected).type = .Access_Protected ∧ (h.cell e.accessProtected).name = b!"protected:\n"
  pri : (h.cell e.accessPrivate).type = .Access_Private ∧ (h.cell e.accessPrivate).name = b!"private:\n"
  otherwise : (h.cell e.preElse).type = .Preprocess_Else
  endif : (h.cell e.preEndif).type = .Preprocess_EndIf

end Verif.Parse
