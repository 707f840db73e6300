import Verif.Props.Read
import Verif.Proof.LayoutCheck
/-!
# C56: cases that meet the hypotheses, and what is false
-/
namespace Verif.Parse
open Verif.Lex (Tok Piece toksAt piecesText laidB laidB_sound notNextB notNextB_sound)
open Verif.Ast

theorem TokIs.of {c : Bytes} {t : Tok} {ty : TokType} {fl : Nat} {x : Bytes}
    (h : t.type = ty ∧ t.flags = fl ∧ t.len = x.length ∧ Lex.slice c t.start x.length = x) : TokIs c t ty fl x := ⟨h.1, h.2.1, h.2.2.1, h.2.2.2⟩

theorem IdTok.of {c : Bytes} {t : Tok} {x : Bytes}
    (h : (t.type = .Identifier ∧ t.flags = 0 ∧ t.len = x.length ∧ Lex.slice c t.start x.length = x) ∧ x ≠ []) : IdTok c t x := ⟨.of h.1, h.2⟩

theorem word_letters {w : Bytes} (h : ∀ b ∈ w, Strip.Letter b) (h0 : w ≠ []) : Strip.Word w := by
  induction w with
  | nil => exact absurd rfl h0
  | cons b w ih =>
    cases w with
    | nil => exact .one (.letter (h b (List.mem_singleton.mpr rfl)))
    | cons d w => exact .cons (a := [b]) (.letter (h b List.mem_cons_self)) (ih (fun x hx => h x (List.mem_cons_of_mem _ hx)) (by simp))

/-- `Value`, checked from left to right. -/
def valueOk : Int → List Tok → Bool
  | _, [] => true
  | n, t :: ts => t.type != .NewLine && t.type != .Comment && t.type != .Statement_End && (t.type != .Comma || decide (0 < n)) &&
      valueOk (depth [.BraceCurly_Open, .Paren_Open] [.BraceCurly_Close, .Paren_Close] [t] n) ts

theorem value_ok {vs : List Tok} : ∀ {n : Int}, valueOk n vs = true → ∀ pre t post, vs = pre ++ t :: post → Code t ∧ t.type ≠ .Statement_End ∧
    (t.type = .Comma → 0 < depth [.BraceCurly_Open, .Paren_Open] [.BraceCurly_Close, .Paren_Close] pre n) := by
  induction vs with
  | nil => intro n _ pre t post hh; simp at hh
  | cons v vs ih =>
    intro n h pre t post hh
    simp only [valueOk, Bool.and_eq_true, bne_iff_ne, ne_eq, Bool.or_eq_true, decide_eq_true_eq] at h
    obtain ⟨⟨⟨⟨h1, h2⟩, h3⟩, h4⟩, h5⟩ := h
    cases pre with
    | nil =>
      obtain ⟨rfl, rfl⟩ := List.cons.inj hh
      exact ⟨⟨h1, h2⟩, h3, fun hc => h4.resolve_left fun hn => hn hc⟩
    | cons p pre =>
      obtain ⟨rfl, hh2⟩ := List.cons.inj hh
      exact ih h5 pre t post hh2

theorem value_of {vs : List Tok} (h : valueOk 0 vs = true) : Value vs := value_ok h

/-! ## A variable -/

/-- `static unsigned ⏎int*b [ 3 ]=3 + 4 ;` -/
def varDemo : List Piece := [
  ⟨[], b!"static", [], .Spec_Static, 256⟩, ⟨b!" ", b!"unsigned", [], .Type_Unsigned, 0⟩, ⟨b!" \n", b!"int", [], .Type_int, 0⟩,
  ⟨[], b!"*", [], .Star, 257⟩, ⟨[], b!"b", [], .Identifier, 0⟩, ⟨b!" ", b!"[", [], .BraceSquare_Open, 0⟩, ⟨b!" ", b!"3", [], .Number, 2048⟩,
  ⟨b!" ", b!"]", [], .BraceSquare_Close, 0⟩, ⟨[], b!"=", [], .Operator, 3⟩, ⟨[], b!"3", [], .Number, 2048⟩, ⟨b!" ", b!"+", [], .Operator, 1⟩,
  ⟨b!" ", b!"4", [], .Number, 2048⟩, ⟨b!" ", b!";", [], .Statement_End, 512⟩]

/-- The example meets the hypotheses of `C56_variable`. -/
theorem varDemo_toks : VarToks (piecesText varDemo ++ [0]) b!"static unsigned int *  b[ 3 ] = 3 + 4 ;\n" (toksAt ⟨0, 1, 1⟩ varDemo) := by
  have hT : TypeToks (piecesText varDemo ++ [0]) ([] ++ [.Ptr]) b!"unsigned int" ([] ++ [⟨7, 8, .Type_Unsigned, 1, 7, 0⟩, ⟨17, 3, .Type_int, 1, 16, 0⟩] ++
      [⟨20, 1, .Star, 2, 4, 257⟩]) :=
    .mk (raw := b!"unsigned \nint") .nil (by simp) (.native (by decide) rfl ⟨_, _, rfl, rfl, by decide, by decide⟩ (by decide))
      ⟨b!"unsigned", [(b!" \n", b!"int")], word_letters (by decide) (by decide), by
        simp only [List.mem_singleton, forall_eq]
        exact ⟨.run (by decide) (by decide) (by decide) (by decide) (by decide) (by simp), word_letters (by decide) (by decide)⟩, rfl, rfl⟩
      (.cons (.of (by decide)) .nil) (by decide) (by decide)
  have hL : TailToks (piecesText varDemo ++ [0]) ⟨35, 1, .Statement_End, 2, 18, 512⟩ (boundsText [b!"3"] ++ (b!" = " ++ b!"3 + 4 "))
      ([⟨23, 1, .BraceSquare_Open, 2, 6, 0⟩, ⟨25, 1, .Number, 2, 8, 2048⟩, ⟨27, 1, .BraceSquare_Close, 2, 10, 0⟩] ++
       [⟨28, 1, .Operator, 2, 12, 3⟩, ⟨29, 1, .Number, 2, 13, 2048⟩, ⟨31, 1, .Operator, 2, 14, 1⟩, ⟨33, 1, .Number, 2, 16, 2048⟩]) := by
    refine .array (.bounds (.cons (inner := [_]) (.of (by decide)) ?_ ⟨_, _, rfl, rfl, by decide, by decide⟩ (by decide) (.of (by decide)) .nil))
      (.value (.of (by decide)) ?_ ⟨_, rfl, by decide, by decide⟩ (by decide))
    · simp [Code]
    · exact value_of (by decide)
  exact .mk (specs := [.Static]) (ss := [⟨0, 6, .Spec_Static, 1, 1, 256⟩]) (ns := [⟨21, 1, .Identifier, 2, 5, 0⟩]) (name := b!"b")
    (.cons (.of (by decide)) .nil) (by decide) (by decide) hT
    (.mk (l := []) (y := b!"b") (.of (by decide)) (by simp [Parts]) ⟨_, _, rfl, rfl, by decide, by decide⟩ (by decide)) hL (.of (by decide))

/-- The macros of a library just initialised. -/
def firstMacros : Lex.Macros := [(Crc.crc32 b!"enum_underlying", ⟨0, 1⟩)]

theorem initial_macros {w : World} {l lt : Bool} {n : Nat} (h : initial l n lt = .ok w) : w.env.ms = firstMacros := by
  unfold initial at h
  obtain ⟨g, -, h⟩ := Res.bind_eq_ok.mp h
  cases h
  rfl

/-- It is parsed, and prints as its normal form. -/
example : ∃ w, initial true 24 true = .ok w ∧
    ParsesAs w parse_variable (piecesText varDemo) 13 b!"static unsigned int *  b[ 3 ] = 3 + 4 ;\n" := by
  obtain ⟨w, hw, hr⟩ := C53_init true 24 true
  exact ⟨w, hw, C56_variable (more := []) hr (by
    rw [initial_macros hw, List.append_nil]
    exact hasToks_pieces (by decide +kernel)) varDemo_toks (by intro u _ t ht; cases ht)⟩

/-! ## A function -/

theorem tidied_word {w : Bytes} (h : ∀ b ∈ w, Strip.Letter b) (h0 : w ≠ []) : Tidied w w :=
  ⟨w, [], word_letters h h0, by simp, by simp [Strip.spread], by simp [Strip.joined]⟩

/-- A type of one word. -/
theorem word_type {c : Bytes} {t : Tok} {w : Bytes} {post : List Specifier} {qs : List Tok} (hn : NameToks c w [t]) (h : ∀ b ∈ w, Strip.Letter b) (h0 : w ≠ [])
    (hq : SpecToks c post qs) (h1 : ∀ x ∈ post, x ∈ typeSuffixes) (h2 : post.length ≤ 14) : TypeToks c post w (t :: qs) := by
  have := TypeToks.mk (pre := []) (ps := []) .nil (by simp) hn (tidied_word h h0) hq h1 (by simpa using h2)
  simpa using this

theorem one_name {c : Bytes} {t : Tok} {x : Bytes} (h : (t.type = .Identifier ∧ t.flags = 0 ∧ t.len = x.length ∧ Lex.slice c t.start x.length = x) ∧ x ≠ []) :
    QualToks c x [t] :=
  .mk (l := []) (y := x) (.of h) (by simp [Parts]) ⟨t, t, rfl, rfl, by rw [h.1.2.2.1]; omega, h.1.2.2.2⟩ h.2

/-- `Balanced`, checked from left to right. -/
def balancedOk : Int → List Tok → Bool
  | n, [] => n == 0
  | n, t :: ts => (t.type != .BraceCurly_Close || decide (0 < n)) && balancedOk (depth [.BraceCurly_Open] [.BraceCurly_Close] [t] n) ts

theorem balanced_of {vs : List Tok} (h : balancedOk 0 vs = true) : Balanced vs := by
  have key : ∀ {vs : List Tok} {n : Int}, balancedOk n vs = true →
      (∀ pre t post, vs = pre ++ t :: post → t.type = .BraceCurly_Close → 0 < depth [.BraceCurly_Open] [.BraceCurly_Close] pre n) ∧
        depth [.BraceCurly_Open] [.BraceCurly_Close] vs n = 0 := by
    intro vs
    induction vs with
    | nil => intro n h; exact ⟨(fun pre t post hh => by simp at hh), by simpa [balancedOk, depth] using h⟩
    | cons v vs ih =>
      intro n h
      simp only [balancedOk, Bool.and_eq_true, bne_iff_ne, ne_eq, Bool.or_eq_true, decide_eq_true_eq] at h
      refine ⟨fun pre t post hh ht => ?_, (ih h.2).2⟩
      cases pre with
      | nil => obtain ⟨rfl, rfl⟩ := List.cons.inj hh; exact h.1.resolve_left fun hn => hn ht
      | cons p pre => obtain ⟨rfl, hh2⟩ := List.cons.inj hh; exact (ih h.2).1 pre t post hh2 ht
  exact key h

/-- `static int f( int*a,⏎B b= 3) const{ g() ; }` -/
def fnDemo : List Piece := [
  ⟨[], b!"static", [], .Spec_Static, 256⟩, ⟨b!" ", b!"int", [], .Type_int, 0⟩, ⟨b!" ", b!"f", [], .Identifier, 0⟩, ⟨[], b!"(", [], .Paren_Open, 0⟩,
  ⟨b!" ", b!"int", [], .Type_int, 0⟩, ⟨[], b!"*", [], .Star, 257⟩, ⟨[], b!"a", [], .Identifier, 0⟩, ⟨[], b!",", [], .Comma, 1⟩,
  ⟨b!"\n", b!"B", [], .Identifier, 0⟩, ⟨b!" ", b!"b", [], .Identifier, 0⟩, ⟨[], b!"=", [], .Operator, 3⟩, ⟨b!" ", b!"3", [], .Number, 2048⟩,
  ⟨[], b!")", [], .Paren_Close, 0⟩, ⟨b!" ", b!"const", [], .Spec_Const, 256⟩, ⟨[], b!"{", [], .BraceCurly_Open, 0⟩, ⟨b!" ", b!"g", [], .Identifier, 0⟩,
  ⟨[], b!"(", [], .Paren_Open, 0⟩, ⟨[], b!")", [], .Paren_Close, 0⟩, ⟨b!" ", b!";", b!" ", .Statement_End, 512⟩, ⟨[], b!"}", [], .BraceCurly_Close, 512⟩]

/-- How it is printed. -/
def fnText : Bytes := b!" static\nint f( int *  a,  B b = 3) const\n{\ng() ;\n}\n"

/-- No macro named `const` is registered. -/
theorem firstMacros_const : Lex.lookupMacro firstMacros b!"const" = none := by decide +kernel

/-- The example meets the hypotheses of `C56_function`. -/
theorem fnDemo_toks : FnToks firstMacros (piecesText fnDemo ++ [0]) ⟨7, 3, .Type_int, 1, 7, 0⟩ fnText (toksAt ⟨0, 1, 1⟩ fnDemo) := by
  have hint : ∀ b ∈ b!"int", Strip.Letter b := by decide
  have hH : FnHead (piecesText fnDemo ++ [0]) ⟨7, 3, .Type_int, 1, 7, 0⟩ [.Static] b!" static\nint f"
      ([⟨0, 6, .Spec_Static, 1, 1, 256⟩] ++ [⟨7, 3, .Type_int, 1, 7, 0⟩] ++ [⟨11, 1, .Identifier, 1, 11, 0⟩]) :=
    .mk (lead := [.Static]) (tspecs := []) (tname := b!"int") (name := b!"f") rfl (.cons (.of (by decide)) .nil) (by decide)
      (word_type (.native (by decide) rfl ⟨_, _, rfl, rfl, by decide, by decide⟩ (by decide)) hint (by decide) .nil (by simp) (by decide))
      (one_name (by decide)) (by decide) (by decide)
  have h1 : ParamToks (piecesText fnDemo ++ [0]) b!" int *  a" (([⟨14, 3, .Type_int, 1, 14, 0⟩, ⟨17, 1, .Star, 1, 18, 257⟩] ++ [⟨18, 1, .Identifier, 1, 19, 0⟩]) ++ []) :=
    .mk (l := [.Ptr]) (tname := b!"int") (name := b!"a") (value := [])
      (word_type (.native (by decide) rfl ⟨_, _, rfl, rfl, by decide, by decide⟩ (by decide)) hint (by decide) (.cons (.of (by decide)) .nil) (by decide) (by decide))
      (.name (.of (by decide))) .none
  have h2 : ParamToks (piecesText fnDemo ++ [0]) b!" B b = 3" (([⟨21, 1, .Identifier, 1, 21, 0⟩] ++ [⟨23, 1, .Identifier, 2, 2, 0⟩]) ++
      [⟨24, 1, .Operator, 2, 4, 3⟩, ⟨26, 1, .Number, 2, 5, 2048⟩]) :=
    .mk (l := []) (tname := b!"B") (name := b!"b") (value := b!"3")
      (word_type (.ident (one_name (by decide))) (by decide) (by decide) .nil (by simp) (by decide))
      (.name (.of (by decide))) (.value (raw := b!"3") (.of (by decide)) ⟨by
        intro pre t post hh
        cases pre with
        | nil => obtain ⟨rfl, rfl⟩ := List.cons.inj hh; exact ⟨⟨by decide, by decide⟩, ⟨51, by decide, by decide, by decide, by decide⟩, by decide⟩
        | cons p pre => obtain ⟨rfl, hh2⟩ := List.cons.inj hh; simp at hh2, rfl⟩ ⟨_, _, rfl, rfl, by decide, by decide⟩ (tidied_word (by decide) (by decide)))
  have hP : ParamsToks (piecesText fnDemo ++ [0]) b!" int *  a,  B b = 3" (⟨12, 1, .Paren_Open, 1, 13, 0⟩ ::
      (([⟨14, 3, .Type_int, 1, 14, 0⟩, ⟨17, 1, .Star, 1, 18, 257⟩] ++ [⟨18, 1, .Identifier, 1, 19, 0⟩]) ++ []) ++
      (⟨19, 1, .Comma, 1, 20, 1⟩ :: (([⟨21, 1, .Identifier, 1, 21, 0⟩] ++ [⟨23, 1, .Identifier, 2, 2, 0⟩]) ++
      [⟨24, 1, .Operator, 2, 4, 3⟩, ⟨26, 1, .Number, 2, 5, 2048⟩]) ++ []) ++ [⟨27, 1, .Paren_Close, 2, 7, 0⟩]) :=
    .some (xs := [b!" B b = 3"]) (.of (by decide)) h1 (.cons (.of (by decide)) h2 .nil) (.of (by decide))
  exact .mk (trail := [.Const]) (qs := [⟨29, 5, .Spec_Const, 2, 8, 256⟩]) (z := b!"\n{\n" ++ b!"g() ;" ++ b!"\n}\n") hH hP (.cons (.of (by decide)) .nil) (by decide)
    (by simp only [List.mem_singleton, forall_eq]; exact firstMacros_const) (by decide)
    (.body (.text (vs := [⟨36, 1, .Identifier, 2, 15, 0⟩, ⟨37, 1, .Paren_Open, 2, 17, 0⟩, ⟨38, 1, .Paren_Close, 2, 18, 0⟩, ⟨40, 1, .Statement_End, 2, 19, 512⟩])
      (.of (by decide)) (balanced_of (by decide)) ⟨_, _, rfl, rfl, by decide, by decide⟩ (by decide) (.of (by decide))))

theorem lex_pieces {ms : Lex.Macros} {l : List Piece} (h : (laidB ms l && notNextB charIsSpace (piecesText l) && !l.isEmpty) = true) :
    Lex.lex true ms (piecesText l) = .ok (some (toksAt ⟨0, 1, 1⟩ l, ms)) := by
  simp only [Bool.and_eq_true, Bool.not_eq_true', List.isEmpty_eq_false_iff] at h
  exact Lex.laid_has (g := []) (by intro b hb; cases hb) (laidB_sound h.1.1) (notNextB_sound h.1.2) h.2 true

/-- It is parsed, and prints as its normal form. -/
example : ∃ w, initial true 24 true = .ok w ∧ ParsesAs w parse_function (piecesText fnDemo) 20 fnText := by
  obtain ⟨w, hw, hr⟩ := C53_init true 24 true
  refine ⟨w, hw, C56_function (more := []) hr (by
    rw [initial_macros hw, List.append_nil]
    exact lex_pieces (by decide +kernel)) fnDemo_toks (by decide) ?_⟩
  intro u hu ht
  have : u.type = .BraceCurly_Close := by
    have : (toksAt ⟨0, 1, 1⟩ fnDemo).getLast? = some ⟨42, 1, .BraceCurly_Close, 2, 22, 512⟩ := by decide
    rw [this] at hu
    cases hu
    rfl
  rw [this] at ht
  cases ht

/-! ## A struct -/

/-- A struct with a label, a comment, a variable, a struct with a function, and a class that is only declared. -/
def recDemo : Bytes := b!"struct A{\n\npublic:\n //k\n int a;\n struct B final { bool f(int x) const; };;\n class C;\n};"

/-- Its tokens. -/
def recHead : List Tok := [⟨0, 6, .Decl_Struct, 1, 1, 0⟩, ⟨7, 1, .Identifier, 1, 7, 0⟩]
def recVar : List Tok := [⟨25, 3, .Type_int, 5, 1, 0⟩, ⟨29, 1, .Identifier, 5, 5, 0⟩, ⟨30, 1, .Statement_End, 5, 7, 512⟩]
def recFn : List Tok := [⟨50, 4, .Type_bool, 6, 18, 0⟩, ⟨55, 1, .Identifier, 6, 23, 0⟩, ⟨56, 1, .Paren_Open, 6, 25, 0⟩, ⟨57, 3, .Type_int, 6, 26, 0⟩,
  ⟨61, 1, .Identifier, 6, 29, 0⟩, ⟨62, 1, .Paren_Close, 6, 31, 0⟩, ⟨64, 5, .Spec_Const, 6, 32, 256⟩, ⟨69, 1, .Statement_End, 6, 38, 512⟩]
def recLast : List Tok := [⟨73, 1, .Statement_End, 6, 42, 512⟩, ⟨76, 5, .Decl_Class, 7, 1, 0⟩, ⟨82, 1, .Identifier, 7, 7, 0⟩, ⟨83, 1, .Statement_End, 7, 9, 512⟩]
def recRest : List Tok := [⟨33, 6, .Decl_Struct, 6, 1, 0⟩, ⟨40, 1, .Identifier, 6, 8, 0⟩, ⟨42, 5, .Spec_Final, 6, 10, 256⟩] ++ ⟨48, 1, .BraceCurly_Open, 6, 16, 0⟩ :: recFn ++
  ⟨71, 1, .BraceCurly_Close, 6, 40, 512⟩ :: ⟨72, 1, .Statement_End, 6, 41, 512⟩ :: recLast
def recInner : List Tok := ⟨11, 6, .Access_Public, 1, 10, 128⟩ :: ⟨17, 1, .Assign_Classifer, 3, 7, 0⟩ :: ⟨20, 4, .Comment, 3, 8, 0⟩ :: (recVar ++ recRest)
def recToks : List Tok := recHead ++ ⟨8, 1, .BraceCurly_Open, 1, 9, 0⟩ :: recInner ++ [⟨85, 1, .BraceCurly_Close, 8, 1, 512⟩, ⟨86, 1, .Statement_End, 8, 2, 512⟩]

theorem recDemo_lexed : Lex.lex true firstMacros recDemo = .ok (some (recToks, firstMacros)) := by decide +kernel

/-- How it is printed. -/
def recText : Bytes :=
  b!"struct A\n{\npublic:\n//k\nint a;\nstruct B final\n{\nbool f( int x) const;\n\n};\nclass C;\n\n};\n"

/-- The example meets the hypotheses of `C56_struct`. -/
theorem recDemo_toks : RecordToks firstMacros (recDemo ++ [0]) .struct recText recToks := by
  have hd_a : DeclHead (recDemo ++ [0]) .record [] b!"int" b!"a" ([] ++ [⟨25, 3, .Type_int, 5, 1, 0⟩] ++ [⟨29, 1, .Identifier, 5, 5, 0⟩]) :=
    .mk (tspecs := []) (tname := b!"int") (specs := []) .nil (by simp) (by simp)
        (word_type (.native (by decide) rfl ⟨_, _, rfl, rfl, by decide, by decide⟩ (by decide)) (by decide) (by decide) .nil (by simp) (by decide))
        (by intro _ t ht; cases ht; decide) (one_name (by decide))
  have hv : DeclToks firstMacros (recDemo ++ [0]) .record recRest b!"int a;\n" recVar :=
    .var (specs := []) (type := b!"int") (name := b!"a") (tail := []) (vs := []) (hs := [⟨25, 3, .Type_int, 5, 1, 0⟩, ⟨29, 1, .Identifier, 5, 5, 0⟩])
      hd_a
      (by decide) (by decide) (.array (l := []) (ts := []) (.bounds .nil) .none) (.of (by decide)) (by intro t ht; cases ht) (by intro t ht; cases ht; decide)
      (by intro t ht; cases ht; decide)
  have hd_f : DeclHead (recDemo ++ [0]) .record [] b!"bool" b!"f" ([] ++ [⟨50, 4, .Type_bool, 6, 18, 0⟩] ++ [⟨55, 1, .Identifier, 6, 23, 0⟩]) :=
    .mk (tspecs := []) (tname := b!"bool") (specs := []) .nil (by simp) (by simp)
        (word_type (.native (by decide) rfl ⟨_, _, rfl, rfl, by decide, by decide⟩ (by decide)) (by decide) (by decide) .nil (by simp) (by decide))
        (by intro _ t ht; cases ht; decide) (one_name (by decide))
  have hf : DeclToks firstMacros (recDemo ++ [0]) .record [] b!"bool f( int x) const;\n" recFn :=
    .fn (lead := []) (type := b!"bool") (name := b!"f") (hs := [⟨50, 4, .Type_bool, 6, 18, 0⟩, ⟨55, 1, .Identifier, 6, 23, 0⟩]) (px := b!" int x") (trail := [.Const])
      (ps := [⟨56, 1, .Paren_Open, 6, 25, 0⟩, ⟨57, 3, .Type_int, 6, 26, 0⟩, ⟨61, 1, .Identifier, 6, 29, 0⟩, ⟨62, 1, .Paren_Close, 6, 31, 0⟩])
      (qs := [⟨64, 5, .Spec_Const, 6, 32, 256⟩]) (z := b!";\n") (es := [⟨69, 1, .Statement_End, 6, 38, 512⟩])
      hd_f
      (by decide) (by decide) (by decide)
      (.some (xs := []) (us := []) (.of (by decide)) (.mk (l := []) (tname := b!"int") (name := b!"x") (value := []) (ts := [_]) (ns := [_]) (vs := [])
        (word_type (.native (by decide) rfl ⟨_, _, rfl, rfl, by decide, by decide⟩ (by decide)) (by decide) (by decide) .nil (by simp) (by decide))
        (.name (.of (by decide))) .none) .nil (.of (by decide)))
      (by intro t ht; cases ht; decide) (.cons (.of (by decide)) .nil) (by decide)
      (by simp only [List.mem_singleton, forall_eq]; exact firstMacros_const) (by decide) (.decl (.of (by decide))) (by intro u hu t ht; cases ht)
  have hl : MembersToks firstMacros (recDemo ++ [0]) .record b!"class C;\n" recLast :=
    .semicolon (by intro hh; cases hh) rfl (.forward (k := .cls) (name := b!"C") rfl (.of (by decide)) (.of (by decide)) (by intro t ht; cases ht) .nil)
  have hr : MembersToks firstMacros (recDemo ++ [0]) .record b!"struct B final\n{\nbool f( int x) const;\n\n};\nclass C;\n" recRest :=
    .record (k := .struct) (hx := b!"struct B final") (y := b!"bool f( int x) const;\n") (x := b!"class C;\n")
      (.plain (.final (k := .struct) (ns := [_]) (name := b!"B") rfl (one_name (by decide)) (.of (by decide)))) (.of (by decide))
      (.decl (ts := []) (us := recFn) (x := []) (by intro hh; cases hh) hf .nil) (balanced_of (by decide)) (.of (by decide)) (.of (by decide)) (by intro t ht; cases ht; decide) hl
  refine .mk (hx := b!"struct A") (hs := recHead) (inner := recInner)
    (y := b!"public:\n//k\nint a;\nstruct B final\n{\nbool f( int x) const;\n\n};\nclass C;\n") (.plain (.named (k := .struct) (name := b!"A") (ns := [_]) rfl (one_name (by decide))))
    (.of (by decide)) ?_ (.of (by decide)) (.of (by decide))
  exact .label (y := b!"public:\n") .pub rfl (.comment (y := b!"//k\n") (fl := 0) (.of (by decide)) (.decl (by intro hh; cases hh) hv hr))

/-- It is parsed, and prints as its normal form. -/
example : ∃ w, initial true 48 true = .ok w ∧ ParsesAs w parse_struct recDemo 29 recText := by
  obtain ⟨w, hw, hr, hs⟩ := C56_spelled_init true 48 true
  refine ⟨w, hw, C56_struct (ts := recToks) (more := []) hr hs (by rw [initial_macros hw, List.append_nil]; exact recDemo_lexed) recDemo_toks ?_⟩
  intro u hu ht
  unfold initial at hw
  obtain ⟨h, -, hw⟩ := Res.bind_eq_ok.mp hw
  cases hw
  exact ⟨zeroTok, rfl, by rintro ⟨h1, -⟩; cases h1⟩

end Verif.Parse
