import Verif.Props.ReadUnionDemo
/-!
# C56: templates that meet the hypotheses
-/
namespace Verif.Parse
open Verif.Lex (Tok)
open Verif.Ast

def tmplDemo : Bytes := b!"template< class T, int N = 3 >\nstruct A { T a; template<> void f(T x); };\ntemplate<typename T> using P = T;\n"

/-- Its tokens. -/
def tmplHead : List Tok := ⟨0, 8, .Decl_Template, 1, 1, 0⟩ :: (⟨8, 1, .Operator, 1, 9, 1⟩ :: [⟨10, 5, .Decl_Class, 1, 10, 0⟩, ⟨16, 1, .Identifier, 1, 16, 0⟩] ++
  (⟨17, 1, .Comma, 1, 18, 1⟩ :: [⟨19, 3, .Type_int, 1, 19, 0⟩, ⟨23, 1, .Identifier, 1, 23, 0⟩, ⟨25, 1, .Operator, 1, 25, 3⟩, ⟨27, 1, .Number, 1, 27, 2048⟩] ++ []) ++
  [⟨29, 1, .Operator, 1, 29, 1⟩])
def tmplVar : List Tok := [⟨42, 1, .Identifier, 2, 11, 0⟩, ⟨44, 1, .Identifier, 2, 13, 0⟩, ⟨45, 1, .Statement_End, 2, 15, 512⟩]
def tmplNone : List Tok := [⟨47, 8, .Decl_Template, 2, 17, 0⟩, ⟨55, 1, .Operator, 2, 25, 1⟩, ⟨56, 1, .Operator, 2, 26, 1⟩]
def tmplFn : List Tok := [⟨58, 4, .Identifier, 2, 27, 0⟩, ⟨63, 1, .Identifier, 2, 32, 0⟩, ⟨64, 1, .Paren_Open, 2, 34, 0⟩, ⟨65, 1, .Identifier, 2, 35, 0⟩,
  ⟨67, 1, .Identifier, 2, 36, 0⟩, ⟨68, 1, .Paren_Close, 2, 38, 0⟩, ⟨69, 1, .Statement_End, 2, 39, 512⟩]
def tmplInner : List Tok := tmplVar ++ (tmplNone ++ tmplFn ++ [])
def tmplStruct : List Tok := [⟨31, 6, .Decl_Struct, 1, 31, 0⟩, ⟨38, 1, .Identifier, 2, 7, 0⟩] ++ ⟨40, 1, .BraceCurly_Open, 2, 9, 0⟩ :: tmplInner ++
  [⟨71, 1, .BraceCurly_Close, 2, 41, 512⟩, ⟨72, 1, .Statement_End, 2, 42, 512⟩]
def tmplName : List Tok := ⟨74, 8, .Decl_Template, 3, 1, 0⟩ :: (⟨82, 1, .Operator, 3, 9, 1⟩ :: [⟨83, 8, .Type_Typename, 3, 10, 0⟩, ⟨92, 1, .Identifier, 3, 18, 0⟩] ++ [] ++
  [⟨93, 1, .Operator, 3, 20, 1⟩])
def tmplUsing : List Tok := ⟨95, 5, .Decl_Using, 3, 21, 0⟩ :: ⟨101, 1, .Identifier, 3, 27, 0⟩ :: ⟨103, 1, .Operator, 3, 29, 3⟩ :: [⟨105, 1, .Identifier, 3, 31, 0⟩] ++ [] ++
  [⟨106, 1, .Statement_End, 3, 33, 512⟩]

theorem tmplDemo_lexed : Lex.lex true firstMacros tmplDemo = .ok (some (tmplHead ++ tmplStruct ++ (tmplName ++ tmplUsing ++ []), firstMacros)) := by decide +kernel

theorem tmplDemo_head : TemplateHead (tmplDemo ++ [0]) b!"template<  class T,  int N = 3 >\n" tmplHead :=
  .mk (px := b!" class T,  int N = 3") rfl (.some (x := b!" class T") (xs := [b!" int N = 3"]) (.of (by decide))
    (.type (ns := [_]) (vs := []) (name := b!"T") (value := []) (.cls (.of (by decide))) (.name (.of (by decide))) .none)
    (.cons (.of (by decide)) (.value (.mk (l := []) (ts := [_]) (ns := [_]) (vs := [_, _]) (tname := b!"int") (name := b!"N") (value := b!"3")
      (word_type (.native (by decide) rfl ⟨_, _, rfl, rfl, by decide, by decide⟩ (by decide)) (by decide) (by decide) .nil (by simp) (by decide))
      (.name (.of (by decide))) (.value (raw := b!"3") (.of (by decide)) ⟨by
        intro pre t post h
        cases pre with
        | nil => cases h; exact ⟨by simp [Code], ⟨51, by decide, by decide, by decide, by decide⟩, by decide⟩
        | cons a l => simp at h, by decide⟩ ⟨_, _, rfl, rfl, by decide, by decide⟩ (tidied_word (by decide) (by decide))))) .nil)
    (.of (by decide)))

theorem tmplDemo_inner : MembersToks firstMacros (tmplDemo ++ [0]) .record b!"T a;\ntemplate<>\nvoid f( T x);\n" tmplInner := by
  have hT : ∀ {i l k : Nat}, Lex.slice (tmplDemo ++ [0]) i 1 = b!"T" → TypeToks (tmplDemo ++ [0]) [] b!"T" [⟨i, 1, .Identifier, l, k, 0⟩] := fun h =>
    word_type (.ident (one_name ⟨⟨rfl, rfl, rfl, h⟩, by decide⟩)) (by decide) (by decide) .nil (by simp) (by decide)
  have ha : DeclToks firstMacros (tmplDemo ++ [0]) .record (tmplNone ++ tmplFn ++ []) b!"T a;\n" tmplVar :=
    .var (specs := []) (type := b!"T") (name := b!"a") (hs := [_, _]) (tail := []) (vs := [])
      (.mk (tspecs := []) (tname := b!"T") (specs := []) (ss := []) (ts := [_]) (ns := [_]) .nil (by simp) (by simp) (hT (by decide)) (by intro _ t ht; cases ht; decide) (one_name (by decide)))
      (by simp) (by decide) (.array (l := []) (ts := []) (.bounds .nil) .none) (.of (by decide)) (by intro t ht; cases ht) (by intro t ht; cases ht; decide)
      (by intro t ht; cases ht; exact fun hh => nomatch hh.1)
  have hf : DeclToks firstMacros (tmplDemo ++ [0]) .template [] b!"void f( T x);\n" tmplFn :=
    .fn (lead := []) (type := b!"void") (name := b!"f") (hs := [⟨58, 4, .Identifier, 2, 27, 0⟩, ⟨63, 1, .Identifier, 2, 32, 0⟩]) (px := b!" T x") (trail := [])
      (ps := [⟨64, 1, .Paren_Open, 2, 34, 0⟩, ⟨65, 1, .Identifier, 2, 35, 0⟩, ⟨67, 1, .Identifier, 2, 36, 0⟩, ⟨68, 1, .Paren_Close, 2, 38, 0⟩]) (qs := []) (z := b!";\n")
      (es := [⟨69, 1, .Statement_End, 2, 39, 512⟩])
      (.mk (tspecs := []) (tname := b!"void") (specs := []) (ss := []) (ts := [_]) (ns := [_]) .nil (by simp) (by simp)
        (word_type (.ident (one_name (by decide))) (by decide) (by decide) .nil (by simp) (by decide)) (by intro _ t ht; cases ht; decide) (one_name (by decide)))
      (by decide) (by decide) (by decide) (.some (ts := [_, _]) (us := []) (x := b!" T x") (xs := []) (.of (by decide))
        (.mk (l := []) (ts := [_]) (ns := [_]) (vs := []) (tname := b!"T") (name := b!"x") (value := []) (hT (by decide)) (.name (.of (by decide))) .none) .nil (.of (by decide)))
      (by intro t ht; cases ht; decide) .nil (by simp) (by simp) (by decide) (.decl (.of (by decide))) (by intro u _ t ht; cases ht)
  exact .decl (ts := tmplNone ++ tmplFn ++ []) (y := b!"T a;\n") (x := b!"template<>\nvoid f( T x);\n") (by intro hh; cases hh) ha
    (.tdecl (hs := tmplNone) (us := tmplFn) (ts := []) (hx := b!"template<>\n") (y := b!"void f( T x);\n") (x := []) (by intro hh; cases hh)
      (.mk (px := []) rfl (.none (.of (by decide)) (.of (by decide)))) hf .nil)

theorem tmplDemo_rest : MembersToks firstMacros (tmplDemo ++ [0]) .file b!"template<  typename T >\nusing P = T;\n" (tmplName ++ tmplUsing ++ []) :=
  .talias (hx := b!"template<  typename T >\n") (y := b!"using P = T;\n") (x := []) (ts := []) (by intro hh; cases hh)
    (.mk (px := b!" typename T") rfl (.some (x := b!" typename T") (xs := []) (us := []) (.of (by decide))
      (.type (ns := [_]) (vs := []) (name := b!"T") (value := []) (.typename (.of (by decide))) (.name (.of (by decide))) .none) .nil (.of (by decide))))
    (.alias (name := b!"P") (tspecs := []) (tname := b!"T") (ts := [_]) (l := []) (bs := []) rfl (.of (by decide)) (.of (by decide))
      (word_type (.ident (one_name (by decide))) (by decide) (by decide) .nil (by simp) (by decide)) (.bounds .nil) (.of (by decide)))
    (by intro t ht; cases ht; rfl) (by intro u _ t ht; cases ht) .nil

theorem tmplDemo_scope {w : World} (hw : initial true 48 true = .ok w) : w.scope = [] := by
  unfold initial at hw
  obtain ⟨h, -, hw⟩ := Res.bind_eq_ok.mp hw
  cases hw
  rfl

theorem tmplDemo_behind {w : World} {n : Nat} (hn : n ≤ 40) (hw : initial true 48 true = .ok w) : Behind (w.env.cells.drop n) := by
  unfold initial at hw
  obtain ⟨h, -, hw⟩ := Res.bind_eq_ok.mp hw
  cases hw
  constructor
  · simp
    omega
  · intro t ht
    have := List.mem_of_mem_drop (List.mem_of_mem_head? ht)
    rw [List.mem_replicate] at this
    rw [this.2]
    decide

/-- The struct is parsed by itself, ... -/
example : ∃ w, initial true 48 true = .ok w ∧
    ParsesAs w parse_template tmplDemo 28 b!"template<  class T,  int N = 3 >\nstruct A\n{\nT a;\ntemplate<>\nvoid f( T x);\n\n};\n" := by
  obtain ⟨w, hw, hr, hs⟩ := C56_spelled_init true 48 true
  refine ⟨w, hw, C56_template (hs := tmplHead) (us := tmplStruct) (more := tmplName ++ tmplUsing ++ []) (hx := b!"template<  class T,  int N = 3 >\n")
    (y := b!"struct A\n{\nT a;\ntemplate<>\nvoid f( T x);\n\n};\n") hr hs (tmplDemo_scope hw) (by rw [initial_macros hw]; exact tmplDemo_lexed) tmplDemo_head
    (.record (k := .struct) (.mk (hs := [_, _]) (inner := tmplInner) (hx := b!"struct A") (.plain (.named (ns := [_]) (name := b!"A") rfl (one_name (by decide)))) (.of (by decide)) tmplDemo_inner
      (.of (by decide)) (.of (by decide)))) ?_ (tmplDemo_behind (by decide) hw)⟩
  intro u hu _
  exact ⟨_, rfl, fun hh => nomatch hh.1⟩

/-- ... the whole as a file. -/
example : ∃ w, initial true 48 true = .ok w ∧ ParsesAs w parse_global_body tmplDemo 38
    b!"template<  class T,  int N = 3 >\nstruct A\n{\nT a;\ntemplate<>\nvoid f( T x);\n\n};\ntemplate<  typename T >\nusing P = T;\n" := by
  obtain ⟨w, hw, hr, hs⟩ := C56_spelled_init true 48 true
  refine ⟨w, hw, C56_global_body (ts := tmplHead ++ tmplStruct ++ (tmplName ++ tmplUsing ++ [])) hr hs ?_ (by rw [initial_macros hw]; exact tmplDemo_lexed) ?_
    (noCtor_of (by decide) (by decide)) (tmplDemo_behind (by decide) hw)⟩
  · intro a b h
    have : (13 : UInt8) ∈ tmplDemo := by rw [h]; simp
    exact absurd this (by decide)
  · exact .trecord (hs := [_, _]) (inner := tmplInner) (ts := tmplName ++ tmplUsing ++ []) (tx := b!"template<  class T,  int N = 3 >\n") (hx := b!"struct A")
      (y := b!"T a;\ntemplate<>\nvoid f( T x);\n") (x := b!"template<  typename T >\nusing P = T;\n") (by intro hh; cases hh) tmplDemo_head
      (.plain (.named (k := .struct) (ns := [_]) (name := b!"A") rfl (one_name (by decide)))) (.of (by decide)) tmplDemo_inner (.of (by decide)) (.of (by decide))
      (by intro t ht; cases ht; exact fun hh => nomatch hh.1) tmplDemo_rest

end Verif.Parse
