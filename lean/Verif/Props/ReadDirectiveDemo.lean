import Verif.Props.ReadTemplateDemo
/-!
# C56: directives that meet the hypotheses
-/
namespace Verif.Parse
open Verif.Lex (Tok)
open Verif.Ast

def dirDemo : Bytes := b!"#pragma once\n#include <a>\n#ifndef A\n#define A 2\n#define F(x, y) x + y\n#else\nint i;\n#endif\n"

/-- Its tokens. -/
def dirPragma : List Tok := [⟨1, 6, .Preprocess_Pragma, 1, 1, 0⟩, ⟨8, 4, .Preprocess_Content, 1, 9, 8⟩]
def dirInclude : List Tok := [⟨14, 7, .Preprocess_Include, 2, 1, 0⟩, ⟨22, 3, .String, 2, 10, 8⟩]
def dirTest : List Tok := [⟨27, 6, .Preprocess_IfNotDef, 3, 1, 16⟩, ⟨34, 1, .Preprocess_Content, 3, 9, 8⟩]
def dirDefine : List Tok := [⟨37, 6, .Preprocess_Define, 4, 1, 0⟩, ⟨44, 1, .Identifier, 4, 9, 8⟩, ⟨45, 2, .Preprocess_Content, 4, 10, 8⟩]
def dirNames : List Tok := ⟨57, 1, .Paren_Open, 5, 10, 8⟩ :: ⟨58, 1, .Preprocess_Define_Param, 5, 11, 8⟩ ::
  [⟨59, 1, .Comma, 5, 12, 8⟩, ⟨61, 1, .Preprocess_Define_Param, 5, 14, 8⟩] ++ [⟨62, 1, .Paren_Close, 5, 15, 8⟩]
def dirFunction : List Tok := ⟨49, 6, .Preprocess_Define, 5, 1, 0⟩ :: ⟨56, 1, .Identifier, 5, 9, 8⟩ :: dirNames ++ [⟨63, 6, .Preprocess_Content, 5, 16, 8⟩]
def dirVar : List Tok := [⟨76, 3, .Type_int, 7, 1, 0⟩, ⟨80, 1, .Identifier, 7, 4, 0⟩, ⟨81, 1, .Statement_End, 7, 6, 512⟩]
def dirEnd : List Tok := ⟨83, 1, .Preprocess_Hash, 8, 1, 8⟩ :: [⟨84, 5, .Preprocess_EndIf, 8, 1, 16⟩] ++ []
def dirElse : List Tok := ⟨70, 1, .Preprocess_Hash, 6, 1, 8⟩ :: [⟨71, 4, .Preprocess_Else, 6, 1, 16⟩] ++ (dirVar ++ dirEnd)
def dirMacros : List Tok := ⟨36, 1, .Preprocess_Hash, 4, 1, 8⟩ :: dirDefine ++ (⟨47, 1, .NewLine, 4, 12, 0⟩ :: (⟨48, 1, .Preprocess_Hash, 5, 1, 8⟩ :: dirFunction ++
  (⟨69, 1, .NewLine, 5, 22, 0⟩ :: dirElse)))
def dirToks : List Tok := ⟨0, 1, .Preprocess_Hash, 1, 1, 8⟩ :: dirPragma ++ (⟨12, 1, .NewLine, 1, 13, 0⟩ :: (⟨13, 1, .Preprocess_Hash, 2, 1, 8⟩ :: dirInclude ++
  (⟨26, 1, .Preprocess_Hash, 3, 1, 8⟩ :: dirTest ++ (⟨35, 1, .NewLine, 3, 10, 0⟩ :: dirMacros))))

/-- The macros that are known behind it. -/
def dirKnown : Lex.Macros := [(0x4dbd0b28#32, ⟨0, 1⟩), (0xd3d99e8b#32, ⟨0, 0⟩)] ++ firstMacros

theorem dirDemo_lexed : Lex.lex true firstMacros dirDemo = .ok (some (dirToks, dirKnown)) := by decide +kernel

theorem dirDemo_define : DirectiveToks dirKnown (dirDemo ++ [0]) .file b!"#define A 2" dirDefine :=
  .define (name := b!"A") (m := ⟨0, 0⟩) (x := b!"2") rfl (.of (fl := 8) (by decide)) (by decide) (by decide +kernel) rfl
    (.spaced (raw := b!"2") (.of (fl := 8) (by decide)) (tidied_word (by decide) (by decide)))

theorem dirDemo_function : DirectiveToks dirKnown (dirDemo ++ [0]) .file b!"#define F( x,  y) x + y" dirFunction :=
  .function (name := b!"F") (m := ⟨0, 1⟩) (px := b!" x,  y") (ps := dirNames) (x := b!"x + y") rfl (.of (fl := 8) (by decide)) (by decide) (by decide +kernel) rfl
    (.mk (name := b!"x") (xs := [b!"y"]) rfl (.of (fl := 8) (by decide)) (by decide) (.cons rfl (.of (fl := 8) (by decide)) (by decide) .nil) rfl)
    (.spaced (raw := b!"x + y") (.of (fl := 8) (by decide)) ⟨b!"x", [(b!" ", b!"+"), (b!" ", b!"y")], word_letters (by decide) (by decide), by
      intro g hg
      simp only [List.mem_cons, List.not_mem_nil, or_false] at hg
      rcases hg with rfl | rfl
      · exact ⟨.space, word_letters (by decide) (by decide)⟩
      · exact ⟨.space, word_letters (by decide) (by decide)⟩, by decide, by decide⟩)

theorem dirDemo_else : MembersToks dirKnown (dirDemo ++ [0]) .file b!"#else\nint i;\n#endif\n" dirElse := by
  have ha : DeclToks dirKnown (dirDemo ++ [0]) .file dirEnd b!"int i;\n" dirVar :=
    .var (specs := []) (type := b!"int") (name := b!"i") (hs := [_, _]) (tail := []) (vs := [])
      (.mk (tspecs := []) (tname := b!"int") (specs := []) (ss := []) (ts := [_]) (ns := [_]) .nil (by simp) (by simp)
        (word_type (.native (by decide) rfl ⟨_, _, rfl, rfl, by decide, by decide⟩ (by decide)) (by decide) (by decide) .nil (by simp) (by decide))
        (by intro _ t ht; cases ht; decide) (one_name (by decide)))
      (by simp) (by decide) (.array (l := []) (ts := []) (.bounds .nil) .none) (.of (by decide)) (by intro t ht; cases ht) (by intro t ht; cases ht; decide)
      (by intro t ht; cases ht; exact fun hh => nomatch hh.1)
  exact .directive (us := [_]) (y := b!"#else\n") (ts := dirVar ++ dirEnd) rfl (.otherwise rfl) (.decl (ts := dirEnd) (y := b!"int i;\n") (x := b!"#endif\n") (by intro hh; cases hh) ha
    (.directive (us := [_]) (y := b!"#endif\n") (x := []) (ts := []) rfl (.endif rfl) .nil))

theorem dirDemo_toks : MembersToks dirKnown (dirDemo ++ [0]) .file
    b!"#pragma once\n\n#include <a>\n#ifndef A\n#define A 2\n#define F( x,  y) x + y\n#else\nint i;\n#endif\n" dirToks :=
  .directive (us := dirPragma) (y := b!"#pragma once\n") (x := b!"\n#include <a>\n#ifndef A\n#define A 2\n#define F( x,  y) x + y\n#else\nint i;\n#endif\n") rfl
    (.pragma (x := b!"once") rfl (.of (fl := 8) (by decide)) (by decide)) <|
  .newline (x := b!"#include <a>\n#ifndef A\n#define A 2\n#define F( x,  y) x + y\n#else\nint i;\n#endif\n") rfl <|
  .directive (us := dirInclude) (y := b!"#include <a>\n") (x := b!"#ifndef A\n#define A 2\n#define F( x,  y) x + y\n#else\nint i;\n#endif\n") rfl
    (.incl (x := b!"<a>") (by intro hh; cases hh) rfl (.of (fl := 8) (by decide)) (by decide)) <|
  .directive (us := dirTest) (y := b!"#ifndef A") (x := b!"\n#define A 2\n#define F( x,  y) x + y\n#else\nint i;\n#endif\n") rfl
    (.test (w := b!"#ifndef ") (x := b!"A") (a := []) .ifndef rfl (.of (fl := 8) (by decide)) (by decide)) <|
  .newline (x := b!"#define A 2\n#define F( x,  y) x + y\n#else\nint i;\n#endif\n") rfl <|
  .directive (us := dirDefine) (y := b!"#define A 2") (x := b!"\n#define F( x,  y) x + y\n#else\nint i;\n#endif\n") rfl dirDemo_define <|
  .newline (x := b!"#define F( x,  y) x + y\n#else\nint i;\n#endif\n") rfl <|
  .directive (us := dirFunction) (y := b!"#define F( x,  y) x + y") (x := b!"\n#else\nint i;\n#endif\n") rfl dirDemo_function <|
  .newline (x := b!"#else\nint i;\n#endif\n") rfl dirDemo_else

/-- The file meets the hypotheses of `C56_global_body`. -/
theorem dirDemo_parses : ∃ w, initial true 48 true = .ok w ∧ ParsesAs w parse_global_body dirDemo 33
    b!"#pragma once\n\n#include <a>\n#ifndef A\n#define A 2\n#define F( x,  y) x + y\n#else\nint i;\n#endif\n" := by
  obtain ⟨w, hw, hr, hs⟩ := C56_spelled_init true 48 true
  refine ⟨w, hw, C56_global_body (ts := dirToks) hr hs ?_ (by rw [initial_macros hw]; exact dirDemo_lexed) dirDemo_toks
    (noCtor_of (by decide) (by decide)) (tmplDemo_behind (by decide) hw)⟩
  intro a b h
  have : (13 : UInt8) ∈ dirDemo := by rw [h]; simp
  exact absurd this (by decide)

/-! ## Other directives, and assertions -/

def insideOk (o z : TokType) : Int → List Tok → Bool
  | n, [] => n == 0
  | n, t :: ts => (t.type != .NewLine && t.type != .Comment && (t.type != z || decide (0 < n))) && insideOk o z (if t.type ∈ [o] then n + 1 else if t.type ∈ [z] then n - 1 else n) ts

theorem inside_of {o z : TokType} {vs : List Tok} (h : insideOk o z 0 vs = true) : Inside o z vs := by
  have key : ∀ (vs : List Tok) (n : Int), insideOk o z n vs = true →
      (∀ pre t post, vs = pre ++ t :: post → Code t ∧ (t.type = z → 0 < depth [o] [z] pre n)) ∧ depth [o] [z] vs n = 0 := by
    intro vs
    induction vs with
    | nil => intro n h; exact ⟨fun pre t post hh => by simp at hh, by show n = 0; simpa [insideOk] using h⟩
    | cons v vs ih =>
      intro n h
      simp only [insideOk, Bool.and_eq_true, Bool.or_eq_true, bne_iff_ne, ne_eq, decide_eq_true_eq] at h
      obtain ⟨⟨⟨h1, h2⟩, h3⟩, h4⟩ := h
      obtain ⟨k1, k2⟩ := ih _ h4
      refine ⟨fun pre t post hh => ?_, k2⟩
      cases pre with
      | nil =>
        cases hh
        exact ⟨⟨h1, h2⟩, fun hz => h3.resolve_left (fun hn => hn hz)⟩
      | cons a pre =>
        cases hh
        exact k1 pre t post rfl
  exact key vs 0 h

def assertDemo : Bytes := b!"#undef B\n\nstatic_assert(f(1), \"a\");\n"

def assertInner : List Tok := [⟨24, 1, .Identifier, 3, 15, 0⟩, ⟨25, 1, .Paren_Open, 3, 16, 0⟩, ⟨26, 1, .Number, 3, 17, 2048⟩, ⟨27, 1, .Paren_Close, 3, 18, 0⟩,
  ⟨28, 1, .Comma, 3, 19, 1⟩, ⟨30, 2, .String, 3, 20, 2048⟩]
def assertToks : List Tok := ⟨0, 1, .Preprocess_Hash, 1, 1, 8⟩ :: ⟨0, 9, .Preprocess_Unsupported, 1, 1, 0⟩ :: (⟨9, 1, .NewLine, 2, 1, 0⟩ ::
  (⟨10, 13, .StaticAssert, 3, 1, 0⟩ :: ⟨23, 1, .Paren_Open, 3, 14, 0⟩ :: assertInner ++ ⟨33, 1, .Paren_Close, 3, 24, 0⟩ :: ⟨34, 1, .Statement_End, 3, 25, 512⟩ :: []))

theorem assertDemo_lexed : Lex.lex true firstMacros assertDemo = .ok (some (assertToks, firstMacros)) := by decide +kernel

example : ∃ w, initial true 24 true = .ok w ∧ ParsesAs w parse_global_body assertDemo 13 assertDemo := by
  obtain ⟨w, hw, hr, hs⟩ := C56_spelled_init true 24 true
  refine ⟨w, hw, C56_global_body (ts := assertToks) hr hs ?_ (by rw [initial_macros hw]; exact assertDemo_lexed) ?_ (noCtor_of (by decide) (by decide)) ?_⟩
  · intro a b h
    have : (13 : UInt8) ∈ assertDemo := by rw [h]; simp
    exact absurd this (by decide)
  · exact .other (y := b!"#undef B\n") (x := b!"\nstatic_assert(f(1), \"a\");\n") (fl := 0) (by intro hh; cases hh) rfl (.of (by decide)) (by decide) (by decide +kernel)
      (.inr (.skip rfl (.here (by decide) (by decide)))) (.newline (x := b!"static_assert(f(1), \"a\");\n") rfl
      (.assertion (y := b!"static_assert(f(1), \"a\");") (x := []) (vs := assertInner) (by intro hh; cases hh) rfl rfl (inside_of (by decide)) rfl rfl
        ⟨_, _, rfl, rfl, by decide, by decide⟩ (by decide) (by decide) .nil))
  · unfold initial at hw
    obtain ⟨h, -, hw⟩ := Res.bind_eq_ok.mp hw
    cases hw
    constructor
    · simp [assertToks, assertInner]
    · intro t ht
      have := List.mem_of_mem_drop (List.mem_of_mem_head? ht)
      rw [List.mem_replicate] at this
      rw [this.2]
      decide

end Verif.Parse
