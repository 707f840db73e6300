import Verif.Props.ReadNameDemo
/-!
# C56: structs with bases that meet the hypotheses
-/
namespace Verif.Parse
open Verif.Lex (Tok)
open Verif.Ast

def baseDemo : Bytes := b!"struct A final: B, public N::C,D{ class E; };"

/-- Its tokens. -/
def baseName : List Tok := ⟨0, 6, .Decl_Struct, 1, 1, 0⟩ :: [⟨7, 1, .Identifier, 1, 7, 0⟩] ++ [⟨9, 5, .Spec_Final, 1, 9, 256⟩]
def baseMore : List Tok := ⟨17, 1, .Comma, 1, 18, 1⟩ :: [⟨19, 6, .Access_Public, 1, 19, 128⟩] ++ [⟨26, 1, .Identifier, 1, 26, 0⟩, ⟨27, 2, .Access_StaticSymbol, 1, 28, 0⟩, ⟨29, 1, .Identifier, 1, 30, 0⟩] ++
  (⟨30, 1, .Comma, 1, 31, 1⟩ :: [] ++ [⟨31, 1, .Identifier, 1, 32, 0⟩] ++ [])
def baseList : List Tok := ⟨14, 1, .Assign_Classifer, 1, 15, 0⟩ :: [] ++ [⟨16, 1, .Identifier, 1, 16, 0⟩] ++ baseMore
def baseInner : List Tok := [⟨34, 5, .Decl_Class, 1, 34, 0⟩, ⟨40, 1, .Identifier, 1, 40, 0⟩, ⟨41, 1, .Statement_End, 1, 42, 512⟩]
def baseToks : List Tok := (baseName ++ baseList) ++ ⟨32, 1, .BraceCurly_Open, 1, 33, 0⟩ :: baseInner ++ [⟨43, 1, .BraceCurly_Close, 1, 44, 512⟩, ⟨44, 1, .Statement_End, 1, 45, 512⟩]

theorem baseDemo_lexed : Lex.lex true firstMacros baseDemo = .ok (some (baseToks, firstMacros)) := by decide +kernel

theorem baseList_toks : BasesToks (baseDemo ++ [0]) b!" : public B\n, N::C, D" baseList :=
  .more (x := []) (as := []) (name := b!"B") (ns := [_]) (xs := [b!"N::C", b!"D"]) (.of (by decide)) .none (by decide) (one_name (by decide))
    (.cons (as := [_]) rfl (.pub rfl rfl) (by decide)
      (.mk (y := b!"N") (l := [(_, _)]) (.of (by decide)) (by intro p hp; rw [List.mem_singleton] at hp; subst hp; exact ⟨rfl, b!"C", .of (by decide)⟩)
        ⟨_, _, rfl, rfl, by decide, by decide⟩ (by decide))
      (.cons (as := []) (ns := [_]) (name := b!"D") rfl .none (by decide) (one_name (by decide)) .nil)) (by simp) (by simp)

/-- How it is printed. -/
def baseText : Bytes := b!"struct A final : public B\n, N::C, D\n{\nclass E;\n\n};\n"

/-- The example meets the hypotheses of `C56_struct`. -/
theorem baseDemo_toks : RecordToks firstMacros (baseDemo ++ [0]) .struct baseText baseToks :=
  .mk (hx := b!"struct A final : public B\n, N::C, D") (hs := baseName ++ baseList) (inner := baseInner) (y := b!"class E;\n")
    (.derived (x := b!"struct A final") (.final (k := .struct) (ns := [_]) (name := b!"A") rfl (one_name (by decide)) (.of (by decide))) baseList_toks) (.of (by decide))
    (.forward (k := .cls) (name := b!"E") rfl (.of (by decide)) (.of (by decide)) (by intro t ht; cases ht) .nil) (.of (by decide)) (.of (by decide))

/-- It is parsed, and prints as its normal form. -/
example : ∃ w, initial true 48 true = .ok w ∧ ParsesAs w parse_struct baseDemo 18 baseText := by
  obtain ⟨w, hw, hr, hs⟩ := C56_spelled_init true 48 true
  refine ⟨w, hw, C56_struct (ts := baseToks) (more := []) hr hs (by rw [initial_macros hw, List.append_nil]; exact baseDemo_lexed) baseDemo_toks ?_⟩
  rw [initial_cells hw]
  exact fun u _ _ => ⟨_, rfl, fun hh => nomatch hh.1⟩

end Verif.Parse
