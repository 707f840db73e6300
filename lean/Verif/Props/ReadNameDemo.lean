import Verif.Props.ReadGlobalDemo
/-!
# C56: names for types, and enums, that meet the hypotheses
-/
namespace Verif.Parse
open Verif.Lex (Tok)
open Verif.Ast

def nameDemo : Bytes := b!"using A = int[3];\ntypedef B*C;\nusing namespace N;\nenum D { a, //k\n b = 3+4 /**/\n};\nenum class E:int{ d };\nenum F;\n"

/-- Its tokens. -/
def nameUsing : List Tok := ⟨0, 5, .Decl_Using, 1, 1, 0⟩ :: ⟨6, 1, .Identifier, 1, 6, 0⟩ :: ⟨8, 1, .Operator, 1, 8, 3⟩ :: [⟨10, 3, .Type_int, 1, 10, 0⟩] ++
  [⟨13, 1, .BraceSquare_Open, 1, 14, 0⟩, ⟨14, 1, .Number, 1, 15, 2048⟩, ⟨15, 1, .BraceSquare_Close, 1, 16, 0⟩] ++ [⟨16, 1, .Statement_End, 1, 17, 512⟩]
def nameTypedef : List Tok := ⟨18, 7, .Decl_Typedef, 2, 1, 0⟩ :: [⟨26, 1, .Identifier, 2, 8, 0⟩, ⟨27, 1, .Star, 2, 10, 257⟩] ++ ⟨28, 1, .Identifier, 2, 11, 0⟩ :: [] ++
  [⟨29, 1, .Statement_End, 2, 12, 512⟩]
def nameSpace : List Tok := [⟨31, 5, .Decl_Using, 3, 1, 0⟩, ⟨37, 9, .Decl_Namespace, 3, 6, 0⟩, ⟨47, 1, .Identifier, 3, 16, 0⟩, ⟨48, 1, .Statement_End, 3, 18, 512⟩]
def nameHeadD : List Tok := [⟨50, 4, .Decl_Enum, 4, 1, 0⟩, ⟨55, 1, .Identifier, 4, 5, 0⟩]
def nameB : List Tok := [⟨67, 1, .Identifier, 5, 1, 0⟩, ⟨69, 1, .Operator, 5, 3, 3⟩, ⟨71, 1, .Number, 5, 5, 2048⟩, ⟨72, 1, .Operator, 5, 7, 1⟩, ⟨73, 1, .Number, 5, 8, 2048⟩]
def nameInner : List Tok := [⟨59, 1, .Identifier, 4, 9, 0⟩] ++ [] ++ ⟨60, 1, .Comma, 4, 11, 1⟩ :: ⟨62, 4, .Comment, 4, 12, 0⟩ :: (nameB ++ [⟨75, 5, .Comment, 5, 9, 0⟩])
def nameHeadE : List Tok := [⟨83, 4, .Decl_Enum, 7, 1, 0⟩, ⟨88, 5, .Decl_Class, 7, 5, 0⟩, ⟨94, 1, .Identifier, 7, 11, 0⟩, ⟨95, 1, .Assign_Classifer, 7, 13, 0⟩, ⟨96, 3, .Type_int, 7, 14, 0⟩]
def nameF : List Tok := [⟨106, 4, .Decl_Enum, 8, 1, 0⟩, ⟨111, 1, .Identifier, 8, 5, 0⟩, ⟨112, 1, .Statement_End, 8, 7, 512⟩]
def nameE : List Tok := nameHeadE ++ ⟨99, 1, .BraceCurly_Open, 7, 17, 0⟩ :: [⟨101, 1, .Identifier, 7, 18, 0⟩] ++ ⟨103, 1, .BraceCurly_Close, 7, 20, 512⟩ ::
  ⟨104, 1, .Statement_End, 7, 22, 512⟩ :: nameF
def nameD : List Tok := nameHeadD ++ ⟨57, 1, .BraceCurly_Open, 4, 7, 0⟩ :: nameInner ++ ⟨80, 1, .BraceCurly_Close, 6, 1, 512⟩ :: ⟨81, 1, .Statement_End, 6, 2, 512⟩ :: nameE
def nameToks : List Tok := nameUsing ++ (nameTypedef ++ (nameSpace ++ nameD))

theorem nameDemo_lexed : Lex.lex true firstMacros nameDemo = .ok (some (nameToks, firstMacros)) := by decide +kernel

/-- How it is printed. -/
def nameText : Bytes :=
  b!"using A = int[ 3 ];\ntypedef B *  C;\nusing namespace N;\nenum D\n{\na,//k\nb = 3+4 /**/\n\n};\nenum class E : int\n{\nd\n};\nenum F;\n"

theorem nameUsing_toks : AliasToks (nameDemo ++ [0]) b!"using A = int[ 3 ];\n" nameUsing :=
  .alias (name := b!"A") (tspecs := []) (tname := b!"int") (l := [b!"3"]) rfl (.of (by decide)) (.of (by decide))
    (word_type (.native (by decide) rfl ⟨_, _, rfl, rfl, by decide, by decide⟩ (by decide)) (by decide) (by decide) .nil (by simp) (by decide))
    (.bounds (.cons (inner := [_]) (.of (by decide)) (by simp [Code]) ⟨_, _, rfl, rfl, by decide, by decide⟩ (by decide) (.of (by decide)) .nil)) (.of (by decide))

theorem nameTypedef_toks : AliasToks (nameDemo ++ [0]) b!"typedef B *  C;\n" nameTypedef :=
  .typedef (name := b!"C") (tspecs := [.Ptr]) (tname := b!"B") (l := []) (bs := []) rfl
    (word_type (.ident (one_name (by decide))) (by decide) (by decide) (.cons (.of (by decide)) .nil) (by decide) (by decide))
    (.of (by decide)) (.bounds .nil) (by decide) (.of (by decide))

theorem nameInner_toks : EnumToks (nameDemo ++ [0]) b!"a,//k\nb = 3+4 /**/\n" nameInner :=
  .entry (us := [_]) (fs := []) (y := b!"a,") (x := b!"//k\nb = 3+4 /**/\n") (.plain (name := b!"a") (.of (by decide))) (by simp) rfl ⟨_, _, rfl, rfl, by decide, by decide⟩ (by decide)
    (.comment (y := b!"//k\n") (fl := 0) (.of (by decide))
      (.last (us := nameB) (fs := [_]) (.value (name := b!"b") (.of (by decide)) (.of (by decide)) (by simp [Code])) (by simp [Code]) ⟨_, _, rfl, rfl, by decide, by decide⟩ (by decide)))

theorem nameHeadE_toks : EnumHead (nameDemo ++ [0]) b!"enum class E : int" nameHeadE :=
  .cls (name := b!"E") (tspecs := []) (tname := b!"int") rfl rfl (.of (by decide)) rfl
    (word_type (.native (by decide) rfl ⟨_, _, rfl, rfl, by decide, by decide⟩ (by decide)) (by decide) (by decide) .nil (by simp) (by decide))

/-- The example meets the hypotheses of `C56_global_body`. -/
theorem nameDemo_toks : MembersToks firstMacros (nameDemo ++ [0]) .file nameText nameToks := by
  refine .alias (by intro hh; cases hh) nameUsing_toks (by intro u _ t ht; cases ht; exact fun hh => nomatch hh.1) ?_
  refine .alias (by intro hh; cases hh) nameTypedef_toks (by intro u _ t ht; cases ht; exact fun hh => nomatch hh.1) ?_
  refine .alias (y := b!"using namespace N;\n") (by intro hh; cases hh) (.space (name := b!"N") rfl rfl (.of (by decide)) (.of (by decide))) (by intro u _ t ht; cases ht; exact fun hh => nomatch hh.1) ?_
  refine .enumDef (hx := b!"enum D") (y := b!"a,//k\nb = 3+4 /**/\n") (.plain (name := b!"D") rfl (.of (by decide))) (.of (by decide)) nameInner_toks (balanced_of (by decide))
    (.of (by decide)) (.of (by decide)) (by intro t ht; cases ht; exact fun hh => nomatch hh.1) ?_
  refine .enumDef (hx := b!"enum class E : int") (y := b!"d") nameHeadE_toks (.of (by decide))
    (.last (us := [_]) (fs := []) (.plain (name := b!"d") (.of (by decide))) (by simp) ⟨_, _, rfl, rfl, by decide, by decide⟩ (by decide)) (balanced_of (by decide))
    (.of (by decide)) (.of (by decide)) (by intro t ht; cases ht; exact fun hh => nomatch hh.1) ?_
  exact .enumFwd (name := b!"F") rfl (.of (by decide)) (.of (by decide)) (by intro t ht; cases ht) .nil

theorem nameDemo_crlf : Lex.Crlf nameDemo := by
  intro a b h
  have : (13 : UInt8) ∈ nameDemo := by rw [h]; simp
  exact absurd this (by decide)

theorem initial_cells {w : World} {l lt : Bool} {n : Nat} (h : initial l n lt = .ok w) : w.env.cells = List.replicate n ⟨0, 0, .Invalid, 0, 0, 0⟩ := by
  unfold initial at h
  obtain ⟨g, -, h⟩ := Res.bind_eq_ok.mp h
  cases h
  rfl

/-- It is parsed, and prints as its normal form. -/
example : ∃ w, initial true 48 true = .ok w ∧ ParsesAs w parse_global_body nameDemo 43 nameText := by
  obtain ⟨w, hw, hr, hs⟩ := C56_spelled_init true 48 true
  refine ⟨w, hw, C56_global_body (ts := nameToks) hr hs nameDemo_crlf (by rw [initial_macros hw]; exact nameDemo_lexed) nameDemo_toks
    (noCtor_of (by decide) (by decide)) ?_⟩
  rw [initial_cells hw]
  exact ⟨by decide, by intro t ht; cases ht; decide⟩

/-- So is the alias alone, with what follows it left unread, ... -/
example : ∃ w, initial true 48 true = .ok w ∧ ParsesAs w parse_using nameDemo 8 b!"using A = int[ 3 ];\n" := by
  obtain ⟨w, hw, hr, hs⟩ := C56_spelled_init true 48 true
  exact ⟨w, hw, C56_using (t := ⟨0, 5, .Decl_Using, 1, 1, 0⟩) (tl := nameUsing.tail) (more := nameTypedef ++ (nameSpace ++ nameD)) hr (by rw [initial_macros hw]; exact nameDemo_lexed)
    nameUsing_toks rfl (fun u _ _ => ⟨_, rfl, fun hh => nomatch hh.1⟩)⟩

/-- ... an enum, ... -/
example : ∃ w, initial true 24 true = .ok w ∧ ParsesAs w parse_enum b!"enum A { a = 3, b };" 10 b!"enum A\n{\na = 3,b\n};\n" := by
  obtain ⟨w, hw, hr, hs⟩ := C56_spelled_init true 24 true
  refine ⟨w, hw, C56_enum (ts := [⟨0, 4, .Decl_Enum, 1, 1, 0⟩, ⟨5, 1, .Identifier, 1, 5, 0⟩] ++ ⟨7, 1, .BraceCurly_Open, 1, 7, 0⟩ ::
      ([⟨9, 1, .Identifier, 1, 9, 0⟩, ⟨11, 1, .Operator, 1, 11, 3⟩, ⟨13, 1, .Number, 1, 13, 2048⟩] ++ [] ++ ⟨14, 1, .Comma, 1, 15, 1⟩ :: ([⟨16, 1, .Identifier, 1, 16, 0⟩] ++ [])) ++
      [⟨18, 1, .BraceCurly_Close, 1, 18, 512⟩, ⟨19, 1, .Statement_End, 1, 20, 512⟩]) (more := []) (ms := firstMacros) hr (by rw [initial_macros hw]; decide +kernel)
    (.mk (hx := b!"enum A") (y := b!"a = 3,b") (.plain (name := b!"A") rfl (.of (by decide))) (.of (by decide))
      (.entry (us := [_, _, _]) (fs := []) (y := b!"a = 3,") (x := b!"b") (.value (name := b!"a") (.of (by decide)) (.of (by decide)) (by simp [Code])) (by simp) rfl
        ⟨_, _, rfl, rfl, by decide, by decide⟩ (by decide)
        (.last (us := [_]) (fs := []) (.plain (name := b!"b") (.of (by decide))) (by simp) ⟨_, _, rfl, rfl, by decide, by decide⟩ (by decide)))
      (.of (by decide)) (.of (by decide))) ?_⟩
  rw [initial_cells hw]
  exact fun u _ _ => ⟨_, rfl, fun hh => nomatch hh.1⟩

/-- ... and a typedef. -/
example : ∃ w, initial true 24 true = .ok w ∧ ParsesAs w parse_typedef b!"typedef B*C;" 5 b!"typedef B *  C;\n" := by
  obtain ⟨w, hw, hr, hs⟩ := C56_spelled_init true 24 true
  refine ⟨w, hw, C56_typedef (t := ⟨0, 7, .Decl_Typedef, 1, 1, 0⟩) (tl := [⟨8, 1, .Identifier, 1, 8, 0⟩, ⟨9, 1, .Star, 1, 10, 257⟩] ++ ⟨10, 1, .Identifier, 1, 11, 0⟩ :: [] ++
      [⟨11, 1, .Statement_End, 1, 12, 512⟩]) (more := []) (ms := firstMacros) hr (by rw [initial_macros hw]; decide +kernel)
    (.typedef (name := b!"C") (tspecs := [.Ptr]) (tname := b!"B") (l := []) (bs := []) rfl
      (word_type (.ident (one_name (by decide))) (by decide) (by decide) (.cons (.of (by decide)) .nil) (by decide) (by decide))
      (.of (by decide)) (.bounds .nil) (by decide) (.of (by decide))) rfl ?_⟩
  rw [initial_cells hw]
  exact fun u _ _ => ⟨_, rfl, fun hh => nomatch hh.1⟩

end Verif.Parse
