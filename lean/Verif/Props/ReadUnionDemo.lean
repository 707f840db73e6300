import Verif.Props.ReadGlobalDemo
/-!
# C56: a union and a linkage block that meet the hypotheses
-/
namespace Verif.Parse
open Verif.Lex (Tok)
open Verif.Ast

def unionDemo : Bytes := b!"union U { int a; float b; };\nextern \"C\" {\n int f();\n}\n"

/-- Its tokens. -/
def unionA : List Tok := [⟨10, 3, .Type_int, 1, 10, 0⟩, ⟨14, 1, .Identifier, 1, 14, 0⟩, ⟨15, 1, .Statement_End, 1, 16, 512⟩]
def unionB : List Tok := [⟨17, 5, .Identifier, 1, 18, 0⟩, ⟨23, 1, .Identifier, 1, 23, 0⟩, ⟨24, 1, .Statement_End, 1, 25, 512⟩]
def unionFn : List Tok := [⟨43, 3, .Type_int, 2, 13, 0⟩, ⟨47, 1, .Identifier, 3, 5, 0⟩, ⟨48, 1, .Paren_Open, 3, 7, 0⟩, ⟨49, 1, .Paren_Close, 3, 8, 0⟩,
  ⟨50, 1, .Statement_End, 3, 9, 512⟩]
def unionLink : List Tok := ⟨29, 6, .Decl_Extern_Linkage, 2, 1, 0⟩ :: ⟨36, 2, .String, 2, 8, 2048⟩ :: ⟨40, 1, .BraceCurly_Open, 2, 11, 0⟩ :: unionFn ++
  [⟨52, 1, .BraceCurly_Close, 4, 1, 512⟩]
def unionHead : List Tok := [⟨0, 5, .Decl_Union, 1, 1, 0⟩, ⟨6, 1, .Identifier, 1, 6, 0⟩] ++ ⟨8, 1, .BraceCurly_Open, 1, 8, 0⟩ :: (unionA ++ unionB) ++
  [⟨26, 1, .BraceCurly_Close, 1, 27, 512⟩, ⟨27, 1, .Statement_End, 1, 28, 512⟩]

theorem unionDemo_lexed : Lex.lex true firstMacros unionDemo = .ok (some (unionHead ++ unionLink, firstMacros)) := by decide +kernel

theorem unionDemo_members : MembersToks firstMacros (unionDemo ++ [0]) .union b!"int a;\nfloat b;\n" (unionA ++ unionB) := by
  have ha : VarToks (unionDemo ++ [0]) b!"int a;\n" unionA :=
    .mk (specs := []) (ss := []) (tspecs := []) (tname := b!"int") (ts := [_]) (name := b!"a") (ns := [_]) (tail := []) (vs := []) .nil (by simp) (by decide)
      (word_type (.native (by decide) rfl ⟨_, _, rfl, rfl, by decide, by decide⟩ (by decide)) (by decide) (by decide) .nil (by simp) (by decide))
      (one_name (by decide)) (.array (l := []) (ts := []) (.bounds .nil) .none) (.of (by decide))
  have hb : VarToks (unionDemo ++ [0]) b!"float b;\n" unionB :=
    .mk (specs := []) (ss := []) (tspecs := []) (tname := b!"float") (ts := [_]) (name := b!"b") (ns := [_]) (tail := []) (vs := []) .nil (by simp) (by decide)
      (word_type (.ident (one_name (by decide))) (by decide) (by decide) .nil (by simp) (by decide))
      (one_name (by decide)) (.array (l := []) (ts := []) (.bounds .nil) .none) (.of (by decide))
  exact .var (y := b!"int a;\n") (x := b!"float b;\n") ha (by intro u _ t ht; cases ht; exact fun hh => nomatch hh.1)
    (.var (x := []) (ts := []) hb (by intro u _ t ht; cases ht) .nil)

theorem unionDemo_link : MembersToks firstMacros (unionDemo ++ [0]) .linkage b!"int f();\n" unionFn := by
  have hf : DeclToks firstMacros (unionDemo ++ [0]) .linkage [] b!"int f();\n" unionFn :=
    .fn (lead := []) (type := b!"int") (name := b!"f") (hs := [⟨43, 3, .Type_int, 2, 13, 0⟩, ⟨47, 1, .Identifier, 3, 5, 0⟩]) (px := []) (trail := [])
      (ps := [⟨48, 1, .Paren_Open, 3, 7, 0⟩, ⟨49, 1, .Paren_Close, 3, 8, 0⟩]) (qs := []) (z := b!";\n") (es := [⟨50, 1, .Statement_End, 3, 9, 512⟩])
      (.mk (tspecs := []) (tname := b!"int") (specs := []) (ss := []) (ts := [_]) (ns := [_]) .nil (by simp) (by simp)
        (word_type (.native (by decide) rfl ⟨_, _, rfl, rfl, by decide, by decide⟩ (by decide)) (by decide) (by decide) .nil (by simp) (by decide))
        (by intro _ t ht; cases ht; decide) (one_name (by decide)))
      (by decide) (by decide) (by decide) (.none (.of (by decide)) (.of (by decide))) (by intro t ht; cases ht) .nil (by simp) (by simp) (by decide)
      (.decl (.of (by decide))) (by intro u _ t ht; cases ht)
  exact .decl (ts := []) (x := []) (by intro hh; cases hh) hf .nil

/-- The union is parsed by itself, ... -/
example : ∃ w, initial true 48 true = .ok w ∧ ParsesAs w parse_union unionDemo 11 b!"union U\n{\nint a;\nfloat b;\n\n};\n" := by
  obtain ⟨w, hw, hr, hs⟩ := C56_spelled_init true 48 true
  exact ⟨w, hw, C56_union (more := unionLink) (hx := b!"union U") (y := b!"int a;\nfloat b;\n") hr hs (by rw [initial_macros hw]; exact unionDemo_lexed)
    (.named (name := b!"U") rfl (.of (by decide))) (.of (by decide)) unionDemo_members rfl rfl⟩

theorem unionDemo_behind {w : World} {n : Nat} (hn : n ≤ 20) (hw : initial true 48 true = .ok w) : Behind (w.env.cells.drop n) := by
  unfold initial at hw
  obtain ⟨h, -, hw⟩ := Res.bind_eq_ok.mp hw
  cases hw
  constructor
  · simp
    omega
  · intro t ht
    have := List.mem_of_mem_drop (List.mem_of_mem_head? ht)
    rw [List.mem_replicate] at this
    rw [this.2]
    decide

/-- ... the whole as a file, ... -/
example : ∃ w, initial true 48 true = .ok w ∧
    ParsesAs w parse_global_body unionDemo 20 b!"union U\n{\nint a;\nfloat b;\n\n};\nextern \"C\"\n{\nint f();\n\n}\n" := by
  obtain ⟨w, hw, hr, hs⟩ := C56_spelled_init true 48 true
  refine ⟨w, hw, C56_global_body (ts := unionHead ++ unionLink) hr hs ?_ (by rw [initial_macros hw]; exact unionDemo_lexed) ?_
    (noCtor_of (by decide) (by decide)) (unionDemo_behind (by decide) hw)⟩
  · intro a b h
    have : (13 : UInt8) ∈ unionDemo := by rw [h]; simp
    exact absurd this (by decide)
  · exact .union (hs := [_, _]) (inner := unionA ++ unionB) (ts := unionLink) (hx := b!"union U") (y := b!"int a;\nfloat b;\n") (x := b!"extern \"C\"\n{\nint f();\n\n}\n") (.named (name := b!"U") rfl (.of (by decide))) (.of (by decide))
      unionDemo_members (balanced_of (by decide)) (.of (by decide)) (.of (by decide))
      (.linkage (inner := unionFn) (ts := []) (name := b!"C") (fl := 2048) (y := b!"int f();\n") (x := []) rfl (.of (by decide)) (by decide) (.of (by decide)) unionDemo_link rfl .nil)

def linkDemo : Bytes := b!"extern \"C\" { union { int a; }; }"

def linkVar : List Tok := [⟨21, 3, .Type_int, 1, 21, 0⟩, ⟨25, 1, .Identifier, 1, 25, 0⟩, ⟨26, 1, .Statement_End, 1, 27, 512⟩]
def linkToks : List Tok := ⟨0, 6, .Decl_Extern_Linkage, 1, 1, 0⟩ :: ⟨7, 2, .String, 1, 8, 2048⟩ :: ⟨11, 1, .BraceCurly_Open, 1, 11, 0⟩ ::
  ([⟨13, 5, .Decl_Union, 1, 13, 0⟩] ++ ⟨19, 1, .BraceCurly_Open, 1, 19, 0⟩ :: linkVar ++ ⟨28, 1, .BraceCurly_Close, 1, 29, 512⟩ :: [⟨29, 1, .Statement_End, 1, 30, 512⟩]) ++
  [⟨31, 1, .BraceCurly_Close, 1, 32, 512⟩]

theorem linkDemo_lexed : Lex.lex true firstMacros linkDemo = .ok (some (linkToks, firstMacros)) := by decide +kernel

/-- ... and a linkage block by itself, with a union in it. -/
example : ∃ w, initial true 48 true = .ok w ∧ ParsesAs w parse_extern_link linkDemo 11 b!"extern \"C\"\n{\nunion \n{\nint a;\n\n};\n\n}\n" := by
  obtain ⟨w, hw, hr, hs⟩ := C56_spelled_init true 48 true
  have ha : VarToks (linkDemo ++ [0]) b!"int a;\n" linkVar :=
    .mk (specs := []) (ss := []) (tspecs := []) (tname := b!"int") (ts := [_]) (name := b!"a") (ns := [_]) (tail := []) (vs := []) .nil (by simp) (by decide)
      (word_type (.native (by decide) rfl ⟨_, _, rfl, rfl, by decide, by decide⟩ (by decide)) (by decide) (by decide) .nil (by simp) (by decide))
      (one_name (by decide)) (.array (l := []) (ts := []) (.bounds .nil) .none) (.of (by decide))
  refine ⟨w, hw, C56_extern (name := b!"C") (fl := 2048) (y := b!"union \n{\nint a;\n\n};\n") hr hs ?_ (by rw [initial_macros hw]; exact linkDemo_lexed) rfl
    (.of (by decide)) (by decide) (.of (by decide)) ?_ rfl (noCtor_of (by decide) (by decide)) (unionDemo_behind (by decide) hw)⟩
  · intro a b h
    have : (13 : UInt8) ∈ linkDemo := by rw [h]; simp
    exact absurd this (by decide)
  · exact .union (hs := [_]) (inner := linkVar) (ts := []) (hx := b!"union ") (y := b!"int a;\n") (x := []) (.unnamed rfl) (.of (by decide))
      (.var (x := []) (ts := []) ha (by intro u _ t ht; cases ht) .nil) (balanced_of (by decide)) (.of (by decide)) (.of (by decide)) .nil

end Verif.Parse
