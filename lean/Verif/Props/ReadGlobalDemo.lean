import Verif.Props.ReadGlobal
import Verif.Props.ReadDemo
/-!
# C56: a file that meets the hypotheses of `C56_global_body`
-/
namespace Verif.Parse
open Verif.Lex (Tok)
open Verif.Ast

/-! ## `NoCtor`, checked from left to right -/

def tildeOk (c : Bytes) : List Tok → Bool
  | x :: y :: z :: r => !(y.type == .Identifier && z.type == .Paren_Open && x.type == .Operator && c[x.start]? == some 126) && tildeOk c (y :: z :: r)
  | _ => true

theorem tilde_of {c : Bytes} {ts : List Tok} (h : tildeOk c ts = true) : ∀ (i : Nat) x y z, ts[i]? = some x → ts[i + 1]? = some y → ts[i + 2]? = some z →
    y.type = .Identifier → z.type = .Paren_Open → x.type = .Operator → c[x.start]? ≠ some 126 := by
  induction ts with
  | nil => intro i x y z hx; simp at hx
  | cons t ts ih =>
    intro i x y z hx hy hz h1 h2 h3 h4
    cases ts with
    | nil => simp at hy
    | cons u ts =>
      cases ts with
      | nil => simp at hz
      | cons v ts =>
        rw [tildeOk, Bool.and_eq_true] at h
        cases i with
        | zero =>
          cases hx; cases hy; cases hz
          simp [h1, h2, h3, h4] at h
        | succ i => exact ih h.2 i x y z hx hy hz h1 h2 h3 h4

theorem word_of {x : Bytes} (h : x ≠ [] ∧ ∀ b ∈ x, charIsAlpha b = true) : Lex.IsWord x := by
  cases x with
  | nil => exact absurd rfl h.1
  | cons a r =>
    refine ⟨a, r, rfl, .inl (h.2 a List.mem_cons_self), fun b hb => .inl ?_⟩
    unfold charIsAlphanumeric
    rw [h.2 b (List.mem_cons_of_mem _ hb), Bool.true_or]

/-- A name of letters only, as `NoCtor` wants it. -/
def nameOk (c : Bytes) (t : Tok) : Bool :=
  let x := Lex.slice c t.start t.len
  t.type == .Identifier && t.flags == 0 && t.len == x.length && x != [] && x.all charIsAlpha

theorem name_of {c : Bytes} {t : Tok} (h : nameOk c t = true) : IdTok c t (Lex.slice c t.start t.len) ∧ Lex.IsWord (Lex.slice c t.start t.len) := by
  simp only [nameOk, Bool.and_eq_true, beq_iff_eq, bne_iff_ne, List.all_eq_true] at h
  obtain ⟨⟨⟨⟨h1, h2⟩, h3⟩, h4⟩, h5⟩ := h
  exact ⟨⟨⟨h1, h2, h3, by rw [← h3]⟩, h4⟩, word_of ⟨h4, h5⟩⟩

def scopeOk (c : Bytes) : List Tok → Bool
  | w :: x :: y :: z :: r => (x.type != .Access_StaticSymbol || y.type != .Identifier || z.type != .Paren_Open ||
      (nameOk c w && nameOk c y && !(Lex.slice c y.start y.len).isPrefixOf (c.drop w.start))) && scopeOk c (x :: y :: z :: r)
  | _ => true

theorem noCtor_of {c : Bytes} {ts : List Tok} (h : tildeOk c ts = true) (h' : scopeOk c ts = true) : NoCtor c ts := by
  refine ⟨tilde_of h, ?_⟩
  clear h
  induction ts with
  | nil => intro i w x y z hx; simp at hx
  | cons t ts ih =>
    intro i w x y z hw hx hy hz h1 h2 h3
    match ts, ih, h', hw, hx, hy, hz with
    | [], _, _, _, hx, _, _ => simp at hx
    | [_], _, _, _, _, hy, _ => simp at hy
    | [_, _], _, _, _, _, _, hz => simp at hz
    | a :: b :: d :: ts, ih, h', hw, hx, hy, hz =>
      rw [scopeOk, Bool.and_eq_true] at h'
      cases i with
      | zero =>
        cases hw; cases hx; cases hy; cases hz
        simp only [h1, h2, h3, bne_self_eq_false, Bool.false_or, Bool.and_eq_true, Bool.not_eq_true'] at h'
        obtain ⟨⟨⟨h4, h5⟩, h6⟩, -⟩ := h'
        obtain ⟨i1, i2⟩ := name_of h4
        obtain ⟨j1, j2⟩ := name_of h5
        refine ⟨_, _, i1, i2, j1, j2, fun hh => ?_⟩
        rw [← List.isPrefixOf_iff_prefix, h6] at hh
        cases hh
      | succ i => exact ih h'.2 i w x y z hw hx hy hz h1 h2 h3

/-! ## The file -/

def fileDemo : Bytes := b!"//k\nbool A::f(int x) const;\nnamespace N {\n struct B { int a; };\n static int d = 3;\n}\nclass C;\n"

/-- Its tokens. -/
def fileFn : List Tok := [⟨4, 4, .Type_bool, 2, 1, 0⟩, ⟨9, 1, .Identifier, 2, 5, 0⟩, ⟨10, 2, .Access_StaticSymbol, 2, 7, 0⟩, ⟨12, 1, .Identifier, 2, 9, 0⟩,
  ⟨13, 1, .Paren_Open, 2, 10, 0⟩, ⟨14, 3, .Type_int, 2, 11, 0⟩, ⟨18, 1, .Identifier, 2, 14, 0⟩, ⟨19, 1, .Paren_Close, 2, 16, 0⟩, ⟨21, 5, .Spec_Const, 2, 17, 256⟩,
  ⟨26, 1, .Statement_End, 2, 23, 512⟩]
def fileVar : List Tok := [⟨54, 3, .Type_int, 4, 12, 0⟩, ⟨58, 1, .Identifier, 4, 16, 0⟩, ⟨59, 1, .Statement_End, 4, 18, 512⟩]
def fileStatic : List Tok := [⟨65, 6, .Spec_Static, 5, 1, 256⟩, ⟨72, 3, .Type_int, 5, 8, 0⟩, ⟨76, 1, .Identifier, 5, 12, 0⟩, ⟨78, 1, .Operator, 5, 14, 3⟩,
  ⟨80, 1, .Number, 5, 16, 2048⟩, ⟨81, 1, .Statement_End, 5, 18, 512⟩]
def fileInner : List Tok := [⟨43, 6, .Decl_Struct, 3, 14, 0⟩, ⟨50, 1, .Identifier, 4, 8, 0⟩] ++ ⟨52, 1, .BraceCurly_Open, 4, 10, 0⟩ :: fileVar ++
  ⟨61, 1, .BraceCurly_Close, 4, 20, 512⟩ :: ⟨62, 1, .Statement_End, 4, 21, 512⟩ :: fileStatic
def fileLast : List Tok := [⟨85, 5, .Decl_Class, 7, 1, 0⟩, ⟨91, 1, .Identifier, 7, 6, 0⟩, ⟨92, 1, .Statement_End, 7, 8, 512⟩]
def fileSpace : List Tok := ⟨28, 9, .Decl_Namespace, 3, 1, 0⟩ :: [⟨38, 1, .Identifier, 3, 10, 0⟩] ++ ⟨40, 1, .BraceCurly_Open, 3, 12, 0⟩ :: fileInner ++
  ⟨83, 1, .BraceCurly_Close, 6, 1, 512⟩ :: fileLast
def fileToks : List Tok := ⟨0, 4, .Comment, 1, 1, 0⟩ :: (fileFn ++ fileSpace)

theorem fileDemo_lexed : Lex.lex true firstMacros fileDemo = .ok (some (fileToks, firstMacros)) := by decide +kernel

/-- How it is printed. -/
def fileText : Bytes :=
  b!"//k\nbool A::f( int x) const;\nnamespace N\n{\nstruct B\n{\nint a;\n\n};\nstatic int d = 3;\n\n}\nclass C;\n"

/-- The example meets the hypotheses of `C56_global_body`. -/
theorem fileDemo_toks : MembersToks firstMacros (fileDemo ++ [0]) .file fileText fileToks := by
  have hf : DeclToks firstMacros (fileDemo ++ [0]) .file fileSpace b!"bool A::f( int x) const;\n" fileFn :=
    .fn (lead := []) (type := b!"bool") (name := b!"A::f") (hs := [⟨4, 4, .Type_bool, 2, 1, 0⟩, ⟨9, 1, .Identifier, 2, 5, 0⟩, ⟨10, 2, .Access_StaticSymbol, 2, 7, 0⟩,
        ⟨12, 1, .Identifier, 2, 9, 0⟩]) (px := b!" int x") (trail := [.Const])
      (ps := [⟨13, 1, .Paren_Open, 2, 10, 0⟩, ⟨14, 3, .Type_int, 2, 11, 0⟩, ⟨18, 1, .Identifier, 2, 14, 0⟩, ⟨19, 1, .Paren_Close, 2, 16, 0⟩])
      (qs := [⟨21, 5, .Spec_Const, 2, 17, 256⟩]) (z := b!";\n") (es := [⟨26, 1, .Statement_End, 2, 23, 512⟩])
      (.mk (tspecs := []) (tname := b!"bool") (specs := []) (ss := []) (ts := [_]) (ns := [_, _, _]) .nil (by simp) (by simp)
        (word_type (.native (by decide) rfl ⟨_, _, rfl, rfl, by decide, by decide⟩ (by decide)) (by decide) (by decide) .nil (by simp) (by decide))
        (by intro _ t ht; cases ht; decide)
        (.mk (y := b!"A") (l := [(⟨10, 2, .Access_StaticSymbol, 2, 7, 0⟩, ⟨12, 1, .Identifier, 2, 9, 0⟩)]) (.of (by decide))
          (by intro p hp; cases hp with | head => exact ⟨rfl, b!"f", .of (by decide)⟩ | tail _ hh => cases hh) ⟨_, _, rfl, rfl, by decide, by decide⟩ (by decide)))
      (by decide) (by decide) (by decide)
      (.some (xs := []) (us := []) (.of (by decide)) (.mk (l := []) (tname := b!"int") (name := b!"x") (value := []) (ts := [_]) (ns := [_]) (vs := [])
        (word_type (.native (by decide) rfl ⟨_, _, rfl, rfl, by decide, by decide⟩ (by decide)) (by decide) (by decide) .nil (by simp) (by decide))
        (.name (.of (by decide))) .none) .nil (.of (by decide)))
      (by intro t ht; cases ht; decide) (.cons (.of (by decide)) .nil) (by decide)
      (by simp only [List.mem_singleton, forall_eq]; exact firstMacros_const) (by decide) (.decl (.of (by decide)))
      (by intro u _ t ht; cases ht; exact fun hh => nomatch hh.1)
  have hv : DeclToks firstMacros (fileDemo ++ [0]) .record [] b!"int a;\n" fileVar :=
    .var (specs := []) (type := b!"int") (name := b!"a") (tail := []) (vs := []) (hs := [⟨54, 3, .Type_int, 4, 12, 0⟩, ⟨58, 1, .Identifier, 4, 16, 0⟩])
      (.mk (tspecs := []) (tname := b!"int") (specs := []) (ss := []) (ts := [_]) (ns := [_]) .nil (by simp) (by simp)
        (word_type (.native (by decide) rfl ⟨_, _, rfl, rfl, by decide, by decide⟩ (by decide)) (by decide) (by decide) .nil (by simp) (by decide))
        (by intro _ t ht; cases ht; decide) (one_name (by decide)))
      (by decide) (by decide) (.array (l := []) (ts := []) (.bounds .nil) .none) (.of (by decide)) (by intro t ht; cases ht) (by intro t ht; cases ht)
      (by intro t ht; cases ht)
  have hs : DeclToks firstMacros (fileDemo ++ [0]) .file [] b!"static int d = 3;\n" fileStatic :=
    .var (specs := [.Static]) (type := b!"int") (name := b!"d") (tail := b!" = 3") (vs := [⟨78, 1, .Operator, 5, 14, 3⟩, ⟨80, 1, .Number, 5, 16, 2048⟩])
      (hs := [⟨65, 6, .Spec_Static, 5, 1, 256⟩, ⟨72, 3, .Type_int, 5, 8, 0⟩, ⟨76, 1, .Identifier, 5, 12, 0⟩])
      (.mk (tspecs := []) (tname := b!"int") (specs := [.Static]) (ss := [_]) (ts := [_]) (ns := [_]) (.cons (.of (by decide)) .nil) (by decide) (by intro x hx; cases hx; decide)
        (word_type (.native (by decide) rfl ⟨_, _, rfl, rfl, by decide, by decide⟩ (by decide)) (by decide) (by decide) .nil (by simp) (by decide))
        (by intro hh; cases hh) (one_name (by decide)))
      (by decide) (by decide)
      (.array (l := []) (ts := []) (.bounds .nil) (.value (q := ⟨78, 1, .Operator, 5, 14, 3⟩) (vs := [⟨80, 1, .Number, 5, 16, 2048⟩]) (x := b!"3") (.of (by decide)) (value_of (by decide))
        ⟨_, rfl, by decide, by decide⟩ (by decide)))
      (.of (by decide)) (by intro t ht; cases ht; decide) (by intro t ht; cases ht; decide) (by intro t ht; cases ht)
  have hi : MembersToks firstMacros (fileDemo ++ [0]) .file b!"struct B\n{\nint a;\n\n};\nstatic int d = 3;\n" fileInner :=
    .record (k := .struct) (hx := b!"struct B") (y := b!"int a;\n") (x := b!"static int d = 3;\n")
      (.plain (.named (k := .struct) (ns := [_]) (name := b!"B") rfl (one_name (by decide)))) (.of (by decide))
      (.decl (ts := []) (us := fileVar) (x := []) (by intro hh; cases hh) hv .nil) (balanced_of (by decide)) (.of (by decide)) (.of (by decide)) (by intro t ht; cases ht; decide)
      (.decl (ts := []) (us := fileStatic) (x := []) (by intro hh; cases hh) hs .nil)
  have hr : MembersToks firstMacros (fileDemo ++ [0]) .file b!"namespace N\n{\nstruct B\n{\nint a;\n\n};\nstatic int d = 3;\n\n}\nclass C;\n" fileSpace :=
    .space (name := b!"N") (y := b!"struct B\n{\nint a;\n\n};\nstatic int d = 3;\n") (x := b!"class C;\n") (.inl rfl) rfl (one_name (by decide)) (.of (by decide)) hi rfl
      (.forward (k := .cls) (name := b!"C") rfl (.of (by decide)) (.of (by decide)) (by intro t ht; cases ht) .nil)
  exact .comment (y := b!"//k\n") (fl := 0) (.of (by decide)) (.decl (by intro hh; cases hh) hf hr)

theorem fileDemo_crlf : Lex.Crlf fileDemo := by
  intro a b h
  have : (13 : UInt8) ∈ fileDemo := by rw [h]; simp
  exact absurd this (by decide)

/-- It is parsed, and prints as its normal form. -/
example : ∃ w, initial true 48 true = .ok w ∧ ParsesAs w parse_global_body fileDemo 32 fileText := by
  obtain ⟨w, hw, hr, hs⟩ := C56_spelled_init true 48 true
  refine ⟨w, hw, C56_global_body (ts := fileToks) hr hs fileDemo_crlf (by rw [initial_macros hw]; exact fileDemo_lexed) fileDemo_toks
    (noCtor_of (by decide) (by decide)) ?_⟩
  unfold initial at hw
  obtain ⟨h, -, hw⟩ := Res.bind_eq_ok.mp hw
  cases hw
  exact ⟨(by simp [fileToks, fileFn, fileSpace, fileInner, fileVar, fileStatic, fileLast]), by intro t ht; cases ht; decide⟩

end Verif.Parse
