import Verif.Proof.RoundMembers
/-!
# C59: contents
-/
namespace Verif.Round
open Verif.Lex (Tok Pos Macros Piece Reads CommentText Spaces NotNext Lexes toksAt)
open Verif.Parse (TokIs Spans IdTok QualToks Code Balanced NoComment NoCtor RecordKind RecordHead UnionHead MembersToks DeclToks DeclHead Label Place placeSpecs firstSpecs vendorTypes builtinTypes)

/-! ## No constructors -/

theorem reads_ident {ms : Macros} {x e r : Bytes} {ty : TokType} {fl : Nat} (h : Reads ms x e r ty fl) (ht : ty = .Identifier) : e = [] ∧ NotNext Lex.isWord r := by
  cases h with
  | word _ _ _ h => exact ⟨rfl, h⟩
  | keyword _ _ _ _ _ _ h => exact ⟨rfl, h⟩
  | macroUse _ _ _ h => exact ⟨rfl, h⟩
  | macroMisused _ _ _ h => exact ⟨rfl, h⟩
  | @punct x f r ty fl h =>
    subst ht
    have : ∀ y ∈ Lex.punctuation, y.2.2.1 ≠ .Identifier := by decide
    exact absurd rfl (this _ h)
  | _ => cases ht

theorem On.from {c : Bytes} {p : Pos} {q : Piece} {l : List Piece} (h : On c p (q :: l)) : ∃ v, c.drop (tokOf p q).start = q.text ++ (q.over ++ written l ++ v) := by
  obtain ⟨u, v, h1, h2⟩ := h
  refine ⟨v, ?_⟩
  rw [h1, show (tokOf p q).start = (u ++ q.gap).length by rw [List.length_append, ← h2]; rfl, written_cons, Piece.all]
  rw [show u ++ (q.gap ++ q.text ++ q.over ++ written l) ++ v = (u ++ q.gap) ++ (q.text ++ (q.over ++ written l ++ v)) by simp]
  exact List.drop_left

theorem word_prefix {n x y : Bytes} {b : UInt8} (hn : Lex.IsWord n) (hb : Lex.isWord b = false) (h : n <+: x ++ b :: y) : n <+: x := by
  have hw : ∀ a ∈ n, Lex.isWord a = true := by
    obtain ⟨a, r, rfl, h1, h2⟩ := hn
    have key : ∀ a, charIsAlpha a = true → charIsAlphanumeric a = true := by
      intro a h
      unfold charIsAlphanumeric
      rw [h]
      rfl
    intro b hb
    unfold Lex.isWord
    rcases List.mem_cons.mp hb with rfl | hb
    · rcases h1 with h1 | h1
      · rw [key _ h1]; rfl
      · rw [h1]; decide
    · rcases h2 b hb with h2 | h2
      · rw [h2]; rfl
      · rw [h2]; decide
  obtain ⟨t, ht⟩ := h
  rcases List.append_eq_append_iff.mp ht with ⟨u, h1, -⟩ | ⟨u, h1, h2⟩
  · exact ⟨u, h1.symm⟩
  · cases u with
    | nil => exact ⟨[], by rw [h1]; simp⟩
    | cons a u =>
      cases h2
      have := hw b (by rw [h1]; simp)
      rw [hb] at this
      cases this

theorem no_ctor {c : Bytes} {ms : Macros} {l : List Piece} {pos : Pos} {b : Bool} {r : Bytes} (ho : On c pos l) (hs : Sits ms b l r) (ht : Tame l) : NoCtor c (toksAt pos l) := by
  have cut : ∀ (i : Nat) (t : Tok), (toksAt pos l)[i]? = some t → ∃ pre post, toksAt pos l = pre ++ t :: post ∧ pre.length = i ∧ post = (toksAt pos l).drop (i + 1) := by
    intro i t h
    obtain ⟨hi, rfl⟩ := List.getElem?_eq_some_iff.mp h
    refine ⟨(toksAt pos l).take i, _, ?_, List.length_take_of_le (Nat.le_of_lt hi), rfl⟩
    rw [← List.drop_eq_getElem_cons hi, List.take_append_drop]
  have piece : ∀ (i : Nat) (t : Tok) (m : List Piece) (p : Pos), (toksAt p m)[i]? = some t → i = 0 → ∃ q k, m = q :: k ∧ t = tokOf p q := by
    intro i t m p h hi
    subst hi
    cases m with
    | nil => cases h
    | cons q k => cases h; exact ⟨q, k, rfl, rfl⟩
  constructor
  · intro i x y z hx hy hz ty tz tx
    obtain ⟨pre, post, e1, e2, e3⟩ := cut i x hx
    obtain ⟨l1, qx, l2, f1, f2, f3, f4⟩ := toksAt_split e1
    have hy' : post[0]? = some y := by rw [e3, List.getElem?_drop]; exact hy
    have hz' : post[1]? = some z := by rw [e3, List.getElem?_drop]; exact hz
    rw [f4] at hy' hz'
    obtain ⟨qy, l3, g1, g2⟩ := piece 0 y _ _ hy' rfl
    subst g1
    rw [toksAt_cons, List.getElem?_cons_succ] at hz'
    obtain ⟨qz, l4, g3, g4⟩ := piece 0 z _ _ hz' rfl
    subst g3
    have hcall := ht.callable (l1 ++ [qx, qy]) qz l4 (by rw [f1]; simp) (by rw [g4] at tz; exact tz)
    have h1 := hcall.tilde l1 qx qy rfl (by rw [g2] at ty; exact ty) (by rw [f2] at tx; exact tx)
    rw [f1] at ho hs
    obtain ⟨v, hv⟩ := ho.right.from
    rw [← f2] at hv
    have hne := sits_text (sits_append.mp hs).2 qx List.mem_cons_self
    have : c[x.start]? = (c.drop x.start).head? := by rw [List.head?_drop]
    rw [this, hv]
    cases hq : qx.text with
    | nil => exact absurd hq hne
    | cons a m => rw [hq] at h1; exact h1
  · intro i w x y z hw hx hy hz tx ty tz
    obtain ⟨pre, post, e1, e2, e3⟩ := cut i w hw
    obtain ⟨l1, qw, l2, f1, f2, f3, f4⟩ := toksAt_split e1
    have hx' : post[0]? = some x := by rw [e3, List.getElem?_drop]; exact hx
    have hy' : post[1]? = some y := by rw [e3, List.getElem?_drop]; exact hy
    have hz' : post[2]? = some z := by rw [e3, List.getElem?_drop]; exact hz
    rw [f4] at hx' hy' hz'
    obtain ⟨qx, l3, g1, g2⟩ := piece 0 x _ _ hx' rfl
    subst g1
    rw [toksAt_cons, List.getElem?_cons_succ] at hy' hz'
    obtain ⟨qy, l4, g3, g4⟩ := piece 0 y _ _ hy' rfl
    subst g3
    rw [toksAt_cons, List.getElem?_cons_succ] at hz'
    obtain ⟨qz, l5, g5, g6⟩ := piece 0 z _ _ hz' rfl
    subst g5
    have hcall := ht.callable (l1 ++ [qw, qx, qy]) qz l5 (by rw [f1]; simp) (by rw [g6] at tz; exact tz)
    obtain ⟨c1, c2, c3, c4, c5, c6⟩ := hcall.scope l1 qw qx qy rfl (by rw [g2] at tx; exact tx) (by rw [g4] at ty; exact ty)
    rw [f1] at ho hs
    have ow := ho.right
    have oy := ow.tail.tail
    have ww : written (l1 ++ [qw]) = written l1 ++ qw.all := by simp
    rw [ww, Lex.after_append] at g2 g4
    have i1 := ow.tokIs
    have i2 := oy.tokIs
    rw [← f2, c1, c2] at i1
    have hty : qy.type = .Identifier := by rw [g4] at ty; exact ty
    rw [← g4, hty, c4] at i2
    have wne : ∀ {x : Bytes}, Lex.IsWord x → x ≠ [] := by
      rintro x ⟨a, r, rfl, -⟩
      exact List.cons_ne_nil _ _
    refine ⟨qw.text, qy.text, ⟨i1, wne c3⟩, c3, ⟨i2, wne c5⟩, c5, ?_⟩
    obtain ⟨v, hv⟩ := ow.from
    rw [f2, hv]
    obtain ⟨-, -, hp, hrest⟩ := (sits_append.mp hs).2
    have hread : qw.over = [] ∧ NotNext Lex.isWord (written (qx :: qy :: qz :: l5) ++ r) := by
      cases hp with
      | token h => exact reads_ident h c1
      | newline => cases c1
      | comment => cases c1
    have hall : qx.all ≠ [] := by
      obtain ⟨-, -, hp, -⟩ := hrest
      exact isPiece_all hp
    rw [hread.1, List.nil_append, written_cons]
    have hn := hread.2
    rw [written_cons] at hn
    cases ha : qx.all with
    | nil => exact absurd ha hall
    | cons a m =>
      rw [ha] at hn
      intro hpre
      exact c6 (word_prefix c5 (hn a rfl) hpre)

/-! ## The beginning of a file -/

theorem Ok.weaken {ms : Macros} {p : Place} {x : Body} (h : Body.Ok ms p true x) : Body.Ok ms p false x := by
  cases h with
  | nil => exact .nil
  | comment h1 h2 => exact .comment h1 h2
  | label h1 => exact .label h1
  | var h1 h2 h3 => exact .var h1 h2 h3
  | member h1 h2 => exact .member h1 h2
  | fn h1 h2 h3 => exact .fn h1 h2 h3
  | alias h1 h2 h3 h4 h5 => exact .alias h1 h2 h3 h4 h5
  | forward h1 h2 => exact .forward h1 h2
  | enumFwd h1 h2 => exact .enumFwd h1 h2
  | enum h1 h2 h3 => exact .enum h1 h2 h3
  | record h1 h2 h3 => exact .record h1 h2 h3
  | union h1 h2 h3 => exact .union h1 h2 h3
  | space h1 h2 h3 h4 => exact .space h1 h2 h3 h4
  | linkage h1 h2 h3 h4 => exact .linkage h1 h2 h3 h4

/-- Only labels leave a line break. -/
theorem end_record {ms : Macros} {p : Place} {b : Bool} {x : Body} (h : Body.Ok ms p b x) : p ≠ .record → b = false → bodyEnd b x = false := by
  induction h with
  | nil => exact fun _ hb => hb
  | newline _ ih => exact fun hp _ => ih hp rfl
  | comment _ _ ih => exact fun hp _ => ih hp rfl
  | label => exact fun hp => absurd rfl hp
  | var _ _ _ ih => exact fun hp _ => ih hp rfl
  | member _ _ ih => exact fun hp _ => ih hp rfl
  | fn _ _ _ ih => exact fun hp _ => ih hp rfl
  | alias _ _ _ _ _ ih => exact fun hp _ => ih hp rfl
  | forward _ _ ih => exact fun hp _ => ih hp rfl
  | enumFwd _ _ ih => exact fun hp _ => ih hp rfl
  | enum _ _ _ ih => exact fun hp _ => ih hp rfl
  | record _ _ _ _ ih => exact fun hp _ => ih hp rfl
  | union _ _ _ _ ih => exact fun hp _ => ih hp rfl
  | space _ _ _ _ _ ih => exact fun hp _ => ih hp rfl
  | linkage _ _ _ _ _ ih => exact fun hp _ => ih hp rfl

/-- The first piece. -/
structure Starts (l : List Piece) (q : Piece) : Prop where
  head : l.head? = some q
  tight : q.gap = []
  code : q.type ≠ .NewLine

theorem lex_pieces {ms : Macros} {g : Bytes} {l : List Piece} {q : Piece} (hg : Spaces g) (hs : Sits ms true l []) (hq : Starts l q) :
    Lex.lex true ms (g ++ written l) = .ok (some (toksAt (Pos.after ⟨0, 1, 1⟩ g) l, ms)) := by
  cases l with
  | nil => cases hq.head
  | cons a l =>
    cases hq.head
    refine sits_lex hq.tight hg hs ?_ true
    obtain ⟨-, -, hp, -⟩ := hs
    have hc := hq.code
    cases hp with
    | token h => exact reads_first h
    | newline => exact absurd rfl hc
    | comment h => exact comment_first h

theorem on_all {g : Bytes} {l : List Piece} {e : Bytes} : On (g ++ written l ++ e) (Pos.after ⟨0, 1, 1⟩ g) l := ⟨g, e, rfl, by rw [Lex.after_off]; exact Nat.zero_add _⟩

theorem type_starts {ms : Macros} {t : Ty} {k : List Piece} (h : t.Ok ms) : ∃ q, Starts (typeP [] t ++ k) q := by
  obtain ⟨q, l, e, h1, -, -, h2⟩ := name_first (g := []) h.name
  refine ⟨q, by rw [typeP, e]; rfl, h1, ?_⟩
  rcases h2 with h2 | h2
  · rw [h2.1]; decide
  · intro hh; rw [hh] at h2; revert h2; decide

theorem marks_starts {l : List Specifier} {k : List Piece} (h : l = [] → ∃ q, Starts k q) : ∃ q, Starts (marksP [] l ++ k) q := by
  cases l with
  | nil => exact h rfl
  | cons s l => exact ⟨_, rfl, rfl, by show Parse.specTok s ≠ _; cases s <;> decide⟩

theorem words_starts {l : List Specifier} {k : List Piece} (h : l = [] → ∃ q, Starts k q) : ∃ q, Starts (wordsP [] l ++ k) q := by
  cases l with
  | nil => exact h rfl
  | cons s l => exact ⟨_, rfl, rfl, by show Parse.specTok s ≠ _; cases s <;> decide⟩

theorem var_starts {ms : Macros} {l : List Specifier} {v : Var} {k : List Piece} (h : v.Ok ms l) : ∃ q, Starts (varP [] v ++ k) q := by
  rw [varP, declP]
  simp only [List.append_assoc]
  refine marks_starts fun h0 => ?_
  rw [if_pos h0]
  exact type_starts h.ty

theorem fn_starts {ms : Macros} {l : List Specifier} {f : Fn} {k : List Piece} (h : f.Ok ms l) : ∃ q, Starts (fnP [] f ++ k) q := by
  rw [fnP, fheadP]
  simp only [List.append_assoc]
  refine words_starts fun h0 => ?_
  rw [if_pos h0]
  exact type_starts h.ty

theorem alias_starts {ms : Macros} {a : Alias} {k : List Piece} (h : a.Ok ms) : ∃ q, Starts (aliasP [] a ++ k) q := by
  cases h <;> exact ⟨_, rfl, rfl, by intro hh; cases hh⟩

theorem fnLead_spaces (f : Fn) : Spaces (fnLead f) := by
  unfold fnLead
  split
  · intro x hx; cases hx
  · exact one_space

/-- The pieces of a file. -/
def fileP : Body → List Piece
  | .fn f r => fnP [] f ++ bodyP false false r
  | x => bodyP false false x

/-- The space a file begins with. -/
def fileGap : Body → Bytes
  | .fn f _ => fnLead f
  | _ => []

theorem fileGap_spaces (x : Body) : Spaces (fileGap x) := by
  cases x with
  | fn f r => exact fnLead_spaces f
  | _ => intro y hy; cases hy

theorem file_start {ms : Macros} {p : Place} {x : Body} (h : Body.Ok ms p true x) (h0 : x ≠ .nil) : ∃ q, Starts (fileP x) q := by
  cases h with
  | nil => exact absurd rfl h0
  | comment h1 h2 => exact ⟨_, rfl, rfl, by intro hh; cases hh⟩
  | @label _ a r h1 => exact ⟨_, rfl, rfl, by show accTok a ≠ _; cases a <;> decide⟩
  | var h1 h2 h3 => exact var_starts h2.ok
  | member h1 h2 => exact var_starts h1.ok
  | fn h1 h2 h3 => exact fn_starts h2.ok
  | alias h1 h2 h3 h4 h5 => exact alias_starts h2
  | @forward _ _ k n r h1 h2 => exact ⟨_, rfl, rfl, by show k.tok ≠ _; cases k <;> decide⟩
  | enumFwd h1 h2 => exact ⟨_, rfl, rfl, by intro hh; cases hh⟩
  | enum h1 h2 h3 => exact ⟨_, rfl, rfl, by intro hh; cases hh⟩
  | @record _ _ h i r h1 h2 h3 =>
    cases h with
    | named k n f => exact ⟨_, rfl, rfl, by show k.tok ≠ _; cases k <;> decide⟩
    | unnamed => exact ⟨_, rfl, rfl, by intro hh; cases hh⟩
  | union h1 h2 h3 => exact ⟨_, rfl, rfl, by intro hh; cases hh⟩
  | space h1 h2 h3 h4 => exact ⟨_, rfl, rfl, by intro hh; cases hh⟩
  | linkage h1 h2 h3 h4 => exact ⟨_, rfl, rfl, by intro hh; cases hh⟩

theorem name_gap {g : Bytes} {n : TypeName} : written (nameP g n) = g ++ written (nameP [] n) := by
  cases n <;> simp [nameP, qualP]

theorem fn_gap {g : Bytes} {f : Fn} : written (fnP g f) = g ++ written (fnP [] f) := by
  rw [fnP, fnP, fheadP, fheadP]
  simp only [written_append]
  cases hl : f.lead with
  | nil =>
    rw [if_pos rfl, if_pos rfl, typeP, typeP, written_append, written_append, name_gap]
    simp [wordsP]
  | cons s l =>
    rw [if_neg (by simp), if_neg (by simp)]
    simp [wordsP]

theorem fn_text {ms : Macros} {l : List Specifier} {f : Fn} (h : f.Ok ms l) : fnLead f ++ written (fnP [] f) = f.text := by
  have := written_fn (g := []) h
  rwa [List.nil_append, List.nil_append, fn_gap] at this

theorem written_file {ms : Macros} {p : Place} {x : Body} (h : Body.Ok ms p true x) (hp : p ≠ .record) : x.text = fileGap x ++ written (fileP x) := by
  have h1 := written_body (Ok.weaken h) false
  rw [end_record (Ok.weaken h) hp rfl] at h1
  have h2 : written (bodyP false false x) = x.text := by simpa [endGap, gapOf] using h1
  cases x with
  | fn f r =>
    rw [← h2]
    cases h with
    | fn _ hf _ =>
      rw [bodyP, fileP, fileGap, written_append, written_append, ← List.append_assoc, fn_text hf.ok]
      rw [show gapOf false ++ fnLead f = fnLead f from rfl, fn_gap, fn_text hf.ok]
  | _ => exact h2.symm

theorem file_sits {ms : Macros} {p : Place} {x : Body} (h : Body.Ok ms p true x) (hp : p ≠ .record) : Sits ms true (fileP x) [] := by
  have h1 := (body_run (Ok.weaken h) false [] (fun hh => by rw [end_record (Ok.weaken h) hp rfl] at hh; cases hh)).1
  cases h with
  | fn _ hf hr =>
    exact (Run.append (fn_run .nil hf.ok place_readable) (body_run hr false [] (fun hh => by rw [end_record hr hp rfl] at hh; cases hh))).1
  | _ => exact h1

theorem file_tame {ms : Macros} {p : Place} {x : Body} (h : Body.Ok ms p true x) : Tame (fileP x) := by
  have h1 := body_tame (Ok.weaken h) false
  cases h with
  | fn _ hf hr =>
    obtain ⟨q, h1, h2⟩ := fn_last (f := _)
    exact (fn_tame hf.ok hf.ctor hf.calls.1 hf.calls.2).append (body_tame hr false) (.inl (last_soft h1 h2))
  | _ => exact h1

theorem On.file {c : Bytes} {ms : Macros} {p : Place} {x : Body} {pos : Pos} (h : Body.Ok ms p true x) (ho : On c pos (fileP x)) : MembersToks ms c p x.again.text (toksAt pos (fileP x)) := by
  have h1 := On.members (c := c) (Ok.weaken h) false pos
  cases h with
  | @fn _ _ f r hp hf hr =>
    rw [fileP] at ho ⊢
    rw [toksAt_append]
    exact .decl hp (ho.left.fnAt hf) (On.members hr false _ ho.right)
  | _ => exact h1 ho

end Verif.Round
