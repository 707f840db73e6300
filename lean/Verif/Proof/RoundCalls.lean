import Verif.Proof.RoundAlias
import Verif.Proof.ReadBases
/-!
# C59: braces in pairs, and no calls that look like constructors
-/
namespace Verif.Round
open Verif.Lex (Tok Pos Macros Piece Reads CommentText Spaces NotNext Lexes toksAt)
open Verif.Parse (TokIs Spans UpTo IdTok QualToks TypeToks SpecToks Code Balanced depth after NoCtor depth_append depth_shift builtinTypes specTok)

/-! ## Braces -/

theorem shape_append {l k : List Piece} : shape (l ++ k) = shape l ++ shape k := by simp [shape]
theorem shape_cons {q : Piece} {l : List Piece} : shape (q :: l) = ⟨0, q.text.length, q.type, 0, 0, q.flags⟩ :: shape l := rfl

theorem bal_nil : Balanced [] := ⟨(by intro pre t post h; cases pre <;> cases h), rfl⟩

theorem bal_append {a b : List Tok} (ha : Balanced a) (hb : Balanced b) : Balanced (a ++ b) := by
  refine ⟨fun pre t post h ht => ?_, by rw [depth_append, ha.2]; exact hb.2⟩
  rcases List.append_eq_append_iff.mp h with ⟨u, h1, h2⟩ | ⟨u, h1, h2⟩
  · rw [h1, depth_append, ha.2]
    exact hb.1 u t post h2 ht
  · cases u with
    | nil =>
      rw [List.append_nil] at h1
      rw [← h1, ha.2]
      exact hb.1 [] t post h2.symm ht
    | cons v u =>
      cases h2
      exact ha.1 pre t u h1 ht

theorem bal_one {t : Tok} (h : t.type ≠ .BraceCurly_Open ∧ t.type ≠ .BraceCurly_Close) : Balanced [t] := by
  refine ⟨fun pre u post e hu => ?_, by simp [depth, h.1, h.2]⟩
  cases pre with
  | nil => cases e; exact absurd hu h.2
  | cons a pre => cases pre <;> cases e

theorem bal_wrap {o z : Tok} {a : List Tok} (ho : o.type = .BraceCurly_Open) (hz : z.type = .BraceCurly_Close) (ha : Balanced a) : Balanced (o :: a ++ [z]) := by
  have h1 : ∀ l : List Tok, depth [.BraceCurly_Open] [.BraceCurly_Close] (o :: l) 0 = depth [.BraceCurly_Open] [.BraceCurly_Close] l 0 + 1 := fun l => by
    rw [depth, if_pos (by simp [ho]), depth_shift]
  refine ⟨fun pre t post h ht => ?_, ?_⟩
  · cases pre with
    | nil => cases h; rw [ho] at ht; cases ht
    | cons b pre =>
      obtain ⟨e1, e2⟩ := List.cons.inj h
      rw [← e1, h1]
      rcases List.append_eq_append_iff.mp e2 with ⟨u, h3, h4⟩ | ⟨u, h3, h4⟩
      · cases u with
        | nil => rw [List.append_nil] at h3; rw [h3, ha.2]; omega
        | cons v u => cases u <;> cases h4
      · cases u with
        | nil => rw [List.append_nil] at h3; rw [← h3, ha.2]; omega
        | cons v u =>
          cases h4
          have := ha.1 pre t u h3 ht
          omega
  · rw [List.cons_append, h1, depth_append, ha.2, depth, if_neg (by rw [hz]; decide), if_pos (by simp [hz]), depth]
    omega

theorem bal_all {a : List Tok} (h : ∀ t ∈ a, t.type ≠ .BraceCurly_Open ∧ t.type ≠ .BraceCurly_Close) : Balanced a := by
  induction a with
  | nil => exact bal_nil
  | cons t l ih => exact bal_append (a := [t]) (bal_one (h t List.mem_cons_self)) (ih fun x hx => h x (List.mem_cons_of_mem _ hx))

/-! ## Calls -/

theorem callable_map {a b : List Piece} (h : a.map (fun q => (q.text, q.type, q.flags)) = b.map (fun q => (q.text, q.type, q.flags))) (ha : Callable a) : Callable b := by
  have key : ∀ {a b : List Piece} {l m : List Piece}, a.map (fun q => (q.text, q.type, q.flags)) = b.map (fun q => (q.text, q.type, q.flags)) → b = l ++ m →
      ∃ l' m', a = l' ++ m' ∧ m'.map (fun q => (q.text, q.type, q.flags)) = m.map (fun q => (q.text, q.type, q.flags)) := by
    intro a b l m h hb
    rw [hb, List.map_append] at h
    obtain ⟨l', m', h1, h2, h3⟩ := List.map_eq_append_iff.mp h
    exact ⟨l', m', h1, h3⟩
  constructor
  · intro l x y e hy hx
    obtain ⟨l', m', h1, h2⟩ := key h e
    obtain ⟨x', m', rfl, -, h4⟩ := List.map_eq_cons_iff.mp h2
    obtain ⟨y', m', rfl, -, h5⟩ := List.map_eq_cons_iff.mp h4
    obtain rfl := List.map_eq_nil_iff.mp h5
    · simp only [List.map_cons, List.map_nil, List.cons.injEq, Prod.mk.injEq, and_true] at h2
      obtain ⟨⟨a1, a2, a3⟩, b1, b2, b3⟩ := h2
      rw [← a1]
      exact ha.tilde l' x' y' h1 (by rw [b2]; exact hy) (by rw [a2]; exact hx)
  · intro l w x y e hx hy
    obtain ⟨l', m', h1, h2⟩ := key h e
    obtain ⟨w', m', rfl, -, h4⟩ := List.map_eq_cons_iff.mp h2
    obtain ⟨x', m', rfl, -, h4⟩ := List.map_eq_cons_iff.mp h4
    obtain ⟨y', m', rfl, -, h5⟩ := List.map_eq_cons_iff.mp h4
    obtain rfl := List.map_eq_nil_iff.mp h5
    · simp only [List.map_cons, List.map_nil, List.cons.injEq, Prod.mk.injEq, and_true] at h2
      obtain ⟨⟨c1, c2, c3⟩, ⟨a1, a2, a3⟩, b1, b2, b3⟩ := h2
      have := ha.scope l' w' x' y' h1 (by rw [a2]; exact hx) (by rw [b2]; exact hy)
      rw [c1, c2, c3, b1, b3] at this
      exact this

/-- What may stand in front of a name. -/
def Soft (l : List Piece) : Prop := ∀ q, l.getLast? = some q → q.type ≠ .Access_StaticSymbol ∧ ¬ (q.type = .Operator ∧ q.text.head? = some 126)

def NotId (k : List Piece) : Prop := ∀ q, k.head? = some q → q.type ≠ .Identifier

structure Calls (k : List Piece) : Prop where
  callable : ∀ pre z post, k = pre ++ z :: post → z.type = .Paren_Open → Callable pre
  head : ∀ q, k.head? = some q → q.type ≠ .Access_StaticSymbol ∧ q.type ≠ .Paren_Open

theorem Calls.nil : Calls [] := ⟨(by intro pre z post h; cases pre <;> cases h), (by intro q h; cases h)⟩

theorem last_of_concat {l : List Piece} {m : List Piece} {x : Piece} (h : l = m ++ [x]) : l.getLast? = some x := by rw [h]; exact List.getLast?_concat

theorem Callable.append {l k : List Piece} {q : Piece} {m : List Piece} (hk : Callable (q :: m)) (hq : q.type ≠ .Access_StaticSymbol) (hs : Soft l ∨ q.type ≠ .Identifier) (e : k = q :: m) :
    Callable (l ++ k) := by
  subst e
  constructor
  · intro l' x y e hy hx
    cases m with
    | nil =>
      rw [show l' ++ [x, y] = (l' ++ [x]) ++ [y] by simp] at e
      obtain ⟨e1, e2⟩ := List.append_inj' e rfl
      cases e2
      rcases hs with hs | hs
      · exact fun hh => (hs x (last_of_concat e1)).2 ⟨hx, hh⟩
      · exact absurd hy hs
    | cons r m =>
      obtain ⟨n, hn⟩ : ∃ n, q :: r :: m = n ++ [x, y] := by
        rcases List.append_eq_append_iff.mp e with ⟨u, h1, h2⟩ | ⟨u, h1, h2⟩
        · exact ⟨u, h2⟩
        · cases u with
          | nil => exact ⟨[], h2.symm⟩
          | cons a u =>
            have := congrArg List.length h2
            simp only [List.length_append, List.length_cons, List.length_nil] at this
            exact absurd this (by omega)
      exact hk.tilde n x y hn hy hx
  · intro l' w x y e hx hy
    match m, hk with
    | [], hk =>
      rw [show l' ++ [w, x, y] = (l' ++ [w, x]) ++ [y] by simp] at e
      obtain ⟨e1, e2⟩ := List.append_inj' e rfl
      cases e2
      rcases hs with hs | hs
      · exact absurd hx (hs x (last_of_concat (m := l' ++ [w]) (by rw [e1]; simp))).1
      · exact absurd hy hs
    | [r], hk =>
      rw [show l' ++ [w, x, y] = (l' ++ [w]) ++ [x, y] by simp] at e
      obtain ⟨e1, e2⟩ := List.append_inj' e rfl
      cases e2
      exact absurd hx hq
    | r :: s :: m, hk =>
      obtain ⟨n, hn⟩ : ∃ n, q :: r :: s :: m = n ++ [w, x, y] := by
        rcases List.append_eq_append_iff.mp e with ⟨u, h1, h2⟩ | ⟨u, h1, h2⟩
        · exact ⟨u, h2⟩
        · cases u with
          | nil => exact ⟨[], h2.symm⟩
          | cons a u =>
            have := congrArg List.length h2
            simp only [List.length_append, List.length_cons, List.length_nil] at this
            exact absurd this (by omega)
      exact hk.scope n w x y hn hx hy

theorem Calls.append {l k : List Piece} (hl : Calls l) (hk : Calls k) (hs : Soft l ∨ NotId k) : Calls (l ++ k) := by
  constructor
  · intro pre z post e hz
    rcases List.append_eq_append_iff.mp e with ⟨u, h1, h2⟩ | ⟨u, h1, h2⟩
    · cases u with
      | nil => exact absurd hz (hk.head z (by rw [h2]; rfl)).2
      | cons q u =>
        rw [h1]
        have hq := hk.head q (by rw [h2]; rfl)
        exact (hk.callable _ z post h2 hz).append hq.1 (hs.imp_right fun h => h q (by rw [h2]; rfl)) rfl
    · cases u with
      | nil => exact absurd hz (hk.head z (by rw [List.nil_append] at h2; rw [← h2]; rfl)).2
      | cons a u =>
        cases h2
        exact hl.callable pre z u h1 hz
  · intro q hq
    cases l with
    | nil => exact hk.head q hq
    | cons a l => exact hl.head q hq

theorem Calls.all {l : List Piece} (h : ∀ q ∈ l, q.type ≠ .Paren_Open) (h0 : ∀ q, l.head? = some q → q.type ≠ .Access_StaticSymbol) : Calls l :=
  ⟨fun pre z post e hz => absurd hz (h z (by rw [e]; simp)), fun q hq => ⟨h0 q hq, h q (List.mem_of_head? hq)⟩⟩

/-- A piece by itself that is neither brace nor parenthesis, nor `::`. -/
theorem Tame.mk' {k : List Piece} (h : Calls k) (hb : Balanced (shape k)) : Tame k := ⟨h.callable, h.head, hb⟩
theorem Tame.calls {k : List Piece} (h : Tame k) : Calls k := ⟨h.callable, h.head⟩

theorem Tame.nil : Tame [] := .mk' .nil bal_nil

theorem Tame.append {l k : List Piece} (hl : Tame l) (hk : Tame k) (hs : Soft l ∨ NotId k) : Tame (l ++ k) :=
  .mk' (hl.calls.append hk.calls hs) (by rw [shape_append]; exact bal_append hl.balanced hk.balanced)

/-- Pieces without braces and parentheses, that do not begin with `::`. -/
abbrev quiet (ty : TokType) : Prop := ty ≠ .BraceCurly_Open ∧ ty ≠ .BraceCurly_Close ∧ ty ≠ .Paren_Open

theorem Tame.all {l : List Piece} (h : ∀ q ∈ l, quiet q.type) (h0 : ∀ q, l.head? = some q → q.type ≠ .Access_StaticSymbol) : Tame l :=
  .mk' (.all (fun q hq => (h q hq).2.2) h0) (bal_all fun t ht => by
    obtain ⟨q, hq, rfl⟩ := List.mem_map.mp ht
    exact ⟨(h q hq).1, (h q hq).2.1⟩)

theorem Tame.cons {q : Piece} {l : List Piece} (hq : quiet q.type) (h0 : q.type ≠ .Access_StaticSymbol) (hs : ¬ (q.type = .Operator ∧ q.text.head? = some 126)) (hl : Tame l) :
    Tame (q :: l) := by
  refine Tame.append (l := [q]) (.all (fun r hr => ?_) (fun r hr => ?_)) hl (.inl fun r hr => ?_)
  · rw [List.mem_singleton.mp hr]; exact hq
  · cases hr; exact h0
  · cases hr; exact ⟨h0, hs⟩

/-- Something in braces. -/
theorem Tame.braces {o z : Piece} {l k : List Piece} (ho : o.type = .BraceCurly_Open) (hz : z.type = .BraceCurly_Close) (hl : Tame l) (hk : Tame k) : Tame (o :: (l ++ z :: k)) := by
  have h1 : Calls (o :: (l ++ z :: k)) := by
    refine Calls.append (l := [o]) (.all (fun r hr => ?_) fun r hr => ?_) (hl.calls.append (Calls.append (l := [z]) (.all (fun r hr => ?_) fun r hr => ?_) hk.calls (.inl fun r hr => ?_))
      (.inr fun r hr => ?_)) (.inl fun r hr => ?_)
    · rw [List.mem_singleton.mp hr, ho]; decide
    · cases hr; rw [ho]; decide
    · rw [List.mem_singleton.mp hr, hz]; decide
    · cases hr; rw [hz]; decide
    · cases hr; show z.type ≠ _ ∧ ¬ (z.type = _ ∧ _); rw [hz]; exact ⟨by decide, fun h => by cases h.1⟩
    · cases hr; rw [hz]; decide
    · cases hr; show o.type ≠ _ ∧ ¬ (o.type = _ ∧ _); rw [ho]; exact ⟨by decide, fun h => by cases h.1⟩
  refine .mk' h1 ?_
  have := bal_append (bal_wrap (o := ⟨0, o.text.length, o.type, 0, 0, o.flags⟩) (z := ⟨0, z.text.length, z.type, 0, 0, z.flags⟩) ho hz hl.balanced) hk.balanced
  simpa [shape] using this

theorem Tame.lead {g : Bytes} {k : List Piece} (h : Tame k) : Tame (lead g k) := by
  cases k with
  | nil => exact .nil
  | cons q l =>
    refine ⟨fun pre z post e hz => ?_, fun r hr => ?_, ?_⟩
    · cases pre with
      | nil =>
        cases e
        exact absurd hz (h.head q rfl).2
      | cons a pre =>
        obtain ⟨rfl, e2⟩ := List.cons.inj e
        exact callable_map (by simp) (h.callable (q :: pre) z post (by rw [e2]; rfl) hz)
    · cases hr; exact h.head q rfl
    · exact h.balanced

/-! ## What is written -/

theorem qual_quiet {g : Bytes} {n : Qual} : ∀ q ∈ qualP g n, quiet q.type := by
  intro q hq
  rcases List.mem_cons.mp hq with rfl | hq
  · exact (by decide : quiet .Identifier)
  · obtain ⟨x, -, hx⟩ := List.mem_flatMap.mp hq
    rcases List.mem_cons.mp hx with rfl | hx
    · exact (by decide : quiet .Access_StaticSymbol)
    · rw [List.mem_singleton.mp hx]; exact (by decide : quiet .Identifier)

theorem builtin_quiet {ty : TokType} (h : ty ∈ builtinTypes) : quiet ty ∧ ty ≠ .Access_StaticSymbol ∧ ty ≠ .Operator ∧ ty ≠ .Comment ∧ ty ≠ .Preprocess_Macro_Expr ∧ ty ≠ .Comma := by
  revert h
  cases ty <;> decide

theorem name_quiet {ms : Macros} {g : Bytes} {n : TypeName} (h : n.Ok ms) : ∀ q ∈ nameP g n, quiet q.type := by
  cases n with
  | name n => exact qual_quiet
  | native f l =>
    intro q hq
    rcases List.mem_cons.mp hq with rfl | hq
    · exact (builtin_quiet (h f List.mem_cons_self).2).1
    · obtain ⟨x, hx, rfl⟩ := List.mem_map.mp hq
      exact (builtin_quiet (h x (List.mem_cons_of_mem _ hx)).2).1

theorem specTok_quiet (s : Specifier) : quiet (specTok s) ∧ specTok s ≠ .Access_StaticSymbol ∧ specTok s ≠ .Comment ∧ specTok s ≠ .Preprocess_Macro_Expr ∧ specTok s ≠ .Comma ∧
    ¬ (specToStr s).head? = some 126 := by
  cases s <;> decide

theorem specs_quiet {f : Specifier → Bytes} {l : List Specifier} : ∀ q ∈ specsP f l, quiet q.type := by
  intro q hq
  obtain ⟨s, -, rfl⟩ := List.mem_map.mp hq
  exact (specTok_quiet s).1

theorem suffix_quiet {l : List Specifier} : ∀ q ∈ suffixP l, quiet q.type := by
  cases l with
  | nil => intro q hq; cases hq
  | cons s l =>
    intro q hq
    rcases List.mem_cons.mp hq with rfl | hq
    · exact (specTok_quiet s).1
    · exact specs_quiet q hq

theorem type_quiet {ms : Macros} {g : Bytes} {t : Ty} (h : t.Ok ms) : ∀ q ∈ typeP g t, quiet q.type := by
  intro q hq
  rcases List.mem_append.mp hq with hq | hq
  · exact name_quiet h.name q hq
  · exact suffix_quiet q hq

theorem type_head {ms : Macros} {g : Bytes} {t : Ty} {k : List Piece} (h : t.Ok ms) : ∃ q, (typeP g t ++ k).head? = some q ∧ ((q.type = .Identifier ∧ q.flags = 0) ∨ q.type ∈ builtinTypes) := by
  obtain ⟨q, l, h1, -, -, -, h5⟩ := name_first (g := g) h.name
  exact ⟨q, by rw [typeP, h1]; rfl, h5⟩

theorem type_first {ms : Macros} {g : Bytes} {t : Ty} (h : t.Ok ms) : ∀ q, (typeP g t).head? = some q → q.type ≠ .Access_StaticSymbol := by
  intro q hq
  obtain ⟨r, h1, h2⟩ := type_head (g := g) (k := []) h
  rw [List.append_nil, hq] at h1
  cases h1
  rcases h2 with h2 | h2
  · rw [h2.1]; decide
  · exact (builtin_quiet h2).2.1

theorem type_tame {ms : Macros} {g : Bytes} {t : Ty} (h : t.Ok ms) : Tame (typeP g t) := .all (type_quiet h) (type_first h)
theorem qual_tame {g : Bytes} {n : Qual} : Tame (qualP g n) := .all qual_quiet (by intro q hq; cases hq; exact (by intro hh; cases hh))

theorem soft_append {l k : List Piece} (h : k ≠ []) (hk : Soft k) : Soft (l ++ k) := by
  obtain ⟨q, hq⟩ := getLast_ex h
  intro r hr
  rw [List.getLast?_append, hq] at hr
  cases hr
  exact hk q hq

theorem specP_soft {g : Bytes} {s : Specifier} : Soft [specP g s] := by
  intro q hq
  cases hq
  exact ⟨(specTok_quiet s).2.1, fun h => (specTok_quiet s).2.2.2.2.2 h.2⟩

theorem specs_soft {f : Specifier → Bytes} {l : List Specifier} : Soft (specsP f l) := by
  intro q hq
  obtain ⟨s, -, rfl⟩ := List.mem_map.mp (List.mem_of_getLast? hq)
  exact specP_soft _ rfl

theorem word_head {x : Bytes} (h : Lex.IsWord x) : x.head? ≠ some 126 := by
  obtain ⟨a, r, rfl, h1, -⟩ := h
  intro hh
  cases hh
  rcases h1 with h | h <;> exact absurd h (by decide)

theorem idP_soft {g x : Bytes} : Soft [idP g x] := by intro q hq; cases hq; exact ⟨(by intro hh; cases hh), (by intro h; cases h.1)⟩

theorem qual_soft {g : Bytes} {n : Qual} : Soft (qualP g n) := by
  obtain ⟨a, m⟩ := n
  rcases List.eq_nil_or_concat m with rfl | ⟨l, b, rfl⟩
  · exact idP_soft
  · have : qualP g ⟨a, l.concat b⟩ = (idP g a :: (l.flatMap scopeP ++ [puP [] b!"::" .Access_StaticSymbol 0])) ++ [idP [] b] := by
      simp [qualP, scopeP, List.concat_eq_append]
    rw [this]
    exact soft_append (by simp) idP_soft

theorem keys_soft {l : List Bytes} (h : ∀ x ∈ l, Lex.IsWord x ∧ strToTokType x ∈ builtinTypes) : Soft (keysP l) := by
  intro q hq
  obtain ⟨s, hs, rfl⟩ := List.mem_map.mp (List.mem_of_getLast? hq)
  have := builtin_quiet (h s hs).2
  exact ⟨this.2.1, fun hh => this.2.2.1 hh.1⟩

theorem name_soft {ms : Macros} {g : Bytes} {n : TypeName} (h : n.Ok ms) : Soft (nameP g n) := by
  cases n with
  | name n => exact qual_soft
  | native f l =>
    cases l with
    | nil =>
      intro q hq
      cases hq
      have := builtin_quiet (h f List.mem_cons_self).2
      exact ⟨this.2.1, fun hh => this.2.2.1 hh.1⟩
    | cons x l => exact soft_append (l := [_]) (by simp [keysP]) (keys_soft fun y hy => h y (List.mem_cons_of_mem _ hy))

theorem type_soft {ms : Macros} {g : Bytes} {t : Ty} (h : t.Ok ms) : Soft (typeP g t) := by
  rw [typeP]
  cases hs : t.specs with
  | nil => rw [suffixP, List.append_nil]; exact name_soft h.name
  | cons s l =>
    refine soft_append (by simp [suffixP]) ?_
    cases l with
    | nil => exact specP_soft
    | cons r l => exact soft_append (l := [_]) (by simp [specsP]) specs_soft

theorem marks_quiet {g : Bytes} {l : List Specifier} : ∀ q ∈ marksP g l, quiet q.type := by
  cases l with
  | nil => intro q hq; cases hq
  | cons s l =>
    intro q hq
    rcases List.mem_cons.mp hq with rfl | hq
    · exact (specTok_quiet s).1
    · exact specs_quiet q hq

theorem marks_first {g : Bytes} {l : List Specifier} : ∀ q, (marksP g l).head? = some q → q.type ≠ .Access_StaticSymbol := by
  cases l with
  | nil => intro q hq; cases hq
  | cons s l => intro q hq; cases hq; exact (specTok_quiet s).2.1

theorem words_quiet {g : Bytes} {l : List Specifier} : ∀ q ∈ wordsP g l, quiet q.type := by
  cases l with
  | nil => intro q hq; cases hq
  | cons s l =>
    intro q hq
    rcases List.mem_cons.mp hq with rfl | hq
    · exact (specTok_quiet s).1
    · exact specs_quiet q hq

theorem words_first {g : Bytes} {l : List Specifier} : ∀ q, (wordsP g l).head? = some q → q.type ≠ .Access_StaticSymbol := by
  cases l with
  | nil => intro q hq; cases hq
  | cons s l => intro q hq; cases hq; exact (specTok_quiet s).2.1

theorem words_tame {g : Bytes} {l : List Specifier} : Tame (wordsP g l) := .all words_quiet words_first

theorem head_append' {l k : List Piece} {P : Piece → Prop} (hl : ∀ q, l.head? = some q → P q) (hk : ∀ q, k.head? = some q → P q) : ∀ q, (l ++ k).head? = some q → P q := by
  intro q hq
  cases l with
  | nil => exact hk q hq
  | cons a l => exact hl q hq

theorem decl_tame {ms : Macros} {g : Bytes} {l : List Specifier} {t : Ty} {n : Qual} (h : t.Ok ms) : Tame (declP g l t n) := by
  rw [declP]
  refine .all (fun q hq => ?_) (head_append' marks_first (head_append' (type_first h) (by intro q hq; cases hq; exact (by intro hh; cases hh))))
  simp only [List.mem_append] at hq
  rcases hq with hq | hq | hq
  · exact marks_quiet q hq
  · exact type_quiet h q hq
  · exact qual_quiet q hq

theorem semi_tame : Tame [semiP] := .all (by intro q hq; rw [List.mem_singleton.mp hq]; exact (by decide : quiet .Statement_End)) (by intro q hq; cases hq; exact (by intro hh; cases hh))

theorem bound_tame {k : List Piece} (h : Tame k) : Tame (boundP k) := by
  refine .cons (by decide : quiet .BraceSquare_Open) (by intro hh; cases hh) (by intro h; cases h.1) (h.lead.append ?_ (.inr ?_))
  · exact .cons (by decide : quiet .BraceSquare_Close) (by intro hh; cases hh) (by intro h; cases h.1) .nil
  · intro q hq; cases hq; exact (by intro hh; cases hh)

theorem bounds_tame {l : List (List Piece)} (h : ∀ k ∈ l, Tame k) : Tame (boundsP l) ∧ NotId (boundsP l) := by
  induction l with
  | nil => exact ⟨.nil, by intro q hq; cases hq⟩
  | cons k l ih =>
    have := ih fun x hx => h x (List.mem_cons_of_mem _ hx)
    refine ⟨(bound_tame (h k List.mem_cons_self)).append this.1 (.inr this.2), ?_⟩
    intro q hq
    cases hq
    exact (by intro hh; cases hh)

theorem tail_tame {t : Tail} (h : ∀ k ∈ t.codes, Tame k) (hp : ∀ l k, t ≠ .array l (.parens k)) : Tame (tailP t) ∧ NotId (tailP t) := by
  cases t with
  | array l i =>
    cases i with
    | none =>
      rw [tailP, initP, List.append_nil]
      exact bounds_tame h
    | value k =>
      have hb := bounds_tame (l := l) fun x hx => h x (by simp [Tail.codes, hx])
      have hk := h k (by simp [Tail.codes])
      rw [tailP]
      have hn : NotId (initP (.value k)) := by intro q hq; cases hq; exact (by intro hh; cases hh)
      refine ⟨hb.1.append (.cons (by decide : quiet .Operator) (by intro hh; cases hh) (by intro h; cases h.2) hk.lead) (.inr hn), head_append' hb.2 hn⟩
    | parens k => exact absurd rfl (hp l k)
  | bits k =>
    have hk := h k (by simp [Tail.codes])
    refine ⟨.cons (by decide : quiet .Assign_Classifer) (by intro hh; cases hh) (by intro h; cases h.1) hk.lead, ?_⟩
    intro q hq; cases hq; exact (by intro hh; cases hh)

theorem semi_notId : NotId [semiP] := by intro q hq; cases hq; exact (by intro hh; cases hh)

theorem var_tame {ms : Macros} {g : Bytes} {l : List Specifier} {v : Var} (h : v.Ok ms l) (hc : ∀ k ∈ v.tail.codes, Tame k) (hp : ∀ l k, v.tail ≠ .array l (.parens k)) : Tame (varP g v) := by
  have ht := tail_tame hc hp
  exact (decl_tame h.ty).append (ht.1.append semi_tame (.inr semi_notId)) (.inr (head_append' ht.2 semi_notId))

theorem ending_tame {g : Bytes} {l : List (List Piece)} (h : ∀ k ∈ l, Tame k) : Tame (endingP g l) ∧ NotId (endingP g l) := by
  have hb := bounds_tame h
  refine ⟨(hb.1.append semi_tame (.inr semi_notId)).lead, ?_⟩
  rw [endingP]
  cases l with
  | nil => intro q hq; cases hq; exact (by intro hh; cases hh)
  | cons k l => intro q hq; cases hq; exact (by intro hh; cases hh)

theorem alias_tame {ms : Macros} {g : Bytes} {a : Alias} (h : a.Ok ms) (h1 : ∀ n t l, a = .named n t l → ∀ k ∈ l, Tame k) (h2 : ∀ t n l, a = .typedef t n l → ∀ k ∈ l, Tame k) : Tame (aliasP g a) := by
  cases h with
  | @named n t l h3 h4 h5 =>
    have he := ending_tame (g := typeGap t) (h1 n t l rfl)
    refine .cons (by decide : quiet .Decl_Using) (by intro hh; cases hh) (by intro h; cases h.1) (.cons (by decide : quiet .Identifier) (by intro hh; cases hh)
      (by intro h; cases h.1) (.cons (by decide : quiet .Operator) (by intro hh; cases hh) (by intro h; cases h.2) ((type_tame h4).append he.1 (.inr he.2))))
  | space h3 =>
    exact .cons (by decide : quiet .Decl_Using) (by intro hh; cases hh) (by intro h; cases h.1) (.cons (by decide : quiet .Decl_Namespace) (by intro hh; cases hh)
      (by intro h; cases h.1) (.cons (by decide : quiet .Identifier) (by intro hh; cases hh) (by intro h; cases h.1) semi_tame))
  | @typedef t n l h3 h4 h5 =>
    have he := ending_tame (g := []) (h2 t n l rfl)
    exact .cons (by decide : quiet .Decl_Typedef) (by intro hh; cases hh) (by intro h; cases h.1) ((type_tame h3).append
      (.cons (by decide : quiet .Identifier) (by intro hh; cases hh) (by intro h; cases h.1) he.1) (.inl (type_soft h3)))

/-! ## Functions -/

theorem pvalue_tame {g : Bytes} {k : List Piece} (h : Tame k) : Tame (pvalueP g k) ∧ NotId (pvalueP g k) := by
  unfold pvalueP
  split
  · exact ⟨.nil, by intro q hq; cases hq⟩
  · refine ⟨.cons (by decide : quiet .Operator) (by intro hh; cases hh) (by intro h; cases h.2) h.lead, ?_⟩
    intro q hq; cases hq; exact (by intro hh; cases hh)

theorem pname_tame {g x : Bytes} : Tame (pnameP g x) := by
  unfold pnameP
  split
  · exact .nil
  · exact .cons (by decide : quiet .Identifier) (by intro hh; cases hh) (by intro h; cases h.1) .nil

theorem param_tame {ms : Macros} {g : Bytes} {a : Param} (h : a.Ok ms) (hv : Tame a.value) : Tame (paramP g a) := by
  have := pvalue_tame (g := if a.name = [] then typeGap a.ty ++ b!" " else b!" ") hv
  exact (type_tame h.ty).append (pname_tame.append this.1 (.inr this.2)) (.inl (type_soft h.ty))

theorem more_tame {ms : Macros} {l : List Param} : ∀ {a : Param}, (∀ x ∈ l, x.Ok ms) → (∀ x ∈ l, Tame x.value) → Tame (moreP a l) ∧ NotId (moreP a l) := by
  induction l with
  | nil =>
    intro a _ _
    refine ⟨.cons (by decide : quiet .Paren_Close) (by intro hh; cases hh) (by intro h; cases h.1) .nil, ?_⟩
    intro q hq; cases hq; exact (by intro hh; cases hh)
  | cons b l ih =>
    intro a h1 h2
    have hm := ih (a := b) (fun x hx => h1 x (List.mem_cons_of_mem _ hx)) (fun x hx => h2 x (List.mem_cons_of_mem _ hx))
    refine ⟨.cons (by decide : quiet .Comma) (by intro hh; cases hh) (by intro h; cases h.1) ((param_tame (h1 b List.mem_cons_self) (h2 b List.mem_cons_self)).append hm.1 (.inr hm.2)), ?_⟩
    intro q hq; cases hq; exact (by intro hh; cases hh)

/-- The parameters behind the opening parenthesis. -/
theorem params_tame {ms : Macros} {l : List Param} (h1 : ∀ x ∈ l, x.Ok ms) (h2 : ∀ x ∈ l, Tame x.value) : ∃ m, paramsP l = puP [] b!"(" .Paren_Open 0 :: m ∧ Tame m := by
  cases l with
  | nil => exact ⟨_, rfl, .cons (by decide : quiet .Paren_Close) (by intro hh; cases hh) (by intro h; cases h.1) .nil⟩
  | cons a l =>
    have hm := more_tame (a := a) (fun x hx => h1 x (List.mem_cons_of_mem _ hx)) (fun x hx => h2 x (List.mem_cons_of_mem _ hx))
    exact ⟨_, rfl, (param_tame (h1 a List.mem_cons_self) (h2 a List.mem_cons_self)).append hm.1 (.inr hm.2)⟩

theorem end_tame {e : Option (List Piece)} (h : ∀ k, e = some k → Tame k) : Tame (endP e) ∧ NotId (endP e) := by
  cases e with
  | none => exact ⟨semi_tame, semi_notId⟩
  | some k =>
    refine ⟨.braces rfl rfl (h k rfl).lead .nil, ?_⟩
    intro q hq; cases hq; exact (by intro hh; cases hh)

theorem fhead_callable {ms : Macros} {g : Bytes} {l : List Specifier} {t : Ty} {n : Qual} (h : t.Ok ms) (hn : n.Ok ms) (hc : ∀ l w x, n.first :: n.more = l ++ [w, x] → ¬ x <+: w) :
    Callable (fheadP g l t n) := by
  have hpre : ∃ m, fheadP g l t n = m ++ qualP (typeGap t ++ b!" ") n ∧ Soft m := by
    refine ⟨wordsP g l ++ typeP (if l = [] then g else b!"\n") t, by rw [fheadP]; simp, soft_append ?_ (type_soft h)⟩
    obtain ⟨q, m, h1, -⟩ := name_first (g := if l = [] then g else b!"\n") h.name
    rw [typeP, h1]
    simp
  obtain ⟨m, h1, h2⟩ := hpre
  rw [h1]
  obtain ⟨a, r⟩ := n
  refine Callable.append (q := idP (typeGap t ++ b!" ") a) (m := r.flatMap scopeP) ?_ (by intro hh; cases hh) (.inl h2) rfl
  rcases List.eq_nil_or_concat r with rfl | ⟨s, b, rfl⟩
  · constructor
    · intro l x y e; exact absurd (congrArg List.length e) (by simp)
    · intro l w x y e; exact absurd (congrArg List.length e) (by simp)
  · rw [List.concat_eq_append] at hn hc ⊢
    have hq : idP (typeGap t ++ b!" ") a :: (s ++ [b]).flatMap scopeP = idP (typeGap t ++ b!" ") a :: s.flatMap scopeP ++ [puP [] b!"::" .Access_StaticSymbol 0, idP [] b] := by
      simp [scopeP]
    rw [hq]
    have hb := (hn b (by simp)).word
    constructor
    · intro l x y e hy hx
      obtain ⟨-, e2⟩ := List.append_inj' e rfl
      cases e2
      cases hx
    · intro l w x y e hx hy
      rw [show l ++ [w, x, y] = (l ++ [w]) ++ [x, y] by simp] at e
      obtain ⟨e1, e2⟩ := List.append_inj' e rfl
      cases e2
      rcases List.eq_nil_or_concat s with rfl | ⟨s, d, rfl⟩
      · have e1 : [idP (typeGap t ++ b!" ") a] = l ++ [w] := e1
        have ew : w = idP (typeGap t ++ b!" ") a := by
          have := congrArg List.getLast? e1
          rw [List.getLast?_concat] at this
          cases this
          rfl
        subst ew
        exact ⟨rfl, rfl, (hn a List.mem_cons_self).word, rfl, hb, hc [] a b rfl⟩
      · rw [List.concat_eq_append] at e1 hn hc
        rw [show idP (typeGap t ++ b!" ") a :: (s ++ [d]).flatMap scopeP = (idP (typeGap t ++ b!" ") a :: s.flatMap scopeP ++ [puP [] b!"::" .Access_StaticSymbol 0]) ++ [idP [] d] by
          simp [scopeP]] at e1
        obtain ⟨-, e3⟩ := List.append_inj' e1 rfl
        cases e3
        exact ⟨rfl, rfl, (hn d (by simp)).word, rfl, hb, hc (a :: s) d b (by simp)⟩

theorem fhead_tame {ms : Macros} {g : Bytes} {l : List Specifier} {t : Ty} {n : Qual} (h : t.Ok ms) : Tame (fheadP g l t n) := by
  rw [fheadP]
  refine .all (fun q hq => ?_) (head_append' words_first (head_append' (type_first h) (by intro q hq; cases hq; exact (by intro hh; cases hh))))
  simp only [List.mem_append] at hq
  rcases hq with hq | hq | hq
  · exact words_quiet q hq
  · exact type_quiet h q hq
  · exact qual_quiet q hq

theorem words_notId {g : Bytes} {l : List Specifier} : NotId (wordsP g l) := by
  cases l with
  | nil => intro q hq; cases hq
  | cons s l => intro q hq; cases hq; show specTok s ≠ _; cases s <;> decide

theorem fn_tame {ms : Macros} {g : Bytes} {l : List Specifier} {f : Fn} (h : f.Ok ms l) (hc : ∀ l w x, f.name.first :: f.name.more = l ++ [w, x] → ¬ x <+: w)
    (hv : ∀ a ∈ f.params, Tame a.value) (hb : ∀ k, f.body = some k → Tame k) : Tame (fnP g f) := by
  obtain ⟨m, h1, h2⟩ := params_tame h.params hv
  have he := end_tame hb
  rw [fnP, h1]
  have h3 : Tame (fheadP g f.lead f.ty f.name ++ [puP [] b!"(" .Paren_Open 0]) := by
    have ht := fhead_tame (g := g) (l := f.lead) (n := f.name) h.ty
    refine ⟨fun pre z post e hz => ?_, fun q hq => ?_, ?_⟩
    · rcases List.append_eq_append_iff.mp e with ⟨u, e1, e2⟩ | ⟨u, e1, e2⟩
      · cases u with
        | nil => rw [List.append_nil] at e1; rw [e1]; exact fhead_callable h.ty h.name hc
        | cons v u => cases u <;> cases e2
      · cases u with
        | nil => rw [List.append_nil] at e1; rw [← e1]; exact fhead_callable h.ty h.name hc
        | cons v u => cases e2; exact ht.callable pre z u e1 hz
    · refine ht.head q ?_
      cases hf : fheadP g f.lead f.ty f.name with
      | nil =>
        obtain ⟨q, m, e1, -⟩ := name_first (g := if f.lead = [] then g else b!"\n") h.ty.name
        rw [fheadP, typeP, e1] at hf
        simp at hf
      | cons a m => rw [hf] at hq; exact hq
    · rw [shape_append]; exact bal_append ht.balanced (bal_one (by exact ⟨(by intro hh; cases hh), (by intro hh; cases hh)⟩))
  have h4 : Tame (m ++ (wordsP b!" " f.trail ++ endP f.body)) := h2.append (words_tame.append he.1 (.inr he.2)) (.inr (head_append' words_notId he.2))
  have := h3.append h4 (.inl (soft_append (by simp) (by intro q hq; cases hq; exact ⟨(by intro hh; cases hh), (by intro h; cases h.1)⟩)))
  simpa using this

/-! ## Enums -/

theorem entry_tame {g : Bytes} {e : Entry} (h : Tame e.value) : Tame (entryP g e) :=
  .cons (by decide : quiet .Identifier) (by intro hh; cases hh) (by intro h; cases h.1) (pvalue_tame h).1

theorem comma_tame {l : List Piece} (h : Tame l) : Tame (commaP :: l) := .cons (by decide : quiet .Comma) (by intro hh; cases hh) (by intro h; cases h.1) h
theorem comma_notId {l : List Piece} : NotId (commaP :: l) := by intro q hq; cases hq; exact (by intro hh; cases hh)

theorem entries_tame {c : Bool} {l : List Entry} : ∀ {g : Bytes}, (∀ x ∈ l, Tame x.value) → Tame (entriesP g c l) := by
  induction l with
  | nil => intro g _; exact .nil
  | cons e l ih =>
    intro g h
    have he := entry_tame (g := g) (h e List.mem_cons_self)
    cases l with
    | nil =>
      rw [entriesP]
      cases c with
      | false => simp only [Bool.false_eq_true, if_false, List.append_nil]; exact he
      | true => exact he.append (comma_tame .nil) (.inr comma_notId)
    | cons f l => exact he.append (comma_tame (ih fun x hx => h x (List.mem_cons_of_mem _ hx))) (.inr comma_notId)

theorem under_tame {ms : Macros} {u : Option Ty} (h : ∀ t, u = some t → t.Ok ms) : Tame (underP u) := by
  cases u with
  | none => exact .nil
  | some t => exact .cons (by decide : quiet .Assign_Classifer) (by intro hh; cases hh) (by intro h; cases h.1) (type_tame (h t rfl))

theorem enumHead_tame {ms : Macros} {g : Bytes} {e : Enum} (h : ∀ t, e.under = some t → t.Ok ms) : Tame (enumHeadP g e) := by
  have h1 : Tame (idP b!" " e.name :: underP e.under) := .cons (by decide : quiet .Identifier) (by intro hh; cases hh) (by intro h; cases h.1) (under_tame h)
  rw [enumHeadP]
  cases e.cls with
  | false => exact .cons (by decide : quiet .Decl_Enum) (by intro hh; cases hh) (by intro h; cases h.1) h1
  | true =>
    exact .cons (by decide : quiet .Decl_Enum) (by intro hh; cases hh) (by intro h; cases h.1) (.cons (by decide : quiet .Decl_Class) (by intro hh; cases hh)
      (by intro h; cases h.1) h1)

theorem open_notId {g : Bytes} {l : List Piece} : NotId (puP g b!"{" .BraceCurly_Open 0 :: l) := by intro q hq; cases hq; exact (by intro hh; cases hh)

theorem enum_tame {ms : Macros} {g : Bytes} {e : Enum} (h : e.Ok ms) (hv : ∀ x ∈ e.entries, Tame x.value) : Tame (enumP g e) :=
  (enumHead_tame h.under).append (.braces rfl rfl (entries_tame hv) semi_tame) (.inr open_notId)

end Verif.Round
