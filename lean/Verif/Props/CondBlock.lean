import Verif.Model.CondBlock
import Verif.Props.Ast
/-!
# C64 Conditional blocks left out of a body
-/
namespace Verif.Ast

/-! ## Specification -/

/-- `#if`, `#ifdef`, `#ifndef`. -/
def Opens (n : Node) : Prop := n.type = .Preprocess_If ∨ n.type = .Preprocess_IfDef ∨ n.type = .Preprocess_IfNotDef
def IsElse (n : Node) : Prop := n.type = .Preprocess_Else
def Closes (n : Node) : Prop := n.type = .Preprocess_EndIf
/-- No conditional directive (of those; `#elif` is a separate matter). -/
def Bare (n : Node) : Prop := ¬ Opens n ∧ ¬ IsElse n ∧ ¬ Closes n

/-- The inside of a conditional block: blocks in it are complete. `top` says that the list is the part between the `#if` of the block and its `#else` or `#endif`;
in the blocks inside there may be `#else` and `#elif`. -/
inductive Inside (f : Nat → Node) : Bool → List Nat → Prop
  | nil {top : Bool} : Inside f top []
  | bare {top : Bool} {e : Nat} {l : List Nat} : Bare (f e) → (top = true → (f e).type ≠ .Preprocess_ElIf) → Inside f top l → Inside f top (e :: l)
  | other {e : Nat} {l : List Nat} : IsElse (f e) → Inside f false l → Inside f false (e :: l)
  | block {top : Bool} {o c : Nat} {i l : List Nat} : Opens (f o) → Inside f false i → Closes (f c) → Inside f top l → Inside f top (o :: (i ++ c :: l))

/-- What is kept of a list of entries if the blocks chosen by `P` are left out: of such a block, the part behind its `#else`; everything else, in order. -/
inductive Keeps (f : Nat → Node) (P : Node → Prop) : List Nat → List Nat → Prop
  | nil : Keeps f P [] []
  | keep {e : Nat} {l k : List Nat} : ¬ P (f e) → Keeps f P l k → Keeps f P (e :: l) (e :: k)
  | drop {o c : Nat} {i l k : List Nat} : P (f o) → Inside f true i → Closes (f c) → Keeps f P l k → Keeps f P (o :: (i ++ c :: l)) k
  | dropElse {o e c : Nat} {i a l k : List Nat} : P (f o) → Inside f true i → IsElse (f e) → (∀ x ∈ a, Bare (f x) ∧ (f x).type ≠ .Preprocess_ElIf) → Closes (f c) → Keeps f P l k →
      Keeps f P (o :: (i ++ e :: (a ++ c :: l))) (a ++ k)

/-- The blocks the generator leaves out: those whose type and condition it tries. -/
def Chosen (sigs : CodeType → List Bytes) (n : Node) : Prop := n.content ∈ sigs n.type

/-! ## Reading one body and writing another -/

/-- Body `c` with entries `m` (the last one is `x`) is being read, body `b` with entries `l` written. -/
structure Reading (h : Heap) (c b : Nat) (m l : List Nat) (x : Nat) : Prop where
  out : IsBody h b l
  src : IsBody h c m
  ne : b ≠ c
  outNot : b ∉ m
  srcNot : c ∉ l
  plain : ∀ e ∈ m, isBodyType (h.cell e).type = false
  last : m.getLast? = some x
  ends : (h.cell x).back ∉ m

/-- Copies of the nodes `ps` were appended to `b`, and nothing else changed. -/
def Copied (h h' : Heap) (c b : Nat) (m l : List Nat) (x : Nat) (ps : List Nat) : Prop :=
  ∃ l', Reading h' c b m (l ++ l') x ∧ l'.map (fun e => (h'.cell e).payload) = ps.map (fun e => (h.cell e).payload) ∧ (∀ e ∈ l', h.next ≤ e) ∧ h.next ≤ h'.next ∧
    (∀ q ∈ m, h'.cell q = h.cell q) ∧ ∀ q, h.Valid q → q ≠ b → (h'.cell q).payload = (h.cell q).payload

/-- Where the reader is when `m2` is still ahead. -/
def ahead (h : Heap) (x : Nat) (m2 : List Nat) : Nat := m2.head?.getD (h.cell x).back

variable {h : Heap} {c b x : Nat} {m l : List Nat}

theorem Copied.refl (r : Reading h c b m l x) : Copied h h c b m l x [] :=
  ⟨[], by simpa using r, rfl, by simp, Nat.le_refl _, fun _ _ => rfl, fun _ _ _ => rfl⟩

theorem Copied.same {h' : Heap} {ps : List Nat} (r : Copied h h' c b m l x ps) : ∀ q ∈ m, h'.cell q = h.cell q := by
  obtain ⟨_, _, _, _, _, k, _⟩ := r
  exact k

theorem Reading.validOf (r : Reading h c b m l x) {e : Nat} (he : e ∈ m) : h.Valid e := r.src.chain.valid e he

theorem Reading.lastIn (r : Reading h c b m l x) : x ∈ m := List.mem_of_getLast? r.last

theorem Copied.trans {h' h'' : Heap} {ps qs : List Nat} (r1 : Copied h h' c b m l x ps) (hr : Reading h c b m l x)
    (hq : ∀ q ∈ qs, q ∈ m) (r2 : ∀ l1, Reading h' c b m l1 x → Copied h' h'' c b m l1 x qs) : Copied h h'' c b m l x (ps ++ qs) := by
  obtain ⟨l1, a1, a2, a3, a4, a5, a6⟩ := r1
  obtain ⟨l2, b1, b2, b3, b4, b5, b6⟩ := r2 _ a1
  refine ⟨l1 ++ l2, by simpa using b1, ?_, ?_, Nat.le_trans a4 b4, (fun q hq' => (b5 q hq').trans (a5 q hq')), fun q v w => ?_⟩
  · rw [List.map_append, List.map_append, b2, ← a2]
    congr 1
    · apply List.map_congr_left
      intro e he
      refine b6 e (a1.out.chain.valid e (by simp [he])) (fun hh => a1.out.self (by simp [← hh, he]))
    · apply List.map_congr_left
      intro e he
      rw [a5 e (hq e he)]
  · intro e he
    rcases List.mem_append.mp he with he | he
    · exact a3 e he
    · exact Nat.le_trans a4 (b3 e he)
  · rw [b6 q ⟨v.1, Nat.lt_of_lt_of_le v.2 a4⟩ w, a6 q v w]

/-- One entry is appended. -/
theorem Reading.append (r : Reading h c b m l x) {e : Nat} (em : e ∈ m) (fuel : Nat) :
    ∃ h', bodyAppend fuel h b e = .ok h' ∧ Copied h h' c b m l x [e] := by
  have ve := r.validOf em
  have heb : e ≠ b := fun e' => r.outNot (e' ▸ em)
  obtain ⟨h1, o, e1, hb1, ha⟩ := append_spec r.out ve heb
  have hpe : (h.cell e).parent = c := r.src.parents e em
  have ho : o = h.next := by rw [ha.fresh, hpe, if_neg (Nat.ne_of_gt r.src.valid.1)]
  have hval : ∀ q, h.Valid q → h1.Valid q := fun q w => ⟨w.1, Nat.lt_of_lt_of_le w.2 ha.grow⟩
  have hold : ∀ q, h.Valid q → q ≠ b → q ∉ l → h1.cell q = h.cell q := by
    intro q w hq hql
    rw [ha.frame q w hq (by rw [ho]; exact Nat.ne_of_lt w.2), if_neg (fun e' => hql (List.mem_of_getLast? e'))]
  have hml : ∀ q ∈ m, q ∉ l := by
    intro q hq hql
    exact r.ne ((r.out.parents q hql).symm.trans (r.src.parents q hq))
  have hm : ∀ q ∈ m, h1.cell q = h.cell q := fun q hq => hold q (r.validOf hq) (fun e' => r.outNot (e' ▸ hq)) (hml q hq)
  have hcc : h1.cell c = h.cell c := hold c r.src.valid (Ne.symm r.ne) r.srcNot
  have hc1 : IsBody h1 c m :=
    { next := hb1.next, valid := hval c r.src.valid, count := by rw [hcc]; exact r.src.count
      chain := by
        rw [hcc]
        exact r.src.chain.congr fun q hq => ⟨hval q (r.validOf hq), by rw [hm q hq]⟩
      first := by rw [hcc]; exact r.src.first
      last := by rw [hcc]; exact r.src.last
      parents := by intro q hq; rw [hm q hq]; exact r.src.parents q hq
      self := r.src.self, nodup := r.src.nodup }
  refine ⟨h1, ?_, [o], ⟨hb1, hc1, r.ne, r.outNot, ?_, ?_, r.last, ?_⟩, ?_, ?_, ha.grow, hm, ha.same⟩
  · rw [bodyAppend_plain (Nat.ne_of_gt r.out.valid.1) ve (r.plain e em), e1]
  · simp only [List.mem_append, List.mem_singleton, not_or]
    exact ⟨r.srcNot, by rw [ho]; exact Nat.ne_of_lt r.src.valid.2⟩
  · intro q hq
    rw [hm q hq]
    exact r.plain q hq
  · rw [hm x r.lastIn]
    exact r.ends
  · simp [ha.node]
  · simp [ho]

theorem Reading.next (r : Reading h c b m l x) {m1 m2 : List Nat} {e : Nat} (hm : m = m1 ++ e :: m2) : (h.cell e).back = ahead h x m2 := by
  have hch : Chain h e (e :: m2) := by
    have : ∀ {p : Nat} {m1 : List Nat}, Chain h p (m1 ++ e :: m2) → Chain h e (e :: m2) := by
      intro p m1
      induction m1 generalizing p with
      | nil => intro c; exact c.1 ▸ c
      | cons a m1 ih => intro c; exact ih c.2.2
    exact this (hm ▸ r.src.chain)
  cases m2 with
  | nil =>
    have hl := r.last
    rw [hm] at hl
    have : x = e := by simp at hl; exact hl.symm
    simp [ahead, this]
  | cons y m2 => exact hch.2.2.1

theorem Reading.advance (r : Reading h c b m l x) {m1 m2 : List Nat} {e : Nat} (hm : m = m1 ++ e :: m2) : advance h e = .ok (ahead h x m2) := by
  have ve : h.Valid e := r.validOf (by rw [hm]; simp)
  unfold Ast.advance
  rw [if_neg (Nat.ne_of_gt ve.1), get_ok ve, Res.ok_bind, r.next hm]

theorem Reading.atEnd (r : Reading h c b m l x) {m1 m2 : List Nat} (hm : m = m1 ++ m2) : atEnd h c (ahead h x m2) = .ok m2.isEmpty := by
  unfold Ast.atEnd
  rw [get_ok r.src.valid, Res.ok_bind, r.src.last x r.last, get_ok (r.validOf r.lastIn), Res.ok_bind]
  cases m2 with
  | nil => simp [ahead]
  | cons e m2 =>
    have : e ≠ (h.cell x).back := fun hh => r.ends (by rw [← hh, hm]; simp)
    simp [ahead, this]

theorem ahead_same {h' : Heap} (hx : h'.cell x = h.cell x) (m2 : List Nat) : ahead h' x m2 = ahead h x m2 := by
  unfold ahead
  rw [hx]

/-! ## The loops -/

/-- The entries inside a block that is left out are passed over. -/
theorem skip_inside {f : Nat → Node} {top : Bool} {i : List Nat} (hi : Inside f top i) :
    ∀ {m1 m2 : List Nat} {d : Int} (fuel : Nat), m = m1 ++ (i ++ m2) → Reading h c b m l x → (∀ q ∈ m, h.cell q = f q) → 1 ≤ d → (top = false → 2 ≤ d) →
      skipBlock (fuel + i.length) h c b d (ahead h x (i ++ m2)) = skipBlock fuel h c b d (ahead h x m2) := by
  induction hi with
  | nil => intro m1 m2 d fuel _ _ _ _ _; rfl
  | @bare top e i hb hel _ ih =>
    intro m1 m2 d fuel hm r hf hd ht
    have ve : h.Valid e := r.validOf (by rw [hm]; simp)
    have he : h.cell e = f e := hf e (by rw [hm]; simp)
    have hm' : m = (m1 ++ [e]) ++ (i ++ m2) := by simp [hm]
    rw [List.length_cons, ← Nat.add_assoc, skipBlock, List.cons_append, r.atEnd (m2 := e :: (i ++ m2)) hm, Res.ok_bind]
    show ((h.get e).bind _) = _
    rw [get_ok ve, Res.ok_bind, he]
    have hadv := r.advance (m1 := m1) (m2 := i ++ m2) (e := e) (by simp [hm])
    obtain ⟨h1, h2, h3⟩ := hb
    have h1' : (f e).type ≠ .Preprocess_If ∧ (f e).type ≠ .Preprocess_IfDef ∧ (f e).type ≠ .Preprocess_IfNotDef := ⟨fun hh => h1 (.inl hh), fun hh => h1 (.inr (.inl hh)), fun hh => h1 (.inr (.inr hh))⟩
    have h2 : (f e).type ≠ .Preprocess_Else := h2
    have h3 : (f e).type ≠ .Preprocess_EndIf := h3
    split
    · next hh => exact absurd hh h1'.1
    · next hh => exact absurd hh h1'.2.1
    · next hh => exact absurd hh h1'.2.2
    · next hh => exact absurd hh h2
    · next hh => exact absurd hh h3
    · show ((advance h e).bind _) = _
      rw [hadv, Res.ok_bind]
      exact ih fuel hm' r hf hd ht
  | @other e i ho _ ih =>
    intro m1 m2 d fuel hm r hf hd ht
    have ve : h.Valid e := r.validOf (by rw [hm]; simp)
    have he : h.cell e = f e := hf e (by rw [hm]; simp)
    have hm' : m = (m1 ++ [e]) ++ (i ++ m2) := by simp [hm]
    rw [List.length_cons, ← Nat.add_assoc, skipBlock, List.cons_append, r.atEnd (m2 := e :: (i ++ m2)) hm, Res.ok_bind]
    show ((h.get e).bind _) = _
    have ho : (f e).type = .Preprocess_Else := ho
    rw [get_ok ve, Res.ok_bind, he, ho]
    show ((advance h e).bind _) = _
    rw [r.advance (m1 := m1) (m2 := i ++ m2) (e := e) (by simp [hm]), Res.ok_bind, if_neg (by have := ht rfl; omega)]
    exact ih fuel hm' r hf hd ht
  | @block top o cl i i2 ho _ hc _ ih1 ih2 =>
    intro m1 m2 d fuel hm r hf hd ht
    have vo : h.Valid o := r.validOf (by rw [hm]; simp)
    have eo : h.cell o = f o := hf o (by rw [hm]; simp)
    have vc : h.Valid cl := r.validOf (by rw [hm]; simp)
    have ec : h.cell cl = f cl := hf cl (by rw [hm]; simp)
    have e1 : o :: (i ++ cl :: i2) ++ m2 = o :: (i ++ (cl :: (i2 ++ m2))) := by simp
    have e2 : fuel + (o :: (i ++ cl :: i2)).length = fuel + i2.length + 1 + i.length + 1 := by simp; omega
    have hm0 : m = m1 ++ (o :: (i ++ (cl :: (i2 ++ m2)))) := by simp [hm]
    have hm1 : m = (m1 ++ [o]) ++ (i ++ (cl :: (i2 ++ m2))) := by simp [hm]
    have hm2 : m = (m1 ++ o :: i) ++ (cl :: (i2 ++ m2)) := by simp [hm]
    have hm3 : m = (m1 ++ o :: (i ++ [cl])) ++ (i2 ++ m2) := by simp [hm]
    rw [e1, e2, skipBlock, r.atEnd hm0, Res.ok_bind]
    show ((h.get o).bind _) = _
    rw [get_ok vo, Res.ok_bind, eo]
    have hstep : (advance h o).bind (fun entry => skipBlock (fuel + i2.length + 1 + i.length) h c b (d + 1) entry) = skipBlock fuel h c b d (ahead h x m2) := by
      rw [r.advance hm0, Res.ok_bind, ih1 (fuel + i2.length + 1) hm1 r hf (by omega) (fun _ => by omega), skipBlock, r.atEnd hm2, Res.ok_bind]
      show ((h.get cl).bind _) = _
      have hc : (f cl).type = .Preprocess_EndIf := hc
      rw [get_ok vc, Res.ok_bind, ec, hc]
      show (if d + 1 - 1 = 0 then _ else (advance h cl).bind _) = _
      rw [if_neg (by omega), r.advance hm2, Res.ok_bind, show d + 1 - 1 = d by omega]
      exact ih2 fuel hm3 r hf hd ht
    rcases ho with ho | ho | ho <;> rw [ho] <;> exact hstep

/-- The part behind the `#else` is copied. -/
theorem copy_else {f : Nat → Node} (cl : Nat) (hcl : Closes (f cl)) : ∀ (a : List Nat) {h : Heap} {l m1 m2 : List Nat} {fuel : Nat}, m = m1 ++ (a ++ cl :: m2) → Reading h c b m l x → (∀ q ∈ m, h.cell q = f q) →
    (∀ e ∈ a, ¬ Closes (f e)) → a.length < fuel → ∃ h', copyElse fuel h c b (ahead h x (a ++ cl :: m2)) = .ok (h', cl) ∧ Copied h h' c b m l x a := by
  intro a
  induction a with
  | nil =>
    intro h l m1 m2 fuel hm r hf _ hfu
    obtain ⟨g, rfl⟩ : ∃ g, fuel = g + 1 := ⟨fuel - 1, by simp at hfu; omega⟩
    have vc : h.Valid cl := r.validOf (by rw [hm]; simp)
    have ec : h.cell cl = f cl := hf cl (by rw [hm]; simp)
    refine ⟨h, ?_, Copied.refl r⟩
    rw [copyElse, List.nil_append, r.atEnd (m2 := cl :: m2) (by simpa using hm), Res.ok_bind]
    show ((h.get cl).bind _) = _
    rw [get_ok vc, Res.ok_bind, ec, if_pos (show (f cl).type = .Preprocess_EndIf from hcl)]
    rfl
  | cons e a ih =>
    intro h l m1 m2 fuel hm r hf ha hfu
    obtain ⟨g, rfl⟩ : ∃ g, fuel = g + 1 := ⟨fuel - 1, by simp at hfu; omega⟩
    have em : e ∈ m := by rw [hm]; simp
    have ve : h.Valid e := r.validOf em
    have ee : h.cell e = f e := hf e em
    obtain ⟨h1, e1, k1⟩ := r.append em g
    have hsame := k1.same
    have key : ∀ l1, Reading h1 c b m l1 x → ∃ h', copyElse g h1 c b (ahead h1 x (a ++ cl :: m2)) = .ok (h', cl) ∧ Copied h1 h' c b m l1 x a := fun l1 r1 =>
      ih (m1 := m1 ++ [e]) (by simp [hm]) r1 (fun q hq => (hsame q hq).trans (hf q hq)) (fun y hy => ha y (List.mem_cons_of_mem _ hy)) (by simp at hfu; omega)
    obtain ⟨l', r1, -⟩ := id k1
    obtain ⟨h2, e2, -⟩ := key _ r1
    refine ⟨h2, ?_, k1.trans r (fun q hq => by rw [hm]; simp [hq]) (fun l1 r1 => ?_)⟩
    · rw [copyElse, List.cons_append, r.atEnd (m2 := e :: (a ++ cl :: m2)) hm, Res.ok_bind]
      show ((h.get e).bind _) = _
      rw [get_ok ve, Res.ok_bind, ee, if_neg (show ¬ (f e).type = .Preprocess_EndIf from ha e List.mem_cons_self)]
      show ((bodyAppend g h b e).bind _) = _
      rw [e1, Res.ok_bind]
      show ((advance h1 e).bind _) = _
      rw [r1.advance (m1 := m1) (m2 := a ++ cl :: m2) hm, Res.ok_bind]
      exact e2
    · obtain ⟨h3, e3, k3⟩ := key l1 r1
      have : h3 = h2 := by
        rw [e2] at e3
        cases e3
        rfl
      exact this ▸ k3

/-- A block without `#else` is left out. -/
theorem skip_block {f : Nat → Node} {o cl : Nat} {i m1 m2 : List Nat} {fuel : Nat} (ho : Opens (f o)) (hi : Inside f true i) (hc : Closes (f cl)) (hm : m = m1 ++ o :: (i ++ cl :: m2))
    (r : Reading h c b m l x) (hf : ∀ q ∈ m, h.cell q = f q) (hfu : i.length + 2 ≤ fuel) : skipBlock fuel h c b 0 o = .ok (h, cl) := by
  obtain ⟨g, rfl⟩ : ∃ g, fuel = g + 1 + i.length + 1 := ⟨fuel - i.length - 2, by omega⟩
  have vo : h.Valid o := r.validOf (by rw [hm]; simp)
  have eo : h.cell o = f o := hf o (by rw [hm]; simp)
  have vc : h.Valid cl := r.validOf (by rw [hm]; simp)
  have ec : h.cell cl = f cl := hf cl (by rw [hm]; simp)
  have hm1 : m = (m1 ++ [o]) ++ (i ++ (cl :: m2)) := by simp [hm]
  have hm2 : m = (m1 ++ o :: i) ++ (cl :: m2) := by simp [hm]
  have h0 := r.atEnd hm
  have hstep : (advance h o).bind (fun entry => skipBlock (g + 1 + i.length) h c b (0 + 1) entry) = .ok (h, cl) := by
    rw [r.advance hm, Res.ok_bind, skip_inside hi (g + 1) hm1 r hf (by omega) (fun hh => by cases hh), skipBlock, r.atEnd hm2, Res.ok_bind]
    show ((h.get cl).bind _) = _
    have hc : (f cl).type = .Preprocess_EndIf := hc
    rw [get_ok vc, Res.ok_bind, ec, hc]
    rfl
  rw [skipBlock]
  have h0 : atEnd h c o = .ok false := h0
  rw [h0, Res.ok_bind]
  show ((h.get o).bind _) = _
  rw [get_ok vo, Res.ok_bind, eo]
  rcases ho with ho | ho | ho <;> rw [ho] <;> exact hstep

/-- Of a block with `#else`, the part behind it is copied. -/
theorem skip_else {f : Nat → Node} {o e cl : Nat} {i a m1 m2 : List Nat} {fuel : Nat} (ho : Opens (f o)) (hi : Inside f true i) (he : IsElse (f e)) (ha : ∀ y ∈ a, ¬ Closes (f y)) (hc : Closes (f cl))
    (hm : m = m1 ++ o :: (i ++ e :: (a ++ cl :: m2))) (r : Reading h c b m l x) (hf : ∀ q ∈ m, h.cell q = f q) (hfu : i.length + a.length + 3 ≤ fuel) :
    ∃ h', skipBlock fuel h c b 0 o = .ok (h', cl) ∧ Copied h h' c b m l x a := by
  obtain ⟨g, rfl⟩ : ∃ g, fuel = g + 1 + 1 + i.length + 1 := ⟨fuel - i.length - 3, by omega⟩
  have vo : h.Valid o := r.validOf (by rw [hm]; simp)
  have eo : h.cell o = f o := hf o (by rw [hm]; simp)
  have ve : h.Valid e := r.validOf (by rw [hm]; simp)
  have ee : h.cell e = f e := hf e (by rw [hm]; simp)
  have hm1 : m = (m1 ++ [o]) ++ (i ++ (e :: (a ++ cl :: m2))) := by simp [hm]
  have hm2 : m = (m1 ++ o :: i) ++ (e :: (a ++ cl :: m2)) := by simp [hm]
  have hm3 : m = (m1 ++ o :: (i ++ [e])) ++ (a ++ cl :: m2) := by simp [hm]
  have hm4 : m = (m1 ++ o :: (i ++ e :: a)) ++ (cl :: m2) := by simp [hm]
  obtain ⟨h1, e1, k1⟩ := copy_else (f := f) cl hc a (fuel := g + 1) hm3 r hf ha (by omega)
  obtain ⟨l', r1, -⟩ := id k1
  have vc : h1.Valid cl := r1.validOf (by rw [hm]; simp)
  have ec : h1.cell cl = f cl := (k1.same cl (by rw [hm]; simp)).trans (hf cl (by rw [hm]; simp))
  refine ⟨h1, ?_, k1⟩
  have hstep : (advance h o).bind (fun entry => skipBlock (g + 1 + 1 + i.length) h c b (0 + 1) entry) = .ok (h1, cl) := by
    rw [r.advance hm, Res.ok_bind, skip_inside hi (g + 1 + 1) hm1 r hf (by omega) (fun hh => by cases hh), skipBlock, r.atEnd hm2, Res.ok_bind]
    show ((h.get e).bind _) = _
    have he : (f e).type = .Preprocess_Else := he
    rw [get_ok ve, Res.ok_bind, ee, he]
    show ((advance h e).bind _) = _
    rw [r.advance hm2, Res.ok_bind, if_pos (by omega), e1, Res.ok_bind]
    show skipBlock (g + 1) h1 c b (0 + 1) cl = _
    have h0 : atEnd h1 c cl = .ok false := r1.atEnd hm4
    rw [skipBlock, h0, Res.ok_bind]
    show ((h1.get cl).bind _) = _
    have hc : (f cl).type = .Preprocess_EndIf := hc
    rw [get_ok vc, Res.ok_bind, ec, hc]
    rfl
  rw [skipBlock]
  have h0 : atEnd h c o = .ok false := r.atEnd hm
  rw [h0, Res.ok_bind]
  show ((h.get o).bind _) = _
  rw [get_ok vo, Res.ok_bind, eo]
  rcases ho with ho | ho | ho <;> rw [ho] <;> exact hstep

/-- The tries for one entry. -/
theorem tryAll_miss {fuel e : Nat} (v : h.Valid e) : ∀ {ss : List Bytes}, (h.cell e).content ∉ ss → tryAll fuel h e (ss.map fun s => (s, c, b)) = .ok (false, h, e)
  | [], _ => rfl
  | s :: ss, hn => by
    rw [List.map_cons, tryAll, ignoreCond, get_ok v, Res.ok_bind, if_neg (fun hh => hn (by simp [hh]))]
    show tryAll fuel h e _ = _
    exact tryAll_miss v (fun hh => hn (List.mem_cons_of_mem _ hh))

theorem tryAll_hit {fuel e : Nat} {y : Heap × Nat} (v : h.Valid e) (hr : skipBlock fuel h c b 0 e = .ok y) : ∀ {ss : List Bytes}, (h.cell e).content ∈ ss →
    tryAll fuel h e (ss.map fun s => (s, c, b)) = .ok (true, y)
  | s :: ss, hn => by
    rw [List.map_cons, tryAll, ignoreCond, get_ok v, Res.ok_bind]
    by_cases hs : (h.cell e).content = s
    · rw [if_pos hs, hr]
      rfl
    · rw [if_neg hs]
      show tryAll fuel h e _ = _
      refine tryAll_hit v hr ((List.mem_cons.mp hn).resolve_left hs)

/-- The tries of a loop that passes its own bodies along. -/
def tries (sigs : CodeType → List Bytes) (body new : Nat) (t : CodeType) : List (Bytes × Nat × Nat) := (sigs t).map fun s => (s, body, new)

theorem Keeps.mem {f : Nat → Node} {P : Node → Prop} {m k : List Nat} (hk : Keeps f P m k) : ∀ q ∈ k, q ∈ m := by
  induction hk with
  | nil => exact fun _ h => h
  | keep _ _ ih => intro q hq; rcases List.mem_cons.mp hq with rfl | hq <;> simp [*]
  | drop _ _ _ _ ih => intro q hq; simp [ih q hq]
  | dropElse _ _ _ _ _ _ ih => intro q hq; rcases List.mem_append.mp hq with hq | hq <;> simp [hq, ih]

theorem Copied.andThen {h1 : Heap} {F : Res Heap} {ps qs : List Nat} (k1 : Copied h h1 c b m l x ps) (r : Reading h c b m l x) (hq : ∀ q ∈ qs, q ∈ m)
    (key : ∀ l1, Reading h1 c b m l1 x → ∃ h', F = .ok h' ∧ Copied h1 h' c b m l1 x qs) : ∃ h', F = .ok h' ∧ Copied h h' c b m l x (ps ++ qs) := by
  obtain ⟨l', r1, -⟩ := id k1
  obtain ⟨h2, e2, -⟩ := key _ r1
  refine ⟨h2, e2, k1.trans r hq fun l1 r1 => ?_⟩
  obtain ⟨h3, e3, k3⟩ := key l1 r1
  have : h3 = h2 := by
    rw [e2] at e3
    cases e3
    rfl
  exact this ▸ k3

theorem filter_run {sigs : CodeType → List Bytes} {f : Nat → Node} (hs : ∀ n : Node, Chosen sigs n → Opens n) {m2 k : List Nat} (hk : Keeps f (Chosen sigs) m2 k) :
    ∀ {h : Heap} {l m1 : List Nat} {fuel : Nat}, m = m1 ++ m2 → Reading h c b m l x → (∀ q ∈ m, h.cell q = f q) → m2.length < fuel →
      ∃ h', filterBody fuel (tries sigs c b) h c b (ahead h x m2) = .ok h' ∧ Copied h h' c b m l x k := by
  induction hk with
  | nil =>
    intro h l m1 fuel hm r hf hfu
    obtain ⟨g, rfl⟩ : ∃ g, fuel = g + 1 := ⟨fuel - 1, by simp at hfu; omega⟩
    refine ⟨h, ?_, Copied.refl r⟩
    rw [filterBody, r.atEnd hm, Res.ok_bind]
    rfl
  | @keep e m2 k hp hk' ih =>
    intro h l m1 fuel hm r hf hfu
    obtain ⟨g, rfl⟩ : ∃ g, fuel = g + 1 := ⟨fuel - 1, by simp at hfu; omega⟩
    have em : e ∈ m := by rw [hm]; simp
    have ve : h.Valid e := r.validOf em
    have ee : h.cell e = f e := hf e em
    obtain ⟨h1, e1, k1⟩ := r.append em g
    obtain ⟨l', r1, -⟩ := id k1
    have hm' : m = (m1 ++ [e]) ++ m2 := by simp [hm]
    have e0 : filterBody (g + 1) (tries sigs c b) h c b (ahead h x (e :: m2)) = filterBody g (tries sigs c b) h1 c b (ahead h1 x m2) := by
      rw [filterBody, r.atEnd hm, Res.ok_bind]
      show ((h.get e).bind _) = _
      rw [get_ok ve, Res.ok_bind]
      show ((tryAll g h e _).bind _) = _
      unfold tries
      rw [tryAll_miss ve (by rw [ee]; exact hp), Res.ok_bind]
      show ((bodyAppend g h b e).bind _) = _
      rw [e1, Res.ok_bind]
      show ((advance h1 e).bind _) = _
      rw [r1.advance hm, Res.ok_bind]
    rw [e0]
    exact k1.andThen r (fun q hq => by rw [hm]; simp [hk'.mem q hq]) fun l1 r1 =>
      ih hm' r1 (fun q hq => (k1.same q hq).trans (hf q hq)) (by simp at hfu; omega)
  | @drop o cl i m2 k hp hi hc hk' ih =>
    intro h l m1 fuel hm r hf hfu
    obtain ⟨g, rfl⟩ : ∃ g, fuel = g + 1 := ⟨fuel - 1, by simp at hfu; omega⟩
    have vo : h.Valid o := r.validOf (by rw [hm]; simp)
    have eo : h.cell o = f o := hf o (by rw [hm]; simp)
    have hm2 : m = (m1 ++ o :: i) ++ (cl :: m2) := by simp [hm]
    have hm' : m = (m1 ++ o :: (i ++ [cl])) ++ m2 := by simp [hm]
    have e0 : filterBody (g + 1) (tries sigs c b) h c b (ahead h x (o :: (i ++ cl :: m2))) = filterBody g (tries sigs c b) h c b (ahead h x m2) := by
      rw [filterBody, r.atEnd hm, Res.ok_bind]
      show ((h.get o).bind _) = _
      rw [get_ok vo, Res.ok_bind]
      show ((tryAll g h o _).bind _) = _
      have hs1 : skipBlock g h c b 0 o = .ok (h, cl) := skip_block (hs _ hp) hi hc hm r hf (by simp at hfu; omega)
      unfold tries
      rw [tryAll_hit vo hs1 (by rw [eo]; exact hp), Res.ok_bind]
      show ((advance h cl).bind _) = _
      rw [r.advance hm2, Res.ok_bind]
    rw [e0]
    exact ih hm' r hf (by simp at hfu; omega)
  | @dropElse o e cl i a m2 k hp hi he ha hc hk' ih =>
    intro h l m1 fuel hm r hf hfu
    obtain ⟨g, rfl⟩ : ∃ g, fuel = g + 1 := ⟨fuel - 1, by simp at hfu; omega⟩
    have vo : h.Valid o := r.validOf (by rw [hm]; simp)
    have eo : h.cell o = f o := hf o (by rw [hm]; simp)
    have hm2 : m = (m1 ++ o :: (i ++ e :: a)) ++ (cl :: m2) := by simp [hm]
    have hm' : m = (m1 ++ o :: (i ++ e :: (a ++ [cl]))) ++ m2 := by simp [hm]
    obtain ⟨h1, hs1, k1⟩ := skip_else (fuel := g) (hs _ hp) hi he (fun y hy => (ha y hy).1.2.2) hc hm r hf (by simp at hfu; omega)
    obtain ⟨l', r1, -⟩ := id k1
    have e0 : filterBody (g + 1) (tries sigs c b) h c b (ahead h x (o :: (i ++ e :: (a ++ cl :: m2)))) = filterBody g (tries sigs c b) h1 c b (ahead h1 x m2) := by
      rw [filterBody, r.atEnd hm, Res.ok_bind]
      show ((h.get o).bind _) = _
      rw [get_ok vo, Res.ok_bind]
      show ((tryAll g h o _).bind _) = _
      unfold tries
      rw [tryAll_hit vo hs1 (by rw [eo]; exact hp), Res.ok_bind]
      show ((advance h1 cl).bind _) = _
      rw [r1.advance hm2, Res.ok_bind]
    rw [e0]
    exact k1.andThen r (fun q hq => by rw [hm]; simp [hk'.mem q hq]) fun l1 r1 =>
      ih hm' r1 (fun q hq => (k1.same q hq).trans (hf q hq)) (by simp at hfu; omega)

/-- C64: going through a body and leaving out the blocks of certain conditions appends to the new body exactly what is to be kept, in order and unchanged: every
entry outside those blocks and, of such a block, the part behind its `#else`. The body that is read, and everything else, is as it was. -/
theorem C64_filtered {sigs : CodeType → List Bytes} (hs : ∀ n : Node, Chosen sigs n → Opens n) {k : List Nat} (hb : IsBody h b l) (hc : IsBody h c m) (hbc : b ≠ c) (hbm : b ∉ m) (hcl : c ∉ l)
    (ht : ∀ e ∈ m, isBodyType (h.cell e).type = false) (hx : m.getLast? = some x) (hend : (h.cell x).back ∉ m) (hk : Keeps h.cell (Chosen sigs) m k) {fuel : Nat} (hfu : m.length < fuel) :
    ∃ h' l', filterBody fuel (tries sigs c b) h c b (h.cell c).front = .ok h' ∧ entries h' b = .ok (l ++ l') ∧ l'.map (fun e => (h'.cell e).payload) = k.map (fun e => (h.cell e).payload) ∧
      entries h' c = .ok m ∧ (∀ e ∈ l ++ l', (h'.cell e).parent = b) ∧ (∀ q ∈ m, h'.cell q = h.cell q) ∧ ∀ q, h.Valid q → q ≠ b → (h'.cell q).payload = (h.cell q).payload := by
  have r : Reading h c b m l x := ⟨hb, hc, hbc, hbm, hcl, ht, hx, hend⟩
  obtain ⟨h', e, l', r', k1, -, -, k2, k3⟩ := filter_run hs hk (m1 := []) rfl r (fun _ _ => rfl) hfu
  have hfr : (h.cell c).front = ahead h x m := by
    cases m with
    | nil => simp at hx
    | cons a m => exact hc.chain.1
  refine ⟨h', l', by rw [hfr]; exact e, r'.out.entries_eq, k1, r'.src.entries_eq, r'.out.parents, k2, k3⟩

/-- C64: a body without such blocks comes through whole. -/
theorem C64_untouched {sigs : CodeType → List Bytes} (hs : ∀ n : Node, Chosen sigs n → Opens n) (hb : IsBody h b l) (hc : IsBody h c m) (hbc : b ≠ c) (hbm : b ∉ m) (hcl : c ∉ l)
    (ht : ∀ e ∈ m, isBodyType (h.cell e).type = false) (hx : m.getLast? = some x) (hend : (h.cell x).back ∉ m) (hk : ∀ e ∈ m, ¬ Chosen sigs (h.cell e)) {fuel : Nat} (hfu : m.length < fuel) :
    ∃ h' l', filterBody fuel (tries sigs c b) h c b (h.cell c).front = .ok h' ∧ entries h' b = .ok (l ++ l') ∧ l'.map (fun e => (h'.cell e).payload) = m.map (fun e => (h.cell e).payload) := by
  have : ∀ {m : List Nat}, (∀ e ∈ m, ¬ Chosen sigs (h.cell e)) → Keeps h.cell (Chosen sigs) m m := by
    intro m
    induction m with
    | nil => exact fun _ => .nil
    | cons e m ih => exact fun hh => .keep (hh e List.mem_cons_self) (ih fun y hy => hh y (List.mem_cons_of_mem _ hy))
  obtain ⟨h', l', h1, h2, h3, -⟩ := C64_filtered hs hb hc hbc hbm hcl ht hx hend (this hk) hfu
  exact ⟨h', l', h1, h2, h3⟩

/-! ## Cases -/

/-- A code with a type and a text. -/
def newOf (h : Heap) (t : CodeType) (c : Bytes) : Res (Nat × Heap) :=
  let (r, h) := h.make
  (h.upd r fun n => { n with type := t, content := c }).bind fun h => .ok (r, h)

def addAll (b : Nat) : Heap → List (CodeType × Bytes) → Res Heap
  | h, [] => .ok h
  | h, (t, c) :: l => (newOf h t c).bind fun r => (bodyAppend 9 r.2 b r.1).bind fun h => addAll b h l

/-- Three bodies: 1 with entries of the given types and texts, and behind its entries two that are empty. -/
def source (ns : List (CodeType × Bytes)) : Res (Nat × Heap) :=
  (defBody .empty .Global_Body).bind fun r => match r with
  | none => .stop
  | some (c, h) => (addAll c h ns).bind fun h => (defBody h .Global_Body).bind fun r => match r with
    | none => .stop
    | some (b, h) => (defBody h .Global_Body).bind fun r => match r with
      | none => .stop
      | some (_, h) => .ok (b, h)

/-- The types and texts of the entries of a body. -/
def said (h : Heap) (b : Nat) : Res (List (CodeType × Bytes)) := (entries h b).bind fun l => .ok (l.map fun e => ((h.cell e).type, (h.cell e).content))

/-- The conditions of c_library.cpp 276-292: `#if` with one condition. -/
def condX (t : CodeType) : List Bytes := if t = .Preprocess_If then [b!"X"] else []

theorem condX_opens : ∀ n : Node, Chosen condX n → Opens n := by
  intro n hn
  unfold Chosen condX at hn
  split at hn
  · exact .inl ‹_›
  · cases hn

/-- A body is filtered: what the new one says. -/
def filtered (tr : Nat → CodeType → List (Bytes × Nat × Nat)) (ns : List (CodeType × Bytes)) (look : Nat) : Res (List (CodeType × Bytes)) :=
  (source ns).bind fun r => (filterBody 20 (tr r.1) r.2 1 r.1 2).bind fun h => said h (r.1 + look)

abbrev u (c : Bytes) : CodeType × Bytes := (.Untyped, c)

/-- The inside of the block has a block with `#else` of its own. -/
def demoBody : List (CodeType × Bytes) := [u b!"a", (.Preprocess_If, b!"X"), u b!"b", (.Preprocess_IfDef, b!"Y"), u b!"c", (.Preprocess_Else, []), u b!"d", (.Preprocess_EndIf, []), (.Preprocess_Else, []), u b!"e",
  (.Preprocess_EndIf, []), (.Preprocess_If, b!"Z"), u b!"f", (.Preprocess_EndIf, [])]

example : filtered (fun b => tries condX 1 b) demoBody 0 = .ok [u b!"a", u b!"e", (.Preprocess_If, b!"Z"), u b!"f", (.Preprocess_EndIf, [])] := by decide +kernel

/-- The hypotheses of `C64_filtered` are met by it. -/
example : ∃ b h, source demoBody = .ok (b, h) ∧ IsBody h b [] ∧ IsBody h 1 [2, 3, 4, 5, 6, 7, 8, 9, 10, 11, 12, 13, 14, 15] ∧ (h.cell 15).back = 0 ∧
    Keeps h.cell (Chosen condX) [2, 3, 4, 5, 6, 7, 8, 9, 10, 11, 12, 13, 14, 15] [2, 11, 13, 14, 15] := by
  refine ⟨_, _, rfl, ⟨by decide, by decide, by decide, trivial, by decide, (fun _ hx => by cases hx), (fun _ hx => by cases hx), List.not_mem_nil, List.nodup_nil⟩,
    ⟨by decide, by decide, by decide, ?_, (fun hx => by cases hx), ?_, by decide, by decide, by decide⟩, by decide, ?_⟩
  · repeat refine ⟨by decide, by decide, ?_⟩
    trivial
  · intro x hx
    have hx : some 15 = some x := hx
    cases hx
    decide
  · refine .keep (by unfold Chosen condX; decide) (.dropElse (o := 3) (e := 10) (c := 12) (i := [4, 5, 6, 7, 8, 9]) (a := [11]) (l := [13, 14, 15]) (k := [13, 14, 15])
      (by unfold Chosen condX; decide) ?_ (by unfold IsElse; decide) ?_ (by unfold Closes; decide) ?_)
    · refine .bare (by unfold Bare Opens IsElse Closes; decide) (fun _ => by decide) (.block (o := 5) (c := 9) (i := [6, 7, 8]) (l := []) (by unfold Opens; decide) ?_ (by unfold Closes; decide) .nil)
      exact .bare (by unfold Bare Opens IsElse Closes; decide) (fun _ => by decide) (.other (by unfold IsElse; decide) (.bare (by unfold Bare Opens IsElse Closes; decide) (fun _ => by decide) .nil))
    · unfold Bare Opens IsElse Closes
      decide
    · exact .keep (by unfold Chosen condX; decide) (.keep (by unfold Chosen condX; decide) (.keep (by unfold Chosen condX; decide) .nil))

/-! ## What is false -/

/-- C64 is false of a block inside the part behind the `#else`: its `#endif` is taken for that of the outer block and dropped, and the outer one is kept instead,
so that what followed the inner block is inside it now. -/
theorem C64_nested_else_refuted : filtered (fun b => tries condX 1 b) [(.Preprocess_If, b!"X"), (.Preprocess_Else, []), (.Preprocess_If, b!"Y"), u b!"a", (.Preprocess_EndIf, []), u b!"b", (.Preprocess_EndIf, [])] 0 =
    .ok [(.Preprocess_If, b!"Y"), u b!"a", u b!"b", (.Preprocess_EndIf, [])] := by decide +kernel

/-- C64 is false of `#elif`: the part behind it is left out too, although it is there for when the condition does not hold. -/
theorem C64_elif_refuted : filtered (fun b => tries condX 1 b) [(.Preprocess_If, b!"X"), u b!"a", (.Preprocess_ElIf, b!"Y"), u b!"b", (.Preprocess_EndIf, [])] 0 = .ok [] := by decide +kernel

/-- C64 is false of the loop over inlines.hpp (c_library.cpp 1227), which passes the bodies of another loop along: what is behind the `#else` lands in that other body. -/
theorem C64_other_body_refuted :
    filtered (fun b t => if t = .Preprocess_If then [(b!"X", 1, b + 1)] else []) [(.Preprocess_If, b!"X"), (.Preprocess_Else, []), u b!"a", (.Preprocess_EndIf, []), u b!"b"] 0 = .ok [u b!"b"] ∧
    filtered (fun b t => if t = .Preprocess_If then [(b!"X", 1, b + 1)] else []) [(.Preprocess_If, b!"X"), (.Preprocess_Else, []), u b!"a", (.Preprocess_EndIf, []), u b!"b"] 1 = .ok [u b!"a"] := by
  decide +kernel

/-- C64 is false of a block that is never closed: the rest of the body is lost without a word. -/
theorem C64_unclosed_refuted : filtered (fun b => tries condX 1 b) [(.Preprocess_If, b!"X"), u b!"a", u b!"b"] 0 = .ok [] := by decide +kernel

end Verif.Ast
