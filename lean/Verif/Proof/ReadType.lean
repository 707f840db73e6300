import Verif.Proof.ReadTok
import Verif.Props.Operators
/-!
# Running the parser on the tokens of a type
-/
namespace Verif.Parse
open Verif.Lex (Tok)
open Verif.Ast P

variable {e : Env} {s : St} {t : Tok} {ts more rest : List Tok} {ty : TokType} {fl : Nat} {x : Bytes} {α β : Type}

/-! ## The previous token, texts that span tokens -/

theorem Here.prev {pre : List Tok} (h : Here e s (pre ++ t :: more) rest) {s' : St} (hs : s'.idx = s.idx + (pre.length + 1)) :
    Parse.prev e s' = .ok (t, s') := by
  unfold Parse.prev
  have : e.cells[s'.idx - 1]? = some t := by
    rw [hs, show s.idx + (pre.length + 1) - 1 = s.idx + pre.length by omega, ← List.getElem?_drop, h.cells, List.append_assoc,
      List.getElem?_append_right (Nat.le_refl _), Nat.sub_self]
    rfl
  rw [if_neg (by omega), this]
  rfl

theorem bytes_slice {c : Bytes} {a : Nat} {x : Bytes} (he : e.mem = c) (h : Lex.slice c a x.length = x) : e.bytes ⟨a, x.length⟩ = .ok x := by
  subst he
  exact (TokIs.bytes (t := ⟨a, x.length, .Invalid, 0, 0, 0⟩) ⟨rfl, rfl, rfl, h⟩)

theorem upToPrev_run {f : Tok} {ts : List Tok} {x : Bytes} (h : Here e s (f :: ts ++ more) rest) (hx : Spans e.mem (f :: ts) x) {s' : St}
    (hs : s'.idx = s.idx + (ts.length + 1)) : upToPrev f.start e s' = .ok (⟨f.start, x.length⟩, s') := by
  obtain ⟨f', l, hf, hl, hlen, -⟩ := hx.text
  cases hf
  obtain ⟨pre, hpre⟩ : ∃ pre, f :: ts = pre ++ [l] := by
    obtain ⟨ys, hys⟩ := List.getLast?_eq_some_iff.1 hl
    exact ⟨ys, hys⟩
  have hn : ts.length + 1 = pre.length + 1 := by
    have := congrArg List.length hpre
    simpa using this
  rw [hpre, List.append_assoc] at h
  unfold upToPrev
  simp only [bindP, h.prev (by rw [hs, hn] : s'.idx = s.idx + (pre.length + 1)), Res.ok_bind, pureP, span, hlen]

theorem spanBytes {f : Tok} {ts : List Tok} {x : Bytes} (hx : Spans e.mem (f :: ts) x) {s : St} :
    Parse.bytes ⟨f.start, x.length⟩ e s = .ok (x, s) := by
  obtain ⟨f', l, hf, hl, hlen, hs⟩ := hx.text
  cases hf
  unfold Parse.bytes
  rw [bytes_slice rfl hs]
  rfl

/-! ## Names -/

/-- What may stand behind a name or type so that it ends there. -/
structure Ends (c : Bytes) (t : Tok) : Prop where
  fmt : isFmt t = false
  spec : has t Lex.fSpecifier = false
  paren : t.type ≠ .Paren_Open
  dots : t.type ≠ .Varadic_Argument
  native : nativeType t.type = false
  colons : t.type ≠ .Access_StaticSymbol
  angle : t.type = .Operator → ∃ b, c[t.start]? = some b ∧ b ≠ 60

/-- Only that no template arguments and no further part of the name follow. -/
structure NameEnds (c : Bytes) (t : Tok) : Prop where
  fmt : isFmt t = false
  colons : t.type ≠ .Access_StaticSymbol
  angle : t.type = .Operator → ∃ b, c[t.start]? = some b ∧ b ≠ 60

theorem Ends.name {c : Bytes} (h : Ends c t) : NameEnds c t := ⟨h.fmt, h.colons, h.angle⟩

theorem asIdentifier_ok (b : Bytes) (e : Env) (s : St) : ∃ r, asIdentifier b e s = .ok (r, s) := by
  unfold asIdentifier macroOf
  exact ⟨_, rfl⟩

theorem isAngle_run (ha : t.type = .Operator → ∃ b, e.mem[t.start]? = some b ∧ b ≠ 60) : isAngle t e s = .ok (false, s) := by
  unfold isAngle
  by_cases h1 : t.type = .Operator
  · obtain ⟨b, hb, hn⟩ := ha h1
    have hc : Parse.chr t 0 e s = .ok (b, s) := by
      unfold Parse.chr
      rw [Nat.add_zero, hb]
      rfl
    simp only [bindP, hc, Res.ok_bind, iteP, if_pos h1, pureP, hn, false_and, decide_false]
  · simp only [iteP, if_neg h1, pureP]

theorem templateArgs_run (h : Here e s (t :: more) rest) (ht : NameEnds e.mem t ∨ (isFmt t = false ∧ t.type ≠ .Operator)) {name : Txt} :
    templateArgs name e s = .ok (name, s) := by
  have hf : isFmt t = false := ht.elim (·.fmt) (·.1)
  have ha : t.type = .Operator → ∃ b, e.mem[t.start]? = some b ∧ b ≠ 60 := ht.elim (·.angle) (fun h e => absurd e h.2)
  unfold templateArgs
  simp only [bindP, h.cur hf, Res.ok_bind, isAngle_run ha, iteP, Bool.false_eq_true, if_false, pureP]

theorem IdTok.fmt {c : Bytes} (h : IdTok c t x) : isFmt t = false := isFmt_of_type h.1.type (by decide) (by decide)

theorem TokIs.first (h : TokIs e.mem t ty fl x) (hx : x ≠ []) {s : St} : ∃ b, x[0]? = some b ∧ Parse.chr t 0 e s = Res.ok (b, s) := by
  cases x with
  | nil => exact absurd rfl hx
  | cons b x => exact ⟨b, rfl, h.chr rfl⟩

theorem foldl_span {a : Nat} {n : Txt} (hn : n.start = a) : ∀ l : List (Tok × Tok),
    l.foldl (fun (n : Txt) (p : Tok × Tok) => span n.start p.2) n = match l.getLast? with | none => n | some u => span a u.2
  | [] => rfl
  | [u] => by simp [hn]
  | u :: v :: l => by
    rw [List.foldl_cons, foldl_span (a := a) (n := span n.start u.2) hn (v :: l), List.getLast?_cons_cons]
    cases hq : (v :: l).getLast? with
    | none => rw [List.getLast?_eq_none_iff] at hq; cases hq
    | some _ => rfl

theorem foldl_start (n : Txt) (l : List (Tok × Tok)) : (l.foldl (fun (n : Txt) (p : Tok × Tok) => span n.start p.2) n).start = n.start := by
  induction l generalizing n with
  | nil => rfl
  | cons u l ih => rw [List.foldl_cons, ih]; rfl

/-- A name is parsed to its end; its text goes from the first token to the last. -/
theorem identifier_parts {f : Tok} {l : List (Tok × Tok)} {y : Bytes} (hf : IdTok e.mem f y) (hl : Parts e.mem l)
    (h : Here e s (f :: l.flatMap partToks ++ t :: more) rest) (ht : NameEnds e.mem t) {x : Bytes} (hx : Spans e.mem (f :: l.flatMap partToks) x) :
    identifier e s = .ok ((⟨f.start, x.length⟩, .Identifier), ⟨s.idx + (f :: l.flatMap partToks).length, s.heap, s.scope⟩) := by
  obtain ⟨acc, hacc⟩ := asIdentifier_ok y e (s := ⟨s.idx, s.heap, b!"parse_identifier" :: s.scope⟩)
  have h0 := h.heap s.heap (b!"parse_identifier" :: s.scope)
  refine inScope_run ?_ rfl
  rw [List.cons_append] at h0
  refine bind_run (h0.cur hf.fmt) ?_
  refine bind_run hf.1.bytesP ?_
  refine bind_run hacc ?_
  refine bind_run (h0.check hf.fmt _) ?_
  have heat := h0.eat
  rw [hf.1.type] at heat
  simp only [hf.1.type, decide_true, true_or, if_true]
  refine bind_run heat ?_
  have hn : ∀ {l : List (Tok × Tok)}, Parts e.mem l → ∀ {s : St}, Here e s (l.flatMap partToks ++ t :: more) rest →
      ∀ name : Txt, templateArgs name e s = .ok (name, s) := by
    intro l hl s h name
    cases l with
    | nil => exact templateArgs_run h (.inl ht)
    | cons p l =>
      have hd := (hl p List.mem_cons_self).1
      exact templateArgs_run (t := p.1) h (.inr ⟨isFmt_of_type hd (by decide) (by decide), by rw [hd]; decide⟩)
  have h1 := h0.tail
  refine bind_run (hn hl h1 _) ?_
  have hend : l.foldl (fun (n : Txt) (p : Tok × Tok) => span n.start p.2) (Txt.of f) = ⟨f.start, x.length⟩ := by
    rw [foldl_span (a := f.start) rfl]
    obtain ⟨f', u, hf', hu, hlen, -⟩ := hx.text
    cases hf'
    cases hq : l.getLast? with
    | none =>
      rw [List.getLast?_eq_none_iff] at hq
      subst hq
      simp only [List.flatMap_nil, List.getLast?_singleton, Option.some.injEq] at hu
      subst hu
      simp only [Txt.of, Txt.mk.injEq, true_and]
      omega
    | some p =>
      obtain ⟨ys, rfl⟩ := List.getLast?_eq_some_iff.1 hq
      have : u = p.2 := by
        simp [partToks, List.getLast?_cons, List.getLast?_append] at hu
        exact hu.symm
      subst this
      simp only [span, Txt.mk.injEq, true_and]
      exact hlen
  refine bind_run (s' := ⟨s.idx + (f :: l.flatMap partToks).length, s.heap, b!"parse_identifier" :: s.scope⟩) (a := ⟨f.start, x.length⟩) ?_ ?_
  · have hidx : (St.adv ⟨s.idx, s.heap, b!"parse_identifier" :: s.scope⟩ 1).adv (l.flatMap partToks).length =
        ⟨s.idx + (f :: l.flatMap partToks).length, s.heap, b!"parse_identifier" :: s.scope⟩ := by
      rw [St.adv_adv, List.length_cons, Nat.add_comm 1]
      rfl
    rw [← hend, ← hidx]
    refine loop_items (toks := partToks) ?_ ?_ ?_ h1
    · rintro pre ⟨d, u⟩ l' s hp h
      obtain ⟨hd, y, hu⟩ := hl (d, u) (by rw [hp]; simp)
      replace hd : d.type = .Access_StaticSymbol := hd
      replace hu : IdTok e.mem u y := hu
      have hdf := isFmt_of_type hd (by decide) (by decide)
      have h' : Here e s (d :: u :: (l'.flatMap partToks ++ t :: more)) rest := h
      have heat := h'.eat
      rw [hd] at heat
      have heat2 := h'.tail.eat
      rw [hu.1.type] at heat2
      obtain ⟨b, -, hb⟩ := hu.1.first hu.2 (s := s.adv 1)
      refine bind_run (h'.check hdf _) ?_
      simp only [hd, decide_true, if_true]
      refine bind_run heat ?_
      refine bind_run h'.tail.left ?_
      simp only [Bool.not_true, Bool.false_eq_true, if_false]
      refine bind_run (h'.tail.cur hu.fmt) ?_
      refine bind_run hb ?_
      simp only [hu.1.type, reduceCtorEq, false_and, if_false]
      refine bind_run hb ?_
      simp only [ne_eq, not_true_eq_false, if_false]
      refine bind_run heat2 ?_
      refine bind_run (hn (fun p hp' => hl p (by rw [hp]; simp [hp'])) h'.tail.tail _) ?_
      rfl
    · intro s h
      refine bind_run (h.check ht.fmt _) ?_
      simp only [ht.colons, decide_false, Bool.false_eq_true, if_false]
      rfl
    · intro i _
      exact List.cons_ne_nil _ _
  · rfl

/-! ## Names of types -/

theorem nativeName_run {f : Tok} {l : List Tok} (hf : nativeType f.type = true) (hl : ∀ u ∈ l, nativeType u.type = true)
    (h : Here e s (f :: l ++ t :: more) rest) (ht : isFmt t = false) (hn : nativeType t.type = false) {x : Bytes} (hx : Spans e.mem (f :: l) x) :
    nativeName e s = .ok (x, s.adv (f :: l).length) := by
  have hfmt : ∀ {u : Tok}, nativeType u.type = true → isFmt u = false := by
    intro u hu
    refine isFmt_of_type rfl ?_ ?_ <;> intro e <;> rw [e] at hu <;> cases hu
  unfold nativeName
  rw [List.cons_append] at h
  refine bind_run (h.cur (hfmt hf)) ?_
  refine bind_run h.eat ?_
  have hidx : (s.adv 1).adv (l.flatMap fun u => [u]).length = s.adv (f :: l).length := by
    rw [St.adv_adv, List.length_cons, Nat.add_comm 1]
    simp
  refine bind_run (s' := s.adv (f :: l).length) (a := ()) ?_ ?_
  · rw [← hidx]
    refine loop_items (toks := fun u => [u]) (nx := fun _ _ => ()) (items := l) (tail := t :: more) (rest := rest) ?_ ?_ (fun _ _ => List.cons_ne_nil _ _) ?_
    · intro pre u l' s hp h
      have hu := hl u (by rw [hp]; simp)
      have h' : Here e s (u :: (l'.flatMap (fun u => [u]) ++ t :: more)) rest := h
      refine bind_run (h'.leftAnd (hfmt hu) _) ?_
      simp only [hu, if_true]
      refine bind_run (s' := s.adv 1) (a := ()) (bind_run (h'.cur (hfmt hu)) h'.eat) ?_
      rfl
    · intro s h
      refine bind_run (h.leftAnd ht _) ?_
      simp only [hn, Bool.false_eq_true, if_false]
      rfl
    · simpa using h.tail
  · refine bind_run (upToPrev_run (by simpa using h) hx rfl) ?_
    exact spanBytes hx

theorem QualToks.first {c : Bytes} {ns : List Tok} (h : QualToks c x ns) : ∃ f l y, ns = f :: l ∧ IdTok c f y := by
  obtain ⟨hf, -, -, -⟩ := h
  exact ⟨_, _, _, rfl, hf⟩

theorem identifier_run {ns : List Tok} (hq : QualToks e.mem x ns) (h : Here e s (ns ++ t :: more) rest) (ht : NameEnds e.mem t) :
    ∃ f l, ns = f :: l ∧ Spans e.mem (f :: l) x ∧ identifier e s = .ok ((⟨f.start, x.length⟩, .Identifier), ⟨s.idx + ns.length, s.heap, s.scope⟩) := by
  obtain ⟨hf, hl, hx, hne⟩ := hq
  exact ⟨_, _, rfl, hx, identifier_parts hf hl h ht hx⟩

theorem builtin_iff {ty : TokType} : ty ∈ builtinTypes ↔ nativeType ty = true := by cases ty <;> decide

theorem native_other {ty : TokType} (h : nativeType ty = true) : tagOf ty = 0 ∧ ty ≠ .Decl_Class := by
  revert h
  cases ty <;> decide

theorem Here.adv' (s : St) (n : Nat) : (⟨s.idx + n, s.heap, s.scope⟩ : St) = s.adv n := rfl

/-- The first token of a name. -/
theorem NameToks.first {c : Bytes} {ns : List Tok} (h : NameToks c x ns) : ∃ f l, ns = f :: l ∧ isFmt f = false ∧ f.flags = 0 := by
  cases h with
  | ident hq => obtain ⟨f, l, y, rfl, hf⟩ := hq.first; exact ⟨f, l, rfl, hf.fmt, hf.1.flags⟩
  | @native f l hf h0 =>
    have hf := builtin_iff.1 (hf f List.mem_cons_self)
    exact ⟨_, _, rfl, isFmt_of_type rfl (by intro e; rw [e] at hf; cases hf) (by intro e; rw [e] at hf; cases hf), h0⟩

theorem typeName_run {tmpl : Bool} {ns : List Tok} (hn : NameToks e.mem x ns) (h : Here e s (ns ++ t :: more) rest) (ht : NameEnds e.mem t)
    (hnat : nativeType t.type = false) : typeName tmpl e s = .ok ((x, 0), s.adv ns.length) := by
  unfold typeName
  cases hn with
  | ident hq =>
    have hne : x ≠ [] := by cases hq; assumption
    obtain ⟨f, l, hfl, hx, hid⟩ := identifier_run hq h ht
    obtain ⟨f', l', y, hfl', hf⟩ := hq.first
    obtain ⟨rfl, rfl⟩ := List.cons.inj (hfl.symm.trans hfl')
    subst hfl
    have hty := hf.1.type
    refine bind_run (Here.cur (by rw [List.cons_append] at h; exact h) hf.fmt) ?_
    simp only [hty, reduceCtorEq, and_false, if_false, tagOf, ne_eq, not_true_eq_false, nativeType, Bool.false_eq_true]
    refine bind_run (s' := s.adv (f :: l).length) (a := x) ?_ rfl
    unfold validIdentifier
    refine bind_run hid ?_
    have hv : valid ⟨f.start, x.length⟩ .Identifier = true := by
      unfold valid
      have := List.length_pos_iff.2 hne
      refine decide_eq_true ⟨?_, by decide⟩
      simp only
      omega
    simp only [hv, if_true]
    exact spanBytes hx
  | @native f l hf h0 hx hne =>
    have hl : ∀ u ∈ l, nativeType u.type = true := fun u hu => builtin_iff.1 (hf u (List.mem_cons_of_mem _ hu))
    have hf := builtin_iff.1 (hf f List.mem_cons_self)
    obtain ⟨h1, h2⟩ := native_other hf
    have hfmt : isFmt f = false := isFmt_of_type rfl (by intro e; rw [e] at hf; cases hf) (by intro e; rw [e] at hf; cases hf)
    refine bind_run (Here.cur (by rw [List.cons_append] at h; exact h) hfmt) ?_
    simp only [h2, and_false, if_false, h1, ne_eq, not_true_eq_false, hf, if_true]
    exact bind_run (nativeName_run hf hl h ht.fmt hnat hx) rfl

/-! ## Types -/

/-- The specifiers in slot `q` are `l`, made between `a` and `b`. -/
def SpecsIn (a b : Nat) (h : Heap) (q : Nat) (l : List Specifier) : Prop := if l = [] then q = 0 else a ≤ q ∧ q < b ∧ IsSpecs h q l

theorem specsOf_run {l : List Specifier} (hn : 0 < s.heap.next) (hl : l.length ≤ 14) :
    ∃ q h', specsOf l e s = .ok (q, ⟨s.idx, h', s.scope⟩) ∧ Kept s.heap h' ∧ s.heap.next ≤ h'.next ∧ SpecsIn s.heap.next h'.next h' q l := by
  unfold specsOf
  by_cases h0 : l = []
  · subst h0
    exact ⟨0, s.heap, rfl, Kept.refl _, Nat.le_refl _, by unfold SpecsIn; rw [if_pos rfl]⟩
  · obtain ⟨h', h1, h2, -, h4⟩ := C29_def_specifiers e.cfg hn l h0 hl
    refine ⟨s.heap.next, h', ?_, h4, Nat.le_of_lt h2.valid.2, ?_⟩
    · rw [iteP, if_neg h0]
      show (defSpecifiers e.cfg s.heap l).bind _ = _
      rw [h1]
      rfl
    · unfold SpecsIn
      rw [if_neg h0]
      exact ⟨Nat.le_refl _, h2.valid.2, h2⟩

/-- The node of a type. -/
structure IsType (a b : Nat) (h : Heap) (p : Nat) (name : Bytes) (l : List Specifier) (body : Nat) : Prop where
  lo : a ≤ p
  hi : p < b
  cell : ∃ q, h.cell p = { type := .Typename, name := name, specs := q, body := body } ∧ SpecsIn (p + 1) b h q l

/-- The heap with one more node. -/
def grown (h : Heap) (n : Node) : Heap := { next := h.next + 1, cell := fun q => if q = h.next then n else h.cell q }

/-- The heap with another node `p`. -/
def changed (h : Heap) (p : Nat) (n : Node) : Heap := { h with cell := fun q => if q = p then n else h.cell q }

theorem make_run (hn : 0 < s.heap.next) (n : Node) : make n e s = .ok (s.heap.next, ⟨s.idx, grown s.heap n, s.scope⟩) := by
  show (finish s.heap.make.2 s.heap.next n).bind _ = _
  rw [finish_eq hn]
  rfl

theorem upd_run {p : Nat} {f : Node → Node} (hv : s.heap.Valid p) :
    change (fun h => h.upd p f) e s = .ok ((), ⟨s.idx, changed s.heap p (f (s.heap.cell p)), s.scope⟩) := by
  show (s.heap.upd p f).bind _ = _
  rw [upd_ok hv]
  rfl

theorem kept_grown (h : Heap) (n : Node) : Kept h (grown h n) := fun q v => ⟨⟨v.1, Nat.lt_succ_of_lt v.2⟩, if_neg (Nat.ne_of_lt v.2)⟩

theorem kept_changed {h g : Heap} {p : Nat} {n : Node} (hk : Kept h g) (hp : h.next ≤ p) : Kept h (changed g p n) := fun q v => by
  obtain ⟨v1, e1⟩ := hk q v
  refine ⟨v1, ?_⟩
  have : q ≠ p := by have := v.2; omega
  simp only [changed, if_neg this, e1]

theorem IsSpecs.congr {h g : Heap} {p : Nat} {l : List Specifier} (hs : IsSpecs h p l) (hv : g.Valid p) (hc : g.cell p = h.cell p) : IsSpecs g p l :=
  ⟨hv, by rw [hc]; exact hs.count, by rw [hc]; exact hs.cap, by rw [hc]; exact hs.holds, hs.fits⟩

/-- Between `a` and `b` the nodes are the same. -/
def Agree (a b : Nat) (h g : Heap) : Prop := ∀ q, a ≤ q → q < b → g.Valid q ∧ g.cell q = h.cell q

theorem agree_changed {a b p : Nat} {h : Heap} {n : Node} (h0 : 0 < a) (hb : b ≤ h.next) (hp : p < a ∨ b ≤ p) : Agree a b h (changed h p n) := fun q h1 h2 => by
  refine ⟨⟨by omega, Nat.lt_of_lt_of_le h2 hb⟩, ?_⟩
  have : q ≠ p := by omega
  simp only [changed, if_neg this]

theorem agree_kept {a b : Nat} {h g : Heap} (h0 : 0 < a) (hb : b ≤ h.next) (hk : Kept h g) : Agree a b h g := fun q h1 h2 =>
  hk q ⟨by omega, Nat.lt_of_lt_of_le h2 hb⟩

theorem Agree.trans {a b : Nat} {h g k : Heap} (h1 : Agree a b h g) (h2 : Agree a b g k) : Agree a b h k := fun q ha hb =>
  ⟨(h2 q ha hb).1, (h2 q ha hb).2.trans (h1 q ha hb).2⟩

theorem Agree.mono {a b a' b' : Nat} {h g : Heap} (hh : Agree a b h g) (h1 : a ≤ a') (h2 : b' ≤ b) : Agree a' b' h g := fun q ha hb => hh q (by omega) (by omega)

theorem SpecsIn.agree {a b a' b' : Nat} {h g : Heap} {q : Nat} {l : List Specifier} (hs : SpecsIn a b h q l) (ha : Agree a b h g) (h1 : a' ≤ a) (h2 : b ≤ b') :
    SpecsIn a' b' g q l := by
  unfold SpecsIn at *
  split
  · rwa [if_pos ‹_›] at hs
  · rw [if_neg ‹_›] at hs
    obtain ⟨h3, h4, h5⟩ := hs
    obtain ⟨h6, h7⟩ := ha q h3 h4
    exact ⟨Nat.le_trans h1 h3, Nat.lt_of_lt_of_le h4 h2, IsSpecs.congr h5 h6 h7⟩

theorem IsType.agree {a b : Nat} {h g : Heap} {p : Nat} {name : Bytes} {l : List Specifier} {body : Nat} (ht : IsType a b h p name l body) (ha : Agree a b h g) :
    IsType a b g p name l body := by
  obtain ⟨h1, h2, q, h3, h4⟩ := ht
  exact ⟨h1, h2, q, (ha p h1 h2).2.trans h3, h4.agree (ha.mono (by omega) (Nat.le_refl _)) (Nat.le_refl _) (Nat.le_refl _)⟩

theorem typePrefix_const {l : List Specifier} (h : ∀ x ∈ l, x = Specifier.Const) : ∀ x ∈ l, typePrefix x = some (some true) := by
  intro x hx
  rw [h x hx]
  rfl

theorem typeSuffix_ok {l : List Specifier} (h : ∀ x ∈ l, x ∈ typeSuffixes) : ∀ x ∈ l, typeSuffix x = some (some true) := by
  intro x hx
  have := h x hx
  simp only [typeSuffixes, List.mem_cons, List.not_mem_nil, or_false] at this
  rcases this with rfl | rfl | rfl | rfl | rfl <;> rfl

theorem SpecToks.cases' {c : Bytes} {l : List Specifier} {ts : List Tok} (h : SpecToks c l ts) {tl : List Tok} {f : Tok} {tl' : List Tok} (ht : tl = f :: tl')
    (hf : isFmt f = false) (h0 : has f Lex.fAttribute = false) : ∃ g l', ts ++ tl = g :: l' ∧ isFmt g = false ∧ has g Lex.fAttribute = false := by
  cases h with
  | nil => exact ⟨f, tl', by rw [ht]; rfl, hf, h0⟩
  | @cons x l t ts hx _ =>
    refine ⟨t, ts ++ tl, rfl, specTok_fmt x hx.type, ?_⟩
    unfold has
    rw [hx.flags]
    cases x <;> decide

theorem functionType_none {td : Bool} (h : Here e s (t :: more) rest) (ht : Ends e.mem t)
    (hd : td = true → ∃ u, (more ++ rest).head? = some u ∧ u.type ≠ .Paren_Open) : functionType td e s = .ok (none, s) := by
  have hc : e.cells[s.idx]? = some t := drop_get (by rw [h.cells]; rfl)
  have ha : tokAt s.idx e s = .ok (t, s) := by
    unfold tokAt
    rw [hc]
    rfl
  unfold functionType
  refine bind_run (envP e s) ?_
  refine bind_run (getP e s) ?_
  refine bind_run ha ?_
  by_cases hb : td = true ∧ t.type = .Identifier
  · simp only [hb, and_self, if_true]
    refine bind_run (pureP (s.idx + 1) e s) ?_
    obtain ⟨u, hu1, hu2⟩ := hd hb.1
    have : tokAt (s.idx + 1) e s = .ok (u, s) := by
      unfold tokAt
      rw [← List.getElem?_drop, h.cells]
      show Res.bind (Res.ofOption (more ++ rest)[0]?) _ = _
      rw [← List.head?_eq_getElem?, hu1]
      rfl
    refine bind_run this ?_
    simp only [ne_eq, hu2, not_false_eq_true, if_true]
    rfl
  · simp only [hb, if_false]
    refine bind_run (pureP s.idx e s) ?_
    refine bind_run ha ?_
    simp only [ne_eq, ht.paren, not_false_eq_true, if_true]
    rfl

/-- A type is parsed to its end: one node for it, one for its specifiers. -/
theorem typeWith_runs {params : Bool → P Nat} {tmpl td : Bool} {l : List Specifier} {name : Bytes} (hT : TypeToks e.mem l name ts)
    (h : Here e s (ts ++ t :: more) rest) (ht : Ends e.mem t) (hd : td = true → ∃ u, (more ++ rest).head? = some u ∧ u.type ≠ .Paren_Open) (hn : 0 < s.heap.next) :
    ∃ h', typeWith params tmpl td e s = .ok ((s.heap.next, false), ⟨s.idx + ts.length, h', s.scope⟩) ∧ Kept s.heap h' ∧ s.heap.next < h'.next ∧
      IsType s.heap.next h'.next h' s.heap.next name l 0 := by
  obtain ⟨hp1, hp2, hns, ⟨w, g, hw, hg, hraw, hname⟩, hq1, hq2, hlen⟩ := hT
  rename_i pre post ps ns qs raw
  have hst : Strip.strip raw = .ok name := by rw [hraw, hname]; exact (Strip.C55_words hw hg).1
  have h0 := h.heap s.heap (b!"parser_parse_type" :: s.scope)
  obtain ⟨f, l', hfl, hff, hf0⟩ := hns.first
  have hfa : has f Lex.fAttribute = false := by unfold has; rw [hf0]; rfl
  have hfs : has f Lex.fSpecifier = false := by unfold has; rw [hf0]; rfl
  rw [List.append_assoc, List.append_assoc] at h0
  obtain ⟨g, gl, hg, hgf, hga⟩ := hp1.cases' (tl := ns ++ (qs ++ t :: more)) (f := f) (tl' := l' ++ (qs ++ t :: more)) (by rw [hfl]; rfl) hff hfa
  have h1 : Here e ((St.mk s.idx s.heap (b!"parser_parse_type" :: s.scope)).adv ps.length) (ns ++ (qs ++ t :: more)) rest := h0.advN
  have h2 := h1.advN
  have h3 := h2.advN
  obtain ⟨u, ul, hu, hun, hus⟩ : ∃ u ul, qs ++ t :: more = u :: ul ∧ NameEnds e.mem u ∧ nativeType u.type = false := by
    cases hq1 with
    | nil => exact ⟨t, more, rfl, ht.name, ht.native⟩
    | @cons x _ v vs hv _ =>
      refine ⟨v, _, rfl, ⟨specTok_fmt x hv.type, ?_, ?_⟩, ?_⟩
      · rw [hv.type]; cases x <;> decide
      · rw [hv.type]; intro he; exact absurd he (by cases x <;> decide)
      · rw [hv.type]; cases x <;> decide
  have r2 : specifiersLoop typePrefix [] e ⟨s.idx, s.heap, b!"parser_parse_type" :: s.scope⟩ = .ok (pre, (St.mk s.idx s.heap (b!"parser_parse_type" :: s.scope)).adv ps.length) := by
    have h0' := h0
    rw [hfl] at h0'
    exact specifiersLoop_run hp1 (typePrefix_const hp2) h0' ⟨hff, .inl hfs⟩ (found := []) (by rw [List.length_nil]; omega)
  have r3 : typeName tmpl e ((St.mk s.idx s.heap (b!"parser_parse_type" :: s.scope)).adv ps.length) =
      .ok ((raw, 0), ((St.mk s.idx s.heap (b!"parser_parse_type" :: s.scope)).adv ps.length).adv ns.length) := by
    have h1' := h1
    rw [hu] at h1'
    exact typeName_run hns h1' hun hus
  have r4 := specifiersLoop_run hq1 (typeSuffix_ok hq2) h2 ⟨ht.fmt, .inl ht.spec⟩ (found := pre) (by omega)
  have hidx : (((St.mk s.idx s.heap (b!"parser_parse_type" :: s.scope)).adv ps.length).adv ns.length).adv qs.length =
      ⟨s.idx + (ps ++ ns ++ qs).length, s.heap, b!"parser_parse_type" :: s.scope⟩ := by
    rw [St.adv_adv, St.adv_adv, List.length_append, List.length_append, Nat.add_assoc]
    rfl
  rw [hidx] at h3 r4
  obtain ⟨q, h', hq, hk, hle, hin⟩ := specsOf_run (e := e) (s := ⟨s.idx + (ps ++ ns ++ qs).length, grown s.heap { type := .Typename }, b!"parser_parse_type" :: s.scope⟩)
    (l := pre ++ post) (Nat.succ_pos _) (by rw [List.length_append]; exact hlen)
  have hv : h'.Valid s.heap.next := (hk s.heap.next ⟨hn, Nat.lt_succ_self _⟩).1
  have hcell : h'.cell s.heap.next = { type := .Typename } := by
    rw [(hk s.heap.next ⟨hn, Nat.lt_succ_self _⟩).2]
    simp [grown]
  refine ⟨changed h' s.heap.next { type := .Typename, name := name, specs := q }, inScope_run (sc := b!"parser_parse_type" :: s.scope) ?_ rfl, ?_, ?_, ?_⟩
  · rw [hg] at h0
    refine bind_run (h0.attributes hgf hga) ?_
    refine bind_run r2 ?_
    refine bind_run (by rw [hfl] at h1; exact h1.left) ?_
    simp only [Bool.not_true, Bool.false_eq_true, if_false]
    refine bind_run r3 ?_
    refine bind_run r4 ?_
    refine bind_run (functionType_none h3 ht hd) ?_
    refine bind_run (pureP _ _ _) ?_
    refine bind_run (h3.check ht.fmt _) ?_
    simp only [ht.dots, decide_false, Bool.false_eq_true, if_false]
    refine bind_run (make_run (s := ⟨s.idx + (ps ++ ns ++ qs).length, s.heap, b!"parser_parse_type" :: s.scope⟩) hn _) ?_
    refine bind_run (a := name) (s' := ⟨s.idx + (ps ++ ns ++ qs).length, grown s.heap { type := .Typename }, b!"parser_parse_type" :: s.scope⟩) ?_ ?_
    · unfold stripped P.res
      rw [hst]
      rfl
    · refine bind_run hq ?_
      refine bind_run (upd_run hv) ?_
      rw [hcell]
      rfl
  · exact kept_changed ((kept_grown _ _).trans hk) (Nat.le_refl _)
  · exact hv.2
  · refine ⟨Nat.le_refl _, hv.2, q, ?_, ?_⟩
    · simp [changed]
    · refine hin.agree (fun i hi1 hi2 => ⟨⟨by have : s.heap.next + 1 ≤ i := hi1; omega, hi2⟩, ?_⟩) (Nat.le_refl _) (Nat.le_refl _)
      have : i ≠ s.heap.next := by have : s.heap.next + 1 ≤ i := hi1; omega
      simp only [changed, if_neg this]

theorem typeWith_run {params : Bool → P Nat} {tmpl : Bool} {l : List Specifier} {name : Bytes} (hT : TypeToks e.mem l name ts)
    (h : Here e s (ts ++ t :: more) rest) (ht : Ends e.mem t) (hn : 0 < s.heap.next) :
    ∃ h', typeWith params tmpl false e s = .ok ((s.heap.next, false), ⟨s.idx + ts.length, h', s.scope⟩) ∧ Kept s.heap h' ∧ s.heap.next < h'.next ∧
      IsType s.heap.next h'.next h' s.heap.next name l 0 :=
  typeWith_runs hT h ht (by intro hh; cases hh) hn

end Verif.Parse
