import Verif.Props.DefPrint2
import Verif.Props.Bodies
/-!
# Property C49: define, then print — bodies and classes
-/
namespace Verif.Ser
open Ast

/-- The nodes a node refers to, other than its parent. -/
def slots (n : Node) : List Nat := [n.inlineCmt, n.attributes, n.specs, n.typ, n.params, n.body, n.suffix, n.front, n.back]

/-- No node refers to any of the nodes `es` (but for parents). -/
def Loose (h : Heap) (es : List Nat) : Prop := ∀ q, h.Valid q → ∀ s ∈ slots (h.cell q), s ∉ es

theorem payload_eq {n m : Node} (h : n.payload = m.payload) : n = { m with parent := n.parent, front := n.front, back := n.back } := by
  cases n; cases m
  simp only [Node.payload, Node.mk.injEq] at h ⊢
  obtain ⟨h0, h1, h2, h3, h4, h5, h6, h7, h8, h9, h10, h11, h12, h13, h14, h15, h16⟩ := h
  simp_all

/-- Appending new nodes, each once: the body holds them, and the others are as before. -/
theorem appendAll_new (fuel b : Nat) : ∀ (os : List Nat) (h : Heap) (l : List Nat), IsBody h b l → os.Nodup → (∀ o ∈ os, o ∉ l) →
    (∀ o ∈ os, h.Valid o ∧ o ≠ b ∧ isBodyType (h.cell o).type = false ∧ (h.cell o).parent = 0) →
    ∃ h', appendAll fuel h b os = .ok h' ∧ IsBody h' b (l ++ os) ∧ h.next ≤ h'.next ∧ (h'.cell b).type = (h.cell b).type ∧
      (∀ q, h.Valid q → q ≠ b → q ∉ l → q ∉ os → h'.cell q = h.cell q) ∧
      (∀ q, h.Valid q → q ≠ b → (h'.cell q).payload = (h.cell q).payload)
  | [], h, l, hb, _, _, _ => ⟨h, rfl, by simpa using hb, Nat.le_refl _, rfl, fun _ _ _ _ _ => rfl, fun _ _ _ => rfl⟩
  | o :: os, h, l, hb, hd, hl, ho => by
    obtain ⟨vo, hob, ht, hpar⟩ := ho o List.mem_cons_self
    obtain ⟨h1, o1, e1, hb1, ha⟩ := append_spec hb vo hob
    have ho1 : o1 = o := by rw [ha.fresh, if_pos hpar]
    subst ho1
    have hval : ∀ q, h.Valid q → h1.Valid q := fun q w => ⟨w.1, Nat.lt_of_lt_of_le w.2 ha.grow⟩
    have hnd := List.nodup_cons.1 hd
    have hfr : ∀ q, h.Valid q → q ≠ b → q ∉ l → q ≠ o1 → h1.cell q = h.cell q := by
      intro q w hq hql hqo
      rw [ha.frame q w hq hqo, if_neg (fun hc => hql (List.mem_of_getLast? hc))]
    obtain ⟨h2, f1, f2, f3, f4, f5, f6⟩ := appendAll_new fuel b os h1 (l ++ [o1]) hb1 hnd.2 (fun x hx => by
        rw [List.mem_append, List.mem_singleton]
        rintro (hc | hc)
        · exact hl x (List.mem_cons_of_mem _ hx) hc
        · exact hnd.1 (hc ▸ hx)) (fun x hx => by
      obtain ⟨v, w, t, z⟩ := ho x (List.mem_cons_of_mem _ hx)
      exact ⟨hval x v, w, by rw [payload_type (ha.same x v w)]; exact t, by
        rw [hfr x v w (hl x (List.mem_cons_of_mem _ hx)) (fun hc => hnd.1 (hc ▸ hx))]; exact z⟩)
    refine ⟨h2, ?_, by simpa using f2, Nat.le_trans ha.grow f3, ?_, ?_, ?_⟩
    · rw [appendAll, bodyAppend_plain (Nat.ne_of_gt hb.valid.1) vo ht, e1, Res.ok_bind, f1]
    · rw [f4]
      have := congrArg Node.type ha.bodyPayload.1
      exact this
    · intro q w hq hql hqo
      have hqo' : q ≠ o1 := fun hc => hqo (hc ▸ List.mem_cons_self)
      rw [f5 q (hval q w) hq (by simp [hql, hqo']) (fun hc => hqo (List.mem_cons_of_mem _ hc)), hfr q w hq hql hqo']
    · intro q w hq
      rw [f6 q (hval q w) hq, ha.same q w hq]

/-- An entry that can be printed anywhere: a new node, neither a constructor or destructor nor a body or parameter list. -/
structure NewEntry (e : Env) (k : BodyKind) (q : Nat) : Prop where
  valid : e.h.Valid q
  parent : (e.h.cell q).parent = 0
  kind : printsLinks (e.h.cell q).type = false
  ctor : ¬ isCtor (e.h.cell q).type
  dtor : ¬ isDtor (e.h.cell q).type
  allowed : ¬ Refused k (e.h.cell q).type

/-- C49: a body is printed as its entries one after the other, and nodes that are not entries stay as they are. -/
theorem C49_def_body (fuel : Nat) (c : Cfg) {e : Env} (hn : 0 < e.h.next) {k : BodyKind} {es : List Nat} {ts : List Bytes} (hk : k ≠ .export)
    (h0 : es ≠ []) (hd : es.Nodup) (hes : ∀ q ∈ es, NewEntry e k q) (hfree : Loose e.h es)
    (hctor : ∀ q, e.h.Valid q → isCtor (e.h.cell q).type → (e.h.cell q).parent ∉ es) (hp : PrintAll e .code es ts) :
    ∃ h', defKindBody fuel c e.h k es = .ok (e.h.next, h') ∧ (h'.cell e.h.next).type = k.type ∧
      Prints (e.on h') .body e.h.next ts.flatten ∧ Prints (e.on h') .code e.h.next ts.flatten ∧
      (∀ q, e.h.Valid q → h'.Valid q ∧ (q ∉ es → h'.cell q = e.h.cell q)) := by
  have notbody : ∀ q ∈ es, isBodyType (e.h.cell q).type = false := by
    intro q hq
    have := (hes q hq).kind
    unfold printsLinks at this
    simp only [Bool.or_eq_false_iff] at this
    exact this.1.1
  have hb := isBody_new hn k.type
  have same : ∀ q, e.h.Valid q → (if q = e.h.next then ({ type := k.type } : Node) else e.h.cell q) = e.h.cell q :=
    fun q v => if_neg (Nat.ne_of_lt v.2)
  obtain ⟨h', f1, f2, f3, f4, f5, f6⟩ := appendAll_new fuel e.h.next es _ [] hb hd (fun _ _ => List.not_mem_nil) (fun q hq => by
    have v := (hes q hq).valid
    refine ⟨⟨v.1, Nat.lt_succ_of_lt v.2⟩, Nat.ne_of_lt v.2, ?_, ?_⟩
    · simp only; rw [same q v]; exact notbody q hq
    · simp only; rw [same q v]; exact (hes q hq).parent)
  have hvalid : ∀ q, e.h.Valid q → h'.Valid q := fun q v => ⟨v.1, Nat.lt_of_lt_of_le v.2 (Nat.le_trans (Nat.le_succ _) f3)⟩
  have hcell : ∀ q, e.h.Valid q → q ∉ es → h'.cell q = e.h.cell q := fun q v hq => by
    rw [f5 q ⟨v.1, Nat.lt_succ_of_lt v.2⟩ (Nat.ne_of_lt v.2) List.not_mem_nil hq]
    exact same q v
  have hpay : ∀ q, e.h.Valid q → (h'.cell q).payload = (e.h.cell q).payload := fun q v => by
    rw [f6 q ⟨v.1, Nat.lt_succ_of_lt v.2⟩ (Nat.ne_of_lt v.2)]
    simp only; rw [same q v]
  rw [List.nil_append] at f2
  have hty : (h'.cell e.h.next).type = k.type := by rw [f4]; simp
  have hst : ∀ q, SameType e (e.on h') q := fun q v => by
    refine ⟨hvalid q v, payload_type (hpay q v), ?_⟩
    have := congrArg Node.name (hpay q v)
    exact this
  have h0es : 0 ∉ es := fun h => absurd (hes 0 h).valid.1 (Nat.lt_irrefl 0)
  have hnt : Neutral (e.on h') e.h.next := .inr ⟨f2.valid, by rw [show (e.on h').h = h' from rfl, hty]; cases k <;> decide,
    by rw [show (e.on h').h = h' from rfl, hty]; cases k <;> decide⟩
  have F : Frame e (e.on h') (fun q => q ∉ es) := by
    refine ⟨rfl, h0es, fun q _ v => hvalid q v, fun q hq v => ⟨(e.h.cell q).parent, hcell q v hq, ?_⟩, fun q _ v => hfree q v _ (by simp [slots]),
      fun q _ v => hfree q v _ (by simp [slots])⟩
    refine ⟨rfl, hfree q v _ (by simp [slots]), hfree q v _ (by simp [slots]), hfree q v _ (by simp [slots]), hfree q v _ (by simp [slots]),
      hfree q v _ (by simp [slots]), hfree q v _ (by simp [slots]), hfree q v _ (by simp [slots]), .inl ⟨rfl, hst _⟩, fun _ => ⟨rfl, hst _, rfl⟩,
      fun hc => ⟨rfl, fun hv => ⟨hvalid _ hv, ?_, hst _⟩⟩⟩
    rw [show (e.on h').h = h' from rfl, hcell _ hv (hctor q v hc)]
  have top : ∀ q ∈ es, ∀ t, Prints e .code q t → Prints (e.on h') .code q t := by
    rintro q hq t ⟨fuel', hpr⟩
    have E := hes q hq
    have v := E.valid
    refine ⟨fuel', ser_top F (q := q) (n := e.h.cell q) (x := e.h.next) (f := (h'.cell q).front) (b := (h'.cell q).back) ?_ fuel' .code E.kind
      ⟨by decide, by decide⟩ _ _ hpr⟩
    refine ⟨⟨rfl, hfree q v _ (by simp [slots]), hfree q v _ (by simp [slots]), hfree q v _ (by simp [slots]), hfree q v _ (by simp [slots]),
      hfree q v _ (by simp [slots]), hfree q v _ (by simp [slots]), hfree q v _ (by simp [slots]), .inr ⟨.inl E.parent, hnt⟩,
      fun hc => absurd hc E.dtor, fun hc => absurd hc E.ctor⟩, v, hvalid q v, rfl, ?_⟩
    rw [show (e.on h').h = h' from rfl, payload_eq (hpay q v), f2.parents q hq]
  have hpr : ∀ (l : List Nat) (ts : List Bytes), (∀ q ∈ l, q ∈ es) → PrintAll e .code l ts → PrintAll (e.on h') .code l ts := by
    intro l
    induction l with
    | nil => intro ts _ h; cases ts <;> exact h
    | cons q l ih =>
      intro ts hl h
      cases ts with
      | nil => exact h
      | cons t ts => exact ⟨top q (hl q List.mem_cons_self) t h.1, ih ts (fun x hx => hl x (List.mem_cons_of_mem _ hx)) h.2⟩
  have hpr := hpr es ts (fun _ h => h) hp
  refine ⟨h', ?_, hty, ?_⟩
  · unfold defKindBody
    rw [if_neg h0, finish_eq hn]
    simp only [Res.ok_bind]
    rw [bodyLoop_accept fuel c k e.h.next es _ [] hb fun q hq => ?_, f1, Res.ok_bind]
    have v := (hes q hq).valid
    refine ⟨.inr ⟨⟨v.1, Nat.lt_succ_of_lt v.2⟩, Nat.ne_of_lt v.2, ?_⟩, Nat.pos_iff_ne_zero.1 v.1, ?_⟩
    · simp only; rw [same q v]; exact notbody q hq
    · simp only; rw [same q v]; exact (hes q hq).allowed
  · have hb2 := C34_body (e := e.on h') f2 (by rw [show (e.on h').h = h' from rfl, hty]; cases k <;> first | rfl | exact absurd rfl hk) hpr
    exact ⟨hb2.1, hb2.2, fun q v => ⟨hvalid q v, hcell q v⟩⟩

/-- C49: a class with a body. Whatever the body is printed as in the class, the class prints between braces; a constructor in the body
prints the name of the class; and when there is no constructor, the body prints what it printed before. -/
theorem C49_def_class (fuel : Nat) (c : Cfg) {e : Env} {name : Bytes} {p : OptsStruct} {l : List Specifier} (h0 : name ≠ [])
    (hi : p.interfaces = []) (hpar : p.parent = 0) (ha : PtrOk e.h p.attributes) (hat : OptIs e.h p.attributes [.PlatformAttributes])
    (hne : p.attributes ≠ p.body) (hs : SpecSlot e p.specifiers l) (hsb : p.specifiers ≠ p.body) (hv : e.h.Valid p.body)
    (hbt : (e.h.cell p.body).type ∈ [CodeType.Class_Body, .Untyped]) :
    ∃ h', defClass fuel c e.h name p = .ok (e.h.next, h') ∧
      (∀ t, Prints (e.on h') .body p.body t → Says (e.on h') .code e.h.next
        (exportOf p.mflags ++ b!"class " ++ attrOf e p.attributes ++ name ++ ifText (.Final ∈ l) b!" final" ++ b!"\n{\n" ++ t ++ b!"\n};\n")) ∧
      (∀ q, e.h.Valid q → (e.h.cell q).parent = p.body → isCtor (e.h.cell q).type → ctorText (e.on h') (h'.cell q) = name) ∧
      ((∀ q, e.h.Valid q → isCtor (e.h.cell q).type → (e.h.cell q).parent ≠ p.body) → Neutral e (e.h.cell p.body).parent →
        ∀ t, Prints e .body p.body t → Prints (e.on h') .body p.body t) := by
  have b0 := Nat.pos_iff_ne_zero.1 hv.1
  obtain ⟨h', e1, v', c1, c2, c3⟩ := (C29_def_class c (Nat.lt_trans hv.1 hv.2) fuel name p b0 hi ha (.inl hpar) hv).1 ⟨h0, hat, .inl hpar, hbt⟩
  have hst : ∀ q, SameType e (e.on h') q := fun q v => by
    refine ⟨(c3 q v).1, ?_⟩
    rw [show (e.on h').h = h' from rfl]
    by_cases hq : q = p.body
    · subst hq; rw [c2]; exact ⟨rfl, rfl⟩
    · rw [(c3 q v).2 hq]; exact ⟨rfl, rfl⟩
  refine ⟨h', e1, ?_, ?_, ?_⟩
  · intro t ht
    have h : Is (e.on h') e.h.next .Class _ := ⟨v', c1, rfl⟩
    have hs' : SpecSlot (e.on h') p.specifiers l := by
      unfold SpecSlot at *
      split
      · rename_i hz; rw [if_pos hz] at hs; exact hs
      · rename_i hz
        rw [if_neg hz] at hs
        obtain ⟨a, b, d, f, g⟩ := hs
        have hc := (c3 _ a).2 hsb
        exact ⟨(c3 _ a).1, by rw [show (e.on h').h = h' from rfl, hc]; exact b, by rw [show (e.on h').h = h' from rfl, hc]; exact d,
          by rw [show (e.on h').h = h' from rfl, hc]; exact f, g⟩
    have := C45_class h hpar ht (PtrOk.slot (Or.imp id (fun v => (c3 _ v).1) ha)) hs' (fun hz => absurd rfl hz) (fun hz => absurd rfl hz)
    rw [endText_none rfl] at this
    refine this.cast ?_
    have hat : attrText (e.on h') (h'.cell e.h.next) = attrOf e p.attributes := by
      unfold attrText attrOf optText
      rw [c1]
      dsimp only
      split
      · rfl
      · rename_i hz
        rw [show (e.on h').h = h' from rfl, (c3 _ (ha.resolve_left hz)).2 hne]
    rw [c1] at hat
    rw [hat]
    by_cases hx : p.mflags % 2 = 1 <;> simp [ifText, exportText, exportOf, exported, cmtText, hx]
  · intro q v hq hcq
    have hqb : q ≠ p.body := by
      intro hc
      subst hc
      simp only [List.mem_cons, List.not_mem_nil, or_false] at hbt
      rcases hbt with hb | hb <;> rw [hb] at hcq <;> rcases hcq with h | h <;> cases h
    unfold ctorText
    rw [show (e.on h').h = h' from rfl, (c3 q v).2 hqb, hq, c2]
    simp only [ne_eq, Nat.pos_iff_ne_zero.1 v'.1, not_false_eq_true, if_true, c1]
  · rintro hno hnt t ⟨fuel', ht⟩
    refine ⟨fuel', ser_frame (S := fun _ => True) (e' := e.on h') ?_ fuel' .body p.body trivial _ _ ht⟩
    refine ⟨rfl, trivial, fun q _ v => (c3 q v).1, fun q _ v => ?_, fun _ _ _ => trivial, fun _ _ _ => trivial⟩
    by_cases hq : q = p.body
    · subst hq
      refine ⟨e.h.next, c2, rfl, trivial, trivial, trivial, trivial, trivial, trivial, trivial, .inr ⟨hnt, .inr ⟨v', ?_, ?_⟩⟩, ?_, ?_⟩
      · rw [show (e.on h').h = h' from rfl, c1]; simp
      · rw [show (e.on h').h = h' from rfl, c1]; simp
      all_goals
        intro hcq
        simp only [List.mem_cons, List.not_mem_nil, or_false] at hbt
        rcases hbt with hb | hb <;> rw [hb] at hcq <;> rcases hcq with h | h <;> cases h
    · refine ⟨(e.h.cell q).parent, by rw [show (e.on h').h = h' from rfl, (c3 q v).2 hq], rfl, trivial, trivial, trivial, trivial, trivial, trivial, trivial,
        .inl ⟨rfl, hst _⟩, fun _ => ⟨rfl, hst _, rfl⟩, fun hcq => ⟨rfl, fun hv => ⟨(c3 _ hv).1, ?_, hst _⟩⟩⟩
      rw [show (e.on h').h = h' from rfl, (c3 _ hv).2 (hno q v hcq)]

/-- C49, refuted: a constructor or destructor made by `def_constructor` or `def_destructor` cannot be printed before it is put into a
body: the parent is null. -/
theorem C49_def_constructor_refuted (c : Cfg) {e : Env} (hn : 0 < e.h.next) {p : OptsConstructor} (h1 : PtrOk e.h p.params) (h2 : PtrOk e.h p.body)
    (h3 : OptIs e.h p.params [.Parameters]) (h4 : OptIs e.h p.body [.Function_Body, .Untyped]) :
    ∃ q h', defConstructor c e.h p = .ok (q, h') ∧ ∀ t, ¬ Prints (e.on h') .code q t := by
  obtain ⟨h', e1, v', c1, _⟩ := (C29_def_constructor c hn p h1 h2).1 ⟨h3, h4⟩
  refine ⟨_, h', e1, ?_⟩
  rintro t ⟨fuel, ht⟩
  cases fuel with
  | zero => cases ht
  | succ fuel =>
    obtain ⟨_, _, ht⟩ := Res.bind_eq_ok.1 ht
    obtain ⟨n, hn', ht⟩ := Res.bind_eq_ok.1 ht
    rw [show (e.on h').h = h' from rfl, get_ok v', c1] at hn'
    cases hn'
    by_cases hb : p.body = 0
    · simp only [hb, if_true, dispatch, constructorFwd] at ht
      simp [seq, W, ctorName, reading, get_null, Res.bind] at ht
    · simp only [hb, if_false, dispatch, constructorDef] at ht
      simp [seq, W, ctorName, reading, get_null, Res.bind] at ht

end Verif.Ser
