import Verif.Props.Upfront
/-!
# Properties C31 and the rest of C22: the constructors of bodies and lists
-/
namespace Verif.Ast

/-! ## C31: bodies -/

/-- The specification: what may not be an entry of a body of the given kind. -/
def Refused : BodyKind → CodeType → Prop
  | .class, t | .struct, t => t ∈ [CodeType.PlatformAttributes, .Parameters, .Specifiers, .Typename, .Function_Fwd, .Operator,
      .Operator_Fwd, .Namespace, .Extern_Linkage, .Class_Body, .Enum_Body, .Function_Body, .Global_Body, .Namespace_Body, .Struct_Body]
  | .enum, t | .union, t => t ∉ [CodeType.Untyped, .Comment]
  | .export, t | .externLink, t | .namespace, t | .global, t => t ∈ [CodeType.PlatformAttributes, .Parameters, .Specifiers, .Typename,
      .Access_Public, .Access_Protected, .Access_Private, .Execution, .Friend, .Operator_Member, .Operator_Member_Fwd,
      .Class_Body, .Enum_Body, .Function_Body, .Namespace_Body, .Struct_Body]
  | .function, t => t ∈ [CodeType.PlatformAttributes, .Parameters, .Specifiers, .Typename, .Access_Public, .Access_Protected,
      .Access_Private, .Friend, .Function_Fwd, .Operator, .Operator_Fwd, .Operator_Member, .Operator_Member_Fwd, .Namespace,
      .Extern_Linkage, .Class_Body, .Enum_Body, .Function_Body, .Global_Body, .Namespace_Body, .Struct_Body]

instance (k : BodyKind) (t : CodeType) : Decidable (Refused k t) := by
  cases k <;> unfold Refused <;> infer_instance

theorem rule_spec : ∀ (k : BodyKind) (t : CodeType), isBodyType t = false →
    k.rule t = if Refused k t then .refuse else .append := by
  intro k t
  cases k <;> cases t <;> decide

/-- A code that may be given to a body constructor: null, or a node that is not itself a body. -/
def EntryArg (h : Heap) (r e : Nat) : Prop := e = 0 ∨ (h.Valid e ∧ e ≠ r ∧ isBodyType (h.cell e).type = false)

/-- The entry is one the constructor must take. -/
def Taken (h : Heap) (k : BodyKind) (e : Nat) : Prop := e ≠ 0 ∧ ¬ Refused k (h.cell e).type

theorem bodyLoop_accept (fuel : Nat) (c : Cfg) (k : BodyKind) (r : Nat) : ∀ (es : List Nat) (h : Heap) (l : List Nat), IsBody h r l →
    (∀ e ∈ es, EntryArg h r e ∧ Taken h k e) → bodyLoop fuel c k r h es = (appendAll fuel h r es).bind fun h => .ok (r, h)
  | [], _, _, _, _ => rfl
  | e :: es, h, l, hb, he => by
    obtain ⟨ha, hne, hr⟩ := he e List.mem_cons_self
    obtain ⟨ve, her, ht⟩ := ha.resolve_left hne
    obtain ⟨h1, o, e1, hb1, hap⟩ := append_spec hb ve her
    rw [bodyLoop, if_neg hne, get_ok ve, Res.ok_bind, rule_spec _ _ ht, if_neg hr, appendAll]
    simp only
    rw [bodyAppend_plain (Nat.ne_of_gt hb.valid.1) ve ht, e1, Res.ok_bind, Res.ok_bind]
    refine bodyLoop_accept fuel c k r es h1 _ hb1 fun x hx => ?_
    obtain ⟨hax, hx0, hrx⟩ := he x (List.mem_cons_of_mem _ hx)
    obtain ⟨v, w, t⟩ := hax.resolve_left hx0
    have te := payload_type (hap.same x v w)
    exact ⟨.inr ⟨⟨v.1, Nat.lt_of_lt_of_le v.2 hap.grow⟩, w, by rw [te]; exact t⟩, hx0, by rw [te]; exact hrx⟩

theorem bodyLoop_reject (fuel : Nat) (c : Cfg) (k : BodyKind) (r : Nat) : ∀ (es : List Nat) (h : Heap) (l : List Nat), IsBody h r l →
    (∀ e ∈ es, EntryArg h r e) → (∃ e ∈ es, ¬ Taken h k e) →
    ∃ h', bodyLoop fuel c k r h es = reject c h' ∧ h.next ≤ h'.next ∧
      ∀ q, h.Valid q → q ≠ r → (h'.cell q).payload = (h.cell q).payload
  | [], _, _, _, _, hn => by obtain ⟨_, h, _⟩ := hn; cases h
  | e :: es, h, l, hb, he, hn => by
    by_cases hne : e = 0
    · exact ⟨h, by rw [bodyLoop, if_pos hne], Nat.le_refl _, fun _ _ _ => rfl⟩
    obtain ⟨ve, her, ht⟩ := (he e List.mem_cons_self).resolve_left hne
    by_cases hr : Refused k (h.cell e).type
    · exact ⟨h, by rw [bodyLoop, if_neg hne, get_ok ve, Res.ok_bind, rule_spec _ _ ht, if_pos hr], Nat.le_refl _, fun _ _ _ => rfl⟩
    obtain ⟨h1, o, e1, hb1, hap⟩ := append_spec hb ve her
    have val : ∀ x, h.Valid x → h1.Valid x := fun x v => ⟨v.1, Nat.lt_of_lt_of_le v.2 hap.grow⟩
    obtain ⟨h2, f1, f2, f3⟩ := bodyLoop_reject fuel c k r es h1 _ hb1 (fun x hx => by
      rcases he x (List.mem_cons_of_mem _ hx) with z | ⟨v, w, t⟩
      · exact .inl z
      · exact .inr ⟨val x v, w, by rw [payload_type (hap.same x v w)]; exact t⟩) (by
      obtain ⟨x, hx, hnt⟩ := hn
      rcases List.mem_cons.1 hx with rfl | hx
      · exact absurd ⟨hne, hr⟩ hnt
      · refine ⟨x, hx, fun ht' => hnt ⟨ht'.1, ?_⟩⟩
        obtain ⟨v, w, _⟩ := (he x (List.mem_cons_of_mem _ hx)).resolve_left ht'.1
        have := ht'.2
        rwa [payload_type (hap.same x v w)] at this)
    refine ⟨h2, ?_, Nat.le_trans hap.grow f2, fun q v w => ?_⟩
    · rw [bodyLoop, if_neg hne, get_ok ve, Res.ok_bind, rule_spec _ _ ht, if_neg hr]
      simp only
      rw [bodyAppend_plain (Nat.ne_of_gt hb.valid.1) ve ht, e1, Res.ok_bind, f1]
    · rw [f3 q (val q v) w, hap.same q v w]

/-- The empty body the constructors begin with. -/
theorem isBody_new {h : Heap} (hn : 0 < h.next) (t : CodeType) :
    IsBody { next := h.next + 1, cell := fun q => if q = h.next then { type := t } else h.cell q } h.next [] := by
  refine ⟨Nat.succ_pos _, ⟨hn, Nat.lt_succ_self _⟩, ?_, trivial, ?_, ?_, ?_, ?_, List.nodup_nil⟩ <;> simp

/-- What the property says of a call `r` that is given the entries `es` and is to make a body of type `t`. -/
def MakesBody (c : Cfg) (h : Heap) (k : BodyKind) (t : CodeType) (es : List Nat) (r : Out) : Prop :=
  (es ≠ [] ∧ (∀ e ∈ es, Taken h k e) →
    ∃ h' l', r = .ok (h.next, h') ∧ (h'.cell h.next).type = t ∧ (h'.cell h.next).num = es.length ∧
      entries h' h.next = .ok l' ∧ l'.map (fun e => (h'.cell e).payload) = es.map (fun e => (h.cell e).payload) ∧
      (∀ e ∈ l', (h'.cell e).parent = h.next) ∧ IsBody h' h.next l' ∧
      ∀ q, h.Valid q → (h'.cell q).payload = (h.cell q).payload) ∧
  (¬ (es ≠ [] ∧ ∀ e ∈ es, Taken h k e) →
    if c.fatal then r = .stop
    else ∃ h', r = .ok (c.invalid, h') ∧ ∀ q, h.Valid q → (h'.cell q).payload = (h.cell q).payload)

theorem makesBody (fuel : Nat) (c : Cfg) {h : Heap} (hn : 0 < h.next) (k : BodyKind) (t : CodeType) (es : List Nat)
    (he : ∀ e ∈ es, e = 0 ∨ (h.Valid e ∧ isBodyType (h.cell e).type = false)) :
    MakesBody c h k t es (if es = [] then reject c h else
      (finish h.make.2 h.next { type := t }).bind fun (r, h) => bodyLoop fuel c k r h es) := by
  by_cases hes : es = []
  · rw [if_pos hes]
    refine ⟨fun hp => absurd hes hp.1, fun _ => ?_⟩
    unfold reject
    cases c.fatal
    · exact ⟨h, rfl, fun _ _ => rfl⟩
    · rfl
  rw [if_neg hes, finish_eq hn]
  simp only [Res.ok_bind]
  have hb := isBody_new hn t
  have same : ∀ e, h.Valid e → (if e = h.next then ({ type := t } : Node) else h.cell e) = h.cell e :=
    fun e v => if_neg (Nat.ne_of_lt v.2)
  have he' : ∀ e ∈ es, EntryArg { next := h.next + 1, cell := fun q => if q = h.next then { type := t } else h.cell q } h.next e := by
    intro e hm
    rcases he e hm with z | ⟨v, ht⟩
    · exact .inl z
    · exact .inr ⟨⟨v.1, Nat.lt_succ_of_lt v.2⟩, Nat.ne_of_lt v.2, by simp only; rw [same e v]; exact ht⟩
  have tk : ∀ e ∈ es, (Taken { next := h.next + 1, cell := fun q => if q = h.next then { type := t } else h.cell q } k e ↔ Taken h k e) := by
    intro e hm
    rcases he e hm with z | ⟨v, _⟩
    · subst z; exact ⟨fun a => absurd rfl a.1, fun a => absurd rfl a.1⟩
    · unfold Taken; simp only; rw [same e v]
  constructor
  · intro ⟨_, ha⟩
    rw [bodyLoop_accept fuel c k h.next es _ [] hb fun e hm => ⟨he' e hm, (tk e hm).2 (ha e hm)⟩]
    obtain ⟨h2, l', f1, f2, f3, f4, f5, f6, f7, f8, f9⟩ := C21_append_all fuel h.next es _ [] hb fun e hm => (he' e hm).resolve_left (ha e hm).1
    rw [f1]
    simp only [List.nil_append] at f2 f5 f9
    refine ⟨h2, l', rfl, ?_, by simpa using f3, f2, ?_, f5, f9, ?_⟩
    · have hbody : ∀ (os : List Nat) (g : Heap) (m : List Nat) (g' : Heap), IsBody g h.next m →
          (∀ o ∈ os, g.Valid o ∧ o ≠ h.next ∧ isBodyType (g.cell o).type = false) →
          appendAll fuel g h.next os = .ok g' → (g'.cell h.next).type = (g.cell h.next).type := by
        intro os
        induction os with
        | nil => intro g m g' _ _ e; injection e with e; rw [e]
        | cons o os ih =>
          intro g m g' hg ho e
          obtain ⟨v, w, tt⟩ := ho o List.mem_cons_self
          obtain ⟨g1, o1, e1, hb1, hap⟩ := append_spec hg v w
          rw [appendAll, bodyAppend_plain (Nat.ne_of_gt hg.valid.1) v tt, e1, Res.ok_bind] at e
          rw [ih g1 _ g' hb1 (fun x hx => ?_) e]
          · have := congrArg Node.type hap.bodyPayload.1
            exact this
          · obtain ⟨v, w, tt⟩ := ho x (List.mem_cons_of_mem _ hx)
            exact ⟨⟨v.1, Nat.lt_of_lt_of_le v.2 hap.grow⟩, w, by rw [payload_type (hap.same x v w)]; exact tt⟩
      rw [hbody es _ [] h2 hb (fun e hm => (he' e hm).resolve_left (ha e hm).1) f1]
      simp
    · rw [f4]
      apply List.map_congr_left
      intro e hm
      obtain ⟨v, _⟩ := (he e hm).resolve_left (ha e hm).1
      simp only
      rw [same e v]
    · intro q v
      rw [f7 q ⟨v.1, Nat.lt_succ_of_lt v.2⟩ (Nat.ne_of_lt v.2)]
      simp only
      rw [same q v]
  · intro hna
    obtain ⟨h2, f1, f2, f3⟩ := bodyLoop_reject fuel c k h.next es _ [] hb he' (by
      refine Classical.byContradiction fun hno => hna ⟨hes, fun e hm => ?_⟩
      exact Classical.byContradiction fun ht => hno ⟨e, hm, fun h1 => ht ((tk e hm).1 h1)⟩)
    rw [f1]
    unfold reject
    cases c.fatal
    · refine ⟨h2, rfl, fun q v => ?_⟩
      rw [f3 q ⟨v.1, Nat.lt_succ_of_lt v.2⟩ (Nat.ne_of_lt v.2)]
      simp only
      rw [same q v]
    · rfl

/-- C31: the variadic constructors of bodies, for every list of entries that are not bodies themselves: with no entry, a null
entry or one of a type that may not be in the body, the call fails; otherwise it gives a new body of its kind that holds the
entries in order (those that have a parent as copies). -/
theorem C31_def_body (fuel : Nat) (c : Cfg) {h : Heap} (hn : 0 < h.next) (k : BodyKind) (es : List Nat)
    (he : ∀ e ∈ es, e = 0 ∨ (h.Valid e ∧ isBodyType (h.cell e).type = false)) :
    MakesBody c h k (match k with
      | .class => .Class_Body
      | .enum => .Enum_Body
      | .export => .Export_Body
      | .externLink => .Extern_Linkage_Body
      | .function => .Function_Body
      | .global => .Global_Body
      | .namespace => .Namespace_Body
      | .struct => .Struct_Body
      | .union => .Union_Body) es (defKindBody fuel c h k es) := by
  cases k <;> exact makesBody fuel c hn _ _ es he

/-- C31: the forms that take an array do the same, but for the type of the class and namespace ones (`C31_arr_type_refuted`). -/
theorem C31_def_body_arr (fuel : Nat) (c : Cfg) {h : Heap} (hn : 0 < h.next) (k : BodyKind) (es : List Nat)
    (he : ∀ e ∈ es, e = 0 ∨ (h.Valid e ∧ isBodyType (h.cell e).type = false)) :
    MakesBody c h k (match k with
      | .class => .Function_Body
      | .enum => .Enum_Body
      | .export => .Export_Body
      | .externLink => .Extern_Linkage_Body
      | .function => .Function_Body
      | .global => .Global_Body
      | .namespace => .Global_Body
      | .struct => .Struct_Body
      | .union => .Union_Body) es (defKindBodyArr fuel c h k es) := by
  cases k <;> exact makesBody fuel c hn _ _ es he

/-- A heap with a comment (2), an untyped (3), a typename (4), an invalid code (5) and a forward declared function (6). -/
def bodyDemo : Heap := { next := 7, cell := fun q =>
  if q = 2 then { type := .Comment, content := b!"//a\n" } else if q = 3 then { type := .Untyped, content := b!"int a;" }
  else if q = 4 then { type := .Typename, name := b!"int" } else if q = 5 then { type := .Invalid, parent := 1 }
  else if q = 6 then { type := .Function_Fwd, name := b!"f", typ := 4 } else {} }

def cfgDemo : Cfg := { fatal := false, invalid := 5, tVoid := 4, tInt := 4, tBool := 4 }

/-- C31 fails: `def_class_body_arr` gives a function body and `def_namespace_body_arr` a global one. -/
theorem C31_arr_type_refuted :
    ((defKindBodyArr 9 cfgDemo bodyDemo .class [2, 3]).bind fun (r, h) => (h.get r).bind fun n => .ok n.type) = .ok .Function_Body ∧
    ((defKindBodyArr 9 cfgDemo bodyDemo .namespace [2, 3]).bind fun (r, h) => (h.get r).bind fun n => .ok n.type) = .ok .Global_Body :=
  ⟨rfl, rfl⟩

/-- C31 fails: the result of a failed call (`InvalidCode`) is taken as an entry of a class, a function or a namespace, and a
forward declared member function is refused. -/
theorem C31_invalid_entry_refuted :
    ((defKindBody 9 cfgDemo bodyDemo .class [2, 5]).bind fun (r, h) => (entries h r).bind fun l => .ok (l, (h.cell 8).type)) = .ok ([2, 8], .Invalid) ∧
    ((defKindBody 9 cfgDemo bodyDemo .class [6]).bind fun (r, _) => .ok r) = .ok cfgDemo.invalid := ⟨rfl, rfl⟩

/-- C31 fails: an empty global body among the entries of a global body is an access through null. -/
theorem C31_empty_inline_refuted :
    defKindBody 9 cfgDemo { next := 8, cell := fun q => if q = 7 then { type := .Global_Body } else bodyDemo.cell q } .global [2, 7] = .ub := rfl

/-- The hypotheses are met, and both outcomes occur. -/
example : (∀ e ∈ [2, 3, 0], e = 0 ∨ (bodyDemo.Valid e ∧ isBodyType (bodyDemo.cell e).type = false)) ∧
    (∀ e ∈ [2, 3], Taken bodyDemo .enum e) ∧ ¬ Taken bodyDemo .enum 4 ∧
    ((defKindBody 9 cfgDemo bodyDemo .enum [2, 3, 3]).bind fun (r, h) => entries h r) = .ok [2, 3, 8] ∧
    ((defKindBody 9 cfgDemo bodyDemo .enum [2, 4, 3]).bind fun (r, _) => .ok r) = .ok 5 := by
  refine ⟨by decide, ?_, ?_, by rfl, by rfl⟩
  · intro e he; simp at he; rcases he with rfl | rfl <;> exact ⟨by decide, by decide⟩
  · exact fun h => absurd h.2 (by decide)

/-! ## C22: parameter lists -/

theorem paramsLoop_accept (c : Cfg) (t : CodeType) (r : Nat) : ∀ (os : List Nat) (h : Heap) (l : List Nat) (n : Int), IsParams h r l n →
    (∀ o ∈ os, h.Valid o ∧ o ≠ r ∧ o ∉ l ∧ (h.cell o).back = 0 ∧ (h.cell o).type = t) → os.Nodup →
    paramsLoop c t r h os = (paramsAppendAll h r os).bind fun h => .ok (r, h)
  | [], _, _, _, _, _, _ => rfl
  | o :: os, h, l, n, hb, ho, hnd => by
    obtain ⟨vo, hop, hol, hs, ht⟩ := ho o List.mem_cons_self
    obtain ⟨h1, o1, e1, hb1, hfr, hg, ho1, hc, hsame, hpay, hback, _⟩ := paramsAppend_spec hb vo hop hs
    have hnd' := List.nodup_cons.1 hnd
    have hxo : ∀ x ∈ os, x ≠ o1 := by
      intro x hx e
      obtain ⟨v, _⟩ := ho x (List.mem_cons_of_mem _ hx)
      rw [hfr] at e
      split at e
      · exact hnd'.1 (e ▸ hx)
      · rw [e] at v; exact Nat.lt_irrefl _ v.2
    rw [paramsLoop, get_ok vo, Res.ok_bind, if_neg (by simp [ht]), e1, Res.ok_bind, paramsAppendAll, e1, Res.ok_bind]
    refine paramsLoop_accept c t r os h1 _ _ hb1 (fun x hx => ?_) hnd'.2
    obtain ⟨v, w, hl, s, tx⟩ := ho x (List.mem_cons_of_mem _ hx)
    refine ⟨⟨v.1, Nat.lt_of_lt_of_le v.2 hg⟩, w, by simp [hl, hxo x hx], ?_, by rw [payload_type (hsame x v w)]; exact tx⟩
    rw [hback x v (hxo x hx) ?_, s]
    intro e
    cases hgl : l.getLast? with
    | none => rw [hgl] at e; exact w e.symm
    | some y => rw [hgl] at e; exact hl (e ▸ List.mem_of_getLast? hgl)

/-- C22: `def_params` of single parameters (as `def_param` makes them, the ones after the first different from each other): the
result is a new list that counts as many parameters as were given and visits, in order, parameters that say what the given
ones say. -/
theorem C22_def_params (c : Cfg) (t : CodeType) {h : Heap} (hn : 0 < h.next) (p : Nat) (ps : List Nat)
    (hp : ∀ q ∈ p :: ps, h.Valid q ∧ (h.cell q).type = t ∧ (h.cell q).front = 0 ∧ (h.cell q).back = 0 ∧ (h.cell q).num = 1)
    (hnd : ps.Nodup) :
    ∃ h' l', defParams c t h (p :: ps) = .ok (h.next, h') ∧ (h'.cell h.next).num = (p :: ps).length ∧
      (∀ fuel, ps.length + 1 < fuel → iterParams fuel h' h.next = .ok (h.next :: l')) ∧
      (h.next :: l').map (fun q => { (h'.cell q).payload with num := 1 }) = (p :: ps).map (fun q => (h.cell q).payload) ∧
      (∀ q, h.Valid q → (h'.cell q).payload = (h.cell q).payload) := by
  obtain ⟨vp, tp, fp, bp, np⟩ := hp p List.mem_cons_self
  have dup : duplicate h p = .ok (h.next, { next := h.next + 1, cell := fun q => if q = h.next then { h.cell p with parent := 0 } else h.cell q }) := by
    unfold duplicate
    simp only [Heap.make]
    rw [get_ok (show Heap.Valid _ p from ⟨vp.1, Nat.lt_succ_of_lt vp.2⟩), Res.ok_bind, upd_ok (by exact ⟨hn, Nat.lt_succ_self _⟩), Res.ok_bind]
    congr 2
    simp only [Heap.mk.injEq, true_and]
    funext q
    by_cases hq : q = h.next
    · simp [hq, Nat.ne_of_lt vp.2]
    · simp [hq]
  have hb : IsParams { next := h.next + 1, cell := fun q => if q = h.next then { h.cell p with parent := 0 } else h.cell q } h.next [] 1 := by
    refine ⟨Nat.succ_pos _, ⟨hn, Nat.lt_succ_self _⟩, ?_, trivial, ?_, ?_, ?_, ?_, ?_, List.nodup_nil⟩ <;> simp [np, bp, fp]
  have old : ∀ q, h.Valid q → (if q = h.next then ({ h.cell p with parent := 0 } : Node) else h.cell q) = h.cell q :=
    fun q v => if_neg (Nat.ne_of_lt v.2)
  have hargs : ∀ o ∈ ps, Heap.Valid { next := h.next + 1, cell := fun q => if q = h.next then { h.cell p with parent := 0 } else h.cell q } o ∧
      o ≠ h.next ∧ o ∉ ([] : List Nat) ∧ (if o = h.next then ({ h.cell p with parent := 0 } : Node) else h.cell o).back = 0 ∧
      (if o = h.next then ({ h.cell p with parent := 0 } : Node) else h.cell o).type = t := by
    intro o ho
    obtain ⟨v, to, _, bo, _⟩ := hp o (List.mem_cons_of_mem _ ho)
    exact ⟨⟨v.1, Nat.lt_succ_of_lt v.2⟩, Nat.ne_of_lt v.2, by simp, by rw [old o v]; exact bo, by rw [old o v]; exact to⟩
  obtain ⟨h2, l', f1, f2, f3, f4, f5, f6, f7⟩ := C22_append_all h.next ps _ [] 1 hb (fun o ho => by
    obtain ⟨a, b, d, e, _⟩ := hargs o ho; exact ⟨a, b, d, e⟩) hnd
  rw [defParams, if_neg (fun hc => absurd hc.1 (Nat.ne_of_gt vp.1)), get_ok vp, Res.ok_bind, if_neg (by simp [tp]), dup]
  simp only [Res.ok_bind]
  rw [paramsLoop_accept c t h.next ps _ [] 1 hb hargs hnd, f1]
  simp only [List.nil_append, List.length_nil, Nat.zero_add] at f3
  refine ⟨h2, l', rfl, ?_, f3, ?_, ?_⟩
  · rw [f4]; simp; omega
  · rw [List.map_cons, List.map_cons]
    congr 1
    · rw [f7]
      simp [Node.payload, ← np]
    · have e1 : ps.map (fun o => ({ (h.cell o).payload with num := 1 } : Node)) = ps.map (fun o => (h.cell o).payload) := by
        apply List.map_congr_left
        intro o ho
        have := (hp o (List.mem_cons_of_mem _ ho)).2.2.2.2
        simp [Node.payload, ← this]
      have e2 := congrArg (List.map fun n : Node => ({ n with num := 1 } : Node)) f5
      rw [List.map_map, List.map_map] at e2
      have e3 : ps.map (fun o => ({ (h.cell o).payload with num := 1 } : Node)) =
          ps.map ((fun n : Node => ({ n with num := 1 } : Node)) ∘ fun o => ((if o = h.next then ({ h.cell p with parent := 0 } : Node) else h.cell o)).payload) := by
        apply List.map_congr_left
        intro o ho
        simp only [Function.comp]
        rw [old o (hp o (List.mem_cons_of_mem _ ho)).1]
      rw [← e1, e3]
      exact e2
  · intro q v
    rw [f6 q ⟨v.1, Nat.lt_succ_of_lt v.2⟩ (Nat.ne_of_lt v.2)]
    simp only
    rw [old q v]

/-- C22: `def_params` of nothing fails; so does a first code of another type. -/
theorem C22_def_params_rejects (c : Cfg) (t : CodeType) (h : Heap) (p : Nat) (v : h.Valid p) (ht : (h.cell p).type ≠ t) (ps : List Nat) :
    Rejected c h (defParams c t h []) ∧ Rejected c h (defParams c t h (p :: ps)) := by
  refine ⟨reject_spec c (Kept.refl h), ?_⟩
  rw [defParams, if_neg (fun hc => absurd hc.1 (Nat.ne_of_gt v.1)), get_ok v, Res.ok_bind, if_pos ht]
  exact reject_spec c (Kept.refl h)

/-- C22 fails for `def_params_arr`: the list it makes of parameters `1, 2, 3` counts two of them (the head counts for nothing), the default
value of the first one is gone, and the element after the array is read. -/
theorem C22_params_arr_refuted :
    ((defParamsArr cfgDemo { threeParams with cell := fun q => { threeParams.cell q with body := 3 } } true [1, 2]).bind fun (r, h) =>
      .ok ((h.cell r).num, (h.cell r).body)) = .ok (1, 0) ∧
    defParamsArr cfgDemo threeParams false [1, 2, 3] = .ub := ⟨rfl, rfl⟩

/-- The hypotheses of `C22_def_params` are met. -/
example : (∀ q ∈ [1, 2, 3], threeParams.Valid q ∧ (threeParams.cell q).type = .Parameters ∧ (threeParams.cell q).front = 0 ∧
    (threeParams.cell q).back = 0 ∧ (threeParams.cell q).num = 1) ∧
    ((defParams cfgDemo .Parameters threeParams [1, 2, 3]).bind fun (r, h) => (iterParams 9 h r).bind fun l => .ok (l, (h.cell r).num)) =
      .ok ([4, 2, 3], 3) := ⟨by decide, rfl⟩

end Verif.Ast
