import Verif.Props.SerFns
/-!
# Property C47 and the printing part of C22: what types, specifiers, parameters, variables and aliases print as
-/
namespace Verif.Ser
open Ast Fmt

theorem says_typename {e : Env} {p : Nat} {t : Bytes} (hv : e.h.Valid p) (h : EG (fun k => typenameRef e (ser e k) p) t) :
    Says e .typename p t ∧ ((e.h.cell p).type = .Typename → Says e .code p t) :=
  ⟨EG.says h, fun ht => says_code ⟨hv, rfl, ht⟩ (by simp only [dispatch, ht]; exact h)⟩

/-- C47: specifiers: separated by spaces, except before `*`, `&` and `&&`, and one more space at the end. All of them, in order. -/
theorem C47_specifiers {e : Env} {p : Nat} {l : List Specifier} (h : IsSpecs e.h p l) (ht : (e.h.cell p).type = .Specifiers) :
    Prints e .code p (specsText l) :=
  (EG.says (EG.code h.valid (by simp only [dispatch, ht]; exact EG.specifiersRef e h)) : Says _ _ _ _) (specs_fit h)

/-- C47: a type: attributes, `class`/`enum`/`struct`/`union`, name, specifiers, `...`. -/
theorem C47_typename {e : Env} {p : Nat} {n : Node} {l : List Specifier} (hv : e.h.Valid p) (hn : e.h.cell p = n) (ha : Slot e n.attributes)
    (hs : SpecSlot e n.specs l) (hf : n.typ = 0 ∨ n.params = 0) :
    Says e .typename p (attrText e n ++ tagWord n.typeTag ++ nameText e p ++ optText n.specs (b!" " ++ specsText l) ++ ifText n.isParamPack b!"...") ∧
    (n.type = .Typename →
      Says e .code p (attrText e n ++ tagWord n.typeTag ++ nameText e p ++ optText n.specs (b!" " ++ specsText l) ++ ifText n.isParamPack b!"...")) := by
  subst hn
  rw [← tagText_eq]
  refine says_typename hv ?_
  unfold typenameRef
  refine EG.reading (Res.assert_true (Nat.ne_of_gt hv.1)) (EG.reading (get_ok hv) (EG.ifNeg (by omega) ?_))
  refine EG.congr (EG.seq (EG.seq (EG.seq (EG.attrText e _ ha) (EG.str _)) (EG.ifSlot
      (fun h0 => EG.subSpecs e (by unfold SpecSlot at hs; rwa [if_neg h0] at hs) (specs_fit (by unfold SpecSlot at hs; rwa [if_neg h0] at hs))
        (EG.fmt e [.s (e.nullStr p) (e.h.cell p).name, .lit b!" ", .sb (specsText l)] rfl rfl rfl))
      (fun _ => EG.fmt e [.s (e.nullStr p) (e.h.cell p).name] rfl rfl rfl)))
    (EG.opt fun _ => EG.str _)) ?_
  by_cases h0 : (e.h.cell p).specs = 0 <;> simp [textOf, nameText, optText, h0]

/-- C47: the type of a function: `ReturnType Name ( parameters ) specifiers`. -/
theorem C47_typename_function {e : Env} {p : Nat} {n : Node} {l : List Specifier} {rt pt : Bytes} (hv : e.h.Valid p) (hn : e.h.cell p = n)
    (ha : n.attributes = 0) (hs : SpecSlot e n.specs l) (h1 : n.typ ≠ 0) (h2 : n.params ≠ 0) (hr : Prints e .typename n.typ rt)
    (hp : Prints e .params n.params pt) :
    Says e .typename p (rt ++ b!" " ++ nameText e p ++ b!" ( " ++ pt ++ b!" )" ++ optText n.specs (b!" " ++ specsText l)) := by
  subst hn
  refine (says_typename hv ?_).1
  unfold typenameRef
  refine EG.reading (Res.assert_true (Nat.ne_of_gt hv.1)) (EG.reading (get_ok hv) (EG.ifPos ⟨h1, h2⟩ (EG.ifNeg (by simpa using ha) (EG.sub hr (EG.sub hp ?_)))))
  refine EG.congr (EG.ifSlot
      (fun h0 => EG.subSpecs e (by unfold SpecSlot at hs; rwa [if_neg h0] at hs) (specs_fit (by unfold SpecSlot at hs; rwa [if_neg h0] at hs))
        (EG.fmt e [.sb rt, .lit b!" ", .s (e.nullStr p) (e.h.cell p).name, .lit b!" ( ", .sb pt, .lit b!" ) ", .sb (specsText l)] rfl rfl rfl))
      (fun _ => EG.fmt e [.sb rt, .lit b!" ", .s (e.nullStr p) (e.h.cell p).name, .lit b!" ( ", .sb pt, .lit b!" )"] rfl rfl rfl)) ?_
  by_cases h0 : (e.h.cell p).specs = 0 <;> simp [textOf, nameText, optText, h0]

/-- C47, refuted: the type of a function with attributes prints as the attributes only. -/
theorem C47_typename_function_refuted {e : Env} {p : Nat} {n : Node} (hv : e.h.Valid p) (hn : e.h.cell p = n)
    (ha : n.attributes ≠ 0) (hav : e.h.Valid n.attributes) (h1 : n.typ ≠ 0) (h2 : n.params ≠ 0) :
    Says e .typename p ((e.h.cell n.attributes).content ++ b!" ") := by
  subst hn
  refine (says_typename hv ?_).1
  unfold typenameRef
  refine EG.reading (Res.assert_true (Nat.ne_of_gt hv.1)) (EG.reading (get_ok hv) (EG.ifPos ⟨h1, h2⟩ (EG.ifPos ha ?_)))
  exact EG.attrs e [] b!" " hav rfl rfl rfl

/-! ## Parameters -/

/-- One parameter: macro, type (printed as `tt`), name, the macro after it (printed as `st`), value (printed as `vt`). -/
def paramText (e : Env) (p : Nat) (n : Node) (tt st vt : Bytes) : Bytes :=
  optText n.params (e.h.cell n.params).content ++ optText n.typ (b!" " ++ tt) ++ ifText (n.name ≠ []) (b!" " ++ nameText e p) ++
    optText n.suffix (b!" " ++ st) ++ optText n.body (b!" = " ++ vt)

theorem param_eg {e : Env} {p : Nat} {n : Node} {tt st vt : Bytes} (hn : e.h.cell p = n) (hm : Slot e n.params)
    (ht : n.typ ≠ 0 → Prints e .typename n.typ tt) (hx : n.suffix ≠ 0 → Prints e .code n.suffix st) (hv : n.body ≠ 0 → Prints e .code n.body vt) :
    EG (fun k => param e (ser e k) p n) (paramText e p n tt st vt) := by
  subst hn
  unfold param
  refine EG.congr (EG.seq (EG.seq (EG.seq (EG.optSlot fun h => EG.reading (get_ok (hm h)) (EG.str _)) (EG.ite
      (fun _ => EG.ite (fun _ => EG.fmt e [.lit b!" ", .s (e.nullStr p) (e.h.cell p).name] rfl rfl rfl)
        (fun h1 => EG.sub (ht h1) (EG.fmt e [.lit b!" ", .sb tt, .lit b!" ", .s (e.nullStr p) (e.h.cell p).name] rfl rfl rfl)))
      (fun _ => EG.slotWith e _ .typename tt b!" " b!"" ht rfl rfl rfl)))
      (EG.slotWith e _ .code st b!" " b!"" hx rfl rfl rfl))
      (EG.slotWith e _ .code vt b!" = " b!"" hv rfl rfl rfl)) ?_
  unfold paramText
  by_cases h1 : (e.h.cell p).name = [] <;> by_cases h2 : (e.h.cell p).typ = 0 <;> simp [h1, h2, textOf, nameText, strText, optText, ifText]

/-- C22, C47: one parameter. -/
theorem C47_param {e : Env} {p : Nat} {n : Node} {tt st vt : Bytes} (hv : e.h.Valid p) (hn : e.h.cell p = n) (h1 : n.num ≤ 1) (hm : Slot e n.params)
    (ht : n.typ ≠ 0 → Prints e .typename n.typ tt) (hx : n.suffix ≠ 0 → Prints e .code n.suffix st) (hb : n.body ≠ 0 → Prints e .code n.body vt) :
    Says e .params p (paramText e p n tt st vt) := by
  subst hn
  refine EG.says (EG.reading (Res.assert_true (Nat.ne_of_gt hv.1)) (EG.reading (get_ok hv) ?_))
  refine EG.congr (EG.seq (b := []) (param_eg rfl hm ht hx hb) ?_) (List.append_nil _)
  simp only [opt, show ¬ ((e.h.cell p).num - 1 > 0) by omega, if_false]
  exact EG.nop

theorem linked_of_chain {h : Heap} : ∀ {l : List Nat} {p : Nat}, Chain h p l → (l = [] → p = 0) → (∀ x, l.getLast? = some x → (h.cell x).back = 0) →
    Linked h p l
  | [], _, _, h0, _ => h0 rfl
  | [q], _, ⟨rfl, hv, _⟩, _, h1 => ⟨rfl, hv, h1 _ rfl⟩
  | q :: r :: l, _, ⟨rfl, hv, hc⟩, _, h1 => ⟨rfl, hv, linked_of_chain hc (by simp) (by intro x hx; exact h1 x (by simpa [List.getLast?_cons] using hx))⟩

theorem linked_of_params {h : Heap} {p : Nat} {l : List Nat} {n : Int} (hp : IsParams h p l n) : Linked h (h.cell p).back l :=
  linked_of_chain hp.chain (by intro hl; have := hp.ends; simpa [hl] using this) (by intro x hx; have := hp.ends; simpa [hx] using this)

/-- C22: a parameter list prints as its parameters, in order, separated by `, `: none is left out, whatever their number. -/
theorem C22_prints {e : Env} {p : Nat} {l : List Nat} {ts : List Bytes} {tt st vt : Bytes} (hp : IsParams e.h p l (l.length + 1))
    (hm : Slot e (e.h.cell p).params) (ht : (e.h.cell p).typ ≠ 0 → Prints e .typename (e.h.cell p).typ tt)
    (hx : (e.h.cell p).suffix ≠ 0 → Prints e .code (e.h.cell p).suffix st)
    (hb : (e.h.cell p).body ≠ 0 → Prints e .code (e.h.cell p).body vt) (hl : PrintAll e .params l ts) :
    Says e .params p (b!", ".intercalate (paramText e p (e.h.cell p) tt st vt :: ts)) := by
  refine EG.says (EG.reading (Res.assert_true (Nat.ne_of_gt hp.valid.1)) (EG.reading (get_ok hp.valid) ?_))
  refine EG.congr (EG.seq (param_eg rfl hm ht hx hb) (EG.opt fun _ => EG.chain e b!", %SB" b!", " b!"" .params rfl rfl rfl l ts _ (linked_of_params hp) hl)) ?_
  have hc : (e.h.cell p).num - 1 > 0 ↔ l ≠ [] := by
    rw [hp.count]
    cases l <;> simp <;> omega
  have hw : ∀ (x : Bytes) (ts : List Bytes), x ++ wrapped b!", " b!"" ts = b!", ".intercalate (x :: ts) := by
    intro x ts
    induction ts generalizing x with
    | nil => simp [wrapped, List.intercalate]
    | cons y ts ih =>
      have := ih y
      simp only [wrapped, List.intercalate, List.flatMap_cons, List.intersperse_cons_cons, List.flatten_cons] at this ⊢
      rw [← this]
      simp
  by_cases hl0 : l = []
  · subst hl0
    cases ts with
    | cons => exact hl.elim
    | nil => simp [ifText, wrapped, List.intercalate]
  · rw [← hw]
    rw [ifText, if_pos (hc.2 hl0)]

/-! ## Aliases and variables -/

/-- The array bounds (printed as `ts`) of a type. -/
def boundsText (e : Env) (typ : Nat) (ts : List Bytes) : Bytes := optText typ (optText (e.h.cell typ).body (wrapped b!"[ " b!" ]" ts))

theorem bounds_eg {e : Env} {typ : Nat} {l : List Nat} {ts : List Bytes} (hv : Slot e typ)
    (hl : typ ≠ 0 → (e.h.cell typ).body ≠ 0 → Linked e.h (e.h.cell typ).body l) (hp : PrintAll e .code l ts) :
    EG (fun k => bounds e (ser e k) k typ) (boundsText e typ ts) :=
  EG.optSlot fun h => EG.reading (get_ok (hv h)) (EG.optSlot fun hb => EG.chain e b!"[ %SB ]" b!"[ " b!" ]" .code rfl rfl rfl l ts _ (hl h hb) hp)

/-- C47: `using Name = type;`. -/
theorem C47_using {e : Env} {p : Nat} {n : Node} {tt : Bytes} {l : List Nat} {ts : List Bytes} (h : Is e p .Using n) (ha : Slot e n.attributes)
    (hc : Slot e n.inlineCmt) (hv : Slot e n.typ) (ht : n.typ ≠ 0 → Prints e .typename n.typ tt)
    (hl : n.typ ≠ 0 → (e.h.cell n.typ).body ≠ 0 → Linked e.h (e.h.cell n.typ).body l) (hp : PrintAll e .code l ts) :
    Says e .code p (exportText n ++ attrText e n ++ b!"using " ++ nameText e p ++ optText n.typ (b!" = " ++ tt) ++ boundsText e n.typ ts ++ b!";" ++
      cmtText e n b!"  " b!"\n" b!"\n") := by
  refine says_code h ?_
  obtain ⟨_, rfl, hty⟩ := h
  simp only [dispatch, hty, usingRef]
  refine EG.congr (EG.seq (EG.seq (EG.seq (EG.exportPrefix _) (EG.attrText e _ ha)) (EG.ifSlot
      (fun h1 => EG.seq (EG.seq (EG.sub (ht h1) (EG.fmt e [.lit b!"using ", .s (e.nullStr p) (e.h.cell p).name, .lit b!" = ", .sb tt] rfl rfl rfl))
        (bounds_eg hv hl hp)) (EG.str _))
      (fun _ => EG.fmt e [.lit b!"using ", .s (e.nullStr p) (e.h.cell p).name, .lit b!";"] rfl rfl rfl)))
    (EG.cmtText e _ b!"  " b!"\n" b!"\n" hc rfl rfl rfl (by decide))) ?_
  by_cases h1 : (e.h.cell p).typ = 0 <;> simp [textOf, nameText, optText, boundsText, h1]

/-- C47: `typedef type Name;`. With array bounds there is a `;` after each of them. -/
theorem C47_typedef {e : Env} {p : Nat} {n : Node} {tt : Bytes} {l : List Nat} {ts : List Bytes} (h : Is e p .Typedef n) (hv : e.h.Valid n.typ)
    (ht : Prints e .code n.typ tt) (hc : Slot e n.inlineCmt) (hl : (e.h.cell n.typ).type = .Typename → (e.h.cell n.typ).body ≠ 0 → Linked e.h (e.h.cell n.typ).body l)
    (hp : PrintAll e .code l ts) :
    Says e .code p (exportText n ++ b!"typedef " ++ tt ++ optText (if (e.h.cell n.typ).typ = 0 then 1 else 0) (b!" " ++ nameText e p) ++
      (if (e.h.cell n.typ).type = .Typename ∧ (e.h.cell n.typ).body ≠ 0 then wrapped b!"[ " b!" ];" ts else b!";") ++
      cmtText e n b!"  " b!"" b!"\n") := by
  refine says_code h ?_
  obtain ⟨_, rfl, hty⟩ := h
  simp only [dispatch, hty, typedef]
  refine EG.congr (EG.seq (EG.seq (EG.seq (EG.exportPrefix _) (EG.str _)) (EG.reading (get_ok hv) (EG.seq (EG.recReading ht (EG.ite
      (fun _ => EG.str _) (fun _ => EG.fmt e [.sb tt, .lit b!" ", .s (e.nullStr p) (e.h.cell p).name] rfl rfl rfl)))
      (EG.ite (fun hb => EG.chain e b!"[ %SB ];" b!"[ " b!" ];" .code rfl rfl rfl l ts _ (hl hb.1 hb.2) hp) (fun _ => EG.str _)))))
    (EG.cmtText e _ b!"  " b!"" b!"\n" hc rfl rfl rfl (by decide))) ?_
  by_cases h1 : (e.h.cell (e.h.cell p).typ).typ = 0 <;> simp [textOf, nameText, optText, h1]

/-- C47, refuted: a typedef of an array of two dimensions: the second bound comes after the end of the statement. -/
theorem C47_typedef_refuted {e : Env} {p : Nat} {n : Node} {tt b1 b2 : Bytes} {x y : Nat} (h : Is e p .Typedef n) (hx : ¬ exported n)
    (hv : e.h.Valid n.typ) (ht : Prints e .code n.typ tt) (hty : (e.h.cell n.typ).type = .Typename) (h0 : (e.h.cell n.typ).typ = 0)
    (hc : n.inlineCmt = 0) (hb : (e.h.cell n.typ).body = x) (hl : Linked e.h x [x, y]) (h1 : Prints e .code x b1) (h2 : Prints e .code y b2) :
    Says e .code p (b!"typedef " ++ tt ++ b!" " ++ nameText e p ++ b!"[ " ++ b1 ++ b!" ];[ " ++ b2 ++ b!" ];\n") := by
  have hx0 : x ≠ 0 := by have := hl.2.1.1; omega
  have := C47_typedef (l := [x, y]) (ts := [b1, b2]) h hv ht (by simp [Slot, hc]) (fun _ _ => by rw [hb]; exact hl) ⟨h1, h2, trivial⟩
  simpa [exportText, ifText, hx, h0, hty, hb, hx0, optText, wrapped, cmtText, hc] using this

theorem varInit_eg {e : Env} {n : Node} {vt nx : Bytes} (hb : n.body ≠ 0 → Prints e .code n.body vt) (hx : n.suffix ≠ 0 → Prints e .var n.suffix nx) :
    EG (fun k => varInit e (ser e k) n) (initText n vt nx) := by
  unfold varInit
  refine EG.congr (EG.seq (EG.seq (EG.optSlot fun h => EG.sub (hb h) (EG.ite (fun _ => EG.fmt e [.lit b!"( ", .sb vt, .lit b!" "] rfl rfl rfl)
      (fun _ => EG.fmt e [.lit b!" = ", .sb vt] rfl rfl rfl))) (EG.slotWith e n.suffix .var nx b!", " b!"" hx rfl rfl rfl))
      (EG.opt fun _ => EG.str _)) ?_
  unfold initText
  by_cases h1 : n.num = 0 <;> simp [textOf, h1]

theorem says_var {e : Env} {p : Nat} {t : Bytes} (hv : e.h.Valid p) (h : EG (fun k => varRef e (ser e k) k p) t) :
    Says e .var p t ∧ ((e.h.cell p).type = .Variable → Says e .code p t) :=
  ⟨EG.says h, fun ht => says_code ⟨hv, rfl, ht⟩ (by simp only [dispatch, ht]; exact h)⟩

/-- Whether a variable belongs to the statement of another one. -/
def isNext (e : Env) (n : Node) : Prop := n.parent ≠ 0 ∧ (e.h.cell n.parent).type = .Variable

theorem isNext_ok {e : Env} {n : Node} (hq : Slot e n.parent) : (if n.parent = 0 then Res.ok false else (e.h.get n.parent).bind fun q =>
    Res.ok (decide (q.type = .Variable))) = .ok (decide (n.parent ≠ 0 ∧ (e.h.cell n.parent).type = .Variable)) := by
  by_cases h : n.parent = 0
  · simp [h]
  · rw [if_neg h, get_ok (hq h)]
    simp [h]

/-- C47: a variable without attributes and specifiers: `type name : size [ bounds ] = value;`, where a bit field has no bounds. -/
theorem C47_variable {e : Env} {p : Nat} {n : Node} {tt st vt nx : Bytes} {l : List Nat} {ts : List Bytes} (hv : e.h.Valid p) (hn : e.h.cell p = n)
    (hq : Slot e n.parent) (hnext : ¬ isNext e n) (ha : n.attributes = 0) (hs : n.specs = 0)
    (hvt : e.h.Valid n.typ) (ht : Prints e .typename n.typ tt) (hf : n.params ≠ 0 → Prints e .code n.params st)
    (hl : (e.h.cell n.typ).body ≠ 0 → Linked e.h (e.h.cell n.typ).body l) (hp : (e.h.cell n.typ).body ≠ 0 → PrintAll e .code l ts)
    (hb : n.body ≠ 0 → Prints e .code n.body vt) (hx : n.suffix ≠ 0 → Prints e .var n.suffix nx) (hc : Slot e n.inlineCmt) :
    Says e .var p (exportText n ++ tt ++ b!" " ++ nameText e p ++ (if n.params ≠ 0 then b!" : " ++ st else boundsText e n.typ ts) ++
      initText n vt nx ++ b!";" ++ cmtText e n b!"  " b!"" b!"\n") := by
  subst hn
  refine (says_var hv ?_).1
  unfold varRef
  refine EG.reading (Res.assert_true (Nat.ne_of_gt hv.1)) (EG.reading (get_ok hv) (EG.reading (isNext_ok hq) ?_))
  simp only [show decide ((e.h.cell p).parent ≠ 0 ∧ (e.h.cell (e.h.cell p).parent).type = .Variable) = false from decide_eq_false hnext,
    Bool.false_eq_true, if_false, ha, hs, ne_eq, not_true_eq_false, or_self]
  have head : EG (fun k => varPlainHead e (ser e k) k p (e.h.cell p))
      (tt ++ b!" " ++ nameText e p ++ (if (e.h.cell p).params ≠ 0 then b!" : " ++ st else boundsText e (e.h.cell p).typ ts)) := by
    unfold varPlainHead
    refine EG.sub ht ?_
    refine EG.congr (EG.ite (fun h1 => EG.sub (hf h1) (EG.fmt e [.sb tt, .lit b!" ", .s (e.nullStr p) (e.h.cell p).name, .lit b!" : ", .sb st] rfl rfl rfl))
      (u := tt ++ b!" " ++ nameText e p ++ boundsText e (e.h.cell p).typ ts) (fun _ => EG.reading (get_ok hvt) ?_)) ?_
    · by_cases h0 : (e.h.cell (e.h.cell p).typ).body = 0
      · refine EG.congr (EG.ifNeg (by simpa using h0) (EG.fmt e [.sb tt, .lit b!" ", .s (e.nullStr p) (e.h.cell p).name] rfl rfl rfl)) ?_
        simp [textOf, nameText, boundsText, optText, h0]
      · have hl := hl h0
        have hp := hp h0
        cases l with
        | nil => exact absurd hl h0
        | cons x l =>
          cases ts with
          | nil => exact hp.elim
          | cons b ts =>
            obtain ⟨rfl, hvx, hl⟩ := hl
            refine EG.congr (EG.ifPos h0 (EG.seq (EG.sub hp.1 (EG.fmt e [.sb tt, .lit b!" ", .s (e.nullStr p) (e.h.cell p).name, .lit b!"[ ", .sb b, .lit b!" ]"] rfl rfl rfl))
              (EG.reading (get_ok hvx) (EG.chain e b!"[ %SB ]" b!"[ " b!" ]" .code rfl rfl rfl l ts _ hl hp.2)))) ?_
            have : ¬ (e.h.cell p).typ = 0 := by have := hvt.1; omega
            simp [textOf, nameText, boundsText, optText, h0, this, wrapped]
    · by_cases h1 : (e.h.cell p).params = 0 <;> simp [textOf, nameText, h1]
  refine EG.congr (EG.seq (EG.exportPrefix _) (EG.seq (EG.seq (EG.seq head (varInit_eg hb hx)) (EG.str _))
    (EG.cmtText e _ b!"  " b!"" b!"\n" hc rfl rfl rfl (by decide)))) ?_
  simp

/-- C47: a variable with attributes or specifiers. -/
theorem C47_variable_specified {e : Env} {p : Nat} {n : Node} {sl : List Specifier} {tt st vt nx : Bytes} {l : List Nat} {ts : List Bytes}
    (hv : e.h.Valid p) (hn : e.h.cell p = n) (hq : Slot e n.parent) (hnext : ¬ isNext e n) (h0 : n.attributes ≠ 0 ∨ n.specs ≠ 0)
    (ha : Slot e n.attributes) (hs : SpecSlot e n.specs sl)
    (hvt : e.h.Valid n.typ) (ht : Prints e .typename n.typ tt) (hf : n.params ≠ 0 → Prints e .code n.params st)
    (hl : (e.h.cell n.typ).body ≠ 0 → Linked e.h (e.h.cell n.typ).body l) (hp : PrintAll e .code l ts)
    (hb : n.body ≠ 0 → Prints e .code n.body vt) (hx : n.suffix ≠ 0 → Prints e .var n.suffix nx) (hc : Slot e n.inlineCmt) :
    Says e .var p (exportText n ++ attrText e n ++ optText n.specs (specsText sl) ++ tt ++ b!" " ++ nameText e p ++ boundsText e n.typ ts ++
      optText n.params (b!" : " ++ st) ++ initText n vt nx ++ cmtText e n b!";  " b!"" b!";\n") := by
  subst hn
  refine (says_var hv ?_).1
  unfold varRef
  refine EG.reading (Res.assert_true (Nat.ne_of_gt hv.1)) (EG.reading (get_ok hv) (EG.reading (isNext_ok hq) ?_))
  simp only [show decide ((e.h.cell p).parent ≠ 0 ∧ (e.h.cell (e.h.cell p).parent).type = .Variable) = false from decide_eq_false hnext,
    Bool.false_eq_true, if_false]
  refine EG.congr (EG.seq (EG.exportPrefix _) (EG.ifPos h0 (EG.seq (EG.seq (EG.seq (EG.seq (EG.seq (EG.seq (EG.attrText e _ ha)
      (EG.optSlot fun hs0 => EG.subSpecs e (by unfold SpecSlot at hs; rwa [if_neg hs0] at hs) (specs_fit (by unfold SpecSlot at hs; rwa [if_neg hs0] at hs))
        (EG.fmt e [.sb (specsText sl)] rfl rfl rfl)))
      (EG.sub ht (EG.fmt e [.sb tt, .lit b!" ", .s (e.nullStr p) (e.h.cell p).name] rfl rfl rfl)))
      (bounds_eg (fun _ => hvt) (fun _ => hl) hp))
      (EG.slotWith e _ .code st b!" : " b!"" hf rfl rfl rfl))
      (varInit_eg hb hx))
    (EG.cmtText e _ b!";  " b!"" b!";\n" hc rfl rfl rfl (by decide))))) ?_
  simp [textOf, nameText]

/-- C47: a variable that belongs to the statement of another one: specifiers, name, bounds, value. -/
theorem C47_variable_next {e : Env} {p : Nat} {n : Node} {sl : List Specifier} {vt nx : Bytes} {l : List Nat} {ts : List Bytes}
    (hv : e.h.Valid p) (hn : e.h.cell p = n) (hq : Slot e n.parent) (hnext : isNext e n) (hs : SpecSlot e n.specs sl)
    (hvt : Slot e n.typ) (hl : n.typ ≠ 0 → (e.h.cell n.typ).body ≠ 0 → Linked e.h (e.h.cell n.typ).body l) (hp : PrintAll e .code l ts)
    (hb : n.body ≠ 0 → Prints e .code n.body vt) (hx : n.suffix ≠ 0 → Prints e .var n.suffix nx) :
    Says e .var p (optText n.specs (specsText sl ++ b!" ") ++ n.name ++ boundsText e n.typ ts ++ initText n vt nx) := by
  subst hn
  refine (says_var hv ?_).1
  unfold varRef
  refine EG.reading (Res.assert_true (Nat.ne_of_gt hv.1)) (EG.reading (get_ok hv) (EG.reading (isNext_ok hq) ?_))
  simp only [show decide ((e.h.cell p).parent ≠ 0 ∧ (e.h.cell (e.h.cell p).parent).type = .Variable) = true from decide_eq_true hnext, if_true]
  unfold varNext
  refine EG.congr (EG.seq (EG.seq (EG.seq
      (EG.optSlot fun hs0 => EG.subSpecs e (by unfold SpecSlot at hs; rwa [if_neg hs0] at hs) (specs_fit (by unfold SpecSlot at hs; rwa [if_neg hs0] at hs))
        (EG.fmt e [.sb (specsText sl), .lit b!" "] rfl rfl rfl)) (EG.str _)) (bounds_eg hvt hl hp)) (varInit_eg hb hx)) ?_
  simp [textOf]

/-- C47: as code, a variable prints the same. -/
theorem C47_variable_code {e : Env} {p : Nat} {n : Node} (h : Is e p .Variable n) (t : Bytes) : Prints e .code p t ↔ Prints e .var p t := by
  obtain ⟨hv, rfl, ht⟩ := h
  exact entry_eq hv (f := .var) (fun k => by simp only [dispatch, ht]; rfl) t

/-- C22, C47: as code, a parameter list prints the same; and a type. -/
theorem C47_params_code {e : Env} {p : Nat} {n : Node} (h : Is e p .Parameters n) (t : Bytes) : Prints e .code p t ↔ Prints e .params p t := by
  obtain ⟨hv, rfl, ht⟩ := h
  exact entry_eq hv (f := .params) (fun k => by simp only [dispatch, ht]; rfl) t

theorem C47_typename_code {e : Env} {p : Nat} {n : Node} (h : Is e p .Typename n) (t : Bytes) : Prints e .code p t ↔ Prints e .typename p t := by
  obtain ⟨hv, rfl, ht⟩ := h
  exact entry_eq hv (f := .typename) (fun k => by simp only [dispatch, ht]; rfl) t

end Verif.Ser
