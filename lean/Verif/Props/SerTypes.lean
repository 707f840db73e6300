import Verif.Props.Serialize
/-!
# Property C45: what classes, structs, unions and enums print as

Each definition prints as its head, the text of its body between braces, and `;` (unless it is part of a typedef or a variable).
-/
namespace Verif.Ser
open Ast Fmt

theorem finalSpec_eg (e : Env) (n : Node) {l : List Specifier} (h : SpecSlot e n.specs l) :
    EG (fun _ => finalSpec e n) (ifText (.Final ∈ l) b!" final") := by
  refine EG.reading (hasSpec_ok h .Final) (EG.congr (EG.opt fun _ => EG.str _) ?_)
  simp [ifText]

theorem record_eg {e : Env} {n : Node} {l : List Specifier} {t pt keyword : Bytes} {parents : Nat → W} (hb : Prints e .body n.body t)
    (ha : Slot e n.attributes) (hs : SpecSlot e n.specs l) (hc : Slot e n.inlineCmt) (hq : Slot e n.parent) (hp : EG parents pt) :
    EG (fun k => recordDef e (ser e k) keyword (parents k) n)
      (exportText n ++ keyword ++ attrText e n ++ n.name ++ ifText (.Final ∈ l) b!" final" ++ pt ++ cmtText e n b!" // " b!"" b!"" ++
        (b!"\n{\n" ++ t ++ b!"\n}") ++ endText e n b!";\n") :=
  (((((((EG.exportPrefix n).seq (EG.str _)).seq (EG.attrText e n ha)).seq (EG.str _)).seq (finalSpec_eg e n hs)).seq hp).seq
    (EG.cmtOpt e n b!" // " b!"" hc rfl rfl rfl (by decide))).seq (EG.body hb) |>.seq (EG.endStmt e n hq (EG.str _))

/-- C45: a class without parent. -/
theorem C45_class {e : Env} {p : Nat} {n : Node} {l : List Specifier} {t : Bytes} (h : Is e p .Class n) (hp : n.typ = 0)
    (hb : Prints e .body n.body t) (ha : Slot e n.attributes) (hs : SpecSlot e n.specs l) (hc : Slot e n.inlineCmt) (hq : Slot e n.parent) :
    Says e .code p (exportText n ++ b!"class " ++ attrText e n ++ n.name ++ ifText (.Final ∈ l) b!" final" ++
      cmtText e n b!" // " b!"" b!"" ++ b!"\n{\n" ++ t ++ b!"\n}" ++ endText e n b!";\n") := by
  refine says_code h ?_
  simp only [dispatch, h.type, classDef]
  refine EG.congr (record_eg (pt := []) hb ha hs hc hq ?_) (by simp)
  simp only [classParents, opt, hp, ne_eq, not_true_eq_false, if_false]
  exact EG.nop

/-- What `structParents` prints. -/
def parentsText (e : Env) (n : Node) (pt : Bytes) (ts : List Bytes) : Bytes :=
  optText n.typ (b!" : " ++ accessText n.num ++ b!" " ++ pt ++ ifText ((e.h.cell n.typ).back ≠ 0) b!"\n" ++ wrapped b!", " b!"" ts)

theorem accessArg_eq {a : Int} (h : a ≠ 2) : accessArg a = strArg false (accessText a) := by
  unfold accessArg accessText strArg
  by_cases h0 : a = 0
  · subst h0; rfl
  by_cases h1 : a = 1
  · subst h1; rfl
  by_cases h3 : a = 3
  · subst h3; rfl
  · rw [if_neg h0, if_neg h1, if_neg h, if_neg h3, if_neg h1, if_neg h3, if_neg h0]; rfl

/-- C45: a struct, with its parent (any access but `protected`) and its interfaces. -/
theorem C45_struct {e : Env} {p : Nat} {n : Node} {l : List Specifier} {t pt : Bytes} {ps : List Nat} {ts : List Bytes} (h : Is e p .Struct n)
    (hb : Prints e .body n.body t) (ha : Slot e n.attributes) (hs : SpecSlot e n.specs l) (hc : Slot e n.inlineCmt) (hq : Slot e n.parent)
    (hv : Slot e n.typ) (hp : n.typ ≠ 0 → Prints e .typename n.typ pt ∧ Linked e.h (e.h.cell n.typ).back ps ∧ PrintAll e .typename ps ts)
    (hn : n.num ≠ 2) :
    Says e .code p (exportText n ++ b!"struct " ++ attrText e n ++ n.name ++ ifText (.Final ∈ l) b!" final" ++
      parentsText e n pt ts ++ cmtText e n b!" // " b!"" b!"" ++ b!"\n{\n" ++ t ++ b!"\n}" ++ endText e n b!";\n") := by
  refine says_code h ?_
  simp only [dispatch, h.type, structDef]
  refine EG.congr (record_eg (pt := parentsText e n pt ts) hb ha hs hc hq ?_) (by simp)
  refine EG.optSlot fun ht => ?_
  obtain ⟨h1, h2, h3⟩ := hp ht
  refine EG.congr (EG.seq (EG.sub h1
    (EG.fmt e [.lit b!" : ", .s false (accessText n.num), .lit b!" ", .sb pt] rfl (by rw [accessArg_eq hn]; rfl) rfl))
    (EG.reading (get_ok (hv ht)) (EG.seq (EG.opt (c := (e.h.cell n.typ).back ≠ 0) fun _ => EG.str b!"\n")
      (EG.chain e b!", %SB" b!", " b!"" .typename rfl rfl rfl ps ts _ h2 h3)))) ?_
  simp [textOf, strText]

/-- C45: the declaration of a class: `class attributes Name;`. -/
theorem C45_class_fwd {e : Env} {p : Nat} {n : Node} (h : Is e p .Class_Fwd n) (ha : Slot e n.attributes) (hc : Slot e n.inlineCmt)
    (hq : Slot e n.parent) :
    Says e .code p (exportText n ++ b!"class " ++ attrText e n ++ nameText e p ++ endText e n (cmtText e n b!"; // " b!"\n" b!";\n")) := by
  refine says_code h ?_
  obtain ⟨hv, rfl, ht⟩ := h
  simp only [dispatch, ht, classFwd]
  refine EG.congr (EG.seq (EG.seq (EG.exportPrefix _) (EG.ifSlot (fun hn => EG.reading (get_ok (ha hn))
      (EG.fmt e [.lit b!"class ", .sb _, .lit b!" ", .s _ _] rfl rfl rfl)) (fun _ => EG.fmt e [.lit b!"class ", .s _ _] rfl rfl rfl)))
    (EG.endStmt e _ hq (EG.cmtText e _ b!"; // " b!"\n" b!";\n" hc rfl rfl rfl (by decide)))) ?_
  unfold attrText optText
  split <;> simp [textOf, nameText]

/-- C45: the declaration of a struct: `struct attributes Name;`. -/
theorem C45_struct_fwd {e : Env} {p : Nat} {n : Node} (h : Is e p .Struct_Fwd n) (ha : Slot e n.attributes) (hc : Slot e n.inlineCmt)
    (hq : Slot e n.parent) :
    Says e .code p (exportText n ++ b!"struct " ++ attrText e n ++ nameText e p ++ endText e n (cmtText e n b!";  " b!"" b!";\n")) := by
  refine says_code h ?_
  obtain ⟨hv, rfl, ht⟩ := h
  simp only [dispatch, ht, structFwd]
  refine EG.congr (EG.seq (EG.seq (EG.exportPrefix _) (EG.ifSlot (fun hn => EG.reading (get_ok (ha hn))
      (EG.fmt e [.lit b!"struct ", .sb _, .lit b!" ", .s _ _] rfl rfl rfl)) (fun _ => EG.fmt e [.lit b!"struct ", .s _ _] rfl rfl rfl)))
    (EG.endStmt e _ hq (EG.cmtText e _ b!";  " b!"" b!";\n" hc rfl rfl rfl (by decide)))) ?_
  unfold attrText optText
  split <;> simp [textOf, nameText]

/-- C45: a union. -/
theorem C45_union {e : Env} {p : Nat} {n : Node} {t : Bytes} (h : Is e p .Union n) (hb : Prints e .body n.body t) (ha : Slot e n.attributes)
    (hq : Slot e n.parent) :
    Says e .code p (exportText n ++ b!"union " ++ attrText e n ++ n.name ++ b!"\n{\n" ++ t ++ b!"\n}" ++ endText e n b!";\n") := by
  refine says_code h ?_
  obtain ⟨hv, rfl, ht⟩ := h
  simp only [dispatch, ht, unionDef]
  refine EG.congr (EG.seq (EG.seq (EG.seq (EG.seq (EG.exportPrefix _) (EG.str _)) (EG.attrText e _ ha)) (EG.sub hb (EG.ite
      (fun _ => EG.fmt e [.s (e.nullStr p) (e.h.cell p).name, .lit b!"\n{\n", .sb t, .lit b!"\n}"] rfl rfl rfl)
      (fun _ => EG.fmt e [.lit b!"\n{\n", .sb t, .lit b!"\n}"] rfl rfl rfl))))
    (EG.endStmt e _ hq (EG.str _))) ?_
  by_cases hn : (e.h.cell p).name = [] <;> simp [textOf, strText, hn]

/-- C45: the declaration of a union. -/
theorem C45_union_fwd {e : Env} {p : Nat} {n : Node} (h : Is e p .Union_Fwd n) (ha : Slot e n.attributes) (hq : Slot e n.parent) :
    Says e .code p (exportText n ++ b!"union " ++ attrText e n ++ n.name ++ endText e n b!";\n") := by
  refine says_code h ?_
  obtain ⟨hv, rfl, ht⟩ := h
  simp only [dispatch, ht, unionFwd]
  refine EG.congr (EG.seq (EG.seq (EG.seq (EG.seq (EG.exportPrefix _) (EG.str _)) (EG.attrText e _ ha))
      (EG.opt fun _ => EG.fmt e [.s (e.nullStr p) (e.h.cell p).name] rfl rfl rfl))
    (EG.endStmt e _ hq (EG.str _))) ?_
  by_cases hn : (e.h.cell p).name = [] <;> simp [textOf, strText, hn, ifText]

/-- The underlying type (printed as `ut`), or the macro that stands for it (printed as `mt`). -/
def underText (n : Node) (ut mt : Bytes) : Bytes :=
  if n.typ ≠ 0 then b!" : " ++ ut else optText n.params (b!" " ++ mt)

/-- C45: an enum. -/
theorem C45_enum {e : Env} {p : Nat} {n : Node} {t ut mt : Bytes} (h : Is e p .Enum n) (hb : Prints e .body n.body t) (ha : Slot e n.attributes)
    (hq : Slot e n.parent) (hu : n.typ ≠ 0 → Prints e .typename n.typ ut) (hm : n.params ≠ 0 → Prints e .code n.params mt) :
    Says e .code p (exportText n ++ b!"enum " ++ attrText e n ++ nameText e p ++ underText n ut mt ++ b!"\n{\n" ++ t ++ b!"\n}" ++
      endText e n b!";\n") := by
  refine says_code h ?_
  obtain ⟨hv, rfl, ht⟩ := h
  simp only [dispatch, ht, enumDef]
  refine EG.congr (EG.seq (EG.seq (EG.exportPrefix _) (EG.ite (fun _ => EG.seq (EG.seq (EG.str _) (EG.attrText e _ ha)) (EG.ite
      (fun h1 => EG.sub (hu h1) (EG.sub hb (EG.fmt e [.s (e.nullStr p) (e.h.cell p).name, .lit b!" : ", .sb ut, .lit b!"\n{\n", .sb t, .lit b!"\n}"] rfl rfl rfl)))
      (fun _ => EG.ite
        (fun h2 => EG.sub (hm h2) (EG.sub hb (EG.fmt e [.s (e.nullStr p) (e.h.cell p).name, .lit b!" ", .sb mt, .lit b!"\n{\n", .sb t, .lit b!"\n}"] rfl rfl rfl)))
        (fun _ => EG.sub hb (EG.fmt e [.s (e.nullStr p) (e.h.cell p).name, .lit b!"\n{\n", .sb t, .lit b!"\n}"] rfl rfl rfl)))))
      (fun _ => EG.sub hb (EG.fmt e [.lit b!"enum ", .s (e.nullStr p) (e.h.cell p).name, .lit b!"\n{\n", .sb t, .lit b!"\n}"] rfl rfl rfl))))
    (EG.endStmt e _ hq (EG.str _))) ?_
  by_cases h1 : (e.h.cell p).typ = 0 <;> by_cases h2 : (e.h.cell p).params = 0 <;> by_cases h3 : (e.h.cell p).attributes = 0 <;>
    simp [textOf, nameText, underText, attrText, optText, h1, h2, h3]

/-- C45: the declaration of an enum. The attributes come before `enum`. -/
theorem C45_enum_fwd {e : Env} {p : Nat} {n : Node} {ut mt : Bytes} (h : Is e p .Enum_Fwd n) (ha : Slot e n.attributes) (hc : Slot e n.inlineCmt)
    (hq : Slot e n.parent) (hu : n.typ ≠ 0 → Prints e .typename n.typ ut) (hm : n.params ≠ 0 → Prints e .code n.params mt) :
    Says e .code p (exportText n ++ attrText e n ++ b!"enum " ++ nameText e p ++ underText n ut mt ++
      endText e n (cmtText e n b!";  " b!"" b!";\n")) := by
  refine says_code h ?_
  obtain ⟨hv, rfl, ht⟩ := h
  simp only [dispatch, ht, enumFwd]
  refine EG.congr (EG.seq (EG.seq (EG.seq (EG.exportPrefix _) (EG.attrText e _ ha)) (EG.ite
      (fun h1 => EG.sub (hu h1) (EG.fmt e [.lit b!"enum ", .s (e.nullStr p) (e.h.cell p).name, .lit b!" : ", .sb ut] rfl rfl rfl))
      (fun _ => EG.ite
        (fun h2 => EG.sub (hm h2) (EG.fmt e [.lit b!"enum ", .s (e.nullStr p) (e.h.cell p).name, .lit b!" ", .sb mt] rfl rfl rfl))
        (fun _ => EG.fmt e [.lit b!"enum ", .s (e.nullStr p) (e.h.cell p).name] rfl rfl rfl))))
    (EG.endStmt e _ hq (EG.cmtText e _ b!";  " b!"" b!";\n" hc rfl rfl rfl (by decide)))) ?_
  by_cases h1 : (e.h.cell p).typ = 0 <;> by_cases h2 : (e.h.cell p).params = 0 <;>
    simp [textOf, nameText, underText, optText, h1, h2]

/-- C45: an enum class with attributes or an underlying type. -/
theorem C45_enum_class {e : Env} {p : Nat} {n : Node} {t ut : Bytes} (h : Is e p .Enum_Class n) (hb : Prints e .body n.body t) (ha : Slot e n.attributes)
    (hq : Slot e n.parent) (hu : n.typ ≠ 0 → Prints e .typename n.typ ut) (hx : n.attributes ≠ 0 ∨ n.typ ≠ 0) :
    Says e .code p (exportText n ++ b!"enum class " ++ attrText e n ++ nameText e p ++ optText n.typ (b!" : " ++ ut) ++ b!"\n{\n" ++ t ++ b!"\n}" ++
      endText e n b!";\n") := by
  refine says_code h ?_
  obtain ⟨hv, rfl, ht⟩ := h
  simp only [dispatch, ht, enumClassDef]
  refine EG.congr (EG.seq (EG.seq (EG.exportPrefix _) (EG.ifPos hx (EG.seq (EG.seq (EG.str _) (EG.attrText e _ ha)) (EG.ite
      (fun h1 => EG.sub (hu h1) (EG.sub hb (EG.fmt e [.s (e.nullStr p) (e.h.cell p).name, .lit b!" : ", .sb ut, .lit b!"\n{\n", .sb t, .lit b!"\n}"] rfl rfl rfl)))
      (fun _ => EG.sub hb (EG.fmt e [.s (e.nullStr p) (e.h.cell p).name, .lit b!"\n{\n", .sb t, .lit b!"\n}"] rfl rfl rfl))))))
    (EG.endStmt e _ hq (EG.str _))) ?_
  by_cases h1 : (e.h.cell p).typ = 0 <;> simp [textOf, nameText, optText, h1]

/-- C45, refuted: an enum class with neither attributes nor underlying type is printed as an enum without `class`. -/
theorem C45_enum_class_refuted {e : Env} {p : Nat} {n : Node} {t : Bytes} (h : Is e p .Enum_Class n) (hb : Prints e .body n.body t)
    (hq : Slot e n.parent) (h1 : n.attributes = 0) (h2 : n.typ = 0) :
    Says e .code p (exportText n ++ b!"enum " ++ nameText e p ++ b!"\n{\n" ++ t ++ b!"\n}" ++ endText e n b!";\n") := by
  refine says_code h ?_
  obtain ⟨hv, rfl, ht⟩ := h
  simp only [dispatch, ht, enumClassDef]
  refine EG.congr (EG.seq (EG.seq (EG.exportPrefix _) (EG.ifNeg (by simp [h1, h2])
      (EG.sub hb (EG.fmt e [.lit b!"enum ", .s (e.nullStr p) (e.h.cell p).name, .lit b!"\n{\n", .sb t, .lit b!"\n}"] rfl rfl rfl))))
    (EG.endStmt e _ hq (EG.str _))) ?_
  simp [textOf, nameText]

/-- C45: the declaration of an enum class with an underlying type. -/
theorem C45_enum_class_fwd {e : Env} {p : Nat} {n : Node} {ut : Bytes} (h : Is e p .Enum_Class_Fwd n) (ha : Slot e n.attributes) (hc : Slot e n.inlineCmt)
    (hq : Slot e n.parent) (hu : Prints e .typename n.typ ut) :
    Says e .code p (exportText n ++ b!"enum class " ++ attrText e n ++ nameText e p ++ b!" : " ++ ut ++
      endText e n (cmtText e n b!";  " b!"" b!";\n")) := by
  refine says_code h ?_
  obtain ⟨hv, rfl, ht⟩ := h
  simp only [dispatch, ht, enumClassFwd]
  refine EG.congr (EG.seq (EG.seq (EG.seq (EG.seq (EG.exportPrefix _) (EG.str _)) (EG.attrText e _ ha))
      (EG.sub hu (EG.fmt e [.s (e.nullStr p) (e.h.cell p).name, .lit b!" : ", .sb ut] rfl rfl rfl)))
    (EG.endStmt e _ hq (EG.cmtText e _ b!";  " b!"" b!";\n" hc rfl rfl rfl (by decide)))) ?_
  simp [textOf, nameText]

/-! ### What does not hold -/

theorem seq_ok {f g : W} {r t : Bytes} : (f ++> g) r = .ok t ↔ ∃ m, f r = .ok m ∧ g m = .ok t := by
  show (f r).bind g = _ ↔ _
  exact Res.bind_eq_ok

theorem reading_ok {α : Type} {x : Res α} {k : α → W} {r t : Bytes} : reading x k r = .ok t ↔ ∃ a, x = .ok a ∧ k a r = .ok t := by
  show x.bind _ = _ ↔ _
  exact Res.bind_eq_ok

/-- What a node that is printed goes through. -/
theorem prints_dispatch {e : Env} {p : Nat} {t : Bytes} (hv : e.h.Valid p) (h : Prints e .code p t) :
    ∃ k, dispatch e (ser e k) k p (e.h.cell p) [] = .ok t := by
  obtain ⟨k, h⟩ := h
  cases k with
  | zero => cases h
  | succ k =>
    refine ⟨k, ?_⟩
    obtain ⟨_, _, h⟩ := reading_ok.1 (show reading _ _ _ = _ from h)
    obtain ⟨n, hn, h⟩ := reading_ok.1 h
    rw [get_ok hv] at hn
    cases hn
    exact h

theorem recordDef_parents {e : Env} {rec : Fn → Nat → W} {keyword : Bytes} {parents : W} {n : Node} {r t : Bytes}
    (h : recordDef e rec keyword parents n r = .ok t) : ∃ a b, parents a = .ok b := by
  unfold recordDef at h
  obtain ⟨_, h, _⟩ := seq_ok.1 h
  obtain ⟨_, h, _⟩ := seq_ok.1 h
  obtain ⟨_, h, _⟩ := seq_ok.1 h
  obtain ⟨a, _, h⟩ := seq_ok.1 h
  exact ⟨a, _, h⟩

theorem strConv_len {null : Bool} {t : Bytes} : (strConv null t).text.length ≤ t.length ∨ (strConv null t).text.length ≤ 6 := by
  rw [strConv_text]
  unfold strText
  split
  · exact .inr (Nat.le_refl 6)
  · exact .inl (Nat.le_refl _)

/-- C45, refuted: a class with a parent is never printed. The format asks for an access level and a builder; the name of the class is
passed before them, so that the pointer of the access level is taken for a builder. -/
theorem C45_class_parent_refuted {e : Env} {p : Nat} {n : Node} (h : Is e p .Class n) (hp : n.typ ≠ 0) (hn : (0 : UInt8) ∉ n.name) (hl : n.name.length < 131000)
    (t : Bytes) :
    ¬ Prints e .code p t := by
  intro hpr
  obtain ⟨hv, rfl, ht⟩ := h
  obtain ⟨k, hk⟩ := prints_dispatch hv hpr
  simp only [dispatch, ht] at hk
  obtain ⟨a, b, hk⟩ := recordDef_parents (show recordDef _ _ _ _ _ _ = _ from hk)
  unfold classParents opt at hk
  rw [if_pos hp] at hk
  obtain ⟨_, hk, _⟩ := seq_ok.1 hk
  obtain ⟨u, _, hk⟩ := reading_ok.1 (show reading _ _ _ = _ from hk)
  have hu := fmt_ub e b!" : " b!" " b!"" (strConv (e.nullStr p) (e.h.cell p).name) [accessArg (e.h.cell p).num, sbArg u]
    (f := b!" : %S %SB") (as := [e.name p (e.h.cell p), accessArg (e.h.cell p).num, sbArg u])
    (by rw [strConv_code]; rfl) (by rw [strConv_args]; rfl) ⟨by decide, by decide⟩ ⟨by decide, by decide⟩
    (strConv_ok (by unfold strText; split; · decide
                    · exact hn))
    (fun _ => by decide)
    (by have := @strConv_len (e.nullStr p) (e.h.cell p).name; simp only [List.length_cons, List.length_nil]; omega)
    (by intro d m as' he
        have he := (List.cons.inj he).1
        unfold accessArg at he
        repeat' split at he
        all_goals cases he) a
  exact absurd (hu.symm.trans hk) (by simp)

/-- C45, refuted: the declaration of an enum class without underlying type is never printed (the assertion in
`typename_to_strbuilder` fails). -/
theorem C45_enum_class_fwd_refuted {e : Env} {p : Nat} {n : Node} (h : Is e p .Enum_Class_Fwd n) (hp : n.typ = 0) (t : Bytes) :
    ¬ Prints e .code p t := by
  intro hpr
  obtain ⟨hv, rfl, ht⟩ := h
  obtain ⟨k, hk⟩ := prints_dispatch hv hpr
  simp only [dispatch, ht, enumClassFwd] at hk
  obtain ⟨_, hk, _⟩ := seq_ok.1 hk
  obtain ⟨_, _, hk⟩ := seq_ok.1 hk
  obtain ⟨u, hu, _⟩ := reading_ok.1 (show reading _ _ _ = _ from hk)
  rw [hp] at hu
  cases k with
  | zero => cases hu
  | succ k =>
    have hu : Res.stop = Res.ok u := hu
    cases hu

/-- C45, refuted: a struct that inherits `protected` is printed as inheriting `private`. -/
theorem C45_protected_refuted {e : Env} {p : Nat} {n : Node} {l : List Specifier} {t pt : Bytes} {ps : List Nat} {ts : List Bytes} (h : Is e p .Struct n)
    (hb : Prints e .body n.body t) (ha : Slot e n.attributes) (hs : SpecSlot e n.specs l) (hc : Slot e n.inlineCmt) (hq : Slot e n.parent)
    (h0 : n.typ ≠ 0) (hv : e.h.Valid n.typ) (hp : Prints e .typename n.typ pt) (hl : Linked e.h (e.h.cell n.typ).back ps)
    (hpa : PrintAll e .typename ps ts) (hn : n.num = 2) (hpt : pt.length < 131000) :
    Says e .code p (exportText n ++ b!"struct " ++ attrText e n ++ n.name ++ ifText (.Final ∈ l) b!" final" ++
      b!" : private " ++ pt ++ ifText ((e.h.cell n.typ).back ≠ 0) b!"\n" ++ wrapped b!", " b!"" ts ++
      cmtText e n b!" // " b!"" b!"" ++ b!"\n{\n" ++ t ++ b!"\n}" ++ endText e n b!";\n") := by
  refine says_code h ?_
  simp only [dispatch, h.type, structDef]
  refine EG.congr (record_eg (pt := b!" : private " ++ pt ++ (ifText ((e.h.cell n.typ).back ≠ 0) b!"\n" ++ wrapped b!", " b!"" ts)) hb ha hs hc hq ?_) (by simp)
  simp only [structParents, opt, if_pos h0]
  refine EG.seq (EG.sub hp ?_) (EG.reading (get_ok hv) (EG.seq (EG.opt (c := (e.h.cell n.typ).back ≠ 0) fun _ => EG.str b!"\n")
      (EG.chain e b!", %SB" b!", " b!"" .typename rfl rfl rfl ps ts _ hl hpa)))
  intro hf
  refine EW.of fun r => ?_
  have hpt0 : (0 : UInt8) ∉ pt := fun hm => hf.1 (List.mem_append_right _ hm)
  obtain ⟨tail, hx⟩ := C36_short_str e.lt b!" : " b!"private" [] b!"" (List.replicate printfMax 0) 9 [(b!" ", .sb pt [0])] (printfMax - 1)
    ⟨by decide, by decide⟩ (by decide) (by decide) ⟨⟨by decide, by decide⟩, hpt0, by simp [Conv.isS], by decide, by decide⟩ (by simp [fmtText])
    (by simp [rendered, Conv.text, printfMax]; omega) (by simp)
  unfold Env.fmt Ser.fmt
  rw [show accessArg n.num = .str (some (b!"private" ++ 0 :: [])) 9 by rw [hn]; rfl]
  have hx' : cStrFmt e.lt (List.replicate printfMax 0) (printfMax - 1) (b!" : %S %SB" ++ [0]) [.str (some (b!"private" ++ 0 :: [])) 9, sbArg pt] = _ := hx
  rw [hx', Res.ok_bind]
  have key : ∀ (x tail : Bytes), (if ((x.length : Int) + 1) - 1 < 0 then Res.ub else
      .ok (r ++ (x ++ 0 :: tail).take (((x.length : Int) + 1) - 1).toNat)) = Res.ok (r ++ x) := by
    intro x tail
    rw [if_neg (by omega), show (((x.length : Int) + 1) - 1).toNat = x.length by omega, List.take_left]
  refine (key _ _).trans ?_
  simp [rendered, Conv.text]

end Verif.Ser
