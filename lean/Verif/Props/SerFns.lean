import Verif.Props.SerTypes
/-!
# Property C46: what functions, operators, constructors and destructors print as
-/
namespace Verif.Ser
open Ast Fmt

/-- The specifiers in front of the declaration of a function: `= 0` is among them. -/
def leadingFwd (l : List Specifier) : List Specifier := l.filter fun s => !specIsTrailing s || s == .Pure

theorem any_filter {α : Type} (l : List α) (f : α → Bool) : l.any f = true ↔ l.filter f ≠ [] := by
  induction l with
  | nil => simp
  | cons a l ih => by_cases h : f a <;> simp_all

theorem EG.attrsWith (e : Env) (n : Node) (before after : Bytes) {f : Bytes} (hs : Slot e n.attributes) (hf : f = before ++ (b!"%SB" ++ after))
    (h1 : (before.all fun c => c != 0 && c != 37) = true) (h2 : (after.all fun c => c != 0 && c != 37) = true) :
    EG (fun _ => Ser.opt (n.attributes ≠ 0) (Ser.attrs e f n.attributes))
      (optText n.attributes (before ++ (e.h.cell n.attributes).content ++ after)) :=
  EG.optSlot fun h => EG.attrs e before after (hs h) hf h1 h2

/-- `opt ( slot ) append( before + text )` for a slot printed by `fn`. -/
theorem EG.slotWith (e : Env) (s : Nat) (fn : Fn) (t before after : Bytes) {f : Bytes} (hs : s ≠ 0 → Prints e fn s t)
    (hf : f = before ++ (b!"%SB" ++ after)) (h1 : (before.all fun c => c != 0 && c != 37) = true)
    (h2 : (after.all fun c => c != 0 && c != 37) = true) :
    EG (fun k => Ser.opt (s ≠ 0) (Ser.sub (ser e k) fn s fun t => e.fmt f [t])) (optText s (before ++ t ++ after)) :=
  EG.optSlot fun h => EG.sub (hs h) (EG.congr (EG.fmt e [.lit before, .sb t, .lit after] (by simp [formatOf, hf]) rfl
    (by simp [goodPieces, h1, h2])) (by simp [textOf]))

theorem fnSignature_eg {e : Env} {p : Nat} {n : Node} {rt pt : Bytes} (h : e.h.cell p = n) (hr : n.typ ≠ 0 → Prints e .typename n.typ rt)
    (hp : n.params ≠ 0 → Prints e .params n.params pt) : EG (fun k => fnSignature e (ser e k) p n) (sigText e p n rt pt) := by
  subst h
  unfold fnSignature
  refine EG.congr (EG.seq (EG.ifSlot (fun hn => EG.sub (hr hn) (EG.fmt e [.sb rt, .lit b!" ", .s (e.nullStr p) (e.h.cell p).name, .lit b!"("] rfl rfl rfl))
      (fun _ => EG.fmt e [.s (e.nullStr p) (e.h.cell p).name, .lit b!"("] rfl rfl rfl))
    (EG.ifSlot (fun hn => EG.sub (hp hn) (EG.fmt e [.sb pt, .lit b!")"] rfl rfl rfl)) (fun _ => EG.str _))) ?_
  unfold sigText optText
  by_cases h1 : (e.h.cell p).typ = 0 <;> by_cases h2 : (e.h.cell p).params = 0 <;> simp [textOf, nameText, h1, h2]

/-- C46: a function definition. (`export` is not followed by a space: see `C46_export_refuted`.) -/
theorem C46_function {e : Env} {p : Nat} {n : Node} {l : List Specifier} {t rt pt st : Bytes} (h : Is e p .Function n)
    (hb : Prints e .body n.body t) (ha : Slot e n.attributes) (hs : SpecSlot e n.specs l)
    (hr : n.typ ≠ 0 → Prints e .typename n.typ rt) (hp : n.params ≠ 0 → Prints e .params n.params pt)
    (hx : n.suffix ≠ 0 → Prints e .code n.suffix st) :
    Says e .code p (ifText (exported n) b!"export" ++ optText n.attributes (b!" " ++ (e.h.cell n.attributes).content ++ b!" ") ++
      spaced (leading l) ++ breakText n (leading l) ++ sigText e p n rt pt ++ spaced (trailing l) ++ optText n.suffix (b!" " ++ st) ++
      b!"\n{\n" ++ t ++ b!"\n}\n") := by
  refine says_code h ?_
  obtain ⟨hv, hcell, ht⟩ := h
  simp only [dispatch, ht, fnDef]
  refine EG.congr (EG.seq (EG.seq (EG.seq (EG.seq (EG.opt fun _ => EG.str _) (EG.attrsWith e n b!" " b!" " ha rfl rfl rfl))
      (EG.reading (specList_ok hs) (EG.seq (EG.seq (EG.seq (EG.spaced e _) (EG.opt fun _ => EG.str _)) (fnSignature_eg hcell hr hp)) (EG.spaced e _))))
      (EG.slotWith e n.suffix .code st b!" " b!"" hx rfl rfl rfl))
    (EG.bodyNl hb)) ?_
  have : ((l.any fun s => !specIsTrailing s) = true) ↔ leading l ≠ [] := any_filter _ _
  simp only [breakText, ifText, this, leading, trailing, List.append_assoc, List.append_nil]
  congr

/-- ` = 0` or ` = delete`, once more. -/
def pureText (l : List Specifier) : Bytes := if .Pure ∈ l then b!" = 0" else ifText (.Delete ∈ l) b!" = delete"

/-- C46: the declaration of a function. -/
theorem C46_function_fwd {e : Env} {p : Nat} {n : Node} {l : List Specifier} {t rt pt st : Bytes} (h : Is e p .Function_Fwd n)
    (hb : n.body ≠ 0 → Prints e .body n.body t) (ha : Slot e n.attributes) (hs : SpecSlot e n.specs l)
    (hr : n.typ ≠ 0 → Prints e .typename n.typ rt) (hp : n.params ≠ 0 → Prints e .params n.params pt)
    (hx : n.suffix ≠ 0 → Prints e .code n.suffix st) (hc : Slot e n.inlineCmt) :
    Says e .code p (exportText n ++ attrText e n ++ spaced (leadingFwd l) ++ breakText n (leadingFwd l) ++ sigText e p n rt pt ++
      spaced (trailing l) ++ pureText l ++ optText n.suffix (b!" " ++ st) ++ optText n.body (b!" = " ++ t ++ b!";") ++
      cmtText e n b!";  " b!"" b!";\n") := by
  refine says_code h ?_
  obtain ⟨hv, hcell, ht⟩ := h
  simp only [dispatch, ht, fnFwd]
  refine EG.congr (EG.seq (EG.seq (EG.seq (EG.seq (EG.seq (EG.exportPrefix _) (EG.attrText e n ha))
      (EG.reading (specList_ok hs) (EG.seq (EG.seq (EG.seq (EG.spaced e _) (EG.opt fun _ => EG.str _)) (fnSignature_eg hcell hr hp))
        (EG.seq (EG.spaced e _) (EG.reading (hasSpec_ok hs .Pure) (EG.ite (fun _ => EG.str _)
          (fun _ => EG.reading (hasSpec_ok hs .Delete) (EG.opt fun _ => EG.str _)))))))) 
      (EG.slotWith e n.suffix .code st b!" " b!"" hx rfl rfl rfl))
      (EG.slotWith e n.body .body t b!" = " b!";" hb rfl rfl rfl))
    (EG.cmtText e n b!";  " b!"" b!";\n" hc rfl rfl rfl (by decide))) ?_
  have : ((l.any fun s => !specIsTrailing s || s == .Pure) = true) ↔ leadingFwd l ≠ [] := any_filter _ _
  simp only [breakText, ifText, this, leadingFwd, trailing, pureText, List.append_assoc, List.append_nil, decide_eq_true_eq]
  congr

/-- C46: what the specifiers of a plain declaration come to: without `= 0` and `= delete`, each appears once, in front or behind. -/
theorem C46_function_fwd_plain {l : List Specifier} (h1 : .Pure ∉ l) (h2 : .Delete ∉ l) : leadingFwd l = leading l ∧ pureText l = [] := by
  constructor
  · unfold leadingFwd leading
    refine List.filter_congr fun s hs => ?_
    have : s ≠ .Pure := fun e => h1 (e ▸ hs)
    simp [this]
  · simp [pureText, ifText, h1, h2]

/-- C46: an operator definition, where the return type is given. The attributes appear twice. -/
theorem C46_operator {e : Env} {p : Nat} {n : Node} {l : List Specifier} {t rt pt : Bytes} (h : Is e p .Operator n ∨ Is e p .Operator_Member n)
    (hb : Prints e .body n.body t) (ha : Slot e n.attributes) (hs : SpecSlot e n.specs l)
    (h0 : n.typ ≠ 0) (hr : Prints e .typename n.typ rt) (hp : n.params ≠ 0 → Prints e .params n.params pt) :
    Says e .code p (exportText n ++ attrText e n ++ attrText e n ++ spaced (leading l) ++ ifText (n.attributes ≠ 0 ∨ n.specs ≠ 0) b!"\n" ++
      rt ++ b!" " ++ nameText e p ++ b!" (" ++ optText n.params pt ++ b!")" ++ spaced (trailing l) ++ b!"\n{\n" ++ t ++ b!"\n}\n") := by
  have key : EG (fun k => opDef e (ser e k) p n) (exportText n ++ attrText e n ++ attrText e n ++ spaced (leading l) ++
      ifText (n.attributes ≠ 0 ∨ n.specs ≠ 0) b!"\n" ++
      rt ++ b!" " ++ nameText e p ++ b!" (" ++ optText n.params pt ++ b!")" ++ spaced (trailing l) ++ b!"\n{\n" ++ t ++ b!"\n}\n") := by
    have hcell : e.h.cell p = n := by rcases h with h | h <;> exact h.cell
    subst hcell
    unfold opDef
    refine EG.congr (EG.seq (EG.seq (EG.seq (EG.seq (EG.exportPrefix _) (EG.attrText e _ ha)) (EG.attrText e _ ha))
        (EG.reading (specList_ok hs) (EG.seq (EG.seq (EG.seq (EG.seq (EG.spaced e _) (EG.opt fun _ => EG.str _))
          (EG.opt fun _ => EG.sub hr (EG.fmt e [.sb rt, .lit b!" ", .s (e.nullStr p) (e.h.cell p).name, .lit b!" ("] rfl rfl rfl)))
          (EG.ifSlot (fun hn => EG.sub (hp hn) (EG.fmt e [.sb pt, .lit b!")"] rfl rfl rfl)) (fun _ => EG.str _))) (EG.spaced e _))))
      (EG.bodyNl hb)) ?_
    by_cases h2 : (e.h.cell p).params = 0 <;> simp [textOf, nameText, ifText, h0, optText, h2, leading, trailing]
  rcases h with h | h <;>
  · refine says_code h ?_
    simp only [dispatch, h.type]
    exact key

/-- C46: the declaration of an operator. -/
theorem C46_operator_fwd {e : Env} {p : Nat} {n : Node} {l : List Specifier} {rt pt : Bytes}
    (h : Is e p .Operator_Fwd n ∨ Is e p .Operator_Member_Fwd n) (ha : Slot e n.attributes) (hs : SpecSlot e n.specs l) (hc : Slot e n.inlineCmt)
    (hr : Prints e .typename n.typ rt) (hp : n.params ≠ 0 → Prints e .params n.params pt) :
    Says e .code p (exportText n ++ optText n.attributes ((e.h.cell n.attributes).content ++ b!"\n") ++ spaced (leading l) ++
      ifText (n.attributes ≠ 0 ∨ n.specs ≠ 0) b!"\n" ++ rt ++ b!" " ++ nameText e p ++ b!" (" ++ optText n.params pt ++ b!")" ++
      spaced (trailing l) ++ cmtText e n b!";  " b!"" b!";\n") := by
  have key : EG (fun k => opFwd e (ser e k) p n) (exportText n ++ optText n.attributes ((e.h.cell n.attributes).content ++ b!"\n") ++ spaced (leading l) ++
      ifText (n.attributes ≠ 0 ∨ n.specs ≠ 0) b!"\n" ++ rt ++ b!" " ++ nameText e p ++ b!" (" ++ optText n.params pt ++ b!")" ++
      spaced (trailing l) ++ cmtText e n b!";  " b!"" b!";\n") := by
    have hcell : e.h.cell p = n := by rcases h with h | h <;> exact h.cell
    subst hcell
    unfold opFwd
    refine EG.congr (EG.seq (EG.seq (EG.seq (EG.exportPrefix _) (EG.attrsWith e _ b!"" b!"\n" ha rfl rfl rfl))
        (EG.reading (specList_ok hs) (EG.seq (EG.seq (EG.seq (EG.seq (EG.spaced e _) (EG.opt fun _ => EG.str _))
          (EG.sub hr (EG.fmt e [.sb rt, .lit b!" ", .s (e.nullStr p) (e.h.cell p).name, .lit b!" ("] rfl rfl rfl)))
          (EG.ifSlot (fun hn => EG.sub (hp hn) (EG.fmt e [.sb pt, .lit b!")"] rfl rfl rfl)) (fun _ => EG.fmt e [.lit b!")"] rfl rfl rfl)))
          (EG.spaced e _))))
      (EG.cmtText e _ b!";  " b!"" b!";\n" hc rfl rfl rfl (by decide))) ?_
    by_cases h2 : (e.h.cell p).params = 0 <;> simp [textOf, nameText, ifText, optText, h2, leading, trailing]
  rcases h with h | h <;>
  · refine says_code h ?_
    simp only [dispatch, h.type]
    exact key

/-- Specifiers in front of a conversion operator: each followed by a space. -/
def spacedAfter (l : List Specifier) : Bytes := l.flatMap fun s => specToStr s ++ b!" "

theorem EG.spacedAfter (e : Env) (l : List Specifier) : EG (fun _ => Ser.each (Ser.specWidth e) l) (spacedAfter l) :=
  EG.each (EG.specWidth e) l

theorem EG.spacedTail (e : Env) (l : List Specifier) : EG (fun _ => Ser.each (Ser.specWidthTail e) l) (Ser.spaced l) :=
  EG.each (EG.specWidthTail e) l

/-- C46: a conversion operator. -/
theorem C46_cast {e : Env} {p : Nat} {n : Node} {l : List Specifier} {t rt : Bytes} (h : Is e p .Operator_Cast n)
    (hb : Prints e .body n.body t) (hs : SpecSlot e n.specs l) (hr : Prints e .typename n.typ rt) :
    Says e .code p (spacedAfter (leading l) ++ ifText (n.name ≠ []) (n.name ++ b!" ") ++ b!"operator " ++ rt ++ b!"()" ++ spaced (trailing l) ++
      b!"\n{\n" ++ t ++ b!"\n}\n") := by
  refine says_code h ?_
  obtain ⟨hv, rfl, ht⟩ := h
  simp only [dispatch, ht, opcastDef]
  by_cases h0 : (e.h.cell p).specs = 0
  · have hl : l = [] := by unfold SpecSlot at hs; rw [if_pos h0] at hs; exact hs
    subst hl
    refine EG.congr (EG.ifNeg (by simpa using h0) (EG.sub hr (EG.sub hb (EG.ite
      (fun _ => EG.fmt e [.s (e.nullStr p) (e.h.cell p).name, .lit b!" operator ", .sb rt, .lit b!"()\n{\n", .sb t, .lit b!"\n}\n"] rfl rfl rfl)
      (fun _ => EG.fmt e [.lit b!"operator ", .sb rt, .lit b!"()\n{\n", .sb t, .lit b!"\n}\n"] rfl rfl rfl))))) ?_
    by_cases h1 : (e.h.cell p).name = [] <;> simp [textOf, strText, ifText, h1, spacedAfter, leading, trailing, spaced]
  · refine EG.congr (EG.ifPos h0 (EG.reading (specList_ok hs) (EG.seq (EG.seq (EG.seq (EG.spacedAfter e _) (EG.sub hr (EG.ite
      (fun _ => EG.fmt e [.s (e.nullStr p) (e.h.cell p).name, .lit b!" operator ", .sb rt, .lit b!"()"] rfl rfl rfl)
      (fun _ => EG.fmt e [.lit b!"operator ", .sb rt, .lit b!"()"] rfl rfl rfl)))) (EG.spaced e _)) (EG.bodyNl hb)))) ?_
    by_cases h1 : (e.h.cell p).name = [] <;> simp [textOf, strText, ifText, h1, leading, trailing]

/-- C46: the declaration of a conversion operator (with specifiers, or without comment). -/
theorem C46_cast_fwd {e : Env} {p : Nat} {n : Node} {l : List Specifier} {rt : Bytes} (h : Is e p .Operator_Cast_Fwd n)
    (hs : SpecSlot e n.specs l) (hr : Prints e .typename n.typ rt) (hc : Slot e n.inlineCmt) (hx : n.specs ≠ 0 ∨ n.inlineCmt = 0) :
    Says e .code p (spacedAfter (leading l) ++ b!"operator " ++ rt ++ b!"()" ++ spaced (trailing l) ++ cmtText e n b!";  " b!"" b!";\n") := by
  refine says_code h ?_
  obtain ⟨hv, rfl, ht⟩ := h
  simp only [dispatch, ht, opcastFwd]
  by_cases h0 : (e.h.cell p).specs = 0
  · have hl : l = [] := by unfold SpecSlot at hs; rw [if_pos h0] at hs; exact hs
    subst hl
    have hc0 : (e.h.cell p).inlineCmt = 0 := by rcases hx with hx | hx; · exact absurd h0 hx
                                                · exact hx
    refine EG.congr (EG.ifNeg (by simpa using h0) (EG.sub hr (EG.ifNeg (by simpa using hc0)
      (EG.fmt e [.lit b!"operator ", .sb rt, .lit b!"();\n"] rfl rfl rfl)))) ?_
    simp [textOf, spacedAfter, leading, trailing, spaced, cmtText, hc0]
  · refine EG.congr (EG.ifPos h0 (EG.reading (specList_ok hs) (EG.seq (EG.seq (EG.seq (EG.spacedAfter e _) (EG.sub hr
      (EG.fmt e [.lit b!"operator ", .sb rt, .lit b!"()"] rfl rfl rfl))) (EG.spacedTail e _))
      (EG.cmtText e _ b!";  " b!"" b!";\n" hc rfl rfl rfl (by decide))))) ?_
    simp [textOf, leading, trailing]

/-- The name a constructor is printed with: that of the class whose body it is in. -/
def ctorText (e : Env) (n : Node) : Bytes :=
  if (e.h.cell n.parent).parent ≠ 0 then (e.h.cell (e.h.cell n.parent).parent).name else n.name

theorem ctorName_eg {e : Env} {n : Node} (hq : e.h.Valid n.parent) (hc : Slot e (e.h.cell n.parent).parent) :
    EG (fun _ => ctorName e n) (ctorText e n) :=
  EG.reading (get_ok hq) (EG.ite (fun h => EG.reading (get_ok (hc h)) (EG.str _)) (fun _ => EG.str _))

/-- C46: a constructor in a class. -/
theorem C46_constructor {e : Env} {p : Nat} {n : Node} {t pt it : Bytes} (h : Is e p .Constructor n) (hq : e.h.Valid n.parent)
    (hqq : Slot e (e.h.cell n.parent).parent) (hb : Prints e .code n.body t) (hp : n.params ≠ 0 → Prints e .params n.params pt)
    (hi : n.typ ≠ 0 → Prints e .code n.typ it) (hc : Slot e n.inlineCmt) :
    Says e .code p (ctorText e n ++ (if n.params = 0 then b!"()" else b!"( " ++ pt ++ b!" )") ++ optText n.typ (b!" : " ++ it) ++
      cmtText e n b!" // " b!"" b!"" ++ b!"\n{\n" ++ t ++ b!"\n}\n") := by
  refine says_code h ?_
  simp only [dispatch, h.type, constructorDef]
  refine EG.congr (EG.seq (EG.seq (EG.seq (EG.seq (ctorName_eg hq hqq)
      (EG.ifSlot (fun hn => EG.sub (hp hn) (EG.fmt e [.lit b!"( ", .sb pt, .lit b!" )"] rfl rfl rfl)) (fun _ => EG.str _)))
      (EG.slotWith e n.typ .code it b!" : " b!"" hi rfl rfl rfl))
      (EG.cmtOpt e n b!" // " b!"" hc rfl rfl rfl (by decide)))
    (EG.bodyNl hb)) ?_
  by_cases h1 : n.params = 0 <;> simp [textOf, h1]

/-- C46: the declaration of a constructor in a class; the body of a declaration is what follows `=`. -/
theorem C46_constructor_fwd {e : Env} {p : Nat} {n : Node} {t pt : Bytes} (h : Is e p .Constructor_Fwd n) (hq : e.h.Valid n.parent)
    (hqq : Slot e (e.h.cell n.parent).parent) (hb : n.body ≠ 0 → Prints e .code n.body t) (hp : n.params ≠ 0 → Prints e .params n.params pt)
    (hc : Slot e n.inlineCmt) :
    Says e .code p (ctorText e n ++ (if n.params = 0 then b!"()" else b!"( " ++ pt ++ b!" )") ++ optText n.body (b!" = " ++ t) ++
      cmtText e n b!"; // " b!"\n" b!";\n") := by
  refine says_code h ?_
  simp only [dispatch, h.type, constructorFwd]
  refine EG.congr (EG.seq (EG.seq (EG.seq (ctorName_eg hq hqq)
      (EG.ifSlot (fun hn => EG.sub (hp hn) (EG.fmt e [.lit b!"( ", .sb pt, .lit b!" )"] rfl rfl rfl)) (fun _ => EG.fmt e [.lit b!"()"] rfl rfl rfl)))
      (EG.slotWith e n.body .code t b!" = " b!"" hb rfl rfl rfl))
    (EG.cmtText e n b!"; // " b!"\n" b!";\n" hc rfl rfl rfl (by decide))) ?_
  by_cases h1 : n.params = 0 <;> simp [textOf, h1]

/-- C46: a destructor: by its own name, or by that of its parent. -/
theorem C46_destructor {e : Env} {p : Nat} {n : Node} {l : List Specifier} {t : Bytes} (h : Is e p .Destructor n) (hq : e.h.Valid n.parent)
    (hs : SpecSlot e n.specs l) (hb : Prints e .code n.body t) :
    Says e .code p ((if n.name ≠ [] then n.name else ifText (.Virtual ∈ l) b!"virtual " ++ b!"~" ++ nameText e n.parent) ++ b!"()" ++
      b!"\n{\n" ++ t ++ b!"\n}\n") := by
  refine says_code h ?_
  obtain ⟨hv, rfl, ht⟩ := h
  simp only [dispatch, ht, destructorDef]
  refine EG.congr (EG.seq (EG.ite (fun _ => EG.fmt e [.s (e.nullStr p) (e.h.cell p).name, .lit b!"()"] rfl rfl rfl)
      (fun _ => EG.reading (hasSpec_ok hs .Virtual) (EG.reading (get_ok hq) (EG.ite
        (fun _ => EG.fmt e [.lit b!"virtual ~", .s (e.nullStr (e.h.cell p).parent) (e.h.cell (e.h.cell p).parent).name, .lit b!"()"] rfl rfl rfl)
        (fun _ => EG.fmt e [.lit b!"~", .s (e.nullStr (e.h.cell p).parent) (e.h.cell (e.h.cell p).parent).name, .lit b!"()"] rfl rfl rfl)))))
    (EG.bodyNl hb)) ?_
  by_cases h1 : (e.h.cell p).name = [] <;> by_cases h2 : Specifier.Virtual ∈ l <;> simp [textOf, strText, nameText, h1, h2, ifText]

/-- C46: the declaration of a destructor without specifiers. -/
theorem C46_destructor_fwd {e : Env} {p : Nat} {n : Node} (h : Is e p .Destructor_Fwd n) (hq : e.h.Valid n.parent) (h0 : n.specs = 0)
    (hc : Slot e n.inlineCmt) : Says e .code p (b!"~" ++ nameText e n.parent ++ b!"();" ++ cmtText e n b!"  " b!"" b!"\n") := by
  refine says_code h ?_
  simp only [dispatch, h.type, destructorFwd]
  refine EG.congr (EG.reading (get_ok hq) (EG.seq (EG.ifNeg (by simpa using h0)
      (EG.fmt e [.lit b!"~", .s (e.nullStr n.parent) (e.h.cell n.parent).name, .lit b!"();"] rfl rfl rfl))
    (EG.cmtText e n b!"  " b!"" b!"\n" hc rfl rfl rfl (by decide)))) ?_
  simp [textOf, nameText]

/-! ### What does not hold -/

/-- C46, refuted: the declaration of a virtual destructor ends the declaration before `= 0` or `= default`. -/
theorem C46_virtual_destructor_refuted {e : Env} {p : Nat} {n : Node} {l : List Specifier} {t : Bytes} (h : Is e p .Destructor_Fwd n)
    (hq : e.h.Valid n.parent) (h0 : n.specs ≠ 0) (hs : SpecSlot e n.specs l) (hv : .Virtual ∈ l) (hb : n.body ≠ 0 → Prints e .code n.body t)
    (hc : Slot e n.inlineCmt) :
    Says e .code p (b!"virtual ~" ++ nameText e n.parent ++ b!"();\n" ++
      (if .Pure ∈ l then b!" = 0;" else optText n.body (b!" = " ++ t ++ b!";")) ++ cmtText e n b!"  " b!"" b!"\n") := by
  refine says_code h ?_
  simp only [dispatch, h.type, destructorFwd]
  refine EG.congr (EG.reading (get_ok hq) (EG.seq (EG.ifPos h0 (EG.seq (EG.reading (hasSpec_ok hs .Virtual) (EG.ifPos (by simpa using hv)
      (EG.fmt e [.lit b!"virtual ~", .s (e.nullStr n.parent) (e.h.cell n.parent).name, .lit b!"();\n"] rfl rfl rfl)))
      (EG.reading (hasSpec_ok hs .Pure) (EG.ite (fun _ => EG.str _) (fun _ => EG.slotWith e n.body .code t b!" = " b!";" hb rfl rfl rfl)))))
    (EG.cmtText e n b!"  " b!"" b!"\n" hc rfl rfl rfl (by decide)))) ?_
  by_cases h1 : Specifier.Pure ∈ l <;> simp [textOf, nameText, h1]

/-- C46, refuted: an exported function without attributes and leading specifiers: `export` runs into the return type. -/
theorem C46_export_refuted {e : Env} {p : Nat} {n : Node} {t rt : Bytes} (h : Is e p .Function n) (hx : exported n)
    (hb : Prints e .body n.body t) (ha : n.attributes = 0) (hs : n.specs = 0) (h1 : n.typ ≠ 0) (hr : Prints e .typename n.typ rt)
    (h2 : n.params = 0) (h3 : n.suffix = 0) :
    Says e .code p (b!"export" ++ rt ++ b!" " ++ nameText e p ++ b!"()\n{\n" ++ t ++ b!"\n}\n") := by
  have := C46_function (l := []) (pt := []) (st := []) h hb (by simp [Slot, ha]) (by simp [SpecSlot, hs]) (fun _ => hr) (fun h => absurd h2 h)
    (fun h => absurd h3 h)
  simpa [ifText, hx, optText, ha, spaced, leading, trailing, breakText, sigText, h1, h2, h3] using this

/-- C46, refuted: `virtual T f() = 0` has ` = 0` in front of the return type and twice behind the parameters. -/
theorem C46_pure_refuted {e : Env} {p : Nat} {n : Node} {rt : Bytes} (h : Is e p .Function_Fwd n) (hx : ¬ exported n)
    (ha : n.attributes = 0) (hs : SpecSlot e n.specs [.Virtual, .Pure]) (h1 : n.typ ≠ 0) (hr : Prints e .typename n.typ rt)
    (h2 : n.params = 0) (h3 : n.suffix = 0) (h4 : n.body = 0) (h5 : n.inlineCmt = 0) :
    Says e .code p (b!" virtual = 0\n" ++ rt ++ b!" " ++ nameText e p ++ b!"() = 0 = 0;\n") := by
  have := C46_function_fwd (t := []) (pt := []) (st := []) h (fun h => absurd h4 h) (by simp [Slot, ha]) hs (fun _ => hr) (fun h => absurd h2 h)
    (fun h => absurd h3 h) (by simp [Slot, h5])
  have e1 : spaced (leadingFwd [.Virtual, .Pure]) = b!" virtual = 0" := by decide
  have e2 : spaced (trailing [.Virtual, .Pure]) = b!" = 0" := by decide
  have e3 : pureText [.Virtual, .Pure] = b!" = 0" := by decide
  have e4 : breakText n (leadingFwd [.Virtual, .Pure]) = b!"\n" := by
    simp [breakText, ifText, show leadingFwd [.Virtual, .Pure] ≠ [] by decide]
  rw [e1, e2, e3, e4] at this
  simpa [exportText, ifText, hx, optText, attrText, ha, sigText, h1, h2, h3, h4, cmtText, h5] using this

/-- C46, refuted: the declaration of a conversion operator with a comment and without specifiers is never printed: the format asks for
a second builder that is not passed. -/
theorem C46_cast_comment_refuted {e : Env} {p : Nat} {n : Node} {rt : Bytes} (h : Is e p .Operator_Cast_Fwd n) (hs : n.specs = 0)
    (hc : n.inlineCmt ≠ 0) (hr : Prints e .typename n.typ rt) (h0 : (0 : UInt8) ∉ rt) (hl : rt.length < 131000) (t : Bytes) :
    ¬ Prints e .code p t := by
  intro hpr
  obtain ⟨hv, rfl, ht⟩ := h
  obtain ⟨k, hk⟩ := prints_dispatch hv hpr
  simp only [dispatch, ht, opcastFwd, hs, ne_eq, not_true_eq_false, if_false] at hk
  obtain ⟨u, hu, hk⟩ := reading_ok.1 (show reading _ _ _ = _ from hk)
  have hut : u = rt := Prints.unique ⟨k, hu⟩ hr
  subst hut
  have hk : (if ¬ (e.h.cell p).inlineCmt = 0 then e.fmt b!"operator %SB();  %SB" [sbArg u] else e.fmt b!"operator %SB();\n" [sbArg u]) [] = _ := hk
  rw [if_pos hc] at hk
  have := fmt_ub e b!"operator " b!"();  " b!"" (.sb u [0]) [] (f := b!"operator %SB();  %SB") (as := [sbArg u]) rfl rfl
    ⟨by decide, by decide⟩ ⟨by decide, by decide⟩ h0 (by simp [Conv.isS]) (by simp only [Conv.text, List.length_cons, List.length_nil]; omega)
    (by intro d m as' he; cases he) []
  rw [this] at hk
  cases hk

end Verif.Ser
