import Verif.Props.DefPrint
import Verif.Props.SerTypes
import Verif.Props.Operators
/-!
# Property C49: define, then print — declarations with bodies, variables, operators
-/
namespace Verif.Ser
open Ast

theorem Linked.kept {h h' : Heap} (hk : Kept h h') : ∀ {l : List Nat} {p : Nat}, Linked h p l → Linked h' p l
  | [], _, hl => hl
  | q :: _, _, ⟨h1, h2, h3⟩ => ⟨h1, (hk q h2).1, by rw [(hk q h2).2]; exact h3.kept hk⟩

theorem PrintAll.kept {e : Env} {h' : Heap} (hk : Kept e.h h') {f : Fn} : ∀ {l : List Nat} {ts : List Bytes}, PrintAll e f l ts → PrintAll (e.on h') f l ts
  | [], [], _ => trivial
  | _ :: _, _ :: _, ⟨h1, h2⟩ => ⟨C49_kept hk h1, h2.kept hk⟩
  | [], _ :: _, h => h.elim
  | _ :: _, [], h => h.elim

theorem ptr_kept {e : Env} {h' : Heap} (hk : Kept e.h h') {p : Nat} (h : PtrOk e.h p) : Slot (e.on h') p :=
  PtrOk.slot (Or.imp id (fun v => (hk _ v).1) h)

theorem attr_kept {e : Env} {h' : Heap} (hk : Kept e.h h') {p : Nat} (ha : PtrOk e.h p) (f : Bytes → Bytes) :
    optText p (f ((e.on h').h.cell p).content) = optText p (f (e.h.cell p).content) := by
  unfold optText
  split
  · rfl
  · rename_i hz
    rw [show (e.on h').h = h' from rfl, (hk _ (ha.resolve_left hz)).2]

/-- No array bounds are written. -/
def boundsOf (e : Env) (typ : Nat) (ts : List Bytes) : Bytes := optText (e.h.cell typ).body (wrapped b!"[ " b!" ]" ts)

section
variable (c : Cfg) {e : Env} (hn : 0 < e.h.next)
include hn

/-- C49: the declaration of a function. (`= 0` is printed twice for pure specifiers: `C46_pure_refuted`.) -/
theorem C49_def_function_fwd {name : Bytes} {p : OptsFunction} {l : List Specifier} {rt pt : Bytes} (h0 : name ≠ [])
    (ha : PtrOk e.h p.attrs) (hat : OptIs e.h p.attrs [.PlatformAttributes]) (hs : SpecSlot e p.specs l) (hst : OptIs e.h p.specs [.Specifiers])
    (hl : .Pure ∉ l ∧ .Delete ∉ l)
    (hr : Prints e .typename (if p.retType = 0 then c.tVoid else p.retType) rt) (hrt : OptIs e.h p.retType [.Typename])
    (hp : p.params ≠ 0 → Prints e .params p.params pt) (hpt : OptIs e.h p.params [.Parameters]) (hb : p.body = 0) :
    Yields e (defFunction c e.h name p)
      (exportOf p.mflags ++ attrOf e p.attrs ++ spaced (leading l) ++
        ifText (p.attrs ≠ 0 ∨ leading l ≠ []) b!"\n" ++ rt ++ b!" " ++ name ++ b!"(" ++ optText p.params pt ++ b!")" ++ spaced (trailing l) ++
        b!";\n") := by
  have hro : PtrOk e.h p.retType := by
    by_cases hz : p.retType = 0
    · exact .inl hz
    · rw [if_neg hz] at hr; exact .inr hr.valid
  refine yields_of_built ((C29_def_function c hn name p (Prints.ptrOk hp) hro hs.ptrOk ha (.inl hb)).1
    ⟨h0, hpt, hrt, hst, hat, .inl hb⟩) fun h' hk h => ?_
  have h : Is (e.on h') e.h.next .Function_Fwd _ := ⟨h.valid, h.cell, by simp [hb]⟩
  have := C46_function_fwd (t := []) (st := []) h (fun hz => absurd hb hz) (ptr_kept hk ha) (hs.kept hk)
    (fun _ => C49_kept hk hr) (fun hz => C49_kept hk (hp hz)) (fun hz => absurd rfl hz) (fun hz => absurd rfl hz)
  unfold sigText breakText at this
  rw [nameText_set h.cell h0, attrText_of hk ha, (C46_function_fwd_plain hl.1 hl.2).1, (C46_function_fwd_plain hl.1 hl.2).2] at this
  have hty : optText (if p.retType = 0 then c.tVoid else p.retType) (rt ++ b!" ") = rt ++ b!" " := if_neg (Nat.pos_iff_ne_zero.1 hr.valid.1)
  simp only [hty] at this
  refine this.cast ?_
  by_cases hx : p.mflags % 2 = 1 <;> simp [optText, ifText, exportText, exportOf, exported, cmtText, hx, hb]

/-- C49: a struct, with or without a parent (but not a protected one: its access specifier is printed wrongly). -/
theorem C49_def_struct {fuel : Nat} {name : Bytes} {p : OptsStruct} {l : List Specifier} {t pt : Bytes} (hi : p.interfaces = [])
    (ha : PtrOk e.h p.attributes) (hat : OptIs e.h p.attributes [.PlatformAttributes]) (hs : SpecSlot e p.specifiers l)
    (hp : p.parent ≠ 0 → Prints e .typename p.parent pt ∧ (e.h.cell p.parent).back = 0 ∧ (e.h.cell p.parent).type = .Typename)
    (hacc : p.parentAccess ≠ 2) (hb : Prints e .body p.body t) (hbt : (e.h.cell p.body).type = .Struct_Body) :
    Yields e (defStruct fuel c e.h name p)
      (exportOf p.mflags ++ b!"struct " ++ attrOf e p.attributes ++ name ++ ifText (.Final ∈ l) b!" final" ++
        optText p.parent (b!" : " ++ accessText p.parentAccess ++ b!" " ++ pt) ++ b!"\n{\n" ++ t ++ b!"\n};\n") := by
  have b0 := Nat.pos_iff_ne_zero.1 hb.valid.1
  have hpo : PtrOk e.h p.parent := Prints.ptrOk fun hz => (hp hz).1
  have hpi : OptIs e.h p.parent [.Typename] := by
    by_cases hz : p.parent = 0
    · exact .inl hz
    · exact .inr (by simp [(hp hz).2.2])
  refine yields_of_built ((C29_def_struct c hn fuel name p hi ha hpo (.inr hb.valid)).1 ⟨hat, hpi, .inr (by simp [hbt])⟩) fun h' hk h => ?_
  have h : Is (e.on h') e.h.next .Struct _ := ⟨h.valid, h.cell, by simp [b0]⟩
  have hcell : p.parent ≠ 0 → (e.on h').h.cell p.parent = e.h.cell p.parent := fun hz => (hk _ (hp hz).1.valid).2
  have := C45_struct (ps := []) (ts := []) h (C49_kept hk hb) (ptr_kept hk ha) (hs.kept hk) (fun hz => absurd rfl hz) (fun hz => absurd rfl hz)
    (ptr_kept hk hpo) (fun hz => ⟨C49_kept hk (hp hz).1, by rw [hcell hz]; exact (hp hz).2.1, trivial⟩) (by simp only; omega)
  rw [attrText_of hk ha, endText_none rfl] at this
  unfold parentsText at this
  refine this.cast ?_
  by_cases hz : p.parent = 0
  · by_cases hx : p.mflags % 2 = 1 <;> simp [optText, ifText, exportText, exportOf, exported, cmtText, wrapped, hx, hz]
  · by_cases hx : p.mflags % 2 = 1 <;>
      simp [optText, ifText, exportText, exportOf, exported, cmtText, wrapped, hx, hz, hcell hz, (hp hz).2.1]

/-- C49: the declaration of a struct. -/
theorem C49_def_struct_fwd {fuel : Nat} {name : Bytes} {p : OptsStruct} (hi : p.interfaces = []) (h0 : name ≠ [])
    (ha : PtrOk e.h p.attributes) (hat : OptIs e.h p.attributes [.PlatformAttributes]) (hp : p.parent = 0) (hb : p.body = 0) :
    Yields e (defStruct fuel c e.h name p) (exportOf p.mflags ++ b!"struct " ++ attrOf e p.attributes ++ name ++ b!";\n") := by
  refine yields_of_built ((C29_def_struct c hn fuel name p hi ha (.inl hp) (.inl hb)).1 ⟨hat, .inl hp, .inl hb⟩) fun h' hk h => ?_
  have h : Is (e.on h') e.h.next .Struct_Fwd _ := ⟨h.valid, h.cell, by simp [hb]⟩
  have := C45_struct_fwd h (ptr_kept hk ha) (fun hz => absurd rfl hz) (fun hz => absurd rfl hz)
  rw [attrText_of hk ha, endText_none rfl, nameText_set h.cell h0] at this
  refine this.cast ?_
  by_cases hx : p.mflags % 2 = 1 <;> simp [ifText, exportText, exportOf, exported, cmtText, hx]

/-- C49: the declaration of a class. -/
theorem C49_def_class_fwd {fuel : Nat} {name : Bytes} {p : OptsStruct} (hi : p.interfaces = []) (h0 : name ≠ [])
    (ha : PtrOk e.h p.attributes) (hat : OptIs e.h p.attributes [.PlatformAttributes]) (hp : p.parent = 0) (hb : p.body = 0) :
    Yields e (defClass fuel c e.h name p) (exportOf p.mflags ++ b!"class " ++ attrOf e p.attributes ++ name ++ b!";\n") := by
  refine yields_of_built ((C29_def_class_fwd c hn fuel name p hb hi ha (.inl hp)).1 ⟨h0, hat, .inl hp⟩) fun h' hk h => ?_
  have := C45_class_fwd h (ptr_kept hk ha) (fun hz => absurd rfl hz) (fun hz => absurd rfl hz)
  rw [attrText_of hk ha, endText_none rfl, nameText_set h.cell h0] at this
  refine this.cast ?_
  by_cases hx : p.mflags % 2 = 1 <;> simp [ifText, exportText, exportOf, exported, cmtText, hx]

/-- C49: a union; it may be anonymous. -/
theorem C49_def_union {name : Bytes} {body attributes mflags : Nat} {t : Bytes} (ha : PtrOk e.h attributes)
    (hat : OptIs e.h attributes [.PlatformAttributes]) (hb : Prints e .body body t) (hbt : (e.h.cell body).type = .Union_Body) :
    Yields e (defUnion c e.h name body attributes mflags)
      (exportOf mflags ++ b!"union " ++ attrOf e attributes ++ name ++ b!"\n{\n" ++ t ++ b!"\n};\n") := by
  refine yields_of_built ((C29_def_union c hn name body attributes mflags (.inr hb.valid) ha).1
    ⟨⟨Nat.pos_iff_ne_zero.1 hb.valid.1, by simp [hbt]⟩, hat⟩) fun h' hk h => ?_
  have := C45_union h (C49_kept hk hb) (ptr_kept hk ha) (fun hz => absurd rfl hz)
  rw [attrText_of hk ha, endText_none rfl] at this
  refine this.cast ?_
  by_cases hx : mflags % 2 = 1 <;> simp [ifText, exportText, exportOf, exported, hx]

/-- C49: an enum with its underlying type, or the macro that stands for it. -/
theorem C49_def_enum {name : Bytes} {p : OptsEnum} {t ut mt : Bytes} (h0 : name ≠ []) (hcl : p.isClass = false)
    (ha : PtrOk e.h p.attributes) (hat : OptIs e.h p.attributes [.PlatformAttributes])
    (hu : p.type ≠ 0 → Prints e .typename p.type ut ∧ (e.h.cell p.type).type = .Typename)
    (hm : p.type = 0 → Prints e .code p.typeMacro mt) (hb : Prints e .body p.body t)
    (hbt : (e.h.cell p.body).type ∈ [CodeType.Enum_Body, .Untyped]) :
    Yields e (defEnum c e.h name p) (exportOf p.mflags ++ b!"enum " ++ attrOf e p.attributes ++ name ++
      (if p.type ≠ 0 then b!" : " ++ ut else b!" " ++ mt) ++ b!"\n{\n" ++ t ++ b!"\n};\n") := by
  have b0 := Nat.pos_iff_ne_zero.1 hb.valid.1
  have hui : OptIs e.h p.type [.Typename] := by
    by_cases hz : p.type = 0
    · exact .inl hz
    · exact .inr (by simp [(hu hz).2])
  refine yields_of_built ((C29_def_enum c hn name p (Prints.ptrOk fun hz => (hu hz).1) ha (.inr hb.valid)).1
    ⟨h0, hui, hat, .inr hbt, fun _ => by
      by_cases hz : p.type = 0
      · exact .inr (Nat.pos_iff_ne_zero.1 (hm hz).valid.1)
      · exact .inl hz⟩) fun h' hk h => ?_
  have h : Is (e.on h') e.h.next .Enum _ := ⟨h.valid, h.cell, by simp [b0, hcl]⟩
  have := C45_enum (ut := ut) (mt := mt) h (C49_kept hk hb) (ptr_kept hk ha) (fun hz => absurd rfl hz) (fun hz => C49_kept hk (hu hz).1)
    (fun hz => by
      by_cases ht : p.type = 0
      · simp only [ht, if_true] at hz ⊢; exact C49_kept hk (hm ht)
      · simp only [ht, if_false] at hz; exact absurd rfl hz)
  rw [attrText_of hk ha, endText_none rfl, nameText_set h.cell h0] at this
  unfold underText at this
  refine this.cast ?_
  by_cases ht : p.type = 0
  · have hmz := Nat.pos_iff_ne_zero.1 (hm ht).valid.1
    by_cases hx : p.mflags % 2 = 1 <;> simp [optText, ifText, exportText, exportOf, exported, hx, ht, hmz]
  · by_cases hx : p.mflags % 2 = 1 <;> simp [optText, ifText, exportText, exportOf, exported, hx, ht]

/-- C49: a scoped enum with its underlying type. -/
theorem C49_def_enum_class {name : Bytes} {p : OptsEnum} {t ut : Bytes} (h0 : name ≠ []) (hcl : p.isClass = true)
    (ha : PtrOk e.h p.attributes) (hat : OptIs e.h p.attributes [.PlatformAttributes])
    (hu : Prints e .typename p.type ut) (hut : (e.h.cell p.type).type = .Typename) (hb : Prints e .body p.body t)
    (hbt : (e.h.cell p.body).type ∈ [CodeType.Enum_Body, .Untyped]) :
    Yields e (defEnum c e.h name p) (exportOf p.mflags ++ b!"enum class " ++ attrOf e p.attributes ++ name ++
      b!" : " ++ ut ++ b!"\n{\n" ++ t ++ b!"\n};\n") := by
  have b0 := Nat.pos_iff_ne_zero.1 hb.valid.1
  have u0 := Nat.pos_iff_ne_zero.1 hu.valid.1
  refine yields_of_built ((C29_def_enum c hn name p (.inr hu.valid) ha (.inr hb.valid)).1
    ⟨h0, .inr (by simp [hut]), hat, .inr hbt, fun _ => .inl u0⟩) fun h' hk h => ?_
  have h : Is (e.on h') e.h.next .Enum_Class _ := ⟨h.valid, h.cell, by simp [b0, hcl]⟩
  have := C45_enum_class (ut := ut) h (C49_kept hk hb) (ptr_kept hk ha) (fun hz => absurd rfl hz) (fun hz => C49_kept hk hu) (.inr u0)
  rw [attrText_of hk ha, endText_none rfl, nameText_set h.cell h0] at this
  refine this.cast ?_
  by_cases hx : p.mflags % 2 = 1 <;> simp [optText, ifText, exportText, exportOf, exported, hx, u0]

/-- C49: the declaration of an enum or scoped enum with its underlying type. -/
theorem C49_def_enum_fwd {name : Bytes} {p : OptsEnum} {ut : Bytes} (h0 : name ≠ [])
    (ha : PtrOk e.h p.attributes) (hat : OptIs e.h p.attributes [.PlatformAttributes])
    (hu : Prints e .typename p.type ut) (hut : (e.h.cell p.type).type = .Typename) (hb : p.body = 0) :
    Yields e (defEnum c e.h name p) (exportOf p.mflags ++
      (if p.isClass then b!"enum class " ++ attrOf e p.attributes else attrOf e p.attributes ++ b!"enum ") ++ name ++ b!" : " ++ ut ++ b!";\n") := by
  have u0 := Nat.pos_iff_ne_zero.1 hu.valid.1
  refine yields_of_built ((C29_def_enum c hn name p (.inr hu.valid) ha (.inl hb)).1
    ⟨h0, .inr (by simp [hut]), hat, .inl hb, fun hz => absurd hb hz⟩) fun h' hk h => ?_
  cases hcl : p.isClass
  · have h : Is (e.on h') e.h.next .Enum_Fwd _ := ⟨h.valid, h.cell, by simp [hb, hcl]⟩
    have := C45_enum_fwd (ut := ut) (mt := []) h (ptr_kept hk ha) (fun hz => absurd rfl hz) (fun hz => absurd rfl hz) (fun hz => C49_kept hk hu)
      (fun hz => by simp [u0] at hz)
    rw [attrText_of hk ha, endText_none rfl, nameText_set h.cell h0] at this
    unfold underText at this
    refine this.cast ?_
    by_cases hx : p.mflags % 2 = 1 <;> simp [ifText, exportText, exportOf, exported, cmtText, hx, u0]
  · have h : Is (e.on h') e.h.next .Enum_Class_Fwd _ := ⟨h.valid, h.cell, by simp [hb, hcl]⟩
    have := C45_enum_class_fwd (ut := ut) h (ptr_kept hk ha) (fun hz => absurd rfl hz) (fun hz => absurd rfl hz) (C49_kept hk hu)
    rw [attrText_of hk ha, endText_none rfl, nameText_set h.cell h0] at this
    refine this.cast ?_
    by_cases hx : p.mflags % 2 = 1 <;> simp [ifText, exportText, exportOf, exported, cmtText, hx]

/-- C49, refuted: `def_enum` accepts a scoped enum declaration without underlying type, and printing it fails. -/
theorem C49_def_enum_class_fwd_refuted {name : Bytes} {p : OptsEnum} (h0 : name ≠ []) (hcl : p.isClass = true)
    (ha : PtrOk e.h p.attributes) (hat : OptIs e.h p.attributes [.PlatformAttributes]) (hu : p.type = 0) (hb : p.body = 0) :
    ∃ q h', defEnum c e.h name p = .ok (q, h') ∧ ∀ t, ¬ Prints (e.on h') .code q t := by
  obtain ⟨h', h1, h2, h3, _⟩ := (C29_def_enum c hn name p (.inl hu) ha (.inl hb)).1 ⟨h0, .inl hu, hat, .inl hb, fun hz => absurd hb hz⟩
  exact ⟨_, h', h1, fun t => C45_enum_class_fwd_refuted (e := e.on h') ⟨h2, h3, by simp [hb, hcl]⟩ hu t⟩

/-- C49: templates. -/
theorem C49_def_template {params declaration mflags : Nat} {pt d : Bytes} (hp : params ≠ 0 → Prints e .params params pt)
    (hpt : OptIs e.h params [.Parameters]) (hd : Prints e .code declaration d)
    (hdt : (e.h.cell declaration).type ∈ [CodeType.Class, .Function, .Struct, .Variable, .Using]) :
    Yields e (defTemplate c e.h params declaration mflags)
      (exportOf mflags ++ (if params = 0 then b!"template<>\n" else b!"template< " ++ pt ++ b!" >\n") ++ d) := by
  refine yields_of_built ((C29_def_template c hn params declaration mflags (Prints.ptrOk hp) hd.valid hdt).1 hpt) fun h' hk h => ?_
  have := C48_template h (fun hz => C49_kept hk (hp hz)) (C49_kept hk hd)
  refine this.cast ?_
  by_cases hx : mflags % 2 = 1 <;> simp [ifText, exportText, exportOf, exported, hx]

/-- C49: macros. -/
theorem C49_def_define {name : Bytes} {p : OptsDefine} {pt : Bytes} (hz : 0 ∉ p.content) (hl : p.content.length + 2 < 131072) (h0 : name ≠ [])
    (hp : p.params ≠ 0 → Prints e .defParams p.params pt) :
    Yields e (defDefine c e.h name p)
      (b!"#define " ++ name ++ optText p.params (b!"(" ++ pt ++ b!")") ++ b!" " ++ p.content ++ b!"\n") := by
  obtain ⟨h', h1, h2, h3, hk, h4, h5⟩ := C29_def_define c hn name p hz hl h0
  refine ⟨_, h', h1, ?_⟩
  have h : Is (e.on h') e.h.next .Preprocess_Define _ := ⟨h2, h4, rfl⟩
  have hc : ((e.on h').h.cell (e.h.next + 1)).content = p.content ++ b!"\n" := by rw [show (e.on h').h = h' from rfl, h5]
  by_cases hpz : p.params = 0
  · have := C48_define h hpz h3 (by simp only [hc]; simp)
    rw [nameText_set h.cell h0] at this
    refine this.cast ?_
    simp only [hc]
    simp [optText, hpz]
  · have := C48_define_params h hpz (C49_kept hk (hp hpz)) h3 (by simp only [hc]; simp)
    rw [nameText_set h.cell h0] at this
    refine this.cast ?_
    simp only [hc]
    simp [optText, hpz]

/-- C49: a variable without attributes and specifiers: `type name[ bounds ] = value;`. -/
theorem C49_def_variable {type : Nat} {name : Bytes} {p : OptsVariable} {tt vt : Bytes} {l : List Nat} {ts : List Bytes} (h0 : name ≠ [])
    (ht : Prints e .typename type tt) (htt : (e.h.cell type).type = .Typename)
    (hl : (e.h.cell type).body ≠ 0 → Linked e.h (e.h.cell type).body l) (hp : PrintAll e .code l ts)
    (hv : p.value ≠ 0 → Prints e .code p.value vt) (hvt : OptIs e.h p.value [.Untyped]) (ha : p.attributes = 0) (hs : p.specifiers = 0) :
    Yields e (defVariable c e.h type name p)
      (exportOf p.mflags ++ tt ++ b!" " ++ name ++ boundsOf e type ts ++ optText p.value (b!" = " ++ vt) ++ b!";\n") := by
  have t0 := Nat.pos_iff_ne_zero.1 ht.valid.1
  refine yields_of_built ((C29_def_variable c hn type name p (.inr ht.valid) (.inl ha) (.inl hs) (Prints.ptrOk hv)).1
    ⟨h0, ⟨t0, by simp [htt]⟩, .inl ha, .inl hs, hvt⟩) fun h' hk h => ?_
  have hc : (e.on h').h.cell type = e.h.cell type := (hk _ ht.valid).2
  have := C47_variable (l := l) (ts := ts) (st := []) (nx := []) h.valid h.cell (fun hz => absurd rfl hz) (fun hz => absurd rfl hz.1) ha hs (hk _ ht.valid).1 (C49_kept hk ht)
    (fun hz => absurd rfl hz) (by simp only [hc]; exact fun hz => (hl hz).kept hk) (fun _ => hp.kept hk) (fun hz => C49_kept hk (hv hz))
    (fun hz => absurd rfl hz) (fun hz => absurd rfl hz)
  intro hf
  rw [C47_variable_code h]
  rw [nameText_set h.cell h0] at this
  refine this.print' ?_ hf
  unfold boundsText boundsOf initText
  simp only [hc]
  by_cases hx : p.mflags % 2 = 1 <;> simp [optText, ifText, exportText, exportOf, exported, cmtText, hx, t0]

/-- C49: a variable with attributes or specifiers. -/
theorem C49_def_variable_specified {type : Nat} {name : Bytes} {p : OptsVariable} {sl : List Specifier} {tt vt : Bytes} {l : List Nat} {ts : List Bytes}
    (h0 : name ≠ []) (ht : Prints e .typename type tt) (htt : (e.h.cell type).type = .Typename)
    (hl : (e.h.cell type).body ≠ 0 → Linked e.h (e.h.cell type).body l) (hp : PrintAll e .code l ts)
    (hv : p.value ≠ 0 → Prints e .code p.value vt) (hvt : OptIs e.h p.value [.Untyped]) (hany : p.attributes ≠ 0 ∨ p.specifiers ≠ 0)
    (ha : PtrOk e.h p.attributes) (hat : OptIs e.h p.attributes [.PlatformAttributes]) (hs : SpecSlot e p.specifiers sl)
    (hst : OptIs e.h p.specifiers [.Specifiers]) :
    Yields e (defVariable c e.h type name p)
      (exportOf p.mflags ++ attrOf e p.attributes ++ optText p.specifiers (specsText sl) ++ tt ++ b!" " ++ name ++ boundsOf e type ts ++
        optText p.value (b!" = " ++ vt) ++ b!";\n") := by
  have t0 := Nat.pos_iff_ne_zero.1 ht.valid.1
  refine yields_of_built ((C29_def_variable c hn type name p (.inr ht.valid) ha hs.ptrOk (Prints.ptrOk hv)).1
    ⟨h0, ⟨t0, by simp [htt]⟩, hat, hst, hvt⟩) fun h' hk h => ?_
  have hc : (e.on h').h.cell type = e.h.cell type := (hk _ ht.valid).2
  have := C47_variable_specified (l := l) (ts := ts) (st := []) (nx := []) h.valid h.cell (fun hz => absurd rfl hz) (fun hz => absurd rfl hz.1) hany (ptr_kept hk ha) (hs.kept hk)
    (hk _ ht.valid).1 (C49_kept hk ht)
    (fun hz => absurd rfl hz) (by simp only [hc]; exact fun hz => (hl hz).kept hk) (hp.kept hk) (fun hz => C49_kept hk (hv hz))
    (fun hz => absurd rfl hz) (fun hz => absurd rfl hz)
  intro hf
  rw [C47_variable_code h]
  rw [nameText_set h.cell h0, attrText_of hk ha] at this
  refine this.print' ?_ hf
  unfold boundsText boundsOf initText
  simp only [hc]
  by_cases hx : p.mflags % 2 = 1 <;> simp [optText, ifText, exportText, exportOf, exported, cmtText, hx, t0]

/-- C49: an operator with a body, of a type accepted by the checks of C30. -/
theorem C49_def_operator {fuel : Nat} {op : Operator} {nspace : Bytes} {p : OptsOperator} {v : OpVal} {l : List Specifier} {t rt pt : Bytes}
    (hv : operatorValidate fuel c e.h op p.params p.retType = .ok v) (hf : v ≠ .fail) (hz : 0 ∉ nspace) (hlen : nspace.length < 100000)
    (ha : p.attributes = 0) (hs : SpecSlot e p.specifiers l) (hst : OptIs e.h p.specifiers [.Specifiers])
    (hr : Prints e .typename p.retType rt) (hp : p.params ≠ 0 → Prints e .params p.params pt)
    (hb : Prints e .body p.body t) (hbt : (e.h.cell p.body).type ∈ [CodeType.Function_Body, .Execution, .Untyped]) :
    Yields e (defOperator fuel c e.h op nspace p)
      (exportOf p.mflags ++ spaced (leading l) ++ optText p.specifiers b!"\n" ++ rt ++ b!" " ++ nspace ++ b!"operator " ++ operatorToStr op ++
        b!" (" ++ optText p.params pt ++ b!")" ++ spaced (trailing l) ++ b!"\n{\n" ++ t ++ b!"\n}\n") := by
  have b0 := Nat.pos_iff_ne_zero.1 hb.valid.1
  refine yields_of_built ((C29_def_operator fuel c hn op nspace p v hv hf hz hlen (.inl ha) hs.ptrOk (.inr hb.valid)).1
    ⟨.inl ha, hst, .inr hbt⟩) fun h' hk h => ?_
  have h1 : (Is (e.on h') e.h.next .Operator (e.on h' |>.h.cell e.h.next)) ∨ Is (e.on h') e.h.next .Operator_Member (e.on h' |>.h.cell e.h.next) := by
    cases v
    · exact absurd rfl hf
    · exact .inl ⟨h.valid, rfl, by rw [h.cell]; simp [b0]⟩
    · exact .inr ⟨h.valid, rfl, by rw [h.cell]; simp [b0]⟩
  rw [h.cell] at h1
  have := C46_operator (pt := pt) h1 (C49_kept hk hb) (fun hx => absurd ha hx) (hs.kept hk) (Nat.pos_iff_ne_zero.1 hr.valid.1) (C49_kept hk hr)
    (fun hx => C49_kept hk (hp hx))
  rw [nameText_set h.cell (by simp)] at this
  refine this.cast ?_
  by_cases hx : p.mflags % 2 = 1 <;> by_cases hy : p.specifiers = 0 <;>
    simp [optText, ifText, exportText, exportOf, exported, attrText, hx, hy, ha]

/-- C49: the declaration of an operator, of a type accepted by the checks of C30. -/
theorem C49_def_operator_fwd {fuel : Nat} {op : Operator} {nspace : Bytes} {p : OptsOperator} {v : OpVal} {l : List Specifier} {rt pt : Bytes}
    (hv : operatorValidate fuel c e.h op p.params p.retType = .ok v) (hf : v ≠ .fail) (hz : 0 ∉ nspace) (hlen : nspace.length < 100000)
    (ha : PtrOk e.h p.attributes) (hat : OptIs e.h p.attributes [.PlatformAttributes])
    (hs : SpecSlot e p.specifiers l) (hst : OptIs e.h p.specifiers [.Specifiers])
    (hr : Prints e .typename p.retType rt) (hp : p.params ≠ 0 → Prints e .params p.params pt) (hb : p.body = 0) :
    Yields e (defOperator fuel c e.h op nspace p)
      (exportOf p.mflags ++ optText p.attributes ((e.h.cell p.attributes).content ++ b!"\n") ++ spaced (leading l) ++
        ifText (p.attributes ≠ 0 ∨ p.specifiers ≠ 0) b!"\n" ++ rt ++ b!" " ++ nspace ++ b!"operator " ++ operatorToStr op ++
        b!" (" ++ optText p.params pt ++ b!")" ++ spaced (trailing l) ++ b!";\n") := by
  refine yields_of_built ((C29_def_operator fuel c hn op nspace p v hv hf hz hlen ha hs.ptrOk (.inl hb)).1
    ⟨hat, hst, .inl hb⟩) fun h' hk h => ?_
  have h1 : (Is (e.on h') e.h.next .Operator_Fwd (e.on h' |>.h.cell e.h.next)) ∨ Is (e.on h') e.h.next .Operator_Member_Fwd (e.on h' |>.h.cell e.h.next) := by
    cases v
    · exact absurd rfl hf
    · exact .inl ⟨h.valid, rfl, by rw [h.cell]; simp [hb]⟩
    · exact .inr ⟨h.valid, rfl, by rw [h.cell]; simp [hb]⟩
  rw [h.cell] at h1
  have := C46_operator_fwd (pt := pt) h1 (ptr_kept hk ha) (hs.kept hk) (fun hx => absurd rfl hx) (C49_kept hk hr)
    (fun hx => C49_kept hk (hp hx))
  rw [nameText_set h.cell (by simp)] at this
  have hat2 := attr_kept hk ha fun x => x ++ b!"\n"
  simp only [hat2] at this
  refine this.cast ?_
  by_cases hx : p.mflags % 2 = 1 <;> simp [ifText, exportText, exportOf, exported, cmtText, hx]

/-- C49: a conversion operator. -/
theorem C49_def_operator_cast {type body specs : Nat} {l : List Specifier} {t rt : Bytes} (hr : Prints e .typename type rt)
    (hrt : (e.h.cell type).type = .Typename) (hs : SpecSlot e specs l) (hb : body ≠ 0 → Prints e .body body t)
    (hbt : OptIs e.h body [.Function_Body, .Execution]) :
    Yields e (defOperatorCast c e.h type body specs) (spacedAfter (leading l) ++ b!"operator " ++ rt ++ b!"()" ++ spaced (trailing l) ++
      (if body = 0 then b!";\n" else b!"\n{\n" ++ t ++ b!"\n}\n")) := by
  refine yields_of_built ((C29_def_operator_cast c hn type body specs (.inr hr.valid) (Prints.ptrOk hb)).1
    ⟨⟨Nat.pos_iff_ne_zero.1 hr.valid.1, by simp [hrt]⟩, hbt⟩) fun h' hk h => ?_
  by_cases b0 : body = 0
  · have h : Is (e.on h') e.h.next .Operator_Cast_Fwd _ := ⟨h.valid, h.cell, by simp [b0]⟩
    have := C46_cast_fwd h (hs.kept hk) (C49_kept hk hr) (fun hz => absurd rfl hz) (.inr rfl)
    refine this.cast ?_
    simp [cmtText, b0]
  · have h : Is (e.on h') e.h.next .Operator_Cast _ := ⟨h.valid, h.cell, by simp [b0]⟩
    have := C46_cast h (C49_kept hk (hb b0)) (hs.kept hk) (C49_kept hk hr)
    refine this.cast ?_
    simp [ifText, b0]

/-- C49: a typedef of a plain type. -/
theorem C49_def_typedef {name : Bytes} {type attributes mflags : Nat} {tt : Bytes} (h0 : name ≠ []) (ht : Prints e .code type tt)
    (htt : (e.h.cell type).type = .Typename) (hty : (e.h.cell type).typ = 0) (hb : (e.h.cell type).body = 0)
    (ha : PtrOk e.h attributes) (hat : OptIs e.h attributes [.PlatformAttributes]) :
    Yields e (defTypedef c e.h name type attributes mflags) (exportOf mflags ++ b!"typedef " ++ tt ++ b!" " ++ name ++ b!";\n") := by
  obtain ⟨r, h', h1, _, h2, hk, h3⟩ := (C29_def_typedef c hn name type attributes mflags (.inr ht.valid) ha).1
    ⟨h0, ⟨Nat.pos_iff_ne_zero.1 ht.valid.1, by simp [htt]⟩, hat⟩
  refine ⟨r, h', h1, ?_⟩
  have h : Is (e.on h') r .Typedef _ := ⟨h2, h3, rfl⟩
  have hc : (e.on h').h.cell type = e.h.cell type := (hk _ ht.valid).2
  have := C47_typedef (l := []) (ts := []) h (hk _ ht.valid).1 (C49_kept hk ht) (fun hz => absurd rfl hz)
    (fun _ hz => by simp only [hc] at hz; exact absurd hb hz) trivial
  rw [nameText_set h.cell h0] at this
  simp only [hc, hty, hb] at this
  refine this.cast ?_
  by_cases hx : mflags % 2 = 1 <;> simp [optText, ifText, exportText, exportOf, exported, cmtText, hx]

/-- C49, refuted: `def_typedef` of a struct definition does not make it the parent of the struct, so that the printed text is
`typedef struct A { ... };` followed by `B;`. -/
theorem C49_def_typedef_struct_refuted {name : Bytes} {type : Nat} {t : Bytes} (h0 : name ≠ []) (ht : Prints e .code type (t ++ b!"};\n"))
    (htt : (e.h.cell type).type = .Struct) (hty : (e.h.cell type).typ = 0) :
    Yields e (defTypedef c e.h name type 0 0) (b!"typedef " ++ t ++ b!"};\n " ++ name ++ b!";\n") := by
  obtain ⟨r, h', h1, _, h2, hk, h3⟩ := (C29_def_typedef c hn name type 0 0 (.inr ht.valid) (.inl rfl)).1
    ⟨h0, ⟨Nat.pos_iff_ne_zero.1 ht.valid.1, by simp [htt]⟩, .inl rfl⟩
  refine ⟨r, h', h1, ?_⟩
  have h : Is (e.on h') r .Typedef _ := ⟨h2, h3, rfl⟩
  have hc : (e.on h').h.cell type = e.h.cell type := (hk _ ht.valid).2
  have := C47_typedef (l := []) (ts := []) h (hk _ ht.valid).1 (C49_kept hk ht) (fun hz => absurd rfl hz)
    (fun hz => by simp only [hc, htt] at hz; cases hz) trivial
  rw [nameText_set h.cell h0] at this
  simp only [hc, hty, htt] at this
  refine this.cast ?_
  simp [optText, ifText, exportText, exported, cmtText]

end

end Verif.Ser
