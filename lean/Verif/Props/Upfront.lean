import Verif.Model.Upfront
import Verif.Props.Equal
import Verif.Props.Specifiers
/-!
# Properties C29, C31 and the rest of C22: the upfront constructors
-/
namespace Verif.Ast

/-! ## What a constructor may do -/

/-- A pointer argument: null or a node. -/
def PtrOk (h : Heap) (p : Nat) : Prop := p = 0 ∨ h.Valid p

/-- An optional argument is absent or of one of the types. -/
def OptIs (h : Heap) (p : Nat) (ts : List CodeType) : Prop := p = 0 ∨ (h.cell p).type ∈ ts

/-- A required argument is present and of one of the types. -/
def ReqIs (h : Heap) (p : Nat) (ts : List CodeType) : Prop := p ≠ 0 ∧ (h.cell p).type ∈ ts

/-- The existing nodes are as they were. -/
def Kept (h h' : Heap) : Prop := ∀ q, h.Valid q → h'.Valid q ∧ h'.cell q = h.cell q

/-- The call returned a new node with exactly the contents `n` and changed nothing else. -/
def Built (h : Heap) (r : Out) (n : Node) : Prop :=
  ∃ h', r = .ok (h.next, h') ∧ h'.Valid h.next ∧ h'.cell h.next = n ∧ Kept h h'

/-- The call failed: it stopped the program, or (with `GEN_DONT_USE_FATAL`) returned `InvalidCode` and changed no node. -/
def Rejected (c : Cfg) (h : Heap) (r : Out) : Prop :=
  if c.fatal then r = .stop else ∃ h', r = .ok (c.invalid, h') ∧ Kept h h'

/-- `r` is the result of a constructor that accepts its arguments exactly when `cond` and then builds `n`. -/
def Constructs (c : Cfg) (h : Heap) (r : Out) (cond : Prop) (n : Node) : Prop :=
  (cond → Built h r n) ∧ (¬ cond → Rejected c h r)

theorem Kept.refl (h : Heap) : Kept h h := fun _ v => ⟨v, rfl⟩

theorem Kept.trans {a b c : Heap} (h1 : Kept a b) (h2 : Kept b c) : Kept a c := fun q v => by
  obtain ⟨v1, e1⟩ := h1 q v
  obtain ⟨v2, e2⟩ := h2 q v1
  exact ⟨v2, e2.trans e1⟩

theorem kept_make (h : Heap) : Kept h h.make.2 := fun q v =>
  ⟨⟨v.1, Nat.lt_succ_of_lt v.2⟩, if_neg (Nat.ne_of_lt v.2)⟩

theorem reject_spec (c : Cfg) {h h' : Heap} (hk : Kept h h') : Rejected c h (reject c h') := by
  unfold Rejected reject
  cases c.fatal
  · exact ⟨h', rfl, hk⟩
  · rfl

theorem Constructs.of_iff {c : Cfg} {h : Heap} {r : Out} {p q : Prop} {n : Node} (hc : Constructs c h r p n) (e : q ↔ p) :
    Constructs c h r q n := ⟨fun hq => hc.1 (e.1 hq), fun hq => hc.2 fun hp => hq (e.2 hp)⟩

theorem constructs_name {c : Cfg} {h : Heap} {k : Out} {p : Prop} {n : Node} (name : Bytes) (hc : Constructs c h k p n) :
    Constructs c h (guardName c h name k) (name ≠ [] ∧ p) n := by
  unfold guardName
  by_cases hn : name = []
  · rw [if_pos hn]; exact ⟨fun hp => absurd hn hp.1, fun _ => reject_spec c (Kept.refl h)⟩
  · rw [if_neg hn]; exact hc.of_iff ⟨fun hp => hp.2, fun hp => ⟨hn, hp⟩⟩

theorem constructs_opt {c : Cfg} {h g : Heap} {k : Out} {p : Prop} {n : Node} {a : Nat} (ts : List CodeType) (hk : Kept h g)
    (ha : PtrOk h a) (hc : Constructs c h k p n) : Constructs c h (guardOpt c g a ts k) (OptIs h a ts ∧ p) n := by
  unfold guardOpt
  by_cases h0 : a = 0
  · rw [if_pos h0]; exact hc.of_iff ⟨fun hp => hp.2, fun hp => ⟨.inl h0, hp⟩⟩
  · obtain ⟨v, e⟩ := hk a (ha.resolve_left h0)
    rw [if_neg h0, get_ok v, Res.ok_bind, e]
    by_cases ht : (h.cell a).type ∈ ts
    · rw [if_pos (List.contains_iff_mem.2 ht)]; exact hc.of_iff ⟨fun hp => hp.2, fun hp => ⟨.inr ht, hp⟩⟩
    · rw [if_neg (by simpa using ht)]
      exact ⟨fun hp => absurd (hp.1.resolve_left h0) ht, fun _ => reject_spec c hk⟩

theorem constructs_req {c : Cfg} {h g : Heap} {k : Out} {p : Prop} {n : Node} {a : Nat} (ts : List CodeType) (hk : Kept h g)
    (ha : PtrOk h a) (hc : Constructs c h k p n) : Constructs c h (guardReq c g a ts k) (ReqIs h a ts ∧ p) n := by
  unfold guardReq
  by_cases h0 : a = 0
  · rw [if_pos h0]; exact ⟨fun hp => absurd h0 hp.1.1, fun _ => reject_spec c hk⟩
  · obtain ⟨v, e⟩ := hk a (ha.resolve_left h0)
    rw [if_neg h0, get_ok v, Res.ok_bind, e]
    by_cases ht : (h.cell a).type ∈ ts
    · rw [if_pos (List.contains_iff_mem.2 ht)]; exact hc.of_iff ⟨fun hp => hp.2, fun hp => ⟨⟨h0, ht⟩, hp⟩⟩
    · rw [if_neg (by simpa using ht)]
      exact ⟨fun hp => absurd hp.1.2 ht, fun _ => reject_spec c hk⟩

theorem finish_eq {h : Heap} (hn : 0 < h.next) (n : Node) :
    finish h.make.2 h.next n = .ok (h.next, { next := h.next + 1, cell := fun q => if q = h.next then n else h.cell q }) := by
  unfold finish
  rw [upd_ok (by exact ⟨hn, Nat.lt_succ_self _⟩)]
  simp only [Res.ok_bind, Heap.make]
  congr 3
  funext q
  by_cases hq : q = h.next <;> simp [hq]

theorem built_finish {h : Heap} (hn : 0 < h.next) (n : Node) : Built h (finish h.make.2 h.next n) n :=
  ⟨_, finish_eq hn n, ⟨hn, Nat.lt_succ_self _⟩, if_pos rfl, fun q v => ⟨⟨v.1, Nat.lt_succ_of_lt v.2⟩, if_neg (Nat.ne_of_lt v.2)⟩⟩

theorem constructs_finish {c : Cfg} {h : Heap} (hn : 0 < h.next) (n : Node) : Constructs c h (finish h.make.2 h.next n) True n :=
  ⟨fun _ => built_finish hn n, fun hf => absurd trivial hf⟩

theorem cText_eq : ∀ {t : Bytes}, 0 ∉ t → cText t = t
  | [], _ => rfl
  | x :: t, hz => by
    have hx : x ≠ 0 := fun e => hz (e ▸ List.mem_cons_self)
    have := cText_eq (t := t) fun hm => hz (List.mem_cons_of_mem _ hm)
    unfold cText at *
    rw [List.takeWhile_cons_of_pos (by simpa using hx), this]

/-! ## C29: the constructors

`0 < h.next` says that the heap is one the library can be in (node 0 is the null pointer). -/

section
variable (c : Cfg) {h : Heap} (hn : 0 < h.next)
include hn

/-- C29: attributes. -/
theorem C29_def_attributes (content : Bytes) : Constructs c h (defAttributes c h content) (content ≠ [])
    { type := .PlatformAttributes, name := content, content := content } :=
  (constructs_name content (constructs_finish hn _)).of_iff (by simp)

/-- C29: constructors. -/
theorem C29_def_constructor (p : OptsConstructor) (h1 : PtrOk h p.params) (h2 : PtrOk h p.body) :
    Constructs c h (defConstructor c h p) (OptIs h p.params [.Parameters] ∧ OptIs h p.body [.Function_Body, .Untyped])
      { type := if p.body = 0 then .Constructor_Fwd else .Constructor, params := p.params, typ := p.initializerList, body := p.body } :=
  (constructs_opt _ (Kept.refl h) h1 (constructs_opt _ (kept_make h) h2 (constructs_finish hn _))).of_iff (by simp)

/-- C29: destructors. -/
theorem C29_def_destructor (p : OptsDestructor) (h1 : PtrOk h p.specifiers) (h2 : PtrOk h p.body) :
    Constructs c h (defDestructor c h p) (OptIs h p.specifiers [.Specifiers] ∧ OptIs h p.body [.Function_Body, .Untyped])
      { type := if p.body = 0 then .Destructor_Fwd else .Destructor, specs := p.specifiers, body := p.body } :=
  (constructs_opt _ (Kept.refl h) h1 (constructs_opt _ (kept_make h) h2 (constructs_finish hn _))).of_iff (by simp)

/-- C29: untyped code. -/
theorem C29_untyped_str (content : Bytes) : Constructs c h (untypedStr c h content) (content ≠ [])
    { type := .Untyped, name := content, content := content } :=
  (constructs_name content (constructs_finish hn _)).of_iff (by simp)

/-- C29: executions. -/
theorem C29_def_execution (content : Bytes) : Constructs c h (defExecution c h content) (content ≠ [])
    { type := .Execution, content := content } :=
  (constructs_name content (constructs_finish hn _)).of_iff (by simp)

/-- C29: extern linkage. -/
theorem C29_def_extern_link (name : Bytes) (body : Nat) (h1 : PtrOk h body) :
    Constructs c h (defExternLink c h name body) (name ≠ [] ∧ ReqIs h body [.Extern_Linkage_Body, .Untyped])
      { type := .Extern_Linkage, name := name, body := body } :=
  (constructs_name name (constructs_req _ (Kept.refl h) h1 (constructs_finish hn _))).of_iff (by simp)

/-- C29: friends. -/
theorem C29_def_friend (declaration : Nat) (h1 : PtrOk h declaration) :
    Constructs c h (defFriend c h declaration)
      (ReqIs h declaration [.Class_Fwd, .Function_Fwd, .Operator_Fwd, .Struct_Fwd, .Class, .Function, .Operator, .Struct])
      { type := .Friend, body := declaration } :=
  (constructs_req _ (Kept.refl h) h1 (constructs_finish hn _)).of_iff (by simp)

/-- C29: functions. Without a return type the function returns `t_void`. -/
theorem C29_def_function (name : Bytes) (p : OptsFunction) (h1 : PtrOk h p.params) (h2 : PtrOk h p.retType) (h3 : PtrOk h p.specs)
    (h4 : PtrOk h p.attrs) (h5 : PtrOk h p.body) :
    Constructs c h (defFunction c h name p)
      (name ≠ [] ∧ OptIs h p.params [.Parameters] ∧ OptIs h p.retType [.Typename] ∧ OptIs h p.specs [.Specifiers] ∧
        OptIs h p.attrs [.PlatformAttributes] ∧ OptIs h p.body [.Function_Body, .Execution, .Untyped])
      { type := if p.body = 0 then .Function_Fwd else .Function, name := name, moduleFlags := p.mflags,
        body := p.body, attributes := p.attrs, specs := p.specs, params := p.params,
        typ := if p.retType = 0 then c.tVoid else p.retType } :=
  (constructs_name name (constructs_opt _ (Kept.refl h) h1 (constructs_opt _ (Kept.refl h) h2 (constructs_opt _ (Kept.refl h) h3
    (constructs_opt _ (Kept.refl h) h4 (constructs_opt _ (kept_make h) h5 (constructs_finish hn _))))))).of_iff (by simp)

/-- C29: modules. -/
theorem C29_def_module (name : Bytes) (mflags : Nat) : Constructs c h (defModule c h name mflags) (name ≠ [])
    { type := .Module, name := name, moduleFlags := mflags } :=
  (constructs_name name (constructs_finish hn _)).of_iff (by simp)

/-- C29: namespaces; the body is required. -/
theorem C29_def_namespace (name : Bytes) (body mflags : Nat) (h1 : PtrOk h body) :
    Constructs c h (defNamespace c h name body mflags) (name ≠ [] ∧ ReqIs h body [.Namespace_Body, .Untyped])
      { type := .Namespace, name := name, moduleFlags := mflags, body := body } :=
  (constructs_name name (constructs_req _ (Kept.refl h) h1 (constructs_finish hn _))).of_iff (by simp)

/-- C29: conversion operators. -/
theorem C29_def_operator_cast (type body specs : Nat) (h1 : PtrOk h type) (h2 : PtrOk h body) :
    Constructs c h (defOperatorCast c h type body specs) (ReqIs h type [.Typename] ∧ OptIs h body [.Function_Body, .Execution])
      { type := if body = 0 then .Operator_Cast_Fwd else .Operator_Cast, body := body, specs := specs, typ := type } :=
  (constructs_req _ (Kept.refl h) h1 (constructs_opt _ (kept_make h) h2 (constructs_finish hn _))).of_iff (by simp)

/-- C29: parameters. -/
theorem C29_def_param (type : Nat) (name : Bytes) (value : Nat) (h1 : PtrOk h type) (h2 : PtrOk h value) :
    Constructs c h (defParam c h type name value) (name ≠ [] ∧ ReqIs h type [.Typename] ∧ OptIs h value [.Untyped])
      { type := .Parameters, name := name, typ := type, body := value, num := 1 } :=
  (constructs_name name (constructs_req _ (Kept.refl h) h1 (constructs_opt _ (Kept.refl h) h2 (constructs_finish hn _)))).of_iff (by simp)

/-- C29: pragmas. -/
theorem C29_def_pragma (directive : Bytes) : Constructs c h (defPragma c h directive) (directive ≠ [])
    { type := .Preprocess_Pragma, content := directive } :=
  (constructs_name directive (constructs_finish hn _)).of_iff (by simp)

/-- C29: conditional directives. -/
theorem C29_def_preprocess_cond (kind : PreCond) (expr : Bytes) : Constructs c h (defPreprocessCond c h kind expr) (expr ≠ [])
    { type := match kind with
        | .If => .Preprocess_If
        | .IfDef => .Preprocess_IfDef
        | .IfNotDef => .Preprocess_IfNotDef
        | .ElIf => .Preprocess_ElIf, content := expr } := by
  have := (constructs_name (c := c) expr (constructs_finish (c := c) hn { type := kind.type, content := expr })).of_iff (q := expr ≠ []) (by simp)
  cases kind <;> exact this

/-- C29: typenames. -/
theorem C29_def_type (name : Bytes) (p : OptsType) (h1 : PtrOk h p.attributes) (h2 : PtrOk h p.specifiers) (h3 : PtrOk h p.arrayExpr) :
    Constructs c h (defType c h name p)
      (name ≠ [] ∧ OptIs h p.attributes [.PlatformAttributes] ∧ OptIs h p.specifiers [.Specifiers] ∧ OptIs h p.arrayExpr [.Untyped])
      { type := .Typename, name := name, attributes := p.attributes, specs := p.specifiers, body := p.arrayExpr, typeTag := p.typeTag } :=
  (constructs_name name (constructs_opt _ (Kept.refl h) h1 (constructs_opt _ (Kept.refl h) h2 (constructs_opt _ (Kept.refl h) h3
    (constructs_finish hn _))))).of_iff (by simp)

/-- C29: unions; they may be anonymous. -/
theorem C29_def_union (name : Bytes) (body attributes mflags : Nat) (h1 : PtrOk h body) (h2 : PtrOk h attributes) :
    Constructs c h (defUnion c h name body attributes mflags) (ReqIs h body [.Union_Body] ∧ OptIs h attributes [.PlatformAttributes])
      { type := .Union, moduleFlags := mflags, body := body, attributes := attributes, name := name } :=
  (constructs_req _ (Kept.refl h) h1 (constructs_opt _ (Kept.refl h) h2 (constructs_finish hn _))).of_iff (by simp)

/-- C29: using-directives. -/
theorem C29_def_using_namespace (name : Bytes) : Constructs c h (defUsingNamespace c h name) (name ≠ [])
    { type := .Using_Namespace, name := name } :=
  (constructs_name name (constructs_finish hn _)).of_iff (by simp)

/-- C29: variables. -/
theorem C29_def_variable (type : Nat) (name : Bytes) (p : OptsVariable) (h0 : PtrOk h type) (h1 : PtrOk h p.attributes)
    (h2 : PtrOk h p.specifiers) (h3 : PtrOk h p.value) :
    Constructs c h (defVariable c h type name p)
      (name ≠ [] ∧ ReqIs h type [.Typename] ∧ OptIs h p.attributes [.PlatformAttributes] ∧ OptIs h p.specifiers [.Specifiers] ∧
        OptIs h p.value [.Untyped])
      { type := .Variable, name := name, moduleFlags := p.mflags, typ := type, attributes := p.attributes, specs := p.specifiers,
        body := p.value } := by
  have base := constructs_opt (c := c) [.PlatformAttributes] (Kept.refl h) h1 (constructs_opt [.Specifiers] (Kept.refl h) h2
    (constructs_req [.Typename] (Kept.refl h) h0 (constructs_opt [.Untyped] (Kept.refl h) h3
    (constructs_finish (c := c) hn (⟨0, p.attributes, p.specifiers, type, 0, p.value, 0, [], List.replicate specsCap .Invalid, name,
      0, 0, 0, .Variable, p.mflags, 0, false, 0⟩ : Node)))))
  refine (constructs_name name (?_ : Constructs c h _ (ReqIs h type [.Typename] ∧ OptIs h p.attributes [.PlatformAttributes] ∧
    OptIs h p.specifiers [.Specifiers] ∧ OptIs h p.value [.Untyped]) _))
  by_cases ht : type = 0
  · rw [if_pos ht]
    exact ⟨fun hp => absurd ht hp.1.1, fun _ => reject_spec c (Kept.refl h)⟩
  · rw [if_neg ht]
    exact base.of_iff ⟨fun ⟨a, b, d, e⟩ => ⟨b, d, a, e, trivial⟩, fun ⟨b, d, a, e, _⟩ => ⟨a, b, d, e⟩⟩

/-- C29: includes. The path goes between angle brackets or quotes. -/
theorem C29_def_include (path : Bytes) (foreign : Bool) (hz : 0 ∉ path) (hl : path.length + 3 < 131072) :
    Constructs c h (defInclude c h path foreign) (path ≠ [])
      { type := .Preprocess_Include, name := if foreign then b!"<" ++ path ++ b!">" else b!"\"" ++ path ++ b!"\"",
        content := if foreign then b!"<" ++ path ++ b!">" else b!"\"" ++ path ++ b!"\"" } := by
  have ct : cText path = path := cText_eq hz
  have e : (fmtText (if foreign then [60] ++ cText path ++ [62] else [34] ++ cText path ++ [34])) =
      .ok (if foreign then b!"<" ++ path ++ b!">" else b!"\"" ++ path ++ b!"\"") := by
    rw [ct]
    cases foreign <;> exact if_pos (by simp; omega)
  unfold defInclude
  rw [e]
  exact (constructs_name path (constructs_finish hn _)).of_iff (by simp)

/-- C29: enums. As the source has it, the underlying type (or its macro) is required of a definition, not of a forward
declaration; see `C29_def_enum_refuted`. -/
theorem C29_def_enum (name : Bytes) (p : OptsEnum) (h1 : PtrOk h p.type) (h2 : PtrOk h p.attributes) (h3 : PtrOk h p.body) :
    Constructs c h (defEnum c h name p)
      (name ≠ [] ∧ OptIs h p.type [.Typename] ∧ OptIs h p.attributes [.PlatformAttributes] ∧ OptIs h p.body [.Enum_Body, .Untyped] ∧
        (p.body ≠ 0 → p.type ≠ 0 ∨ p.typeMacro ≠ 0))
      { name := name, moduleFlags := p.mflags, attributes := p.attributes, body := p.body,
        type := if p.body = 0 then (if p.isClass then .Enum_Class_Fwd else .Enum_Fwd) else (if p.isClass then .Enum_Class else .Enum),
        typ := p.type, params := if p.type = 0 then p.typeMacro else 0 } := by
  refine constructs_name name (constructs_opt _ (Kept.refl h) h1 (constructs_opt _ (Kept.refl h) h2 (constructs_opt _ (kept_make h) h3 ?_)))
  by_cases hc : p.type = 0 ∧ p.typeMacro = 0 ∧ p.body ≠ 0
  · rw [if_pos hc]
    exact ⟨fun hp => (hp hc.2.2).elim (fun r => absurd hc.1 r) (fun r => absurd hc.2.1 r), fun _ => reject_spec c (kept_make h)⟩
  · rw [if_neg hc]
    refine (constructs_finish hn _).of_iff ⟨fun _ => trivial, fun _ hb => ?_⟩
    by_cases ht : p.type = 0
    · exact .inr fun hm => hc ⟨ht, hm, hb⟩
    · exact .inl ht

/-- C29: structs without interfaces; they may be anonymous. -/
theorem C29_def_struct (fuel : Nat) (name : Bytes) (p : OptsStruct) (hi : p.interfaces = []) (h1 : PtrOk h p.attributes)
    (h2 : PtrOk h p.parent) (h3 : PtrOk h p.body) :
    Constructs c h (defStruct fuel c h name p)
      (OptIs h p.attributes [.PlatformAttributes] ∧ OptIs h p.parent [.Typename] ∧ OptIs h p.body [.Struct_Body])
      { type := if p.body = 0 then .Struct_Fwd else .Struct, name := name, moduleFlags := p.mflags, attributes := p.attributes,
        specs := p.specifiers, num := p.parentAccess, typ := p.parent, body := p.body } := by
  unfold defStruct
  rw [hi, finish_eq hn]
  simp only [Res.ok_bind, addInterfaces]
  rw [← finish_eq hn]
  exact (constructs_opt _ (Kept.refl h) h1 (constructs_opt _ (Kept.refl h) h2 (constructs_opt _ (Kept.refl h) h3
    (constructs_finish hn _)))).of_iff (by simp)

/-- C29: forward declared classes without interfaces. -/
theorem C29_def_class_fwd (fuel : Nat) (name : Bytes) (p : OptsStruct) (hb : p.body = 0) (hi : p.interfaces = [])
    (h1 : PtrOk h p.attributes) (h2 : PtrOk h p.parent) :
    Constructs c h (defClass fuel c h name p)
      (name ≠ [] ∧ OptIs h p.attributes [.PlatformAttributes] ∧ OptIs h p.parent [.Class, .Struct, .Typename, .Untyped])
      { type := .Class_Fwd, name := name, moduleFlags := p.mflags, attributes := p.attributes, specs := p.specifiers,
        num := p.parentAccess, typ := p.parent } := by
  unfold defClass
  rw [hi, hb, finish_eq hn]
  simp only [Res.ok_bind, addInterfaces, if_true]
  rw [← finish_eq hn]
  exact (constructs_name name (constructs_opt _ (Kept.refl h) h1 (constructs_opt _ (Kept.refl h) h2 (constructs_opt _ (kept_make h) (.inl rfl)
    (constructs_finish hn _))))).of_iff (by simp [OptIs])

/-- C29: classes with a body, without interfaces: the body gets the class as parent, nothing else changes. -/
theorem C29_def_class (fuel : Nat) (name : Bytes) (p : OptsStruct) (hb : p.body ≠ 0) (hi : p.interfaces = [])
    (h1 : PtrOk h p.attributes) (h2 : PtrOk h p.parent) (h3 : h.Valid p.body) :
    (name ≠ [] ∧ OptIs h p.attributes [.PlatformAttributes] ∧ OptIs h p.parent [.Class, .Struct, .Typename, .Untyped] ∧
        (h.cell p.body).type ∈ [CodeType.Class_Body, .Untyped] →
      ∃ h', defClass fuel c h name p = .ok (h.next, h') ∧ h'.Valid h.next ∧
        h'.cell h.next = {
          type := .Class, name := name, moduleFlags := p.mflags, attributes := p.attributes,
          specs := p.specifiers, num := p.parentAccess, typ := p.parent, body := p.body } ∧
        h'.cell p.body = { h.cell p.body with parent := h.next } ∧
        ∀ q, h.Valid q → h'.Valid q ∧ (q ≠ p.body → h'.cell q = h.cell q)) ∧
    (¬ (name ≠ [] ∧ OptIs h p.attributes [.PlatformAttributes] ∧ OptIs h p.parent [.Class, .Struct, .Typename, .Untyped] ∧
        (h.cell p.body).type ∈ [CodeType.Class_Body, .Untyped]) → Rejected c h (defClass fuel c h name p)) := by
  have hpne : p.body ≠ h.next := Nat.ne_of_lt h3.2
  have opt : ∀ {g : Heap} {a : Nat} {ts : List CodeType} {k : Out}, Kept h g → PtrOk h a → OptIs h a ts → guardOpt c g a ts k = k := by
    intro g a ts k hk ha ho
    unfold guardOpt
    by_cases h0 : a = 0
    · rw [if_pos h0]
    · obtain ⟨v, e⟩ := hk a (ha.resolve_left h0)
      rw [if_neg h0, get_ok v, Res.ok_bind, e, if_pos (List.contains_iff_mem.2 (ho.resolve_left h0))]
  have nopt : ∀ {g : Heap} {a : Nat} {ts : List CodeType} {k : Out}, Kept h g → PtrOk h a → ¬ OptIs h a ts → Rejected c h (guardOpt c g a ts k) := by
    intro g a ts k hk ha ho
    unfold guardOpt
    have h0 : a ≠ 0 := fun e => ho (.inl e)
    obtain ⟨v, e⟩ := hk a (ha.resolve_left h0)
    rw [if_neg h0, get_ok v, Res.ok_bind, e, if_neg (by simpa using fun hm => ho (.inr hm))]
    exact reject_spec c hk
  unfold defClass
  by_cases c1 : name = []
  · rw [guardName, if_pos c1]
    exact ⟨fun hp => absurd c1 hp.1, fun _ => reject_spec c (Kept.refl h)⟩
  rw [guardName, if_neg c1]
  by_cases c2 : OptIs h p.attributes [.PlatformAttributes]
  · rw [opt (Kept.refl h) h1 c2]
    by_cases c3 : OptIs h p.parent [.Class, .Struct, .Typename, .Untyped]
    · rw [opt (Kept.refl h) h2 c3]
      by_cases c4 : OptIs h p.body [.Class_Body, .Untyped]
      · rw [opt (kept_make h) (.inr h3) c4, finish_eq hn]
        simp only [Res.ok_bind, if_neg hb]
        rw [upd_ok (show Heap.Valid _ p.body from ⟨h3.1, Nat.lt_succ_of_lt h3.2⟩)]
        simp only [Res.ok_bind, hi, addInterfaces]
        refine ⟨fun _ => ⟨_, rfl, ⟨hn, Nat.lt_succ_self _⟩, ?_, ?_, ?_⟩, fun hp => absurd ⟨c1, c2, c3, c4.resolve_left hb⟩ hp⟩
        · simp [hpne.symm]
        · simp [hpne]
        · intro q hq
          refine ⟨⟨hq.1, Nat.lt_succ_of_lt hq.2⟩, fun hne => ?_⟩
          simp [hne, Nat.ne_of_lt hq.2]
      · exact ⟨fun hp => absurd (.inr hp.2.2.2) c4, fun _ => nopt (kept_make h) (.inr h3) c4⟩
    · exact ⟨fun hp => absurd hp.2.2.1 c3, fun _ => nopt (Kept.refl h) h2 c3⟩
  · exact ⟨fun hp => absurd hp.2.1 c2, fun _ => nopt (Kept.refl h) h1 c2⟩

/-- C29: a definition of a macro holds the content, followed by a newline, in an untyped node. -/
theorem C29_def_define (name : Bytes) (p : OptsDefine) (hz : 0 ∉ p.content) (hl : p.content.length + 2 < 131072) (hne : name ≠ []) :
    ∃ h', defDefine c h name p = .ok (h.next, h') ∧ h'.Valid h.next ∧ h'.Valid (h.next + 1) ∧ Kept h h' ∧
      h'.cell h.next = { type := .Preprocess_Define, name := name, params := p.params, body := h.next + 1 } ∧
      h'.cell (h.next + 1) = { type := .Untyped, name := p.content ++ b!"\n", content := p.content ++ b!"\n" } := by
  have ht : (if p.content = [] then (.ok [10] : Res Bytes) else fmtText (cText p.content ++ [10])) = .ok (p.content ++ b!"\n") := by
    by_cases he : p.content = []
    · rw [if_pos he, he]; rfl
    · rw [if_neg he, cText_eq hz]; exact if_pos (by simp; omega)
  unfold defDefine guardName
  rw [if_neg hne, finish_eq hn]
  simp only [Res.ok_bind]
  rw [ht]
  simp only [Res.ok_bind]
  unfold untypedStr guardName
  rw [if_neg (show ¬ (p.content ++ b!"\n" = []) by simp)]
  have f2 := finish_eq (h := { next := h.next + 1, cell := fun q => if q = h.next then
    ({ type := .Preprocess_Define, name := name, params := p.params } : Node) else h.cell q }) (Nat.succ_pos _)
    ({ type := .Untyped, name := p.content ++ b!"\n", content := p.content ++ b!"\n" } : Node)
  rw [f2]
  simp only [Res.ok_bind]
  rw [upd_ok (show Heap.Valid _ h.next from ⟨hn, Nat.lt_succ_of_lt (Nat.lt_succ_self _)⟩)]
  simp only [Res.ok_bind]
  refine ⟨_, rfl, ⟨hn, Nat.lt_succ_of_lt (Nat.lt_succ_self _)⟩, ⟨Nat.succ_pos _, Nat.lt_succ_self _⟩, ?_, ?_, ?_⟩
  · intro q hq
    have h1 : q ≠ h.next := Nat.ne_of_lt hq.2
    have h2 : q ≠ h.next + 1 := Nat.ne_of_lt (Nat.lt_succ_of_lt hq.2)
    exact ⟨⟨hq.1, Nat.lt_succ_of_lt (Nat.lt_succ_of_lt hq.2)⟩, by simp [h1, h2]⟩
  · simp
  · simp

/-- C29: a macro needs a name. -/
theorem C29_def_define_no_name (p : OptsDefine) : Rejected c h (defDefine c h [] p) := by
  have := hn
  exact reject_spec c (Kept.refl h)

/-- C29: typedefs of a named type: the result holds name and type. (The attributes are checked but, as in the source, not kept:
see `C29_def_typedef_attributes_refuted`.) -/
theorem C29_def_typedef (name : Bytes) (type attributes mflags : Nat) (h1 : PtrOk h type) (h2 : PtrOk h attributes) :
    (name ≠ [] ∧ ReqIs h type [.Class, .Class_Fwd, .Enum, .Enum_Fwd, .Enum_Class, .Enum_Class_Fwd, .Function_Fwd, .Struct, .Struct_Fwd,
        .Union, .Typename] ∧ OptIs h attributes [.PlatformAttributes] →
      ∃ r h', defTypedef c h name type attributes mflags = .ok (r, h') ∧ ¬ h.Valid r ∧ h'.Valid r ∧ Kept h h' ∧
        h'.cell r = { type := .Typedef, moduleFlags := mflags, typ := type, name := name }) ∧
    (¬ (name ≠ [] ∧ ReqIs h type [.Class, .Class_Fwd, .Enum, .Enum_Fwd, .Enum_Class, .Enum_Class_Fwd, .Function_Fwd, .Struct, .Struct_Fwd,
        .Union, .Typename] ∧ OptIs h attributes [.PlatformAttributes]) → Rejected c h (defTypedef c h name type attributes mflags)) := by
  unfold defTypedef guardReq
  by_cases h0 : type = 0
  · rw [if_pos h0]; exact ⟨fun hp => absurd h0 hp.2.1.1, fun _ => reject_spec c (Kept.refl h)⟩
  rw [if_neg h0, get_ok (h1.resolve_left h0), Res.ok_bind]
  by_cases ht : (h.cell type).type ∈ typedefTypes
  · rw [if_pos (List.contains_iff_mem.2 ht)]
    unfold guardOpt
    have rest : (name ≠ [] → ∃ r h', ((defType c h name {}).bind fun (x : Nat × Heap) =>
        if name = [] then
          (x.2.get type).bind fun t =>
          if t.type ≠ .Untyped then reject c x.2.make.2
          else finish x.2.make.2 x.2.next { type := .Typedef, moduleFlags := mflags, typ := type, name := t.name, num := 1 }
        else finish x.2.make.2 x.2.next { type := .Typedef, moduleFlags := mflags, typ := type, name := name }) = .ok (r, h') ∧ ¬ h.Valid r ∧
          h'.Valid r ∧ Kept h h' ∧ h'.cell r = { type := .Typedef, moduleFlags := mflags, typ := type, name := name }) ∧
        (name = [] → Rejected c h ((defType c h name {}).bind fun (x : Nat × Heap) =>
        if name = [] then
          (x.2.get type).bind fun t =>
          if t.type ≠ .Untyped then reject c x.2.make.2
          else finish x.2.make.2 x.2.next { type := .Typedef, moduleFlags := mflags, typ := type, name := t.name, num := 1 }
        else finish x.2.make.2 x.2.next { type := .Typedef, moduleFlags := mflags, typ := type, name := name })) := by
      have dt := C29_def_type c hn name {} (.inl rfl) (.inl rfl) (.inl rfl)
      constructor
      · intro hne
        obtain ⟨g, e1, e2, e3, e4⟩ := dt.1 ⟨hne, .inl rfl, .inl rfl, .inl rfl⟩
        have gn : 0 < g.next := Nat.lt_trans e2.1 e2.2
        rw [e1]
        simp only [Res.ok_bind, if_neg hne]
        rw [finish_eq gn]
        obtain ⟨g', f1, f2, f3, f4⟩ := built_finish (h := g) gn { type := .Typedef, moduleFlags := mflags, typ := type, name := name }
        rw [finish_eq gn] at f1
        refine ⟨_, _, f1, fun w => ?_, f2, e4.trans f4, f3⟩
        have : h.next < g.next := e2.2
        exact absurd w.2 (by omega)
      · intro he
        have rj := dt.2 fun hp => hp.1 he
        unfold Rejected at rj ⊢
        cases hf : c.fatal
        · rw [hf] at rj
          obtain ⟨g, e1, e2⟩ := rj
          rw [if_neg (by simp), e1]
          simp only [Res.ok_bind, if_pos he]
          obtain ⟨v, e⟩ := e2 type (h1.resolve_left h0)
          rw [get_ok v, Res.ok_bind, e, if_pos (by intro hu; rw [hu] at ht; revert ht; decide)]
          refine ⟨_, by rw [reject, if_neg (by simp [hf])], e2.trans (kept_make g)⟩
        · rw [hf, if_pos rfl] at rj
          rw [if_pos rfl, rj]; rfl
    by_cases ha : attributes = 0
    · rw [if_pos ha]
      refine ⟨fun hp => rest.1 hp.1, fun hp => rest.2 ?_⟩
      exact Classical.byContradiction fun hne => hp ⟨hne, ⟨h0, ht⟩, .inl ha⟩
    · rw [if_neg ha, get_ok (h2.resolve_left ha), Res.ok_bind]
      by_cases hat : (h.cell attributes).type ∈ [CodeType.PlatformAttributes]
      · rw [if_pos (List.contains_iff_mem.2 hat)]
        refine ⟨fun hp => rest.1 hp.1, fun hp => rest.2 ?_⟩
        exact Classical.byContradiction fun hne => hp ⟨hne, ⟨h0, ht⟩, .inr hat⟩
      · rw [if_neg (by simpa using hat)]
        exact ⟨fun hp => absurd (hp.2.2.resolve_left ha) hat, fun _ => reject_spec c (Kept.refl h)⟩
  · rw [if_neg (by simpa using ht)]
    exact ⟨fun hp => absurd hp.2.1.2 ht, fun _ => reject_spec c (Kept.refl h)⟩

end

end Verif.Ast
