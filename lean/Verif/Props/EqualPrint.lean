import Verif.Props.EqualSound
import Verif.Props.SerSpec
/-!
# Property C32: what compares equal prints the same

`code_is_equal` leaves out much of what is printed: comments, the text of attributes, literal text and function bodies, the tag of a
type, names of access specifiers, ... (see the refutations in Props/Equal.lean). `Compared` describes the ASTs that have none of
that, so that everything the serializer reads is something `code_is_equal` looks at. Of two such ASTs that compare equal in both
directions the serializer makes the same text.
-/
namespace Verif.Ser
open Ast Fmt

/-- The kinds of code all of whose printed members are compared. -/
def comparedKinds : List CodeType := [.NewLine, .Access_Private, .Access_Protected, .Access_Public, .Preprocess_Else, .Preprocess_EndIf,
  .Class, .Class_Fwd, .Struct, .Struct_Fwd, .Enum_Fwd, .Enum_Class_Fwd, .Union, .Union_Fwd, .Friend, .Function_Fwd, .Operator_Fwd,
  .Operator_Member_Fwd, .Operator_Cast_Fwd, .Module, .Namespace, .Extern_Linkage, .Parameters, .Specifiers, .Template, .Typedef,
  .Typename, .Using, .Using_Namespace, .Variable,
  .Class_Body, .Enum_Body, .Global_Body, .Namespace_Body, .Struct_Body, .Union_Body]

/-- The names of the access specifiers (interface.cpp 103-117). -/
def accessName : CodeType → Bytes
  | .Access_Private => b!"private:\n"
  | .Access_Protected => b!"protected:\n"
  | _ => b!"public:\n"

/-- The types whose name is always set. -/
def isAccess (t : CodeType) : Prop := t = .Access_Private ∨ t = .Access_Protected ∨ t = .Access_Public

instance (t : CodeType) : Decidable (isAccess t) := inferInstanceAs (Decidable (_ ∨ _))

/-- The kinds whose text depends on what they are part of. -/
def parentKinds : List CodeType := [.Class, .Class_Fwd, .Struct, .Struct_Fwd, .Enum_Fwd, .Enum_Class_Fwd, .Union, .Union_Fwd, .Variable]

/-- What is required of one node of an AST whose printed parts are all compared. -/
structure ComparedNode (e : Env) (p : Nat) (n : Node) : Prop where
  valid : e.h.Valid p
  kind : n.type ∈ comparedKinds
  /-- no attributes, no comment on the line, no `NextVar` or suffix -/
  attributes : n.attributes = 0
  inlineCmt : n.inlineCmt = 0
  suffix : n.suffix = 0
  /-- a name that is empty was never set -/
  unnamed : n.name = [] → e.nullStr p = true
  /-- not part of a typedef or a variable -/
  parent : n.type ∈ parentKinds → n.parent ≠ 0 → e.h.Valid n.parent ∧ (e.h.cell n.parent).type ≠ .Typedef ∧ (e.h.cell n.parent).type ≠ .Variable
  /-- the members are of the kinds that belong there -/
  typ : n.typ ≠ 0 → (e.h.cell n.typ).type = .Typename
  specs : n.specs ≠ 0 → (e.h.cell n.specs).type = .Specifiers
  params : n.params ≠ 0 → (e.h.cell n.params).type = .Parameters ∨ n.type = .Variable ∨ n.type = .Enum_Fwd
  access : isAccess n.type → n.name = accessName n.type
  /-- types: no function types, no tags, no array bounds -/
  typename : n.type = .Typename → n.typ = 0 ∧ n.body = 0 ∧ n.typeTag = 0 ∧ n.back = 0
  /-- one parameter at most, without a macro -/
  params1 : n.type = .Parameters → n.num ≤ 1 ∧ n.params = 0
  specsOk : n.type = .Specifiers → 0 ≤ n.num ∧ n.arrSpecs.length = specsCap ∧ n.num.toNat ≤ specsCap
  /-- no `= 0` after a declared function -/
  fwd : n.type = .Function_Fwd ∨ n.type = .Operator_Fwd ∨ n.type = .Operator_Member_Fwd → n.body = 0
  /-- no initializer in parentheses -/
  init : n.type = .Variable → n.num = 0
  /-- no `final` -/
  final : n.type = .Class ∨ n.type = .Struct → n.specs = 0
  /-- no `export` before a declared class -/
  exportFwd : n.type = .Class_Fwd ∨ n.type = .Struct_Fwd → n.moduleFlags = 0
  count : eqBodyType n.type = true → 0 ≤ n.num

/-- The ASTs (of finite depth) all of whose nodes are such nodes; `l` are the entries of a body. -/
inductive Compared (e : Env) : Nat → Prop where
  | mk (p : Nat) (l : List Nat) (node : ComparedNode e p (e.h.cell p))
      (typ : (e.h.cell p).typ ≠ 0 → Compared e (e.h.cell p).typ)
      (specs : (e.h.cell p).specs ≠ 0 → Compared e (e.h.cell p).specs)
      (params : (e.h.cell p).params ≠ 0 → Compared e (e.h.cell p).params)
      (body : (e.h.cell p).body ≠ 0 → Compared e (e.h.cell p).body)
      (chain : eqBodyType (e.h.cell p).type = true → NullChain e.h (e.h.cell p).front l)
      (entries : eqBodyType (e.h.cell p).type = true → ∀ q ∈ l, Compared e q) : Compared e p

/-- `code_is_equal` answers `true` both ways. -/
def BothEqual (fatal : Bool) (h : Heap) (p q : Nat) : Prop :=
  (∃ fuel, isEqual fatal fuel h p q = .ok true) ∧ ∃ fuel, isEqual fatal fuel h q p = .ok true

theorem BothEqual.symm {fatal : Bool} {h : Heap} {p q : Nat} (b : BothEqual fatal h p q) : BothEqual fatal h q p := ⟨b.2, b.1⟩

/-! ## What the comparison says -/

/-- What a check that succeeds says, `R` being what the recursive call says. -/
def Passes (R : Nat → Nat → Prop) (s o : Node) : Chk → Prop
  | .mflags => s.moduleFlags = o.moduleFlags
  | .name => s.name = o.name
  | .num => s.num = o.num
  | .pack => s.isParamPack = o.isParamPack
  | .ast f => f s = 0 ∨ (f o ≠ 0 ∧ R (f s) (f o))

theorem runChecks_passes {eq : Nat → Nat → Res Bool} {s o : Node} : ∀ (cs : List Chk), runChecks eq s o cs = .ok true →
    ∀ c ∈ cs, Passes (fun a b => eq a b = .ok true) s o c
  | [], _, _, hm => by cases hm
  | c :: cs, he, d, hm => by
    have ih := runChecks_passes (eq := eq) (s := s) (o := o) cs
    rcases List.mem_cons.1 hm with rfl | hm
    · cases d with
      | ast f =>
        rcases runChecks_ast (f := f) (.ast f :: cs) List.mem_cons_self he with r | r
        · exact .inl r
        · exact .inr r
      | _ => simp only [runChecks] at he; simp only [Passes]; grind
    · refine ih ?_ d hm
      cases c with
      | ast f =>
        simp only [runChecks] at he
        split at he
        · exact he
        · split at he
          · cases he
          · obtain ⟨b, _, he⟩ := Res.bind_eq_ok.1 he
            cases b
            · simp at he
            · simpa using he
      | _ => simp only [runChecks] at he; grind

/-- The same for a comparison in both directions. -/
def Agree (R : Nat → Nat → Prop) (s o : Node) : Chk → Prop
  | .mflags => s.moduleFlags = o.moduleFlags
  | .name => s.name = o.name
  | .num => s.num = o.num
  | .pack => s.isParamPack = o.isParamPack
  | .ast f => (f s = 0 ∧ f o = 0) ∨ (f s ≠ 0 ∧ f o ≠ 0 ∧ R (f s) (f o))

/-- The types that are compared by the table of checks alone. -/
def byTable (n : Node) : Prop := eqBodyType n.type = false ∧ n.type ≠ .Specifiers ∧ n.type ≠ .Parameters_Define ∧
  n.type ≠ .Preprocess_Define ∧ (n.type = .Parameters → n.num ≤ 1)

theorem isEqual_table {fatal : Bool} {fuel : Nat} {h : Heap} {p q : Nat} (he : isEqual fatal fuel h p q = .ok true)
    (ht : byTable (h.cell p)) :
    ∀ c ∈ eqChecks (h.cell p).type, Passes (fun a b => ∃ f, isEqual fatal f h a b = .ok true) (h.cell p) (h.cell q) c := by
  obtain ⟨va, vb, hty⟩ := C32_same_type_partial he
  cases fuel with
  | zero => cases he
  | succ fuel =>
    have hb : q ≠ 0 := by have := vb.1; omega
    unfold isEqual at he
    rw [if_neg hb, get_ok va, get_ok vb] at he
    simp only [Res.ok_bind, ← hty, ne_eq, not_true_eq_false, if_false] at he
    obtain ⟨t1, t2, t3, t4, t5⟩ := ht
    have main : runChecks (isEqual fatal fuel h) (h.cell p) (h.cell q) (eqChecks (h.cell p).type) = .ok true := by
      split at he
      · rename_i heq
        rw [if_neg (by have := t5 heq; omega)] at he
        rw [heq]; exact he
      · rename_i heq; exact absurd heq t3
      · rename_i heq; exact absurd heq t4
      · rename_i heq; exact absurd heq t2
      · rw [if_neg (by simp [t1])] at he; exact he
    intro c hc
    have := runChecks_passes _ main c hc
    cases c with
    | ast f => rcases this with r | ⟨r1, r2⟩
               · exact .inl r
               · exact .inr ⟨r1, fuel, r2⟩
    | _ => exact this

theorem both_agree {fatal : Bool} {h : Heap} {p q : Nat} (hb : BothEqual fatal h p q) (hp : byTable (h.cell p)) (hq : byTable (h.cell q)) :
    ∀ c ∈ eqChecks (h.cell p).type, Agree (BothEqual fatal h) (h.cell p) (h.cell q) c := by
  obtain ⟨⟨f1, e1⟩, ⟨f2, e2⟩⟩ := hb
  intro c hc
  have a := isEqual_table e1 hp c hc
  have b := isEqual_table e2 hq c ((C32_same_type_partial e1).2.2 ▸ hc)
  cases c with
  | ast f =>
    simp only [Passes] at a b
    simp only [Agree, BothEqual]
    rcases a with a | ⟨a1, a2⟩
    · rcases b with b | ⟨b1, _⟩
      · exact .inl ⟨a, b⟩
      · exact absurd a b1
    · rcases b with b | ⟨b1, b2⟩
      · exact absurd b a1
      · exact .inr ⟨b1, a1, a2, b2⟩
  | _ => exact a

/-! ## The two nodes -/

/-- Two such ASTs that compare equal. -/
structure Twin (fatal : Bool) (e : Env) (p q : Nat) : Prop where
  left : Compared e p
  right : Compared e q
  equal : BothEqual fatal e.h p q

theorem Twin.type {fatal : Bool} {e : Env} {p q : Nat} (t : Twin fatal e p q) : (e.h.cell p).type = (e.h.cell q).type := by
  obtain ⟨⟨f, he⟩, _⟩ := t.equal
  exact (C32_same_type_partial he).2.2

theorem Compared.node {e : Env} {p : Nat} (c : Compared e p) : ComparedNode e p (e.h.cell p) := by cases c; assumption

theorem Compared.typ {e : Env} {p : Nat} (c : Compared e p) : (e.h.cell p).typ ≠ 0 → Compared e (e.h.cell p).typ := by cases c; assumption

theorem Compared.specs {e : Env} {p : Nat} (c : Compared e p) : (e.h.cell p).specs ≠ 0 → Compared e (e.h.cell p).specs := by
  cases c; assumption

theorem Compared.params {e : Env} {p : Nat} (c : Compared e p) : (e.h.cell p).params ≠ 0 → Compared e (e.h.cell p).params := by
  cases c; assumption

theorem Compared.body {e : Env} {p : Nat} (c : Compared e p) : (e.h.cell p).body ≠ 0 → Compared e (e.h.cell p).body := by
  cases c; assumption

theorem Compared.list {e : Env} {p : Nat} (c : Compared e p) (hb : eqBodyType (e.h.cell p).type = true) :
    ∃ l, NullChain e.h (e.h.cell p).front l ∧ ∀ q ∈ l, Compared e q := by
  cases c with
  | mk _ l _ _ _ _ _ ch en => exact ⟨l, ch hb, en hb⟩

theorem Compared.byTable {e : Env} {p : Nat} (c : Compared e p) (hb : eqBodyType (e.h.cell p).type = false)
    (hs : (e.h.cell p).type ≠ .Specifiers) : byTable (e.h.cell p) := by
  refine ⟨hb, hs, fun h => ?_, fun h => ?_, fun h => (c.node.params1 h).1⟩ <;>
  · have := c.node.kind
    rw [h] at this
    revert this; decide

/-- The recursive calls make the same text of such a pair. -/
structure RecOk (fatal : Bool) (e : Env) (rec : Fn → Nat → W) : Prop where
  code : ∀ {p q}, Twin fatal e p q → rec .code p = rec .code q
  body : ∀ {p q}, Twin fatal e p q → rec .body p = rec .body q
  typename : ∀ {p q}, Twin fatal e p q → (e.h.cell p).type = .Typename → rec .typename p = rec .typename q
  params : ∀ {p q}, Twin fatal e p q → (e.h.cell p).type = .Parameters → rec .params p = rec .params q

/-- The members of the two nodes: both absent or such a pair. -/
def Paired (fatal : Bool) (e : Env) (a b : Nat) : Prop := (a = 0 ∧ b = 0) ∨ (a ≠ 0 ∧ b ≠ 0 ∧ Twin fatal e a b)

theorem Paired.null {fatal : Bool} {e : Env} {a b : Nat} (h : Paired fatal e a b) : (a = 0) = (b = 0) := by
  rcases h with ⟨h1, h2⟩ | ⟨h1, h2, _⟩ <;> simp [h1, h2]

section
variable {fatal : Bool} {e : Env} {rec : Fn → Nat → W} {p q : Nat}

theorem Paired.code {a b : Nat} (h : Paired fatal e a b) (r : RecOk fatal e rec) : rec .code a = rec .code b := by
  rcases h with ⟨h1, h2⟩ | ⟨_, _, t⟩
  · rw [h1, h2]
  · exact r.code t

theorem Paired.body {a b : Nat} (h : Paired fatal e a b) (r : RecOk fatal e rec) : rec .body a = rec .body b := by
  rcases h with ⟨h1, h2⟩ | ⟨_, _, t⟩
  · rw [h1, h2]
  · exact r.body t

theorem Paired.typename {a b : Nat} (h : Paired fatal e a b) (r : RecOk fatal e rec) (ht : a ≠ 0 → (e.h.cell a).type = .Typename) :
    rec .typename a = rec .typename b := by
  rcases h with ⟨h1, h2⟩ | ⟨h1, _, t⟩
  · rw [h1, h2]
  · exact r.typename t (ht h1)

theorem Paired.params {a b : Nat} (h : Paired fatal e a b) (r : RecOk fatal e rec) (ht : a ≠ 0 → (e.h.cell a).type = .Parameters) :
    rec .params a = rec .params b := by
  rcases h with ⟨h1, h2⟩ | ⟨h1, _, t⟩
  · rw [h1, h2]
  · exact r.params t (ht h1)

/-- Reading a member of which only its type and members that a typename lacks matter. -/
theorem Paired.readType {a b : Nat} (h : Paired fatal e a b) (k : Node → W) (hk : ∀ n m : Node, n.type = m.type → k n = k m) :
    reading (e.h.get a) k = reading (e.h.get b) k := by
  rcases h with ⟨h1, h2⟩ | ⟨_, _, t⟩
  · rw [h1, h2]
  · unfold reading
    rw [get_ok t.left.node.valid, get_ok t.right.node.valid]
    simp only [Res.ok_bind]
    rw [hk _ _ t.type]

theorem Paired.readTypename {a b : Nat} (h : Paired fatal e a b) (ht : a ≠ 0 → (e.h.cell a).type = .Typename) (k : Node → W)
    (hk : ∀ n m : Node, n.type = m.type → n.typ = 0 → m.typ = 0 → n.body = 0 → m.body = 0 → n.back = 0 → m.back = 0 → k n = k m) :
    reading (e.h.get a) k = reading (e.h.get b) k := by
  rcases h with ⟨h1, h2⟩ | ⟨h0, _, t⟩
  · rw [h1, h2]
  · unfold reading
    rw [get_ok t.left.node.valid, get_ok t.right.node.valid]
    simp only [Res.ok_bind]
    obtain ⟨a1, a2, _, a4⟩ := t.left.node.typename (ht h0)
    obtain ⟨b1, b2, _, b4⟩ := t.right.node.typename (t.type ▸ ht h0)
    rw [hk _ _ t.type a1 b1 a2 b2 a4 b4]

theorem twin_specs (t : Twin fatal e p q) (ht : (e.h.cell p).type = .Specifiers) :
    ∃ l, IsSpecs e.h p l ∧ IsSpecs e.h q l := by
  obtain ⟨⟨f, he⟩, _⟩ := t.equal
  have a := t.left.node
  have b := t.right.node
  obtain ⟨a1, a2, a3⟩ := a.specsOk ht
  obtain ⟨b1, b2, b3⟩ := b.specsOk (t.type ▸ ht)
  cases f with
  | zero => cases he
  | succ f =>
    rw [isEqual_specs f ⟨a.valid, ht, a1, by omega⟩ ⟨b.valid, t.type ▸ ht, b1, by omega⟩] at he
    have hs : SameSpecs e.h p q := by simpa using he
    obtain ⟨s1, _, s3⟩ := hs
    have l1 : ((e.h.cell p).arrSpecs.take (e.h.cell p).num.toNat).length = (e.h.cell p).num.toNat := by simp; omega
    refine ⟨(e.h.cell p).arrSpecs.take (e.h.cell p).num.toNat, ⟨a.valid, ?_, a2, ?_, ?_⟩, ⟨b.valid, ?_, b2, ?_, ?_⟩⟩
    · rw [l1]; omega
    · rw [l1]
    · omega
    · rw [l1]; omega
    · rw [l1]; simpa using s3.symm
    · omega

theorem specs_list (t : Paired fatal e p q) (ht : p ≠ 0 → (e.h.cell p).type = .Specifiers) : specList e p = specList e q := by
  rcases t with ⟨h1, h2⟩ | ⟨h1, h2, t⟩
  · rw [h1, h2]
  · obtain ⟨l, a, b⟩ := twin_specs t (ht h1)
    rw [specList, specList, if_neg h1, if_neg h2, C20_iteration a, C20_iteration b]

theorem specs_has (t : Paired fatal e p q) (ht : p ≠ 0 → (e.h.cell p).type = .Specifiers) (s : Specifier) :
    hasSpec e p s = hasSpec e q s := by
  rcases t with ⟨h1, h2⟩ | ⟨h1, h2, t⟩
  · rw [h1, h2]
  · obtain ⟨l, a, b⟩ := twin_specs t (ht h1)
    rw [hasSpec, hasSpec, if_neg h1, if_neg h2, C20_has a, C20_has b]

theorem specs_ref (t : Paired fatal e p q) (ht : p ≠ 0 → (e.h.cell p).type = .Specifiers) : specifiersRef e p = specifiersRef e q := by
  rcases t with ⟨h1, h2⟩ | ⟨h1, h2, t⟩
  · rw [h1, h2]
  · obtain ⟨l, a, b⟩ := twin_specs t (ht h1)
    have va := a.count
    have vb := b.count
    funext r
    unfold specifiersRef reading
    rw [Res.assert_true h1, Res.assert_true h2, get_ok a.valid, get_ok b.valid]
    simp only [Res.ok_bind]
    rw [if_neg (by omega), if_neg (by omega), C20_iteration a, C20_iteration b]

/-- The pairs of members, by the table of checks. -/
theorem Twin.agree (t : Twin fatal e p q) (hb : eqBodyType (e.h.cell p).type = false) (hs : (e.h.cell p).type ≠ .Specifiers) :
    ∀ c ∈ eqChecks (e.h.cell p).type, Agree (BothEqual fatal e.h) (e.h.cell p) (e.h.cell q) c :=
  both_agree t.equal (t.left.byTable hb hs) (t.right.byTable (t.type ▸ hb) (t.type ▸ hs))

theorem Twin.pairTyp (t : Twin fatal e p q) (a : Agree (BothEqual fatal e.h) (e.h.cell p) (e.h.cell q) (.ast Node.typ)) :
    Paired fatal e (e.h.cell p).typ (e.h.cell q).typ := by
  rcases a with a | ⟨a1, a2, a3⟩
  · exact .inl a
  · exact .inr ⟨a1, a2, t.left.typ a1, t.right.typ a2, a3⟩

theorem Twin.pairSpecs (t : Twin fatal e p q) (a : Agree (BothEqual fatal e.h) (e.h.cell p) (e.h.cell q) (.ast Node.specs)) :
    Paired fatal e (e.h.cell p).specs (e.h.cell q).specs := by
  rcases a with a | ⟨a1, a2, a3⟩
  · exact .inl a
  · exact .inr ⟨a1, a2, t.left.specs a1, t.right.specs a2, a3⟩

theorem Twin.pairParams (t : Twin fatal e p q) (a : Agree (BothEqual fatal e.h) (e.h.cell p) (e.h.cell q) (.ast Node.params)) :
    Paired fatal e (e.h.cell p).params (e.h.cell q).params := by
  rcases a with a | ⟨a1, a2, a3⟩
  · exact .inl a
  · exact .inr ⟨a1, a2, t.left.params a1, t.right.params a2, a3⟩

theorem Twin.pairBody (t : Twin fatal e p q) (a : Agree (BothEqual fatal e.h) (e.h.cell p) (e.h.cell q) (.ast Node.body)) :
    Paired fatal e (e.h.cell p).body (e.h.cell q).body := by
  rcases a with a | ⟨a1, a2, a3⟩
  · exact .inl a
  · exact .inr ⟨a1, a2, t.left.body a1, t.right.body a2, a3⟩

theorem twin_name (t : Twin fatal e p q) (hn : (e.h.cell p).name = (e.h.cell q).name) :
    e.name p (e.h.cell p) = e.name q (e.h.cell q) := by
  unfold Env.name strArg
  rw [hn]
  by_cases h0 : (e.h.cell q).name = []
  · rw [t.left.node.unnamed (hn.trans h0), t.right.node.unnamed h0]
  · simp [h0]

theorem endStmt_eq (c : ComparedNode e p n) (hk : n.type ∈ parentKinds) (w : W) : endStmt e n w = w := by
  unfold endStmt
  by_cases h0 : n.parent = 0
  · rw [if_pos h0]
  · obtain ⟨v, t1, t2⟩ := c.parent hk h0
    rw [if_neg h0]
    unfold reading
    rw [get_ok v]
    simp [t1, t2]

theorem reading_run {α : Type} (a : α) (k : α → W) : reading (.ok a) k = k a := rfl

theorem opt_ite (c : Prop) [Decidable c] (f : W) : opt c f = if c then f else nop := rfl

theorem export_eq {n m : Node} (h : n.moduleFlags = m.moduleFlags) : exportPrefix n = exportPrefix m := by
  have hx : exported n = exported m := by unfold exported; rw [h]
  simp only [opt_ite, exportPrefix, hx]

/-! ## One call -/

/-- What is known of the two nodes. -/
structure Known (fatal : Bool) (e : Env) (rec : Fn → Nat → W) (p q : Nat) (n m : Node) : Prop where
  np : e.h.cell p = n
  nq : e.h.cell q = m
  twin : Twin fatal e p q
  recOk : RecOk fatal e rec
  ty : n.type = m.type
  a : ∀ c ∈ eqChecks n.type, Agree (BothEqual fatal e.h) n m c
  cn : ComparedNode e p n
  cm : ComparedNode e q m

theorem Known.typ (k : Known fatal e rec p q n m) (h : Chk.ast Node.typ ∈ eqChecks n.type) : Paired fatal e n.typ m.typ := by
  have := k.a _ h
  obtain ⟨rfl, rfl, t, _⟩ := k
  exact t.pairTyp this

theorem Known.specs (k : Known fatal e rec p q n m) (h : Chk.ast Node.specs ∈ eqChecks n.type) : Paired fatal e n.specs m.specs := by
  have := k.a _ h
  obtain ⟨rfl, rfl, t, _⟩ := k
  exact t.pairSpecs this

theorem Known.params (k : Known fatal e rec p q n m) (h : Chk.ast Node.params ∈ eqChecks n.type) : Paired fatal e n.params m.params := by
  have := k.a _ h
  obtain ⟨rfl, rfl, t, _⟩ := k
  exact t.pairParams this

theorem Known.body (k : Known fatal e rec p q n m) (h : Chk.ast Node.body ∈ eqChecks n.type) : Paired fatal e n.body m.body := by
  have := k.a _ h
  obtain ⟨rfl, rfl, t, _⟩ := k
  exact t.pairBody this

theorem Known.nameEq (k : Known fatal e rec p q n m) (h : Chk.name ∈ eqChecks n.type) : n.name = m.name := k.a _ h

theorem Known.name (k : Known fatal e rec p q n m) (h : Chk.name ∈ eqChecks n.type) : e.name p n = e.name q m := by
  have := k.nameEq h
  obtain ⟨rfl, rfl, t, _⟩ := k
  exact twin_name t this

theorem Known.exp (k : Known fatal e rec p q n m) (h : Chk.mflags ∈ eqChecks n.type) : exportPrefix n = exportPrefix m :=
  export_eq (k.a _ h)

theorem class_fwd (k : Known fatal e rec p q n m) (h : n.type = .Class_Fwd) : classFwd e p n = classFwd e q m := by
  have h1 := k.name (by rw [h]; simp [eqChecks])
  have h2 := export_eq (n := n) (m := m) ((k.cn.exportFwd (.inl h)).trans (k.cm.exportFwd (.inl (k.ty ▸ h))).symm)
  simp only [opt_ite, classFwd, k.cn.attributes, k.cm.attributes, k.cn.inlineCmt, k.cm.inlineCmt, endStmt_eq k.cn (by rw [h]; decide), endStmt_eq k.cm (by rw [← k.ty, h]; decide), h1, h2]

theorem struct_fwd (k : Known fatal e rec p q n m) (h : n.type = .Struct_Fwd) : structFwd e p n = structFwd e q m := by
  have h1 := k.name (by rw [h]; simp [eqChecks])
  have h2 := export_eq (n := n) (m := m) ((k.cn.exportFwd (.inr h)).trans (k.cm.exportFwd (.inr (k.ty ▸ h))).symm)
  simp only [opt_ite, structFwd, k.cn.attributes, k.cm.attributes, k.cn.inlineCmt, k.cm.inlineCmt, endStmt_eq k.cn (by rw [h]; decide), endStmt_eq k.cm (by rw [← k.ty, h]; decide), h1, h2]

theorem record_def (k : Known fatal e rec p q n m) (h : n.type = .Class ∨ n.type = .Struct) (kw : Bytes) {w w' : W} (hw : w = w') :
    recordDef e rec kw w n = recordDef e rec kw w' m := by
  have hk : n.type ∈ parentKinds := by rcases h with h | h <;> rw [h] <;> decide
  have h1 := k.nameEq (by rcases h with h | h <;> rw [h] <;> simp [eqChecks])
  have h2 := k.exp (by rcases h with h | h <;> rw [h] <;> simp [eqChecks])
  have h3 := (k.body (by rcases h with h | h <;> rw [h] <;> simp [eqChecks])).body k.recOk
  simp only [opt_ite, recordDef, finalSpec, k.cn.attributes, k.cm.attributes, k.cn.inlineCmt, k.cm.inlineCmt, endStmt_eq k.cn hk, endStmt_eq k.cm (k.ty ▸ hk),
    h1, h2, hw, k.cn.final h, k.cm.final (k.ty ▸ h), sub, h3]

theorem class_parents (k : Known fatal e rec p q n m) (h : n.type = .Class) (fuel : Nat) :
    classParents e rec fuel p n = classParents e rec fuel q m := by
  have h1 := k.name (by rw [h]; simp [eqChecks])
  have h2 := k.typ (by rw [h]; simp [eqChecks])
  have h3 : n.num = m.num := k.a .num (by rw [h]; simp [eqChecks])
  have h4 := h2.typename k.recOk k.cn.typ
  have h5 := h2.null
  have h6 := h2.readTypename k.cn.typ (fun q => opt (q.back ≠ 0) (str b!"\n") ++> chain e rec b!", public %SB" .typename fuel q.back)
    (fun _ _ _ _ _ _ _ a b => by simp only [opt_ite, a, b])
  simp only [opt_ite, ne_eq] at h6
  simp only [opt_ite, classParents, h1, h3, h4, h5, h6, sub, ne_eq]

theorem struct_parents (k : Known fatal e rec p q n m) (h : n.type = .Struct) (fuel : Nat) :
    structParents e rec fuel n = structParents e rec fuel m := by
  have h2 := k.typ (by rw [h]; simp [eqChecks])
  have h3 : n.num = m.num := k.a .num (by rw [h]; simp [eqChecks])
  have h4 := h2.typename k.recOk k.cn.typ
  have h5 := h2.null
  have h6 := h2.readTypename k.cn.typ (fun q => opt (q.back ≠ 0) (str b!"\n") ++> chain e rec b!", %SB" .typename fuel q.back)
    (fun _ _ _ _ _ _ _ a b => by simp only [opt_ite, a, b])
  simp only [opt_ite, ne_eq] at h6
  simp only [opt_ite, structParents, h3, h4, h5, h6, sub, ne_eq]

theorem enum_fwd (k : Known fatal e rec p q n m) (h : n.type = .Enum_Fwd) : enumFwd e rec p n = enumFwd e rec q m := by
  have h1 := k.name (by rw [h]; simp [eqChecks])
  have h2 := k.exp (by rw [h]; simp [eqChecks])
  have h3 := k.typ (by rw [h]; simp [eqChecks])
  have h4 := k.params (by rw [h]; simp [eqChecks])
  simp only [opt_ite, enumFwd, k.cn.attributes, k.cm.attributes, k.cn.inlineCmt, k.cm.inlineCmt, endStmt_eq k.cn (by rw [h]; decide), endStmt_eq k.cm (by rw [← k.ty, h]; decide), h1, h2, sub,
    h3.typename k.recOk k.cn.typ, h3.null, h4.null, h4.code k.recOk, ne_eq]

theorem enum_class_fwd (k : Known fatal e rec p q n m) (h : n.type = .Enum_Class_Fwd) : enumClassFwd e rec p n = enumClassFwd e rec q m := by
  have h1 := k.name (by rw [h]; simp [eqChecks])
  have h2 := k.exp (by rw [h]; simp [eqChecks])
  have h3 := k.typ (by rw [h]; simp [eqChecks])
  simp only [opt_ite, enumClassFwd, k.cn.attributes, k.cm.attributes, k.cn.inlineCmt, k.cm.inlineCmt, endStmt_eq k.cn (by rw [h]; decide), endStmt_eq k.cm (by rw [← k.ty, h]; decide), h1, h2, sub,
    h3.typename k.recOk k.cn.typ, ne_eq]

theorem union_def (k : Known fatal e rec p q n m) (h : n.type = .Union) : unionDef e rec p n = unionDef e rec q m := by
  have h1 := k.name (by rw [h]; simp [eqChecks])
  have h1' := k.nameEq (by rw [h]; simp [eqChecks])
  have h2 := k.exp (by rw [h]; simp [eqChecks])
  have h3 := k.body (by rw [h]; simp [eqChecks])
  simp only [opt_ite, unionDef, k.cn.attributes, k.cm.attributes, endStmt_eq k.cn (by rw [h]; decide), endStmt_eq k.cm (by rw [← k.ty, h]; decide), h1, h1', h2, sub, h3.body k.recOk]

theorem union_fwd (k : Known fatal e rec p q n m) (h : n.type = .Union_Fwd) : unionFwd e p n = unionFwd e q m := by
  have h1 := k.name (by rw [h]; simp [eqChecks])
  have h1' := k.nameEq (by rw [h]; simp [eqChecks])
  have h2 := k.exp (by rw [h]; simp [eqChecks])
  simp only [opt_ite, unionFwd, k.cn.attributes, k.cm.attributes, endStmt_eq k.cn (by rw [h]; decide), endStmt_eq k.cm (by rw [← k.ty, h]; decide), h1, h1', h2]

theorem friend_ref (k : Known fatal e rec p q n m) (h : n.type = .Friend) : friendRef e rec n = friendRef e rec m := by
  have h3 := k.body (by rw [h]; simp [eqChecks])
  have h4 := h3.readType (fun d => fun r =>
    if d.type ≠ .Function ∧ d.type ≠ .Operator ∧ r.getLast? ≠ some 59 then str b!";" r else .ok r) (fun a b ht => by simp only [opt_ite, ht])
  simp only [opt_ite, friendRef, k.cn.inlineCmt, k.cm.inlineCmt, sub, h3.code k.recOk, h4]

theorem fn_fwd (k : Known fatal e rec p q n m) (h : n.type = .Function_Fwd) : fnFwd e rec p n = fnFwd e rec q m := by
  have h1 := k.name (by rw [h]; simp [eqChecks])
  have h2 := k.exp (by rw [h]; simp [eqChecks])
  have h3 := k.typ (by rw [h]; simp [eqChecks])
  have h4 := k.params (by rw [h]; simp [eqChecks])
  have h5 := k.specs (by rw [h]; simp [eqChecks])
  have h6 : n.params ≠ 0 → (e.h.cell n.params).type = .Parameters := fun h0 => by
    rcases k.cn.params h0 with r | r | r
    · exact r
    · rw [h] at r; cases r
    · rw [h] at r; cases r
  simp only [opt_ite, fnFwd, fnSignature, fnFwdSpecs, k.cn.attributes, k.cm.attributes, k.cn.inlineCmt, k.cm.inlineCmt, k.cn.suffix, k.cm.suffix,
    k.cn.fwd (.inl h), k.cm.fwd (.inl (k.ty ▸ h)), h1, h2, sub, h3.typename k.recOk k.cn.typ, h3.null, h4.null, h4.params k.recOk h6,
    specs_list h5 k.cn.specs, specs_has h5 k.cn.specs, ne_eq]

theorem op_fwd (k : Known fatal e rec p q n m) (h : n.type = .Operator_Fwd ∨ n.type = .Operator_Member_Fwd) :
    opFwd e rec p n = opFwd e rec q m := by
  have h1 := k.name (by rcases h with h | h <;> rw [h] <;> simp [eqChecks])
  have h2 := k.exp (by rcases h with h | h <;> rw [h] <;> simp [eqChecks])
  have h3 := k.typ (by rcases h with h | h <;> rw [h] <;> simp [eqChecks])
  have h4 := k.params (by rcases h with h | h <;> rw [h] <;> simp [eqChecks])
  have h5 := k.specs (by rcases h with h | h <;> rw [h] <;> simp [eqChecks])
  have h6 : n.params ≠ 0 → (e.h.cell n.params).type = .Parameters := fun h0 => by
    rcases k.cn.params h0 with r | r | r
    · exact r
    · rcases h with h | h <;> rw [h] at r <;> cases r
    · rcases h with h | h <;> rw [h] at r <;> cases r
  simp only [opt_ite, opFwd, k.cn.attributes, k.cm.attributes, k.cn.inlineCmt, k.cm.inlineCmt, h1, h2, sub, h3.typename k.recOk k.cn.typ,
    h4.null, h4.params k.recOk h6, specs_list h5 k.cn.specs, h5.null, ne_eq]

theorem cast_fwd (k : Known fatal e rec p q n m) (h : n.type = .Operator_Cast_Fwd) : opcastFwd e rec n = opcastFwd e rec m := by
  have h3 := k.typ (by rw [h]; simp [eqChecks])
  have h5 := k.specs (by rw [h]; simp [eqChecks])
  simp only [opt_ite, opcastFwd, k.cn.inlineCmt, k.cm.inlineCmt, sub, h3.typename k.recOk k.cn.typ, specs_list h5 k.cn.specs, h5.null, ne_eq]

theorem module_eq (k : Known fatal e rec p q n m) (h : n.type = .Module) : module e p n = module e q m := by
  have h1 := k.name (by rw [h]; simp [eqChecks])
  have h2 := k.exp (by rw [h]; simp [eqChecks])
  have h3 : n.moduleFlags = m.moduleFlags := k.a .mflags (by rw [h]; simp [eqChecks])
  have h4 : imported n = imported m := by unfold imported; rw [h3]
  simp only [opt_ite, module, h1, h2, h4]

theorem namespace_eq (k : Known fatal e rec p q n m) (h : n.type = .Namespace) : namespaceRef e rec p n = namespaceRef e rec q m := by
  have h1 := k.name (by rw [h]; simp [eqChecks])
  have h2 := k.exp (by rw [h]; simp [eqChecks])
  have h3 := k.body (by rw [h]; simp [eqChecks])
  simp only [opt_ite, namespaceRef, h1, h2, sub, h3.body k.recOk]

theorem extern_eq (k : Known fatal e rec p q n m) (h : n.type = .Extern_Linkage) : externRef e rec p n = externRef e rec q m := by
  have h1 := k.name (by rw [h]; simp [eqChecks])
  have h3 := k.body (by rw [h]; simp [eqChecks])
  simp only [opt_ite, externRef, h1, sub, h3.body k.recOk, h3.null, ne_eq]

theorem template_eq (k : Known fatal e rec p q n m) (h : n.type = .Template) : template e rec n = template e rec m := by
  have h2 := k.exp (by rw [h]; simp [eqChecks])
  have h3 := k.body (by rw [h]; simp [eqChecks])
  have h4 := k.params (by rw [h]; simp [eqChecks])
  have h6 : n.params ≠ 0 → (e.h.cell n.params).type = .Parameters := fun h0 => by
    rcases k.cn.params h0 with r | r | r
    · exact r
    · rw [h] at r; cases r
    · rw [h] at r; cases r
  simp only [opt_ite, template, h2, sub, h3.code k.recOk, h4.null, h4.params k.recOk h6, ne_eq]

theorem typedef_eq (k : Known fatal e rec p q n m) (h : n.type = .Typedef) (fuel : Nat) :
    typedef e rec fuel p n = typedef e rec fuel q m := by
  have h1 := k.name (by rw [h]; simp [eqChecks])
  have h2 := k.exp (by rw [h]; simp [eqChecks])
  have h3 := k.typ (by rw [h]; simp [eqChecks])
  have h4 := h3.readTypename k.cn.typ (fun u =>
    (reading (rec .code n.typ []) fun t =>
      if u.typ ≠ 0 then str t else e.fmt b!"%SB %S" [sbArg t, e.name p n]) ++>
    (if u.type = .Typename ∧ u.body ≠ 0 then chain e rec b!"[ %SB ];" .code fuel u.body else str b!";"))
    (fun _ _ a b c d f _ _ => by simp only [opt_ite, a, b, c, d, f])
  rw [typedef, h4]
  simp only [opt_ite, typedef, h1, h2, h3.code k.recOk, k.cn.inlineCmt, k.cm.inlineCmt]

theorem typename_eq (k : Known fatal e rec p q n m) (h : n.type = .Typename) : typenameRef e rec p = typenameRef e rec q := by
  have h1 := k.name (by rw [h]; simp [eqChecks])
  have h2 := k.specs (by rw [h]; simp [eqChecks])
  have h3 : n.isParamPack = m.isParamPack := k.a .pack (by rw [h]; simp [eqChecks])
  obtain ⟨a1, _, a3, _⟩ := k.cn.typename h
  obtain ⟨b1, _, b3, _⟩ := k.cm.typename (k.ty ▸ h)
  have h4 : e.h.get p = .ok n := by rw [get_ok k.cn.valid, k.np]
  have h5 : e.h.get q = .ok m := by rw [get_ok k.cm.valid, k.nq]
  have p0 : p ≠ 0 := Nat.ne_of_gt k.cn.valid.1
  have q0 : q ≠ 0 := Nat.ne_of_gt k.cm.valid.1
  simp only [opt_ite, typenameRef, h4, h5, Res.assert_true p0, Res.assert_true q0, reading_run, a1, b1, a3, b3, k.cn.attributes,
    k.cm.attributes, h1, h3, subSpecs, specs_ref h2 k.cn.specs, h2.null, ne_eq, not_true_eq_false, false_and, if_false]

theorem bounds_eq {a b : Nat} (h : Paired fatal e a b) (ht : a ≠ 0 → (e.h.cell a).type = .Typename) (fuel : Nat) :
    bounds e rec fuel a = bounds e rec fuel b := by
  have h1 := h.readTypename ht (fun u => opt (u.body ≠ 0) (chain e rec b!"[ %SB ]" .code fuel u.body))
    (fun _ _ _ _ _ c d _ _ => by simp only [opt_ite, c, d])
  simp only [opt_ite, ne_eq] at h1
  simp only [opt_ite, bounds, h1, h.null, ne_eq]

theorem using_eq (k : Known fatal e rec p q n m) (h : n.type = .Using) (fuel : Nat) :
    usingRef e rec fuel p n = usingRef e rec fuel q m := by
  have h1 := k.name (by rw [h]; simp [eqChecks])
  have h2 := k.exp (by rw [h]; simp [eqChecks])
  have h3 := k.typ (by rw [h]; simp [eqChecks])
  simp only [opt_ite, usingRef, h1, h2, sub, h3.typename k.recOk k.cn.typ, h3.null, bounds_eq h3 k.cn.typ, k.cn.attributes, k.cm.attributes,
    k.cn.inlineCmt, k.cm.inlineCmt, ne_eq]

theorem using_ns (k : Known fatal e rec p q n m) (h : n.type = .Using_Namespace) : usingNs e p n = usingNs e q m := by
  have h1 := k.name (by rw [h]; simp [eqChecks])
  simp only [opt_ite, usingNs, h1, k.cn.inlineCmt, k.cm.inlineCmt, ne_eq, not_true_eq_false, if_false]

theorem not_next (c : ComparedNode e p n) (hk : n.type ∈ parentKinds) :
    (if n.parent = 0 then Res.ok false else (e.h.get n.parent).bind fun q => Res.ok (decide (q.type = .Variable))) = .ok false := by
  by_cases h0 : n.parent = 0
  · rw [if_pos h0]
  · obtain ⟨v, _, t2⟩ := c.parent hk h0
    rw [if_neg h0, get_ok v]
    simp [t2]

theorem var_eq (k : Known fatal e rec p q n m) (h : n.type = .Variable) (fuel : Nat) : varRef e rec fuel p = varRef e rec fuel q := by
  have h1 := k.name (by rw [h]; simp [eqChecks])
  have h2 := k.exp (by rw [h]; simp [eqChecks])
  have h3 := k.typ (by rw [h]; simp [eqChecks])
  have h4 := k.params (by rw [h]; simp [eqChecks])
  have h5 := k.specs (by rw [h]; simp [eqChecks])
  have h6 := k.body (by rw [h]; simp [eqChecks])
  have r1 : e.h.get p = .ok n := by rw [get_ok k.cn.valid, k.np]
  have r2 : e.h.get q = .ok m := by rw [get_ok k.cm.valid, k.nq]
  have p0 : p ≠ 0 := Nat.ne_of_gt k.cn.valid.1
  have q0 : q ≠ 0 := Nat.ne_of_gt k.cm.valid.1
  have h7 : ∀ t, (reading (e.h.get n.typ) fun u =>
    if u.body ≠ 0 then
      sub rec .code u.body (fun a => e.fmt b!"%SB %S[ %SB ]" [t, e.name p n, a]) ++>
      reading (e.h.get u.body) fun x => chain e rec b!"[ %SB ]" .code fuel x.back
    else e.fmt b!"%SB %S" [t, e.name p n]) = _ := fun t => h3.readTypename k.cn.typ _
    (fun _ _ _ _ _ c d _ _ => by simp only [opt_ite, c, d, ne_eq, not_true_eq_false, if_false])
  have h8 : varPlainHead e rec fuel p n = varPlainHead e rec fuel q m := by
    unfold varPlainHead
    simp only [h7]
    simp only [sub, h3.typename k.recOk k.cn.typ, h4.null, h4.code k.recOk, h1, ne_eq]
  have h9 : varInit e rec n = varInit e rec m := by
    simp only [opt_ite, varInit, h6.null, sub, h6.code k.recOk, k.cn.init h, k.cm.init (k.ty ▸ h), k.cn.suffix, k.cm.suffix, ne_eq]
  have h10 : varSpecified e rec fuel p n = varSpecified e rec fuel q m := by
    simp only [opt_ite, varSpecified, h9, bounds_eq h3 k.cn.typ, sub, h3.typename k.recOk k.cn.typ, h4.null, h4.code k.recOk, h1, h5.null,
      subSpecs, specs_ref h5 k.cn.specs, k.cn.attributes, k.cm.attributes, k.cn.inlineCmt, k.cm.inlineCmt, ne_eq]
  have h11 : varPlain e rec fuel p n = varPlain e rec fuel q m := by
    simp only [opt_ite, varPlain, h8, h9, k.cn.inlineCmt, k.cm.inlineCmt]
  simp only [opt_ite, varRef, r1, r2, Res.assert_true p0, Res.assert_true q0]
  simp only [opt_ite, reading_run, not_next k.cn (by rw [h]; decide), not_next k.cm (by rw [← k.ty, h]; decide), h2, h10, h11, h5.null, k.cn.attributes, k.cm.attributes, ne_eq, Bool.false_eq_true,
    if_false]

theorem params_eq (k : Known fatal e rec p q n m) (h : n.type = .Parameters) (fuel : Nat) :
    paramsRef e rec fuel p = paramsRef e rec fuel q := by
  have h1 := k.name (by rw [h]; simp [eqChecks])
  have h1' := k.nameEq (by rw [h]; simp [eqChecks])
  have h3 := k.typ (by rw [h]; simp [eqChecks])
  have h6 := k.body (by rw [h]; simp [eqChecks])
  have r1 : e.h.get p = .ok n := by rw [get_ok k.cn.valid, k.np]
  have r2 : e.h.get q = .ok m := by rw [get_ok k.cm.valid, k.nq]
  have p0 : p ≠ 0 := Nat.ne_of_gt k.cn.valid.1
  have q0 : q ≠ 0 := Nat.ne_of_gt k.cm.valid.1
  obtain ⟨a1, a2⟩ := k.cn.params1 h
  obtain ⟨b1, b2⟩ := k.cm.params1 (k.ty ▸ h)
  have c1 : ¬ n.num - 1 > 0 := by omega
  have c2 : ¬ m.num - 1 > 0 := by omega
  have h7 : param e rec p n = param e rec q m := by
    simp only [opt_ite, param, a2, b2, h1, h1', h3.null, sub, h3.typename k.recOk k.cn.typ, h6.null, h6.code k.recOk, k.cn.suffix, k.cm.suffix, ne_eq]
  simp only [opt_ite, paramsRef, r1, r2, Res.assert_true p0, Res.assert_true q0]
  simp only [reading_run, h7, opt_ite, c1, c2, if_false]

/-! ## Bodies -/

/-- What the loop over two bodies says, in both directions. -/
def LoopBoth (fatal : Bool) (h : Heap) (c d : Nat) : Prop :=
  (∃ f k, eqBodyLoop (isEqual fatal f h) h k c d = .ok true) ∧ ∃ f k, eqBodyLoop (isEqual fatal f h) h k d c = .ok true

theorem loop_null {fatal : Bool} {h : Heap} {f k d : Nat} (he : eqBodyLoop (isEqual fatal f h) h k d 0 = .ok true) : d = 0 := by
  cases k with
  | zero => cases he
  | succ k =>
    unfold eqBodyLoop at he
    by_cases h0 : d = 0
    · exact h0
    · rw [if_neg h0, if_pos rfl] at he; cases he

theorem loop_next {fatal : Bool} {h : Heap} {f k c d : Nat} (he : eqBodyLoop (isEqual fatal f h) h k c d = .ok true) (h0 : c ≠ 0) :
    d ≠ 0 ∧ isEqual fatal f h c d = .ok true ∧ ∃ k', eqBodyLoop (isEqual fatal f h) h k' (h.cell c).back (h.cell d).back = .ok true := by
  cases k with
  | zero => cases he
  | succ k =>
    unfold eqBodyLoop at he
    rw [if_neg h0] at he
    by_cases d0 : d = 0
    · rw [if_pos d0] at he; cases he
    · rw [if_neg d0] at he
      obtain ⟨b, hb, he⟩ := Res.bind_eq_ok.1 he
      cases b
      · simp at he
      · obtain ⟨vc, vd, _⟩ := C32_same_type_partial hb
        rw [if_neg (by decide), get_ok vc, get_ok vd] at he
        exact ⟨d0, hb, k, he⟩

theorem body_loop (r : RecOk fatal e rec) : ∀ (left c d : Nat) (l l' : List Nat), NullChain e.h c l → NullChain e.h d l' →
    (∀ x ∈ l, Compared e x) → (∀ x ∈ l', Compared e x) → LoopBoth fatal e.h c d → bodyLoop e rec left c = bodyLoop e rec left d
  | 0, _, _, _, _, _, _, _, _, _ => rfl
  | left + 1, c, d, l, l', hc, hd, hl, hl', ⟨⟨f1, k1, e1⟩, ⟨f2, k2, e2⟩⟩ => by
    by_cases c0 : c = 0
    · subst c0
      rw [loop_null e2]
    · obtain ⟨d0, i1, k1', n1⟩ := loop_next e1 c0
      obtain ⟨_, i2, k2', n2⟩ := loop_next e2 d0
      match l, l', hc, hd with
      | [], _, hc, _ => exact absurd hc c0
      | _ :: _, [], _, hd => exact absurd hd d0
      | a :: l, b :: l', ⟨ha, va, hc⟩, ⟨hb, vb, hd⟩ =>
        subst ha hb
        have t : Twin fatal e c d := ⟨hl _ List.mem_cons_self, hl' _ List.mem_cons_self, ⟨f1, i1⟩, ⟨f2, i2⟩⟩
        have ih := body_loop r left _ _ l l' hc hd (fun x hx => hl x (List.mem_cons_of_mem _ hx))
          (fun x hx => hl' x (List.mem_cons_of_mem _ hx)) ⟨⟨f1, k1', n1⟩, ⟨f2, k2', n2⟩⟩
        simp only [bodyLoop, r.code t, c0, d0, if_false, get_ok va, get_ok vb, Res.ok_bind, ih]

theorem isEqual_body {f : Nat} {h : Heap} (he : isEqual fatal f h p q = .ok true) (hb : eqBodyType (h.cell p).type = true) :
    (h.cell p).num = (h.cell q).num ∧ ∃ f k, eqBodyLoop (isEqual fatal f h) h k (h.cell p).front (h.cell q).front = .ok true := by
  obtain ⟨va, vb, hty⟩ := C32_same_type_partial he
  cases f with
  | zero => cases he
  | succ f =>
    have q0 : q ≠ 0 := Nat.ne_of_gt vb.1
    unfold isEqual at he
    rw [if_neg q0, get_ok va, get_ok vb] at he
    simp only [Res.ok_bind, ← hty, ne_eq, not_true_eq_false, if_false] at he
    have main : ((runChecks (isEqual fatal f h) (h.cell p) (h.cell q) [.ast Node.front, .ast Node.back]).bind fun b =>
        if !b then .ok false else
        (eqBodyLoop (isEqual fatal f h) h f (h.cell p).front (h.cell q).front).bind fun b =>
          .ok (b && decide ((h.cell p).num = (h.cell q).num))) = .ok true := by
      generalize (h.cell p).type = t at *
      cases t <;> simp only [eqBodyType, Bool.false_eq_true, if_true] at hb he <;> exact he
    obtain ⟨b, _, he⟩ := Res.bind_eq_ok.1 main
    cases b
    · simp at he
    · obtain ⟨c, hc, he⟩ := Res.bind_eq_ok.1 he
      simp only [Res.ok.injEq, Bool.and_eq_true, decide_eq_true_eq] at he
      rw [he.1] at hc
      exact ⟨he.2, f, f, hc⟩

theorem body_eq (t : Twin fatal e p q) (r : RecOk fatal e rec) (hb : eqBodyType (e.h.cell p).type = true) :
    bodyRef e rec p = bodyRef e rec q := by
  obtain ⟨l, c1, c2⟩ := t.left.list hb
  obtain ⟨l', d1, d2⟩ := t.right.list (t.type ▸ hb)
  obtain ⟨⟨f1, e1⟩, ⟨f2, e2⟩⟩ := t.equal
  obtain ⟨n1, x1⟩ := isEqual_body e1 hb
  obtain ⟨_, x2⟩ := isEqual_body e2 (t.type ▸ hb)
  have vp := t.left.node.valid
  have vq := t.right.node.valid
  simp only [bodyRef, get_ok vp, get_ok vq, Res.assert_true (Nat.ne_of_gt vp.1), Res.assert_true (Nat.ne_of_gt vq.1), reading_run, n1,
    body_loop r _ _ _ l l' c1 d1 c2 d2 ⟨x1, x2⟩]

/-! ## All calls -/

theorem Twin.known (t : Twin fatal e p q) (r : RecOk fatal e rec) (hb : eqBodyType (e.h.cell p).type = false)
    (hs : (e.h.cell p).type ≠ .Specifiers) : Known fatal e rec p q (e.h.cell p) (e.h.cell q) :=
  ⟨rfl, rfl, t, r, t.type, t.agree hb hs, t.left.node, t.right.node⟩

theorem dispatch_eq (t : Twin fatal e p q) (r : RecOk fatal e rec) (fuel : Nat) :
    dispatch e rec fuel p (e.h.cell p) = dispatch e rec fuel q (e.h.cell q) := by
  have hk := t.left.node.kind
  have hty := t.type
  have k := t.known (rec := rec) r
  have hbody := body_eq t r
  have a1 := t.left.node.access
  have a2 := t.right.node.access
  generalize hty' : (e.h.cell p).type = ty at *
  have hq : (e.h.cell q).type = ty := hty.symm
  rw [dispatch, dispatch, hty', hq]
  simp only [comparedKinds, List.mem_cons, List.not_mem_nil, or_false] at hk
  rcases hk with h | h | h | h | h | h | h | h | h | h | h | h | h | h | h | h | h | h | h | h | h | h | h | h | h | h | h | h | h | h |
    h | h | h | h | h | h <;> subst h <;> simp only []
  all_goals first
    | done
    | exact hbody rfl
    | (rw [a1 (by simp [isAccess]), a2 (by rw [← hty]; simp [isAccess]), ← hty])
    | skip
  · have := k rfl (by decide)
    simp only [classDef, class_parents this hty' fuel]
    exact record_def this (.inl hty') _ rfl
  · exact class_fwd (k rfl (by decide)) hty'
  · have := k rfl (by decide)
    simp only [structDef, struct_parents this hty' fuel]
    exact record_def this (.inr hty') _ rfl
  · exact struct_fwd (k rfl (by decide)) hty'
  · exact enum_fwd (k rfl (by decide)) hty'
  · exact enum_class_fwd (k rfl (by decide)) hty'
  · exact union_def (k rfl (by decide)) hty'
  · exact union_fwd (k rfl (by decide)) hty'
  · exact friend_ref (k rfl (by decide)) hty'
  · exact fn_fwd (k rfl (by decide)) hty'
  · exact op_fwd (k rfl (by decide)) (.inl hty')
  · exact op_fwd (k rfl (by decide)) (.inr hty')
  · exact cast_fwd (k rfl (by decide)) hty'
  · exact module_eq (k rfl (by decide)) hty'
  · exact namespace_eq (k rfl (by decide)) hty'
  · exact extern_eq (k rfl (by decide)) hty'
  · exact params_eq (k rfl (by decide)) hty' fuel
  · exact specs_ref (.inr ⟨Nat.ne_of_gt t.left.node.valid.1, Nat.ne_of_gt t.right.node.valid.1, t⟩) fun _ => hty'
  · exact template_eq (k rfl (by decide)) hty'
  · exact typedef_eq (k rfl (by decide)) hty' fuel
  · exact typename_eq (k rfl (by decide)) hty'
  · exact using_eq (k rfl (by decide)) hty' fuel
  · exact using_ns (k rfl (by decide)) hty'
  · exact var_eq (k rfl (by decide)) hty' fuel

theorem body_fn_eq (t : Twin fatal e p q) (r : RecOk fatal e rec) : body e rec p = body e rec q := by
  have hk := t.left.node.kind
  have hty := t.type
  have hbody := body_eq t r
  have vp := t.left.node.valid
  have vq := t.right.node.valid
  rw [body, body, Res.assert_true (Nat.ne_of_gt vp.1), Res.assert_true (Nat.ne_of_gt vq.1), get_ok vp, get_ok vq]
  simp only [reading_run]
  generalize hty' : (e.h.cell p).type = ty at *
  rw [← hty]
  simp only [comparedKinds, List.mem_cons, List.not_mem_nil, or_false] at hk
  rcases hk with h | h | h | h | h | h | h | h | h | h | h | h | h | h | h | h | h | h | h | h | h | h | h | h | h | h | h | h | h | h |
    h | h | h | h | h | h <;> subst h <;> first | rfl | exact hbody rfl

theorem ser_recOk (fatal : Bool) (e : Env) : ∀ fuel, RecOk fatal e (ser e fuel)
  | 0 => ⟨fun _ => rfl, fun _ => rfl, fun _ _ => rfl, fun _ _ => rfl⟩
  | fuel + 1 => by
    have r := ser_recOk fatal e fuel
    refine ⟨fun {p q} t => ?_, fun {p q} t => ?_, fun {p q} t h => ?_, fun {p q} t h => ?_⟩
    · have vp := t.left.node.valid
      have vq := t.right.node.valid
      show codeRef e (ser e fuel) fuel p = codeRef e (ser e fuel) fuel q
      rw [codeRef, codeRef, Res.assert_true (Nat.ne_of_gt vp.1), Res.assert_true (Nat.ne_of_gt vq.1), get_ok vp, get_ok vq]
      simp only [reading_run]
      exact dispatch_eq t r fuel
    · exact body_fn_eq t r
    · exact typename_eq (t.known r (by rw [h]; rfl) (by rw [h]; decide)) h
    · exact params_eq (t.known r (by rw [h]; rfl) (by rw [h]; decide)) h fuel

end

/-- C32: of two ASTs all of whose printed parts are among the parts `code_is_equal` compares, and that it calls equal both ways, the
serializer makes the same text (or fails in the same way), with however many nested calls. -/
theorem C32_equal_prints_same_partial {fatal : Bool} {e : Env} {p q : Nat} (hp : Compared e p) (hq : Compared e q)
    (he : BothEqual fatal e.h p q) (fuel : Nat) : codeToStr e fuel p = codeToStr e fuel q := by
  unfold codeToStr
  rw [(ser_recOk fatal e fuel).code ⟨hp, hq, he⟩]

/-- C32: so each text that is made of the one is made of the other. -/
theorem C32_equal_prints_partial {fatal : Bool} {e : Env} {p q : Nat} (hp : Compared e p) (hq : Compared e q)
    (he : BothEqual fatal e.h p q) (t : Bytes) : Prints e .code p t ↔ Prints e .code q t :=
  ⟨fun ⟨f, hf⟩ => ⟨f, (ser_recOk fatal e f).code ⟨hp, hq, he⟩ ▸ hf⟩,
   fun ⟨f, hf⟩ => ⟨f, ((ser_recOk fatal e f).code ⟨hp, hq, he⟩).symm ▸ hf⟩⟩

end Verif.Ser
