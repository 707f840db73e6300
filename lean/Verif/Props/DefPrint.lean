import Verif.Proof.SerFrame
import Verif.Props.SerVars
import Verif.Props.SerFns
import Verif.Props.Upfront
/-!
# Property C49: define, then print

What the serializers print for a code made by one of the `def_*` functions, in terms of the arguments of that function and of what the
serializers print for the argument codes before the call.
-/
namespace Verif.Ser
open Ast

/-- The same environment with another heap. -/
def Env.on (e : Env) (h : Heap) : Env := { e with h := h }

/-- The constructor call `r` returns a code that `code_to_strbuilder` prints as `t` (if that is a text that can be handled). -/
def Yields (e : Env) (r : Out) (t : Bytes) : Prop := ∃ q h', r = .ok (q, h') ∧ Says (e.on h') .code q t

/-- C49: new nodes do not change what is printed for the old ones. -/
theorem C49_kept {e : Env} {h' : Heap} (hk : Kept e.h h') {f : Fn} {p : Nat} {t : Bytes} (hp : Prints e f p t) : Prints (e.on h') f p t := by
  obtain ⟨fuel, hp⟩ := hp
  refine ⟨fuel, ser_frame (S := fun _ => True) (e' := e.on h') ?_ fuel f p trivial _ _ hp⟩
  refine ⟨rfl, trivial, fun p _ hv => (hk p hv).1, fun p _ hv => ⟨(e.h.cell p).parent, (hk p hv).2, ?_⟩, fun _ _ _ => trivial, fun _ _ _ => trivial⟩
  have st : ∀ q, SameType e (e.on h') q := fun q hv => ⟨(hk q hv).1, by rw [show (e.on h').h = h' from rfl, (hk _ hv).2], by
    rw [show (e.on h').h = h' from rfl, (hk _ hv).2]⟩
  exact ⟨rfl, trivial, trivial, trivial, trivial, trivial, trivial, trivial, .inl ⟨rfl, st _⟩, fun _ => ⟨rfl, st _, rfl⟩,
    fun _ => ⟨rfl, fun hv => ⟨(hk _ hv).1, by rw [show (e.on h').h = h' from rfl, (hk _ hv).2], st _⟩⟩⟩

theorem Prints.valid {e : Env} {f : Fn} {p : Nat} {t : Bytes} (hp : Prints e f p t) : e.h.Valid p := by
  obtain ⟨fuel, hp⟩ := hp
  cases fuel with
  | zero => cases hp
  | succ fuel => exact step_valid hp

theorem Slot.kept {e : Env} {h' : Heap} (hk : Kept e.h h') {p : Nat} (hs : Slot e p) : Slot (e.on h') p := fun h => (hk p (hs h)).1

theorem SpecSlot.kept {e : Env} {h' : Heap} (hk : Kept e.h h') {p : Nat} {l : List Specifier} (hs : SpecSlot e p l) : SpecSlot (e.on h') p l := by
  unfold SpecSlot at *
  split
  · rename_i h; rw [if_pos h] at hs; exact hs
  · rename_i h
    rw [if_neg h] at hs
    obtain ⟨a, b, c, d, f⟩ := hs
    obtain ⟨hv, hc⟩ := hk p a
    exact ⟨hv, by rw [show (e.on h').h = h' from rfl, hc]; exact b, by rw [show (e.on h').h = h' from rfl, hc]; exact c,
      by rw [show (e.on h').h = h' from rfl, hc]; exact d, f⟩

theorem SpecSlot.ptrOk {e : Env} {p : Nat} {l : List Specifier} (hs : SpecSlot e p l) : PtrOk e.h p := by
  unfold SpecSlot at hs
  split at hs
  · rename_i h; exact .inl h
  · exact .inr hs.valid

theorem PtrOk.slot {e : Env} {p : Nat} (h : PtrOk e.h p) : Slot e p := fun h0 => h.resolve_left h0

theorem Prints.ptrOk {e : Env} {f : Fn} {p : Nat} {t : Bytes} (hp : p ≠ 0 → Prints e f p t) : PtrOk e.h p := by
  by_cases h0 : p = 0
  · exact .inl h0
  · exact .inr (hp h0).valid

/-- What a built node is printed as. -/
theorem yields_of_built {e : Env} {r : Out} {n : Node} {t : Bytes} (hb : Built e.h r n)
    (h : ∀ h', Kept e.h h' → Is (e.on h') e.h.next n.type n → Says (e.on h') .code e.h.next t) : Yields e r t := by
  obtain ⟨h', h1, h2, h3, h4⟩ := hb
  exact ⟨_, h', h1, h h' h4 ⟨h2, h3, rfl⟩⟩

/-- The attributes `p`, followed by a space. -/
def attrOf (e : Env) (p : Nat) : Bytes := optText p ((e.h.cell p).content ++ b!" ")

/-- `export ` for a declaration with these module flags. -/
def exportOf (mflags : Nat) : Bytes := ifText (mflags % 2 = 1) b!"export "

theorem attrText_of {e : Env} {h' : Heap} (hk : Kept e.h h') {n : Node} (ha : PtrOk e.h n.attributes) : attrText (e.on h') n = attrOf e n.attributes := by
  unfold attrText attrOf optText
  split
  · rfl
  · rename_i h
    rw [show (e.on h').h = h' from rfl, (hk _ (ha.resolve_left h)).2]

theorem endText_none {e : Env} {n : Node} {t : Bytes} (h : n.parent = 0) : endText e n t = t := by
  unfold endText
  rw [if_neg (fun hc => hc.1 h)]

theorem nameText_set {e : Env} {p : Nat} {n : Node} (hc : e.h.cell p = n) (h : n.name ≠ []) : nameText e p = n.name := by
  unfold nameText strText
  rw [hc, if_neg (fun hx => h hx.1)]

theorem contentText_set {e : Env} {p : Nat} {n : Node} (hc : e.h.cell p = n) (h : n.content ≠ []) : contentText e p = n.content := by
  unfold contentText strText
  rw [hc, if_neg (fun hx => h hx.1)]

theorem Says.print' {e : Env} {f : Fn} {p : Nat} {t u : Bytes} (h : Says e f p t) (ht : t = u) (hf : Fits u) : Prints e f p u := by
  subst ht; exact h hf

theorem Says.cast {e : Env} {f : Fn} {p : Nat} {t u : Bytes} (h : Says e f p t) (ht : t = u) : Says e f p u := ht ▸ h

theorem says_prints {e : Env} {f : Fn} {p : Nat} {t : Bytes} (h : Prints e f p t) : Says e f p t := fun _ => h

section
variable (c : Cfg) {e : Env} (hn : 0 < e.h.next)
include hn

/-- C49: untyped code is printed as it is. -/
theorem C49_untyped_str {t : Bytes} (ht : t ≠ []) : Yields e (untypedStr c e.h t) t :=
  yields_of_built ((C29_untyped_str c hn t).1 ht) fun _ _ h => says_prints (C48_text (.inl h))

/-- C49: an execution is printed as it is. -/
theorem C49_def_execution {t : Bytes} (ht : t ≠ []) : Yields e (defExecution c e.h t) t :=
  yields_of_built ((C29_def_execution c hn t).1 ht) fun _ _ h => says_prints (C48_text (.inr (.inl h)))

/-- C49: attributes are printed as they are. -/
theorem C49_def_attributes {t : Bytes} (ht : t ≠ []) : Yields e (defAttributes c e.h t) t :=
  yields_of_built ((C29_def_attributes c hn t).1 ht) fun _ _ h => says_prints (C48_text (.inr (.inr (.inr h))))

/-- C49: `#include <path>` or `#include "path"`. -/
theorem C49_def_include {path : Bytes} {foreign : Bool} (ht : path ≠ []) (hz : 0 ∉ path) (hl : path.length + 3 < 131072) :
    Yields e (defInclude c e.h path foreign) (b!"#include " ++ (if foreign then b!"<" ++ path ++ b!">" else b!"\"" ++ path ++ b!"\"") ++ b!"\n") :=
  yields_of_built ((C29_def_include c hn path foreign hz hl).1 ht) fun h' _ h => by
    have := C48_directive (before := b!"#include ") (after := b!"\n") h (by simp)
    rw [contentText_set h.cell (by cases foreign <;> simp)] at this
    exact this

/-- C49: `#pragma directive`. -/
theorem C49_def_pragma {t : Bytes} (ht : t ≠ []) : Yields e (defPragma c e.h t) (b!"#pragma " ++ t ++ b!"\n") :=
  yields_of_built ((C29_def_pragma c hn t).1 ht) fun _ _ h => by
    have := C48_directive (before := b!"#pragma ") (after := b!"\n") h (by simp)
    rw [contentText_set h.cell ht] at this
    exact this

/-- C49: conditional directives. After `#if` and `#ifndef` the line is not ended (as in the source). -/
theorem C49_def_preprocess_cond (k : PreCond) {t : Bytes} (ht : t ≠ []) : Yields e (defPreprocessCond c e.h k t)
    (match k with
      | .If => b!"#if " ++ t
      | .IfDef => b!"#ifdef " ++ t ++ b!"\n"
      | .IfNotDef => b!"#ifndef " ++ t
      | .ElIf => b!"#elif " ++ t ++ b!"\n") :=
  yields_of_built ((C29_def_preprocess_cond c hn k t).1 ht) fun _ _ h => by
    cases k
    · have := C48_directive (before := b!"#if ") (after := b!"") h (by simp)
      rw [contentText_set h.cell ht, List.append_nil] at this
      exact this
    · have := C48_directive (before := b!"#ifdef ") (after := b!"\n") h (by simp)
      rw [contentText_set h.cell ht] at this
      exact this
    · have := C48_directive (before := b!"#ifndef ") (after := b!"") h (by simp)
      rw [contentText_set h.cell ht, List.append_nil] at this
      exact this
    · have := C48_directive (before := b!"#elif ") (after := b!"\n") h (by simp)
      rw [contentText_set h.cell ht] at this
      exact this

/-- C49: modules. -/
theorem C49_def_module {name : Bytes} {mflags : Nat} (ht : name ≠ []) : Yields e (defModule c e.h name mflags)
    (exportOf mflags ++ ifText (mflags / 2 % 2 = 1) b!"import " ++ name ++ b!";\n") :=
  yields_of_built ((C29_def_module c hn name mflags).1 ht) fun _ _ h => by
    have := C48_module h
    rw [nameText_set h.cell ht] at this
    exact this

/-- C49: `using namespace name;` -/
theorem C49_def_using_namespace {name : Bytes} (ht : name ≠ []) : Yields e (defUsingNamespace c e.h name)
    (b!"using namespace " ++ name ++ b!";\n") :=
  yields_of_built ((C29_def_using_namespace c hn name).1 ht) fun _ _ h => by
    have := C48_using_namespace h rfl
    rw [nameText_set h.cell ht] at this
    exact this

/-- C49: namespaces. -/
theorem C49_def_namespace {name : Bytes} {body mflags : Nat} {t : Bytes} (ht : name ≠ [])
    (hty : (e.h.cell body).type ∈ [CodeType.Namespace_Body, .Untyped]) (hb : Prints e .body body t) :
    Yields e (defNamespace c e.h name body mflags) (exportOf mflags ++ b!"namespace " ++ name ++ b!"\n{\n" ++ t ++ b!"\n}\n") :=
  yields_of_built ((C29_def_namespace c hn name body mflags (.inr hb.valid)).1 ⟨ht, Nat.pos_iff_ne_zero.1 hb.valid.1, hty⟩) fun _ hk h => by
    have := C48_namespace h (C49_kept hk hb)
    rw [nameText_set h.cell ht] at this
    exact this

/-- C49: extern linkage. -/
theorem C49_def_extern_link {name : Bytes} {body : Nat} {t : Bytes} (ht : name ≠ [])
    (hty : (e.h.cell body).type ∈ [CodeType.Extern_Linkage_Body, .Untyped]) (hb : Prints e .body body t) :
    Yields e (defExternLink c e.h name body) (b!"extern \"" ++ name ++ b!"\"\n{\n" ++ t ++ b!"\n}\n") :=
  yields_of_built ((C29_def_extern_link c hn name body (.inr hb.valid)).1 ⟨ht, Nat.pos_iff_ne_zero.1 hb.valid.1, hty⟩) fun _ hk h => by
    have := C48_extern h (fun _ => C49_kept hk hb)
    rw [nameText_set h.cell ht, if_neg (Nat.pos_iff_ne_zero.1 hb.valid.1)] at this
    simpa only [List.append_assoc] using this

/-- C49: friends: a `;` is added unless the declaration ends with one or is a function or an operator. (The text of every forward
declaration ends with a newline, so that a second `;` is printed: `friend class A;` newline `;`.) -/
theorem C49_def_friend {d : Nat} {t : Bytes}
    (hty : (e.h.cell d).type ∈ [CodeType.Class_Fwd, .Function_Fwd, .Operator_Fwd, .Struct_Fwd, .Class, .Function, .Operator, .Struct])
    (hd : Prints e .code d t) :
    Yields e (defFriend c e.h d) (b!"friend " ++ t ++
      ifText ((e.h.cell d).type ≠ .Function ∧ (e.h.cell d).type ≠ .Operator ∧ t.getLast? ≠ some 59) b!";" ++ b!"\n") :=
  yields_of_built ((C29_def_friend c hn d (.inr hd.valid)).1 ⟨Nat.pos_iff_ne_zero.1 hd.valid.1, hty⟩) fun h' hk h => by
    have := C48_friend h (hk _ hd.valid).1 (C49_kept hk hd) (fun h0 => absurd rfl h0)
    rw [show (e.on h').h = h' from rfl] at this
    simp only [(hk _ hd.valid).2] at this
    exact this

/-- C49: a parameter. -/
theorem C49_def_param {type : Nat} {name : Bytes} {value : Nat} {tt vt : Bytes} (h0 : name ≠ []) (hty : (e.h.cell type).type = .Typename)
    (ht : Prints e .typename type tt) (hvt : value ≠ 0 → (e.h.cell value).type = .Untyped) (hv : value ≠ 0 → Prints e .code value vt) :
    Yields e (defParam c e.h type name value) (b!" " ++ tt ++ b!" " ++ name ++ optText value (b!" = " ++ vt)) :=
  yields_of_built ((C29_def_param c hn type name value (.inr ht.valid) (Prints.ptrOk hv)).1
    ⟨h0, ⟨Nat.pos_iff_ne_zero.1 ht.valid.1, by rw [hty]; decide⟩, by
      by_cases hz : value = 0
      · exact .inl hz
      · exact .inr (by rw [hvt hz]; decide)⟩) fun h' hk h => by
    have := C47_param (st := []) h.valid h.cell (Int.le_refl 1) (fun h => absurd rfl h) (fun _ => C49_kept hk ht) (fun h => absurd rfl h)
      (fun h => C49_kept hk (hv h))
    intro hf
    rw [C47_params_code h]
    refine this.print' ?_ hf
    unfold paramText
    rw [nameText_set h.cell h0]
    simp [optText, ifText, h0, Nat.pos_iff_ne_zero.1 ht.valid.1]

/-- C49: a type (its array bounds are printed by the declarations that use it). -/
theorem C49_def_type {name : Bytes} {p : OptsType} {l : List Specifier} (h0 : name ≠ []) (ha : PtrOk e.h p.attributes)
    (hat : OptIs e.h p.attributes [.PlatformAttributes]) (hs : SpecSlot e p.specifiers l) (hst : OptIs e.h p.specifiers [.Specifiers])
    (hx : PtrOk e.h p.arrayExpr) (hxt : OptIs e.h p.arrayExpr [.Untyped]) :
    Yields e (defType c e.h name p)
      (attrOf e p.attributes ++ tagWord p.typeTag ++ name ++ optText p.specifiers (b!" " ++ specsText l)) :=
  yields_of_built ((C29_def_type c hn name p ha hs.ptrOk hx).1 ⟨h0, hat, hst, hxt⟩) fun h' hk h => by
    have := (C47_typename h.valid h.cell (PtrOk.slot (Or.imp id (fun v => (hk _ v).1) ha)) (hs.kept hk) (.inl rfl)).2 rfl
    rw [attrText_of hk ha, nameText_set h.cell h0] at this
    simpa [ifText] using this

/-- C49: a function with a body. After `export` there is a space only if attributes or specifiers follow (`C46_export_refuted`). -/
theorem C49_def_function {name : Bytes} {p : OptsFunction} {l : List Specifier} {t rt pt : Bytes} (h0 : name ≠ [])
    (ha : PtrOk e.h p.attrs) (hat : OptIs e.h p.attrs [.PlatformAttributes]) (hs : SpecSlot e p.specs l) (hst : OptIs e.h p.specs [.Specifiers])
    (hr : Prints e .typename (if p.retType = 0 then c.tVoid else p.retType) rt) (hrt : OptIs e.h p.retType [.Typename])
    (hp : p.params ≠ 0 → Prints e .params p.params pt) (hpt : OptIs e.h p.params [.Parameters])
    (hb : Prints e .body p.body t) (hbt : (e.h.cell p.body).type ∈ [CodeType.Function_Body, .Execution, .Untyped]) :
    Yields e (defFunction c e.h name p)
      (ifText (p.mflags % 2 = 1) b!"export" ++ optText p.attrs (b!" " ++ (e.h.cell p.attrs).content ++ b!" ") ++ spaced (leading l) ++
        ifText (p.attrs ≠ 0 ∨ leading l ≠ []) b!"\n" ++ rt ++ b!" " ++ name ++ b!"(" ++ optText p.params pt ++ b!")" ++ spaced (trailing l) ++
        b!"\n{\n" ++ t ++ b!"\n}\n") := by
  have b0 := Nat.pos_iff_ne_zero.1 hb.valid.1
  have hro : PtrOk e.h p.retType := by
    by_cases hz : p.retType = 0
    · exact .inl hz
    · rw [if_neg hz] at hr; exact .inr hr.valid
  refine yields_of_built ((C29_def_function c hn name p (Prints.ptrOk hp) hro hs.ptrOk ha (.inr hb.valid)).1
    ⟨h0, hpt, hrt, hst, hat, .inr hbt⟩) fun h' hk h => ?_
  have h : Is (e.on h') e.h.next .Function _ := ⟨h.valid, h.cell, by simp [b0]⟩
  have := C46_function (st := []) h (C49_kept hk hb) (PtrOk.slot (Or.imp id (fun v => (hk _ v).1) ha)) (hs.kept hk)
    (fun _ => C49_kept hk hr) (fun hz => C49_kept hk (hp hz)) (fun hz => absurd rfl hz)
  unfold sigText breakText at this
  rw [nameText_set h.cell h0] at this
  have hattr : optText p.attrs (b!" " ++ ((e.on h').h.cell p.attrs).content ++ b!" ") = optText p.attrs (b!" " ++ (e.h.cell p.attrs).content ++ b!" ") := by
    unfold optText
    split
    · rfl
    · rename_i hz
      rw [show (e.on h').h = h' from rfl, (hk _ (ha.resolve_left hz)).2]
  have hty : optText (if p.retType = 0 then c.tVoid else p.retType) (rt ++ b!" ") = rt ++ b!" " := if_neg (Nat.pos_iff_ne_zero.1 hr.valid.1)
  simp only [hattr, hty] at this
  refine this.cast ?_
  by_cases hx : p.mflags % 2 = 1 <;> simp [optText, ifText, exported, hx]

end

end Verif.Ser
