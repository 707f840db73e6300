import Verif.Model.Serialize
import Verif.Props.Printing
import Verif.Props.Ast
/-! # Serializers: composition lemmas -/
namespace Verif.Ser
open Ast Fmt

/-! ## What is appended does not depend on what was there -/

def App (f : W) : Prop := ∀ r, f r = (f []).bind fun t => .ok (r ++ t)

theorem App.str (t : Bytes) : App (str t) := by intro r; simp [Ser.str]
theorem App.nop : App nop := by intro r; simp [Ser.nop]
theorem App.ub : App (fun _ => .ub) := by intro r; rfl
theorem App.hang : App (fun _ => .hang) := by intro r; rfl
theorem App.fmt (lt : Bool) (f : Bytes) (as : List Arg) : App (Ser.fmt lt f as) := by
  intro r
  unfold Ser.fmt
  rw [Res.bind_assoc]
  congr 1
  funext x
  obtain ⟨b, res⟩ := x
  by_cases h : res - 1 < 0
  · simp only [if_pos h]; rfl
  · simp only [if_neg h]; simp
theorem App.efmt (e : Env) (f : Bytes) (as : List Arg) : App (e.fmt f as) := App.fmt _ _ _

theorem App.seq {f g : W} (hf : App f) (hg : App g) : App (f ++> g) := by
  intro r
  unfold Ser.seq
  rw [hf r]
  simp only [Res.bind_assoc, Res.ok_bind]
  congr 1
  funext t
  rw [hg (r ++ t), hg t]
  simp only [Res.bind_assoc, Res.ok_bind, List.append_assoc]

theorem App.reading {α : Type} {x : Res α} {k : α → W} (h : ∀ a, App (k a)) : App (reading x k) := by
  intro r
  unfold Ser.reading
  rw [Res.bind_assoc]
  congr 1
  funext a
  exact h a r

theorem App.opt {c : Prop} [Decidable c] {f : W} (h : App f) : App (opt c f) := by
  unfold Ser.opt
  split
  · exact h
  · exact App.nop

theorem App.ite {c : Prop} [Decidable c] {f g : W} (h : App f) (h' : App g) : App (if c then f else g) := by
  split
  · exact h
  · exact h'

theorem App.each {α : Type} {k : α → W} (h : ∀ a, App (k a)) : ∀ l, App (each k l)
  | [] => App.nop
  | a :: as => App.seq (h a) (App.each h as)

theorem App.sub {rec : Fn → Nat → W} {f : Fn} {p : Nat} {k : Arg → W} (h : ∀ a, App (k a)) : App (sub rec f p k) :=
  App.reading fun _ => h _

theorem App.cmt (e : Env) (f : Bytes) (c : Nat) : App (e.cmt f c) := App.reading fun _ => App.efmt _ _ _
theorem App.attrs (e : Env) (f : Bytes) (c : Nat) : App (attrs e f c) := App.reading fun _ => App.efmt _ _ _
theorem App.subSpecs (e : Env) (p : Nat) {k : Arg → W} (h : ∀ a, App (k a)) : App (subSpecs e p k) := App.reading fun _ => h _

/-- One step of a proof of `App` by the structure of the serializer; extended below. -/
syntax "app1" : tactic
macro_rules | `(tactic| app1) => `(tactic| with_reducible assumption)
macro_rules | `(tactic| app1) => `(tactic| with_reducible first
  | exact App.str _ | exact App.nop | exact App.ub | exact App.hang | exact App.efmt _ _ _ | exact App.cmt _ _ _
  | exact App.attrs _ _ _ | apply App.seq | apply App.opt | apply App.ite | (refine App.sub ?_; intro _)
  | (refine App.subSpecs _ _ ?_; intro _) | (refine App.each ?_ _; intro _) | (refine App.reading ?_; intro _))

macro "app" : tactic => `(tactic| repeat' app1)

theorem App.chain (e : Env) (rec : Fn → Nat → W) (f : Bytes) (fn : Fn) : ∀ fuel p, App (chain e rec f fn fuel p)
  | 0, _ => App.hang
  | fuel + 1, p => by
    have := App.chain e rec f fn fuel
    unfold Ser.chain
    apply App.ite App.nop
    apply App.seq
    · app
    · exact App.reading fun n => this _

theorem App.bodyLoop (e : Env) (rec : Fn → Nat → W) (h : ∀ f p, App (rec f p)) : ∀ left p, App (bodyLoop e rec left p)
  | 0, _ => App.nop
  | left + 1, p => by
    have := App.bodyLoop e rec h left
    unfold Ser.bodyLoop
    apply App.seq (h _ _)
    intro r
    show (if p = 0 then Ser.bodyLoop e rec left 0 r else _) = Res.bind (if p = 0 then Ser.bodyLoop e rec left 0 [] else _) _
    split
    · exact this _ r
    · exact App.reading (x := e.h.get p) (k := fun n => Ser.bodyLoop e rec left n.back) (fun n => this _) r

theorem put_length {b b' : Bytes} {i : Nat} {c : UInt8} (h : Num.put b i c = .ok b') : b'.length = b.length := by
  unfold Num.put at h
  split at h
  · cases h; simp
  · cases h

theorem literalRun_pos (m : Nat) : ∀ (f b : Bytes) (i : Nat) (f' b' : Bytes) (j : Nat), literalRun m f b i = .ok (f', b', j) →
    i ≤ j ∧ b'.length = b.length
  | [], _, _, _, _, _, h => by cases h
  | c :: cs, b, i, f', b', j, h => by
    unfold literalRun at h
    split at h
    · cases h; simp
    · obtain ⟨b1, h1, h2⟩ := Res.bind_eq_ok.1 h
      have := literalRun_pos m cs b1 (i + 1) f' b' j h2
      exact ⟨by omega, this.2.trans (put_length h1)⟩

theorem turn_pos {lt : Bool} {s s' : State} (h : turn lt s = .ok s') : s.pos ≤ s'.pos := by
  unfold turn at h
  obtain ⟨⟨f1, b1, p1⟩, h1, h⟩ := Res.bind_eq_ok.1 h
  obtain ⟨a2, h2, h⟩ := Res.bind_eq_ok.1 h
  obtain ⟨a3, h3, h⟩ := Res.bind_eq_ok.1 h
  obtain ⟨a4, h4, h⟩ := Res.bind_eq_ok.1 h
  obtain ⟨a5, h5, h⟩ := Res.bind_eq_ok.1 h
  obtain ⟨⟨f6, b6, l6, as6⟩, h6, h⟩ := Res.bind_eq_ok.1 h
  cases h
  have := (literalRun_pos _ _ _ _ _ _ _ h1).1
  simp only
  omega

theorem outer_pos (lt : Bool) : ∀ (fuel : Nat) (s s' : State), outer lt fuel s = .ok s' → s.pos ≤ s'.pos := by
  intro fuel
  induction fuel with
  | zero =>
    intro s s' h
    unfold outer at h
    split at h
    · cases h
    · split at h
      · cases h; exact Nat.le_refl _
      · cases h
  | succ fuel ih =>
    intro s s' h
    unfold outer at h
    split at h
    · cases h
    · split at h
      · cases h; exact Nat.le_refl _
      · obtain ⟨s1, h1, h2⟩ := Res.bind_eq_ok.1 h
        exact Nat.le_trans (turn_pos h1) (ih _ _ h2)

/-- A format that begins with literal text produces some text. -/
theorem fmt_ne_nil {lt : Bool} {c : UInt8} {f : Bytes} {as : List Arg} {t : Bytes} (hc : c ≠ 0) (hp : c ≠ 37)
    (h : fmt lt (c :: f) as [] = .ok t) : t ≠ [] := by
  unfold fmt at h
  obtain ⟨⟨buf, res⟩, h1, h2⟩ := Res.bind_eq_ok.1 h
  unfold cStrFmt at h1
  obtain ⟨s, h3, h4⟩ := Res.bind_eq_ok.1 h1
  obtain ⟨b, h5, h6⟩ := Res.bind_eq_ok.1 h4
  have hpos : 1 ≤ s.pos := by
    unfold outer at h3
    simp only [List.cons_append, List.length_cons, hc, if_false] at h3
    obtain ⟨s1, h7, h8⟩ := Res.bind_eq_ok.1 h3
    refine Nat.le_trans ?_ (outer_pos _ _ _ _ h8)
    unfold turn at h7
    obtain ⟨⟨f1, b1, p1⟩, h9, h7⟩ := Res.bind_eq_ok.1 h7
    have : 1 ≤ p1 := by
      unfold literalRun at h9
      rw [if_neg (by simp only [hc, hp, printfMax]; decide)] at h9
      obtain ⟨b2, h10, h11⟩ := Res.bind_eq_ok.1 h9
      exact (literalRun_pos _ _ _ _ _ _ _ h11).1
    obtain ⟨a2, _, h⟩ := Res.bind_eq_ok.1 h7
    obtain ⟨a3, _, h⟩ := Res.bind_eq_ok.1 h
    obtain ⟨a4, _, h⟩ := Res.bind_eq_ok.1 h
    obtain ⟨a5, _, h⟩ := Res.bind_eq_ok.1 h
    obtain ⟨⟨f6, b6, l6, as6⟩, _, h⟩ := Res.bind_eq_ok.1 h
    cases h
    simp only
    omega
  have hlen : 0 < buf.length := by
    have h5' := put_length h5
    unfold Num.put at h5
    split at h5
    · rename_i hlt
      cases h6
      rw [h5']
      omega
    · cases h5
  simp only [Res.ok.injEq, Prod.mk.injEq] at h6
  obtain ⟨rfl, h6⟩ := h6
  by_cases hn : res - 1 < 0
  · simp only [if_pos hn] at h2; cases h2
  · simp only [if_neg hn, Res.ok.injEq, List.nil_append] at h2
    subst h2
    intro hnil
    simp only [List.take_eq_nil_iff] at hnil
    rcases hnil with hnil | hnil
    · split at h6 <;> omega
    · rw [hnil] at hlen; simp at hlen

theorem App.friendRef (e : Env) (rec : Fn → Nat → W) (n : Node) : App (friendRef e rec n) := by
  unfold Ser.friendRef
  refine App.seq ?_ (by app)
  intro r
  have hA : App (Ser.sub rec .code n.body fun t => e.fmt b!"friend %SB" [t]) := by app
  unfold Ser.seq
  rw [hA r]
  simp only [Res.bind_assoc, Res.ok_bind]
  cases ht : (Ser.sub rec .code n.body (fun t => e.fmt b!"friend %SB" [t])) [] with
  | ok t =>
    have hne : t ≠ [] := by
      obtain ⟨s, _, h2⟩ := Res.bind_eq_ok.1 (show (rec .code n.body []).bind _ = _ from ht)
      exact fmt_ne_nil (by decide) (by decide) h2
    simp only [Res.ok_bind]
    unfold Ser.reading
    rw [Res.bind_assoc]
    congr 1
    funext d
    have : (r ++ t).getLast? = t.getLast? := by simp [List.getLast?_append, List.getLast?_eq_some_getLast hne]
    simp only [this]
    split <;> simp [Ser.str]
  | stop => rfl
  | ub => rfl
  | hang => rfl

macro_rules | `(tactic| app1) => `(tactic| with_reducible first
  | exact App.chain _ _ _ _ _ _ | exact App.bodyLoop _ _ (by assumption) _ _ | exact App.friendRef _ _ _)

theorem App.specifiersRef (e : Env) (p : Nat) : App (specifiersRef e p) := by unfold Ser.specifiersRef; app

theorem App.endStmt (e : Env) (n : Node) {w : W} (h : App w) : App (endStmt e n w) := by unfold Ser.endStmt; app

theorem App.bodyRef (e : Env) (rec : Fn → Nat → W) (h : ∀ f p, App (rec f p)) (p : Nat) : App (bodyRef e rec p) := by
  unfold Ser.bodyRef; app

theorem App.bodyExport (e : Env) (rec : Fn → Nat → W) (h : ∀ f p, App (rec f p)) (p : Nat) : App (bodyExport e rec p) := by
  unfold Ser.bodyExport; app

theorem App.bounds (e : Env) (rec : Fn → Nat → W) (fuel p : Nat) : App (bounds e rec fuel p) := by unfold Ser.bounds; app

theorem App.typenameRef (e : Env) (rec : Fn → Nat → W) (p : Nat) : App (typenameRef e rec p) := by
  unfold Ser.typenameRef; app

theorem App.paramsRef (e : Env) (rec : Fn → Nat → W) (fuel p : Nat) : App (paramsRef e rec fuel p) := by
  unfold Ser.paramsRef Ser.param; app

theorem App.defParamsRef (e : Env) (rec : Fn → Nat → W) (fuel p : Nat) : App (defParamsRef e rec fuel p) := by
  unfold Ser.defParamsRef; app

theorem App.varInit (e : Env) (rec : Fn → Nat → W) (n : Node) : App (varInit e rec n) := by unfold Ser.varInit; app

theorem App.varRef (e : Env) (rec : Fn → Nat → W) (fuel p : Nat) : App (varRef e rec fuel p) := by
  have h1 := App.bounds e rec
  have h2 := App.varInit e rec
  have b1 : ∀ n, App (varNext e rec fuel n) := by intro n; unfold Ser.varNext; have := h1 fuel n.typ; have := h2 n; app
  have b2 : ∀ n, App (varSpecified e rec fuel p n) := by
    intro n; unfold Ser.varSpecified; have := h1 fuel n.typ; have := h2 n; app
  have b3 : ∀ n, App (varPlain e rec fuel p n) := by
    intro n; unfold Ser.varPlain Ser.varPlainHead; have := h2 n; app
  unfold Ser.varRef Ser.exportPrefix
  refine App.reading fun _ => App.reading fun n => App.reading fun b => ?_
  have := b1 n
  have := b2 n
  have := b3 n
  app

theorem App.body (e : Env) (rec : Fn → Nat → W) (h : ∀ f p, App (rec f p)) (p : Nat) : App (body e rec p) := by
  unfold Ser.body
  refine App.reading fun _ => App.reading fun n => ?_
  have := App.bodyRef e rec h p
  have := App.bodyExport e rec h p
  split <;> app

theorem App.record (e : Env) (rec : Fn → Nat → W) (k : Bytes) {w : W} (n : Node) (h : App w) : App (recordDef e rec k w n) := by
  unfold Ser.recordDef Ser.exportPrefix Ser.finalSpec
  have := App.endStmt e n (App.str b!";\n")
  app

theorem App.specLen (e : Env) (s : Specifier) : App (specLen e s) := App.efmt _ _ _
theorem App.specWidth (e : Env) (s : Specifier) : App (specWidth e s) := App.efmt _ _ _
theorem App.specWidthTail (e : Env) (s : Specifier) : App (specWidthTail e s) := App.efmt _ _ _

macro_rules | `(tactic| app1) => `(tactic| with_reducible first
  | exact App.specLen _ _ | exact App.specWidth _ _ | exact App.specWidthTail _ _ | exact App.bounds _ _ _ _
  | exact App.specifiersRef _ _ | exact App.typenameRef _ _ _ | exact App.paramsRef _ _ _ _ | exact App.defParamsRef _ _ _ _
  | exact App.varRef _ _ _ _ | exact App.bodyRef _ _ (by assumption) _ | exact App.bodyExport _ _ (by assumption) _
  | apply App.endStmt | apply App.record)

theorem App.fnSignature (e : Env) (rec : Fn → Nat → W) (p : Nat) (n : Node) : App (fnSignature e rec p n) := by
  unfold Ser.fnSignature; app

theorem App.dispatch (e : Env) (rec : Fn → Nat → W) (h : ∀ f p, App (rec f p)) (fuel p : Nat) (n : Node) :
    App (dispatch e rec fuel p n) := by
  unfold Ser.dispatch
  have hs := App.fnSignature e rec p n
  split
  all_goals first
    | app; done
    | (unfold Ser.classDef Ser.classParents; app; done)
    | (unfold Ser.classFwd Ser.exportPrefix; app; done)
    | (unfold Ser.constructorDef Ser.ctorName; app; done)
    | (unfold Ser.constructorFwd Ser.ctorName; app; done)
    | (unfold Ser.destructorDef; app; done)
    | (unfold Ser.destructorFwd; app; done)
    | (unfold Ser.enumDef Ser.exportPrefix; app; done)
    | (unfold Ser.enumFwd Ser.exportPrefix; app; done)
    | (unfold Ser.enumClassDef Ser.exportPrefix; app; done)
    | (unfold Ser.enumClassFwd Ser.exportPrefix; app; done)
    | (unfold Ser.externRef; app; done)
    | (unfold Ser.fnDef ; app; done)
    | (unfold Ser.fnFwd Ser.fnFwdSpecs Ser.exportPrefix; app; done)
    | (unfold Ser.module Ser.exportPrefix; app; done)
    | (unfold Ser.namespaceRef Ser.exportPrefix; app; done)
    | (unfold Ser.opDef Ser.exportPrefix; app; done)
    | (unfold Ser.opFwd Ser.exportPrefix; app; done)
    | (unfold Ser.opcastDef; app; done)
    | (unfold Ser.opcastFwd; app; done)
    | (unfold Ser.define; app; done)
    | (unfold Ser.structDef Ser.structParents; app; done)
    | (unfold Ser.structFwd Ser.exportPrefix; app; done)
    | (unfold Ser.template Ser.exportPrefix; app; done)
    | (unfold Ser.typedef Ser.exportPrefix; app; done)
    | (unfold Ser.unionDef Ser.exportPrefix; app; done)
    | (unfold Ser.unionFwd Ser.exportPrefix; app; done)
    | (unfold Ser.usingRef Ser.exportPrefix; app; done)
    | (unfold Ser.usingNs; app; done)

theorem App.step (e : Env) (fuel : Nat) (rec : Fn → Nat → W) (h : ∀ f p, App (rec f p)) : ∀ f p, App (step e fuel rec f p)
  | .code, p => App.reading fun _ => App.reading fun n => App.dispatch e rec h fuel p n
  | .typename, p => App.typenameRef e rec p
  | .params, p => App.paramsRef e rec fuel p
  | .defParams, p => App.defParamsRef e rec fuel p
  | .body, p => App.body e rec h p
  | .var, p => App.varRef e rec fuel p

/-- What a serializer appends does not depend on the contents of the builder. -/
theorem App.ser (e : Env) : ∀ (fuel : Nat) (f : Fn) (p : Nat), App (ser e fuel f p)
  | 0, _, _ => App.hang
  | fuel + 1, f, p => App.step e fuel _ (App.ser e fuel) f p

/-! ## More fuel does not change the result -/

def Le (f g : W) : Prop := ∀ r t, f r = .ok t → g r = .ok t

theorem Le.refl (f : W) : Le f f := fun _ _ h => h
theorem Le.hang (g : W) : Le (fun _ => .hang) g := fun _ _ h => nomatch h

theorem Le.seq {f f' g g' : W} (h1 : Le f f') (h2 : Le g g') : Le (f ++> g) (f' ++> g') := by
  intro r t h
  obtain ⟨a, ha, hb⟩ := Res.bind_eq_ok.1 h
  exact Res.bind_eq_ok.2 ⟨a, h1 _ _ ha, h2 _ _ hb⟩

theorem Le.reading {α : Type} {x : Res α} {k k' : α → W} (h : ∀ a, Le (k a) (k' a)) : Le (reading x k) (reading x k') := by
  intro r t h'
  obtain ⟨a, ha, hb⟩ := Res.bind_eq_ok.1 h'
  exact Res.bind_eq_ok.2 ⟨a, ha, h _ _ _ hb⟩

theorem Le.opt {c : Prop} [Decidable c] {f g : W} (h : Le f g) : Le (opt c f) (opt c g) := by
  unfold Ser.opt
  split
  · exact h
  · exact Le.refl _

theorem Le.ite {c : Prop} [Decidable c] {f f' g g' : W} (h : Le f f') (h' : Le g g') :
    Le (if c then f else g) (if c then f' else g') := by
  split
  · exact h
  · exact h'

def LeRec (rec rec' : Fn → Nat → W) : Prop := ∀ f p, Le (rec f p) (rec' f p)

theorem Le.sub {rec rec' : Fn → Nat → W} (hr : LeRec rec rec') {f : Fn} {p : Nat} {k k' : Arg → W} (h : ∀ a, Le (k a) (k' a)) :
    Le (sub rec f p k) (sub rec' f p k') := by
  intro r t h'
  obtain ⟨a, ha, hb⟩ := Res.bind_eq_ok.1 h'
  exact Res.bind_eq_ok.2 ⟨a, hr _ _ _ _ ha, h _ _ _ hb⟩

theorem Le.recReading {rec rec' : Fn → Nat → W} (hr : LeRec rec rec') {f : Fn} {p : Nat} {k k' : Bytes → W}
    (h : ∀ a, Le (k a) (k' a)) : Le (Ser.reading (rec f p []) k) (Ser.reading (rec' f p []) k') := by
  intro r t h'
  obtain ⟨a, ha, hb⟩ := Res.bind_eq_ok.1 h'
  exact Res.bind_eq_ok.2 ⟨a, hr _ _ _ _ ha, h _ _ _ hb⟩

theorem Le.subSpecs (e : Env) (p : Nat) {k k' : Arg → W} (h : ∀ a, Le (k a) (k' a)) : Le (subSpecs e p k) (subSpecs e p k') :=
  Le.reading fun _ => h _

theorem Le.chain (e : Env) {rec rec' : Fn → Nat → W} (hr : LeRec rec rec') (f : Bytes) (fn : Fn) : ∀ {m n : Nat}, m ≤ n → ∀ p,
    Le (chain e rec f fn m p) (chain e rec' f fn n p)
  | 0, _, _, _ => Le.hang _
  | m + 1, 0, h, _ => by omega
  | m + 1, n + 1, h, p => by
    unfold Ser.chain
    exact Le.ite (Le.refl _) (Le.seq (Le.sub hr fun _ => Le.refl _) (Le.reading fun _ => Le.chain e hr f fn (by omega) _))

theorem Le.bodyLoop (e : Env) {rec rec' : Fn → Nat → W} (hr : LeRec rec rec') : ∀ left p,
    Le (bodyLoop e rec left p) (bodyLoop e rec' left p)
  | 0, _ => Le.refl _
  | left + 1, p => by
    have ih := Le.bodyLoop e hr left
    unfold Ser.bodyLoop
    apply Le.seq (hr _ _)
    intro r t h
    show (if p = 0 then Ser.bodyLoop e rec' left 0 r else _) = _
    have h : (if p = 0 then Ser.bodyLoop e rec left 0 r else _) = _ := h
    split
    · rename_i hp
      rw [if_pos hp] at h
      exact ih _ _ _ h
    · rename_i hp
      rw [if_neg hp] at h
      obtain ⟨n, hn, hb⟩ := Res.bind_eq_ok.1 h
      exact Res.bind_eq_ok.2 ⟨n, hn, ih _ _ _ hb⟩

/-- One step of a proof of `Le` by the structure of the serializer. -/
syntax "le1" : tactic
macro_rules | `(tactic| le1) => `(tactic| with_reducible assumption)
macro_rules | `(tactic| le1) => `(tactic| with_reducible first
  | exact Le.refl _ | exact Le.chain _ (by assumption) _ _ (by assumption) _ | exact Le.bodyLoop _ (by assumption) _ _
  | apply Le.seq | apply Le.opt | apply Le.ite | (refine Le.sub (by assumption) ?_; intro _)
  | (refine Le.recReading (by assumption) ?_; intro _)
  | (refine Le.subSpecs _ _ ?_; intro _) | (refine Le.reading ?_; intro _))

macro "le" : tactic => `(tactic| repeat' le1)

section
variable (e : Env) {rec rec' : Fn → Nat → W} (hr : LeRec rec rec')
include hr

theorem Le.endStmt (n : Node) (w : W) : Le (endStmt e n w) (endStmt e n w) := Le.refl _

theorem Le.bodyRef (p : Nat) : Le (bodyRef e rec p) (bodyRef e rec' p) := by unfold Ser.bodyRef; le
theorem Le.bodyExport (p : Nat) : Le (bodyExport e rec p) (bodyExport e rec' p) := by unfold Ser.bodyExport; le

theorem Le.body (p : Nat) : Le (body e rec p) (body e rec' p) := by
  unfold Ser.body
  refine Le.reading fun _ => Le.reading fun n => ?_
  have := Le.bodyRef e hr p
  have := Le.bodyExport e hr p
  split <;> le

theorem Le.typenameRef (p : Nat) : Le (typenameRef e rec p) (typenameRef e rec' p) := by unfold Ser.typenameRef; le
theorem Le.varInit (n : Node) : Le (varInit e rec n) (varInit e rec' n) := by unfold Ser.varInit; le

variable {m k : Nat} (hm : m ≤ k)
include hm

theorem Le.bounds (p : Nat) : Le (bounds e rec m p) (bounds e rec' k p) := by unfold Ser.bounds; le
theorem Le.paramsRef (p : Nat) : Le (paramsRef e rec m p) (paramsRef e rec' k p) := by unfold Ser.paramsRef Ser.param; le
theorem Le.defParamsRef (p : Nat) : Le (defParamsRef e rec m p) (defParamsRef e rec' k p) := by unfold Ser.defParamsRef; le

theorem Le.varRef (p : Nat) : Le (varRef e rec m p) (varRef e rec' k p) := by
  have h1 := Le.bounds e hr hm
  have h2 := Le.varInit e hr
  have b1 : ∀ n, Le (varNext e rec m n) (varNext e rec' k n) := by
    intro n; unfold Ser.varNext; have := h1 n.typ; have := h2 n; le
  have b2 : ∀ n, Le (varSpecified e rec m p n) (varSpecified e rec' k p n) := by
    intro n; unfold Ser.varSpecified; have := h1 n.typ; have := h2 n; le
  have b3 : ∀ n, Le (varPlain e rec m p n) (varPlain e rec' k p n) := by
    intro n; unfold Ser.varPlain Ser.varPlainHead; have := h2 n; le
  unfold Ser.varRef Ser.exportPrefix
  refine Le.reading fun _ => Le.reading fun n => Le.reading fun b => ?_
  have := b1 n
  have := b2 n
  have := b3 n
  le

theorem Le.dispatch (p : Nat) (n : Node) : Le (dispatch e rec m p n) (dispatch e rec' k p n) := by
  unfold Ser.dispatch
  have a1 := Le.varRef e hr hm p
  have a2 := Le.bodyRef e hr p
  have a3 := Le.bodyExport e hr p
  have a4 := Le.paramsRef e hr hm p
  have a5 := Le.defParamsRef e hr hm p
  have a6 := Le.typenameRef e hr p
  have a7 := Le.bounds e hr hm n.typ
  split
  all_goals first
    | le; done
    | (unfold Ser.classDef Ser.recordDef Ser.classParents; le; done)
    | (unfold Ser.classFwd ; le; done)
    | (unfold Ser.constructorDef ; le; done)
    | (unfold Ser.constructorFwd ; le; done)
    | (unfold Ser.destructorDef ; le; done)
    | (unfold Ser.destructorFwd ; le; done)
    | (unfold Ser.enumDef ; le; done)
    | (unfold Ser.enumFwd ; le; done)
    | (unfold Ser.enumClassDef ; le; done)
    | (unfold Ser.enumClassFwd ; le; done)
    | (unfold Ser.externRef ; le; done)
    | (unfold Ser.friendRef ; le; done)
    | (unfold Ser.fnDef Ser.fnSignature; le; done)
    | (unfold Ser.fnFwd Ser.fnSignature; le; done)
    | (unfold Ser.namespaceRef ; le; done)
    | (unfold Ser.opDef ; le; done)
    | (unfold Ser.opFwd ; le; done)
    | (unfold Ser.opcastDef ; le; done)
    | (unfold Ser.opcastFwd ; le; done)
    | (unfold Ser.define ; le; done)
    | (unfold Ser.structDef Ser.recordDef Ser.structParents; le; done)
    | (unfold Ser.template ; le; done)
    | (unfold Ser.typedef ; le; done)
    | (unfold Ser.unionDef ; le; done)
    | (unfold Ser.usingRef ; le; done)

end

theorem Le.step (e : Env) {rec rec' : Fn → Nat → W} (hr : LeRec rec rec') {m k : Nat} (hm : m ≤ k) :
    LeRec (step e m rec) (step e k rec')
  | .code, p => Le.reading fun _ => Le.reading fun n => Le.dispatch e hr hm p n
  | .typename, p => Le.typenameRef e hr p
  | .params, p => Le.paramsRef e hr hm p
  | .defParams, p => Le.defParamsRef e hr hm p
  | .body, p => Le.body e hr p
  | .var, p => Le.varRef e hr hm p

/-- A result stays the same with more fuel. -/
theorem ser_mono (e : Env) : ∀ {m k : Nat}, m ≤ k → LeRec (ser e m) (ser e k)
  | 0, _, _ => fun _ _ => Le.hang _
  | m + 1, 0, h => by omega
  | m + 1, k + 1, h => Le.step e (ser_mono e (by omega)) (by omega)

end Verif.Ser
