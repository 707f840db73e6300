import Verif.Proof.Serialize
import Verif.Props.SerSpec
/-! # Serialization: what the text of a node depends on -/
namespace Verif.Ser
open Ast Fmt

/-- A parent that has no influence on the text. -/
def Neutral (e : Env) (p : Nat) : Prop := p = 0 ∨ (e.h.Valid p ∧ (e.h.cell p).type ≠ .Typedef ∧ (e.h.cell p).type ≠ .Variable)

def isCtor (t : CodeType) : Prop := t = .Constructor ∨ t = .Constructor_Fwd
def isDtor (t : CodeType) : Prop := t = .Destructor ∨ t = .Destructor_Fwd

/-- The node, if it is one, has the same type and name in both environments. -/
def SameType (e e' : Env) (p : Nat) : Prop :=
  e.h.Valid p → e'.h.Valid p ∧ (e'.h.cell p).type = (e.h.cell p).type ∧ (e'.h.cell p).name = (e.h.cell p).name

/-- The node `q` in `e'` is like `p` in `e`, with everything below in `S`. -/
structure Pair (e e' : Env) (S : Nat → Prop) (p q : Nat) (n : Node) (x f b : Nat) : Prop where
  null : e'.nullStr q = e.nullStr p
  inlineCmt : S n.inlineCmt
  attributes : S n.attributes
  specs : S n.specs
  typ : S n.typ
  params : S n.params
  body : S n.body
  suffix : S n.suffix
  parent : (x = n.parent ∧ SameType e e' n.parent) ∨ (Neutral e n.parent ∧ Neutral e' x)
  dtor : isDtor n.type → x = n.parent ∧ SameType e e' n.parent ∧ e'.nullStr n.parent = e.nullStr n.parent
  ctor : isCtor n.type → x = n.parent ∧
    (e.h.Valid n.parent → e'.h.Valid n.parent ∧ (e'.h.cell n.parent).parent = (e.h.cell n.parent).parent ∧ SameType e e' (e.h.cell n.parent).parent)

/-- The nodes of `S` are the same in both environments, and closed under the pointers that matter. -/
structure Frame (e e' : Env) (S : Nat → Prop) : Prop where
  lt : e'.lt = e.lt
  zero : S 0
  valid : ∀ p, S p → e.h.Valid p → e'.h.Valid p
  node : ∀ p, S p → e.h.Valid p → ∃ x, e'.h.cell p = { e.h.cell p with parent := x } ∧
    Pair e e' S p p (e.h.cell p) x (e.h.cell p).front (e.h.cell p).back
  front : ∀ p, S p → e.h.Valid p → S (e.h.cell p).front
  back : ∀ p, S p → e.h.Valid p → S (e.h.cell p).back

section
variable {e e' : Env} {S : Nat → Prop} (F : Frame e e' S)
include F

def LeRecS (S : Nat → Prop) (rec rec' : Fn → Nat → W) : Prop := ∀ f p, S p → Le (rec f p) (rec' f p)

theorem Fr.get {p : Nat} (hp : S p) {k k' : Node → W}
    (h : ∀ n x, e.h.cell p = n → e'.h.cell p = { n with parent := x } → e.h.Valid p → Pair e e' S p p n x n.front n.back → S n.front → S n.back →
      Le (k n) (k' { n with parent := x })) :
    Le (reading (e.h.get p) k) (reading (e'.h.get p) k') := by
  intro r t h'
  obtain ⟨a, ha, hb⟩ := Res.bind_eq_ok.1 h'
  unfold Heap.get at ha
  split at ha
  · rename_i hv
    cases ha
    obtain ⟨x, hx, P⟩ := F.node p hp hv
    refine Res.bind_eq_ok.2 ⟨_, get_ok (F.valid p hp hv), ?_⟩
    rw [hx]
    exact h _ x rfl hx hv P (F.front p hp hv) (F.back p hp hv) _ _ hb
  · cases ha

omit F in
theorem Fr.getType {p : Nat} (hp : SameType e e' p) {k k' : Node → W} (h : ∀ n m, m.type = n.type → m.name = n.name → Le (k n) (k' m)) :
    Le (reading (e.h.get p) k) (reading (e'.h.get p) k') := by
  intro r t h'
  obtain ⟨a, ha, hb⟩ := Res.bind_eq_ok.1 h'
  unfold Heap.get at ha
  split at ha
  · rename_i hv
    cases ha
    obtain ⟨h1, h2, h3⟩ := hp hv
    exact Res.bind_eq_ok.2 ⟨_, get_ok h1, h _ _ h2 h3 _ _ hb⟩
  · cases ha

/-- Only fields other than the parent are read. -/
theorem Fr.getSame {p : Nat} (hp : S p) {k k' : Node → W}
    (h : ∀ n x, Le (k n) (k' { n with parent := x })) : Le (reading (e.h.get p) k) (reading (e'.h.get p) k') :=
  Fr.get F hp fun n x _ _ _ _ _ _ => h n x

theorem Fr.efmt {f : Bytes} {as as' : List Arg} (h : as = as') : Le (e.fmt f as) (e'.fmt f as') := by
  subst h
  unfold Env.fmt
  rw [F.lt]
  exact Le.refl _

theorem Fr.cmtS {f : Bytes} {p : Nat} (hp : S p) : Le (e.cmt f p) (e'.cmt f p) := by
  unfold Env.cmt
  refine Fr.get F hp fun n x _ _ _ P _ _ => Fr.efmt F ?_
  simp only [Env.content, P.null]

theorem Fr.attrsS {f : Bytes} {p : Nat} (hp : S p) : Le (attrs e f p) (attrs e' f p) :=
  Fr.getSame F hp fun _ _ => Fr.efmt F rfl

theorem Fr.subS {rec rec' : Fn → Nat → W} (hr : LeRecS S rec rec') {f : Fn} {p : Nat} (hp : S p) {k k' : Arg → W} (h : ∀ a, Le (k a) (k' a)) :
    Le (sub rec f p k) (sub rec' f p k') := by
  intro r t h'
  obtain ⟨a, ha, hb⟩ := Res.bind_eq_ok.1 h'
  exact Res.bind_eq_ok.2 ⟨a, hr _ _ hp _ _ ha, h _ _ _ hb⟩

theorem Fr.recReadingS {rec rec' : Fn → Nat → W} (hr : LeRecS S rec rec') {f : Fn} {p : Nat} (hp : S p) {k k' : Bytes → W}
    (h : ∀ a, Le (k a) (k' a)) : Le (Ser.reading (rec f p []) k) (Ser.reading (rec' f p []) k') := by
  intro r t h'
  obtain ⟨a, ha, hb⟩ := Res.bind_eq_ok.1 h'
  exact Res.bind_eq_ok.2 ⟨a, hr _ _ hp _ _ ha, h _ _ _ hb⟩

theorem Fr.readLe {α : Type} {x x' : Res α} {k k' : α → W} (hx : ∀ a, x = .ok a → x' = .ok a) (h : ∀ a, Le (k a) (k' a)) :
    Le (reading x k) (reading x' k') := by
  intro r t h'
  obtain ⟨a, ha, hb⟩ := Res.bind_eq_ok.1 h'
  exact Res.bind_eq_ok.2 ⟨a, hx _ ha, h _ _ _ hb⟩

theorem getF {p : Nat} (hp : S p) {n : Node} (h : e.h.get p = .ok n) : ∃ x, e'.h.get p = .ok { n with parent := x } := by
  unfold Heap.get at h
  split at h
  · rename_i hv
    cases h
    obtain ⟨x, hx, _⟩ := F.node p hp hv
    exact ⟨x, by rw [get_ok (F.valid p hp hv), hx]⟩
  · cases h

theorem iterSpecifiersS {p : Nat} (hp : S p) {l : List Specifier} (h : iterSpecifiers e.h p = .ok l) : iterSpecifiers e'.h p = .ok l := by
  obtain ⟨n, h1, h2⟩ := Res.bind_eq_ok.1 h
  obtain ⟨x, hx⟩ := getF F hp h1
  exact Res.bind_eq_ok.2 ⟨_, hx, h2⟩

theorem specListS {p : Nat} (hp : S p) {l : List Specifier} (h : specList e p = .ok l) : specList e' p = .ok l := by
  unfold specList at *
  by_cases h0 : p = 0
  · rw [if_pos h0] at *; exact h
  · rw [if_neg h0] at *; exact iterSpecifiersS F hp h

theorem hasSpecS {p : Nat} {s : Specifier} (hp : S p) {b : Bool} (h : hasSpec e p s = .ok b) : hasSpec e' p s = .ok b := by
  unfold hasSpec at *
  by_cases h0 : p = 0
  · rw [if_pos h0] at *; exact h
  · rw [if_neg h0] at *
    unfold specifiersHas at *
    obtain ⟨_, h0, h⟩ := Res.bind_eq_ok.1 h
    obtain ⟨n, h1, h2⟩ := Res.bind_eq_ok.1 h
    obtain ⟨x, hx⟩ := getF F hp h1
    exact Res.bind_eq_ok.2 ⟨_, h0, Res.bind_eq_ok.2 ⟨_, hx, h2⟩⟩

theorem Fr.specListR {p : Nat} (hp : S p) {k k' : List Specifier → W} (h : ∀ l, Le (k l) (k' l)) :
    Le (reading (specList e p) k) (reading (specList e' p) k') := Fr.readLe F (fun _ => specListS F hp) h

theorem Fr.hasSpecR {p : Nat} {s : Specifier} (hp : S p) {k k' : Bool → W} (h : ∀ l, Le (k l) (k' l)) :
    Le (reading (hasSpec e p s) k) (reading (hasSpec e' p s) k') := Fr.readLe F (fun _ => hasSpecS F hp) h

theorem Fr.eachS {α : Type} {k k' : α → W} (h : ∀ a, Le (k a) (k' a)) : ∀ l, Le (each k l) (each k' l)
  | [] => Le.refl _
  | a :: l => Le.seq (h a) (Fr.eachS h l)

theorem Fr.specLenS (s : Specifier) : Le (specLen e s) (specLen e' s) := Fr.efmt F rfl
theorem Fr.specWidthS (s : Specifier) : Le (specWidth e s) (specWidth e' s) := Fr.efmt F rfl
theorem Fr.specWidthTailS (s : Specifier) : Le (specWidthTail e s) (specWidthTail e' s) := Fr.efmt F rfl

/-- The specifiers node itself may be another one. -/
theorem Fr.specifiersTop {p q : Nat} (hq : q = 0 ↔ p = 0) {n : Node} {x f b : Nat} (hv : e.h.Valid p) (hv' : e'.h.Valid q) (hn : e.h.cell p = n)
    (hm : e'.h.cell q = { n with parent := x, front := f, back := b }) : Le (specifiersRef e p) (specifiersRef e' q) := by
  unfold Ser.specifiersRef
  have hi : iterSpecifiers e'.h q = iterSpecifiers e.h p := by
    unfold iterSpecifiers
    rw [get_ok hv, get_ok hv', hn, hm]
    rfl
  have : Res.assert (q ≠ 0) = Res.assert (p ≠ 0) := by congr 1; exact propext (not_congr hq)
  rw [get_ok hv, get_ok hv', hn, hm, hi, this]
  refine Le.reading fun _ => ?_
  show Le (if n.num < 0 then _ else _) (if n.num < 0 then _ else _)
  refine Le.ite (Le.refl _) (Le.reading fun l => Le.seq (Fr.eachS F ?_ _) (Le.refl _))
  exact fun a => Le.seq (Le.refl _) (Fr.efmt F rfl)

theorem Fr.specifiersS {p : Nat} (hp : S p) : Le (specifiersRef e p) (specifiersRef e' p) := by
  by_cases hv : e.h.Valid p
  · obtain ⟨x, hx, _⟩ := F.node p hp hv
    exact Fr.specifiersTop F (f := (e.h.cell p).front) (b := (e.h.cell p).back) Iff.rfl hv (F.valid p hp hv) rfl hx
  · intro r t h
    unfold Ser.specifiersRef at h
    obtain ⟨_, _, h⟩ := Res.bind_eq_ok.1 h
    obtain ⟨_, h, _⟩ := Res.bind_eq_ok.1 h
    unfold Heap.get at h
    rw [if_neg hv] at h
    cases h

theorem Fr.subSpecsS {p : Nat} (hp : S p) {k k' : Arg → W} (h : ∀ a, Le (k a) (k' a)) : Le (subSpecs e p k) (subSpecs e' p k') :=
  Fr.readLe F (fun _ h => Fr.specifiersS F hp _ _ h) fun _ => h _

variable {rec rec' : Fn → Nat → W} (hr : LeRecS S rec rec')
include hr

theorem Fr.chainS (f : Bytes) (fn : Fn) (fuel : Nat) : ∀ p, S p → Le (chain e rec f fn fuel p) (chain e' rec' f fn fuel p) := by
  induction fuel with
  | zero => exact fun _ _ => Le.hang _
  | succ m ih =>
    intro p hp
    unfold Ser.chain
    exact Le.ite (Le.refl _) (Le.seq (Fr.subS F hr hp fun _ => Fr.efmt F rfl)
      (Fr.get F hp fun n x _ _ _ _ _ hb => ih _ hb))

theorem Fr.bodyLoopS : ∀ left p, S p → Le (bodyLoop e rec left p) (bodyLoop e' rec' left p)
  | 0, _, _ => Le.refl _
  | left + 1, p, hp => by
    have ih := Fr.bodyLoopS left
    unfold Ser.bodyLoop
    apply Le.seq (hr _ _ hp)
    intro r t h
    show (if p = 0 then Ser.bodyLoop e' rec' left 0 r else _) = _
    have h : (if p = 0 then Ser.bodyLoop e rec left 0 r else _) = _ := h
    split
    · rename_i hp
      rw [if_pos hp] at h
      exact ih _ F.zero _ _ h
    · rename_i h0
      rw [if_neg h0] at h
      exact Fr.get F hp (k := fun n => Ser.bodyLoop e rec left n.back) (k' := fun n => Ser.bodyLoop e' rec' left n.back)
        (fun n x _ _ _ _ _ hb => ih _ hb) r t h


end

section
variable {e e' : Env} {S : Nat → Prop} (F : Frame e e' S)
include F

theorem Fr.endStmt {p q : Nat} {n m : Node} {x f b : Nat} (P : Pair e e' S p q n x f b) (hm : m.parent = x) {w w' : W} (h : Le w w') :
    Le (endStmt e n w) (endStmt e' m w') := by
  unfold Ser.endStmt
  rcases P.parent with ⟨hx, hs⟩ | ⟨h1, h2⟩
  · rw [hm, hx]
    exact Le.ite h (Fr.getType hs fun n m ht _ => by rw [ht]; exact Le.ite h (Le.refl _))
  · have a1 : (if n.parent = 0 then w else Ser.reading (e.h.get n.parent) fun q =>
        if q.type ≠ .Typedef ∧ q.type ≠ .Variable then w else nop) = w := by
      rcases h1 with h1 | ⟨hv, h1⟩
      · rw [if_pos h1]
      · rw [if_neg (Nat.pos_iff_ne_zero.1 hv.1), get_ok hv]
        exact if_pos h1
    have a2 : (if m.parent = 0 then w' else Ser.reading (e'.h.get m.parent) fun q =>
        if q.type ≠ .Typedef ∧ q.type ≠ .Variable then w' else nop) = w' := by
      rw [hm]
      rcases h2 with h2 | ⟨hv, h2⟩
      · rw [if_pos h2]
      · rw [if_neg (Nat.pos_iff_ne_zero.1 hv.1), get_ok hv]
        exact if_pos h2
    rw [a1, a2]
    exact h

theorem Fr.isNext {p q : Nat} {n m : Node} {x f b : Nat} (P : Pair e e' S p q n x f b) (hm : m.parent = x) {k k' : Bool → W}
    (h : ∀ b, Le (k b) (k' b)) :
    Le (Ser.reading (if n.parent = 0 then Res.ok false else (e.h.get n.parent).bind fun q => Res.ok (decide (q.type = .Variable))) k)
      (Ser.reading (if m.parent = 0 then Res.ok false else (e'.h.get m.parent).bind fun q => Res.ok (decide (q.type = .Variable))) k') := by
  refine Fr.readLe F ?_ h
  intro a ha
  rw [hm]
  rcases P.parent with ⟨hx, hs⟩ | ⟨h1, h2⟩
  · rw [hx]
    by_cases h0 : n.parent = 0
    · rw [if_pos h0] at *; exact ha
    · rw [if_neg h0] at *
      obtain ⟨q, h1, h2⟩ := Res.bind_eq_ok.1 ha
      unfold Heap.get at h1
      split at h1
      · rename_i hv
        cases h1
        obtain ⟨h3, h4, _⟩ := hs hv
        exact Res.bind_eq_ok.2 ⟨_, get_ok h3, by rw [h4]; exact h2⟩
      · cases h1
  · have a1 : (if n.parent = 0 then Res.ok false else (e.h.get n.parent).bind fun q => Res.ok (decide (q.type = .Variable))) = .ok false := by
      rcases h1 with h1 | ⟨hv, _, h1⟩
      · rw [if_pos h1]
      · rw [if_neg (Nat.pos_iff_ne_zero.1 hv.1), get_ok hv, Res.ok_bind, decide_eq_false h1]
    have a2 : (if x = 0 then Res.ok false else (e'.h.get x).bind fun q => Res.ok (decide (q.type = .Variable))) = .ok false := by
      rcases h2 with h2 | ⟨hv, _, h2⟩
      · rw [if_pos h2]
      · rw [if_neg (Nat.pos_iff_ne_zero.1 hv.1), get_ok hv, Res.ok_bind, decide_eq_false h2]
    rw [a2, ← a1]
    exact ha

theorem Fr.ctorName {p q : Nat} {n : Node} {x f b : Nat} (P : Pair e e' S p q n x f b) (hc : isCtor n.type) :
    Le (ctorName e n) (ctorName e' { n with parent := x, front := f, back := b }) := by
  obtain ⟨hx, h2⟩ := P.ctor hc
  unfold Ser.ctorName
  subst hx
  intro r t h'
  obtain ⟨a, ha, hb⟩ := Res.bind_eq_ok.1 h'
  unfold Heap.get at ha
  split at ha
  · rename_i hv
    cases ha
    obtain ⟨h1, h3, h4⟩ := h2 hv
    refine Res.bind_eq_ok.2 ⟨_, get_ok h1, ?_⟩
    show ((if (e'.h.cell n.parent).parent ≠ 0 then Ser.reading (e'.h.get (e'.h.cell n.parent).parent) fun c => str c.name else str n.name) : W) r = _
    rw [h3]
    exact Le.ite (Fr.getType h4 fun n m _ hn => by rw [hn]; exact Le.refl _) (Le.refl _) _ _ hb
  · cases ha

end

theorem Fr.export (n : Node) (x f b : Nat) : Le (exportPrefix n) (exportPrefix { n with parent := x, front := f, back := b }) := Le.refl _

theorem Fr.optExport (n : Node) (x f b : Nat) {w w' : W} (h : Le w w') :
    Le (opt (exported n) w) (opt (exported { n with parent := x, front := f, back := b }) w') := Le.opt (c := exported n) h

theorem Fr.optImport (n : Node) (x f b : Nat) {w w' : W} (h : Le w w') :
    Le (opt (imported n) w) (opt (imported { n with parent := x, front := f, back := b }) w') := Le.opt (c := imported n) h

/-- One step of a proof of `Le` between two environments. -/
syntax "fr1" : tactic
macro_rules | `(tactic| fr1) => `(tactic| with_reducible first
  | assumption | exact Le.refl _ | exact Fr.export _ _ _ _
  | apply Fr.optExport | apply Fr.optImport
  | (refine Fr.efmt (by assumption) ?_; first | rfl | (simp only [Env.name, Env.content, *]; done))
  | exact Fr.cmtS (by assumption) (by assumption) | exact Fr.attrsS (by assumption) (by assumption)
  | exact Fr.specLenS (by assumption) _ | exact Fr.specWidthS (by assumption) _ | exact Fr.specWidthTailS (by assumption) _
  | exact Fr.chainS (by assumption) (by assumption) _ _ _ _ (by assumption)
  | exact Fr.bodyLoopS (by assumption) (by assumption) _ _ (by assumption)
  | apply Le.seq | apply Le.opt | apply Le.ite
  | (refine Fr.subS (by assumption) (by assumption) (by assumption) ?_; intro _)
  | (refine Fr.recReadingS (by assumption) (by assumption) (by assumption) ?_; intro _)
  | (refine Fr.subSpecsS (by assumption) (by assumption) ?_; intro _)
  | (refine Fr.specListR (by assumption) (by assumption) ?_; intro _)
  | (refine Fr.hasSpecR (by assumption) (by assumption) ?_; intro _)
  | (refine Fr.eachS (by assumption) ?_ _; intro _)
  | (refine Fr.endStmt (by assumption) (by assumption) rfl ?_)
  | (refine Fr.get (by assumption) (by assumption) ?_; intro n x _ _ _ P _ _;
     have := P.null; have := P.inlineCmt; have := P.attributes; have := P.specs; have := P.typ; have := P.params;
     have := P.body; have := P.suffix; try dsimp only)
  | (refine Le.reading ?_; intro _))

macro "fr" : tactic => `(tactic| repeat' fr1)

section
variable {e e' : Env} {S : Nat → Prop} (F : Frame e e' S) {rec rec' : Fn → Nat → W} (hr : LeRecS S rec rec')
  {p q : Nat} {n : Node} {x f b : Nat} (P : Pair e e' S p q n x f b)
include F hr P

theorem Fr.enumDef : Le (enumDef e rec p n) (enumDef e' rec' q { n with parent := x, front := f, back := b }) := by
  obtain ⟨hnull, h1, h2, h3, h4, h5, h6, h7, -, -, -⟩ := id P
  unfold Ser.enumDef; try dsimp only
  fr

theorem Fr.enumFwd : Le (enumFwd e rec p n) (enumFwd e' rec' q { n with parent := x, front := f, back := b }) := by
  obtain ⟨hnull, h1, h2, h3, h4, h5, h6, h7, -, -, -⟩ := id P
  unfold Ser.enumFwd; try dsimp only
  fr

theorem Fr.enumClassDef : Le (enumClassDef e rec p n) (enumClassDef e' rec' q { n with parent := x, front := f, back := b }) := by
  obtain ⟨hnull, h1, h2, h3, h4, h5, h6, h7, -, -, -⟩ := id P
  unfold Ser.enumClassDef; try dsimp only
  fr

theorem Fr.enumClassFwd : Le (enumClassFwd e rec p n) (enumClassFwd e' rec' q { n with parent := x, front := f, back := b }) := by
  obtain ⟨hnull, h1, h2, h3, h4, h5, h6, h7, -, -, -⟩ := id P
  unfold Ser.enumClassFwd; try dsimp only
  fr

theorem Fr.namespaceRef : Le (namespaceRef e rec p n) (namespaceRef e' rec' q { n with parent := x, front := f, back := b }) := by
  obtain ⟨hnull, h1, h2, h3, h4, h5, h6, h7, -, -, -⟩ := id P
  unfold Ser.namespaceRef; try dsimp only
  fr

theorem Fr.externRef : Le (externRef e rec p n) (externRef e' rec' q { n with parent := x, front := f, back := b }) := by
  obtain ⟨hnull, h1, h2, h3, h4, h5, h6, h7, -, -, -⟩ := id P
  unfold Ser.externRef; try dsimp only
  fr

theorem Fr.fnDef : Le (fnDef e rec p n) (fnDef e' rec' q { n with parent := x, front := f, back := b }) := by
  obtain ⟨hnull, h1, h2, h3, h4, h5, h6, h7, -, -, -⟩ := id P
  unfold Ser.fnDef Ser.fnSignature; try dsimp only
  fr

theorem Fr.fnFwd : Le (fnFwd e rec p n) (fnFwd e' rec' q { n with parent := x, front := f, back := b }) := by
  obtain ⟨hnull, h1, h2, h3, h4, h5, h6, h7, -, -, -⟩ := id P
  unfold Ser.fnFwd Ser.fnSignature Ser.fnFwdSpecs; try dsimp only
  fr

theorem Fr.opDef : Le (opDef e rec p n) (opDef e' rec' q { n with parent := x, front := f, back := b }) := by
  obtain ⟨hnull, h1, h2, h3, h4, h5, h6, h7, -, -, -⟩ := id P
  unfold Ser.opDef; try dsimp only
  fr

theorem Fr.opFwd : Le (opFwd e rec p n) (opFwd e' rec' q { n with parent := x, front := f, back := b }) := by
  obtain ⟨hnull, h1, h2, h3, h4, h5, h6, h7, -, -, -⟩ := id P
  unfold Ser.opFwd; try dsimp only
  fr

theorem Fr.opcastDef : Le (opcastDef e rec p n) (opcastDef e' rec' q { n with parent := x, front := f, back := b }) := by
  obtain ⟨hnull, h1, h2, h3, h4, h5, h6, h7, -, -, -⟩ := id P
  unfold Ser.opcastDef; try dsimp only
  fr

theorem Fr.opcastFwd : Le (opcastFwd e rec n) (opcastFwd e' rec' { n with parent := x, front := f, back := b }) := by
  obtain ⟨hnull, h1, h2, h3, h4, h5, h6, h7, -, -, -⟩ := id P
  unfold Ser.opcastFwd; try dsimp only
  fr

theorem Fr.define : Le (define e rec p n) (define e' rec' q { n with parent := x, front := f, back := b }) := by
  obtain ⟨hnull, h1, h2, h3, h4, h5, h6, h7, -, -, -⟩ := id P
  unfold Ser.define; try dsimp only
  fr

theorem Fr.template : Le (template e rec n) (template e' rec' { n with parent := x, front := f, back := b }) := by
  obtain ⟨hnull, h1, h2, h3, h4, h5, h6, h7, -, -, -⟩ := id P
  unfold Ser.template; try dsimp only
  fr

theorem Fr.unionDef : Le (unionDef e rec p n) (unionDef e' rec' q { n with parent := x, front := f, back := b }) := by
  obtain ⟨hnull, h1, h2, h3, h4, h5, h6, h7, -, -, -⟩ := id P
  unfold Ser.unionDef; try dsimp only
  fr

theorem Fr.param : Le (param e rec p n) (param e' rec' q { n with parent := x, front := f, back := b }) := by
  obtain ⟨hnull, h1, h2, h3, h4, h5, h6, h7, -, -, -⟩ := id P
  unfold Ser.param; try dsimp only
  fr

theorem Fr.varInit : Le (varInit e rec n) (varInit e' rec' { n with parent := x, front := f, back := b }) := by
  obtain ⟨hnull, h1, h2, h3, h4, h5, h6, h7, -, -, -⟩ := id P
  unfold Ser.varInit; try dsimp only
  fr

theorem Fr.friendRef : Le (friendRef e rec n) (friendRef e' rec' { n with parent := x, front := f, back := b }) := by
  obtain ⟨hnull, h1, h2, h3, h4, h5, h6, h7, -, -, -⟩ := id P
  unfold Ser.friendRef; try dsimp only
  fr

theorem Fr.structDef (fuel : Nat) : Le (structDef e rec fuel n) (structDef e' rec' fuel { n with parent := x, front := f, back := b }) := by
  obtain ⟨hnull, h1, h2, h3, h4, h5, h6, h7, -, -, -⟩ := id P
  unfold Ser.structDef Ser.recordDef Ser.finalSpec Ser.structParents; try dsimp only
  fr

theorem Fr.classDef (fuel : Nat) : Le (classDef e rec fuel p n) (classDef e' rec' fuel q { n with parent := x, front := f, back := b }) := by
  obtain ⟨hnull, h1, h2, h3, h4, h5, h6, h7, -, -, -⟩ := id P
  unfold Ser.classDef Ser.recordDef Ser.finalSpec Ser.classParents; try dsimp only
  fr

theorem Fr.typedef (fuel : Nat) : Le (typedef e rec fuel p n) (typedef e' rec' fuel q { n with parent := x, front := f, back := b }) := by
  obtain ⟨hnull, h1, h2, h3, h4, h5, h6, h7, -, -, -⟩ := id P
  unfold Ser.typedef; try dsimp only
  fr

theorem Fr.usingRef (fuel : Nat) : Le (usingRef e rec fuel p n) (usingRef e' rec' fuel q { n with parent := x, front := f, back := b }) := by
  obtain ⟨hnull, h1, h2, h3, h4, h5, h6, h7, -, -, -⟩ := id P
  unfold Ser.usingRef Ser.bounds; try dsimp only
  fr

theorem Fr.varNext (fuel : Nat) : Le (varNext e rec fuel n) (varNext e' rec' fuel { n with parent := x, front := f, back := b }) := by
  obtain ⟨hnull, h1, h2, h3, h4, h5, h6, h7, -, -, -⟩ := id P
  have hi := Fr.varInit F hr P
  unfold Ser.varNext Ser.bounds; try dsimp only
  fr

theorem Fr.varSpecified (fuel : Nat) : Le (varSpecified e rec fuel p n) (varSpecified e' rec' fuel q { n with parent := x, front := f, back := b }) := by
  obtain ⟨hnull, h1, h2, h3, h4, h5, h6, h7, -, -, -⟩ := id P
  have hi := Fr.varInit F hr P
  unfold Ser.varSpecified Ser.bounds; try dsimp only
  fr

theorem Fr.varPlain (fuel : Nat) : Le (varPlain e rec fuel p n) (varPlain e' rec' fuel q { n with parent := x, front := f, back := b }) := by
  obtain ⟨hnull, h1, h2, h3, h4, h5, h6, h7, -, -, -⟩ := id P
  have hi := Fr.varInit F hr P
  unfold Ser.varPlain Ser.varPlainHead; try dsimp only
  fr

omit hr in
theorem Fr.classFwd : Le (classFwd e p n) (classFwd e' q { n with parent := x, front := f, back := b }) := by
  obtain ⟨hnull, h1, h2, h3, h4, h5, h6, h7, -, -, -⟩ := id P
  unfold Ser.classFwd; try dsimp only
  fr

omit hr in
theorem Fr.structFwd : Le (structFwd e p n) (structFwd e' q { n with parent := x, front := f, back := b }) := by
  obtain ⟨hnull, h1, h2, h3, h4, h5, h6, h7, -, -, -⟩ := id P
  unfold Ser.structFwd; try dsimp only
  fr

omit hr in
theorem Fr.module : Le (module e p n) (module e' q { n with parent := x, front := f, back := b }) := by
  obtain ⟨hnull, h1, h2, h3, h4, h5, h6, h7, -, -, -⟩ := id P
  unfold Ser.module; try dsimp only
  fr

omit hr in
theorem Fr.unionFwd : Le (unionFwd e p n) (unionFwd e' q { n with parent := x, front := f, back := b }) := by
  obtain ⟨hnull, h1, h2, h3, h4, h5, h6, h7, -, -, -⟩ := id P
  unfold Ser.unionFwd; try dsimp only
  fr

omit hr in
theorem Fr.usingNs : Le (usingNs e p n) (usingNs e' q { n with parent := x, front := f, back := b }) := by
  obtain ⟨hnull, h1, h2, h3, h4, h5, h6, h7, -, -, -⟩ := id P
  unfold Ser.usingNs; try dsimp only
  fr

theorem Fr.constructorDef (hc : isCtor n.type) : Le (constructorDef e rec n) (constructorDef e' rec' { n with parent := x, front := f, back := b }) := by
  obtain ⟨hnull, h1, h2, h3, h4, h5, h6, h7, -, -, -⟩ := id P
  have hn := Fr.ctorName F P hc
  unfold Ser.constructorDef; try dsimp only
  fr

theorem Fr.constructorFwd (hc : isCtor n.type) : Le (constructorFwd e rec n) (constructorFwd e' rec' { n with parent := x, front := f, back := b }) := by
  obtain ⟨hnull, h1, h2, h3, h4, h5, h6, h7, -, -, -⟩ := id P
  have hn := Fr.ctorName F P hc
  unfold Ser.constructorFwd; try dsimp only
  fr

theorem Fr.destructorDef (hc : isDtor n.type) : Le (destructorDef e rec p n) (destructorDef e' rec' q { n with parent := x, front := f, back := b }) := by
  obtain ⟨hnull, h1, h2, h3, h4, h5, h6, h7, -, -, -⟩ := id P
  obtain ⟨rfl, hs, hnl⟩ := P.dtor hc
  unfold Ser.destructorDef; try dsimp only
  have key : ∀ v : Bool, Le
      (Ser.reading (e.h.get n.parent) fun q => if v = true then e.fmt b!"virtual ~%S()" [e.name n.parent q] else e.fmt b!"~%S()" [e.name n.parent q])
      (Ser.reading (e'.h.get n.parent) fun q => if v = true then e'.fmt b!"virtual ~%S()" [e'.name n.parent q] else e'.fmt b!"~%S()" [e'.name n.parent q]) := by
    intro v
    refine Fr.getType hs fun a m _ hn => ?_
    unfold Env.name
    rw [hn, hnl]
    exact Le.ite (Fr.efmt F rfl) (Fr.efmt F rfl)
  refine Le.seq (Le.ite (Fr.efmt F (by simp only [Env.name, hnull])) (Fr.hasSpecR F h3 key)) ?_
  fr

theorem Fr.destructorFwd (hc : isDtor n.type) : Le (destructorFwd e rec n) (destructorFwd e' rec' { n with parent := x, front := f, back := b }) := by
  obtain ⟨hnull, h1, h2, h3, h4, h5, h6, h7, -, -, -⟩ := id P
  obtain ⟨rfl, hs, hnl⟩ := P.dtor hc
  unfold Ser.destructorFwd; try dsimp only
  refine Fr.getType hs fun a m _ hn => ?_
  unfold Env.name
  rw [hn, hnl]
  fr

end

/-- Node `q` of `e'` has the contents of `p` of `e`, apart from its links. -/
structure Top (e e' : Env) (S : Nat → Prop) (p q : Nat) (n : Node) (x f b : Nat) : Prop where
  pair : Pair e e' S p q n x f b
  valid : e.h.Valid p
  valid' : e'.h.Valid q
  cell : e.h.cell p = n
  cell' : e'.h.cell q = { n with parent := x, front := f, back := b }

/-- The links are the same, too. -/
def Linked2 (S : Nat → Prop) (n : Node) (f b : Nat) : Prop := (f = n.front ∧ S n.front) ∧ (b = n.back ∧ S n.back)

section
variable {e e' : Env} {S : Nat → Prop} (F : Frame e e' S) {rec rec' : Fn → Nat → W} (hr : LeRecS S rec rec')
  {p q : Nat} {n : Node} {x f b : Nat} (T : Top e e' S p q n x f b)
include F hr T

omit F hr in
theorem Fr.topGet {k k' : Node → W} (h : Le (k n) (k' { n with parent := x, front := f, back := b })) :
    Le (Ser.reading (Res.assert (p ≠ 0)) fun _ => Ser.reading (e.h.get p) k)
      (Ser.reading (Res.assert (q ≠ 0)) fun _ => Ser.reading (e'.h.get q) k') := by
  intro r t h'
  obtain ⟨_, _, h'⟩ := Res.bind_eq_ok.1 h'
  obtain ⟨a, ha, hb⟩ := Res.bind_eq_ok.1 h'
  rw [get_ok T.valid, T.cell] at ha
  cases ha
  refine Res.bind_eq_ok.2 ⟨(), Res.assert_true (Nat.pos_iff_ne_zero.1 T.valid'.1), Res.bind_eq_ok.2 ⟨_, get_ok T.valid', ?_⟩⟩
  rw [T.cell']
  exact h _ _ hb

theorem Fr.typenameRef : Le (typenameRef e rec p) (typenameRef e' rec' q) := by
  obtain ⟨hnull, h1, h2, h3, h4, h5, h6, h7, -, -, -⟩ := id T.pair
  unfold Ser.typenameRef
  refine Fr.topGet T ?_
  try dsimp only
  fr

theorem Fr.varRef (fuel : Nat) : Le (varRef e rec fuel p) (varRef e' rec' fuel q) := by
  unfold Ser.varRef
  refine Fr.topGet T (Fr.isNext F T.pair rfl fun c => ?_)
  refine Le.ite (Fr.varNext F hr T.pair fuel) (Le.seq (Le.refl _) (Le.ite (Fr.varSpecified F hr T.pair fuel) (Fr.varPlain F hr T.pair fuel)))

omit hr in
theorem Fr.specifiersRef : Le (specifiersRef e p) (specifiersRef e' q) :=
  Fr.specifiersTop F ⟨fun h => absurd h (Nat.pos_iff_ne_zero.1 T.valid'.1), fun h => absurd h (Nat.pos_iff_ne_zero.1 T.valid.1)⟩ T.valid T.valid'
    T.cell T.cell'

theorem Fr.paramsRef (fuel : Nat) (L : Linked2 S n f b) : Le (paramsRef e rec fuel p) (paramsRef e' rec' fuel q) := by
  have h := Fr.param F hr T.pair
  unfold Ser.paramsRef
  obtain ⟨⟨rfl, _⟩, rfl, hb⟩ := L
  refine Fr.topGet T (Le.seq h ?_)
  try dsimp only
  fr

theorem Fr.defParamsRef (fuel : Nat) (L : Linked2 S n f b) : Le (defParamsRef e rec fuel p) (defParamsRef e' rec' fuel q) := by
  obtain ⟨hnull, h1, h2, h3, h4, h5, h6, h7, -, -, -⟩ := id T.pair
  unfold Ser.defParamsRef
  obtain ⟨⟨rfl, _⟩, rfl, hb⟩ := L
  refine Fr.topGet T ?_
  try dsimp only
  fr

theorem Fr.bodyRef (L : Linked2 S n f b) : Le (bodyRef e rec p) (bodyRef e' rec' q) := by
  unfold Ser.bodyRef
  obtain ⟨⟨rfl, _⟩, rfl, hb⟩ := L
  refine Fr.topGet T ?_
  try dsimp only
  fr

/-- Printing an export body starts at the body itself. -/
theorem Fr.bodyExport (hq : p = q ∧ S p) : Le (bodyExport e rec p) (bodyExport e' rec' q) := by
  unfold Ser.bodyExport
  obtain ⟨rfl, hs⟩ := hq
  refine Fr.topGet T ?_
  try dsimp only
  fr

theorem Fr.body (L : isBodyType n.type → Linked2 S n f b ∧ p = q ∧ S p) : Le (body e rec p) (body e' rec' q) := by
  unfold Ser.body
  have b1 := fun h => Fr.bodyRef F hr T (L h).1
  have b2 := fun h => Fr.bodyExport F hr T (L h).2
  refine Fr.topGet T ?_
  try dsimp only
  cases ht : n.type <;> rw [ht] at b1 b2 <;> try dsimp only
  all_goals first | (with_reducible exact Le.refl _) | ((with_reducible refine b1 ?_); rfl) | ((with_reducible refine b2 ?_); rfl)

/-- Nodes that print their followers as well. -/
def printsLinks (t : CodeType) : Bool := isBodyType t || t == .Parameters || t == .Parameters_Define

theorem Fr.dispatch (fuel : Nat) (L : printsLinks n.type → Linked2 S n f b ∧ p = q ∧ S p) :
    Le (dispatch e rec fuel p n) (dispatch e' rec' fuel q { n with parent := x, front := f, back := b }) := by
  obtain ⟨hnull, h1, h2, h3, h4, h5, h6, h7, -, -, -⟩ := id T.pair
  unfold Ser.dispatch
  have c1 := fun h => Fr.constructorDef F hr T.pair h
  have c2 := fun h => Fr.constructorFwd F hr T.pair h
  have c3 := fun h => Fr.destructorDef F hr T.pair h
  have c4 := fun h => Fr.destructorFwd F hr T.pair h
  have l1 := fun h => Fr.bodyRef F hr T (L h).1
  have l2 := fun h => Fr.bodyExport F hr T (L h).2
  have l3 := fun h => Fr.paramsRef F hr T fuel (L h).1
  have l4 := fun h => Fr.defParamsRef F hr T fuel (L h).1
  generalize hm : ({ n with parent := x, front := f, back := b } : Node) = m
  have hmt : m.type = n.type := by rw [← hm]
  rw [hmt]
  cases ht : n.type <;> rw [ht] at l1 l2 l3 l4 <;> try dsimp only
  all_goals subst hm
  all_goals first
    | (with_reducible exact Le.refl _)
    | (with_reducible exact Fr.efmt F (by simp only [Env.content, hnull]))
    | (with_reducible exact Fr.classDef F hr T.pair fuel)
    | (with_reducible exact Fr.classFwd F T.pair)
    | ((with_reducible refine c1 ?_); rw [ht]; exact Or.inl rfl)
    | ((with_reducible refine c2 ?_); rw [ht]; exact Or.inr rfl)
    | ((with_reducible refine c3 ?_); rw [ht]; exact Or.inl rfl)
    | ((with_reducible refine c4 ?_); rw [ht]; exact Or.inr rfl)
    | (with_reducible exact Fr.enumDef F hr T.pair)
    | (with_reducible exact Fr.enumFwd F hr T.pair)
    | (with_reducible exact Fr.enumClassDef F hr T.pair)
    | (with_reducible exact Fr.enumClassFwd F hr T.pair)
    | (with_reducible exact Fr.externRef F hr T.pair)
    | (with_reducible exact Fr.friendRef F hr T.pair)
    | (with_reducible exact Fr.fnDef F hr T.pair)
    | (with_reducible exact Fr.fnFwd F hr T.pair)
    | (with_reducible exact Fr.module F T.pair)
    | (with_reducible exact Fr.namespaceRef F hr T.pair)
    | (with_reducible exact Fr.opDef F hr T.pair)
    | (with_reducible exact Fr.opFwd F hr T.pair)
    | (with_reducible exact Fr.opcastDef F hr T.pair)
    | (with_reducible exact Fr.opcastFwd F hr T.pair)
    | (with_reducible exact Fr.define F hr T.pair)
    | (with_reducible exact Fr.specifiersRef F T)
    | (with_reducible exact Fr.structDef F hr T.pair fuel)
    | (with_reducible exact Fr.structFwd F T.pair)
    | (with_reducible exact Fr.template F hr T.pair)
    | (with_reducible exact Fr.typedef F hr T.pair fuel)
    | (with_reducible exact Fr.typenameRef F hr T)
    | (with_reducible exact Fr.unionDef F hr T.pair)
    | (with_reducible exact Fr.unionFwd F T.pair)
    | (with_reducible exact Fr.usingRef F hr T.pair fuel)
    | (with_reducible exact Fr.usingNs F T.pair)
    | (with_reducible exact Fr.varRef F hr T fuel)
    | ((with_reducible refine l1 ?_); rfl)
    | ((with_reducible refine l2 ?_); rfl)
    | ((with_reducible refine l3 ?_); rfl)
    | ((with_reducible refine l4 ?_); rfl)

theorem Fr.step (fuel : Nat) (fn : Fn) (L : (printsLinks n.type ∨ fn = .params ∨ fn = .defParams) → Linked2 S n f b ∧ p = q ∧ S p) :
    Le (step e fuel rec fn p) (step e' fuel rec' fn q) := by
  cases fn
  · exact Fr.topGet T (Fr.dispatch F hr T fuel fun h => L (.inl h))
  · exact Fr.typenameRef F hr T
  · exact Fr.paramsRef F hr T fuel (L (.inr (.inl rfl))).1
  · exact Fr.defParamsRef F hr T fuel (L (.inr (.inr rfl))).1
  · exact Fr.body F hr T fun h => L (.inl (by unfold printsLinks; rw [h]; rfl))
  · exact Fr.varRef F hr T fuel

end

theorem step_valid {e : Env} {fuel : Nat} {rec : Fn → Nat → W} {fn : Fn} {p : Nat} {r t : Bytes} (h : step e fuel rec fn p r = .ok t) :
    e.h.Valid p := by
  have key : ∀ (k : Node → W), (Ser.reading (Res.assert (p ≠ 0)) fun _ => Ser.reading (e.h.get p) k) r = .ok t → e.h.Valid p := by
    intro k h
    obtain ⟨_, _, h⟩ := Res.bind_eq_ok.1 h
    obtain ⟨a, ha, _⟩ := Res.bind_eq_ok.1 h
    unfold Heap.get at ha
    split at ha
    · assumption
    · cases ha
  cases fn <;> exact key _ h

theorem Frame.top {e e' : Env} {S : Nat → Prop} (F : Frame e e' S) {p : Nat} (hp : S p) (hv : e.h.Valid p) :
    ∃ x, Top e e' S p p (e.h.cell p) x (e.h.cell p).front (e.h.cell p).back := by
  obtain ⟨x, hx, P⟩ := F.node p hp hv
  exact ⟨x, P, hv, F.valid p hp hv, rfl, hx⟩

/-- The text of a node of `S` is the same in both environments. -/
theorem ser_frame {e e' : Env} {S : Nat → Prop} (F : Frame e e' S) : ∀ fuel, LeRecS S (ser e fuel) (ser e' fuel)
  | 0 => fun _ _ _ => Le.hang _
  | fuel + 1 => by
    intro fn p hp r t h
    have hv := step_valid h
    obtain ⟨x, T⟩ := F.top hp hv
    exact Fr.step F (ser_frame F fuel) T fuel fn (fun _ => ⟨⟨⟨rfl, F.front p hp hv⟩, rfl, F.back p hp hv⟩, rfl, hp⟩) r t h

/-- The same for a node that may have got other links. -/
theorem ser_top {e e' : Env} {S : Nat → Prop} (F : Frame e e' S) {p q : Nat} {n : Node} {x f b : Nat} (T : Top e e' S p q n x f b) (fuel : Nat)
    (fn : Fn) (L : printsLinks n.type = false) (hf : fn ≠ .params ∧ fn ≠ .defParams) : Le (ser e fuel fn p) (ser e' fuel fn q) := by
  cases fuel with
  | zero => exact Le.hang _
  | succ fuel =>
    refine Fr.step F (ser_frame F fuel) T fuel fn ?_
    rintro (h | h | h)
    · rw [L] at h; cases h
    · exact absurd h hf.1
    · exact absurd h hf.2

end Verif.Ser
