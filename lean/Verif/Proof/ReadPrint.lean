import Verif.Proof.ReadVar
import Verif.Props.DefPrint
import Verif.Proof.SerFrame
/-!
# What is printed for the nodes of a declaration
-/
namespace Verif.Parse
open Verif.Ast
open Verif.Ser hiding Env boundsText isNext

variable {E : Ser.Env} {a b : Nat} {h : Heap} {x name : Bytes} {l : List Specifier}

/-- The nodes from `a` to `b` exist. -/
def Live (a b : Nat) (h : Heap) : Prop := ∀ q, a ≤ q → q < b → h.Valid q

theorem Agree.live {g : Heap} (ha : Agree a b h g) : Live a b g := fun q h1 h2 => (ha q h1 h2).1

/-- The node `p`, the last of the nodes from `a` on, prints as `t` — whatever list it stands in, whatever comes later, and with every parent
that is neither a typedef nor a variable. -/
def Shown (a p : Nat) (h : Heap) (t : Bytes) : Prop :=
  ∀ (E : Ser.Env) (x f k : Nat), Agree a p h E.h → E.h.Valid p → E.h.cell p = { h.cell p with parent := x, front := f, back := k } → Neutral E x →
    Says E .code p t

/-- The node has no parent yet, and is no list. -/
def Single (h : Heap) (p : Nat) : Prop := (h.cell p).parent = 0 ∧ isBodyType (h.cell p).type = false

/-- The parsing function `f`, started at `s`, reads `n` tokens, leaves all nodes as they are, and gives a new one that prints as `t`. -/
def Gives (f : P Nat) (e : Env) (s : St) (n : Nat) (t : Bytes) : Prop :=
  ∃ p h', f e s = .ok (p, ⟨s.idx + n, h', s.scope⟩) ∧ Agree 1 s.heap.next s.heap h' ∧ s.heap.next ≤ p ∧ p + 1 = h'.next ∧ Single h' p ∧
    Shown s.heap.next p h' t

theorem Shown.agree {p : Nat} {g : Heap} {t : Bytes} (hs : Shown a p h t) (ha : Agree a (p + 1) h g) (hap : a ≤ p) : Shown a p g t := by
  intro E x f k h1 h2 h3 h4
  refine hs E x f k ((ha.mono (Nat.le_refl _) (Nat.le_succ _)).trans h1) h2 ?_ h4
  rw [h3, (ha p hap (Nat.lt_succ_self _)).2]

theorem SpecsIn.slot {q : Nat} (hs : SpecsIn a b E.h q l) (h0 : 0 < a) : SpecSlot E q l ∧ (q = 0 ↔ l = []) := by
  unfold SpecsIn at hs
  unfold SpecSlot
  split at hs
  · next hl => subst hs; exact ⟨by rw [if_pos rfl]; exact hl, by simp [hl]⟩
  · next hl => rw [if_neg (by omega)]; exact ⟨hs.2.2, by simp [hl]; omega⟩

theorem nameText_of {p : Nat} (hne : (E.h.cell p).name ≠ []) : nameText E p = (E.h.cell p).name := by
  unfold nameText strText
  rw [if_neg (fun hh => hne hh.1)]

theorem type_says {p body : Nat} (ht : IsType a b E.h p name l body) (hl : Live a b E.h) (h0 : 0 < a) (hne : name ≠ []) :
    Says E .typename p (typeText name l) := by
  obtain ⟨h1, h2, q, h3, h4⟩ := ht
  obtain ⟨h5, h6⟩ := h4.slot (Nat.succ_pos _)
  refine (C47_typename (hl p h1 h2) h3 (fun hh => absurd rfl hh) h5 (.inl rfl)).1.cast ?_
  have hn : nameText E p = name := by rw [nameText_of (by rw [h3]; exact hne), h3]
  simp only [attrText, optText, tagWord, hn, ifText, if_true, List.nil_append, typeText]
  by_cases hq : l = []
  · simp [h6.2 hq, hq]
  · have : q ≠ 0 := fun hh => hq (h6.1 hh)
    simp [this, hq]

theorem text_prints {q : Nat} (hl : Live a b E.h) (h1 : a ≤ q) (h2 : q < b) {n : Node} (hc : E.h.cell q = n) (hx : n.content = x) (ht : n.type = .Untyped) :
    Prints E .code q x := by
  subst hx
  exact C48_text (.inl ⟨hl q h1 h2, hc, ht⟩)

theorem bounds_print {ls : List Bytes} : ∀ {q : Nat}, BoundsIn a b E.h q ls → Live a b E.h → 0 < a →
    ∃ ps, Linked E.h q ps ∧ PrintAll E .code ps ls ∧ (q = 0 ↔ ls = []) := by
  induction ls with
  | nil => exact fun hb _ _ => ⟨[], hb, trivial, by simp [show _ = _ from hb]⟩
  | cons x ls ih =>
    intro q hb hl h0
    obtain ⟨h1, h2, k, h3, h4⟩ := hb
    obtain ⟨ps, h5, h6, -⟩ := ih h4 hl h0
    exact ⟨q :: ps, ⟨rfl, hl q h1 h2, by rw [h3]; exact h5⟩, ⟨text_prints hl h1 h2 h3 rfl rfl, h6⟩, by simp; omega⟩

theorem Neutral.slot {p : Nat} (hn : Neutral E p) : Slot E p := fun h0 => hn.elim (fun hh => absurd hh h0) (·.1)

theorem wrapped_bounds (ls : List Bytes) : wrapped b!"[ " b!" ]" ls = boundsText ls := rfl

theorem PrintAll.nil {f : Fn} {ls : List Bytes} (h : PrintAll E f [] ls) : ls = [] := by
  cases ls with
  | nil => rfl
  | cons => cases h

/-- A variable as it is printed. -/
theorem variable_says {p sq typ expr bits arr x f k : Nat} {paren : Bool} {specs tspecs : List Specifier} {tname tail : Bytes} {ls : List Bytes}
    (h0 : 0 < a) (hl : Live a b E.h) (hv : E.h.Valid p)
    (hp : E.h.cell p = { type := .Variable, name := name, typ := typ, params := bits, specs := sq, body := expr, num := if paren then 1 else 0,
                         parent := x, front := f, back := k })
    (hx : Neutral E x) (hne : name ≠ []) (hs : SpecsIn a b E.h sq specs) (ht : IsType a b E.h typ tname tspecs arr) (htn : tname ≠ [])
    (hb : BoundsIn a b E.h arr ls) (hi : InitIn a b E.h expr paren bits tail) (hbits : bits ≠ 0 → ls = []) :
    Says E .code p ((if specs = [] then [] else Ser.specsText specs) ++ typeText tname tspecs ++ b!" " ++ name ++ (boundsText ls ++ tail) ++ b!";\n") := by
  intro hf
  obtain ⟨ps, hps, hpa, hpz⟩ := bounds_print hb hl h0
  obtain ⟨hs1, hs2⟩ := hs.slot h0
  have htv : E.h.Valid typ := hl typ ht.lo ht.hi
  have htc : (E.h.cell typ).body = arr := by
    obtain ⟨-, -, q, h1, -⟩ := ht
    rw [h1]
  have htp : Prints E .typename typ (typeText tname tspecs) := by
    refine type_says ht hl h0 htn ?_
    exact (Fits.append (Fits.append (Fits.append (Fits.append (Fits.append hf).1).1).1).1).2
  have hnm : nameText E p = name := by rw [nameText_of (by rw [hp]; exact hne), hp]
  have hnn : ¬ Ser.isNext E (E.h.cell p) := by
    rw [hp]
    rintro ⟨h1, h2⟩
    rcases hx with hx | ⟨-, -, hx⟩
    · exact h1 hx
    · exact hx h2
  have hqs : Slot E (E.h.cell p).parent := by rw [hp]; exact Neutral.slot hx
  refine (C47_variable_code ⟨hv, rfl, by rw [hp]⟩ _).2 ?_
  have hbt : Ser.boundsText E typ ls = boundsText ls := by
    unfold Ser.boundsText optText
    rw [if_neg (Nat.ne_of_gt htv.1), htc]
    by_cases h1 : arr = 0
    · rw [if_pos h1, hpz.1 h1]; rfl
    · rw [if_neg h1]; rfl
  obtain ⟨st, vt, hst, hvt, htail⟩ : ∃ st vt, (bits ≠ 0 → Prints E .code bits st) ∧ (expr ≠ 0 → Prints E .code expr vt) ∧
      tail = optText bits (b!" : " ++ st) ++ initText (E.h.cell p) vt [] := by
    rw [hp]
    cases hi with
    | none => exact ⟨[], [], fun hh => absurd rfl hh, fun hh => absurd rfl hh, by simp [optText, initText, ifText]⟩
    | @value q y h1 h2 h3 => exact ⟨[], y, fun hh => absurd rfl hh, fun _ => text_prints hl h1 h2 h3 rfl rfl, by
        have : expr ≠ 0 := by omega
        simp [optText, initText, ifText, this]⟩
    | @parens q y h1 h2 h3 => exact ⟨[], y, fun hh => absurd rfl hh, fun _ => text_prints hl h1 h2 h3 rfl rfl, by
        have : expr ≠ 0 := by omega
        simp [optText, initText, ifText, this]⟩
    | @bits q y h1 h2 h3 => exact ⟨y, [], fun _ => text_prints hl h1 h2 h3 rfl rfl, fun hh => absurd rfl hh, by
        have : bits ≠ 0 := by omega
        simp [optText, initText, ifText, this]⟩
  subst htail
  by_cases hsp : specs = []
  · refine (C47_variable (e := E) (tt := typeText tname tspecs) (st := st) (vt := vt) (nx := []) (l := ps) (ts := ls) hv rfl hqs hnn (by rw [hp])
      (by rw [hp]; exact hs2.2 hsp) (by rw [hp]; exact htv) (by rw [hp]; exact htp) (by rw [hp]; exact hst) (by rw [hp]; simp only []; rw [htc]; exact fun _ => hps)
      (fun _ => hpa) (by rw [hp]; exact hvt) (by rw [hp]; exact fun hh => absurd rfl hh) (by rw [hp]; exact fun hh => absurd rfl hh)).print' ?_ hf
    rw [hnm]
    have h1 : (E.h.cell p).params = bits := by rw [hp]
    have h2 : (E.h.cell p).typ = typ := by rw [hp]
    have h3 : exportText (E.h.cell p) = [] := by rw [hp]; rfl
    have h4 : cmtText E (E.h.cell p) b!"  " b!"" b!"\n" = b!"\n" := by rw [hp]; rfl
    rw [h1, h2, h3, h4, hbt, hsp]
    by_cases hz : bits = 0
    · simp [hz, optText]
    · simp [hz, optText, hbits hz, boundsText]
  · have hsq : sq ≠ 0 := fun hh => hsp (hs2.1 hh)
    refine (C47_variable_specified (e := E) (sl := specs) (tt := typeText tname tspecs) (st := st) (vt := vt) (nx := []) (l := ps) (ts := ls) hv rfl hqs hnn
      (.inr (by rw [hp]; exact hsq)) (by rw [hp]; exact fun hh => absurd rfl hh) (by rw [hp]; exact hs1) (by rw [hp]; exact htv) (by rw [hp]; exact htp)
      (by rw [hp]; exact hst) (by rw [hp]; simp only []; rw [htc]; exact fun _ => hps)
      hpa (by rw [hp]; exact hvt) (by rw [hp]; exact fun hh => absurd rfl hh) (by rw [hp]; exact fun hh => absurd rfl hh)).print' ?_ hf
    rw [hnm]
    have h1 : (E.h.cell p).params = bits := by rw [hp]
    have h2 : (E.h.cell p).typ = typ := by rw [hp]
    have h3 : exportText (E.h.cell p) = [] := by rw [hp]; rfl
    have h4 : cmtText E (E.h.cell p) b!";  " b!"" b!";\n" = b!";\n" := by rw [hp]; rfl
    have h5 : (E.h.cell p).specs = sq := by rw [hp]
    have h6 : attrText E (E.h.cell p) = [] := by rw [hp]; rfl
    rw [h1, h2, h3, h4, h5, h6, hbt, if_neg hsp]
    by_cases hz : bits = 0
    · simp [hz, optText, hsq]
    · simp [hz, optText, hbits hz, hsq, boundsText]

end Verif.Parse
