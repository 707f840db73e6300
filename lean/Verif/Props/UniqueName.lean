import Verif.Model.UniqueName
import Verif.Proof.SerWrites
import Verif.Props.SerDemo
import Verif.Props.Crc
/-!
# C66: names for overloads
-/
namespace Verif.Ser
open Ast Fmt

/-! ## What the name is made of -/

/-- A parameter: the specifiers of its type, each with an underscore behind it (a pointer is `ptr`), and the name of the type. -/
def paramWord (specs : List Specifier) (type : Bytes) : Bytes := specs.flatMap (fun s => (if s = .Ptr then b!"ptr" else specToStr s) ++ b!"_") ++ type

/-- The name of an overload: `prefix_name__return_P_param_param_S_spec_`. -/
def overloadName (pre name : Bytes) (ret : Option Bytes) (params : List Bytes) (specs : List Specifier) : Bytes :=
  (if pre = [] then [] else pre ++ b!"_") ++ name ++ b!"_" ++
  (match ret with | none => [] | some r => b!"_" ++ r) ++
  (if params = [] then [] else b!"_P" ++ params.flatMap (b!"_" ++ ·)) ++
  (if specs = [] then [] else b!"_S_" ++ specs.flatMap fun s => specToStr s ++ b!"_")

/-- The parameter `q` has a type with these specifiers and this name, or it has none. -/
def TypeIs (e : Env) (q : Nat) (o : Option (List Specifier × Bytes)) : Prop :=
  match o with
  | none => (e.h.cell q).typ = 0
  | some (l, t) => (e.h.cell q).typ ≠ 0 ∧ e.h.Valid (e.h.cell q).typ ∧ SpecSlot e (e.h.cell (e.h.cell q).typ).specs l ∧ nameText e (e.h.cell q).typ = t

/-- The parameters are of these types. -/
def TypesAre (e : Env) : List Nat → List (Option (List Specifier × Bytes)) → Prop
  | [], [] => True
  | q :: qs, o :: os => TypeIs e q o ∧ TypesAre e qs os
  | _, _ => False

/-- The words of the parameters that have a type. -/
def paramWords (os : List (Option (List Specifier × Bytes))) : List Bytes := os.filterMap fun o => o.map fun x => paramWord x.1 x.2

/-! ## The parts -/

theorem EG.withSpecs (e : Env) {p : Nat} {l : List Specifier} (h : SpecSlot e p l) {k : List Specifier → W} {t : Bytes} (hk : l ≠ [] → EG (fun _ => k l) t) :
    EG (fun _ => Ser.withSpecs e p k) (if l = [] then [] else t) := by
  unfold SpecSlot at h
  unfold Ser.withSpecs
  by_cases hp : p = 0
  · rw [if_pos hp] at h
    simp only [if_pos hp, h]
    exact EG.nop
  · rw [if_neg hp] at h
    simp only [if_neg hp]
    refine EG.reading (get_ok h.valid) ?_
    by_cases hl : l = []
    · have : ¬ (e.h.cell p).num > 0 := by rw [h.count, hl]; simp
      simp only [if_neg this, if_pos hl]
      exact EG.nop
    · have : (e.h.cell p).num > 0 := by
        have : l.length ≠ 0 := by simpa using hl
        rw [h.count]; omega
      simp only [if_pos this, if_neg hl]
      exact EG.reading (C20_iteration h) (hk hl)

theorem specWord_arg (s : Specifier) : Arg.str (some (specToStr s ++ [0])) (specToStr s).length = strArg false (specToStr s) := by
  unfold strArg; simp

theorem EG.specWord (e : Env) (s : Specifier) : EG (fun _ => Ser.specWord e s) (specToStr s ++ b!"_") := by
  unfold Ser.specWord
  rw [specWord_arg]
  exact (EG.fmt e [.s false (specToStr s), .lit b!"_"] rfl rfl rfl).congr (by simp [textOf, strText])

theorem EG.name (e : Env) (before after : Bytes) {f : Bytes} {p : Nat} (hf : f = before ++ (b!"%S" ++ after)) (h1 : (before.all fun c => c != 0 && c != 37) = true)
    (h2 : (after.all fun c => c != 0 && c != 37) = true) (h3 : after.head? ≠ some 66) : EG (fun _ => e.fmt f [e.name p (e.h.cell p)]) (before ++ nameText e p ++ after) := by
  refine (EG.fmt e [.lit before, .s (e.nullStr p) (e.h.cell p).name, .lit after] (by simp [formatOf, hf]) rfl ?_).congr (by simp [textOf, nameText])
  simp [goodPieces, formatOf, h1, h2, h3]

/-- The parameters, behind those that were there (`first`: none of them had a type). -/
theorem EG.uniqueParams (e : Env) : ∀ (l : List Nat) (os : List (Option (List Specifier × Bytes))) (p fuel : Nat) (first : Bool), Linked e.h p l → TypesAre e l os → l.length < fuel →
    EG (fun _ => Ser.uniqueParams e fuel first p) (if first ∧ paramWords os = [] then [] else (if first then b!"_P" else []) ++ (paramWords os).flatMap (b!"_" ++ ·))
  | [], [], p, fuel + 1, first, hp, _, _ => by
    have hp : p = 0 := hp
    simp only [Ser.uniqueParams, if_pos hp]
    refine EG.nop.congr ?_
    cases first <;> simp [paramWords]
  | [], _ :: _, _, _, _, _, h, _ => h.elim
  | _ :: _, [], _, _, _, _, h, _ => h.elim
  | q :: l, o :: os, p, fuel + 1, first, ⟨hp, hv, hl⟩, ⟨ho, hos⟩, hf => by
    subst hp
    have ih := fun first => EG.uniqueParams e l os (e.h.cell p).back fuel first hl hos (by simpa using hf)
    simp only [Ser.uniqueParams, if_neg (Nat.ne_of_gt hv.1)]
    refine EG.reading (get_ok hv) ?_
    cases o with
    | none =>
      have ho : (e.h.cell p).typ = 0 := ho
      simp only [ho, ne_eq, not_true_eq_false, if_false, decide_true, Bool.and_true]
      exact (EG.nop.seq (ih first)).congr (by simp [paramWords])
    | some x =>
      obtain ⟨ls, t⟩ := x
      obtain ⟨h1, h2, h3, h4⟩ := ho
      simp only [ne_eq, h1, not_false_eq_true, if_true, decide_false, Bool.and_false]
      have hn : EG (fun _ => e.fmt b!"%S" [e.name (e.h.cell p).typ (e.h.cell (e.h.cell p).typ)]) t := (EG.name e [] [] rfl rfl rfl (by simp)).congr (by simp [h4])
      have hw : ∀ s : Specifier, EG (fun _ => if s = .Ptr then Ser.str b!"ptr_" else Ser.specWord e s) ((if s = .Ptr then b!"ptr" else specToStr s) ++ b!"_") := by
        intro s
        by_cases hs : s = .Ptr
        · simp only [if_pos hs]; exact EG.str _
        · simp only [if_neg hs]; exact EG.specWord e s
      refine (EG.seq (EG.seq (EG.str _) (EG.reading (get_ok h2) (EG.seq (EG.withSpecs e h3 (fun _ => EG.each hw ls)) hn))) (ih false)).congr ?_
      · have e1 : (if ls = [] then [] else ls.flatMap fun s => (if s = .Ptr then b!"ptr" else specToStr s) ++ b!"_") = ls.flatMap fun s => (if s = .Ptr then b!"ptr" else specToStr s) ++ b!"_" := by
          by_cases hl : ls = [] <;> simp [hl]
        rw [e1]
        cases first <;> simp [paramWords, paramWord]

/-- C66: the name of a function is made of a prefix, its old name, its return type, the types of its parameters and its specifiers. -/
theorem C66_unique_name {e : Env} {p : Nat} {pre : Bytes} {l : List Nat} {os : List (Option (List Specifier × Bytes))} {specs : List Specifier} {fuel : Nat}
    (hv : e.h.Valid p) (hr : Slot e (e.h.cell p).typ) (hl : Linked e.h (e.h.cell p).params l) (ho : TypesAre e l os) (hs : SpecSlot e (e.h.cell p).specs specs) (hfuel : l.length < fuel)
    (hf : Fits (overloadName pre (nameText e p) (if (e.h.cell p).typ = 0 then none else some (nameText e (e.h.cell p).typ)) (paramWords os) specs)) :
    ∃ h', renameUnique e fuel pre p = .ok h' ∧ h'.next = e.h.next ∧ (∀ q, q ≠ p → h'.cell q = e.h.cell q) ∧
      h'.cell p = { e.h.cell p with name := overloadName pre (nameText e p) (if (e.h.cell p).typ = 0 then none else some (nameText e (e.h.cell p).typ)) (paramWords os) specs } := by
  obtain ⟨t, ht⟩ : ∃ t, t = overloadName pre (nameText e p) (if (e.h.cell p).typ = 0 then none else some (nameText e (e.h.cell p).typ)) (paramWords os) specs := ⟨_, rfl⟩
  rw [← ht] at hf ⊢
  have hw : EG (fun _ => uniqueName e fuel pre p) t := by
    have hret : (e.h.cell p).typ ≠ 0 → EG (fun _ => reading (e.h.get (e.h.cell p).typ) fun t => e.fmt b!"_%S" [e.name (e.h.cell p).typ t]) (b!"_" ++ nameText e (e.h.cell p).typ) := by
      intro h
      refine EG.reading (get_ok (hr h)) ?_
      exact (EG.name e b!"_" [] (by decide) (by decide) (by decide) (by decide)).congr (by simp)
    have hend := EG.withSpecs e hs (k := fun l => str b!"_S_" ++> each (specWord e) l) fun _ => (EG.str b!"_S_").seq (EG.each (EG.specWord e) specs)
    have hpar := EG.uniqueParams e l os _ fuel true hl ho hfuel
    unfold uniqueName
    refine EG.reading (get_ok hv) ?_
    refine (EG.seq (EG.seq (EG.seq (a := (if pre = [] then [] else pre ++ b!"_") ++ nameText e p ++ b!"_") ?_ (EG.optSlot hret)) hpar) hend).congr ?_
    · by_cases hp : pre = []
      · simp only [hp, ne_eq, not_true_eq_false, if_false, if_true]
        exact (EG.name e [] b!"_" rfl rfl rfl (by decide)).congr (by simp)
      · simp only [ne_eq, hp, not_false_eq_true, if_true, if_false]
        have ha : Arg.str (some (pre ++ [0])) pre.length = strArg false pre := by unfold strArg; simp
        rw [ha]
        refine (EG.fmt e [.s false pre, .lit b!"_", .s (e.nullStr p) (e.h.cell p).name, .lit b!"_"] (by simp [formatOf]) rfl (by simp [goodPieces, formatOf])).congr (by simp [textOf, strText, nameText])
    · rw [ht]
      unfold overloadName optText
      by_cases h1 : (e.h.cell p).typ = 0 <;> by_cases h2 : paramWords os = [] <;> simp [h1, h2]
  obtain ⟨k, hk⟩ := hw hf
  have := hk k (Nat.le_refl _) []
  rw [List.nil_append] at this
  have this : uniqueName e fuel pre p [] = .ok t := this
  refine ⟨{ e.h with cell := fun q => if q = p then { e.h.cell p with name := t } else e.h.cell q }, ?_, rfl, fun q hq => by simp [hq], by simp⟩
  unfold renameUnique
  rw [this, Res.ok_bind]
  unfold Heap.upd
  rw [if_pos hv]

/-! ## Are the names different? -/

/-- What is written for a specifier of a parameter. -/
def spelled (s : Specifier) : Bytes := if s = .Ptr then b!"ptr" else specToStr s

/-- The words of a parameter. -/
def tokens (x : List Specifier × Bytes) : List Bytes := x.1.map spelled ++ [x.2]

/-- A parameter in which nothing contains an underscore, and whose type is not called like a specifier or `ptr`. -/
structure Plain (x : List Specifier × Bytes) : Prop where
  whole : ∀ w ∈ tokens x, 95 ∉ w
  type : ∀ s, x.2 ≠ spelled s

theorem spelled_inj {s t : Specifier} (h : spelled s = spelled t) : s = t := by
  have hp : ∀ t, t ≠ .Ptr → specToStr t ≠ b!"ptr" := by intro t; cases t <;> decide
  unfold spelled at h
  by_cases h1 : s = .Ptr <;> by_cases h2 : t = .Ptr
  · rw [h1, h2]
  · rw [if_pos h1, if_neg h2] at h; exact absurd h.symm (hp t h2)
  · rw [if_neg h1, if_pos h2] at h; exact absurd h (hp s h1)
  · rw [if_neg h1, if_neg h2] at h
    rw [← C25_specifier_spellings s, ← C25_specifier_spellings t, h]

theorem word_tokens (x : List Specifier × Bytes) : b!"_" ++ paramWord x.1 x.2 = (tokens x).flatMap (b!"_" ++ ·) := by
  obtain ⟨l, t⟩ := x
  unfold tokens paramWord
  induction l with
  | nil => simp
  | cons s l ih =>
    simp only [List.map_cons, List.cons_append, List.flatMap_cons, List.append_assoc] at ih ⊢
    rw [← ih]
    simp [spelled]

theorem tokens_inj : ∀ {a b : List Bytes}, (∀ w ∈ a, 95 ∉ w) → (∀ w ∈ b, 95 ∉ w) → a.flatMap (b!"_" ++ ·) = b.flatMap (b!"_" ++ ·) → a = b
  | [], [], _, _, _ => rfl
  | [], y :: b, _, _, h => by simp at h
  | x :: a, [], _, _, h => by simp at h
  | x :: a, y :: b, ha, hb, h => by
    have front : ∀ {x : Bytes} {a : List Bytes}, 95 ∉ x → (x ++ a.flatMap (b!"_" ++ ·)).takeWhile (· ≠ 95) = x := by
      intro x a hx
      rw [List.takeWhile_append_of_pos (by intro c hc; simp; rintro rfl; exact hx hc)]
      cases a <;> simp
    simp only [List.flatMap_cons, List.append_assoc] at h
    have h := List.append_cancel_left h
    have e : x = y := by
      rw [← front (a := a) (ha x (by simp)), ← front (a := b) (hb y (by simp)), h]
    subst e
    rw [tokens_inj (fun w hw => ha w (by simp [hw])) (fun w hw => hb w (by simp [hw])) (List.append_cancel_left h)]

theorem decode {t u : Bytes} {L M : List Bytes} (ht : ∀ s, t ≠ spelled s) (hu : ∀ s, u ≠ spelled s) : ∀ {l m : List Specifier},
    l.map spelled ++ t :: L = m.map spelled ++ u :: M → l = m ∧ t = u ∧ L = M
  | [], [], h => by simpa using h
  | [], s :: m, h => by simp at h; exact absurd h.1 (ht s)
  | s :: l, [], h => by simp at h; exact absurd h.1.symm (hu s)
  | s :: l, s' :: m, h => by
    simp only [List.map_cons, List.cons_append, List.cons.injEq] at h
    obtain ⟨h1, h2, h3⟩ := decode ht hu h.2
    exact ⟨by rw [spelled_inj h.1, h1], h2, h3⟩

theorem tokens_params : ∀ {l m : List (List Specifier × Bytes)}, (∀ x ∈ l, Plain x) → (∀ x ∈ m, Plain x) → l.flatMap tokens = m.flatMap tokens → l = m
  | [], [], _, _, _ => rfl
  | [], y :: m, _, _, h => by simp [tokens] at h
  | x :: l, [], _, _, h => by simp [tokens] at h
  | x :: l, y :: m, hl, hm, h => by
    simp only [List.flatMap_cons, tokens, List.append_assoc, List.singleton_append] at h
    obtain ⟨h1, h2, h3⟩ := decode (hl x (by simp)).type (hm y (by simp)).type h
    rw [tokens_params (fun z hz => hl z (by simp [hz])) (fun z hz => hm z (by simp [hz])) h3, Prod.ext h1 h2]

/-- C66: overloads whose parameters are plain get different names. -/
theorem C66_distinct {pre name : Bytes} {ret : Option Bytes} {specs : List Specifier} {l m : List (List Specifier × Bytes)} (hl : ∀ x ∈ l, Plain x) (hm : ∀ x ∈ m, Plain x)
    (h : overloadName pre name ret (paramWords (l.map some)) specs = overloadName pre name ret (paramWords (m.map some)) specs) : l = m := by
  have e : ∀ l : List (List Specifier × Bytes), paramWords (l.map some) = l.map fun x => paramWord x.1 x.2 := by
    intro l
    induction l with
    | nil => rfl
    | cons x l ih => simp [paramWords] at ih ⊢; exact ih
  have f : ∀ l : List (List Specifier × Bytes), (l.map fun x => paramWord x.1 x.2).flatMap (b!"_" ++ ·) = (l.flatMap tokens).flatMap (b!"_" ++ ·) := by
    intro l
    induction l with
    | nil => rfl
    | cons x l ih => rw [List.map_cons, List.flatMap_cons, List.flatMap_cons, List.flatMap_append, ih, word_tokens]
  unfold overloadName at h
  have h := List.append_cancel_left (List.append_cancel_right h)
  rw [e, e, f, f] at h
  cases l with
  | nil =>
    cases m with
    | nil => rfl
    | cons y m => simp at h
  | cons x l =>
    cases m with
    | nil => simp at h
    | cons y m =>
      simp only [List.map_cons, List.cons_ne_nil, if_false, reduceCtorEq] at h
      have h := List.append_cancel_left h
      have w : ∀ {l : List (List Specifier × Bytes)}, (∀ x ∈ l, Plain x) → ∀ t ∈ l.flatMap tokens, 95 ∉ t := by
        intro l hl t ht
        obtain ⟨x, h1, h2⟩ := List.mem_flatMap.mp ht
        exact (hl x h1).whole t h2
      exact tokens_params hl hm (tokens_inj (w hl) (w hm) h)

/-! ## Cases -/

namespace UniqueDemo
open Demo

/-- `void f( ptr, int )`, `void f( int* )` and `virtual void f( const int& )`. -/
def nodes : List Node := [
  /- 0 -/ {},
  /- 1 -/ { type := .Typename, name := b!"void" },
  /- 2 -/ { type := .Typename, name := b!"ptr" },
  /- 3 -/ { type := .Typename, name := b!"int" },
  /- 4 -/ specNode [.Ptr],
  /- 5 -/ { type := .Typename, name := b!"int", specs := 4 },
  /- 6 -/ specNode [.Const, .Ref],
  /- 7 -/ { type := .Typename, name := b!"int", specs := 6 },
  /- 8 -/ { type := .Parameters, name := b!"a", typ := 2, num := 2, back := 9 },
  /- 9 -/ { type := .Parameters, name := b!"b", typ := 3 },
  /- 10 -/ { type := .Parameters, name := b!"a", typ := 5, num := 1 },
  /- 11 -/ { type := .Parameters, name := b!"a", typ := 7, num := 1 },
  /- 12 -/ specNode [.Virtual],
  /- 13 -/ { type := .Function_Fwd, name := b!"f", typ := 1, params := 8 },
  /- 14 -/ { type := .Function_Fwd, name := b!"f", typ := 1, params := 10 },
  /- 15 -/ { type := .Function_Fwd, name := b!"f", typ := 1, params := 11, specs := 12 }]

def env : Env := { h := { next := 16, cell := fun p => nodes.getD p {} } }

/-- C66: a name of everything. -/
example : ∃ h', renameUnique UniqueDemo.env 2 b!"C" 15 = .ok h' ∧ (h'.cell 15).name = b!"C_f__void_P_const_&_int_S_virtual_" := by
  obtain ⟨h', h1, -, -, h2⟩ := C66_unique_name (e := UniqueDemo.env) (p := 15) (pre := b!"C") (l := [11]) (os := [some ([.Const, .Ref], b!"int")]) (specs := [.Virtual]) (fuel := 2)
    (by decide) (fun _ => by decide) ⟨rfl, by decide, rfl⟩ ⟨⟨by decide, by decide, ⟨by decide, rfl, rfl, rfl, by decide⟩, rfl⟩, trivial⟩ ⟨by decide, rfl, rfl, rfl, by decide⟩ (by decide) (by decide +kernel)
  refine ⟨h', h1, ?_⟩
  rw [h2]
  decide +kernel

/-- Plain parameters: `int const`, `float`. -/
example : Plain ([.Const], b!"int") ∧ Plain ([], b!"float") ∧ Plain ([.Ptr], b!"int") := by
  refine ⟨⟨by decide, ?_⟩, ⟨by decide, ?_⟩, ⟨by decide, ?_⟩⟩ <;> (intro s; cases s <;> decide)

end UniqueDemo

open UniqueDemo

/-- C66 fails: a reference leaves a name that is no identifier. -/
theorem C66_identifier_refuted : ∃ h', renameUnique UniqueDemo.env 2 [] 15 = .ok h' ∧ (h'.cell 15).name = b!"f__void_P_const_&_int_S_virtual_" := by
  obtain ⟨h', h1, -, -, h2⟩ := C66_unique_name (e := UniqueDemo.env) (p := 15) (pre := []) (l := [11]) (os := [some ([.Const, .Ref], b!"int")]) (specs := [.Virtual]) (fuel := 2)
    (by decide) (fun _ => by decide) ⟨rfl, by decide, rfl⟩ ⟨⟨by decide, by decide, ⟨by decide, rfl, rfl, rfl, by decide⟩, rfl⟩, trivial⟩ ⟨by decide, rfl, rfl, rfl, by decide⟩ (by decide) (by decide +kernel)
  refine ⟨h', h1, ?_⟩
  rw [h2]
  decide +kernel

/-- C66 fails: `void f( ptr, int )` and `void f( int* )` get the same name. -/
theorem C66_distinct_refuted : ∃ h1 h2, renameUnique UniqueDemo.env 3 [] 13 = .ok h1 ∧ renameUnique UniqueDemo.env 3 [] 14 = .ok h2 ∧
    (h1.cell 13).name = b!"f__void_P_ptr_int" ∧ (h2.cell 14).name = b!"f__void_P_ptr_int" := by
  obtain ⟨h1, e1, -, -, k1⟩ := C66_unique_name (e := UniqueDemo.env) (p := 13) (pre := []) (l := [8, 9]) (os := [some ([], b!"ptr"), some ([], b!"int")]) (specs := []) (fuel := 3)
    (by decide) (fun _ => by decide) ⟨rfl, by decide, rfl, by decide, rfl⟩ ⟨⟨by decide, by decide, rfl, rfl⟩, ⟨by decide, by decide, rfl, rfl⟩, trivial⟩ rfl (by decide) (by decide +kernel)
  obtain ⟨h2, e2, -, -, k2⟩ := C66_unique_name (e := UniqueDemo.env) (p := 14) (pre := []) (l := [10]) (os := [some ([.Ptr], b!"int")]) (specs := []) (fuel := 3)
    (by decide) (fun _ => by decide) ⟨rfl, by decide, rfl⟩ ⟨⟨by decide, by decide, ⟨by decide, rfl, rfl, rfl, by decide⟩, rfl⟩, trivial⟩ rfl (by decide) (by decide +kernel)
  refine ⟨h1, h2, e1, e2, ?_, ?_⟩
  · rw [k1]; decide +kernel
  · rw [k2]; decide +kernel

end Verif.Ser
