import Verif.Model.Constants
/-!
# Running the parser on known tokens

`Here e s ts rest`: the tokens still to be read are `ts`, and behind the last one the array goes on with `rest`.
-/
namespace Verif.Parse
open Verif.Lex (Tok)
open Verif.Ast P

/-- The tokens from the index on. -/
structure Here (e : Env) (s : St) (ts rest : List Tok) : Prop where
  cells : e.cells.drop s.idx = ts ++ rest
  num : e.num = s.idx + ts.length

/-- One token on. -/
def St.adv (s : St) (n : Nat) : St := { s with idx := s.idx + n }

@[simp] theorem bindP {α β : Type} (x : P α) (f : α → P β) (e : Env) (s : St) : (x >>= f) e s = (x e s).bind fun r => f r.1 e r.2 := rfl
@[simp] theorem pureP {α : Type} (a : α) (e : Env) (s : St) : (pure a : P α) e s = .ok (a, s) := rfl
@[simp] theorem getP (e : Env) (s : St) : P.get e s = .ok (s, s) := rfl
@[simp] theorem envP (e : Env) (s : St) : P.env e s = .ok (e, s) := rfl
@[simp] theorem setP (e : Env) (s t : St) : P.set t e s = .ok ((), t) := rfl
@[simp] theorem failP {α : Type} (e : Env) (s : St) : (P.fail : P α) e s = .stop := rfl
@[simp] theorem hangP {α : Type} (e : Env) (s : St) : (P.hang : P α) e s = .hang := rfl

theorem iteP {α : Type} (c : Prop) [Decidable c] (x y : P α) (e : Env) (s : St) : (if c then x else y) e s = if c then x e s else y e s := by
  split <;> rfl

variable {e : Env} {s : St} {t : Tok} {ts rest : List Tok} {α : Type}

theorem Here.tail (h : Here e s (t :: ts) rest) : Here e (s.adv 1) ts rest := by
  refine ⟨?_, ?_⟩
  · show e.cells.drop (s.idx + 1) = _
    rw [← List.drop_drop, h.cells]
    rfl
  · have := h.num
    simp only [List.length_cons] at this
    show e.num = s.idx + 1 + _
    omega

theorem Here.heap (h : Here e s ts rest) (hp : Heap) (sc : List Bytes) : Here e ⟨s.idx, hp, sc⟩ ts rest := ⟨h.cells, h.num⟩

theorem Here.left (h : Here e s (t :: ts) rest) : Parse.left e s = .ok (true, s) := by
  have := h.num
  simp only [List.length_cons] at this
  unfold Parse.left
  rw [show (decide (s.idx ≠ e.num)) = true from decide_eq_true (by omega)]

theorem Here.done (h : Here e s [] rest) : Parse.left e s = .ok (false, s) := by
  have := h.num
  simp only [List.length_nil] at this
  unfold Parse.left
  rw [show (decide (s.idx ≠ e.num)) = false from decide_eq_false (by omega)]

theorem drop_get {α : Type} {l : List α} {i : Nat} {a : α} {r : List α} (h : l.drop i = a :: r) : l[i]? = some a := by
  have : (l.drop i)[0]? = some a := by rw [h]; rfl
  rw [List.getElem?_drop] at this
  simpa using this

theorem Here.cur (h : Here e s (t :: ts) rest) (hf : isFmt t = false) : cur e s = .ok (t, s) := by
  unfold Parse.cur
  rw [h.cells]
  show (skipFmt isFmt (t :: (ts ++ rest)) s.idx).bind _ = _
  unfold skipFmt
  rw [hf]
  rfl

theorem Here.curN (h : Here e s (t :: ts) rest) : curN e s = .ok (t, s) := by
  unfold Parse.curN
  rw [drop_get h.cells]
  rfl

theorem Here.eat (h : Here e s (t :: ts) rest) : eat t.type e s = .ok ((), s.adv 1) := by
  unfold Parse.eat
  simp only [bindP, h.left, Res.ok_bind, Bool.not_true, Bool.false_eq_true, if_false, getP, tokAt, drop_get h.cells, Res.ofOption_some, iteP,
    if_true, setP]
  rfl

theorem Here.check (h : Here e s (t :: ts) rest) (hf : isFmt t = false) (ty : TokType) : check ty e s = .ok (decide (t.type = ty), s) := by
  unfold Parse.check
  simp only [bindP, h.left, Res.ok_bind, iteP, if_true, h.cur hf, pureP]

theorem Here.leftAnd (h : Here e s (t :: ts) rest) (hf : isFmt t = false) (p : Tok → Bool) : leftAnd p e s = .ok (p t, s) := by
  unfold Parse.leftAnd
  simp only [bindP, h.left, Res.ok_bind, iteP, if_true, h.cur hf, pureP]

theorem Here.check_end (h : Here e s [] rest) (ty : TokType) : Parse.check ty e s = .ok (false, s) := by
  unfold Parse.check
  simp only [bindP, h.done, Res.ok_bind, iteP, Bool.false_eq_true, if_false, pureP]

theorem Here.leftAnd_end (h : Here e s [] rest) (p : Tok → Bool) : Parse.leftAnd p e s = .ok (false, s) := by
  unfold Parse.leftAnd
  simp only [bindP, h.done, Res.ok_bind, iteP, Bool.false_eq_true, if_false, pureP]

theorem Here.exportFlag (h : Here e s (t :: ts) rest) (hf : isFmt t = false) (ht : t.type ≠ .Module_Export) :
    exportFlag e s = .ok (0, s) := by
  unfold Parse.exportFlag
  simp only [bindP, h.check hf, Res.ok_bind, iteP, decide_eq_true_eq, if_neg ht, pureP]

theorem loop_end {σ : Type} {step : σ → P (Bool × σ)} {x y : σ} {s' : St} (h : step x e s = .ok ((false, y), s')) :
    loop step x e s = .ok (y, s') := by
  unfold loop
  show loopN step (e.cells.length + 1 + 1) x e s = _
  unfold loopN
  simp only [bindP, h, Res.ok_bind, iteP, Bool.false_eq_true, if_false, pureP]

/-- A turn that changes nothing is repeated for ever. -/
theorem loop_stuck {σ : Type} {step : σ → P (Bool × σ)} {x : σ} (h : step x e s = .ok ((true, x), s)) : loop step x e s = .hang := by
  have : ∀ fuel, loopN step fuel x e s = .hang := by
    intro fuel
    induction fuel with
    | zero => rfl
    | succ fuel ih =>
      unfold loopN
      simp only [bindP, h, Res.ok_bind, iteP, if_true]
      exact ih
  exact this _

theorem Here.attributes (h : Here e s (t :: ts) rest) (hf : isFmt t = false) (ht : has t Lex.fAttribute = false) :
    attributes e s = .ok (0, s) := by
  unfold Parse.attributes inScope
  simp only [bindP, getP, setP, Res.ok_bind]
  have h' := h.heap s.heap (b!"parse_attributes" :: s.scope)
  rw [h'.cur hf]
  simp only [Res.ok_bind]
  rw [loop_end (y := ⟨t.start, 0⟩) (s' := ⟨s.idx, s.heap, b!"parse_attributes" :: s.scope⟩)]
  · simp [iteP]
  · simp only [bindP, h'.leftAnd hf, Res.ok_bind, iteP, ht, Bool.false_eq_true, if_false, pureP]

end Verif.Parse
