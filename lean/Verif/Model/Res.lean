/-! # Outcomes of modelled calls -/
namespace Verif

/-- Outcome of a call: a value, a deliberate stop (`GEN_ASSERT` / `GEN_FATAL` / `GEN_PANIC`), or undefined behaviour
(null or out-of-bounds access, use of an indeterminate value, a loop that never ends is `hang`). -/
inductive Res (α : Type _) where
  | ok (a : α)
  | stop
  | ub
  | hang
  deriving Repr, DecidableEq

namespace Res
variable {α β : Type _}

@[inline] def bind : Res α → (α → Res β) → Res β
  | ok a, f => f a
  | stop, _ => stop
  | ub, _ => ub
  | hang, _ => hang

instance : Monad Res where
  pure := ok
  bind := bind

@[simp] theorem pure_eq (a : α) : (pure a : Res α) = ok a := rfl
@[simp] theorem bind_eq (x : Res α) (f : α → Res β) : (x >>= f) = x.bind f := rfl
@[simp] theorem ok_bind (a : α) (f : α → Res β) : (ok a).bind f = f a := rfl
@[simp] theorem stop_bind (f : α → Res β) : (stop : Res α).bind f = stop := rfl
@[simp] theorem ub_bind (f : α → Res β) : (ub : Res α).bind f = ub := rfl
@[simp] theorem hang_bind (f : α → Res β) : (hang : Res α).bind f = hang := rfl

/-- `GEN_ASSERT(c)`. -/
def assert (c : Prop) [Decidable c] : Res Unit := if c then ok () else stop

@[simp] theorem assert_true {c : Prop} [Decidable c] (h : c) : assert c = ok () := if_pos h
theorem assert_false {c : Prop} [Decidable c] (h : ¬ c) : assert c = stop := if_neg h

/-- A memory access that may fault. -/
def ofOption : Option α → Res α
  | some a => ok a
  | none => ub

@[simp] theorem ofOption_some (a : α) : ofOption (some a) = ok a := rfl
@[simp] theorem ofOption_none : ofOption (none : Option α) = ub := rfl

theorem bind_assoc {γ : Type _} (x : Res α) (f : α → Res β) (g : β → Res γ) :
    (x.bind f).bind g = x.bind fun a => (f a).bind g := by cases x <;> rfl

theorem bind_eq_ok {x : Res α} {f : α → Res β} {b : β} : x.bind f = ok b ↔ ∃ a, x = ok a ∧ f a = ok b := by
  cases x <;> simp [bind]

end Res
end Verif
