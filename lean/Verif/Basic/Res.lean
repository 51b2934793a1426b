/-!
# Outcomes of C++ code

Every C++ function that can throw or run into undefined behaviour (for example an out-of-bounds
access of `std::vector::operator[]`) is modelled by a function into `Res`.
-/

set_option autoImplicit false

namespace Verif

/-- Outcome of a piece of C++ code: a value, a thrown exception, or undefined behaviour. -/
inductive Res (α : Type _) where
  | ok (a : α)
  | throws
  | ub
  deriving DecidableEq, Repr

namespace Res

variable {α : Type _} {β : Type _} {γ : Type _}

/-- Sequencing: exceptions and undefined behaviour end the computation. -/
def bind (x : Res α) (f : α → Res β) : Res β :=
  match x with
  | ok a => f a
  | throws => throws
  | ub => ub

instance : Monad Res where
  pure := ok
  bind := bind

@[simp] theorem pure_eq (a : α) : (pure a : Res α) = ok a := rfl
@[simp] theorem ok_bind (a : α) (f : α → Res β) : (Res.ok a >>= f) = f a := rfl
@[simp] theorem throws_bind (f : α → Res β) : (Res.throws >>= f) = Res.throws := rfl
@[simp] theorem ub_bind (f : α → Res β) : (Res.ub >>= f) = Res.ub := rfl
@[simp] theorem map_ok (f : α → β) (a : α) : f <$> (Res.ok a) = Res.ok (f a) := rfl
@[simp] theorem map_throws (f : α → β) : f <$> (Res.throws : Res α) = Res.throws := rfl
@[simp] theorem map_ub (f : α → β) : f <$> (Res.ub : Res α) = Res.ub := rfl

theorem bind_assoc (x : Res α) (f : α → Res β) (g : β → Res γ) :
    (x >>= f >>= g) = (x >>= fun a => f a >>= g) := by
  cases x <;> rfl

/-- `std::vector::operator[]` (or an iterator dereference): undefined behaviour out of bounds. -/
def get (l : List α) (i : Nat) : Res α :=
  match l[i]? with
  | some a => ok a
  | none => ub

theorem get_eq_ok {l : List α} {i : Nat} {a : α} : get l i = ok a ↔ l[i]? = some a := by
  unfold get; cases h : l[i]? <;> simp

theorem get_of_lt {l : List α} {i : Nat} (h : i < l.length) : get l i = ok l[i] := by
  simp [get, h]

theorem get_of_ge {l : List α} {i : Nat} (h : l.length ≤ i) : get l i = ub := by
  simp [get, h]

theorem bind_eq_ok {x : Res α} {f : α → Res β} {b : β} :
    (x >>= f) = ok b ↔ ∃ a, x = ok a ∧ f a = ok b := by
  cases x <;> simp

end Res

end Verif
