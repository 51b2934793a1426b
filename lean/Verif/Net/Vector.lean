import Verif.Basic.Res
import Verif.Handler.Model
import Mathlib.Data.Real.Basic
import Mathlib.Logic.Function.Basic

/-!
# Vectors and the residual vector

State, control and residual vectors (`Eigen::VectorXd`) are functions from the indices. Their length is left
out here; the theorems about whole networks show that only indices inside the vectors are used.
The writing accesses of `evaluate` to `rootvalues` are modelled by the list of the writes.
-/

set_option autoImplicit false

namespace Verif.Net

/-- `Eigen::VectorXd`. -/
abbrev Vec := ℤ → ℝ

/-- A write to `rootvalues`: `rootvalues[row] = value` or `rootvalues[row] += value`. -/
inductive Op
  | set (row : ℤ) (value : ℝ)
  | inc (row : ℤ) (value : ℝ)

/-- The row a write goes to. -/
def Op.row : Op → ℤ
  | .set r _ => r
  | .inc r _ => r

/-- The effect of a write. -/
def Op.apply (v : Vec) : Op → Vec
  | .set r x => Function.update v r x
  | .inc r x => Function.update v r (v r + x)

/-- The effect of a list of writes. -/
def run (v : Vec) (ops : List Op) : Vec := ops.foldl Op.apply v

/-- `for (auto &a : l) ...`: runs the body for each element and appends what it writes. -/
def forEach {α β : Type} (l : List α) (body : α → Res (List β)) : Res (List β) :=
  match l with
  | [] => Res.ok []
  | a :: rest => do
    let x ← body a
    let y ← forEach rest body
    Res.ok (x ++ y)

/-- `vector.segment<2>(i)`. -/
def segment (v : Vec) (i : ℤ) : ℝ × ℝ := (v i, v (i + 1))

/-- The arguments of `evaluate` and its derivatives apart from the times. -/
structure Args where
  last : Vec
  new : Vec
  control : Vec

end Verif.Net
