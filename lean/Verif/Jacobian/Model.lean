import Verif.Basic.Res
import Mathlib.Order.Defs.LinearOrder
import Mathlib.Algebra.Notation.Defs
import Mathlib.Data.Nat.Notation

/-!
# Model of `Optimization::ConstraintJacobian_Base`

Source: `/repo/src/IpoptWrapper/ConstraintJacobian.cpp`.

Indices are natural numbers (the code uses the signed `Eigen::Index`); the only subtractions are
`offsets[j+1] - offsets[j]` and `outer_height - column_height`, and `Props.lean` proves that the
subtrahend is never larger for the offsets made by `make_data`.  Accesses to the offset vector are
`getD`; they happen only at positions `≤ outer_width`, and the vector has length
`outer_width + 1` with `outer_width ≥ 1` (`C09_offsets`).
-/

set_option autoImplicit false

namespace Verif.Jacobian

variable {T : Type*} [LinearOrder T] {K : Type*}

/-- The `while` loop of `make_data` — `ConstraintJacobian.cpp` 42-65.  `cs` are the constraint times
from `constraint_index` on, `us` the control times from `control_index` on, `offset` is
`_block_column_offsets[control_index - 1]`.  The result lists `_block_column_offsets` from
`control_index` on, including the final write after the loop (lines 64-65). -/
def makeDataLoop : (cs us : List T) → (lastTime : T) → (lastHeight offset : ℕ) → List ℕ
  | _, [], _, lastHeight, offset => [offset + lastHeight]
  | [], _ :: us, lastTime, lastHeight, offset =>
    (offset + lastHeight) :: makeDataLoop [] us lastTime 0 (offset + lastHeight)
  | c :: cs, u :: us, lastTime, lastHeight, offset =>
    if lastTime < c then
      (offset + lastHeight) :: makeDataLoop (c :: cs) us u (cs.length + 1) (offset + lastHeight)
    else makeDataLoop cs (u :: us) lastTime lastHeight offset
  termination_by cs us => cs.length + us.length

/-- The data members of `ConstraintJacobian_Base` (block height, block width, column offsets). -/
structure Jac where
  blockHeight : ℕ
  blockWidth : ℕ
  offsets : List ℕ
  deriving DecidableEq, Repr

/-- `make_data` — `ConstraintJacobian.cpp` 25-68.  Without control times `controltimes[0]` is out of
bounds. -/
def makeData (constraintsPerStep controlsPerStep : ℕ) (cs us : List T) : Res Jac :=
  match us with
  | [] => Res.ub
  | u0 :: us' => Res.ok ⟨constraintsPerStep, controlsPerStep,
      0 :: makeDataLoop cs us' u0 cs.length 0⟩

namespace Jac

/-- `get_outer_column_offset` — lines 84-91. -/
def off (J : Jac) (j : ℕ) : ℕ := J.offsets.getD j 0
/-- `get_block_size` — lines 110-112. -/
def blockSize (J : Jac) : ℕ := J.blockHeight * J.blockWidth
/-- `get_outer_width` — lines 113-115. -/
def outerWidth (J : Jac) : ℕ := J.offsets.length - 1
/-- `get_inner_width` — lines 116-118. -/
def innerWidth (J : Jac) : ℕ := J.outerWidth * J.blockWidth
/-- `get_outer_height` — lines 119-121. -/
def outerHeight (J : Jac) : ℕ := J.off 1
/-- `get_inner_height` — lines 122-124. -/
def innerHeight (J : Jac) : ℕ := J.outerHeight * J.blockHeight
/-- `get_outer_col_height` — lines 125-130. -/
def outerColHeight (J : Jac) (j : ℕ) : ℕ := J.off (j + 1) - J.off j
/-- `get_inner_col_height` — lines 131-136. -/
def innerColHeight (J : Jac) (j : ℕ) : ℕ := J.outerColHeight j * J.blockHeight
/-- `get_outer_rowstart` — lines 138-143. -/
def outerRowstart (J : Jac) (j : ℕ) : ℕ := J.outerHeight - J.outerColHeight j
/-- `get_inner_rowstart` — lines 144-147. -/
def innerRowstart (J : Jac) (j : ℕ) : ℕ := J.outerRowstart j * J.blockHeight
/-- `get_inner_colstart` — lines 148-155. -/
def innerColstart (J : Jac) (j : ℕ) : ℕ := j * J.blockWidth
/-- `get_inner_column_offset` — lines 92-97. -/
def innerColumnOffset (J : Jac) (j : ℕ) : ℕ := J.off j * J.blockSize
/-- `nonZeros` — lines 186-189. -/
def nonZeros (J : Jac) : ℕ := J.off (J.offsets.length - 1) * J.blockSize

/-- `supply_indices` — lines 191-214: the pairs (row, column) in the order in which they are
written; the loops run with `!=` up to their bounds. -/
def supplyIndices (J : Jac) : List (ℕ × ℕ) :=
  (List.range J.outerWidth).flatMap fun j =>
    (List.range' (J.innerRowstart j) (J.innerHeight - J.innerRowstart j)).flatMap fun innerrow =>
      (List.range' (J.innerColstart j) J.blockWidth).map fun innercol => (innerrow, innercol)

/-- `get_column_block(column)(r, c)` — lines 169-185: row-major view of the value array, as the
position in that array. -/
def columnBlockPos (J : Jac) (j r c : ℕ) : ℕ := J.innerColumnOffset j + (r * J.blockWidth + c)

/-- One assignment `result.block(...) = get_column_block(column)` of `whole_matrix` (lines 220-225) on
a matrix given as a function. -/
def writeColumn [Zero K] (J : Jac) (values : List K) (m : ℕ → ℕ → K) (j : ℕ) : ℕ → ℕ → K :=
  fun row col =>
    if J.innerRowstart j ≤ row ∧ row < J.innerRowstart j + J.innerColHeight j ∧
        J.innerColstart j ≤ col ∧ col < J.innerColstart j + J.blockWidth then
      values.getD (J.columnBlockPos j (row - J.innerRowstart j) (col - J.innerColstart j)) 0
    else m row col

/-- `whole_matrix` — lines 216-227: zero matrix, then every column block is written.
(The entries are given for `row < innerHeight`, `col < innerWidth`.) -/
def wholeMatrix [Zero K] (J : Jac) (values : List K) : ℕ → ℕ → K :=
  (List.range J.outerWidth).foldl (J.writeColumn values) (fun _ _ => 0)

end Jac

/-- `assignment_helper` — lines 237-262: throws unless all structural data agree; then copies the
values. -/
def assign {K : Type*} (self : Jac × List K) (other : Jac × List K) : Res (Jac × List K) :=
  if self.1.blockWidth ≠ other.1.blockWidth then Res.throws
  else if self.1.blockHeight ≠ other.1.blockHeight then Res.throws
  else if self.1.offsets.length ≠ other.1.offsets.length then Res.throws
  else if self.1.offsets ≠ other.1.offsets then Res.throws
  else Res.ok (self.1, other.2)

/-- `operator==` — lines 264-284. -/
def jacEq {K : Type*} [DecidableEq K] (lhs rhs : Jac × List K) : Bool :=
  if lhs.1.blockHeight ≠ rhs.1.blockHeight then false
  else if lhs.1.blockWidth ≠ rhs.1.blockWidth then false
  else if lhs.1.offsets.length ≠ rhs.1.offsets.length then false
  else if lhs.1.offsets ≠ rhs.1.offsets then false
  else if lhs.2 ≠ rhs.2 then false
  else true

end Verif.Jacobian
