import Verif.Basic.Res
import Mathlib.Algebra.Group.Defs
import Mathlib.Data.Int.Notation

/-!
# Model of the matrix handlers

Source: `/repo/src/Auxillary/Matrixhandler/Matrixhandler.cpp`. The sparse matrix of the Eigen library is
modelled by the list of its stored entries (with distinct positions); the order in which Eigen keeps
them is left out. The range checks are `assert`s: an index out of range is undefined behaviour here.
-/

set_option autoImplicit false

namespace Verif.Handler

variable {K : Type} [AddCommMonoid K]

/-- `Eigen::SparseMatrix<double>`: dimensions and stored entries. -/
structure Sparse (K : Type) where
  rows : ℤ
  cols : ℤ
  stored : List ((ℤ × ℤ) × K)

/-- `SparseMatrix::coeff`: the stored value or zero. -/
def Sparse.coeff (m : Sparse K) (row col : ℤ) : K := (m.stored.lookup (row, col)).getD 0

/-- `coeffRef(row, col) += value` on the stored entries: changes the stored entry, or inserts one. -/
def addStored (p : ℤ × ℤ) (value : K) : List ((ℤ × ℤ) × K) → List ((ℤ × ℤ) × K)
  | [] => [(p, 0 + value)]
  | (q, v) :: rest => if q = p then (q, v + value) :: rest else (q, v) :: addStored p value rest

/-- `SparseMatrix::setFromTriplets` of Eigen: forgets the old entries; duplicates are summed up. -/
def setFromTriplets (m : Sparse K) (triplets : List ((ℤ × ℤ) × K)) : Sparse K :=
  { m with stored := triplets.foldl (fun s t => addStored t.1 t.2 s) [] }

/-- The two kinds of handlers, `Matrixhandler.hpp`. -/
inductive Kind
  | triplet
  | coeffref
  deriving DecidableEq

/-- A handler: its kind and template argument, the matrix it refers to and `tripletlist`. -/
structure Handler (K : Type) where
  kind : Kind
  transposed : Bool
  matrix : Sparse K
  triplets : List ((ℤ × ℤ) × K)

/-- The constructors — `Matrixhandler.cpp` 23-28 and 55-63. (The `assert` that a matrix given to a
`Triplethandler` is empty is left out.) -/
def construct (kind : Kind) (transposed : Bool) (m : Sparse K) : Handler K :=
  match kind with
  | .triplet => ⟨kind, transposed, m, []⟩
  | .coeffref => ⟨kind, transposed, { m with stored := m.stored.map fun e => (e.1, 0) }, []⟩

/-- `add_to_coefficient` — `Matrixhandler.cpp` 30-49 and 65-84. -/
def add (h : Handler K) (row col : ℤ) (value : K) : Res (Handler K) :=
  let p := if h.transposed then (col, row) else (row, col)
  if 0 ≤ p.1 ∧ p.1 < h.matrix.rows ∧ 0 ≤ p.2 ∧ p.2 < h.matrix.cols then
    match h.kind with
    | .triplet => Res.ok { h with triplets := h.triplets ++ [(p, value)] }
    | .coeffref => Res.ok { h with matrix := { h.matrix with stored := addStored p value h.matrix.stored } }
  else Res.ub

/-- `set_matrix` — `Matrixhandler.cpp` 50-53 and 86. -/
def setMatrix (h : Handler K) : Handler K :=
  match h.kind with
  | .triplet => { h with matrix := setFromTriplets h.matrix h.triplets, triplets := [] }
  | .coeffref => h

/-- A contribution: row, column, value. -/
abbrev Contribution (K : Type) := ℤ × ℤ × K

/-- A sequence of calls of `add_to_coefficient`. -/
def addAll (h : Handler K) : List (Contribution K) → Res (Handler K)
  | [] => Res.ok h
  | (r, c, v) :: rest => do
    let h' ← add h r c v
    addAll h' rest

/-- The use of a handler everywhere in the code (e.g. `Newtonsolver.cpp` 35-61): construct it, add all
contributions, call `set_matrix`. The result is the matrix. -/
def fill (kind : Kind) (transposed : Bool) (m : Sparse K) (cs : List (Contribution K)) :
    Res (Sparse K) := do
  let h ← addAll (construct kind transposed m) cs
  Res.ok (setMatrix h).matrix

end Verif.Handler
