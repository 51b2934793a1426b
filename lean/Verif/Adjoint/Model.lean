import Verif.Basic.Res
import Mathlib.LinearAlgebra.Matrix.Adjugate
import Mathlib.Algebra.Field.Basic

/-!
# Model of `ImplicitOptimizer::compute_derivatives`

Source: `/repo/src/IpoptWrapper/ImplicitOptimizer.cpp` 487-656.

`n` is the number of states, `m` the number of controls and `r` the number of constraints per time
point. The problem enters through its derivative matrices at each time index (`StepData`); they were
assembled by `update_equation_derivative_matrices`, `update_cost_derivative_matrices` and
`update_constraint_derivative_matrices` (lines 733-811) from the states and controls at that time.
The sparse LU factorization is exact: it fails iff the matrix is singular, and otherwise its
`solve` yields the solution of the linear system.

Big matrices with one block of columns (or rows) per constraint time are functions of the block
number; blocks at or beyond the number of constraint times do not exist in the code and are never
looked at.
-/

set_option autoImplicit false

namespace Verif.Adjoint

open Matrix

variable {n m r : ℕ} {K : Type} [Field K]

/-- The derivative matrices at one time index — members `dE_dnew_transposed` (here not transposed),
`dE_dlast_transposed` (not transposed), `dE_dcontrol`, `df_dnew_transposed`, `df_dcontrol`,
`dg_dnew_transposed` (not transposed) and `dg_dcontrol`. -/
structure StepData (n m r : ℕ) (K : Type) where
  dEdnew : Matrix (Fin n) (Fin n) K
  dEdlast : Matrix (Fin n) (Fin n) K
  dEdcontrol : Matrix (Fin n) (Fin m) K
  dfdnew : Fin n → K
  dfdcontrol : Fin m → K
  dgdnew : Matrix (Fin r) (Fin n) K
  dgdcontrol : Matrix (Fin r) (Fin m) K

/-- What the sweep works on: derivative matrices and `integral_weights` by state index,
`index_lambda_pairs` by state index, `state_timepoints`, `constraint_timepoints`, the number of
control times, and for each control time the first block row stored in the constraint Jacobian
(`get_outer_rowstart`). `oob` is what a read of `constraint_timepoints[-1]` does: `none` is
undefined behaviour, `some v` is a machine that happens to deliver `v`. -/
structure Input (n m r : ℕ) (K : Type) where
  data : ℕ → StepData n m r K
  weight : ℕ → K
  pair : ℕ → ℕ × K
  time : ℕ → K
  cons : List K
  controlSteps : ℕ
  rowstart : ℕ → ℕ
  oob : Option K

/-- The local variables of the sweep together with the two results. -/
structure State (n m r : ℕ) (K : Type) where
  rhsF : Fin n → K
  gradient : ℕ → Fin m → K
  rhsG : ℕ → Matrix (Fin n) (Fin r) K
  jacobian : ℕ → ℕ → Matrix (Fin r) (Fin m) K
  constraintIndex : ℕ
  active : Bool

/-- The inverse used by `solver.solve` for the factorized `dE_dnew_transposed`. -/
def inverseT [DecidableEq K] (A : Matrix (Fin n) (Fin n) K) : Matrix (Fin n) (Fin n) K :=
  (Aᵀ).det⁻¹ • (Aᵀ).adjugate

/-- `objective_gradient.mut_timestep(j) += v` — `InterpolatingVector.cpp` 302-315 throws for an index
out of range. -/
def addGradient (steps : ℕ) (g : ℕ → Fin m → K) (j : ℕ) (v : Fin m → K) : Res (ℕ → Fin m → K) :=
  if j < steps then Res.ok (fun j' => if j' = j then g j' + v else g j') else Res.throws

/-- Distribution of the derivative with respect to the interpolated control to the control variables —
`ImplicitOptimizer.cpp` 550-563. -/
def distributeGradient [DecidableEq K] (steps : ℕ) (g : ℕ → Fin m → K) (p : ℕ × K)
    (v : Fin m → K) : Res (ℕ → Fin m → K) :=
  if p.2 = 1 then addGradient steps g p.1 v
  else do
    let g ← addGradient steps g p.1 (p.2 • v)
    if p.1 = 0 then Res.throws else addGradient steps g (p.1 - 1) ((1 - p.2) • v)

/-- `lower_rows(constraint_jacobian.get_column_block(j), ci) += …` — lines 634-646, 890-899: the last
`total - ci` block rows of column block `j`; there must be as many. -/
def addJacobian (steps : ℕ) (rowstart : ℕ → ℕ) (J : ℕ → ℕ → Matrix (Fin r) (Fin m) K) (j ci : ℕ)
    (v : ℕ → Matrix (Fin r) (Fin m) K) : Res (ℕ → ℕ → Matrix (Fin r) (Fin m) K) :=
  if j < steps ∧ rowstart j ≤ ci then
    Res.ok (fun k j' => if j' = j ∧ ci ≤ k then J k j' + v k else J k j')
  else Res.ub

/-- Distribution of the constraint derivatives — lines 628-647. -/
def distributeJacobian [DecidableEq K] (steps : ℕ) (rowstart : ℕ → ℕ)
    (J : ℕ → ℕ → Matrix (Fin r) (Fin m) K) (p : ℕ × K) (ci : ℕ)
    (v : ℕ → Matrix (Fin r) (Fin m) K) : Res (ℕ → ℕ → Matrix (Fin r) (Fin m) K) :=
  if p.2 = 1 then addJacobian steps rowstart J p.1 ci v
  else do
    let J ← addJacobian steps rowstart J p.1 ci (fun k => p.2 • v k)
    if p.1 = 0 then Res.ub
    else addJacobian steps rowstart J (p.1 - 1) ci (fun k => (1 - p.2) • v k)

/-- The test for a new constraint time — lines 570-575. If a read out of bounds happens to compare equal
`constraint_index` becomes negative, which is again undefined behaviour. -/
def isNewConstraint [DecidableEq K] (I : Input n m r K) (ci i : ℕ) : Res Bool :=
  if ci = 0 then
    match I.oob with
    | none => Res.ub
    | some v => if v = I.time i then Res.ub else Res.ok false
  else do
    let c ← Res.get I.cons (ci - 1)
    Res.ok (decide (c = I.time i))

/-- The constraint part of one step — lines 566-649. -/
def constraintStep [DecidableEq K] (I : Input n m r K) (i : ℕ) (s : State n m r K) :
    Res (State n m r K) := do
  let isNew ← isNewConstraint I s.constraintIndex i
  let ci := if isNew then s.constraintIndex - 1 else s.constraintIndex
  let active := s.active || isNew
  if active then
    let d := I.data i
    let rhs : ℕ → Matrix (Fin n) (Fin r) K :=
      fun k => if isNew ∧ k = ci then s.rhsG k - d.dgdnewᵀ else s.rhsG k
    let Xi : ℕ → Matrix (Fin n) (Fin r) K := fun k => inverseT d.dEdnew * rhs k
    let rhs' : ℕ → Matrix (Fin n) (Fin r) K :=
      fun k => if ci ≤ k then -(d.dEdlastᵀ * Xi k) else rhs k
    let dg : ℕ → Matrix (Fin r) (Fin m) K :=
      fun k => if isNew ∧ k = ci then (Xi k)ᵀ * d.dEdcontrol + d.dgdcontrol
        else (Xi k)ᵀ * d.dEdcontrol
    let J ← distributeJacobian I.controlSteps I.rowstart s.jacobian (I.pair i) ci dg
    Res.ok { s with rhsG := rhs', jacobian := J, constraintIndex := ci, active := active }
  else Res.ok { s with constraintIndex := ci, active := active }

/-- One pass of the `while` loop — lines 535-651. `none` means that `false` is returned. -/
def step [DecidableEq K] (I : Input n m r K) (i : ℕ) (s : State n m r K) :
    Res (Option (State n m r K)) :=
  let d := I.data i
  if (d.dEdnewᵀ).det = 0 then Res.ok none
  else do
    let rhs := s.rhsF - I.weight i • d.dfdnew
    let xi := inverseT d.dEdnew *ᵥ rhs
    let rhsF := -(d.dEdlastᵀ *ᵥ xi)
    let df := xi ᵥ* d.dEdcontrol + I.weight i • d.dfdcontrol
    let g ← distributeGradient I.controlSteps s.gradient (I.pair i) df
    let s := { s with rhsF := rhsF, gradient := g }
    if 0 < r then do
      let s ← constraintStep I i s
      Res.ok (some s)
    else Res.ok (some s)

/-- The `while` loop from state index `i` down to 1. -/
def sweep [DecidableEq K] (I : Input n m r K) : ℕ → State n m r K → Res (Option (State n m r K))
  | 0, s => Res.ok (some s)
  | i + 1, s => do
    match ← step I (i + 1) s with
    | none => Res.ok none
    | some s => sweep I i s

/-- State before the loop — lines 497-534. -/
def State.init (I : Input n m r K) : State n m r K where
  rhsF := 0
  gradient := fun _ => 0
  rhsG := fun _ => 0
  jacobian := fun _ _ => 0
  constraintIndex := I.cons.length
  active := false

/-- `ImplicitOptimizer::compute_derivatives` for `N + 1` state times — lines 487-656. -/
def computeDerivatives [DecidableEq K] (I : Input n m r K) (N : ℕ) :
    Res (Option (State n m r K)) :=
  sweep I N (State.init I)

end Verif.Adjoint
