import Verif.Basic.Res
import Mathlib.Algebra.Order.Field.Basic

/-!
# Model of `Solver::Newtonsolver::solve`

Source: `/repo/src/Newtonsolver/Newtonsolver.cpp`, `/repo/src/Newtonsolver/include/Newtonsolver.hpp`.

The equation system at one time step enters through `System`. Norms are `Option K`, where `none`
stands for NaN: every comparison with NaN is false.
-/

set_option autoImplicit false

namespace Verif.Newton

variable {X Y K : Type} [Field K] [LinearOrder K]

/-- What the solver gets from problem and linear algebra, for fixed times, last state and control:
`evaluate` is `problem.evaluate`, `jac x` is the LU factorization of the Jacobian at `x` as the
function `lusolver.solve` (`none`: `lusolver.info() != Success`), `normX`/`normY` are
`Eigen::VectorXd::norm`, `move x lam s` is `x + lam * s` and `neg` is unary minus. -/
structure System (X Y K : Type) where
  evaluate : X → Y
  jac : X → Option (Y → X)
  normX : X → Option K
  normY : Y → Option K
  move : X → K → X → X
  neg : X → X

/-- `a > b` for floating point numbers that may be NaN. -/
def gt : Option K → Option K → Bool
  | some a, some b => decide (b < a)
  | _, _ => false

/-- `a <= b` for floating point numbers that may be NaN. -/
def le : Option K → Option K → Bool
  | some a, some b => decide (a ≤ b)
  | _, _ => false

/-- `minimal_stepsize` — `Newtonsolver.hpp` (private constants). -/
def minimalStepsize : K := 1 / 10 ^ 12

/-- `Solutionstruct` — `Newtonsolver.hpp` 36-43, with its default values. -/
structure Sol (K : Type) where
  success : Bool
  residual : Option K
  used : ℕ

/-- A default-constructed `Solutionstruct`. -/
def Sol.default : Sol K := ⟨false, some 1000000, 0⟩

/-- The inner `while` loop (damping) — `Newtonsolver.cpp` 132-146. `cur` is `current_norm`, `lam`
is `lambda`, `cand` and `vals` the candidate and its values. The loop has no bound in the code:
the result is `none` if it has not ended after `fuel` halvings. -/
def lineSearch (S : System X Y K) (solve : Y → X) (x step : X) (testnorm : Option K) :
    ℕ → K → X → Y → Option K → Option (Res (K × X × Y))
  | fuel, lam, cand, vals, cur =>
    if gt cur (testnorm.map (fun t => (1 - 1 / 2 * lam) * t)) then
      if gt (some minimalStepsize) cur then some Res.throws
      else
        match fuel with
        | 0 => none
        | fuel + 1 =>
          let lam' := lam * (1 / 2)
          let cand' := S.move x lam' step
          let vals' := S.evaluate cand'
          lineSearch S solve x step testnorm fuel lam' cand' vals' (S.normX (S.neg (solve vals')))
    else some (Res.ok (lam, cand, vals))

/-- The outer `while` loop — `Newtonsolver.cpp` 102-151. The first argument is the number of iterations
left (`maximal_iterations - used_iterations`, 0 if negative). `fixed` is the factorization made
before the loop, used if `full` is `false`. -/
def iterate (S : System X Y K) (tol : K) (full : Bool) (fuel : ℕ) (fixed : Option (Y → X)) :
    ℕ → X → Y → Sol K → Option (Res (X × Sol K))
  | 0, x, _, sol => some (Res.ok (x, sol))
  | n + 1, x, vals, sol =>
    if gt (S.normY vals) (some tol) then
      match (if full then S.jac x else fixed) with
      | none => some Res.throws
      | some solve =>
        let step := S.neg (solve vals)
        let cand := S.move x 1 step
        let candVals := S.evaluate cand
        match lineSearch S solve x step (S.normX step) fuel 1 cand candVals
            (S.normX (S.neg (solve candVals))) with
        | none => none
        | some Res.throws => some Res.throws
        | some Res.ub => some Res.ub
        | some (Res.ok (_, x', vals')) =>
          iterate S tol full fuel fixed n x' vals'
            { sol with used := sol.used + 1, residual := S.normY vals' }
    else some (Res.ok (x, sol))

/-- `Newtonsolver::solve` — `Newtonsolver.cpp` 63-163. The result holds the final `new_state`.
`maxIter` is an `int` and may be negative. (In release builds `newjac` only decides how the matrix
is filled, see `Verif.Handler`.) -/
def solve (S : System X Y K) (tol : K) (maxIter : ℤ) (full : Bool) (fuel : ℕ) (x : X) :
    Option (Res (X × Sol K)) :=
  let vals := S.evaluate x
  if le (S.normY vals) (some tol) then
    some (Res.ok (x, ⟨true, S.normY vals, 0⟩))
  else
    let fixed := if full then none else S.jac x
    if !full && fixed.isNone then some Res.throws
    else
      match iterate S tol full fuel fixed maxIter.toNat x vals Sol.default with
      | some (Res.ok (x', sol)) =>
        some (Res.ok (x', { sol with
          success := !(decide ((sol.used : ℤ) = maxIter) && gt sol.residual (some tol)) }))
      | o => o

end Verif.Newton
