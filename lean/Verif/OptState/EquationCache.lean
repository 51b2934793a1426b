import Verif.Handler.Model
import Verif.Interp.Model

/-!
# Model of the cache for derivatives of the equations

Source: `/repo/src/Optimization_helpers/EquationDerivativeCache.cpp`. The file is commented out in its `CMakeLists.txt`, and the names of two
members of `Cacheentry` have changed since: the code compares with `entry.state_interpolation_points`, a vector of times; the member is called
`state_timepoints` now. It is modelled as it is written.

Functions that change the cache return it also if they end with an exception. An `assert` that fails ends the program (`Res.throws`) if
`asserts = true` and is not there otherwise; the checks of indices in the handlers and of Eigen are undefined behaviour as in `Verif.Handler`.
-/

set_option autoImplicit false

namespace Verif.OptState

open Verif.Handler Verif.Interp

variable {K : Type} [Field K] [LinearOrder K]

/-- The calls of `add_to_coefficient` in `d_evaluate_d_new_state`, `d_evaluate_d_last_state` and `d_evaluate_d_control` of the problem, for the last and the
new time, the last and the new state and the control. Contributions before an exception are left out. -/
structure Equations (K : Type) where
  new : K → K → List K → List K → List K → Res (List (Contribution K))
  last : K → K → List K → List K → List K → Res (List (Contribution K))
  control : K → K → List K → List K → List K → Res (List (Contribution K))

/-- The members — `EquationDerivativeCache.hpp` 80-103, `Cacheentry.hpp` 23-27. A solver (`Eigen::SparseLU`) is what was analysed and the matrix that was
factorized; `none` before. -/
structure EquationCache (K : Type) where
  controls : IV K
  times : List K
  initial : List K
  solvers : List (Option (List (ℤ × ℤ) × Sparse K))
  newMatrix : Sparse K
  last : List (Sparse K)
  control : List (Sparse K)
  initialized : Bool

/-- The constructor — `EquationDerivativeCache.cpp` 33-41. -/
def EquationCache.construct (number : ℤ) : Res (EquationCache K) :=
  if number < 2 then Res.throws
  else Res.ok ⟨⟨[], 0, []⟩, [], [], List.replicate number.toNat none, ⟨0, 0, []⟩, List.replicate number.toNat ⟨0, 0, []⟩,
    List.replicate number.toNat ⟨0, 0, []⟩, false⟩

/-- What the problem is asked for in one time step — `EquationDerivativeCache.cpp` 82-94 and 162-174. -/
def stepInput (eqs : Equations K) (controls states : IV K) (i : ℕ) :
    Res (List (Contribution K) × List (Contribution K) × List (Contribution K)) := do
  let newTime ← interpolationPointAtIndex states i
  let lastTime ← interpolationPointAtIndex states (i - 1)
  let newState ← vectorAtIndex states i
  let lastState ← vectorAtIndex states ((i : ℤ) - 1)
  let control ← eval controls newTime
  let a ← eqs.new lastTime newTime lastState newState control
  let b ← eqs.last lastTime newTime lastState newState control
  let d ← eqs.control lastTime newTime lastState newState control
  Res.ok (a, b, d)

/-- One pass of the loop in `initialize_derivatives` — `EquationDerivativeCache.cpp` 56-107. `resize` drops all entries. The constructor of
`Triplethandler` asserts that its matrix is empty, `Matrixhandler.cpp` 28. -/
def initStep (asserts : Bool) (eqs : Equations K) (controls states : IV K) (c : EquationCache K) (i : ℕ) : Res Unit × EquationCache K :=
  if c.solvers.length ≤ i ∨ c.last.length ≤ i ∨ c.control.length ≤ i then (Res.ub, c)
  else
    let empty : Sparse K := ⟨states.inner, states.inner, []⟩
    let c1 := { c with last := c.last.set i empty, control := c.control.set i empty }
    if asserts && !c.newMatrix.stored.isEmpty then (Res.throws, c1)
    else
      match stepInput eqs controls states i with
      | .throws => (Res.throws, c1)
      | .ub => (Res.ub, c1)
      | .ok (a, b, d) =>
        match fill .triplet false empty b, fill .triplet false empty d, fill .triplet false c.newMatrix a with
        | .ok l, .ok u, .ok m =>
          (Res.ok (), { c with last := c.last.set i l, control := c.control.set i u, newMatrix := m,
                               solvers := c.solvers.set i (some (m.stored.map Prod.fst, m)) })
        | _, _, _ => (Res.ub, c1)

/-- The zero matrix with the same stored positions — `Matrixhandler.cpp` 55-63. -/
def zeroed (m : Sparse K) : Sparse K := { m with stored := m.stored.map fun e => (e.1, 0) }

/-- One pass of the loop in `update_derivatives` — `EquationDerivativeCache.cpp` 123-184. `factorize` of Eigen needs a matrix with the positions that
were analysed. The assertions about the dimensions are left out. -/
def updateStep (eqs : Equations K) (controls states : IV K) (c : EquationCache K) (i : ℕ) : Res Unit × EquationCache K :=
  match c.last[i]?, c.control[i]?, c.solvers[i]? with
  | some l0, some u0, some s0 =>
    let c1 := { c with last := c.last.set i (zeroed l0), control := c.control.set i (zeroed u0), newMatrix := zeroed c.newMatrix }
    match stepInput eqs controls states i with
    | .throws => (Res.throws, c1)
    | .ub => (Res.ub, c1)
    | .ok (a, b, d) =>
      match fill .coeffref false l0 b, fill .coeffref false u0 d, fill .coeffref false c.newMatrix a, s0 with
      | .ok l, .ok u, .ok m, some (analysed, _) =>
        if (∀ p ∈ analysed, p ∈ m.stored.map Prod.fst) ∧ ∀ p ∈ m.stored.map Prod.fst, p ∈ analysed then
          (Res.ok (), { c with last := c.last.set i l, control := c.control.set i u, newMatrix := m,
                               solvers := c.solvers.set i (some (analysed, m)) })
        else (Res.ub, c1)
      | _, _, _, _ => (Res.ub, c1)
  | _, _, _ => (Res.ub, c)

/-- The loops over the time steps — `EquationDerivativeCache.cpp` 56 and 123. -/
def loop (step : EquationCache K → ℕ → Res Unit × EquationCache K) : EquationCache K → List ℕ → Res Unit × EquationCache K
  | c, [] => (Res.ok (), c)
  | c, i :: is =>
    match step c i with
    | (.ok (), c') => loop step c' is
    | r => r

/-- The check whether the cache holds the derivatives — `EquationDerivativeCache.cpp` 194-197. Eigen's `==` needs vectors of the same length. -/
def hit (c : EquationCache K) (controls states : IV K) : Res Bool := do
  let same ← ivEq controls c.controls
  if same then
    let initial ← vectorAtIndex states 0
    if initial.length ≠ c.initial.length then Res.ub
    else Res.ok (decide (initial = c.initial ∧ states.points = c.times))
  else Res.ok false

/-- `compute_derivatives` — `EquationDerivativeCache.cpp` 187-211, with the beginnings of `initialize_derivatives` (43-54 and 109) and `update_derivatives`
(112-121). The returned references refer to the members of the cache. A loop from 1 to another number than 0 ends only if there is a state. -/
def computeEquations (asserts : Bool) (eqs : Equations K) (c : EquationCache K) (controls states : IV K) : Res Unit × EquationCache K :=
  match hit c controls states with
  | .throws => (Res.throws, c)
  | .ub => (Res.ub, c)
  | .ok true => (Res.ok (), c)
  | .ok false =>
    if asserts && (decide (c.solvers.length ≠ states.points.length)) then (Res.throws, c)
    else if states.points.length = 0 then (Res.ub, c)
    else
      let steps := List.range' 1 (states.points.length - 1)
      let r :=
        if c.initialized then loop (updateStep eqs controls states) c steps
        else
          let r := loop (initStep asserts eqs controls states) { c with newMatrix := ⟨states.inner, states.inner, []⟩ } steps
          match r with
          | (.ok (), c') => (Res.ok (), { c' with initialized := true })
          | r => r
      match r with
      | (.ok (), c') =>
        match vectorAtIndex states 0 with
        | .ok initial => (Res.ok (), { c' with controls := controls, times := states.points, initial := initial })
        | .throws => (Res.throws, c')
        | .ub => (Res.ub, c')
      | r => r

end Verif.OptState
