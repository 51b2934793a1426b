import Verif.Interp.Model

/-!
# Model of `Optimization::compute_index_lambda`

Source: `/repo/src/Optimization_helpers/Optimization_helpers.cpp`.
-/

set_option autoImplicit false

namespace Verif.IndexLambda

open Verif.Interp

variable {K : Type*} [Field K] [LinearOrder K]

/-- `compute_index_lambda` — `Optimization_helpers.cpp` 26-57.  The `assert`s (lines 28-31) are off in
release builds and not modelled; dereferencing the end iterator is undefined behaviour. -/
def computeIndexLambda (timepoints : List K) (time : K) : Res (ℕ × K) :=
  match timepoints.getLast? with
  | none => Res.ub
  | some back =>
    if back < time ∧ time < back + EPSILON then Res.ok (timepoints.length - 1, 1)
    else do
      let iUpper := lowerBound timepoints time
      let timeUpper ← Res.get timepoints iUpper
      if iUpper = 0 then Res.ok (iUpper, 1)
      else
        let timeLower ← Res.get timepoints (iUpper - 1)
        Res.ok (iUpper, (time - timeLower) / (timeUpper - timeLower))

/-- `compute_index_lambda_vector` — `Optimization_helpers.cpp` 59-70: one pair per fine time. -/
def computeIndexLambdaVector (coarse : List K) : List K → Res (List (ℕ × K))
  | [] => Res.ok []
  | t :: ts => do
    let p ← computeIndexLambda coarse t
    let ps ← computeIndexLambdaVector coarse ts
    Res.ok (p :: ps)

end Verif.IndexLambda
