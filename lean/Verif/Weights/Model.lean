import Verif.Basic.Res
import Mathlib.Algebra.Order.Field.Basic

/-!
# Model of `make_objective_function_coefficients`

Source: `/repo/src/IpoptWrapper/ImplicitOptimizer.cpp`.
-/

set_option autoImplicit false

namespace Verif.Weights

variable {K : Type*} [Field K]

/-- `make_objective_function_coefficients` — `ImplicitOptimizer.cpp` 32-51. A single time point gets
weight 1; an empty list is rejected by an `assert` only (undefined behaviour otherwise). The three
writes (first entry, loop over the interior, last entry) are given as cases of the index. -/
def weights (ts : List K) : Res (List K) :=
  if h1 : ts.length = 1 then Res.ok [1]
  else if h : 2 ≤ ts.length then
    Res.ok (List.ofFn fun i : Fin ts.length =>
      if i.val + 1 = ts.length then
        1 / 2 * (ts[ts.length - 1] - ts[ts.length - 1 - 1])
      else if i.val = 0 then 1 / 2 * (ts[1] - ts[0])
      else if h' : i.val + 1 < ts.length then 1 / 2 * (ts[i.val + 1] - ts[i.val - 1])
      else 0)
  else Res.ub

/-- The cost loop of `evaluate_cost` / `evaluate_penalty` — `ImplicitOptimizer.cpp` 247-256, 286-295:
starting at time index 1, weight times value is accumulated. `c i` stands for the problem's value
at time index `i`; `n` is the number of states. -/
def accumulate (w : ℕ → K) (c : ℕ → K) (n : ℕ) : K :=
  ((List.range' 1 (n - 1)).foldl (fun acc i => acc + w i * c i) 0)

end Verif.Weights
