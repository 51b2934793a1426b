import Verif.Basic.Res
import Mathlib.Analysis.Real.Sqrt
import Mathlib.Algebra.Order.Floor.Ring
import Mathlib.Algebra.Order.Archimedean.Real.Basic

/-!
# Model of the stochastic power demand

`src/Auxillary/Stochastics/` and `src/Model/Networkproblem/Power/StochasticPQnode.cpp`. Numbers are real. The random
number generator is arbitrary: a type of states and a function that draws a number with given mean and standard
deviation, about which nothing is assumed. Whatever is proved below thus holds for every random sequence.
-/

set_option autoImplicit false

namespace Verif.Stochastic

/-- A random number generator: `Normaldistribution` — `Normaldistribution.cpp` 48-63. Drawing a number with a mean and a
standard deviation gives a number and the next state. -/
abbrev Generator (State : Type) := State → ℝ → ℝ → ℝ × State

section
variable {State : Type}

open Classical in
/-- The loop in `Truncatednormaldist::get_sample` — `Normaldistribution.cpp` 75-80. The first argument is how many
rounds are left. -/
noncomputable def sampleLoop (normal : Generator State) (mean deviation lower upper : ℝ) :
    ℕ → ℝ → State → Res (ℝ × State)
  | 0, _, _ => Res.throws
  | rounds + 1, sample, s =>
    if sample ≥ lower ∧ sample ≤ upper then Res.ok (sample, s)
    else sampleLoop normal mean deviation lower upper rounds (normal s mean deviation).1 (normal s mean deviation).2

/-- `maximum_number_of_trials` — `Normaldistribution.cpp` 73. -/
def maximumNumberOfTrials : ℕ := 100000

/-- `Truncatednormaldist::get_sample` with four arguments — `Normaldistribution.cpp` 70-99. -/
noncomputable def getSample (normal : Generator State) (mean deviation lower upper : ℝ) (s : State) :
    Res (ℝ × State) :=
  sampleLoop normal mean deviation lower upper maximumNumberOfTrials (normal s mean deviation).1
    (normal s mean deviation).2

/-- `Truncatednormaldist::get_sample` with one argument — `Normaldistribution.cpp` 114-119. -/
noncomputable def getSample1 (normal : Generator State) (deviation : ℝ) (s : State) : Res (ℝ × State) :=
  getSample normal 0 deviation (0 - 2 * deviation) (0 + 2 * deviation) s

open Classical in
/-- `sgn` — `Stochastic.hpp` 22. -/
noncomputable def sgn (x : ℝ) : ℝ := (if 0 < x then 1 else 0) - (if x < 0 then 1 else 0)

/-- The greatest `int`. -/
def intMax : ℤ := 2147483647

/-- `static_cast<int>(std::ceil(x)) + 1`: undefined if the result is not an `int`. -/
noncomputable def ceilPlusOne (x : ℝ) : Res ℤ := if ⌈x⌉ + 1 ≤ intMax then Res.ok (⌈x⌉ + 1) else Res.ub

open Classical in
/-- `theta * stochastic_stepsize >= stability_parameter` — `Stochastic.cpp` 32, 45. If the number of steps is zero, the
step size is infinite or not a number. -/
noncomputable def unstable (a theta dt : ℝ) (n : ℤ) : Prop :=
  if n = 0 then 0 < theta ∧ 0 < dt else theta * (dt / n) ≥ a

open Classical in
/-- `compute_stable_number_of_oup_steps` — `Stochastic.cpp` 23-51. (Negative results of `ceil` don't occur, as then the
condition is false.) -/
noncomputable def stableNumber (a theta dt : ℝ) (n : ℤ) : Res ℤ :=
  if a ≤ 0 ∨ a ≥ 2 then Res.throws
  else if theta < 0 then Res.throws
  else if n < 0 then Res.throws
  else if unstable a theta dt n then ceilPlusOne (theta * dt / a)
  else Res.ok n

/-- What the cut off makes of a value — `Stochastic.hpp` 63-68. -/
noncomputable def cutOff (factor mu value : ℝ) : ℝ :=
  open Classical in
  if sgn mu * value < (1 - factor) * sgn mu * mu then (1 - factor) * mu
  else if sgn mu * value > (1 + factor) * sgn mu * mu then (1 + factor) * mu
  else value

/-- One sub-step without the cut off — `Stochastic.hpp` 60-62. -/
noncomputable def drift (theta mu h sigma noise value : ℝ) : ℝ := value + theta * (mu - value) * h + sigma * noise

/-- The loop of `euler_maruyama_oup` — `Stochastic.hpp` 59-69. -/
noncomputable def oupLoop (sample : ℝ → State → Res (ℝ × State)) (factor theta mu h sigma : ℝ) :
    ℕ → ℝ → State → Res (ℝ × State)
  | 0, value, s => Res.ok (value, s)
  | rounds + 1, value, s => do
    let (noise, s') ← sample (Real.sqrt h) s
    oupLoop sample factor theta mu h sigma rounds (cutOff factor mu (drift theta mu h sigma noise value)) s'

/-- `euler_maruyama_oup` — `Stochastic.hpp` 50-71. -/
noncomputable def oup (sample : ℝ → State → Res (ℝ × State)) (a factor last theta mu dt sigma : ℝ) (n : ℤ) (s : State) :
    Res (ℝ × State) := do
  let m ← stableNumber a theta dt n
  oupLoop sample factor theta mu (dt / m) sigma m.toNat last s

end

/-! ## What is written to the output -/

/-- What happens to a node while the program runs: before each time step the demand is chosen
(`StochasticPQnode::prepare_timestep` — `StochasticPQnode.cpp` 89-107), and it is saved together with the state
(`StochasticPQnode::json_save` — `StochasticPQnode.cpp` 150-168). -/
inductive Call
  | prepare (demand : ℝ)
  | save (step : ℕ)

/-- The entries of the output: step and demand. The current demand is a member of the node, `current_P` (or
`current_Q`), at first not a number (`none`). -/
def execute : Option ℝ → List Call → List (ℕ × Option ℝ)
  | _, [] => []
  | _, .prepare demand :: calls => execute (some demand) calls
  | current, .save step :: calls => (step, current) :: execute current calls

/-- The calls made by `grazer::run` — `commands.cpp` 122-128 — when the demands of the time steps are the given ones: at
first the whole simulation, then the output of all states. -/
def runCalls (demands : List ℝ) : List Call :=
  demands.map .prepare ++ (List.range (demands.length + 1)).map .save

end Verif.Stochastic
