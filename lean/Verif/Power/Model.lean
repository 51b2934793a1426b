import Verif.Net.Vector
import Mathlib.Analysis.SpecialFunctions.Trigonometric.Deriv

/-!
# Model of the power grid and of its connection to the gas network

Sources: `/repo/src/Model/Networkproblem/Power/`, `/repo/src/Model/Networkproblem/Gaspowerconnection/`. A power
node is modelled by the index of its first state (voltage; the angle is the next one), its admittance and
the data of the attached lines.
-/

set_option autoImplicit false

namespace Verif.Power

open Verif.Net Verif.Handler

/-- An element of `attached_component_data` — `Powernode.hpp` 79-80: conductance and susceptance of the line, and the
first state index of the node at its other end. -/
structure Line where
  G : ℝ
  B : ℝ
  other : ℤ

/-- `Powernode` — `Powernode.hpp` 28-83. -/
structure Bus where
  first : ℤ
  G : ℝ
  B : ℝ
  lines : List Line

noncomputable section

open Real

/-- `Powernode::P` — `Powernode.cpp` 131-153. -/
def activePower (b : Bus) (state : Vec) : ℝ :=
  let V := state b.first
  let phi := state (b.first + 1)
  b.lines.foldl (fun P l =>
    P + V * state l.other * (l.G * cos (phi - state (l.other + 1)) + l.B * sin (phi - state (l.other + 1))))
    (0 + b.G * V * V)

/-- `Powernode::Q` — `Powernode.cpp` 155-177. -/
def reactivePower (b : Bus) (state : Vec) : ℝ :=
  let V := state b.first
  let phi := state (b.first + 1)
  b.lines.foldl (fun Q l =>
    Q + V * state l.other * (l.G * sin (phi - state (l.other + 1)) - l.B * cos (phi - state (l.other + 1))))
    (0 - b.B * V * V)

/-- `Powernode::evaluate_P_derivative` — `Powernode.cpp` 179-215. -/
def dActive (b : Bus) (row : ℤ) (state : Vec) : List (Contribution ℝ) :=
  let V := state b.first
  let phi := state (b.first + 1)
  (row, b.first, 2 * b.G * V) :: (row, b.first + 1, 0) :: b.lines.flatMap fun l =>
    let Vk := state l.other
    let d := phi - state (l.other + 1)
    [(row, b.first, Vk * (l.G * cos d + l.B * sin d)),
     (row, b.first + 1, V * Vk * (-l.G * sin d + l.B * cos d)),
     (row, l.other, V * (l.G * cos d + l.B * sin d)),
     (row, l.other + 1, V * Vk * (l.G * sin d - l.B * cos d))]

/-- `Powernode::evaluate_Q_derivative` — `Powernode.cpp` 217-252. -/
def dReactive (b : Bus) (row : ℤ) (state : Vec) : List (Contribution ℝ) :=
  let V := state b.first
  let phi := state (b.first + 1)
  (row, b.first, -2 * b.B * V) :: (row, b.first + 1, 0) :: b.lines.flatMap fun l =>
    let Vk := state l.other
    let d := phi - state (l.other + 1)
    [(row, b.first, Vk * (l.G * sin d - l.B * cos d)),
     (row, b.first + 1, V * Vk * (l.G * cos d + l.B * sin d)),
     (row, l.other, V * (l.G * sin d - l.B * cos d)),
     (row, l.other + 1, V * Vk * (-l.G * cos d - l.B * sin d))]

/-- The types of power nodes. An `ExternalPowerplant` has the equations of a `Vphinode`. -/
inductive Kind
  | pq
  | pv
  | vphi
  deriving DecidableEq

/-- `evaluate` — `PQnode.cpp` 28-36, `PVnode.cpp` 27-36, `Vphinode.cpp` 28-37, `ExternalPowerplant.cpp` 54-65. -/
def busEvaluate (kind : Kind) (b : Bus) (boundary : ℝ × ℝ) (state : Vec) : List Op :=
  match kind with
  | .pq => [.set b.first (activePower b state - boundary.1),
            .set (b.first + 1) (reactivePower b state - boundary.2)]
  | .pv => [.set b.first (activePower b state - boundary.1),
            .set (b.first + 1) (state b.first - boundary.2)]
  | .vphi => [.set b.first (state b.first - boundary.1),
              .set (b.first + 1) (state (b.first + 1) - boundary.2)]

/-- `d_evaluate_d_new_state` — `PQnode.cpp` 40-52, `PVnode.cpp` 40-52, `Vphinode.cpp` 39-49,
`ExternalPowerplant.cpp` 67-78. -/
def busNew (kind : Kind) (b : Bus) (state : Vec) : List (Contribution ℝ) :=
  match kind with
  | .pq => dActive b b.first state ++ dReactive b (b.first + 1) state
  | .pv => dActive b b.first state ++ [(b.first + 1, b.first, 1)]
  | .vphi => [(b.first, b.first, 1), (b.first + 1, b.first + 1, 1)]

/-! ## Gas to power -/

/-- `kappa` — `Gaspowerconnection.hpp` 92. -/
def kappa : ℝ := 60

/-- `Aux::EPSILON` — `Mathfunctions.cpp` 26. -/
def epsilon : ℝ := 1e-10

/-- The two coefficients of a connection. -/
structure Coefficients where
  gas2power : ℝ
  power2gas : ℝ

/-- `smoothing_polynomial` — `Gaspowerconnection.cpp` 164-176. -/
def smoothing (c : Coefficients) (q : ℝ) : Res ℝ :=
  if q > kappa + epsilon ∨ q < -kappa - epsilon then Res.throws
  else
    let rel := q / kappa
    Res.ok (q * (0.5 * (c.gas2power + c.power2gas) - 0.75 * (c.power2gas - c.gas2power) * rel
      + 0.25 * (c.power2gas - c.gas2power) * rel * rel * rel))

/-- `dsmoothing_polynomial_dq` — `Gaspowerconnection.cpp` 177-188. -/
def dSmoothing (c : Coefficients) (q : ℝ) : Res ℝ :=
  if q > kappa + epsilon ∨ q < -kappa - epsilon then Res.throws
  else
    let rel := q / kappa
    Res.ok (0.5 * (c.gas2power + c.power2gas) - 1.5 * (c.power2gas - c.gas2power) * rel
      + (c.power2gas - c.gas2power) * rel * rel * rel)

/-- `generated_power` — `Gaspowerconnection.cpp` 190-198. -/
def generated (c : Coefficients) (q : ℝ) : Res ℝ :=
  if q > kappa then Res.ok (c.gas2power * q)
  else if q < -kappa then Res.ok (c.power2gas * q)
  else smoothing c q

/-- `dgenerated_power_dq` — `Gaspowerconnection.cpp` 199-207. -/
def dGenerated (c : Coefficients) (q : ℝ) : Res ℝ :=
  if q > kappa then Res.ok c.gas2power
  else if q < -kappa then Res.ok c.power2gas
  else dSmoothing c q

/-- `Gaspowerconnection::evaluate` — `Gaspowerconnection.cpp` 61-68; `first` is its first state index, `b` the power
plant at its end. -/
def connectionEvaluate (first : ℤ) (c : Coefficients) (b : Bus) (state : Vec) : Res (List Op) := do
  let g ← generated c (state (first + 1))
  Res.ok [.set (first + 1) (activePower b state - g)]

/-- `Gaspowerconnection::d_evaluate_d_new_state` — `Gaspowerconnection.cpp` 70-82. -/
def connectionNew (first : ℤ) (c : Coefficients) (b : Bus) (state : Vec) : Res (List (Contribution ℝ)) := do
  let g ← dGenerated c (state (first + 1))
  Res.ok ((first + 1, first + 1, -g) :: dActive b (first + 1) state ++ [(b.first, first, 0)])

end

end Verif.Power
