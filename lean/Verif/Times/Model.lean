import Verif.Interp.Model
import Mathlib.Algebra.Order.Floor.Defs

/-!
# Model of `Model::Timedata` and of the state and control time grids

Sources: `/repo/src/Auxillary/Timedata/Timedata.cpp`, `/repo/src/Grazer/commands.cpp`,
`/repo/src/Grazer/helpers.cpp`.
-/

set_option autoImplicit false

namespace Verif.Times

open Verif.Interp

variable {K : Type} [Field K] [LinearOrder K] [FloorRing K]

/-- `init_Number_of_timesteps` — `Timedata.cpp` 30-34. Division by the wished step 0 gives an infinite
value or NaN, whose conversion to `int` is undefined behaviour. (Overflow of `int` is not modelled.) -/
def numberOfTimesteps (start desired stop : K) : Res ℤ :=
  if desired = 0 then Res.ub else Res.ok (⌈(stop - start) / desired⌉ + 1)

/-- A floating point quotient with a possibly vanishing denominator: `finite q`, or positive or
negative infinity, or NaN. -/
inductive Quot (K : Type) where
  | finite (q : K)
  | posInf
  | negInf
  | nan
  deriving DecidableEq

/-- `init_delta_t` — `Timedata.cpp` 44-46. -/
def deltaT (start stop : K) (number : ℤ) : Quot K :=
  if number = 1 then
    if 0 < stop - start then .posInf else if stop - start < 0 then .negInf else .nan
  else .finite ((stop - start) / ((number - 1 : ℤ) : K))

/-- `make_from_start_delta_end` for a step that need not be finite — `InterpolatingVector.cpp` 76-110;
the finite case is `makeFromStartDeltaEnd`. An infinite positive step passes both checks; then
`ceil(0) + 1 = 1` entry is made, whose point is the start. NaN passes the second check, but its
conversion to `size_t` is undefined behaviour. -/
def gridFromDelta (start : K) (delta : Quot K) (stop : K) : Res (List K) :=
  match delta with
  | .finite d => do
    let data ← makeFromStartDeltaEnd start d stop
    Res.ok (equidistantPoints data)
  | .posInf => if stop ≤ start then Res.throws else Res.ok [start]
  | .negInf => Res.throws
  | .nan => if stop ≤ start then Res.throws else Res.ub

/-- The time points of the simulation — `commands.cpp` 77, 93-98. -/
def stateGrid (start desired stop : K) : Res (List K) := do
  let number ← numberOfTimesteps start desired stop
  gridFromDelta start (deltaT start stop number) stop

/-- The object `control_settings` of the problem file: each of its two keys may be there or not. -/
structure ControlSettings (K : Type) where
  desiredDelta : Option K
  numberOfSteps : Option ℤ

/-- The time points of the controls — `helpers.cpp` 24-64. A single control time (`number_of_steps` 1) is
taken out of `makeFromStartNumberEnd`: the step is then infinite (`InterpolatingVector.cpp` 50) and
never used, the grid is the start alone. -/
def controlGrid (start desired stop : K) (settings : Option (ControlSettings K)) : Res (List K) :=
  match settings with
  | some ⟨some _, some _⟩ => Res.throws
  | some ⟨some d, none⟩ => do
    let data ← makeFromStartDeltaEnd start d stop
    Res.ok (equidistantPoints data)
  | some ⟨none, some n⟩ => if n = 1 then (if stop ≤ start then Res.throws else Res.ok [start]) else do
    let data ← makeFromStartNumberEnd start stop n
    Res.ok (equidistantPoints data)
  | some ⟨none, none⟩ => Res.throws
  | none => do
    let number ← numberOfTimesteps start desired stop
    gridFromDelta start (deltaT start stop number) stop

end Verif.Times
