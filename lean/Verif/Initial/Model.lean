import Verif.Json.Ids
import Verif.Interp.Model

/-!
# Model of loading initial values, controls and bounds

Sources: `/repo/src/Model/Networkproblem/Networkproblem.cpp`,
`/repo/src/Model/Networkproblem/Componentclasses/SimpleStatecomponent.cpp`, `SimpleControlcomponent.cpp` and
`SimpleConstraintcomponent.cpp`.
-/

set_option autoImplicit false

namespace Verif.Initial

open Verif.Json Verif.Interp

/-- The loop of `check_components_in_json` — `Networkproblem.cpp` 71-111, over the sorted ids of the components and those
in the json, from the current positions on: the ids listed in the error message and in the warning. -/
def compareIds : List String → List String → List String × List String
  | ids, [] => (ids, [])
  | [], json => ([], json)
  | a :: ids, b :: json =>
    if b < a then
      let r := compareIds (a :: ids) json
      (r.1, b :: r.2)
    else if a < b then
      let r := compareIds ids (b :: json)
      (a :: r.1, r.2)
    else compareIds ids json
  termination_by ids json => ids.length + json.length

/-- `check_components_in_json` — 59-121: the ids listed in the warning, or an exception. -/
def checkComponents (ids : List String) (json : Json) : Res (List String) := do
  let jsonIds ← sortedIds json
  let r := compareIds (ids.insertionSort (· ≤ ·)) jsonIds
  if r.1.isEmpty then Res.ok r.2 else Res.throws

variable {K : Type} [Field K] [LinearOrder K]

/-- Assignment to a segment of a vector. Writing out of range or values of another length is an assertion failure, that is
undefined behaviour in release builds. -/
def assign (vector : List K) (start len : ℕ) (w : List K) : Res (List K) :=
  if start + len ≤ vector.length ∧ w.length = len then Res.ok (writeSegment vector start w) else Res.ub

/-- What is needed of a state component to set its initial values. `read` is validation and
`construct_from_json`, `convert` is the converter function. -/
structure StateComponent (K : Type) where
  id : String
  start : ℕ
  states : ℕ
  points : ℕ
  dx : K
  convert : List K → Res (List K)
  read : Json → Res (IV K)

/-- The loop of `set_simple_initial_values` — `SimpleStatecomponent.cpp` 54-58, from point `i` on with `n` points left. -/
def setPoints (c : StateComponent K) (v : IV K) (i : ℕ) (vector : List K) : ℕ → Res (List K)
  | 0 => Res.ok vector
  | n + 1 => do
    let x ← eval v ((i : K) * c.dx)
    let w ← c.convert x
    let vector' ← assign vector (c.start + i * v.inner) v.inner w
    setPoints c v (i + 1) vector' n

/-- `set_simple_initial_values` — 31-59. `Pipe::set_initial_values`, `Shortcomponent::set_initial_values`,
`Gaspowerconnection::set_initial_values` and `Powernode::set_initial_values` are calls with the number of points, 2, 1 and 1. -/
def setInitial (c : StateComponent K) (vector : List K) (json : Json) : Res (List K) := do
  let v ← c.read json
  if c.states < v.inner * c.points then Res.throws
  else setPoints c v 0 vector c.points

/-- Setting the values of the component with the id of an entry, if there is one — `Networkproblem.cpp` 208-215. -/
def setEntry (cs : List (StateComponent K)) (vector : List K) (json : Json) : Res (List K) := do
  let i ← json.index "id"
  let id ← i.getStr
  match cs.find? fun c => id == c.id with
  | some c => setInitial c vector json
  | none => Res.ok vector

/-- `Networkproblem::set_initial_values` — 197-219. -/
def setInitialValues (cs : List (StateComponent K)) (vector : List K) (json : Json) : Res (List K) := do
  let _ ← checkComponents (cs.map StateComponent.id) json
  Res.fold (components json) vector (setEntry cs)

/-- What is needed of a control component. -/
structure ControlComponent (K : Type) where
  id : String
  start : ℕ
  read : Json → Res (IV K)

/-- The loop of `set_simple_control_values` — `SimpleControlcomponent.cpp` 34-42, over the time points of the vector of
controls. -/
def setTimes (c : ControlComponent K) (v : IV K) (i : ℕ) (controls : IV K) : List K → Res (IV K)
  | [] => Res.ok controls
  | t :: times => do
    let w ← eval v t
    let old ← vectorAtIndex controls i
    let new ← assign old c.start v.inner w
    let controls' ← writeTimestep controls i new
    setTimes c v (i + 1) controls' times

/-- `set_simple_control_values` — 21-43, and `set_simple_constraint_values` — `SimpleConstraintcomponent.cpp` 21-42. -/
def setControl (c : ControlComponent K) (controls : IV K) (json : Json) : Res (IV K) := do
  let v ← c.read json
  setTimes c v 0 controls controls.points

/-- Setting the values of the component with the id of an entry — `Networkproblem.cpp` 317-324. -/
def setControlEntry (cs : List (ControlComponent K)) (controls : IV K) (json : Json) : Res (IV K) := do
  let i ← json.index "id"
  let id ← i.getStr
  match cs.find? fun c => id == c.id with
  | some c => setControl c controls json
  | none => Res.ok controls

/-- `set_initial_controls` — 304-328, and in the same way `set_lower_bounds` and `set_upper_bounds` — 330-380. -/
def setInitialControls (cs : List (ControlComponent K)) (controls : IV K) (json : Json) : Res (IV K) := do
  let _ ← checkComponents (cs.map ControlComponent.id) json
  Res.fold (components json) controls (setControlEntry cs)

end Verif.Initial
