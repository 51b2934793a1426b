import Verif.Schema.Model
import Verif.Initial.Model
import Verif.Helpers.Statistics

/-!
# Model of the output of states and controls, and of extracting new initial values from it

Sources: `/repo/src/Grazer/commands.cpp`, `/repo/src/Model/Networkproblem/Networkproblem.cpp`, the components in
`/repo/src/Model/Networkproblem/` and `/repo/helper_functions/extract_new_initial_condition.cpp`.
-/

set_option autoImplicit false

namespace Verif.Output

open Verif.Json Verif.Interp

/-- `push_back`: null becomes an array. -/
def push (j v : Json) : Res Json :=
  match j with
  | null => Res.ok (arr [v])
  | arr l => Res.ok (arr (l ++ [v]))
  | _ => Res.throws

/-- `j[key]` that may be changed: a missing key gives null. -/
def access (j : Json) (key : String) : Res Json :=
  match j with
  | null => Res.ok null
  | obj m => Res.ok ((m.lookup key).getD null)
  | _ => Res.throws

/-- `j[key].push_back(v)`. -/
def pushTo (j : Json) (key : String) (v : Json) : Res Json := do
  let l ← access j key
  let l' ← push l v
  j.set key l'

/-- How numbers appear in a file: the number that is read when the digits written for a number are read again. -/
class Printed (K : Type) where
  value : K → ℚ

/-- Rational numbers stand for numbers that can be written exactly. -/
instance : Printed ℚ := ⟨fun x => x⟩

/-- A number in a json. -/
abbrev number {K : Type} [Printed K] (x : K) : Json := num (Printed.value x)

/-- The kinds of components with states, with what they need for their output. `report` gives the names and values of the
powers reported at a time for a state, if boundary values have a value at this time; `bar` and `density` convert a density to
a pressure in bar and back. -/
inductive Kind (K : Type)
  | power (report : K → List K → Res (List (String × K)))
  | connection
  | short
  | pipe (points : ℕ) (dx : K) (bar density : K → K)

/-- A component with states: its class ("nodes" or "connections"), type, and the index of its first state. -/
structure Component (K : Type) where
  id : String
  cls : String
  type : String
  start : ℕ
  kind : Kind K

section
variable {K : Type} [Field K] [Printed K]

/-- The number of states: `needed_number_of_states` — `Powernode.cpp` 64-66, `Gaspowerconnection.cpp` 110,
`Shortcomponent.cpp` 41-43, `Pipe.cpp` 194-196. -/
def states : Kind K → ℕ
  | .power _ => 2
  | .connection => 2
  | .short => 4
  | .pipe n _ _ _ => 2 * n

/-- A point with a value — `Pipe.cpp` 217-223. -/
def valueAt (x v : K) : Res Json := do
  let j ← null.set "x" (number x)
  j.set "value" (number v)

/-- The points, pressures and flows of a gas component: `Pipe.cpp` 210-216, `Shortcomponent.cpp` 51-69,
`Gaspowerconnection.cpp` 124-133. -/
def gasPoints (c : Component K) (state : List K) : Kind K → Res (List (K × K × K))
  | .power _ => Res.ok []
  | .connection => do
    let p ← Res.get state c.start
    let q ← Res.get state (c.start + 1)
    Res.ok [(0, p, q)]
  | .short => do
    let p ← Res.get state c.start
    let q ← Res.get state (c.start + 1)
    let p' ← Res.get state (c.start + 2)
    let q' ← Res.get state (c.start + 3)
    Res.ok [(0, p, q), (1, p', q')]
  | .pipe n dx bar _ => Res.each (List.range n) fun i => do
    let r ← Res.get state (c.start + 2 * i)
    let q ← Res.get state (c.start + 2 * i + 1)
    Res.ok ((i : K) * dx, bar r, q)

/-- The entry of a gas component — `Pipe::json_save`, `Pipe.cpp` 204-229, `Shortcomponent::json_save`,
`Shortcomponent.cpp` 45-74, `Gaspowerconnection::json_save`, `Gaspowerconnection.cpp` 118-137. (For short components all
pressures are added before the flows, which gives the same.) -/
def gasEntry (time : K) (points : List (K × K × K)) : Res Json := do
  let j ← null.set "time" (number time)
  Res.fold points j fun j x => do
    let p ← valueAt x.1 x.2.1
    let j ← pushTo j "pressure" p
    let q ← valueAt x.1 x.2.2
    pushTo j "flow" q

/-- The entry of a power node — `Powernode::json_save_power`, `Powernode.cpp` 117-129, and `StochasticPQnode::json_save`,
`StochasticPQnode.cpp` 150-168. (There, the deviations are set after the voltage.) -/
def powerEntry (time V phi : K) (powers : List (String × K)) : Res Json := do
  let j ← null.set "time" (number time)
  let j ← Res.fold powers j fun j x => j.set x.1 (number x.2)
  let j ← j.set "V" (number V)
  j.set "phi" (number phi)

/-- `json_save` of a component, without adding the entry to the list. -/
def saveEntry (c : Component K) (time : K) (state : List K) : Res Json :=
  match c.kind with
  | .power report => do
    let V ← Res.get state c.start
    let phi ← Res.get state (c.start + 1)
    let powers ← report time state
    powerEntry time V phi powers
  | k => do
    let points ← gasPoints c state k
    gasEntry time points

/-- `setup_output_json_helper` — `Statecomponent.cpp` 22-26. -/
def setupOutput (c : Component K) : Res Json := do
  let j ← null.set "id" (str c.id)
  j.set "data" (arr [])

/-- `Networkproblem::json_save` — `Networkproblem.cpp` 184-189, for all components with the output collected so far. -/
def saveAll (os : List (Component K × Json)) (save : K × List K) : Res (List (Component K × Json)) :=
  Res.each os fun o => do
    let e ← saveEntry o.1 save.1 save.2
    let j ← pushTo o.2 "data" e
    Res.ok (o.1, j)

/-- `add_results_to_json` of a component: `Pipe.cpp` 198-202, `Shortcomponent.cpp` 34-39, `Gaspowerconnection.cpp` 112-116,
`Powernode.cpp` 110-115. -/
def addResult (j : Json) (o : Component K × Json) : Res Json := do
  let types ← access j o.1.cls
  let types' ← pushTo types o.1.type o.2
  j.set o.1.cls types'

/-- The contents of the file states.json — `commands.cpp` 124-141, for the list of all times and states. -/
def statesJson (cs : List (Component K)) (saves : List (K × List K)) : Res Json := do
  let os ← Res.each cs fun c => do
    let j ← setupOutput c
    Res.ok (c, j)
  let os ← Res.fold saves os saveAll
  Res.fold os null addResult

end

/-! ## New initial values -/

/-- `powerinitial` — `extract_new_initial_condition.cpp` 125-134. -/
def powerInitial (datapoint : Json) : Res Json := do
  let j ← null.set "x" (num 0)
  let V ← access datapoint "V"
  let phi ← access datapoint "phi"
  let j ← j.set "values" (arr [V, phi])
  Res.ok (arr [j])

/-- The loop of `gasinitial` — 140-147. -/
def gasLoop : List Json → List Json → Res (List Json)
  | [], _ => Res.ok []
  | _ :: _, [] => Res.ub
  | f :: flows, p :: pressures => do
    let x ← access f "x"
    let pressure ← access p "value"
    let flow ← access f "value"
    let j ← null.set "x" x
    let j ← j.set "values" (arr [pressure, flow])
    let l ← gasLoop flows pressures
    Res.ok (j :: l)

/-- `gasinitial` — 136-149. -/
def gasInitial (datapoint : Json) : Res Json := do
  let flow ← access datapoint "flow"
  let pressure ← access datapoint "pressure"
  let l ← gasLoop flow.elements pressure.elements
  Res.ok (arr l)

/-- `powertypes` — 102-103. -/
def powerTypes : List String := ["PQnode", "PVnode", "Vphinode", "StochasticPQnode", "ExternalPowerplant"]

/-- `gastypes` — 104-106. -/
def gasTypes : List String := ["Pipe", "Shortpipe", "Gaspowerconnection", "Compressorstation", "Controlvalve"]

/-- `convert_resultdata_to_intialdata` — 100-123. -/
def convertData (datapoint : Json) (type : String) : Res Json :=
  if type ∈ powerTypes then powerInitial datapoint
  else if type ∈ gasTypes then gasInitial datapoint
  else Res.throws

/-- The body of the innermost loop — 65-90. All times are read, while bisection reads only some of them. -/
def extractOne (time : ℚ) (type : String) (component : Json) : Res Json := do
  let data ← component.index "data"
  let times ← Res.each data.elements fun e => do
    let t ← e.index "time"
    Schema.getNum t
  let i ← Helpers.extracted times time
  let datapoint ← Res.get data.elements i
  let initial ← convertData datapoint type
  let id ← component.index "id"
  let j ← null.set "id" id
  j.set "data" initial

/-- The loop over the types of a class — 62-92. The keys of an object are distinct, so that setting them one after the other
gives an object with the same keys. Results that are no objects are not considered. -/
def extractClass (time : ℚ) : Json → Res Json
  | obj m => do
    let m' ← Res.each m fun x => do
      let l ← Res.each x.2.elements (extractOne time x.1)
      Res.ok (x.1, arr l)
    Res.ok (obj m')
  | _ => Res.throws

/-- The new initial values — 60-93. See `extractClass`. -/
def extractAll (time : ℚ) : Json → Res Json
  | obj m => do
    let m' ← Res.each m fun x => do
      let j ← extractClass time x.2
      Res.ok (x.1, j)
    Res.ok (obj m')
  | _ => Res.throws

/-! ## Starting again -/

/-- The conversion to states: `Pipe.cpp` 231-252; none for other components. -/
def convert : Kind ℚ → List ℚ → Res (List ℚ)
  | .pipe _ _ _ density, [p, q] => Res.ok [density p, q]
  | .pipe _ _ _ _, _ => Res.throws
  | _, w => Res.ok w

/-- The schema of initial values of a component. -/
def schema : Kind ℚ → Res Json
  | .power _ => Schema.singleSchema
  | .connection => Schema.singleSchema
  | .short => Schema.shortSchema
  | .pipe _ _ _ _ => Schema.pipeSchema

/-- Reading initial values of a component: validation and `construct_from_json`. -/
def read (mem : ℕ → ℚ) (k : Kind ℚ) (json : Json) : Res (IV ℚ) := do
  let s ← schema k
  Schema.validateAndRead mem s json

/-- The component as it is seen when initial values are set: the calls of `set_simple_initial_values` in `Pipe.cpp` 251-253,
`Shortcomponent.cpp` 76-81, `Gaspowerconnection.cpp` 139-144 and `Powernode.cpp` 68-73. -/
def stateComponent (mem : ℕ → ℚ) (c : Component ℚ) : Initial.StateComponent ℚ where
  id := c.id
  start := c.start
  states := states c.kind
  points := match c.kind with
    | .pipe n _ _ _ => n
    | .short => 2
    | _ => 1
  dx := match c.kind with
    | .pipe _ dx _ _ => dx
    | _ => 1
  convert := convert c.kind
  read := read mem c.kind

end Verif.Output
