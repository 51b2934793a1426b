import Verif.Read.EndToEnd
import Verif.Initial.Props
import Verif.Times.Props

/-!
# Model of a run of the program without optimization

Sources: `/repo/src/Grazer/commands.cpp` 74-132, `/repo/src/Grazer/helpers.cpp` and the functions that set initial states and
controls of the components.

Here all parts come together: reading the network, initial state, times, controls and the simulation.
-/

set_option autoImplicit false

namespace Verif.Read

open Verif.Json Verif.Factory Verif.Interp Verif.Schema Verif.Initial Verif.Times Verif.Newton Verif.Evolve Network Net

/-! ## Initial values and controls of the components -/

/-- Reading initial values — `SimpleStatecomponent.cpp` 35-37. -/
noncomputable def readInitial (mem : ℕ → ℝ) (schema : Res Json) (json : Json) : Res (IV ℝ) := do
  let s ← schema
  Gas.readVector (accepts s) mem json

/-- The conversion from pressure in bar to density — `Pipe.cpp` 238-249. -/
noncomputable def pipeState : List ℝ → Res (List ℝ)
  | [p, q] => Res.ok [(Euler.state (Euler.fromBar (p, q))).1, (Euler.state (Euler.fromBar (p, q))).2]
  | _ => Res.throws

section Components
variable {g : Graph Network.Node EdgeKind} (hc : Consistent g) (mem : ℕ → ℝ)

/-- `Powernode::set_initial_values` — `Powernode.cpp` 68-73; gas nodes are no state components. -/
noncomputable def stateNode (v : Fin g.nodes.length) : Option (StateComponent ℝ) :=
  if ((toNet hc).node v).kind.isPower then
    some ⟨g.nodes[v].id, ((toNet hc).nodeRange v).1.toNat, 2, 1, 1, Res.ok, readInitial mem singleSchema⟩
  else none

/-- `Pipe::set_initial_values` — `Pipe.cpp` 231-253, `Shortcomponent::set_initial_values` — `Shortcomponent.cpp` 76-81,
`Gaspowerconnection::set_initial_values` — `Gaspowerconnection.cpp` 139-144; transmission lines are no state components. -/
noncomputable def stateEdge (k : Fin g.edges.length) : Option (StateComponent ℝ) :=
  let start := ((toNet hc).edgeRange k).1.toNat
  match (toNet hc).edge k with
  | .gas (.pipe dx _ _) n => some ⟨g.edges[k].id, start, 2 * n, n, dx, pipeState, readInitial mem pipeSchema⟩
  | .gas (.gaspower _ _) _ => some ⟨g.edges[k].id, start, 2, 1, 1, Res.ok, readInitial mem singleSchema⟩
  | .gas _ _ => some ⟨g.edges[k].id, start, 4, 2, 1, Res.ok, readInitial mem shortSchema⟩
  | .line _ _ => none

/-- The state components, in the order of `Networkproblem.cpp` 131-167. -/
noncomputable def stateComponents : List (StateComponent ℝ) :=
  (List.finRange g.nodes.length).filterMap (stateNode hc mem) ++ (List.finRange g.edges.length).filterMap (stateEdge hc mem)

/-- `set_initial_controls` — `Compressorstation.cpp` 39-41 and 98-104, `Controlvalve.cpp` 29-31 and 93-99. -/
noncomputable def controlEdge (k : Fin g.edges.length) : Option (ControlComponent ℝ) :=
  if ((toNet hc).edge k).isControl then
    some ⟨g.edges[k].id, ((toNet hc).controlRange k).1.toNat, Gas.readVector (accepts (boundaryOf 1)) mem⟩
  else none

/-- The control components. -/
noncomputable def controlComponents : List (ControlComponent ℝ) := (List.finRange g.edges.length).filterMap (controlEdge hc mem)

end Components

/-! ## The run -/

/-- Numbers in the problem file: the times and the settings of controls, and those of the solver — `Timedata.cpp`,
`Timeevolver.cpp` 58-65. -/
structure Settings where
  start : ℝ
  desired : ℝ
  stop : ℝ
  control : Option (ControlSettings ℝ)
  tolerance : ℝ
  iterations : ℤ
  retries : ℤ
  simplified : Bool

/-- The contents of the files. -/
structure Files where
  defaults : Json
  topology : Json
  boundary : Json
  initial : Json
  control : Json

/-- The entries of a vector that is read as a list. -/
def entriesOf {n : ℕ} (l : List ℝ) : Fin n → ℝ := fun i => l.getD i 0

/-- `setup_controls` — `helpers.cpp` 24-71, and the controls at a time in `Timeevolver::simulate` — `Timeevolver.cpp` 79-84 and
103-106. The control times come with the result (they are the times of the states if there are no controls). -/
noncomputable def setupControls {g : Graph Network.Node EdgeKind} (hc : Consistent g) (mem : ℕ → ℝ) (s : Settings)
    (times : List ℝ) (control : Json) : Res (List ℝ × (ℝ → Res (Fin (toNet hc).controlCount → ℝ))) :=
  if 0 < (toNet hc).controlCount then do
    let grid ← controlGrid s.start s.desired s.stop s.control
    let u ← setInitialControls (controlComponents hc mem)
      ⟨grid, (toNet hc).controlCount, uninit mem ((toNet hc).controlCount * grid.length)⟩ control
    Res.ok (grid, fun t => do
      let w ← eval u t
      Res.ok (entriesOf w))
  else Res.ok (times, fun _ => Res.ok 0)

/-- The factorization of the Jacobian of each network, whatever it is. -/
abbrev Solve := (N : Net) → ℝ → ℝ → Option (Fin N.stateCount → ℝ) → (Fin N.controlCount → ℝ) →
  Option (Fin N.stateCount → ℝ) → Option (Option (Fin N.stateCount → ℝ) → Option (Fin N.stateCount → ℝ))

open Classical in
/-- A run of the program without optimization: `commands.cpp` 74-132, up to the output. The result lists the times and
the states, which are `none` if there is NaN in them. That the graph is consistent is no check: this is always so, see
`C48_graph`. (The number of time steps is computed before the network is read, which matters only for
which exception is thrown if there are several reasons for one.) `fuel` bounds the number of steps of the line search, as in
`Verif.Newton`. -/
noncomputable def run (draws : Json → Res (ℝ → Res (ℝ × ℝ))) (mem : ℕ → ℝ) (lu : Solve) (fuel : ℕ) (s : Settings) (f : Files) :
    Res (List ℝ × List (Option Vec)) := do
  let times ← stateGrid s.start s.desired s.stop
  let g ← readNet draws mem f.defaults f.topology f.boundary
  if hc : Consistent g then do
    (toNet hc).setup
    let initial ← setInitialValues (stateComponents hc mem) (uninit mem (toNet hc).stateCount) f.initial
    let controls ← setupControls hc mem s times f.control
    let states ← (simulate s.retries s.simplified (newtonSolver (fun a b x c => (toNet hc).system (lu (toNet hc) a b x c) a b x c)
      s.tolerance s.iterations fuel) controls.2 times (some (entriesOf initial))).1
    Res.ok (times, states.map (Option.map ext))
  else Res.ub

end Verif.Read
