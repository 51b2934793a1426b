import Verif.Read.RunProps
import Verif.OptTimes.Props
import Verif.IndexLambda.Props
import Verif.Weights.Props
import Verif.Jacobian.Props
import Verif.Network.Optimize

/-!
# Model of a run of the program with optimization

Sources: `/repo/src/Grazer/commands.cpp` 151-226, `/repo/src/IpoptWrapper/ImplicitOptimizer.cpp` and
`/repo/src/IpoptWrapper/Wrapper.cpp`.

The result is the problem that is handed over to Ipopt: its sizes, starting point, bounds, the pattern of the Jacobian and the functions
that Ipopt evaluates. What Ipopt does with it is not modelled. That evaluations are functions of the controls, whatever was
evaluated before, is C13, C14 and C90.
-/

set_option autoImplicit false

namespace Verif.Read

open Verif.Json Verif.Factory Verif.Interp Verif.Schema Verif.Initial Verif.Times Verif.Newton Verif.Evolve Verif.OptTimes
  Verif.IndexLambda Verif.Weights Verif.Jacobian Verif.Adjoint Network Net

/-- The contents of `lower_bounds.json`, `upper_bounds.json`, `constraint_lower_bounds.json` and
`constraint_upper_bounds.json` — `commands.cpp` 185-194. -/
structure Bounds where
  lower : Json
  upper : Json
  constraintLower : Json
  constraintUpper : Json

/-- Is the node with this id of type `ConstraintSink`? The program asks the object for its class; ids are unique
(`C48_graph`), so the entry with the id tells the class. -/
def isConstraintSink (topology : Json) (id : String) : Bool :=
  (entries (types topology "nodes")).any fun e => e.1 == "ConstraintSink" && id? e.2 == some id

section Components
variable {g : Graph Network.Node EdgeKind} (hc : Consistent g) (topology : Json) (mem : ℕ → ℝ)

/-- Weights are never given to the constructors — `Costcomponent.hpp` 73-74 —, constraint components are the nodes of type
`ConstraintSink` — `Networkproblem.cpp` 131-167. -/
noncomputable def goals : Goals (toNet hc) :=
  ⟨fun _ => 1, 1, 1, fun v => isConstraintSink topology (g.nodes[v.val]'v.isLt).id⟩

/-- `set_constraint_lower_bounds` and `set_constraint_upper_bounds` of a node — `ConstraintSink.cpp` 24-26 and 60-74. -/
noncomputable def constraintNode (v : Fin g.nodes.length) : Option (ControlComponent ℝ) :=
  if (goals hc topology).constrained v then
    some ⟨g.nodes[v].id, (constraintRange (goals hc topology) v).1.toNat, Gas.readVector (accepts (boundaryOf 1)) mem⟩
  else none

/-- The constraint components. -/
noncomputable def constraintComponents : List (ControlComponent ℝ) :=
  (List.finRange g.nodes.length).filterMap (constraintNode hc topology mem)

end Components

/-- The problem Ipopt gets. A function that returns `Res.throws` stands for a callback that returns false. -/
structure Nlp where
  times : List ℝ
  controlTimes : List ℝ
  constraintTimes : List ℝ
  /-- The numbers of controls and constraints at each time. -/
  controls : ℕ
  constraints : ℕ
  /-- The starting point and the bounds of the variables. -/
  start : List ℝ
  lower : List ℝ
  upper : List ℝ
  /-- The bounds of the constraints. -/
  constraintLower : List ℝ
  constraintUpper : List ℝ
  /-- The pattern of the Jacobian. -/
  jacobian : Jac
  /-- The states for values of the variables; `none` if there is NaN in them. -/
  simulation : List ℝ → Res (List (Option Vec))
  objective : List ℝ → Res ℝ
  /-- The values of the constraints; `none` if they may be NaN. -/
  constraintValues : List ℝ → Res (List (Option ℝ))
  /-- The gradient of the objective and the values of the Jacobian, in the order of its pattern; `none` if they may be NaN. The first
  argument is what is found in front of the array of constraint times (see `Adjoint.Input`). -/
  derivatives : Option ℝ → List ℝ → Res (Option (List ℝ × List ℝ))

/-! ## Evaluations -/

section Evaluations
variable {N : Net} (G : Goals N) (times cgrid ktimes : List ℝ) (x : List ℝ)

/-- `controls(time)` in the evaluations — `ImplicitOptimizer.cpp` 224-226 and 253. -/
noncomputable def controlsAt (t : ℝ) : Res (Fin N.controlCount → ℝ) := do
  let w ← eval ⟨cgrid, N.controlCount, x⟩ t
  Res.ok (entriesOf w)

/-- The loop of `evaluate_cost` and `evaluate_penalty` — `ImplicitOptimizer.cpp` 248-257 and 287-296. `states(time)` is
the state of this time (C01). If it is `none` the value at 0 is used; costs do not depend on states. -/
noncomputable def weighted (value : Vec → Vec → ℝ) (w : List ℝ) (states : List (Option (Fin N.stateCount → ℝ))) : Res ℝ :=
  Res.fold (List.range' 1 (states.length - 1)) 0 fun acc i => do
    let t ← Res.get times i
    let c ← controlsAt (N := N) cgrid x t
    let z ← Res.get states i
    let wi ← Res.get w i
    Res.ok (acc + wi * value (ext (z.getD 0)) (ext c))

/-- `evaluate_objective` — `ImplicitOptimizer.cpp` 207-219. -/
noncomputable def objectiveOf (w : List ℝ) (states : List (Option (Fin N.stateCount → ℝ))) : Res ℝ := do
  let cost ← weighted times cgrid x (Net.cost G) w states
  let penalty ← weighted times cgrid x (Net.penalty G) w states
  Res.ok (cost + penalty)

/-- The loop of `evaluate_constraints` — `ImplicitOptimizer.cpp` 330-343. -/
noncomputable def constraintsOf (states : List (Option (Fin N.stateCount → ℝ))) : Res (List (Option ℝ)) := do
  let blocks ← Res.each ktimes fun t => do
    let z ← Res.get states (times.idxOf t)
    let c ← controlsAt (N := N) cgrid x t
    match z with
    | none => Res.ok (List.replicate G.count none)
    | some z => do
      let v ← G.constraintVector (z, c)
      Res.ok (List.ofFn fun i => some (v i))
  Res.ok blocks.flatten

/-- The derivative matrices of all steps — `ImplicitOptimizer.cpp` 535-548 with 733-811. The program computes them step by step from the last
one; here all are computed first. -/
noncomputable def stepsOf (states : List (Option (Fin N.stateCount → ℝ))) :
    Res (List (StepData N.stateCount N.controlCount G.count ℝ)) :=
  Res.each (List.range' 1 (times.length - 1)) fun i => do
    let a ← Res.get times (i - 1)
    let b ← Res.get times i
    let y ← Res.get states (i - 1)
    let z ← Res.get states i
    let c ← controlsAt (N := N) cgrid x b
    N.stepData G a b (y.getD 0, z.getD 0, c)

/-- What `compute_derivatives` works on. -/
noncomputable def inputOf (w : List ℝ) (pairs : List (ℕ × ℝ)) (jac : Jac) (oob : Option ℝ)
    (data : List (StepData N.stateCount N.controlCount G.count ℝ)) : Input N.stateCount N.controlCount G.count ℝ where
  data i := data.getD (i - 1) ⟨0, 0, 0, 0, 0, 0, 0⟩
  weight i := w.getD i 0
  pair i := pairs.getD i (0, 0)
  time i := times.getD i 0
  cons := ktimes
  controlSteps := cgrid.length
  rowstart := jac.outerRowstart
  oob := oob

/-- The gradient as it is copied to Ipopt — `ImplicitOptimizer.cpp` 353-388. -/
def gradientValues {n m r : ℕ} (steps : ℕ) (s : Adjoint.State n m r ℝ) : List ℝ :=
  (List.range steps).flatMap fun j => List.ofFn (s.gradient j)

/-- The values of the Jacobian as they are copied to Ipopt — `ImplicitOptimizer.cpp` 391-426. The array of values has the order of
`supply_indices` (C10). -/
def jacobianValues {n m r : ℕ} (jac : Jac) (s : Adjoint.State n m r ℝ) : List ℝ :=
  jac.supplyIndices.map fun e =>
    if h : 0 < r ∧ 0 < m then s.jacobian (e.1 / r) (e.2 / m) ⟨e.1 % r, Nat.mod_lt _ h.1⟩ ⟨e.2 % m, Nat.mod_lt _ h.2⟩ else 0

open Classical in
/-- `evaluate_objective_gradient` and `evaluate_constraint_jacobian` — `ImplicitOptimizer.cpp` 348-426, 487-656. The result is `none` if
there is NaN in the states. -/
noncomputable def derivativesOf (w : List ℝ) (pairs : List (ℕ × ℝ)) (jac : Jac) (oob : Option ℝ)
    (states : List (Option (Fin N.stateCount → ℝ))) : Res (Option (List ℝ × List ℝ)) :=
  if none ∈ states then Res.ok none
  else do
    let data ← stepsOf G times cgrid x states
    match ← computeDerivatives (inputOf G times cgrid ktimes w pairs jac oob data) (times.length - 1) with
    | none => Res.throws
    | some s => Res.ok (some (gradientValues cgrid.length s, jacobianValues jac s))

end Evaluations

/-! ## Construction -/

/-- The vectors of bounds — `commands.cpp` 196-213, `Optimization_helpers.cpp` 72-88; `Networkproblem.cpp` 331-380 and
510-566, which do the same as for the initial controls. -/
noncomputable def boundsOf (cs : List (ControlComponent ℝ)) (mem : ℕ → ℝ) (grid : List ℝ) (count : ℕ) (json : Json) : Res (IV ℝ) :=
  setInitialControls cs ⟨grid, count, uninit mem (count * grid.length)⟩ json

open Classical in
/-- The checks of the times in the constructor — `ImplicitOptimizer.cpp` 112-132. (`back` throws for an empty vector;
`state_timepoints(0)` and `control_timepoints(0)` exist then.) -/
noncomputable def checkTimes (times cgrid ktimes : List ℝ) : Res Unit :=
  if ¬ times.Pairwise (· ≤ ·) then Res.throws
  else if ¬ cgrid.Pairwise (· ≤ ·) then Res.throws
  else if ¬ ktimes.Pairwise (· ≤ ·) then Res.throws
  else match cgrid.getLast?, times.getLast?, cgrid.head?, times.head? with
    | some lc, some lt, some hc, some ht =>
      if lc + EPSILON < lt then Res.throws
      else if ht < hc then Res.throws
      else Res.ok ()
    | _, _, _, _ => Res.throws

/-- A check with an exception. -/
def ensure (b : Bool) : Res Unit := if b then Res.ok () else Res.throws

open Classical in
/-- Setting up an optimization — `commands.cpp` 74-117 and 151-226, the constructor `ImplicitOptimizer.cpp` 53-168 and what
Ipopt asks for first, `Wrapper.cpp` 34-99. Without controls the vector of control times is empty, and
`compute_index_lambda` reads its last element (or one of the functions before throws). Ipopt passes vectors of the length it
was told. -/
noncomputable def optimization (draws : Json → Res (ℝ → Res (ℝ × ℝ))) (mem : ℕ → ℝ) (lu : Solve) (fuel : ℕ) (s : Settings)
    (every : ℤ) (f : Files) (b : Bounds) : Res Nlp := do
  let times ← stateGrid s.start s.desired s.stop
  let g ← readNet draws mem f.defaults f.topology f.boundary
  if hc : Consistent g then do
    (toNet hc).setup
    let initial ← setInitialValues (stateComponents hc mem) (uninit mem (toNet hc).stateCount) f.initial
    let n := (toNet hc).controlCount
    if 0 < n then do
      let cgrid ← controlGrid s.start s.desired s.stop s.control
      let start ← boundsOf (controlComponents hc mem) mem cgrid n f.control
      let ktimes ← selectConstraintTimes times every
      let G := goals hc f.topology
      let lower ← boundsOf (controlComponents hc mem) mem cgrid n b.lower
      let upper ← boundsOf (controlComponents hc mem) mem cgrid n b.upper
      let klower ← boundsOf (constraintComponents hc f.topology mem) mem ktimes G.count b.constraintLower
      let kupper ← boundsOf (constraintComponents hc f.topology mem) mem ktimes G.count b.constraintUpper
      let pairs ← computeIndexLambdaVector cgrid times
      let w ← weights times
      let jac ← makeData G.count n ktimes cgrid
      ensure (n == start.inner)
      ensure (haveSameStructure start lower)
      ensure (haveSameStructure lower upper)
      ensure (haveSameStructure klower kupper)
      ensure (G.count == klower.inner)
      ensure ((toNet hc).stateCount == initial.length)
      checkTimes times cgrid ktimes
      checkConstraintTimes times ktimes
      let states := fun x : List ℝ => (simulate s.retries s.simplified
        (newtonSolver (fun a b x c => (toNet hc).system (lu (toNet hc) a b x c) a b x c) s.tolerance s.iterations fuel)
        (controlsAt (N := toNet hc) cgrid x) times (some (entriesOf initial))).1
      Res.ok {
        times := times, controlTimes := cgrid, constraintTimes := ktimes, controls := n, constraints := G.count
        start := start.values, lower := lower.values, upper := upper.values
        constraintLower := klower.values, constraintUpper := kupper.values, jacobian := jac
        simulation := fun x => if x.length = n * cgrid.length then do
            let z ← states x
            Res.ok (z.map (Option.map ext))
          else Res.ub
        objective := fun x => if x.length = n * cgrid.length then do
            let z ← states x
            objectiveOf G times cgrid x w z
          else Res.ub
        constraintValues := fun x => if x.length = n * cgrid.length then do
            let z ← states x
            constraintsOf G times cgrid ktimes x z
          else Res.throws
        derivatives := fun oob x => if x.length = n * cgrid.length then do
            let z ← states x
            derivativesOf G times cgrid ktimes x w pairs jac oob z
          else Res.ub }
    else Res.ub
  else Res.ub

end Verif.Read
