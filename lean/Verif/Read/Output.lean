import Verif.Read.RunProps
import Verif.Output.Props

/-!
# Model of a run of the program up to the file states.json

Sources: `/repo/src/Grazer/commands.cpp` 74-145 and the output functions of the components, see `Verif.Output`.
-/

set_option autoImplicit false

namespace Verif.Read

open Verif.Json Verif.Factory Verif.Interp Verif.Schema Verif.Initial Verif.Times Verif.Newton Verif.Evolve Network Net
open Verif.Output (Printed)

section Components
variable {g : Graph Network.Node EdgeKind} (hc : Consistent g)

/-- `json_save` of power nodes: the powers that are written — `PQnode.cpp` 60-65, `PVnode.cpp` 60-65, `Vphinode.cpp` 57-62,
`ExternalPowerplant.cpp` 86-91, `StochasticPQnode.cpp` 150-159. For stochastic nodes it is what has been drawn for
the last time, as the output is collected after the simulation (see C60); their deviations from the mean are left out. -/
noncomputable def reported (type : String) (last : ℝ) (v : Fin g.nodes.length) (time : ℝ) (state : List ℝ) :
    Res (List (String × ℝ)) :=
  let x : Vec := ext (entriesOf state : Fin (toNet hc).stateCount → ℝ)
  match ((toNet hc).node v).kind with
  | .power .pq => do
    let b ← ((toNet hc).node v).boundary (if type = "StochasticPQnode" then last else time)
    Res.ok [("P", b.1), ("Q", b.2)]
  | .power .pv => do
    let b ← ((toNet hc).node v).boundary time
    let bus ← (toNet hc).bus v
    Res.ok [("P", b.1), ("Q", Power.reactivePower bus x)]
  | .power .vphi | .plant => do
    let bus ← (toNet hc).bus v
    Res.ok [("P", Power.activePower bus x), ("Q", Power.reactivePower bus x)]
  | _ => Res.ok []

/-- `get_power_type` — `PQnode.cpp` 26-27, `PVnode.cpp` 24-25, `Vphinode.cpp` 23-24, `ExternalPowerplant.cpp` 27-28,
`StochasticPQnode.cpp` 25-26. Whether a node is stochastic is taken from the topology, where its id (there is
only one with it, C48) is in the list of this type. -/
def powerType (topology : Json) (id : String) : Network.NodeKind → String
  | .power .pq =>
    if (entries (types topology "nodes")).any fun x => x.1 == "StochasticPQnode" && id? x.2 == some id then "StochasticPQnode"
    else "PQnode"
  | .power .pv => "PVnode"
  | .power .vphi => "Vphinode"
  | .plant => "ExternalPowerplant"
  | _ => ""

/-- A node of the grid as a component with output; its class is that of `Get_base_component.hpp` 23-39. -/
noncomputable def outputNode (topology : Json) (last : ℝ) (v : Fin g.nodes.length) : Option (Output.Component ℝ) :=
  if ((toNet hc).node v).kind.isPower then
    let type := powerType topology g.nodes[v].id ((toNet hc).node v).kind
    some ⟨g.nodes[v].id, "nodes", type, ((toNet hc).nodeRange v).1.toNat, .power (reported hc type last v)⟩
  else none

/-- `get_type` of gas edges — `Pipe.cpp` 42, `Shortpipe.cpp` 26, `Compressorstation.cpp` 27, `Controlvalve.cpp` 26,
`Gaspowerconnection.cpp` 32. -/
def gasType : Gas.Kind → String
  | .pipe _ _ _ => "Pipe"
  | .shortpipe => "Shortpipe"
  | .compressor => "Compressorstation"
  | .controlvalve => "Controlvalve"
  | .gaspower _ _ => "Gaspowerconnection"

/-- What is written for gas edges — `Pipe.cpp` 204-229, `Shortcomponent.cpp` 45-74, `Gaspowerconnection.cpp` 118-137. -/
noncomputable def gasKind (points : ℕ) : Gas.Kind → Output.Kind ℝ
  | .pipe dx _ _ => .pipe points dx (fun r => (Euler.toBar (Euler.p r, 0)).1) fun p => (Euler.state (Euler.fromBar (p, 0))).1
  | .gaspower _ _ => .connection
  | _ => .short

/-- A gas edge as a component with output. -/
noncomputable def outputEdge (k : Fin g.edges.length) : Option (Output.Component ℝ) :=
  match (toNet hc).edge k with
  | .gas kind n => some ⟨g.edges[k].id, "connections", gasType kind, ((toNet hc).edgeRange k).1.toNat, gasKind n kind⟩
  | .line _ _ => none

/-- The components with output, in the order of `Networkproblem.cpp` 131-167. -/
noncomputable def outputComponents (topology : Json) (last : ℝ) : List (Output.Component ℝ) :=
  (List.finRange g.nodes.length).filterMap (outputNode hc topology last) ++
    (List.finRange g.edges.length).filterMap (outputEdge hc)

end Components

/-- The first entries of a vector as a list. -/
def listOf (n : ℕ) (x : Vec) : List ℝ := (List.range n).map fun i : ℕ => x (i : ℤ)

/-- All or nothing. -/
def allSome {α : Type} : List (Option α) → Option (List α)
  | [] => some []
  | none :: _ => none
  | some a :: l => (allSome l).map (a :: ·)

open Classical in
/-- A run without optimization up to the contents of the file states.json — `commands.cpp` 74-145. The network that was
read for the simulation is still there after it; here it is read again, which gives the same. If there is NaN among the
states, null is written for some numbers; this is not modelled, the result is `none`. -/
noncomputable def runFile [Printed ℝ] (draws : Json → Res (ℝ → Res (ℝ × ℝ))) (mem : ℕ → ℝ) (lu : Solve) (fuel : ℕ) (s : Settings)
    (f : Files) : Res (Option Json) := do
  let r ← run draws mem lu fuel s f
  let g ← readNet draws mem f.defaults f.topology f.boundary
  if hc : Consistent g then
    match allSome r.2 with
    | some states => do
      let j ← Output.statesJson (outputComponents hc f.topology (r.1.getLastD s.start))
        (r.1.zip (states.map (listOf (toNet hc).stateCount)))
      Res.ok (some j)
    | none => Res.ok none
  else Res.ub

end Verif.Read
