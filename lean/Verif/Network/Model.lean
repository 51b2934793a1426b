import Verif.Network.Index
import Verif.Gas.Model
import Verif.Power.Model
import Mathlib.Data.List.FinRange

/-!
# Model of `Networkproblem`

Sources: `/repo/src/Model/Networkproblem/Networkproblem.cpp` and the setup functions of the components.

A network is given by its nodes and edges, which are numbered. `starting v` and `ending v` are the lists of the
edges attached to a node, in any order (see `Verif.Graph` for how they come about). Components that are no
state (control) components are treated as needing no states (controls).
-/

set_option autoImplicit false

namespace Verif.Network

open Verif.Net Verif.Handler

/-- The types of nodes. `flow` is a `Source`, `Sink` or `ConstraintSink` (the boundary values of a sink are reverted when
it is built, see C65); `power` are the nodes of the grid; a `StochasticPQnode` is a PQ node whose
boundary value is the demand drawn in `prepare_timestep`. -/
inductive NodeKind
  | innode
  | flow
  | pressure
  | power (k : Power.Kind)
  | plant

/-- A node: its type, the boundary value at a time (which may throw), and conductance and susceptance. -/
structure Node where
  kind : NodeKind
  boundary : ℝ → Res (ℝ × ℝ)
  G : ℝ
  B : ℝ

/-- The types of edges; `points` is used for pipes only. -/
inductive EdgeKind
  | gas (k : Gas.Kind) (points : ℕ)
  | line (G B : ℝ)

/-- A network. -/
structure Net where
  nodes : ℕ
  edges : ℕ
  node : Fin nodes → Node
  edge : Fin edges → EdgeKind
  src : Fin edges → Fin nodes
  dst : Fin edges → Fin nodes
  starting : Fin nodes → List (Fin edges)
  ending : Fin nodes → List (Fin edges)

/-- Is the node a `Gasnode`? -/
def NodeKind.isGas : NodeKind → Bool
  | .innode | .flow | .pressure => true
  | _ => false

/-- Is the node a `Powernode`? -/
def NodeKind.isPower : NodeKind → Bool
  | .power _ | .plant => true
  | _ => false

/-- Is the node an `ExternalPowerplant`? -/
def NodeKind.isPlant : NodeKind → Bool
  | .plant => true
  | _ => false

/-- `needed_number_of_states` of a node — `Powernode.cpp` 64-66; gas nodes have no states. -/
def nodeNeed (k : NodeKind) : ℕ := if k.isPower then 2 else 0

/-- `needed_number_of_states` of an edge — `Pipe.cpp` 194-196, `Shortcomponent.cpp` 41-43,
`Gaspowerconnection.cpp` 110; a `Transmissionline` has none. -/
def edgeNeed : EdgeKind → ℕ
  | .gas (.pipe _ _ _) points => 2 * points
  | .gas (.gaspower _ _) _ => 2
  | .gas _ _ => 4
  | .line _ _ => 0

/-- Is the edge a control component? Those have one control: `Controlvalve.cpp` 115-117,
`Compressorstation.cpp` 120-123. -/
def EdgeKind.isControl : EdgeKind → Bool
  | .gas .controlvalve _ | .gas .compressor _ => true
  | _ => false

/-- Is the edge an `Equationcomponent`? -/
def EdgeKind.isEquation : EdgeKind → Bool
  | .gas (.pipe _ _ _) _ | .gas .shortpipe _ | .gas (.gaspower _ _) _ => true
  | _ => false

def edgeControls (k : EdgeKind) : ℕ := if k.isControl then 1 else 0

namespace Net

variable (N : Net)

/-- The needs of all components: nodes first, then edges — `Networkproblem.cpp` 131-167. -/
def stateNeeds : List ℕ :=
  (List.ofFn fun v => nodeNeed (N.node v).kind) ++ List.ofFn fun k => edgeNeed (N.edge k)

def controlNeeds : List ℕ := List.ofFn fun k => edgeControls (N.edge k)

/-- The index ranges after `init()` with its default arguments — `Networkproblem.cpp` 170-178. -/
def stateRanges : List (ℤ × ℤ) := (setIndices 0 N.stateNeeds).1

def controlRanges : List (ℤ × ℤ) := (setIndices 0 N.controlNeeds).1

/-- `get_number_of_states()` of the network. -/
def states : ℤ := (setIndices 0 N.stateNeeds).2

/-- `get_number_of_controls_per_timepoint()` of the network. -/
def controls : ℤ := (setIndices 0 N.controlNeeds).2

def nodeRange (v : Fin N.nodes) : ℤ × ℤ :=
  N.stateRanges[v.val]'(by
    show v.val < (setIndices 0 N.stateNeeds).1.length
    rw [setIndices_length]; simp only [stateNeeds, List.length_append, List.length_ofFn]; omega)

def edgeRange (k : Fin N.edges) : ℤ × ℤ :=
  N.stateRanges[N.nodes + k.val]'(by
    show _ < (setIndices 0 N.stateNeeds).1.length
    rw [setIndices_length]; simp only [stateNeeds, List.length_append, List.length_ofFn]; omega)

def controlRange (k : Fin N.edges) : ℤ × ℤ :=
  N.controlRanges[k.val]'(by
    show _ < (setIndices 0 N.controlNeeds).1.length
    rw [setIndices_length]; simp only [controlNeeds, List.length_ofFn]; omega)

/-- The edge as a gas edge with its indices (`dynamic_cast<Gasedge *>`). -/
def gasEdge (k : Fin N.edges) : Option Gas.Edge :=
  match N.edge k with
  | .gas kind _ => some ⟨k.val, kind, (N.edgeRange k).1, (N.edgeRange k).2, (N.controlRange k).1⟩
  | .line _ _ => none

/-- `directed_attached_gas_edges` after `gasnode_setup_helper` — `Gasnode.cpp` 138-177. -/
def ends (v : Fin N.nodes) : List Gas.End :=
  ((N.starting v).filterMap fun k => (N.gasEdge k).map fun e => (Gas.Dir.start, e)) ++
  (N.ending v).filterMap fun k => (N.gasEdge k).map fun e => (Gas.Dir.stop, e)

/-- The lines attached to a power node and the nodes at their other ends — `Powernode.cpp` 75-104. -/
def attached (v : Fin N.nodes) : List (ℝ × ℝ × Fin N.nodes) :=
  ((N.starting v).filterMap fun k =>
    match N.edge k with
    | .line G B => some (G, B, N.dst k)
    | .gas _ _ => none) ++
  (N.ending v).filterMap fun k =>
    match N.edge k with
    | .line G B => some (G, B, N.src k)
    | .gas _ _ => none

/-- `attached_component_data`. If the other node is no `Powernode` the stored pointer is null — `Transmissionline.cpp`
45-51 — and using it is undefined. (It counts as used here also by nodes of the types that do not compute
powers in their equations; they do so for the output.) -/
def bus (v : Fin N.nodes) : Res Power.Bus :=
  if (N.attached v).all fun x => (N.node x.2.2).kind.isPower then
    Res.ok ⟨(N.nodeRange v).1, (N.node v).G, (N.node v).B,
      (N.attached v).map fun x => ⟨x.1, x.2.1, (N.nodeRange x.2.2).1⟩⟩
  else Res.ub

open Classical in
/-- `setup` — `Networkproblem.cpp` 392-399: throws for a power plant without a connection to the gas network
(`ExternalPowerplant.cpp` 30-52) and for such a connection not ending at a power plant
(`Gaspowerconnection.cpp` 90-108). -/
noncomputable def setup : Res Unit :=
  if (∀ v, (N.node v).kind.isPlant → ∃ k ∈ N.starting v ++ N.ending v, ∃ g p n,
        N.edge k = .gas (.gaspower g p) n) ∧
      (∀ k g p n, N.edge k = .gas (.gaspower g p) n → (N.node (N.dst k)).kind.isPlant) then Res.ok ()
  else Res.throws

noncomputable section

/-- `evaluate` of a node — `Innode.cpp` 30-35, `Flowboundarynode.cpp` 54-66, `Pressureboundarynode.cpp` 40-58, and
the power nodes. -/
def nodeEvaluate (v : Fin N.nodes) (newTime : ℝ) (a : Args) : Res (List Op) :=
  match (N.node v).kind with
  | .innode => Gas.flowBalance (N.ends v) a.new 0
  | .flow =>
    if (N.ends v).isEmpty then Res.ok []
    else do
      let b ← (N.node v).boundary newTime
      Gas.flowBalance (N.ends v) a.new b.1
  | .pressure =>
    if (N.ends v).isEmpty then Res.ok []
    else do
      let b ← (N.node v).boundary newTime
      Gas.pressureBalance (N.ends v) a.new b.1
  | .power k => do
    let bus ← N.bus v
    let b ← (N.node v).boundary newTime
    Res.ok (Power.busEvaluate k bus b a.new)
  | .plant => do
    let bus ← N.bus v
    let b ← (N.node v).boundary newTime
    Res.ok (Power.busEvaluate .vphi bus b a.new)

/-- `d_evaluate_d_new_state` of a node — `Innode.cpp` 36-41, `Flowboundarynode.cpp` 68-77,
`Pressureboundarynode.cpp` 60-78, and the power nodes. The derivative with respect to the last state is empty. -/
def nodeNew (v : Fin N.nodes) (a : Args) : Res (List (Contribution ℝ)) :=
  match (N.node v).kind with
  | .innode => Gas.flowDerivative (N.ends v) a.new
  | .flow => if (N.ends v).isEmpty then Res.ok [] else Gas.flowDerivative (N.ends v) a.new
  | .pressure => if (N.ends v).isEmpty then Res.ok [] else Gas.pressureDerivative (N.ends v) a.new
  | .power k => do
    let bus ← N.bus v
    Res.ok (Power.busNew k bus a.new)
  | .plant => do
    let bus ← N.bus v
    Res.ok (Power.busNew .vphi bus a.new)

/-- `evaluate` of an edge. `powerendnode` of a connection to the grid is set in `setup` and null unless it is
a power plant. -/
def edgeEvaluate (k : Fin N.edges) (lastTime newTime : ℝ) (a : Args) : Res (List Op) :=
  match N.gasEdge k with
  | none => Res.ok []
  | some e =>
    match e.kind with
    | .gaspower g p =>
      if (N.node (N.dst k)).kind.isPlant then do
        let bus ← N.bus (N.dst k)
        Power.connectionEvaluate e.first ⟨g, p⟩ bus a.new
      else Res.ub
    | _ => Gas.edgeEvaluate e lastTime newTime a

/-- `d_evaluate_d_new_state` of an edge. -/
def edgeNew (k : Fin N.edges) (lastTime newTime : ℝ) (a : Args) : Res (List (Contribution ℝ)) :=
  match N.gasEdge k with
  | none => Res.ok []
  | some e =>
    match e.kind with
    | .gaspower g p =>
      if (N.node (N.dst k)).kind.isPlant then do
        let bus ← N.bus (N.dst k)
        Power.connectionNew e.first ⟨g, p⟩ bus a.new
      else Res.ub
    | _ => Gas.edgeNew e lastTime newTime a

/-- `d_evaluate_d_last_state` of an edge. -/
def edgeLast (k : Fin N.edges) : Res (List (Contribution ℝ)) :=
  match N.gasEdge k with
  | none => Res.ok []
  | some e => Gas.edgeLast e

/-- `d_evaluate_d_control` of an edge. -/
def edgeControl (k : Fin N.edges) : Res (List (Contribution ℝ)) :=
  match N.gasEdge k with
  | none => Res.ok []
  | some e => Gas.edgeControl e

/-- The edges in `equationcomponents` and in `controlcomponents` — `Networkproblem.cpp` 150-167. -/
def equationEdges : List (Fin N.edges) := (List.finRange N.edges).filter fun k => (N.edge k).isEquation

def controlEdges : List (Fin N.edges) := (List.finRange N.edges).filter fun k => (N.edge k).isControl

/-- `evaluate` — `Networkproblem.cpp` 234-248. -/
def evaluate (lastTime newTime : ℝ) (a : Args) : Res (List Op) := do
  let x ← forEach (List.finRange N.nodes) fun v => N.nodeEvaluate v newTime a
  let y ← forEach N.equationEdges fun k => N.edgeEvaluate k lastTime newTime a
  let z ← forEach N.controlEdges fun k => N.edgeEvaluate k lastTime newTime a
  Res.ok (x ++ y ++ z)

/-- `d_evaluate_d_new_state` — `Networkproblem.cpp` 263-277. -/
def dNew (lastTime newTime : ℝ) (a : Args) : Res (List (Contribution ℝ)) := do
  let x ← forEach (List.finRange N.nodes) fun v => N.nodeNew v a
  let y ← forEach N.equationEdges fun k => N.edgeNew k lastTime newTime a
  let z ← forEach N.controlEdges fun k => N.edgeNew k lastTime newTime a
  Res.ok (x ++ y ++ z)

/-- `d_evaluate_d_last_state` — `Networkproblem.cpp` 279-293. -/
def dLast : Res (List (Contribution ℝ)) := do
  let y ← forEach N.equationEdges fun k => N.edgeLast k
  let z ← forEach N.controlEdges fun k => N.edgeLast k
  Res.ok (y ++ z)

/-- `d_evaluate_d_control` — `Networkproblem.cpp` 295-304. -/
def dControl : Res (List (Contribution ℝ)) :=
  forEach N.controlEdges fun k => N.edgeControl k

end

end Net
end Verif.Network
