import Verif.Graph.Network
import Verif.Schema.Props
import Verif.Gas.Sink
import Verif.Unit.Props

/-!
# Model of the constructors of all components

Sources: the constructors and `get_schema` functions in `/repo/src/Model/Networkproblem`,
`/repo/src/Model/Componentfactory/Full_factory/Full_factory.cpp`, `Gas_factory.cpp` and `Power_factory.cpp`.

Together with `Factory.buildNet` this is what is done with topology and boundary values from the json files up to the network
of `Verif.Network`. The texts of descriptions in schemas are left out, and so are the patterns of units
(`Unit.validate` checks these when the unit is parsed).
-/

set_option autoImplicit false

namespace Verif.Read

open Verif.Json Verif.Factory Verif.Interp Verif.Schema

/-! ## Schemas -/

/-- `type::string()` — `make_schema.cpp` 54, and with a description, 55-57. -/
def stringType : Json := obj [("type", str "string")]

/-- Several calls of `add_required`. They do not throw for the schemas here, which is `withRequired_ok`. -/
def withRequired (schema : Json) (l : List (String × Json)) : Json :=
  match Res.fold l schema fun s x => addRequired s x.1 x.2 with
  | .ok s => s
  | _ => null

/-- `Idobject::get_schema` — `Idobject.cpp` 23-28, also of nodes. -/
def idSchema : Json := withRequired (obj [("type", str "object")]) [("id", stringType)]

/-- `Edge::get_schema` — `Edge.cpp` 26-35. -/
def edgeSchema : Json := withRequired idSchema [("from", stringType), ("to", stringType)]

/-- `Measure::get_schema` — `unit_conversion.cpp` 152-171, without the patterns. -/
def measureSchema : Json := obj [
  ("additionalProperties", Json.bool false),
  ("properties", obj [("unit", stringType), ("value", numberType)]),
  ("required", arr [str "value", str "unit"]), ("type", str "object")]

/-- `Pipe::get_schema` — `Pipe.cpp` 48-63. -/
def pipeTopology : Json := withRequired edgeSchema [
  ("length", measureSchema), ("diameter", measureSchema), ("roughness", measureSchema),
  ("desired_delta_x", numberType), ("balancelaw", stringType), ("scheme", stringType)]

/-- `Transmissionline::get_schema` — `Transmissionline.cpp` 26-32. -/
def lineTopology : Json := withRequired edgeSchema [("B", numberType), ("G", numberType)]

/-- `Gaspowerconnection::get_schema` — `Gaspowerconnection.cpp` 34-43. -/
def connectionTopology : Json := withRequired edgeSchema [("gas2power_q_coeff", numberType), ("power2gas_q_coeff", numberType)]

/-- `Powernode::get_schema` — `Powernode.cpp` 37-43. -/
def powerTopology : Json := withRequired idSchema [("B", numberType), ("G", numberType)]

/-- `StochasticPQnode::get_schema` — `StochasticPQnode.cpp` 28-42. -/
def stochasticTopology : Json := withRequired powerTopology [
  ("stability_parameter", numberType), ("cut_off_factor", numberType), ("sigma_P", numberType), ("theta_P", numberType),
  ("sigma_Q", numberType), ("theta_Q", numberType), ("number_of_stochastic_steps", numberType)]

/-- `make_boundary_schema` — `make_schema.cpp` 152-171; `Flowboundarynode.cpp` 43-45, `Pressureboundarynode.cpp` 29-31,
`Powernode.cpp` 45-47. -/
def boundaryOf (k : ℕ) : Json :=
  match boundarySchema k with
  | .ok s => s
  | _ => null

/-- `StochasticPQnode::get_boundary_schema` — `StochasticPQnode.cpp` 44-50. -/
def stochasticBoundary : Json :=
  match (do
    let l ← listSchema numberType (obj [])
    addProperty (boundaryOf 2) "seed" l) with
  | .ok s => s
  | _ => null

/-! ## Nodes -/

/-- `boundaryvalue(time)[0]`. -/
noncomputable def one (b : IV ℝ) (time : ℝ) : Res (ℝ × ℝ) := do
  let v ← eval b time
  let x ← Res.get v 0
  Res.ok (x, 0)

/-- `boundaryvalue(time)[0]` and `boundaryvalue(time)[1]`. -/
noncomputable def two (b : IV ℝ) (time : ℝ) : Res (ℝ × ℝ) := do
  let v ← eval b time
  let x ← Res.get v 0
  let y ← Res.get v 1
  Res.ok (x, y)

/-- `json[key]` as a number. -/
def number (data : Json) (key : String) : Res ℚ := do
  let v ← data.index key
  Gas.getNum v

/-- `Innode`: the constructor only reads the id. -/
def innode (_ : Json) : Res Network.Node := Res.ok ⟨.innode, fun _ => Res.ok (0, 0), 0, 0⟩

/-- `Source` — `Source.hpp`, `Flowboundarynode.cpp` 47-50. -/
noncomputable def source (mem : ℕ → ℝ) (data : Json) : Res Network.Node := do
  let b ← Gas.source (accepts (boundaryOf 1)) mem data
  Res.ok ⟨.flow, one b, 0, 0⟩

/-- `Sink` and `ConstraintSink` — `Sink.cpp` 23-24, `ConstraintSink.cpp` 29-30. -/
noncomputable def sink (mem : ℕ → ℝ) (data : Json) : Res Network.Node := do
  let b ← Gas.sink (accepts (boundaryOf 1)) mem data
  Res.ok ⟨.flow, one b, 0, 0⟩

/-- `Pressureboundarynode` — `Pressureboundarynode.cpp` 33-36. -/
noncomputable def pressureNode (mem : ℕ → ℝ) (data : Json) : Res Network.Node := do
  let b ← Gas.source (accepts (boundaryOf 1)) mem data
  Res.ok ⟨.pressure, one b, 0, 0⟩

/-- `Powernode` — `Powernode.cpp` 57-62, the base class of the nodes of the grid. -/
noncomputable def powerNode (kind : Network.NodeKind) (mem : ℕ → ℝ) (data : Json) : Res Network.Node := do
  let b ← Gas.source (accepts (boundaryOf 2)) mem data
  let G ← number data "G"
  let B ← number data "B"
  Res.ok ⟨kind, two b, G, B⟩

/-- `StochasticPQnode` — `StochasticPQnode.cpp` 54-84. `draws` stands for the constructor of the data for the random
demand and for the demand which is drawn (see `Verif.Stochastic`). -/
noncomputable def stochasticNode (draws : Json → Res (ℝ → Res (ℝ × ℝ))) (mem : ℕ → ℝ) (data : Json) : Res Network.Node := do
  let n ← powerNode (.power .pq) mem data
  let d ← draws data
  Res.ok { n with boundary := d }

/-! ## Edges -/

/-- `unit::length.parse_to_si(json[key])` — `unit_conversion.cpp` 125-131. -/
noncomputable def metres (data : Json) (key : String) : Res ℚ := do
  let m ← data.index key
  if accepts measureSchema m then do
    let unit ← m.index "unit"
    let unit ← unit.getStr
    let value ← number m "value"
    Unit.parseToSi Unit.length value unit.toList
  else Res.throws

/-- `make_threepointscheme` — `Scheme_factory.hpp` 26-34. -/
def scheme (data : Json) : Res Unit := do
  let s ← data.index "scheme"
  if s.isStr "Implicitboxscheme" then Res.ok () else Res.throws

/-- `Pipe` — `Pipe.cpp` 73-86 and `Isothermaleulerequation.cpp` 24-26. With a negative number of points the indices of
the states of the pipe overlap with others and the loops over its points do not end; here this is undefined
already when the pipe is constructed. -/
noncomputable def pipe (data : Json) : Res Network.EdgeKind := do
  let length ← metres data "length"
  let wished ← number data "desired_delta_x"
  let n ← Gas.numberOfPoints length wished
  let diameter ← metres data "diameter"
  let roughness ← metres data "roughness"
  scheme data
  if n < 0 then Res.ub
  else Res.ok (.gas (.pipe (Gas.cellWidth length n) diameter roughness) n.toNat)

/-- `Shortpipe`, `Controlvalve` and `Compressorstation`: there is nothing to read but id and ends. -/
def short (kind : Gas.Kind) (_ : Json) : Res Network.EdgeKind := Res.ok (.gas kind 0)

/-- `Transmissionline` — `Transmissionline.cpp` 36-39. -/
noncomputable def line (data : Json) : Res Network.EdgeKind := do
  let G ← number data "G"
  let B ← number data "B"
  Res.ok (.line G B)

/-- `Gaspowerconnection` — `Gaspowerconnection.cpp` 54-59. -/
noncomputable def connection (data : Json) : Res Network.EdgeKind := do
  let g ← number data "gas2power_q_coeff"
  let p ← number data "power2gas_q_coeff"
  Res.ok (.gas (.gaspower g p) 0)

/-! ## The tables of types -/

/-- A type and its defaults — `Componentfactory.hpp` 233-234, 338-339: the defaults of the type are the entry with its name. -/
def withDefaults {α : Type} (all : Json) (x : String × Json × Option Json × (Json → Res α)) :
    Res (String × ComponentType α) := do
  let d ← valueOr all x.1
  Res.ok (x.1, ⟨x.2.1, x.2.2.1, d, x.2.2.2⟩)

/-- The types of nodes, in the order of the map — `Full_factory.cpp` 36-47, `Gas_factory.cpp` 32-42,
`Power_factory.cpp` 28-36. -/
noncomputable def nodeList (draws : Json → Res (ℝ → Res (ℝ × ℝ))) (mem : ℕ → ℝ) :
    List (String × Json × Option Json × (Json → Res Network.Node)) :=
  [("ConstraintSink", idSchema, some (boundaryOf 1), sink mem),
    ("ExternalPowerplant", powerTopology, some (boundaryOf 2), powerNode .plant mem),
    ("Innode", idSchema, none, innode),
    ("PQnode", powerTopology, some (boundaryOf 2), powerNode (.power .pq) mem),
    ("PVnode", powerTopology, some (boundaryOf 2), powerNode (.power .pv) mem),
    ("Pressureboundarynode", idSchema, some (boundaryOf 1), pressureNode mem),
    ("Sink", idSchema, some (boundaryOf 1), sink mem),
    ("Source", idSchema, some (boundaryOf 1), source mem),
    ("StochasticPQnode", stochasticTopology, some stochasticBoundary, stochasticNode draws mem),
    ("Vphinode", powerTopology, some (boundaryOf 2), powerNode (.power .vphi) mem)]

/-- The types of edges — `Full_factory.cpp` 40-42, `Gas_factory.cpp` 44-49, `Power_factory.cpp` 38-39. -/
noncomputable def edgeList : List (String × Json × Option Json × (Json → Res Network.EdgeKind)) :=
  [("Compressorstation", edgeSchema, none, short .compressor),
    ("Controlvalve", edgeSchema, none, short .controlvalve),
    ("Gaspowerconnection", connectionTopology, none, connection),
    ("Pipe", pipeTopology, none, pipe),
    ("Shortpipe", edgeSchema, none, short .shortpipe),
    ("Transmissionline", lineTopology, none, line)]

/-- `Full_factory` — `Full_factory.cpp` 49-51, and `build_net` with it — `commands.cpp` 82-88. -/
noncomputable def readNet (draws : Json → Res (ℝ → Res (ℝ × ℝ))) (mem : ℕ → ℝ) (defaults topology boundary : Json) :
    Res (Graph Network.Node Network.EdgeKind) := do
  let nodes ← Res.each (nodeList draws mem) (withDefaults defaults)
  let edges ← Res.each edgeList (withDefaults defaults)
  buildNet accepts nodes edges topology boundary

end Verif.Read
