import Verif.Read.Model

/-!
# Model of the generation of schemas for the files of a problem

Sources: `/repo/src/Model/Componentfactory/Componentfactory.cpp`, `include/Componentfactory.hpp` and
`/repo/src/Auxillary/json_schema/schema_generation.cpp`.

The command `grazer schema make-full-factory` writes json schemas which editors use to check the files of a problem. The
texts of titles and descriptions are left out.
-/

set_option autoImplicit false

namespace Verif.Editor

open Verif.Json Verif.Factory Verif.Schema Verif.Read

/-! ## Schemas of components -/

/-- `get_schema(false, false)` of node and edge types — `Componentfactory.hpp` 241-267, 344-370. -/
def topologyPart {α : Type} (t : ComponentType α) : Res Json := do
  let s ← addDefaults t.schema t.defaults
  removeDefaults s

/-- `get_component_boundary_schema`, `get_component_control_schema` and `get_component_initial_schema` with `false` —
`Componentfactory.hpp` 62-117. The key is "boundary_values", "control_values" or "initial_values", the schema that of the
component. -/
def otherPart (key : String) (defaults schema : Json) : Res Json := do
  let d ← valueOr defaults key
  let s ← addDefaults schema d
  removeDefaults s

/-- `get_initial_schema` of the components with states: `Powernode.cpp` 49-55 for the nodes of the grid, `Pipe.cpp` 65-71,
`Shortcomponent.cpp` 26-33 and `Gaspowerconnection.cpp` 45-52. -/
def initialOf : String → Option (Res Json)
  | "ExternalPowerplant" | "PQnode" | "PVnode" | "StochasticPQnode" | "Vphinode" | "Gaspowerconnection" => some singleSchema
  | "Pipe" => some pipeSchema
  | "Compressorstation" | "Controlvalve" | "Shortpipe" => some shortSchema
  | _ => none

/-- `get_control_schema` of the components with controls: `Compressorstation.cpp` 39-41, `Controlvalve.cpp` 29-31. -/
def controlOf : String → Option (Res Json)
  | "Compressorstation" | "Controlvalve" => some (Verif.Schema.boundarySchema 1)
  | _ => none

/-! ## Schemas of files -/

/-- The object for one class, nodes or connections — `Componentfactory.cpp` 39-40 and 45-53. -/
def classSchema (types : List (String × Json)) : Json :=
  obj [("additionalProperties", Json.bool false), ("properties", obj types), ("type", str "object")]

/-- The schema of a file — `Componentfactory.cpp` 33-43, 71-81, 109-119, 148-158. -/
def fileSchema (nodes edges : List (String × Json)) : Json :=
  obj [("$schema", str "http://json-schema.org/draft-07/schema"), ("description", str ""),
    ("properties", obj [("connections", classSchema edges), ("nodes", classSchema nodes)]),
    ("required", arr [str "nodes", str "connections"]), ("title", str "")]

/-- One round of the loops over the types for the topology — `Componentfactory.cpp` 160-165, 168-172. -/
def topologyEntry {α : Type} (t : String × ComponentType α) : Res (String × Json) := do
  let s ← topologyPart t.2
  let l ← listSchema s (obj [])
  Res.ok (t.1, l)

/-- One round of the loops over the types for the other files — 46-53, 84-91, 122-129: types without such data are
left out. -/
def otherEntry (key : String) (t : String × Json × Option (Res Json)) : Res (List (String × Json)) :=
  match t.2.2 with
  | none => Res.ok []
  | some schema => do
    let schema ← schema
    let s ← otherPart key t.2.1 schema
    let l ← listSchema s (obj [])
    Res.ok [(t.1, l)]

/-- The types with their defaults — `Full_factory.cpp` 49-51. -/
noncomputable def nodeTypes (draws : Json → Res (ℝ → Res (ℝ × ℝ))) (mem : ℕ → ℝ) (defaults : Json) :
    Res (List (String × ComponentType Network.Node)) := Res.each (nodeList draws mem) (withDefaults defaults)

/-- The types with their defaults — `Full_factory.cpp` 49-51. -/
noncomputable def edgeTypes (defaults : Json) : Res (List (String × ComponentType Network.EdgeKind)) :=
  Res.each edgeList (withDefaults defaults)

/-- `get_topology_schema(false, false)` — `Componentfactory.cpp` 145-176. -/
noncomputable def topologyFile (draws : Json → Res (ℝ → Res (ℝ × ℝ))) (mem : ℕ → ℝ) (defaults : Json) : Res Json := do
  let nodes ← nodeTypes draws mem defaults
  let edges ← edgeTypes defaults
  let ns ← Res.each nodes topologyEntry
  let es ← Res.each edges topologyEntry
  Res.ok (fileSchema ns es)

/-- `get_boundary_schema(false)`, `get_initial_schema(false)` and `get_control_schema(false)` — `Componentfactory.cpp` 31-143;
`part` gives the schema of a type for this file. -/
noncomputable def otherFile (draws : Json → Res (ℝ → Res (ℝ × ℝ))) (mem : ℕ → ℝ) (defaults : Json) (key : String)
    (part : ∀ {α : Type}, String × ComponentType α → Option (Res Json)) : Res Json := do
  let nodes ← nodeTypes draws mem defaults
  let edges ← edgeTypes defaults
  let ns ← Res.each nodes fun t => otherEntry key (t.1, t.2.defaults, part t)
  let es ← Res.each edges fun t => otherEntry key (t.1, t.2.defaults, part t)
  Res.ok (fileSchema ns.flatten es.flatten)

/-- `get_boundary_schema(false)`. -/
noncomputable def boundaryFile (draws : Json → Res (ℝ → Res (ℝ × ℝ))) (mem : ℕ → ℝ) (defaults : Json) : Res Json :=
  otherFile draws mem defaults "boundary_values" fun t => t.2.boundary.map Res.ok

/-- `get_initial_schema(false)`. -/
noncomputable def initialFile (draws : Json → Res (ℝ → Res (ℝ × ℝ))) (mem : ℕ → ℝ) (defaults : Json) : Res Json :=
  otherFile draws mem defaults "initial_values" fun t => initialOf t.1

/-- `get_control_schema(false)`. -/
noncomputable def controlFile (draws : Json → Res (ℝ → Res (ℝ × ℝ))) (mem : ℕ → ℝ) (defaults : Json) : Res Json :=
  otherFile draws mem defaults "control_values" fun t => controlOf t.1

/-- The schemas that `make_full_factory_schemas` writes for the files of topology, boundary values, initial values and
controls — `schema_generation.cpp` 63-80, where the defaults are those of the problem, 38-58. (That of the
problem itself does not depend on anything.) All of them are made before anything is written. -/
structure Schemas where
  topology : Json
  boundary : Json
  initial : Json
  control : Json

/-- See `Schemas`. -/
noncomputable def generate (draws : Json → Res (ℝ → Res (ℝ × ℝ))) (mem : ℕ → ℝ) (defaults : Json) : Res Schemas := do
  let t ← topologyFile draws mem defaults
  let i ← initialFile draws mem defaults
  let b ← boundaryFile draws mem defaults
  let c ← controlFile draws mem defaults
  Res.ok ⟨t, b, i, c⟩

end Verif.Editor
