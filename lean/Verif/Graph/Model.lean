import Verif.Json.Schema
import Verif.Json.Insert

/-!
# Model of the factory of components and of the graph of a network

Sources: `/repo/src/Model/Componentfactory/include/Componentfactory.hpp`, `/repo/src/Model/Netfactory/Netfactory.cpp`,
`/repo/src/Model/Network/Edge.cpp`, `Node.cpp` and `Net.cpp`.

A pointer to a node or an edge is modelled by the position of the object in the vector of nodes or edges. The objects live
behind unique pointers, so that they do not move when these vectors grow or are passed on.
-/

set_option autoImplicit false

namespace Verif.Factory

open Verif.Json

/-- `push_back` of a name to a json, where null becomes an array. -/
def pushName (name : String) : Json → Res Json
  | null => Res.ok (arr [str name])
  | arr l => Res.ok (arr (l ++ [str name]))
  | _ => Res.throws

/-- `add_required` — `make_schema.cpp` 173-178. -/
def addRequired (schema : Json) (name : String) (definition : Json) : Res Json := do
  let required ← pushName name ((schema.find? "required").getD null)
  let s ← schema.set "required" required
  let p ← ((s.find? "properties").getD null).set name definition
  s.set "properties" p

/-- `j.value(key, {})`. -/
def valueOr (j : Json) (key : String) : Res Json :=
  if j.isObj then Res.ok ((j.find? key).getD (obj [])) else Res.throws

/-- `NodeType` and `EdgeType` — `Componentfactory.hpp` 226-313 and 331-421. The schema, the boundary schema of boundary value
components, the defaults for the type and the constructor of the derived class, of which only is used that it gets the json. -/
structure ComponentType (α : Type) where
  schema : Json
  boundary : Option Json
  defaults : Json
  construct : Json → Res α

/-- `get_schema(true, true)` — 241-269, 344-372, with `get_component_boundary_schema` 62-79. -/
def typeSchema {α : Type} (t : ComponentType α) : Res Json := do
  let s ← match t.boundary with
    | none => Res.ok t.schema
    | some b => do
      let d ← valueOr t.defaults "boundary_values"
      let b' ← addDefaults b d
      addRequired t.schema "boundary_values" b'
  addDefaults s t.defaults

/-- The first part of `make_instance` — 301-307, 405-412: the data with defaults, if they are valid. Validation is done by
a library, `valid schema data` is its verdict. -/
def prepare {α : Type} (valid : Json → Json → Bool) (t : ComponentType α) (data : Json) : Res Json := do
  let s ← typeSchema t
  let data' ← applyDefaults s data
  if valid s data' then Res.ok data' else Res.throws

/-- A node: its id, the data of the derived class and the attached edges. -/
structure Node (ν : Type) where
  id : String
  data : ν
  starting : List ℕ
  ending : List ℕ

/-- An edge: its id, the data of the derived class and both ends. -/
structure Edge (ε : Type) where
  id : String
  data : ε
  src : ℕ
  dst : ℕ

/-- Nodes and edges. -/
structure Graph (ν ε : Type) where
  nodes : List (Node ν)
  edges : List (Edge ε)

variable {ν ε : Type}

/-- `make_instance` for nodes — `Componentfactory.hpp` 301-312, `Node.cpp` 26-27. -/
def makeNode (valid : Json → Json → Bool) (t : ComponentType ν) (data : Json) : Res (Node ν) := do
  let data' ← prepare valid t data
  let id ← rawId data'
  let d ← t.construct data'
  Res.ok ⟨id, d, [], []⟩

/-- `get_node_from_json` — `Edge.cpp` 56-93; the key is "from" or "to". -/
def endNode (key : String) (data : Json) (nodes : List (Node ν)) : Res ℕ := do
  let i ← data.index key
  let id ← i.getStr
  match nodes.findIdx? fun n => id == n.id with
  | some v => Res.ok v
  | none => Res.throws

/-- `attach_starting_edge` — `Node.cpp` 59-65; the condition is met by the only caller. -/
def attachStart (k : ℕ) (n : Node ν) : Node ν := { n with starting := n.starting ++ [k] }

/-- `attach_ending_edge` — `Node.cpp` 67-73. -/
def attachEnd (k : ℕ) (n : Node ν) : Node ν := { n with ending := n.ending ++ [k] }

/-- `make_instance` for edges — `Componentfactory.hpp` 402-420, `Edge.cpp` 37-48, together with `push_back` in
`Netfactory.cpp` 141. (If the constructor of the derived class throws, the edge has been attached already, but then
nothing is built at all.) -/
def makeEdge (valid : Json → Json → Bool) (t : ComponentType ε) (g : Graph ν ε) (data : Json) : Res (Graph ν ε) := do
  let data' ← prepare valid t data
  let id ← rawId data'
  let start ← endNode "from" data' g.nodes
  let stop ← endNode "to" data' g.nodes
  if start = stop then Res.throws
  else do
    let d ← t.construct data'
    Res.ok ⟨(g.nodes.modify start (attachStart g.edges.length)).modify stop (attachEnd g.edges.length),
      g.edges ++ [⟨id, d, start, stop⟩]⟩

/-- Is there an unknown type? — `Netfactory.cpp` 83-91, 119-128. -/
def unknownType {τ : Type} (types : List (String × τ)) (topology : Json) : Bool :=
  topology.items.any fun x => (types.lookup x.1).isNone

/-- `build_node_vector` — 72-105. The map of types is a list, in the order of the names. -/
def buildNodes (valid : Json → Json → Bool) (types : List (String × ComponentType ν)) (topology : Json) :
    Res (List (Node ν)) :=
  if unknownType types topology then Res.throws
  else do
    let vs ← Res.each types fun t =>
      match topology.find? t.1 with
      | none => Res.ok []
      | some l => Res.each l.elements (makeNode valid t.2)
    Res.ok vs.flatten

/-- `build_edge_vector` — 107-145. -/
def buildEdges (valid : Json → Json → Bool) (types : List (String × ComponentType ε)) (topology : Json)
    (nodes : List (Node ν)) : Res (Graph ν ε) :=
  if unknownType types topology then Res.throws
  else Res.fold types ⟨nodes, []⟩ fun g t =>
    match topology.find? t.1 with
    | none => Res.ok g
    | some l => Res.fold l.elements g (makeEdge valid t.2)

/-- The checks in the constructor of `Net` — `Net.cpp` 27-81. -/
def netCheck (g : Graph ν ε) : Res Unit :=
  if g.edges.zipIdx.all fun x =>
      (match g.nodes[x.1.src]? with
        | some n => n.starting.contains x.2
        | none => false) &&
      (match g.nodes[x.1.dst]? with
        | some n => n.ending.contains x.2
        | none => false) then Res.ok ()
  else Res.throws

/-- `build_net` — `Netfactory.cpp` 201-214, from the topology with boundary values. -/
def buildGraph (valid : Json → Json → Bool) (nodeTypes : List (String × ComponentType ν))
    (edgeTypes : List (String × ComponentType ε)) (topology : Json) : Res (Graph ν ε) := do
  let nodes ← buildNodes valid nodeTypes ((topology.find? "nodes").getD null)
  let g ← buildEdges valid edgeTypes ((topology.find? "connections").getD null) nodes
  netCheck g
  Res.ok g

/-- `build_net` from both jsons. -/
def buildNet (valid : Json → Json → Bool) (nodeTypes : List (String × ComponentType ν))
    (edgeTypes : List (String × ComponentType ε)) (topology boundary : Json) : Res (Graph ν ε) := do
  let full ← buildFull topology boundary
  buildGraph valid nodeTypes edgeTypes full

/-- `get_node_by_id` — `Net.cpp` 115-124. -/
def Graph.nodeById (g : Graph ν ε) (id : String) : Option ℕ := g.nodes.findIdx? fun n => id == n.id

/-- `get_edge_by_id` — 165-175. -/
def Graph.edgeById (g : Graph ν ε) (id : String) : Option ℕ := g.edges.findIdx? fun e => id == e.id

/-- The id of a node behind a pointer. -/
def Graph.nodeId (g : Graph ν ε) (v : ℕ) : Option String := g.nodes[v]?.map Node.id

/-- `get_edge_by_node_ids` — 148-163. -/
def Graph.edgeByNodeIds (g : Graph ν ε) (id1 id2 : String) : Option ℕ :=
  g.edges.findIdx? fun e => (g.nodeId e.src == some id1) && (g.nodeId e.dst == some id2)

/-- `exists_edge_between` — 177-193. -/
def Graph.edgeBetween (g : Graph ν ε) (id1 id2 : String) : Bool :=
  (g.edges.find? fun e => ((g.nodeId e.src == some id1) && (g.nodeId e.dst == some id2)) ||
    ((g.nodeId e.src == some id2) && (g.nodeId e.dst == some id1))).isSome

end Verif.Factory
