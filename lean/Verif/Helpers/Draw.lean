import Verif.Basic.Loop
import Verif.Json.Basic
import Verif.Schema.Model
import Verif.Helpers.Heatmap
import Mathlib.Algebra.BigOperators.Group.List.Basic
import Mathlib.Data.List.Perm.Basic
import Mathlib.Data.List.Nodup

/-!
# The helper programs drawing graphs (C159, C160, C161)

`helper_functions/draw_gaslib_graph.cpp`, `draw_power_graph.cpp`, `draw_heatmap_gaslib.cpp` and `draw_heatmap_power.cpp`: which
nodes and edges are drawn, where, and with which label. Colours are in `Heatmap`. The heat map programs sort the topology by ids
and insert the results before; here this has been done. Numbers are rational; that they are printed with six digits only is not
modelled. The text of the third or fourth argument has been converted to a number.
-/

set_option autoImplicit false

namespace Verif.Helpers.Draw

open Verif.Json Verif.Schema

/-! ## Model -/

/-- What differs between the four programs: types of nodes, types of edges, the number by which positions are divided if none is
given, and how many characters of the id are left out in the label. -/
structure Program where
  nodetypes : List String
  edgetypes : List String
  standard : ℚ
  cut : ℕ

/-- `draw_gaslib_graph.cpp` 41-42, 53-55, 99. -/
def gasGraph : Program := ⟨["Source", "Sink", "Innode"], ["Pipe", "Controlvalve", "Compressorstation", "Shortpipe"], 10, 5⟩

/-- `draw_power_graph.cpp` 45-47, 50-51, 103. -/
def powerGraph : Program :=
  ⟨["PQnode", "PVnode", "Vphinode", "StochasticPQnode", "ExternalPowerplant"], ["Transmissionline"], 1 / 10, 0⟩

/-- `draw_heatmap_gaslib.cpp` 84-86, 95-96, 147. -/
def gasHeatmap : Program := ⟨["Source", "Innode"], ["Pipe", "Controlvalve", "Compressorstation"], 10, 5⟩

/-- `draw_heatmap_power.cpp` 71-73, 82-83, 162. -/
def powerHeatmap : Program :=
  ⟨["PQnode", "PVnode", "Vphinode", "StochasticPQnode", "ExternalPowerplant"], ["Transmissionline"], 1 / 10, 0⟩

/-- `topology["nodes"]` where the key is added with value null if it is missing. -/
def classOf (topology : Json) (name : String) : Res Json :=
  match topology with
  | null => Res.ok null
  | obj m => Res.ok ((m.lookup name).getD null)
  | _ => Res.throws

/-- The body of the loop over nodes — `draw_gaslib_graph.cpp` 78-81, `draw_power_graph.cpp` 80-83, `draw_heatmap_gaslib.cpp`
122-125, `draw_heatmap_power.cpp` 131-134. -/
def readNode (node : Json) : Res (String × ℚ × ℚ) := do
  let j ← node.index "id"
  let id ← j.getStr
  let j ← node.index "x"
  let x ← getNum j
  let j ← node.index "y"
  let y ← getNum j
  Res.ok (id, x, y)

/-- The body of the loop over edges — `draw_gaslib_graph.cpp` 113-116, `draw_power_graph.cpp` 122-124, `draw_heatmap_gaslib.cpp`
206-207, `draw_heatmap_power.cpp` 217-219. -/
def readEdge (edge : Json) : Res (String × String) := do
  let j ← edge.index "from"
  let source ← j.getStr
  let j ← edge.index "to"
  let target ← j.getStr
  Res.ok (source, target)

/-- The loops over types — `draw_gaslib_graph.cpp` 72-83 and 108-118, `draw_power_graph.cpp` 72-89 and 116-126,
`draw_heatmap_gaslib.cpp` 116-127 and 197-233, `draw_heatmap_power.cpp` 104-140 and 211-221. -/
def ofTypes {α : Type} (read : Json → Res α) (class' : Json) : List String → Res (List α)
  | [] => Res.ok []
  | type :: types =>
    match class'.find? type with
    | none => ofTypes read class' types
    | some l => do
      let first ← Res.each l.elements read
      let rest ← ofTypes read class' types
      Res.ok (first ++ rest)

/-- A node in the picture. -/
structure Drawn where
  id : String
  x : ℚ
  y : ℚ
  label : String

/-- The nodes and edges written to the file, in this order. -/
structure Picture where
  nodes : List Drawn
  edges : List (String × String)

/-- `xmean` and `ymean` — `draw_gaslib_graph.cpp` 85-93, `draw_power_graph.cpp` 91-99, `draw_heatmap_gaslib.cpp` 129-137,
`draw_heatmap_power.cpp` 142-150. Without nodes this is not a number, but it isn't used then. -/
def mean (values : List ℚ) : ℚ := values.foldl (· + ·) 0 / values.length

/-- The lines of the nodes — `draw_gaslib_graph.cpp` 95-106, `draw_power_graph.cpp` 101-114, `draw_heatmap_gaslib.cpp` 143-168,
`draw_heatmap_power.cpp` 156-181. A division by zero, which prints infinities, is not modelled. -/
def place (cut : ℕ) (divideby : ℚ) (nodes : List (String × ℚ × ℚ)) : List Drawn :=
  nodes.map fun n =>
    ⟨n.1, (n.2.1 - mean (nodes.map (·.2.1))) / divideby, (n.2.2 - mean (nodes.map (·.2.2))) / divideby,
      String.ofList (n.1.toList.drop cut)⟩

/-- The main function. -/
def draw (P : Program) (divideby : Option ℚ) (topology : Json) : Res Picture := do
  let class' ← classOf topology "nodes"
  let nodes ← ofTypes readNode class' P.nodetypes
  let class' ← classOf topology "connections"
  let edges ← ofTypes readEdge class' P.edgetypes
  Res.ok ⟨place P.cut (divideby.getD P.standard) nodes, edges⟩

/-- The smallest value — `draw_heatmap_gaslib.cpp` 160-165, `draw_heatmap_power.cpp` 173-178. -/
def lower (start : ℚ) (values : List ℚ) : ℚ := values.foldl (fun m v => if v < m then v else m) start

/-- `legend_x` — `draw_heatmap_gaslib.cpp` 139-140, 154-165, 170, where the maximum starts with `-big` and the minimum with `big`,
and `draw_heatmap_power.cpp` 152-153, 167-178, 183, where both start with zero. -/
def legendX (startMin startMax : ℚ) (nodes : List Drawn) : ℚ :=
  let maxX := Heatmap.raise startMax (nodes.map Drawn.x)
  let minX := lower startMin (nodes.map Drawn.x)
  maxX + 1 / 10 * (maxX - minX)

/-- The height of the mark `i` of the legend — `draw_heatmap_gaslib.cpp` 141-142, 182, 185, `draw_heatmap_power.cpp` 154-155, 199,
202. -/
def legendY (startMin startMax : ℚ) (nodes : List Drawn) (i : ℕ) : ℚ :=
  let maxY := Heatmap.raise startMax (nodes.map Drawn.y)
  let minY := lower startMin (nodes.map Drawn.y)
  minY + i * (1 / 100) * (maxY - minY)

/-! ## Specification -/

/-- A network as its user sees it: nodes with ids and positions and edges with their ends, by type. -/
structure Network where
  nodes : List (String × List (String × ℚ × ℚ))
  edges : List (String × List (String × String))

/-- The node, with any other data. -/
def IsNode (j : Json) (n : String × ℚ × ℚ) : Prop :=
  j.find? "id" = some (str n.1) ∧ j.find? "x" = some (num n.2.1) ∧ j.find? "y" = some (num n.2.2)

/-- The edge, with any other data. -/
def IsEdge (j : Json) (e : String × String) : Prop :=
  j.find? "from" = some (str e.1) ∧ j.find? "to" = some (str e.2)

/-- An object with a list for each type. -/
def Lists {α : Type} (is : Json → α → Prop) (j : Json) (types : List (String × List α)) : Prop :=
  (types.map Prod.fst).Nodup ∧ ∃ m, j = obj m ∧
    List.Forall₂ (fun e t => e.1 = t.1 ∧ ∃ l, e.2 = arr l ∧ List.Forall₂ is l t.2) m types

/-- The topology describes the network. -/
def Describes (topology : Json) (N : Network) : Prop :=
  (∃ j, topology.find? "nodes" = some j ∧ Lists IsNode j N.nodes) ∧
  ∃ j, topology.find? "connections" = some j ∧ Lists IsEdge j N.edges

/-- All nodes whose type is in the list. -/
def Network.nodesOf (N : Network) (types : List String) : List (String × ℚ × ℚ) :=
  (N.nodes.filter fun t => t.1 ∈ types).flatMap Prod.snd

/-- All edges whose type is in the list. -/
def Network.edgesOf (N : Network) (types : List String) : List (String × String) :=
  (N.edges.filter fun t => t.1 ∈ types).flatMap Prod.snd

/-- The types of gas nodes — `Gas_factory.cpp` 33-39. -/
def gasNodes : List String := ["Source", "Sink", "Innode", "ConstraintSink", "Pressureboundarynode"]
/-- The types of gas edges — `Gas_factory.cpp` 41-46. -/
def gasEdges : List String := ["Pipe", "Shortpipe", "Controlvalve", "Compressorstation"]
/-- The types of power nodes — `Power_factory.cpp` 30-35, `Full_factory.cpp` 44-46. -/
def powerNodes : List String := ["Vphinode", "PVnode", "PQnode", "StochasticPQnode", "ExternalPowerplant"]
/-- The type of power edges — `Power_factory.cpp` 37-38. -/
def powerEdges : List String := ["Transmissionline"]

/-- Edges with types in the second list join nodes with types in the first. -/
def Network.Closed (N : Network) (nodes edges : List String) : Prop :=
  ∀ e ∈ N.edgesOf edges, e.1 ∈ (N.nodesOf nodes).map Prod.fst ∧ e.2 ∈ (N.nodesOf nodes).map Prod.fst

/-- Every line ends in nodes that are in the picture, as LaTeX needs it. -/
def Picture.Valid (p : Picture) : Prop :=
  ∀ e ∈ p.edges, e.1 ∈ p.nodes.map Drawn.id ∧ e.2 ∈ p.nodes.map Drawn.id

/-- **C159** in full, for one program: of a network whose edges of the given types join nodes of the given types, it draws each
node once, each edge once, and the picture is valid. -/
def C159Statement (P : Program) (nodes edges : List String) : Prop :=
  ∀ (topology : Json) (N : Network) (divideby : Option ℚ), Describes topology N → N.Closed nodes edges →
    ∃ p, draw P divideby topology = Res.ok p ∧ p.Valid ∧
      (p.nodes.map Drawn.id).Perm ((N.nodesOf nodes).map Prod.fst) ∧ p.edges.Perm (N.edgesOf edges)

/-! ## Proofs -/

theorem readNode_is {j : Json} {n : String × ℚ × ℚ} (h : IsNode j n) : readNode j = Res.ok n := by
  obtain ⟨h1, h2, h3⟩ := h
  simp [readNode, index_of_find h1, index_of_find h2, index_of_find h3, getStr, getNum]

theorem readEdge_is {j : Json} {e : String × String} (h : IsEdge j e) : readEdge j = Res.ok e := by
  obtain ⟨h1, h2⟩ := h
  simp [readEdge, index_of_find h1, index_of_find h2, getStr]

theorem each_of_forall {α : Type} {read : Json → Res α} {is : Json → α → Prop} (hr : ∀ j a, is j a → read j = Res.ok a)
    {l : List Json} {as : List α} (h : List.Forall₂ is l as) : Res.each l read = Res.ok as := by
  induction h with
  | nil => rfl
  | cons h1 _ ih => simp [Res.each, hr _ _ h1, ih]

theorem find_lists {α : Type} {is : Json → α → Prop} {m : List (String × Json)} {types : List (String × List α)}
    (h : List.Forall₂ (fun e t => e.1 = t.1 ∧ ∃ l, e.2 = arr l ∧ List.Forall₂ is l t.2) m types) (key : String) :
    (m.lookup key = none ∧ types.lookup key = none) ∨
    ∃ l as, m.lookup key = some (arr l) ∧ types.lookup key = some as ∧ List.Forall₂ is l as := by
  induction h with
  | nil => simp
  | @cons e t _ _ h1 _ ih =>
    obtain ⟨k, v⟩ := e
    obtain ⟨k', as⟩ := t
    obtain ⟨hk, l, hv, hl⟩ := h1
    simp only at hk hv hl
    subst hk hv
    by_cases hkey : key = k
    · subst hkey
      exact Or.inr ⟨l, as, by simp, by simp, hl⟩
    · have : (key == k) = false := by simpa using hkey
      simpa [List.lookup, this] using ih

/-- The elements of the types of a list, in the order of that list. -/
def inOrder {α : Type} (types : List (String × List α)) (names : List String) : List α :=
  names.flatMap fun name => (types.lookup name).getD []

theorem ofTypes_lists {α : Type} {read : Json → Res α} {is : Json → α → Prop} (hr : ∀ j a, is j a → read j = Res.ok a)
    {j : Json} {types : List (String × List α)} (h : Lists is j types) (names : List String) :
    ofTypes read j names = Res.ok (inOrder types names) := by
  obtain ⟨-, m, rfl, hm⟩ := h
  induction names with
  | nil => rfl
  | cons name names ih =>
    rcases find_lists hm name with ⟨h1, h2⟩ | ⟨l, as, h1, h2, h3⟩
    · simp only [ofTypes, find?, h1, ih]
      simp [inOrder, h2]
    · simp only [ofTypes, find?, h1, ih, elements, each_of_forall hr h3]
      simp [inOrder, h2]

theorem inOrder_nil {α : Type} (names : List String) : inOrder ([] : List (String × List α)) names = [] := by
  simp [inOrder]

theorem inOrder_cons_of_not_mem {α : Type} (t : String × List α) (types : List (String × List α)) {names : List String}
    (h : t.1 ∉ names) : inOrder (t :: types) names = inOrder types names := by
  unfold inOrder
  induction names with
  | nil => rfl
  | cons name names ih =>
    simp only [List.mem_cons, not_or] at h
    have : (name == t.1) = false := by simpa using Ne.symm h.1
    simp only [List.flatMap_cons, ih h.2]
    rw [show (t :: types).lookup name = types.lookup name by obtain ⟨k, v⟩ := t; simp [List.lookup, this]]

theorem inOrder_cons_of_mem {α : Type} (t : String × List α) (types : List (String × List α)) (ht : t.1 ∉ types.map Prod.fst) :
    ∀ {names : List String}, names.Nodup → t.1 ∈ names → (inOrder (t :: types) names).Perm (t.2 ++ inOrder types names)
  | [], _, h => by simp at h
  | name :: names, hn, h => by
    rw [List.nodup_cons] at hn
    have hcons : ∀ ts : List (String × List α), inOrder ts (name :: names) = (ts.lookup name).getD [] ++ inOrder ts names := by
      intro ts; simp [inOrder]
    rw [hcons, hcons]
    by_cases hk : name = t.1
    · subst hk
      have h1 : (t :: types).lookup t.1 = some t.2 := by obtain ⟨k, v⟩ := t; simp
      have h2 : types.lookup t.1 = none := by
        rw [List.lookup_eq_none_iff]
        intro p hp
        simp only [bne_iff_ne, ne_eq]
        intro he
        exact ht (List.mem_map.mpr ⟨p, hp, he.symm⟩)
      rw [h1, h2, inOrder_cons_of_not_mem t types hn.1]
      simp
    · have hne : (name == t.1) = false := by simpa using hk
      have h1 : (t :: types).lookup name = types.lookup name := by obtain ⟨k, v⟩ := t; simp [List.lookup, hne]
      rw [h1]
      have ih := inOrder_cons_of_mem t types ht hn.2 (by
        rcases List.mem_cons.mp h with h | h
        · exact absurd h.symm hk
        · exact h)
      refine (List.Perm.append_left _ ih).trans ?_
      rw [← List.append_assoc, ← List.append_assoc]
      exact List.perm_append_comm.append_right _

theorem inOrder_perm {α : Type} {names : List String} (hn : names.Nodup) : ∀ {types : List (String × List α)},
    (types.map Prod.fst).Nodup → (inOrder types names).Perm ((types.filter fun t => t.1 ∈ names).flatMap Prod.snd)
  | [], _ => by simp [inOrder_nil]
  | t :: types, h => by
    rw [List.map_cons, List.nodup_cons] at h
    have ih := inOrder_perm hn h.2
    by_cases ht : t.1 ∈ names
    · rw [List.filter_cons_of_pos (by simpa using ht), List.flatMap_cons]
      exact (inOrder_cons_of_mem t types h.1 hn ht).trans (ih.append_left _)
    · rw [List.filter_cons_of_neg (by simpa using ht), inOrder_cons_of_not_mem t types ht]
      exact ih

theorem classOf_find {topology j : Json} {name : String} (h : topology.find? name = some j) :
    classOf topology name = Res.ok j := by
  cases topology <;> simp_all [find?, classOf]

/-- What is drawn of a network. -/
theorem draw_eq (P : Program) {topology : Json} {N : Network} (divideby : Option ℚ) (h : Describes topology N) :
    draw P divideby topology =
      Res.ok ⟨place P.cut (divideby.getD P.standard) (inOrder N.nodes P.nodetypes), inOrder N.edges P.edgetypes⟩ := by
  obtain ⟨⟨j, hj, hl⟩, k, hk, hm⟩ := h
  simp [draw, classOf_find hj, classOf_find hk, ofTypes_lists (is := IsNode) (fun _ _ h => readNode_is h) hl,
    ofTypes_lists (is := IsEdge) (fun _ _ h => readEdge_is h) hm]

theorem place_ids (cut : ℕ) (divideby : ℚ) (nodes : List (String × ℚ × ℚ)) :
    (place cut divideby nodes).map Drawn.id = nodes.map Prod.fst := by
  simp [place, List.map_map, Function.comp_def]

/-- **C159**, all four programs: for every network, the nodes with the types of the program are drawn, each once, and so are the
edges with the types of the program; nothing else is. -/
theorem C159_drawn (P : Program) (h : P.nodetypes.Nodup ∧ P.edgetypes.Nodup) {topology : Json} {N : Network} (divideby : Option ℚ)
    (hd : Describes topology N) :
    ∃ p, draw P divideby topology = Res.ok p ∧ (p.nodes.map Drawn.id).Perm ((N.nodesOf P.nodetypes).map Prod.fst) ∧
      p.edges.Perm (N.edgesOf P.edgetypes) := by
  refine ⟨_, draw_eq P divideby hd, ?_, ?_⟩
  · rw [place_ids]
    obtain ⟨⟨j, -, hn, -⟩, -⟩ := hd
    exact (inOrder_perm h.1 hn).map _
  · obtain ⟨-, k, -, hn, -⟩ := hd
    exact inOrder_perm h.2 hn

theorem statement_of_types {P : Program} {nodes edges : List String} (h : P.nodetypes.Nodup ∧ P.edgetypes.Nodup)
    (hn : ∀ t, t ∈ P.nodetypes ↔ t ∈ nodes) (he : ∀ t, t ∈ P.edgetypes ↔ t ∈ edges) : C159Statement P nodes edges := by
  intro topology N divideby hd hc
  obtain ⟨p, hp, h1, h2⟩ := C159_drawn P h divideby hd
  have hN : N.nodesOf P.nodetypes = N.nodesOf nodes := by simp [Network.nodesOf, hn]
  have hE : N.edgesOf P.edgetypes = N.edgesOf edges := by simp [Network.edgesOf, he]
  rw [hN] at h1
  rw [hE] at h2
  refine ⟨p, hp, fun e hep => ?_, h1, h2⟩
  obtain ⟨h3, h4⟩ := hc e (h2.mem_iff.mp hep)
  exact ⟨h1.mem_iff.mpr h3, h1.mem_iff.mpr h4⟩

/-- **C159** for power networks. -/
theorem C159_power : C159Statement powerGraph powerNodes powerEdges ∧ C159Statement powerHeatmap powerNodes powerEdges := by
  constructor <;>
    exact statement_of_types (by decide +kernel) (by intro t; simp [powerGraph, powerHeatmap, powerNodes]; tauto)
      (by intro t; simp [powerGraph, powerHeatmap, powerEdges])

/-- **C159 (partial)** for gas networks without nodes of type `ConstraintSink` and `Pressureboundarynode`. (Missing are these:
`C159_false`.) -/
theorem C159_partial : C159Statement gasGraph ["Source", "Sink", "Innode"] gasEdges :=
  statement_of_types (by decide +kernel) (by intro t; simp [gasGraph])
    (by intro t; simp [gasGraph, gasEdges]; tauto)

/-- A pipe to a node of the given type. -/
def exampleNetwork (type : String) : Network :=
  ⟨[("Source", [("node_1", 0, 0)]), (type, [("node_2", 4, 2)])], [("Pipe", [("node_1", "node_2")])]⟩

/-- Its topology, with further data. -/
def exampleTopology (type : String) : Json :=
  obj [("connections", obj [("Pipe", arr [obj [("from", str "node_1"), ("id", str "p"), ("to", str "node_2")]])]),
    ("nodes", obj [("Source", arr [obj [("id", str "node_1"), ("x", num 0), ("y", num 0)]]),
      (type, arr [obj [("id", str "node_2"), ("x", num 4), ("y", num 2)]])])]

theorem example_describes {type : String} (h : type ≠ "Source") : Describes (exampleTopology type) (exampleNetwork type) := by
  refine ⟨⟨_, rfl, by simp [exampleNetwork, h.symm], _, rfl, ?_⟩, _, rfl, by simp [exampleNetwork], _, rfl, ?_⟩
  · refine .cons ⟨rfl, _, rfl, .cons ⟨rfl, rfl, rfl⟩ .nil⟩ (.cons ⟨rfl, _, rfl, .cons ⟨rfl, rfl, rfl⟩ .nil⟩ .nil)
  · exact .cons ⟨rfl, _, rfl, .cons ⟨rfl, rfl⟩ .nil⟩ .nil

theorem example_closed {type : String} {nodes edges : List String} (hs : "Source" ∈ nodes) (ht : type ∈ nodes)
    (he : "Pipe" ∈ edges) : (exampleNetwork type).Closed nodes edges := by
  simp [Network.Closed, Network.edgesOf, Network.nodesOf, exampleNetwork, hs, ht, he]

/-- The line of the pipe is drawn but ends nowhere. -/
theorem example_invalid {P : Program} {type : String} {nodes edges : List String} (h : P.nodetypes.Nodup ∧ P.edgetypes.Nodup)
    (hS : type ≠ "Source") (ht : type ∉ P.nodetypes) (hp : "Pipe" ∈ P.edgetypes) (hs : "Source" ∈ nodes) (hT : type ∈ nodes)
    (he : "Pipe" ∈ edges) : ¬ C159Statement P nodes edges := by
  intro hC
  obtain ⟨p, hdraw, hv, -⟩ := hC _ _ none (example_describes hS) (example_closed hs hT he)
  obtain ⟨p', hdraw', h1, h2⟩ := C159_drawn P h none (example_describes hS)
  rw [hdraw] at hdraw'
  cases hdraw'
  have hmem : ("node_1", "node_2") ∈ p.edges := h2.mem_iff.mpr (by simp [Network.edgesOf, exampleNetwork, hp])
  have := h1.mem_iff.mp (hv _ hmem).2
  by_cases hs' : "Source" ∈ P.nodetypes <;> simp [Network.nodesOf, exampleNetwork, ht, hs'] at this

/-- **C159 is false** for gas networks: the line to a `ConstraintSink` or a `Pressureboundarynode` ends in a node that is not in the
picture, and with the heat map program so does every line to a `Sink`. -/
theorem C159_false : ¬ C159Statement gasGraph gasNodes gasEdges ∧ ¬ C159Statement gasHeatmap ["Source", "Sink", "Innode"] gasEdges := by
  constructor
  · exact example_invalid (type := "ConstraintSink") (by decide +kernel) (by decide +kernel) (by decide +kernel) (by decide +kernel)
      (by decide +kernel) (by decide +kernel) (by decide +kernel)
  · exact example_invalid (type := "Sink") (by decide +kernel) (by decide +kernel) (by decide +kernel) (by decide +kernel)
      (by decide +kernel) (by decide +kernel) (by decide +kernel)

/-- Networks to which the theorems apply. -/
example : Describes (exampleTopology "Sink") (exampleNetwork "Sink") ∧
    (exampleNetwork "Sink").Closed ["Source", "Sink", "Innode"] gasEdges :=
  ⟨example_describes (by decide +kernel), example_closed (by decide +kernel) (by decide +kernel) (by decide +kernel)⟩

/-! ## Positions -/

theorem foldl_add (l : List ℚ) : ∀ s : ℚ, l.foldl (· + ·) s = s + l.sum := by
  induction l with
  | nil => simp
  | cons a l ih => intro s; simp [ih, add_assoc]

theorem sum_centred (l : List ℚ) (divideby : ℚ) : (l.map fun x => (x - mean l) / divideby).sum = 0 := by
  have h : ∀ (k : List ℚ) (c : ℚ), (k.map fun x => (x - c) / divideby).sum = (k.sum - k.length * c) / divideby := by
    intro k c
    induction k with
    | nil => simp
    | cons a k ih => simp only [List.map_cons, List.sum_cons, ih, List.length_cons]; push_cast; ring
  rw [h]
  unfold mean
  rw [foldl_add, zero_add]
  cases l with
  | nil => simp
  | cons a l =>
    rw [mul_div_cancel₀ _ (by simp only [List.length_cons]; positivity), sub_self, zero_div]

theorem place_x (cut : ℕ) (divideby : ℚ) (nodes : List (String × ℚ × ℚ)) :
    (place cut divideby nodes).map Drawn.x = (nodes.map (·.2.1)).map fun x => (x - mean (nodes.map (·.2.1))) / divideby := by
  simp [place, List.map_map, Function.comp_def]

theorem place_y (cut : ℕ) (divideby : ℚ) (nodes : List (String × ℚ × ℚ)) :
    (place cut divideby nodes).map Drawn.y = (nodes.map (·.2.2)).map fun y => (y - mean (nodes.map (·.2.2))) / divideby := by
  simp [place, List.map_map, Function.comp_def]

/-- **C160**, all four programs: the picture is centred at zero, and the differences of the positions of two nodes, times the
factor, are those of the network. The label is the id without its first characters. -/
theorem C160_positions (P : Program) (hP : P.nodetypes.Nodup ∧ P.edgetypes.Nodup) {topology : Json} {N : Network} (factor : ℚ)
    (hf : factor ≠ 0) (hd : Describes topology N) :
    ∃ p, draw P (some factor) topology = Res.ok p ∧ (p.nodes.map Drawn.x).sum = 0 ∧ (p.nodes.map Drawn.y).sum = 0 ∧
      ∃ nodes, nodes.Perm (N.nodesOf P.nodetypes) ∧
        List.Forall₂ (fun d n => d.id = n.1 ∧ d.label = String.ofList (n.1.toList.drop P.cut)) p.nodes nodes ∧
        ∀ (i j : ℕ) (d e : Drawn) (n m : String × ℚ × ℚ), p.nodes[i]? = some d → p.nodes[j]? = some e → nodes[i]? = some n →
          nodes[j]? = some m → (d.x - e.x) * factor = n.2.1 - m.2.1 ∧ (d.y - e.y) * factor = n.2.2 - m.2.2 := by
  refine ⟨_, draw_eq P _ hd, ?_, ?_, inOrder N.nodes P.nodetypes, ?_, ?_, ?_⟩
  · simp only [place_x]; exact sum_centred _ _
  · simp only [place_y]; exact sum_centred _ _
  · obtain ⟨⟨j, -, hn, -⟩, -⟩ := hd
    exact inOrder_perm hP.1 hn
  · simp only [place, List.forall₂_map_left_iff]
    exact List.forall₂_same.mpr fun n _ => ⟨rfl, rfl⟩
  · intro i j d e n m h1 h2 h3 h4
    simp only [place, List.getElem?_map, h3, h4, Option.map_some, Option.some.injEq, Option.getD_some] at h1 h2
    subst h1 h2
    constructor <;> field_simp <;> ring

/-- **C160** (standard factor): without a factor the gas programs take 10, as documented. -/
theorem C160_standard (topology : Json) : draw gasGraph none topology = draw gasGraph (some 10) topology ∧
    draw gasHeatmap none topology = draw gasHeatmap (some 10) topology := ⟨rfl, rfl⟩

/-- **C160 is false** for the power programs without a factor: instead of the documented 10 they take 1/10, and the picture is a
hundred times as large. -/
theorem C160_false : ¬ (∀ topology, draw powerGraph none topology = draw powerGraph (some 10) topology) ∧
    ¬ ∀ topology, draw powerHeatmap none topology = draw powerHeatmap (some 10) topology := by
  have h : ∀ P : Program, P.nodetypes = ["PQnode", "PVnode", "Vphinode", "StochasticPQnode", "ExternalPowerplant"] →
      P.standard = 1 / 10 → ¬ ∀ topology, draw P none topology = draw P (some 10) topology := by
    intro P hn hs h
    have hd : Describes
        (obj [("connections", obj []), ("nodes", obj [("PQnode", arr [obj [("id", str "a"), ("x", num 0), ("y", num 0)],
          obj [("id", str "b"), ("x", num 2), ("y", num 0)]])])])
        ⟨[("PQnode", [("a", 0, 0), ("b", 2, 0)])], []⟩ :=
      ⟨⟨_, rfl, by simp, _, rfl, .cons ⟨rfl, _, rfl, .cons ⟨rfl, rfl, rfl⟩ (.cons ⟨rfl, rfl, rfl⟩ .nil)⟩ .nil⟩,
        _, rfl, by simp, _, rfl, .nil⟩
    have := (draw_eq P none hd).symm.trans ((h _).trans (draw_eq P (some 10) hd))
    simp only [Res.ok.injEq, Picture.mk.injEq, and_true] at this
    have := congrArg (List.map Drawn.x) this
    rw [place_x, place_x, hn, hs] at this
    revert this
    simp [inOrder, List.lookup, mean]
    norm_num
  exact ⟨h _ rfl rfl, h _ rfl rfl⟩

theorem label_of_draw {P : Program} {divideby : Option ℚ} {topology : Json} {p : Picture}
    (h : draw P divideby topology = Res.ok p) : ∀ n ∈ p.nodes, n.label = String.ofList (n.id.toList.drop P.cut) := by
  obtain ⟨_, -, h⟩ := Res.bind_eq_ok.mp h
  obtain ⟨nodes, -, h⟩ := Res.bind_eq_ok.mp h
  obtain ⟨_, -, h⟩ := Res.bind_eq_ok.mp h
  obtain ⟨_, -, h⟩ := Res.bind_eq_ok.mp h
  simp only [Res.ok.injEq] at h
  subst h
  intro n hn
  obtain ⟨m, -, rfl⟩ := List.mem_map.mp hn
  rfl

/-- **C160** (labels): in the pictures of gas networks the label of a node whose id is `node_` followed by a name is that name; in the
pictures of power networks it is the id. -/
theorem C160_label {P : Program} {divideby : Option ℚ} {topology : Json} {p : Picture}
    (h : draw P divideby topology = Res.ok p) (n : Drawn) (hn : n ∈ p.nodes) :
    (P = gasGraph ∨ P = gasHeatmap → ∀ name, n.id = "node_" ++ name → n.label = name) ∧
    (P = powerGraph ∨ P = powerHeatmap → n.label = n.id) := by
  have hl := label_of_draw h n hn
  refine ⟨?_, ?_⟩
  · rintro (rfl | rfl) name hname <;> rw [hl, hname] <;> simp [gasGraph, gasHeatmap]
  · rintro (rfl | rfl) <;> rw [hl] <;> simp [powerGraph, powerHeatmap]

/-! ## The legend -/

theorem raise_ge_start (l : List ℚ) : ∀ s : ℚ, s ≤ Heatmap.raise s l := by
  unfold Heatmap.raise
  induction l with
  | nil => intro s; simp
  | cons a l ih =>
    intro s
    rw [List.foldl_cons]
    refine le_trans ?_ (ih _)
    split <;> linarith

theorem raise_ge {l : List ℚ} {v : ℚ} (hv : v ∈ l) : ∀ s : ℚ, v ≤ Heatmap.raise s l := by
  induction l with
  | nil => simp at hv
  | cons a l ih =>
    intro s
    rcases List.mem_cons.mp hv with rfl | hv
    · refine le_trans ?_ (raise_ge_start l (if v > s then v else s))
      split <;> linarith
    · exact ih hv _

theorem raise_mem (l : List ℚ) : ∀ s : ℚ, Heatmap.raise s l = s ∨ Heatmap.raise s l ∈ l := by
  induction l with
  | nil => intro s; exact Or.inl rfl
  | cons a l ih =>
    intro s
    rcases ih (if a > s then a else s) with h | h
    · have h' : Heatmap.raise s (a :: l) = if a > s then a else s := h
      rw [h']
      split <;> simp
    · exact Or.inr (List.mem_cons_of_mem _ h)

theorem lower_eq (l : List ℚ) : ∀ s : ℚ, lower s l = -Heatmap.raise (-s) (l.map fun v => -v) := by
  unfold lower Heatmap.raise
  induction l with
  | nil => simp
  | cons a l ih =>
    intro s
    simp only [List.map_cons, List.foldl_cons, ih]
    congr 2
    split <;> split <;> first | rfl | (exfalso; linarith)

theorem lower_le {l : List ℚ} {v : ℚ} (hv : v ∈ l) (s : ℚ) : lower s l ≤ v := by
  rw [lower_eq]
  have := raise_ge (l := l.map fun v => -v) (v := -v) (List.mem_map.mpr ⟨v, hv, rfl⟩) (-s)
  linarith

theorem lower_mem (l : List ℚ) (s : ℚ) : lower s l = s ∨ lower s l ∈ l := by
  rw [lower_eq]
  rcases raise_mem (l.map fun v => -v) (-s) with h | h
  · left; linarith
  · right
    obtain ⟨v, hv, h⟩ := List.mem_map.mp h
    rw [← h, neg_neg]
    exact hv

/-- The greatest element is found, also if the loop starts with zero and the numbers have the sum zero. -/
theorem raise_greatest {l : List ℚ} {s : ℚ} (hs : (∃ v ∈ l, s ≤ v)) : IsGreatest {v | v ∈ l} (Heatmap.raise s l) := by
  refine ⟨?_, fun v hv => raise_ge hv s⟩
  obtain ⟨v, hv, h⟩ := hs
  rcases raise_mem l s with h' | h'
  · have h1 := raise_ge hv s
    have h2 : v = Heatmap.raise s l := by linarith
    exact h2 ▸ hv
  · exact h'

theorem lower_least {l : List ℚ} {s : ℚ} (hs : (∃ v ∈ l, v ≤ s)) : IsLeast {v | v ∈ l} (lower s l) := by
  refine ⟨?_, fun v hv => lower_le hv s⟩
  obtain ⟨v, hv, h⟩ := hs
  rcases lower_mem l s with h' | h'
  · have h1 := lower_le hv s
    have h2 : v = lower s l := by linarith
    exact h2 ▸ hv
  · exact h'

theorem exists_nonneg {l : List ℚ} (hne : l ≠ []) (h : l.sum = 0) : (∃ v ∈ l, 0 ≤ v) ∧ ∃ v ∈ l, v ≤ 0 := by
  have key : ∀ k : List ℚ, k ≠ [] → (∀ v ∈ k, v < 0) → k.sum < 0 := by
    intro k
    induction k with
    | nil => simp
    | cons a k ih =>
      intro _ hk
      rw [List.sum_cons]
      have ha := hk a (by simp)
      by_cases hk0 : k = []
      · subst hk0; simpa using ha
      · have := ih hk0 fun v hv => hk v (List.mem_cons_of_mem _ hv)
        linarith
  constructor
  · by_contra hc
    push Not at hc
    have := key l hne hc
    linarith
  · by_contra hc
    push Not at hc
    have h1 := key (l.map fun v => -v) (by simpa using hne) (by
      intro v hv
      obtain ⟨w, hw, rfl⟩ := List.mem_map.mp hv
      linarith [hc w hw])
    have h2 : (l.map fun v => -v).sum = -l.sum := by
      clear h1 hc h hne
      induction l with
      | nil => simp
      | cons a l ih => simp [ih]; ring
    linarith

/-- **C161**: the legend of a heat map stands to the right of all nodes, by a tenth of the width of the picture, and runs from the
height of the lowest node to that of the highest. For both programs: the first starts its search with the largest and the smallest
number, the second with zero, which is enough since the picture is centred. -/
theorem C161 (P : Program) (hP : P.nodetypes.Nodup ∧ P.edgetypes.Nodup) {topology : Json} {N : Network} (factor : Option ℚ)
    (hd : Describes topology N) (hne : N.nodesOf P.nodetypes ≠ []) :
    ∃ p, draw P factor topology = Res.ok p ∧
      ∀ startMin startMax : ℚ, (startMin = 0 ∧ startMax = 0 ∨
          ∀ d ∈ p.nodes, (startMax ≤ d.x ∧ d.x ≤ startMin) ∧ startMax ≤ d.y ∧ d.y ≤ startMin) →
        ∃ left right bottom top, IsLeast {v | v ∈ p.nodes.map Drawn.x} left ∧ IsGreatest {v | v ∈ p.nodes.map Drawn.x} right ∧
          IsLeast {v | v ∈ p.nodes.map Drawn.y} bottom ∧ IsGreatest {v | v ∈ p.nodes.map Drawn.y} top ∧
          legendX startMin startMax p.nodes = right + (right - left) / 10 ∧
          legendY startMin startMax p.nodes 0 = bottom ∧ legendY startMin startMax p.nodes 100 = top := by
  refine ⟨_, draw_eq P _ hd, fun startMin startMax hs => ?_⟩
  have hl : inOrder N.nodes P.nodetypes ≠ [] := by
    obtain ⟨⟨j, -, hn, -⟩, -⟩ := hd
    intro h
    have := inOrder_perm hP.1 hn
    rw [h] at this
    exact hne this.nil_eq.symm
  set nodes := place P.cut (factor.getD P.standard) (inOrder N.nodes P.nodetypes) with hnodes
  have hnn : nodes ≠ [] := by simpa [hnodes, place] using hl
  have hx : (nodes.map Drawn.x).sum = 0 := by rw [hnodes, place_x]; exact sum_centred _ _
  have hy : (nodes.map Drawn.y).sum = 0 := by rw [hnodes, place_y]; exact sum_centred _ _
  obtain ⟨d, hdm⟩ := List.exists_mem_of_ne_nil _ hnn
  have hX : (∃ v ∈ nodes.map Drawn.x, startMax ≤ v) ∧ ∃ v ∈ nodes.map Drawn.x, v ≤ startMin := by
    rcases hs with ⟨rfl, rfl⟩ | hs
    · exact exists_nonneg (by simpa using hnn) hx
    · exact ⟨⟨_, List.mem_map_of_mem hdm, (hs d hdm).1.1⟩, _, List.mem_map_of_mem hdm, (hs d hdm).1.2⟩
  have hY : (∃ v ∈ nodes.map Drawn.y, startMax ≤ v) ∧ ∃ v ∈ nodes.map Drawn.y, v ≤ startMin := by
    rcases hs with ⟨rfl, rfl⟩ | hs
    · exact exists_nonneg (by simpa using hnn) hy
    · exact ⟨⟨_, List.mem_map_of_mem hdm, (hs d hdm).2.1⟩, _, List.mem_map_of_mem hdm, (hs d hdm).2.2⟩
  refine ⟨_, _, _, _, lower_least hX.2, raise_greatest hX.1, lower_least hY.2, raise_greatest hY.1, ?_, ?_, ?_⟩
  · simp only [legendX]; ring
  · simp [legendY]
  · simp only [legendY]; push_cast; ring

/-- A network with a legend: two nodes, 4 apart and 2 apart in height. -/
example : Describes (exampleTopology "Innode") (exampleNetwork "Innode") ∧
    (exampleNetwork "Innode").nodesOf gasHeatmap.nodetypes ≠ [] ∧
    legendX 100 (-100) (place 5 10 ((exampleNetwork "Innode").nodesOf gasHeatmap.nodetypes)) = 6 / 25 := by
  refine ⟨example_describes (by decide +kernel), by decide +kernel, by decide +kernel⟩

end Verif.Helpers.Draw
