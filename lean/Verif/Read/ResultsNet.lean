import Verif.Read.Results
import Verif.Read.Output

/-!
# From the network in the memory of the program to ids

Lemmas for C108 and C109: which entry of the topology each node and edge comes from, and what flows and powers are in terms of
the entries.
-/

set_option autoImplicit false

namespace Verif.Read

open Verif.Json Verif.Factory Verif.Interp Verif.Schema Verif.Initial Verif.Times Network Net

/-! ## Entries -/

/-- `node` and `edge` are the entries of the topology that the nodes and edges come from. -/
structure Sited (defaults topology : Json) {g : Graph Network.Node EdgeKind} (hc : Consistent g)
    (node : Fin g.nodes.length → String × Json) (edge : Fin g.edges.length → String × Json) : Prop where
  nodes : (List.ofFn node).Perm (entries (types topology "nodes"))
  edges : (List.ofFn edge).Perm (entries (types topology "connections"))
  nodeId : ∀ v, id? (node v).2 = some g.nodes[v].id
  edgeId : ∀ k, id? (edge k).2 = some g.edges[k].id
  nodeInj : ∀ v w : Fin g.nodes.length, g.nodes[v].id = g.nodes[w].id → v = w
  edgeInj : ∀ k l : Fin g.edges.length, g.edges[k].id = g.edges[l].id → k = l
  nodeMatch : ∀ v, NodeMatches (defaultsFor defaults (node v).1) (node v) ((toNet hc).node v)
  edgeMatch : ∀ k, EdgeMatches (defaultsFor defaults (edge k).1) (edge k).2 (edge k).1 ((toNet hc).edge k)
  src : ∀ k, nameAt (edge k).2 "from" = some g.nodes[(toNet hc).src k].id
  dst : ∀ k, nameAt (edge k).2 "to" = some g.nodes[(toNet hc).dst k].id

theorem function_of {α β : Type} {R : α → β → Prop} {l : List α} {m : List β} (h : List.Forall₂ R l m) :
    ∃ f : Fin m.length → α, List.ofFn f = l ∧ ∀ i, R (f i) m[i] := by
  have hlen := h.length_eq
  refine ⟨fun i => l[i.val]'(by omega), ?_, fun i => ?_⟩
  · refine List.ext_getElem (by simp [hlen]) fun i h1 h2 => ?_
    simp
  · exact List.forall₂_iff_get.mp h |>.2 i.val (by omega) i.isLt

theorem nameAt_eq {x : Json} {key s : String} (h : x.find? key = some (str s)) : nameAt x key = some s := by
  unfold nameAt; rw [h]

theorem sited_of {draws : Json → Res (ℝ → Res (ℝ × ℝ))} {mem : ℕ → ℝ} {defaults topology boundary : Json}
    (hs : Shaped topology) (hd : DistinctTypes topology) {g : Graph Network.Node EdgeKind}
    (h : readNet draws mem defaults topology boundary = Res.ok g) (hf : Fit defaults topology) (hc : Consistent g) :
    ∃ node edge, Sited defaults topology hc node edge := by
  obtain ⟨nodes, edges, h1, h2, h3⟩ := readNet_ok h
  obtain ⟨-, hids, ⟨ns, p1, f1⟩, es, p2, f2⟩ := buildNet_made (proper_of h1 h2 hs hd) h3
  obtain ⟨node, rfl, hn⟩ := function_of f1
  obtain ⟨edge, rfl, he⟩ := function_of f2
  obtain ⟨i1, i2, -⟩ := List.nodup_append.mp hids
  have ends : ∀ k, ∃ a b, (edge k).2.find? "from" = some (str a) ∧ (edge k).2.find? "to" = some (str b) := by
    intro k
    obtain ⟨a, b, -, -, h5, h6, -⟩ := hf.ends (edge k) (p2.mem_iff.mp (List.mem_ofFn.mpr ⟨k, rfl⟩))
    exact ⟨a, b, h5, h6⟩
  have name : ∀ (v : ℕ) (hv : v < g.nodes.length) a, g.nodeId v = some a → a = g.nodes[v].id := by
    intro v hv a h
    unfold Graph.nodeId at h
    rw [List.getElem?_eq_getElem hv] at h
    simpa using h.symm
  refine ⟨node, edge, p1, p2, fun v => (hn v).1, fun k => (he k).1.1, fun v w e => ?_, fun k l e => ?_,
    fun v => node_matches h1 (hn v).2, fun k => edge_matches h2 (he k).2, fun k => ?_, fun k => ?_⟩
  · exact Fin.ext ((List.getElem_inj (xs := g.nodes.map Node.id) (h₀ := by simp) (h₁ := by simp) i1).mp
      (by simpa using e))
  · exact Fin.ext ((List.getElem_inj (xs := g.edges.map Edge.id) (h₀ := by simp) (h₁ := by simp) i2).mp
      (by simpa using e))
  · obtain ⟨a, b, h5, h6⟩ := ends k
    rw [nameAt_eq h5, name _ (hc.ends _ (List.getElem_mem _)).1 a ((he k).1.2.2.1 a h5)]
    rfl
  · obtain ⟨a, b, h5, h6⟩ := ends k
    rw [nameAt_eq h6, name _ (hc.ends _ (List.getElem_mem _)).2.1 b ((he k).1.2.2.2 b h6)]
    rfl

theorem numberIn_eq {d x : Json} {key : String} {q : ℚ} (h : Number d x key q) : numberIn d x key = q := by
  unfold numberIn
  rcases h with h | ⟨h, h'⟩
  · rw [h]; rfl
  · rw [h, h']; rfl

theorem idOf_eq {x : Json} {s : String} (h : id? x = some s) : idOf x = s := by
  unfold idOf; rw [h]; rfl

theorem edgeMatches_gas {d j : Json} {type : String} {e : EdgeKind} (h : EdgeMatches d j type e) :
    e.isGas = true ↔ type ≠ "Transmissionline" := by
  cases h <;> simp [EdgeKind.isGas]

section
variable {defaults topology : Json} {g : Graph Network.Node EdgeKind} {hc : Consistent g}
  {node : Fin g.nodes.length → String × Json} {edge : Fin g.edges.length → String × Json}
  (S : Sited defaults topology hc node edge)
include S

namespace Sited

theorem node_mem (v : Fin g.nodes.length) : node v ∈ entries (types topology "nodes") :=
  S.nodes.mem_iff.mp (List.mem_ofFn.mpr ⟨v, rfl⟩)

theorem edge_mem (k : Fin g.edges.length) : edge k ∈ entries (types topology "connections") :=
  S.edges.mem_iff.mp (List.mem_ofFn.mpr ⟨k, rfl⟩)

theorem of_node {e : String × Json} (h : e ∈ entries (types topology "nodes")) : ∃ v, node v = e :=
  List.mem_ofFn.mp (S.nodes.mem_iff.mpr h)

theorem of_edge {e : String × Json} (h : e ∈ entries (types topology "connections")) : ∃ k, edge k = e :=
  List.mem_ofFn.mp (S.edges.mem_iff.mpr h)

theorem from_iff (k : Fin g.edges.length) (v : Fin (toNet hc).nodes) :
    nameAt (edge k).2 "from" = some g.nodes[(v : Fin g.nodes.length)].id ↔ (toNet hc).src k = v := by
  rw [S.src, Option.some.injEq]
  exact ⟨fun h => S.nodeInj _ _ h, fun h => by subst h; rfl⟩

theorem to_iff (k : Fin g.edges.length) (v : Fin (toNet hc).nodes) :
    nameAt (edge k).2 "to" = some g.nodes[(v : Fin g.nodes.length)].id ↔ (toNet hc).dst k = v := by
  rw [S.dst, Option.some.injEq]
  exact ⟨fun h => S.nodeInj _ _ h, fun h => by subst h; rfl⟩

theorem gas_iff (k : Fin g.edges.length) : ((toNet hc).edge k).isGas = true ↔ (edge k).1 ≠ "Transmissionline" :=
  edgeMatches_gas (S.edgeMatch k)

theorem sum_edges {M : Type} [AddCommMonoid M] (F : String × Json → M) :
    ((entries (types topology "connections")).map F).sum = ∑ k, F (edge k) := by
  rw [← (S.edges.map F).sum_eq, List.map_ofFn, List.sum_ofFn]
  rfl

theorem attached_iff (v : Fin g.nodes.length) : Attached topology g.nodes[v].id ↔
    ∃ k, ((toNet hc).edge k).isGas ∧ ((toNet hc).src k = v ∨ (toNet hc).dst k = v) := by
  constructor
  · rintro ⟨e, he, h1, h2⟩
    obtain ⟨k, rfl⟩ := S.of_edge he
    exact ⟨k, (S.gas_iff k).mpr h1, h2.imp (S.from_iff k v).mp (S.to_iff k v).mp⟩
  · rintro ⟨k, h1, h2⟩
    exact ⟨edge k, S.edge_mem k, (S.gas_iff k).mp h1, h2.imp (S.from_iff k v).mpr (S.to_iff k v).mpr⟩

theorem endsAt_eq (v : Fin (toNet hc).nodes) : endsAt topology g.nodes[(v : Fin g.nodes.length)].id = (toNet hc).degree v := by
  unfold endsAt Net.degree
  rw [S.sum_edges, ← Finset.sum_add_distrib]
  refine Finset.sum_congr rfl fun k _ => ?_
  simp only [S.from_iff k v, S.to_iff k v, S.gas_iff k]
  by_cases h : (edge k).1 = "Transmissionline" <;> simp [h]

end Sited
end

/-! ## Results -/

/-- The value for the component with this name. -/
def pick {n : ℕ} {α : Type} (name : Fin n → String) (f : Fin n → α) (a : α) (id : String) : α :=
  ((List.finRange n).find? fun v => name v == id).elim a f

theorem pick_eq {n : ℕ} {α : Type} {name : Fin n → String} (h : ∀ v w, name v = name w → v = w) (f : Fin n → α) (a : α)
    (v : Fin n) : pick name f a (name v) = f v := by
  unfold pick
  have : ((List.finRange n).find? fun w => name w == name v) = some v := by
    cases hf : (List.finRange n).find? fun w => name w == name v with
    | none =>
      have := List.find?_eq_none.mp hf v (List.mem_finRange v)
      simp at this
    | some w =>
      have := List.find?_some hf
      simp only [beq_iff_eq] at this
      rw [h w v this]
  rw [this]
  rfl

section
variable {g : Graph Network.Node EdgeKind} (hc : Consistent g)

/-- The number of points of an edge. -/
def pointsOf (k : Fin g.edges.length) : ℕ := edgeNeed ((toNet hc).edge k) / 2

/-- Where the points of an edge are. -/
noncomputable def positionOf (k : Fin g.edges.length) (j : ℕ) : ℝ :=
  match (toNet hc).edge k with
  | .gas (.pipe dx _ _) _ => j * dx
  | _ => j

/-- A power that is reported. -/
noncomputable def powerOf (topology : Json) (last : ℝ) (v : Fin g.nodes.length) (time : ℝ) (x : Vec) (name : String) : ℝ :=
  match reported hc (powerType topology g.nodes[v].id ((toNet hc).node v).kind) last v time (listOf (toNet hc).stateCount x) with
  | Res.ok l => (l.lookup name).getD 0
  | _ => 0

/-- The results that belong to these times and states. -/
noncomputable def resultsOf (topology : Json) (last : ℝ) (times : List ℝ) (states : List Vec) : Results where
  voltage id i := pick (fun v => g.nodes[v].id) (fun v => (toNet hc).voltage (states.getD i 0) v) 0 id
  angle id i := pick (fun v => g.nodes[v].id) (fun v => (toNet hc).angle (states.getD i 0) v) 0 id
  active id i := pick (fun v => g.nodes[v].id) (fun v => powerOf hc topology last v (times.getD i 0) (states.getD i 0) "P") 0 id
  reactive id i := pick (fun v => g.nodes[v].id) (fun v => powerOf hc topology last v (times.getD i 0) (states.getD i 0) "Q") 0 id
  points id := pick (fun k => g.edges[k].id) (pointsOf hc) 0 id
  position id j := pick (fun k => g.edges[k].id) (fun k => positionOf hc k j) 0 id
  pressure id i j := pick (fun k => g.edges[k].id)
    (fun k => (toNet hc).pressureOf k (states.getD i 0 (((toNet hc).edgeRange k).1 + 2 * j))) 0 id
  flow id i j := pick (fun k => g.edges[k].id)
    (fun k => states.getD i 0 (((toNet hc).edgeRange k).1 + 2 * j + 1)) 0 id

end

section
variable {defaults topology : Json} {g : Graph Network.Node EdgeKind} {hc : Consistent g}
  {node : Fin g.nodes.length → String × Json} {edge : Fin g.edges.length → String × Json}
  (S : Sited defaults topology hc node edge) (last : ℝ) (times : List ℝ) (states : List Vec) (i : ℕ)
include S

namespace Sited

theorem voltage_eq (v : Fin g.nodes.length) : (resultsOf hc topology last times states).voltage g.nodes[v].id i =
    (toNet hc).voltage (states.getD i 0) v := pick_eq S.nodeInj _ _ v

theorem angle_eq (v : Fin g.nodes.length) : (resultsOf hc topology last times states).angle g.nodes[v].id i =
    (toNet hc).angle (states.getD i 0) v := pick_eq S.nodeInj _ _ v

theorem active_eq (v : Fin g.nodes.length) : (resultsOf hc topology last times states).active g.nodes[v].id i =
    powerOf hc topology last v (times.getD i 0) (states.getD i 0) "P" := pick_eq S.nodeInj _ _ v

theorem reactive_eq (v : Fin g.nodes.length) : (resultsOf hc topology last times states).reactive g.nodes[v].id i =
    powerOf hc topology last v (times.getD i 0) (states.getD i 0) "Q" := pick_eq S.nodeInj _ _ v

theorem points_eq (k : Fin g.edges.length) : (resultsOf hc topology last times states).points g.edges[k].id = pointsOf hc k :=
  pick_eq S.edgeInj _ _ k

theorem position_eq (k : Fin g.edges.length) (j : ℕ) :
    (resultsOf hc topology last times states).position g.edges[k].id j = positionOf hc k j := pick_eq S.edgeInj _ _ k

theorem pressure_eq (k : Fin g.edges.length) (j : ℕ) : (resultsOf hc topology last times states).pressure g.edges[k].id i j =
    (toNet hc).pressureOf k (states.getD i 0 (((toNet hc).edgeRange k).1 + 2 * j)) := pick_eq S.edgeInj _ _ k

theorem flow_eq (k : Fin g.edges.length) (j : ℕ) : (resultsOf hc topology last times states).flow g.edges[k].id i j =
    states.getD i 0 (((toNet hc).edgeRange k).1 + 2 * j + 1) := pick_eq S.edgeInj _ _ k

theorem edge_id (k : Fin g.edges.length) : idOf (edge k).2 = g.edges[k].id := idOf_eq (S.edgeId k)

theorem node_id (v : Fin g.nodes.length) : idOf (node v).2 = g.nodes[v].id := idOf_eq (S.nodeId v)

theorem startP_eq (k : Fin g.edges.length) : (resultsOf hc topology last times states).startP (edge k).2 i =
    (toNet hc).startPressure k (states.getD i 0) := by
  unfold Results.startP Net.startPressure
  rw [S.edge_id, S.pressure_eq]
  simp

theorem startQ_eq (k : Fin g.edges.length) : (resultsOf hc topology last times states).startQ (edge k).2 i =
    (toNet hc).startFlow k (states.getD i 0) := by
  unfold Results.startQ Net.startFlow
  rw [S.edge_id, S.flow_eq]
  simp

/-- The range of a gas edge with at least one point. -/
theorem stop_eq (hf : Fit defaults topology) (k : Fin g.edges.length) (hk : ((toNet hc).edge k).isGas = true) :
    ((toNet hc).edgeRange k).2 = ((toNet hc).edgeRange k).1 + 2 * ((pointsOf hc k - 1 : ℕ) : ℤ) + 2 ∧ 1 ≤ pointsOf hc k ∧
      edgeNeed ((toNet hc).edge k) = 2 * pointsOf hc k := by
  have h1 := Admissible.edgeRange_length (N := toNet hc) (k := k)
  have h2 : ∃ n, 1 ≤ n ∧ edgeNeed ((toNet hc).edge k) = 2 * n := by
    have hm := S.edgeMatch k
    have hmem := S.edge_mem k
    generalize edge k = e at hm hmem
    obtain ⟨type, j⟩ := e
    generalize (toNet hc).edge k = x at hm hk
    cases hm with
    | line => simp [EdgeKind.isGas] at hk
    | pipe L w D r dx n hL hw _ _ _ hn =>
      obtain ⟨q1, q2⟩ := hf.lengths j hmem
      exact ⟨n, by have := (hn (q1 L hL) (q2 w hw)).1; omega, rfl⟩
    | gaspower => exact ⟨1, le_rfl, rfl⟩
    | _ => exact ⟨2, by decide, rfl⟩
  obtain ⟨n, h3, h4⟩ := h2
  have h5 : pointsOf hc k = n := by unfold pointsOf; omega
  rw [h5]
  refine ⟨?_, h3, h4⟩
  rw [h1, h4]
  omega

theorem endP_eq (hf : Fit defaults topology) (k : Fin g.edges.length) (hk : ((toNet hc).edge k).isGas = true) :
    (resultsOf hc topology last times states).endP (edge k).2 i = (toNet hc).endPressure k (states.getD i 0) := by
  unfold Results.endP Net.endPressure
  rw [S.edge_id, S.points_eq, S.pressure_eq]
  have := (S.stop_eq hf k hk).1
  rw [show ((toNet hc).edgeRange k).2 - 2 = ((toNet hc).edgeRange k).1 + 2 * ((pointsOf hc k - 1 : ℕ) : ℤ) by omega]

theorem endQ_eq (hf : Fit defaults topology) (k : Fin g.edges.length) (hk : ((toNet hc).edge k).isGas = true) :
    (resultsOf hc topology last times states).endQ (edge k).2 i = (toNet hc).endFlow k (states.getD i 0) := by
  unfold Results.endQ Net.endFlow
  rw [S.edge_id, S.points_eq, S.flow_eq]
  have := (S.stop_eq hf k hk).1
  rw [show ((toNet hc).edgeRange k).2 - 1 = ((toNet hc).edgeRange k).1 + 2 * ((pointsOf hc k - 1 : ℕ) : ℤ) + 1 by omega]

theorem netFlow_eq (hf : Fit defaults topology) (v : Fin (toNet hc).nodes) :
    (resultsOf hc topology last times states).netFlow topology g.nodes[(v : Fin g.nodes.length)].id i = (toNet hc).outflow v (states.getD i 0) := by
  unfold Results.netFlow Net.outflow
  rw [S.sum_edges, ← Finset.sum_sub_distrib]
  refine Finset.sum_congr rfl fun k _ => ?_
  simp only [S.from_iff k v, S.to_iff k v, S.gas_iff k]
  by_cases h : (edge k).1 = "Transmissionline"
  · simp [h]
  · have e1 := S.startQ_eq last times states i k
    have e2 := S.endQ_eq last times states i hf k ((S.gas_iff k).mpr h)
    unfold Results.startQ at e1
    unfold Results.endQ at e2
    rw [e1, e2]
    simp [h]

theorem line_data (k : Fin g.edges.length) : (((toNet hc).edge k).conductance =
      if (edge k).1 = "Transmissionline" then numberIn (defaultsFor defaults (edge k).1) (edge k).2 "G" else 0) ∧
    ((toNet hc).edge k).susceptance =
      if (edge k).1 = "Transmissionline" then numberIn (defaultsFor defaults (edge k).1) (edge k).2 "B" else 0 := by
  have hm := S.edgeMatch k
  generalize edge k = e at hm
  obtain ⟨type, j⟩ := e
  generalize (toNet hc).edge k = x at hm
  cases hm with
  | line G B hG hB =>
    simp only [if_true]
    rw [numberIn_eq hG, numberIn_eq hB]
    exact ⟨rfl, rfl⟩
  | _ => exact ⟨rfl, rfl⟩

theorem overLines_eq (v : Fin (toNet hc).nodes) (term : ℝ → ℝ → String → ℝ) (h0 : ∀ w, term 0 0 w = 0) :
    Results.overLines defaults topology g.nodes[(v : Fin g.nodes.length)].id term =
      (∑ k, if (toNet hc).src k = v then term ((toNet hc).edge k).conductance ((toNet hc).edge k).susceptance
        g.nodes[(toNet hc).dst k].id else 0) +
      ∑ k, if (toNet hc).dst k = v then term ((toNet hc).edge k).conductance ((toNet hc).edge k).susceptance
        g.nodes[(toNet hc).src k].id else 0 := by
  unfold Results.overLines
  rw [S.sum_edges, ← Finset.sum_add_distrib]
  refine Finset.sum_congr rfl fun k _ => ?_
  obtain ⟨e1, e2⟩ := S.line_data k
  simp only [S.from_iff k v, S.to_iff k v]
  simp only [e1, e2, S.src k, S.dst k, Option.getD_some]
  by_cases h : (edge k).1 = "Transmissionline"
  · simp [h]
  · simp [h, h0]

theorem gridActive_eq (v : Fin g.nodes.length) (hv : ((toNet hc).node v).kind.isPower = true) :
    (resultsOf hc topology last times states).gridActive defaults topology (node v).1 (node v).2 i =
      (toNet hc).active v (states.getD i 0) := by
  unfold Results.gridActive Net.active
  obtain ⟨q, h1, h2⟩ := (S.nodeMatch v).conductance hv
  have hV : ∀ w : Fin (toNet hc).nodes, (resultsOf hc topology last times states).voltage g.nodes[(w : Fin g.nodes.length)].id i =
    (toNet hc).voltage (states.getD i 0) w := fun w => S.voltage_eq last times states i w
  have hA : ∀ w : Fin (toNet hc).nodes, (resultsOf hc topology last times states).angle g.nodes[(w : Fin g.nodes.length)].id i =
    (toNet hc).angle (states.getD i 0) w := fun w => S.angle_eq last times states i w
  rw [S.node_id, numberIn_eq h1, h2]
  refine congrArg₂ (· + ·) (by rw [S.voltage_eq]) ((S.overLines_eq v _ (by simp)).trans ?_)
  simp only [hV, hA, S.voltage_eq last times states i v, S.angle_eq last times states i v]

theorem gridReactive_eq (v : Fin g.nodes.length) (hv : ((toNet hc).node v).kind.isPower = true) :
    (resultsOf hc topology last times states).gridReactive defaults topology (node v).1 (node v).2 i =
      (toNet hc).reactive v (states.getD i 0) := by
  unfold Results.gridReactive Net.reactive
  obtain ⟨q, h1, h2⟩ := (S.nodeMatch v).susceptance hv
  have hV : ∀ w : Fin (toNet hc).nodes, (resultsOf hc topology last times states).voltage g.nodes[(w : Fin g.nodes.length)].id i =
    (toNet hc).voltage (states.getD i 0) w := fun w => S.voltage_eq last times states i w
  have hA : ∀ w : Fin (toNet hc).nodes, (resultsOf hc topology last times states).angle g.nodes[(w : Fin g.nodes.length)].id i =
    (toNet hc).angle (states.getD i 0) w := fun w => S.angle_eq last times states i w
  rw [S.node_id, numberIn_eq h1, h2]
  refine congrArg₂ (· + ·) (by rw [S.voltage_eq]) ((S.overLines_eq v _ (by simp)).trans ?_)
  simp only [hV, hA, S.voltage_eq last times states i v, S.angle_eq last times states i v]

end Sited
end

end Verif.Read
