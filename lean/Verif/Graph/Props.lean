import Verif.Graph.Merge

/-!
# Properties C48 and C49: networks from jsons

Property C48: in a constructed network each edge is in the edge list of exactly its start node and its end node, node and edge
ids are unique, and edges with identical ends are rejected.

Property C49: building a network creates exactly one component for each json entry and throws for unknown component types.
-/

set_option autoImplicit false

namespace Verif.Factory

open Verif.Json

variable {ν ε : Type}

/-! ## Specification -/

/-- All types of a class of components, with their entries. -/
def types (j : Json) (c : String) : List (String × Json) :=
  match j.find? c with
  | some (obj m) => m
  | _ => []

/-- What is known about maps: names are distinct. -/
structure Proper (nodeTypes : List (String × ComponentType ν)) (edgeTypes : List (String × ComponentType ε))
    (topology : Json) : Prop where
  nodeTypes : (nodeTypes.map Prod.fst).Nodup
  edgeTypes : (edgeTypes.map Prod.fst).Nodup
  shaped : Shaped topology
  distinct : DistinctTypes topology

/-- The component is constructed as the type of the entry says, from data that have everything the entry has: the values
under all keys but "boundary_values" are the same, or they are objects that are at most extended by defaults. -/
def Constructed {α : Type} (types : List (String × ComponentType α)) (e : String × Json) (c : α) : Prop :=
  ∃ t data, (e.1, t) ∈ types ∧ t.construct data = Res.ok c ∧
    ∀ k, k ≠ "boundary_values" → ∀ v, e.2.find? k = some v → ∃ v', data.find? k = some v' ∧ Kept v v'

/-- A node belongs to an entry of the topology: it has its id, its type and its data. -/
def OfNode (types : List (String × ComponentType ν)) (e : String × Json) (n : Node ν) : Prop :=
  id? e.2 = some n.id ∧ Constructed types e n.data

/-- An edge belongs to an entry of the topology: it has its id, its type and its data, and the ends given there. -/
def OfEdge (types : List (String × ComponentType ε)) (g : Graph ν ε) (e : String × Json) (x : Edge ε) : Prop :=
  id? e.2 = some x.id ∧ Constructed types e x.data ∧ (∀ a, e.2.find? "from" = some (str a) → g.nodeId x.src = some a) ∧
    ∀ b, e.2.find? "to" = some (str b) → g.nodeId x.dst = some b

/-! ## Proofs -/

/-- The loops do not distinguish a missing class from an empty one. -/
theorem buildNodes_null {valid : Json → Json → Bool} (types : List (String × ComponentType ν)) :
    buildNodes valid types null = buildNodes valid types (obj []) := rfl

theorem buildEdges_null {valid : Json → Json → Bool} (types : List (String × ComponentType ε)) (nodes : List (Node ν)) :
    buildEdges valid types null nodes = buildEdges valid types (obj []) nodes := rfl

theorem prepare_kept {α : Type} {valid : Json → Json → Bool} {t : ComponentType α} {j data : Json} (hj : j.isObj = true)
    (h : prepare valid t j = Res.ok data) {k : String} {v : Json} (hk : j.find? k = some v) :
    ∃ v', data.find? k = some v' ∧ Kept v v' := by
  unfold prepare at h
  obtain ⟨schema, -, h⟩ := Res.bind_eq_ok.mp h
  obtain ⟨data', h1, h⟩ := Res.bind_eq_ok.mp h
  split at h
  · injection h with h
    subst h
    unfold applyDefaults at h1
    split at h1
    · split at h1
      · obtain ⟨-, h2⟩ := C50_kept hj h1
        cases h2 with
        | same => exact ⟨v, hk, .same v⟩
        | extended m m' h3 h4 =>
          obtain ⟨v', h5⟩ := h3 k _ hk
          exact ⟨v', h5, h4 k _ _ hk h5⟩
      · cases h1
    · cases h1
  · cases h

theorem prepare_find {α : Type} {valid : Json → Json → Bool} {t : ComponentType α} {j data : Json} (hj : j.isObj = true)
    (h : prepare valid t j = Res.ok data) {k s : String} (hk : j.find? k = some (str s)) :
    data.find? k = some (str s) := by
  obtain ⟨v', h1, h2⟩ := prepare_kept hj h hk
  cases h2
  exact h1

theorem isObj_of_id {c : Json} {s : String} (h : id? c = some s) : c.isObj = true := by
  cases c with
  | obj m => rfl
  | _ => simp [id?, find?] at h

theorem find_id {c : Json} {s : String} : id? c = some s ↔ c.find? "id" = some (str s) := by
  unfold id?
  cases c.find? "id" with
  | none => simp
  | some v => cases v <;> simp

theorem Keeps.id {c c' : Json} (h : Keeps c c') : id? c' = id? c := by
  unfold id?
  rw [h "id" (by decide)]

theorem types_elements {j : Json} {c : String} (hs : Shaped j) (hc : c ∈ classes) :
    (match j.find? c with | some t => t.elements.flatMap elements | none => []) = (entries (types j c)).map Prod.snd := by
  unfold types
  cases hf : j.find? c with
  | none => rfl
  | some v =>
    obtain ⟨m, rfl, -⟩ := hs c hc v hf
    simp only [elements, entries, List.flatMap_map, List.map_flatMap, List.map_map, Function.comp_def]
    refine List.flatMap_congr fun x _ => ?_
    simp

theorem components_entries {j : Json} (hs : Shaped j) : components j =
    (entries (types j "nodes")).map Prod.snd ++ (entries (types j "connections")).map Prod.snd := by
  rw [components_eq]
  exact congrArg₂ _ (types_elements hs (by simp [classes])) (types_elements hs (by simp [classes]))

/-- The two classes of the full json. -/
theorem SameClass.types {top full : Json} {c : String} (h : SameClass (top.find? c) (full.find? c)) :
    ∃ m, ((full.find? c).getD null = obj m ∨ (full.find? c).getD null = null ∧ m = []) ∧ SameTypes (types top c) m := by
  unfold SameClass at h
  unfold Factory.types
  cases hf : top.find? c with
  | none =>
    rw [hf] at h
    refine ⟨[], Or.inr ⟨?_, rfl⟩, .nil⟩
    rcases h with h | h <;> rw [h] <;> rfl
  | some w =>
    rw [hf] at h
    obtain ⟨m, m', rfl, h2, h3⟩ := h
    exact ⟨m', Or.inl (by rw [h2]; rfl), h3⟩

/-- Building a graph, without the check at the end. -/
def buildParts (valid : Json → Json → Bool) (nodeTypes : List (String × ComponentType ν))
    (edgeTypes : List (String × ComponentType ε)) (topology : Json) : Res (Graph ν ε) := do
  let nodes ← buildNodes valid nodeTypes ((topology.find? "nodes").getD null)
  buildEdges valid edgeTypes ((topology.find? "connections").getD null) nodes

theorem buildParts_ok {valid : Json → Json → Bool} {nodeTypes : List (String × ComponentType ν)}
    {edgeTypes : List (String × ComponentType ε)} {topology : Json} {nodes edges : List (String × Json)}
    (hm : Maps nodeTypes edgeTypes nodes edges)
    (hn : (topology.find? "nodes").getD null = obj nodes ∨ (topology.find? "nodes").getD null = null ∧ nodes = [])
    (he : (topology.find? "connections").getD null = obj edges ∨
      (topology.find? "connections").getD null = null ∧ edges = []) {g : Graph ν ε}
    (h : buildParts valid nodeTypes edgeTypes topology = Res.ok g) :
    Consistent g ∧
    (∃ es, es.Perm (entries nodes) ∧ List.Forall₂ (NodeMade valid nodeTypes) es g.nodes) ∧
    ∃ es, es.Perm (entries edges) ∧
      List.Forall₂ (EdgeMade valid edgeTypes (g.nodes.map Node.id)) es g.edges := by
  unfold buildParts at h
  obtain ⟨ns, h1, h2⟩ := Res.bind_eq_ok.mp h
  have h1' : buildNodes valid nodeTypes (obj nodes) = Res.ok ns := by
    rcases hn with hn | ⟨hn, rfl⟩
    · rw [← hn]; exact h1
    · rw [← buildNodes_null, ← hn]; exact h1
  have h2' : buildEdges valid edgeTypes (obj edges) ns = Res.ok g := by
    rcases he with he | ⟨he, rfl⟩
    · rw [← he]; exact h2
    · rw [← buildEdges_null, ← he]; exact h2
  obtain ⟨es, p1, f1⟩ := C49_nodes hm.nodeTypes hm.nodes h1'
  have hempty : ∀ n ∈ ns, n.starting = [] ∧ n.ending = [] := by
    intro n hn
    obtain ⟨e, -, t, -, h3⟩ := forall₂_mem_right f1 hn
    obtain ⟨h4, h5, -⟩ := makeNode_ok h3
    exact ⟨h4, h5⟩
  by_cases hk : unknownType edgeTypes (obj edges) = true
  · unfold buildEdges at h2'
    rw [if_pos hk] at h2'
    cases h2'
  · simp only [Bool.not_eq_true] at hk
    rw [buildEdges_eq hm.edgeTypes hk] at h2'
    obtain ⟨c, k, xs, e2, m2⟩ := fold_makeTyped (consistent_nil hempty) h2'
    simp only [List.nil_append] at e2
    subst e2
    refine ⟨c, ⟨es, p1, ?_⟩, _, entries_perm hm.edgeTypes hm.edges hk, ?_⟩
    · have : List.Forall₂ (fun e (x : String × ν) => ∃ t data, (e.1, t) ∈ nodeTypes ∧ prepare valid t e.2 = Res.ok data ∧
          id? data = some x.1 ∧ t.construct data = Res.ok x.2) es (g.nodes.map key) := by
        rw [k, List.forall₂_map_right_iff]
        refine f1.imp ?_
        rintro e n ⟨t, h3, h4⟩
        obtain ⟨-, -, data, h5, h6, h7⟩ := makeNode_ok h4
        exact ⟨t, data, h3, h5, h6, h7⟩
      rw [List.forall₂_map_right_iff] at this
      exact this
    · rw [ids_of_key k]
      exact m2

theorem buildGraph_eq {valid : Json → Json → Bool} {nodeTypes : List (String × ComponentType ν)}
    {edgeTypes : List (String × ComponentType ε)} {topology : Json} :
    buildGraph valid nodeTypes edgeTypes topology =
      (buildParts valid nodeTypes edgeTypes topology).bind fun g => (netCheck g).bind fun _ => Res.ok g := by
  unfold buildGraph buildParts
  cases buildNodes valid nodeTypes ((topology.find? "nodes").getD null) <;> rfl

theorem forall₂_and_mem {α β : Type} {R : α → β → Prop} {l : List α} {m : List β} (h : List.Forall₂ R l m) :
    List.Forall₂ (fun a b => a ∈ l ∧ R a b) l m := by
  induction h with
  | nil => exact .nil
  | cons h1 _ ih => exact .cons ⟨by simp, h1⟩ (ih.imp fun _ _ h => ⟨by simp [h.1], h.2⟩)

theorem forall₂_map_eq {α β γ : Type} {f : α → γ} {g : β → γ} {l : List α} {m : List β}
    (h : List.Forall₂ (fun a b => f a = g b) l m) : l.map f = m.map g := by
  induction h with
  | nil => rfl
  | cons h1 _ ih => simp [h1, ih]

/-- The data from which a component is constructed are those of its entry, with boundary values and with defaults. -/
def Prepared {α : Type} (valid : Json → Json → Bool) (types : List (String × ComponentType α)) (e : String × Json)
    (c : α) : Prop :=
  ∃ t data j, (e.1, t) ∈ types ∧ t.construct data = Res.ok c ∧ j.isObj = true ∧ Keeps e.2 j ∧ prepare valid t j = Res.ok data

theorem Prepared.constructed {α : Type} {valid : Json → Json → Bool} {types : List (String × ComponentType α)}
    {e : String × Json} {c : α} (h : Prepared valid types e c) : Constructed types e c := by
  obtain ⟨t, data, j, h1, h2, h3, h4, h5⟩ := h
  refine ⟨t, data, h1, h2, fun k hk v hv => ?_⟩
  rw [← h4 k hk] at hv
  exact prepare_kept h3 h5 hv

/-- All of it: from both jsons to the graph. -/
theorem buildNet_made {valid : Json → Json → Bool} {nodeTypes : List (String × ComponentType ν)}
    {edgeTypes : List (String × ComponentType ε)} {topology boundary : Json}
    (hp : Proper nodeTypes edgeTypes topology) {g : Graph ν ε}
    (h : buildNet valid nodeTypes edgeTypes topology boundary = Res.ok g) :
    Consistent g ∧ (g.nodes.map Node.id ++ g.edges.map Edge.id).Nodup ∧
    (∃ es, es.Perm (entries (types topology "nodes")) ∧
      List.Forall₂ (fun e n => id? e.2 = some n.id ∧ Prepared valid nodeTypes e n.data) es g.nodes) ∧
    ∃ es, es.Perm (entries (types topology "connections")) ∧
      List.Forall₂ (fun e x => OfEdge edgeTypes g e x ∧ Prepared valid edgeTypes e x.data) es g.edges := by
  unfold buildNet at h
  obtain ⟨full, h1, h2⟩ := Res.bind_eq_ok.mp h
  obtain ⟨hd, hsame⟩ := buildFull_same hp.shaped h1
  obtain ⟨nm, hn, sn⟩ := (hsame "nodes" (by simp [classes])).types
  obtain ⟨em, he, se⟩ := (hsame "connections" (by simp [classes])).types
  have dn : ∀ c ∈ classes, ((types topology c).map Prod.fst).Nodup := by
    intro c hc
    unfold types
    cases hf : topology.find? c with
    | none => simp
    | some v =>
      obtain ⟨m, rfl, -⟩ := hp.shaped c hc v hf
      exact hp.distinct c hc m hf
  rw [buildGraph_eq] at h2
  obtain ⟨g1, h3, h4⟩ := Res.bind_eq_ok.mp h2
  obtain ⟨u, -, h5⟩ := Res.bind_eq_ok.mp h4
  injection h5 with h5
  subst h5
  obtain ⟨hc, ⟨ns, pn, fn⟩, es, pe, fe⟩ := buildParts_ok
    ⟨hp.nodeTypes, hp.edgeTypes, by rw [← sn.keys]; exact dn _ (by simp [classes]),
      by rw [← se.keys]; exact dn _ (by simp [classes])⟩ hn he h3
  -- the entries of the topology
  obtain ⟨n0, pn0, fn0⟩ := sn.entries
  obtain ⟨n1, pn1, fn1⟩ := forall₂_perm fn0 pn
  obtain ⟨e0, pe0, fe0⟩ := se.entries
  obtain ⟨e1, pe1, fe1⟩ := forall₂_perm fe0 pe
  have ids := components_entries hp.shaped
  obtain ⟨il, hil, hnd⟩ := hd
  have hasId : ∀ c ∈ components topology, ∃ s, id? c = some s := by
    intro c hc
    have : id? c ∈ il.map some := hil ▸ List.mem_map_of_mem hc
    obtain ⟨s, -, hs⟩ := List.mem_map.mp this
    exact ⟨s, hs.symm⟩
  have hn1 : ∀ e ∈ n1, ∃ s, id? e.2 = some s := fun e he => hasId _ (by
    rw [ids, List.mem_append]
    exact Or.inl (List.mem_map_of_mem ((pn1.trans pn0).subset he)))
  have he1 : ∀ e ∈ e1, ∃ s, id? e.2 = some s := fun e he => hasId _ (by
    rw [ids, List.mem_append]
    exact Or.inr (List.mem_map_of_mem ((pe1.trans pe0).subset he)))
  have on : List.Forall₂ (fun e n => id? e.2 = some n.id ∧ Prepared valid nodeTypes e n.data) n1 g1.nodes := by
    refine forall₂_trans_of ?_ (forall₂_and_mem fn1) fn
    rintro e e' n ⟨hm, hty, hk⟩ ⟨t, data, ht, h6, h7, hd⟩
    obtain ⟨s, hs⟩ := hn1 e hm
    have hs' : id? e'.2 = some s := by rw [hk.id]; exact hs
    have := prepare_find (isObj_of_id hs') h6 (find_id.mp hs')
    rw [← find_id, h7] at this
    injection this with this
    subst this
    exact ⟨hs, t, data, e'.2, hty ▸ ht, hd, isObj_of_id hs', hk, h6⟩
  have oe : List.Forall₂ (fun e x => OfEdge edgeTypes g1 e x ∧ Prepared valid edgeTypes e x.data) e1 g1.edges := by
    refine forall₂_trans_of ?_ (forall₂_and_mem fe1) fe
    rintro e e' x ⟨hm, hty, hk⟩ ⟨t, data, a, b, ht, h6, h7, hd, h8, h9, h10, h11⟩
    obtain ⟨s, hs⟩ := he1 e hm
    have hs' : id? e'.2 = some s := by rw [hk.id]; exact hs
    have hobj := isObj_of_id hs'
    have := prepare_find hobj h6 (find_id.mp hs')
    rw [← find_id, h7] at this
    injection this with this
    subst this
    have hprep : Prepared valid edgeTypes e x.data := ⟨t, data, e'.2, hty ▸ ht, hd, hobj, hk, h6⟩
    refine ⟨⟨hs, hprep.constructed, fun a' ha' => ?_, fun b' hb' => ?_⟩, hprep⟩
    · rw [← hk "from" (by decide)] at ha'
      have := prepare_find hobj h6 ha'
      rw [h8] at this
      injection this with this
      injection this with this
      subst this
      unfold Graph.nodeId
      rw [← List.getElem?_map]
      exact h9
    · rw [← hk "to" (by decide)] at hb'
      have := prepare_find hobj h6 hb'
      rw [h10] at this
      injection this with this
      injection this with this
      subst this
      unfold Graph.nodeId
      rw [← List.getElem?_map]
      exact h11
  refine ⟨hc, ?_, ⟨n1, pn1.trans pn0, on⟩, e1, pe1.trans pe0, oe⟩
  have i1 : n1.map (fun e => id? e.2) = (g1.nodes.map Node.id).map some := by
    rw [List.map_map]; exact forall₂_map_eq (on.imp fun _ _ h => h.1)
  have i2 : e1.map (fun e => id? e.2) = (g1.edges.map Edge.id).map some := by
    rw [List.map_map]; exact forall₂_map_eq (oe.imp fun _ _ h => h.1.1)
  have hperm : ((g1.nodes.map Node.id ++ g1.edges.map Edge.id).map some).Perm (il.map some) := by
    rw [List.map_append, ← i1, ← i2, ← hil, ids, List.map_append, List.map_map, List.map_map]
    exact ((pn1.trans pn0).map _).append ((pe1.trans pe0).map _)
  have : ((g1.nodes.map Node.id ++ g1.edges.map Edge.id).map some).Nodup :=
    hperm.nodup_iff.mpr (hnd.map (Option.some_injective _))
  exact List.Nodup.of_map _ this

theorem buildNet_ok {valid : Json → Json → Bool} {nodeTypes : List (String × ComponentType ν)}
    {edgeTypes : List (String × ComponentType ε)} {topology boundary : Json}
    (hp : Proper nodeTypes edgeTypes topology) {g : Graph ν ε}
    (h : buildNet valid nodeTypes edgeTypes topology boundary = Res.ok g) :
    Consistent g ∧ (g.nodes.map Node.id ++ g.edges.map Edge.id).Nodup ∧
    (∃ es, es.Perm (entries (types topology "nodes")) ∧ List.Forall₂ (OfNode nodeTypes) es g.nodes) ∧
    ∃ es, es.Perm (entries (types topology "connections")) ∧ List.Forall₂ (OfEdge edgeTypes g) es g.edges := by
  obtain ⟨h1, h2, ⟨ns, h3, h4⟩, es, h5, h6⟩ := buildNet_made hp h
  exact ⟨h1, h2, ⟨ns, h3, h4.imp fun _ _ h => ⟨h.1, h.2.constructed⟩⟩, es, h5, h6.imp fun _ _ h => h.1⟩

/-! ## C48 -/

/-- C48. Whatever jsons a network is built from: each edge is listed exactly once at its start and exactly once at its end, and
nowhere else, and the ends differ. -/
theorem C48_graph {valid : Json → Json → Bool} {nodeTypes : List (String × ComponentType ν)}
    {edgeTypes : List (String × ComponentType ε)} {topology boundary : Json}
    (hp : Proper nodeTypes edgeTypes topology) {g : Graph ν ε}
    (h : buildNet valid nodeTypes edgeTypes topology boundary = Res.ok g) : Consistent g := (buildNet_ok hp h).1

/-- C48. No two components of a network have the same id. -/
theorem C48_ids {valid : Json → Json → Bool} {nodeTypes : List (String × ComponentType ν)}
    {edgeTypes : List (String × ComponentType ε)} {topology boundary : Json}
    (hp : Proper nodeTypes edgeTypes topology) {g : Graph ν ε}
    (h : buildNet valid nodeTypes edgeTypes topology boundary = Res.ok g) :
    (g.nodes.map Node.id ++ g.edges.map Edge.id).Nodup := (buildNet_ok hp h).2.1

/-- C48. Edges whose ends are the same or do not exist are never built, whatever the graph is so far. -/
theorem C48_loop {valid : Json → Json → Bool} {t : ComponentType ε} {g : Graph ν ε} {j data : Json} {a b : String}
    (hd : prepare valid t j = Res.ok data) (hf : data.find? "from" = some (str a)) (ht : data.find? "to" = some (str b))
    (h : a = b ∨ a ∉ g.nodes.map Node.id ∨ b ∉ g.nodes.map Node.id) (hid : ∃ s, id? data = some s) :
    makeEdge valid t g j = Res.throws := by
  obtain ⟨s, hs⟩ := hid
  have key : ∀ k c, data.find? k = some (str c) → endNode k data g.nodes =
      match g.nodes.findIdx? fun n => c == n.id with
      | some v => Res.ok v
      | none => Res.throws := by
    intro k c hc
    unfold endNode
    rw [index_of_find hc]
    rfl
  have miss : ∀ c, c ∉ g.nodes.map Node.id → (g.nodes.findIdx? fun n => c == n.id) = none := by
    intro c hc
    rw [List.findIdx?_eq_none_iff]
    intro n hn
    rw [beq_eq_false_iff_ne]
    exact fun e => hc (e ▸ List.mem_map_of_mem hn)
  unfold makeEdge
  rw [hd, Res.ok_bind, rawId_of hs, Res.ok_bind, key _ _ hf, key _ _ ht]
  rcases h with h | h | h
  · subst h
    cases g.nodes.findIdx? fun n => a == n.id with
    | none => rfl
    | some v => simp
  · rw [miss a h]; rfl
  · rw [miss b h]
    cases g.nodes.findIdx? fun n => a == n.id <;> rfl

/-- C48. The checks in the constructor of the network never fail: whenever the nodes and edges can be built, so can be
the network. -/
theorem C48_check {valid : Json → Json → Bool} {nodeTypes : List (String × ComponentType ν)}
    {edgeTypes : List (String × ComponentType ε)} {topology : Json} (hp : Proper nodeTypes edgeTypes topology)
    {nodes : List (Node ν)} {g : Graph ν ε}
    (h1 : buildNodes valid nodeTypes (obj (types topology "nodes")) = Res.ok nodes)
    (h2 : buildEdges valid edgeTypes (obj (types topology "connections")) nodes = Res.ok g) :
    netCheck g = Res.ok () := by
  have dn : ∀ c ∈ classes, ((types topology c).map Prod.fst).Nodup := by
    intro c hc
    unfold types
    cases hf : topology.find? c with
    | none => simp
    | some v =>
      obtain ⟨m, rfl, -⟩ := hp.shaped c hc v hf
      exact hp.distinct c hc m hf
  refine (buildParts_ok (valid := valid) (topology := obj [("nodes", obj (types topology "nodes")),
    ("connections", obj (types topology "connections"))]) ⟨hp.nodeTypes, hp.edgeTypes, dn _ (by simp [classes]),
    dn _ (by simp [classes])⟩ (Or.inl rfl) (Or.inl rfl) (g := g) ?_).1.check
  unfold buildParts
  show (buildNodes valid nodeTypes (obj (types topology "nodes"))).bind _ = _
  rw [h1]
  exact h2

/-! ## C49 -/

/-- C49. A network has exactly one node for each entry of the nodes and exactly one edge for each entry of the connections,
and these have the ids and ends given there. -/
theorem C49_components {valid : Json → Json → Bool} {nodeTypes : List (String × ComponentType ν)}
    {edgeTypes : List (String × ComponentType ε)} {topology boundary : Json}
    (hp : Proper nodeTypes edgeTypes topology) {g : Graph ν ε}
    (h : buildNet valid nodeTypes edgeTypes topology boundary = Res.ok g) :
    (∃ es, es.Perm (entries (types topology "nodes")) ∧ List.Forall₂ (OfNode nodeTypes) es g.nodes) ∧
    ∃ es, es.Perm (entries (types topology "connections")) ∧ List.Forall₂ (OfEdge edgeTypes g) es g.edges := (buildNet_ok hp h).2.2

/-- C49. A network whose topology has an unknown type of nodes or edges is not built. -/
theorem C49_unknown_type {valid : Json → Json → Bool} {nodeTypes : List (String × ComponentType ν)}
    {edgeTypes : List (String × ComponentType ε)} {topology boundary : Json} (hs : Shaped topology)
    (h : (∃ x ∈ types topology "nodes", x.1 ∉ nodeTypes.map Prod.fst) ∨
      ∃ x ∈ types topology "connections", x.1 ∉ edgeTypes.map Prod.fst) (g : Graph ν ε) :
    buildNet valid nodeTypes edgeTypes topology boundary ≠ Res.ok g := by
  intro h0
  unfold buildNet at h0
  obtain ⟨full, h1, h2⟩ := Res.bind_eq_ok.mp h0
  obtain ⟨-, hsame⟩ := buildFull_same hs h1
  have key : ∀ c ∈ classes, ∀ x ∈ types topology c, ∃ m, (full.find? c).getD null = obj m ∧ ∃ y ∈ m, y.1 = x.1 := by
    intro c hc x hx
    obtain ⟨m, hm, st⟩ := (hsame c hc).types
    have : x.1 ∈ m.map Prod.fst := st.keys ▸ List.mem_map_of_mem hx
    obtain ⟨y, hy, e⟩ := List.mem_map.mp this
    rcases hm with hm | ⟨-, rfl⟩
    · exact ⟨m, hm, y, hy, e⟩
    · cases hy
  unfold buildGraph at h2
  obtain ⟨nodes, h3, h4⟩ := Res.bind_eq_ok.mp h2
  obtain ⟨g', h5, -⟩ := Res.bind_eq_ok.mp h4
  rcases h with ⟨x, hx, hk⟩ | ⟨x, hx, hk⟩
  · obtain ⟨m, hm, y, hy, e⟩ := key _ (by simp [classes]) x hx
    rw [hm, (C49_unknown valid nodeTypes edgeTypes m).1 ⟨y, hy, e ▸ hk⟩] at h3
    cases h3
  · obtain ⟨m, hm, y, hy, e⟩ := key _ (by simp [classes]) x hx
    rw [hm, (C49_unknown valid nodeTypes edgeTypes m).2 ⟨y, hy, e ▸ hk⟩ nodes] at h5
    cases h5

/-! ## Looking up components -/

theorem findIdx_some {α : Type} {p : α → Bool} {l : List α} {i : ℕ} (h : l.findIdx? p = some i) :
    ∃ a, l[i]? = some a ∧ p a = true := by
  rw [List.findIdx?_eq_some_iff_getElem] at h
  obtain ⟨h1, h2, -⟩ := h
  exact ⟨l[i], List.getElem?_eq_getElem h1, h2⟩

theorem nodup_getElem? {α : Type} {l : List α} (h : l.Nodup) {i j : ℕ} {a : α} (hi : l[i]? = some a)
    (hj : l[j]? = some a) : i = j := by
  obtain ⟨h1, h2⟩ := List.getElem?_eq_some_iff.mp hi
  obtain ⟨h3, h4⟩ := List.getElem?_eq_some_iff.mp hj
  exact (List.Nodup.getElem_inj_iff h).mp (h2.trans h4.symm)

/-- C48. Looking up a node by its id finds the node with this id, and nothing if there is none. -/
theorem C48_node_by_id {valid : Json → Json → Bool} {nodeTypes : List (String × ComponentType ν)}
    {edgeTypes : List (String × ComponentType ε)} {topology boundary : Json}
    (hp : Proper nodeTypes edgeTypes topology) {g : Graph ν ε}
    (h : buildNet valid nodeTypes edgeTypes topology boundary = Res.ok g) (id : String) (v : ℕ) :
    g.nodeById id = some v ↔ ∃ n, g.nodes[v]? = some n ∧ n.id = id := by
  have hn : (g.nodes.map Node.id).Nodup := (List.nodup_append.mp (C48_ids hp h)).1
  unfold Graph.nodeById
  constructor
  · intro h1
    obtain ⟨n, h2, h3⟩ := findIdx_some h1
    exact ⟨n, h2, (beq_iff_eq.mp h3).symm⟩
  · rintro ⟨n, h1, rfl⟩
    cases h2 : g.nodes.findIdx? fun m => n.id == m.id with
    | none =>
      rw [List.findIdx?_eq_none_iff] at h2
      have := h2 n (List.mem_of_getElem? h1)
      simp at this
    | some w =>
      obtain ⟨m, h3, h4⟩ := findIdx_some h2
      have e : n.id = m.id := beq_iff_eq.mp h4
      rw [nodup_getElem? hn (i := w) (j := v) (a := n.id) (by rw [List.getElem?_map, h3, e]; rfl)
        (by rw [List.getElem?_map, h1]; rfl)]

/-- C48. Looking up an edge by its id finds the edge with this id, and nothing if there is none. -/
theorem C48_edge_by_id {valid : Json → Json → Bool} {nodeTypes : List (String × ComponentType ν)}
    {edgeTypes : List (String × ComponentType ε)} {topology boundary : Json}
    (hp : Proper nodeTypes edgeTypes topology) {g : Graph ν ε}
    (h : buildNet valid nodeTypes edgeTypes topology boundary = Res.ok g) (id : String) (k : ℕ) :
    g.edgeById id = some k ↔ ∃ e, g.edges[k]? = some e ∧ e.id = id := by
  have hn : (g.edges.map Edge.id).Nodup := (List.nodup_append.mp (C48_ids hp h)).2.1
  unfold Graph.edgeById
  constructor
  · intro h1
    obtain ⟨n, h2, h3⟩ := findIdx_some h1
    exact ⟨n, h2, (beq_iff_eq.mp h3).symm⟩
  · rintro ⟨n, h1, rfl⟩
    cases h2 : g.edges.findIdx? fun m => n.id == m.id with
    | none =>
      rw [List.findIdx?_eq_none_iff] at h2
      have := h2 n (List.mem_of_getElem? h1)
      simp at this
    | some w =>
      obtain ⟨m, h3, h4⟩ := findIdx_some h2
      have e : n.id = m.id := beq_iff_eq.mp h4
      rw [nodup_getElem? hn (i := w) (j := k) (a := n.id) (by rw [List.getElem?_map, h3, e]; rfl)
        (by rw [List.getElem?_map, h1]; rfl)]

/-- An edge of the graph leads from the node with one id to the node with another id. -/
def Leads (g : Graph ν ε) (k : ℕ) (id1 id2 : String) : Prop :=
  ∃ e n m, g.edges[k]? = some e ∧ g.nodes[e.src]? = some n ∧ g.nodes[e.dst]? = some m ∧ n.id = id1 ∧ m.id = id2

theorem leads_iff {g : Graph ν ε} {k : ℕ} {e : Edge ε} (he : g.edges[k]? = some e) (id1 id2 : String) :
    ((g.nodeId e.src == some id1) && (g.nodeId e.dst == some id2)) = true ↔ Leads g k id1 id2 := by
  rw [Bool.and_eq_true, beq_iff_eq, beq_iff_eq]
  unfold Graph.nodeId Leads
  constructor
  · rintro ⟨h1, h2⟩
    obtain ⟨n, h3, h4⟩ := Option.map_eq_some_iff.mp h1
    obtain ⟨m, h5, h6⟩ := Option.map_eq_some_iff.mp h2
    exact ⟨e, n, m, he, h3, h5, h4, h6⟩
  · rintro ⟨e', n, m, h1, h2, h3, rfl, rfl⟩
    rw [he] at h1
    cases h1
    rw [h2, h3]
    exact ⟨rfl, rfl⟩

/-- C48. The lookup of an edge by the ids of its ends respects the direction: what is found leads from the first to the second
node, and nothing is found only if there is no such edge. -/
theorem C48_edge_by_ends (g : Graph ν ε) (id1 id2 : String) :
    (∀ k, g.edgeByNodeIds id1 id2 = some k → Leads g k id1 id2) ∧
    (g.edgeByNodeIds id1 id2 = none → ∀ k, ¬ Leads g k id1 id2) := by
  unfold Graph.edgeByNodeIds
  constructor
  · intro k h
    obtain ⟨e, h1, h2⟩ := findIdx_some h
    exact (leads_iff h1 _ _).mp h2
  · rw [List.findIdx?_eq_none_iff]
    intro h k hk
    obtain ⟨e, he⟩ : ∃ e, g.edges[k]? = some e := let ⟨e, _, _, he, _⟩ := hk; ⟨e, he⟩
    have := h e (List.mem_of_getElem? he)
    rw [(leads_iff he _ _).mpr hk] at this
    cases this

/-- C48. Two nodes are connected if an edge leads from one to the other, in either direction. -/
theorem C48_connected (g : Graph ν ε) (id1 id2 : String) :
    g.edgeBetween id1 id2 = true ↔ ∃ k, Leads g k id1 id2 ∨ Leads g k id2 id1 := by
  unfold Graph.edgeBetween
  rw [List.find?_isSome]
  constructor
  · rintro ⟨e, h1, h2⟩
    obtain ⟨k, hk⟩ := List.mem_iff_getElem?.mp h1
    rw [Bool.or_eq_true] at h2
    exact ⟨k, h2.imp (leads_iff hk _ _).mp (leads_iff hk _ _).mp⟩
  · rintro ⟨k, hk⟩
    obtain ⟨e, he⟩ : ∃ e, g.edges[k]? = some e := by
      rcases hk with ⟨e, _, _, he, _⟩ | ⟨e, _, _, he, _⟩ <;> exact ⟨e, he⟩
    refine ⟨e, List.mem_of_getElem? he, ?_⟩
    rw [Bool.or_eq_true]
    exact hk.imp (leads_iff he _ _).mpr (leads_iff he _ _).mpr

/-! ## Examples -/

/-- A type without properties, boundary values and defaults. -/
def plainType {α : Type} (a : α) : ComponentType α :=
  ⟨obj [("type", str "object"), ("properties", obj [])], none, obj [], fun _ => Res.ok a⟩

/-- Two nodes, joined by a pipe. -/
def sampleTopology : Json := obj [
  ("connections", obj [("Pipe", arr [obj [("from", str "b"), ("id", str "p"), ("to", str "a")]])]),
  ("nodes", obj [("Sink", arr [obj [("id", str "b")]]), ("Source", arr [obj [("id", str "a")]])])]

theorem prepare_plain {α : Type} (a : α) (j : Json) : prepare (fun _ _ => true) (plainType a) j = Res.ok j := by
  have h : typeSchema (plainType a) = Res.ok (obj [("type", str "object"), ("properties", obj [])]) := by
    show (addUnsafe (obj []) (obj [])).bind _ = _
    rw [addUnsafe_obj]
    rfl
  unfold prepare
  rw [h, Res.ok_bind]
  show (applyUnsafe (obj []) j).bind _ = _
  rw [applyUnsafe_eq]
  rfl

theorem sample_built (s t : ν) (p : ε) : buildNet (fun _ _ => true) [("Sink", plainType s), ("Source", plainType t)] [("Pipe", plainType p)]
    sampleTopology (obj []) =
    Res.ok ⟨[⟨"b", s, [0], []⟩, ⟨"a", t, [], [0]⟩], [⟨"p", p, 0, 1⟩]⟩ := by
  have h1 : buildFull sampleTopology (obj []) = Res.ok sampleTopology := rfl
  have hn : ∀ s : ν, makeNode (fun _ _ => true) (plainType s) = fun j => (rawId j).bind fun id => Res.ok ⟨id, s, [], []⟩ := by
    intro s
    funext j
    unfold makeNode
    rw [prepare_plain]
    rfl
  have he : ∀ (g : Graph ν ε) (j : Json), makeEdge (fun _ _ => true) (plainType p) g j =
      (rawId j).bind fun id => (endNode "from" j g.nodes).bind fun start => (endNode "to" j g.nodes).bind fun stop =>
        if start = stop then Res.throws
        else Res.ok ⟨(g.nodes.modify start (attachStart g.edges.length)).modify stop (attachEnd g.edges.length),
          g.edges ++ [⟨id, p, start, stop⟩]⟩ := by
    intro g j
    unfold makeEdge
    rw [prepare_plain]
    rfl
  have h2 : buildNodes (fun _ _ => true) [("Sink", plainType s), ("Source", plainType t)]
      ((sampleTopology.find? "nodes").getD null) = Res.ok [⟨"b", s, [], []⟩, ⟨"a", t, [], []⟩] := by
    show ((Res.each [obj [("id", str "b")]] (makeNode _ (plainType s))).bind _).bind _ = _
    simp only [Res.each, hn]
    rfl
  have h3 : buildEdges (fun _ _ => true) [("Pipe", plainType p)]
      ((sampleTopology.find? "connections").getD null) [⟨"b", s, [], []⟩, ⟨"a", t, [], []⟩] =
      Res.ok ⟨[⟨"b", s, [0], []⟩, ⟨"a", t, [], [0]⟩], [⟨"p", p, 0, 1⟩]⟩ := by
    show ((makeEdge _ (plainType p) _ _).bind _).bind _ = _
    simp only [he]
    rfl
  unfold buildNet
  rw [h1, Res.ok_bind]
  unfold buildGraph
  rw [h2, Res.ok_bind, h3]
  rfl

/-- The hypotheses of the theorems above hold in this example. -/
theorem sample_proper (s t : ν) (p : ε) : Proper [("Sink", plainType s), ("Source", plainType t)] [("Pipe", plainType p)] sampleTopology where
  nodeTypes := by show ["Sink", "Source"].Nodup; decide
  edgeTypes := by show ["Pipe"].Nodup; decide
  shaped := by
    intro c hc v hv
    simp only [classes, List.mem_cons, List.not_mem_nil, or_false] at hc
    rcases hc with rfl | rfl <;> injection hv with hv <;> subst hv <;> refine ⟨_, rfl, ?_⟩ <;>
      simp only [List.mem_cons, List.not_mem_nil, or_false]
    · rintro x (rfl | rfl) <;> exact ⟨_, rfl⟩
    · rintro x rfl; exact ⟨_, rfl⟩
  distinct := by
    intro c hc m hm
    simp only [classes, List.mem_cons, List.not_mem_nil, or_false] at hc
    rcases hc with rfl | rfl <;> injection hm with hm <;> injection hm with hm <;> subst hm <;> decide

/-- A loop is rejected. -/
example : makeEdge (fun _ _ => true) (plainType ()) (⟨[⟨"a", (), [], []⟩], []⟩ : Graph Unit Unit)
    (obj [("from", str "a"), ("id", str "p"), ("to", str "a")]) = Res.throws :=
  C48_loop (prepare_plain _ _) rfl rfl (Or.inl rfl) ⟨"p", rfl⟩

end Verif.Factory
