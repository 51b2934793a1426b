import Verif.Graph.Factory

/-!
# Properties C48 and C49: the graph of a network
-/

set_option autoImplicit false

namespace Verif.Factory

open Verif.Json

variable {ν ε : Type}

/-! ## Specification -/

/-- Each edge is in the lists of exactly its start node and its end node, once, and these differ. -/
structure Consistent (g : Graph ν ε) : Prop where
  starting : ∀ (v : ℕ) (n : Node ν), g.nodes[v]? = some n →
    n.starting.Nodup ∧ ∀ k : ℕ, k ∈ n.starting ↔ ∃ e, g.edges[k]? = some e ∧ e.src = v
  ending : ∀ (v : ℕ) (n : Node ν), g.nodes[v]? = some n →
    n.ending.Nodup ∧ ∀ k : ℕ, k ∈ n.ending ↔ ∃ e, g.edges[k]? = some e ∧ e.dst = v
  ends : ∀ e ∈ g.edges, e.src < g.nodes.length ∧ e.dst < g.nodes.length ∧ e.src ≠ e.dst

/-- The node is made from the entry of the json. -/
def NodeMade (valid : Json → Json → Bool) (types : List (String × ComponentType ν)) (e : String × Json) (n : Node ν) :
    Prop :=
  ∃ t data, (e.1, t) ∈ types ∧ prepare valid t e.2 = Res.ok data ∧ id? data = some n.id ∧ t.construct data = Res.ok n.data

/-- The edge is made from the entry of the json, and its ends are nodes with the ids given there. -/
def EdgeMade (valid : Json → Json → Bool) (types : List (String × ComponentType ε)) (ids : List String)
    (e : String × Json) (x : Edge ε) : Prop :=
  ∃ t data a b, (e.1, t) ∈ types ∧ prepare valid t e.2 = Res.ok data ∧ id? data = some x.id ∧
    t.construct data = Res.ok x.data ∧ data.find? "from" = some (str a) ∧ ids[x.src]? = some a ∧
    data.find? "to" = some (str b) ∧ ids[x.dst]? = some b

/-! ## Proofs -/

theorem rawId_ok {c : Json} {s : String} (h : rawId c = Res.ok s) : id? c = some s := by
  unfold rawId at h
  obtain ⟨i, h1, h2⟩ := Res.bind_eq_ok.mp h
  rw [index_eq_ok] at h1
  unfold getStr at h2
  split at h2
  · injection h2 with h2
    subst h2
    unfold id?
    rw [h1]
  · cases h2

theorem endNode_ok {key : String} {data : Json} {nodes : List (Node ν)} {v : ℕ} (h : endNode key data nodes = Res.ok v) :
    ∃ a, data.find? key = some (str a) ∧ (nodes.map Node.id)[v]? = some a := by
  unfold endNode at h
  obtain ⟨i, h1, h⟩ := Res.bind_eq_ok.mp h
  obtain ⟨a, h2, h⟩ := Res.bind_eq_ok.mp h
  rw [index_eq_ok] at h1
  unfold getStr at h2
  split at h2
  · injection h2 with h2
    subst h2
    split at h
    · next v' hv =>
      injection h with h
      subst h
      refine ⟨_, h1, ?_⟩
      obtain ⟨hlt, h3, -⟩ := List.findIdx?_eq_some_iff_getElem.mp hv
      rw [List.getElem?_map, List.getElem?_eq_getElem hlt]
      simpa using (beq_iff_eq.mp h3).symm
    · cases h
  · cases h2

/-- What is not changed by attaching edges. -/
def key (n : Node ν) : String × ν := (n.id, n.data)

theorem map_modify_of {α β : Type} (f : α → β) (g : α → α) (hg : ∀ a, f (g a) = f a) (l : List α) (i : ℕ) :
    (l.modify i g).map f = l.map f := by
  refine List.ext_getElem? fun j => ?_
  rw [List.getElem?_map, List.getElem?_map, List.getElem?_modify]
  cases l[j]? with
  | none => rfl
  | some a =>
    simp only [Option.map_some, Option.map_eq_map]
    split <;> simp [hg]

theorem Consistent.lt_of_starting {g : Graph ν ε} (hg : Consistent g) {v k : ℕ} {n : Node ν} (hn : g.nodes[v]? = some n)
    (hk : k ∈ n.starting) : k < g.edges.length := by
  obtain ⟨e, he, -⟩ := ((hg.starting v n hn).2 k).mp hk
  exact (List.getElem?_eq_some_iff.mp he).1

theorem Consistent.lt_of_ending {g : Graph ν ε} (hg : Consistent g) {v k : ℕ} {n : Node ν} (hn : g.nodes[v]? = some n)
    (hk : k ∈ n.ending) : k < g.edges.length := by
  obtain ⟨e, he, -⟩ := ((hg.ending v n hn).2 k).mp hk
  exact (List.getElem?_eq_some_iff.mp he).1

theorem getElem?_concat {α : Type} (l : List α) (a : α) (k : ℕ) :
    (l ++ [a])[k]? = if k = l.length then some a else l[k]? := by
  rw [List.getElem?_append]
  split
  · next h => rw [if_neg (by omega)]
  · next h =>
    split
    · next h' => subst h'; simp
    · next h' =>
      rw [List.getElem?_eq_none (by simp; omega), List.getElem?_eq_none (by omega)]

/-- Adding an edge keeps the graph consistent. -/
theorem Consistent.add {g : Graph ν ε} (hg : Consistent g) {start stop : ℕ} (h1 : start < g.nodes.length)
    (h2 : stop < g.nodes.length) (hne : start ≠ stop) (id : String) (d : ε) :
    Consistent ⟨(g.nodes.modify start (attachStart g.edges.length)).modify stop (attachEnd g.edges.length),
      g.edges ++ [⟨id, d, start, stop⟩]⟩ := by
  have hget : ∀ v n', ((g.nodes.modify start (attachStart g.edges.length)).modify stop
      (attachEnd g.edges.length))[v]? = some n' → ∃ n, g.nodes[v]? = some n ∧
      n'.starting = (if start = v then n.starting ++ [g.edges.length] else n.starting) ∧
      n'.ending = if stop = v then n.ending ++ [g.edges.length] else n.ending := by
    intro v n' h
    rw [List.getElem?_modify, List.getElem?_modify] at h
    cases hv : g.nodes[v]? with
    | none => simp [hv] at h
    | some n =>
      refine ⟨n, rfl, ?_⟩
      rw [hv] at h
      simp only [Option.map_eq_map, Option.map_some, Option.some.injEq] at h
      subst h
      by_cases ha : start = v <;> by_cases hb : stop = v <;> simp [ha, hb, attachStart, attachEnd]
  refine ⟨fun v n' hn' => ?_, fun v n' hn' => ?_, fun e he => ?_⟩
  · obtain ⟨n, hn, h3, -⟩ := hget v n' hn'
    obtain ⟨h4, h5⟩ := hg.starting v n hn
    have hnot : g.edges.length ∉ n.starting := fun h => absurd (hg.lt_of_starting hn h) (lt_irrefl _)
    rw [h3]
    constructor
    · split
      · exact List.Nodup.append h4 (by simp) (by simpa using hnot)
      · exact h4
    · intro k
      simp only [getElem?_concat]
      by_cases hk : k = g.edges.length
      · subst hk
        simp only [if_true, Option.some.injEq, exists_eq_left']
        by_cases hv : start = v
        · simp [hv]
        · simp [hv, hnot]
      · simp only [if_neg hk]
        rw [← h5 k]
        split <;> simp [hk]
  · obtain ⟨n, hn, -, h3⟩ := hget v n' hn'
    obtain ⟨h4, h5⟩ := hg.ending v n hn
    have hnot : g.edges.length ∉ n.ending := fun h => absurd (hg.lt_of_ending hn h) (lt_irrefl _)
    rw [h3]
    constructor
    · split
      · exact List.Nodup.append h4 (by simp) (by simpa using hnot)
      · exact h4
    · intro k
      simp only [getElem?_concat]
      by_cases hk : k = g.edges.length
      · subst hk
        simp only [if_true, Option.some.injEq, exists_eq_left']
        by_cases hv : stop = v
        · simp [hv]
        · simp [hv, hnot]
      · simp only [if_neg hk]
        rw [← h5 k]
        split <;> simp [hk]
  · simp only [List.length_modify]
    rcases List.mem_append.mp he with he | he
    · exact hg.ends e he
    · have := List.mem_singleton.mp he
      subst this
      exact ⟨h1, h2, hne⟩

theorem makeTyped_ok {valid : Json → Json → Bool} {types : List (String × ComponentType ε)} {g g' : Graph ν ε}
    {e : String × Json} (hg : Consistent g) (h : makeTyped valid types g e = Res.ok g') :
    Consistent g' ∧ g'.nodes.map key = g.nodes.map key ∧
      ∃ x, g'.edges = g.edges ++ [x] ∧ EdgeMade valid types (g.nodes.map Node.id) e x := by
  unfold makeTyped at h
  cases ht : types.lookup e.1 with
  | none => rw [ht] at h; cases h
  | some t =>
    rw [ht] at h
    simp only at h
    unfold makeEdge at h
    obtain ⟨data, h1, h⟩ := Res.bind_eq_ok.mp h
    obtain ⟨id, h2, h⟩ := Res.bind_eq_ok.mp h
    obtain ⟨start, h3, h⟩ := Res.bind_eq_ok.mp h
    obtain ⟨stop, h4, h⟩ := Res.bind_eq_ok.mp h
    split at h
    · cases h
    · next hne =>
      obtain ⟨d, h5, h⟩ := Res.bind_eq_ok.mp h
      injection h with h
      subst h
      obtain ⟨a, ha, ha'⟩ := endNode_ok h3
      obtain ⟨b, hb, hb'⟩ := endNode_ok h4
      have l1 : start < g.nodes.length := by simpa using (List.getElem?_eq_some_iff.mp ha').1
      have l2 : stop < g.nodes.length := by simpa using (List.getElem?_eq_some_iff.mp hb').1
      refine ⟨hg.add l1 l2 hne id d, ?_, _, rfl, t, data, a, b, mem_of_lookup' ht, h1, rawId_ok h2, h5, ha, ha', hb, hb'⟩
      exact (map_modify_of key (attachEnd _) (fun _ => rfl) _ _).trans (map_modify_of key (attachStart _) (fun _ => rfl) _ _)

theorem ids_of_key {l l' : List (Node ν)} (h : l.map key = l'.map key) : l.map Node.id = l'.map Node.id := by
  have := congrArg (List.map Prod.fst) h
  simpa [key, Function.comp_def] using this

theorem fold_makeTyped {valid : Json → Json → Bool} {types : List (String × ComponentType ε)} {es : List (String × Json)}
    {g g' : Graph ν ε} (hg : Consistent g) (h : Res.fold es g (makeTyped valid types) = Res.ok g') :
    Consistent g' ∧ g'.nodes.map key = g.nodes.map key ∧
      ∃ xs, g'.edges = g.edges ++ xs ∧ List.Forall₂ (EdgeMade valid types (g.nodes.map Node.id)) es xs := by
  induction es generalizing g with
  | nil =>
    injection h with h
    subst h
    exact ⟨hg, rfl, [], by simp, .nil⟩
  | cons e es ih =>
    simp only [Res.fold] at h
    obtain ⟨g1, h1, h2⟩ := Res.bind_eq_ok.mp h
    obtain ⟨c1, k1, x, e1, m1⟩ := makeTyped_ok hg h1
    obtain ⟨c2, k2, xs, e2, m2⟩ := ih c1 h2
    refine ⟨c2, k2.trans k1, x :: xs, by rw [e2, e1]; simp, .cons m1 ?_⟩
    rw [← ids_of_key k1]
    exact m2

theorem makeNode_ok {valid : Json → Json → Bool} {t : ComponentType ν} {j : Json} {n : Node ν}
    (h : makeNode valid t j = Res.ok n) : n.starting = [] ∧ n.ending = [] ∧
      ∃ data, prepare valid t j = Res.ok data ∧ id? data = some n.id ∧ t.construct data = Res.ok n.data := by
  unfold makeNode at h
  obtain ⟨data, h1, h⟩ := Res.bind_eq_ok.mp h
  obtain ⟨id, h2, h⟩ := Res.bind_eq_ok.mp h
  obtain ⟨d, h3, h⟩ := Res.bind_eq_ok.mp h
  injection h with h
  subst h
  exact ⟨rfl, rfl, data, h1, rawId_ok h2, h3⟩

/-- A graph without edges is consistent. -/
theorem consistent_nil {nodes : List (Node ν)} (h : ∀ n ∈ nodes, n.starting = [] ∧ n.ending = []) :
    Consistent (⟨nodes, []⟩ : Graph ν ε) := by
  refine ⟨fun v n hn => ?_, fun v n hn => ?_, by simp⟩
  · rw [(h n (List.mem_of_getElem? hn)).1]; simp
  · rw [(h n (List.mem_of_getElem? hn)).2]; simp

/-- The checks of the constructor of the network never fail in a consistent graph. -/
theorem Consistent.check {g : Graph ν ε} (hg : Consistent g) : netCheck g = Res.ok () := by
  unfold netCheck
  rw [if_pos]
  rw [List.all_eq_true]
  rintro ⟨e, k⟩ hx
  have hk : g.edges[k]? = some e := by simpa using List.mem_zipIdx_iff_getElem?.mp hx
  obtain ⟨h1, h2, -⟩ := hg.ends e (List.mem_of_getElem? hk)
  rw [List.getElem?_eq_getElem h1, List.getElem?_eq_getElem h2]
  simp only [Bool.and_eq_true, List.contains_iff_mem]
  exact ⟨((hg.starting _ _ (List.getElem?_eq_getElem h1)).2 k).mpr ⟨e, hk, rfl⟩,
    ((hg.ending _ _ (List.getElem?_eq_getElem h2)).2 k).mpr ⟨e, hk, rfl⟩⟩

/-- What is used of the maps of types and of the jsons of one class: names are distinct, as in all maps. -/
structure Maps (nodeTypes : List (String × ComponentType ν)) (edgeTypes : List (String × ComponentType ε))
    (nodes edges : List (String × Json)) : Prop where
  nodeTypes : (nodeTypes.map Prod.fst).Nodup
  edgeTypes : (edgeTypes.map Prod.fst).Nodup
  nodes : (nodes.map Prod.fst).Nodup
  edges : (edges.map Prod.fst).Nodup

theorem buildGraph_ok {valid : Json → Json → Bool} {nodeTypes : List (String × ComponentType ν)}
    {edgeTypes : List (String × ComponentType ε)} {topology : Json} {nodes edges : List (String × Json)}
    (hm : Maps nodeTypes edgeTypes nodes edges) (hn : topology.find? "nodes" = some (obj nodes))
    (he : topology.find? "connections" = some (obj edges)) {g : Graph ν ε}
    (h : buildGraph valid nodeTypes edgeTypes topology = Res.ok g) :
    Consistent g ∧
    (∃ es, es.Perm (entries nodes) ∧ List.Forall₂ (NodeMade valid nodeTypes) es g.nodes) ∧
    ∃ es, es.Perm (entries edges) ∧
      List.Forall₂ (EdgeMade valid edgeTypes (g.nodes.map Node.id)) es g.edges := by
  unfold buildGraph at h
  obtain ⟨ns, h1, h⟩ := Res.bind_eq_ok.mp h
  obtain ⟨g1, h2, h⟩ := Res.bind_eq_ok.mp h
  obtain ⟨u, -, h⟩ := Res.bind_eq_ok.mp h
  injection h with h
  subst h
  rw [hn, Option.getD_some] at h1
  rw [he, Option.getD_some] at h2
  obtain ⟨es, p1, f1⟩ := C49_nodes hm.nodeTypes hm.nodes h1
  have hempty : ∀ n ∈ ns, n.starting = [] ∧ n.ending = [] := by
    intro n hn
    obtain ⟨e, -, t, -, h3⟩ := forall₂_mem_right f1 hn
    obtain ⟨h4, h5, -⟩ := makeNode_ok h3
    exact ⟨h4, h5⟩
  by_cases hk : unknownType edgeTypes (obj edges) = true
  · unfold buildEdges at h2
    rw [if_pos hk] at h2
    cases h2
  · simp only [Bool.not_eq_true] at hk
    rw [buildEdges_eq hm.edgeTypes hk] at h2
    obtain ⟨c, k, xs, e2, m2⟩ := fold_makeTyped (consistent_nil hempty) h2
    simp only [List.nil_append] at e2
    subst e2
    refine ⟨c, ⟨es, p1, ?_⟩, _, entries_perm hm.edgeTypes hm.edges hk, ?_⟩
    · have : List.Forall₂ (fun e (x : String × ν) => ∃ t data, (e.1, t) ∈ nodeTypes ∧ prepare valid t e.2 = Res.ok data ∧
          id? data = some x.1 ∧ t.construct data = Res.ok x.2) es (g1.nodes.map key) := by
        rw [k, List.forall₂_map_right_iff]
        refine f1.imp ?_
        rintro e n ⟨t, h3, h4⟩
        obtain ⟨-, -, data, h5, h6, h7⟩ := makeNode_ok h4
        exact ⟨t, data, h3, h5, h6, h7⟩
      rw [List.forall₂_map_right_iff] at this
      exact this
    · rw [ids_of_key k]
      exact m2

end Verif.Factory
