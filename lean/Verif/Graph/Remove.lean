import Verif.Graph.Props

/-!
# Property C183: detaching an edge from a node

Source: `/repo/src/Model/Network/Node.cpp`, lines 31-49, with the constructor of `Net` in `Net.cpp`.
-/

set_option autoImplicit false

namespace Verif.Factory

open Verif.Json

variable {ν ε : Type}

/-! ## Model -/

/-- One of the loops of `remove_edge` — `Node.cpp` 32-38, 40-46: the first occurrence is erased; `none` if the end of the list
is reached. -/
def eraseFirst (k : ℕ) : List ℕ → Option (List ℕ)
  | [] => none
  | a :: l => if a = k then some l else (eraseFirst k l).map (a :: ·)

/-- `remove_edge` — `Node.cpp` 31-49: what is returned, and the node afterwards. -/
def removeEdge (k : ℕ) (n : Node ν) : Bool × Node ν :=
  match eraseFirst k n.starting with
  | some l => (true, { n with starting := l })
  | none =>
    match eraseFirst k n.ending with
    | some l => (true, { n with ending := l })
    | none => (false, n)

/-- The graph after `remove_edge` at one of its nodes; the edge itself and its pointers to its ends are not changed. -/
def Graph.detach (g : Graph ν ε) (k v : ℕ) : Graph ν ε := { g with nodes := g.nodes.modify v fun n => (removeEdge k n).2 }

/-! ## Specification -/

/-- The edges of a node, those that start there first. -/
def Node.attached (n : Node ν) : List ℕ × List ℕ := (n.starting, n.ending)

/-- An edge starts or ends at the node. -/
def Touches (g : Graph ν ε) (k v : ℕ) : Prop := ∃ e, g.edges[k]? = some e ∧ (e.src = v ∨ e.dst = v)

/-! ## Proofs -/

theorem eraseFirst_eq {k : ℕ} {l : List ℕ} (hl : l.Nodup) :
    eraseFirst k l = if k ∈ l then some (l.filter (· ≠ k)) else none := by
  induction l with
  | nil => rfl
  | cons a l ih =>
    obtain ⟨h1, h2⟩ := List.nodup_cons.mp hl
    unfold eraseFirst
    by_cases h : a = k
    · subst h
      have : l.filter (· ≠ a) = l := List.filter_eq_self.mpr fun x hx => by
        simpa using fun e : x = a => h1 (e ▸ hx)
      simp only [↓reduceIte, List.mem_cons, true_or]
      rw [List.filter_cons_of_neg (by simp), this]
    · rw [if_neg h, ih h2]
      by_cases hk : k ∈ l
      · simp [hk, h]
      · simp [hk, Ne.symm h]

theorem filter_of_not_mem {k : ℕ} {l : List ℕ} (h : k ∉ l) : l.filter (· ≠ k) = l :=
  List.filter_eq_self.mpr fun x hx => by simpa using fun e : x = k => h (e ▸ hx)

theorem Consistent.remove {g : Graph ν ε} (hg : Consistent g) {v : ℕ} {n : Node ν} (hn : g.nodes[v]? = some n) (k : ℕ) :
    ((removeEdge k n).1 = true ↔ Touches g k v) ∧
    (removeEdge k n).2 = { n with starting := n.starting.filter (· ≠ k), ending := n.ending.filter (· ≠ k) } := by
  obtain ⟨s1, s2⟩ := hg.starting v n hn
  obtain ⟨t1, t2⟩ := hg.ending v n hn
  unfold removeEdge
  rw [eraseFirst_eq s1, eraseFirst_eq t1]
  by_cases hs : k ∈ n.starting
  · obtain ⟨e, he, hv⟩ := (s2 k).mp hs
    have ht : k ∉ n.ending := by
      intro ht
      obtain ⟨e', he', hv'⟩ := (t2 k).mp ht
      rw [he] at he'
      cases he'
      exact (hg.ends e (List.mem_of_getElem? he)).2.2 (hv.trans hv'.symm)
    simp only [hs, ↓reduceIte, true_iff]
    exact ⟨⟨e, he, Or.inl hv⟩, by rw [filter_of_not_mem ht]⟩
  · by_cases ht : k ∈ n.ending
    · obtain ⟨e, he, hv⟩ := (t2 k).mp ht
      simp only [hs, ht, ↓reduceIte, true_iff]
      exact ⟨⟨e, he, Or.inr hv⟩, by rw [filter_of_not_mem hs]⟩
    · simp only [hs, ht, ↓reduceIte, Bool.false_eq_true, false_iff]
      refine ⟨?_, by rw [filter_of_not_mem hs, filter_of_not_mem ht]⟩
      rintro ⟨e, he, h | h⟩
      · exact hs ((s2 k).mpr ⟨e, he, h⟩)
      · exact ht ((t2 k).mpr ⟨e, he, h⟩)

/-! ## C183 -/

/-- C183. In a network built from files, an edge can be detached from a node if and only if it starts or ends there. Afterwards the node
has exactly its other edges, in the same order, and has kept its id and its data. -/
theorem C183 {valid : Json → Json → Bool} {nodeTypes : List (String × ComponentType ν)}
    {edgeTypes : List (String × ComponentType ε)} {topology boundary : Json} (hp : Proper nodeTypes edgeTypes topology)
    {g : Graph ν ε} (h : buildNet valid nodeTypes edgeTypes topology boundary = Res.ok g) {v : ℕ} {n : Node ν}
    (hn : g.nodes[v]? = some n) (k : ℕ) :
    ((removeEdge k n).1 = true ↔ Touches g k v) ∧
    (removeEdge k n).2.id = n.id ∧ (removeEdge k n).2.data = n.data ∧
    (removeEdge k n).2.attached = (n.starting.filter (· ≠ k), n.ending.filter (· ≠ k)) := by
  obtain ⟨h1, h2⟩ := (C48_graph hp h).remove hn k
  rw [h2]
  exact ⟨h1, rfl, rfl, rfl⟩

/-- C183. It can be detached only once: a second attempt fails and changes nothing. -/
theorem C183_once {valid : Json → Json → Bool} {nodeTypes : List (String × ComponentType ν)}
    {edgeTypes : List (String × ComponentType ε)} {topology boundary : Json} (hp : Proper nodeTypes edgeTypes topology)
    {g : Graph ν ε} (h : buildNet valid nodeTypes edgeTypes topology boundary = Res.ok g) {v : ℕ} {n : Node ν}
    (hn : g.nodes[v]? = some n) (k : ℕ) : removeEdge k (removeEdge k n).2 = (false, (removeEdge k n).2) := by
  obtain ⟨-, h2⟩ := (C48_graph hp h).remove hn k
  obtain ⟨s1, -⟩ := (C48_graph hp h).starting v n hn
  obtain ⟨t1, -⟩ := (C48_graph hp h).ending v n hn
  rw [h2]
  unfold removeEdge
  simp only
  rw [eraseFirst_eq (s1.filter _), eraseFirst_eq (t1.filter _)]
  simp

/-- C183. A network is rejected if one of its edges has been detached from one of its ends. -/
theorem C183_rejected {valid : Json → Json → Bool} {nodeTypes : List (String × ComponentType ν)}
    {edgeTypes : List (String × ComponentType ε)} {topology boundary : Json} (hp : Proper nodeTypes edgeTypes topology)
    {g : Graph ν ε} (h : buildNet valid nodeTypes edgeTypes topology boundary = Res.ok g) {k v : ℕ} (hk : Touches g k v) :
    netCheck (g.detach k v) = Res.throws := by
  have hg := C48_graph hp h
  obtain ⟨e, he, hv⟩ := hk
  obtain ⟨e1, e2, -⟩ := hg.ends e (List.mem_of_getElem? he)
  have hlt : v < g.nodes.length := by rcases hv with rfl | rfl <;> assumption
  have hn := List.getElem?_eq_getElem hlt
  obtain ⟨-, hr⟩ := hg.remove hn k
  have hm : (g.detach k v).nodes[v]? = some (removeEdge k g.nodes[v]).2 := by
    unfold Graph.detach
    rw [List.getElem?_modify, hn]
    simp
  unfold netCheck
  rw [if_neg]
  intro hall
  rw [List.all_eq_true] at hall
  have hx := hall (e, k) (List.mem_zipIdx_iff_getElem?.mpr he)
  rw [Bool.and_eq_true] at hx
  rcases hv with rfl | rfl
  · have := hx.1
    simp only [hm, hr] at this
    simp at this
  · have := hx.2
    simp only [hm, hr] at this
    simp at this

/-- The hypotheses hold in the example of two nodes joined by a pipe: the pipe can be detached from its end, and then the network is
rejected. -/
example : ∃ g : Graph ℕ ℕ, buildNet (fun _ _ => true) [("Sink", plainType 1), ("Source", plainType 2)] [("Pipe", plainType 3)]
    sampleTopology (obj []) = Res.ok g ∧ Touches g 0 1 ∧ (∃ n, g.nodes[1]? = some n ∧ (removeEdge 0 n).1 = true) ∧
    netCheck (g.detach 0 1) = Res.throws := by
  have hk : Touches (⟨[⟨"b", 1, [0], []⟩, ⟨"a", 2, [], [0]⟩], [⟨"p", 3, 0, 1⟩]⟩ : Graph ℕ ℕ) 0 1 := ⟨_, rfl, Or.inr rfl⟩
  refine ⟨_, sample_built 1 2 3, hk, ⟨_, rfl, ?_⟩, C183_rejected (sample_proper 1 2 3) (sample_built 1 2 3) hk⟩
  exact (C183 (sample_proper 1 2 3) (sample_built 1 2 3) (v := 1) rfl 0).1.mpr hk

end Verif.Factory
