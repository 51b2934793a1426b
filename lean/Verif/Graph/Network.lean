import Verif.Graph.Props
import Verif.Network.Ranges

/-!
# Networks built from jsons are the networks of `Verif.Network`

The theorems about residuals, derivatives and balances of whole networks are about a network with numbered nodes and edges and
suppose that the lists of attached edges fit. Here this is shown of every network that is built from jsons.
-/

set_option autoImplicit false

namespace Verif.Factory

open Verif.Json

/-- The positions below a bound among a list of positions. -/
def below (n : ℕ) (l : List ℕ) : List (Fin n) := l.filterMap fun k => if h : k < n then some ⟨k, h⟩ else none

theorem mem_below {n : ℕ} {l : List ℕ} {k : Fin n} : k ∈ below n l ↔ k.val ∈ l := by
  unfold below
  rw [List.mem_filterMap]
  constructor
  · rintro ⟨a, h1, h2⟩
    split at h2
    · injection h2 with h2; subst h2; exact h1
    · cases h2
  · intro h
    exact ⟨k.val, h, by rw [dif_pos k.isLt]⟩

theorem nodup_below {n : ℕ} {l : List ℕ} (h : l.Nodup) : (below n l).Nodup := by
  refine List.Nodup.filterMap ?_ h
  intro a b c hc hc'
  rw [Option.mem_def] at hc hc'
  split at hc
  · split at hc'
    · injection hc with hc
      injection hc' with hc'
      rw [← hc'] at hc
      exact congrArg Fin.val hc
    · cases hc'
  · cases hc

/-- The network of a graph: the same nodes, edges, ends and lists of attached edges, with positions in range. -/
def toNet {g : Graph Network.Node Network.EdgeKind} (hc : Consistent g) : Network.Net where
  nodes := g.nodes.length
  edges := g.edges.length
  node v := g.nodes[v].data
  edge k := g.edges[k].data
  src k := ⟨g.edges[k].src, (hc.ends _ (List.getElem_mem _)).1⟩
  dst k := ⟨g.edges[k].dst, (hc.ends _ (List.getElem_mem _)).2.1⟩
  starting v := below _ g.nodes[v].starting
  ending v := below _ g.nodes[v].ending

/-- Nothing is lost by restricting the positions to those in range: the lists of attached edges are those of the graph. -/
theorem toNet_lists {g : Graph Network.Node Network.EdgeKind} (hc : Consistent g) (v : Fin g.nodes.length) :
    ((toNet hc).starting v).map Fin.val = g.nodes[v].starting ∧
    ((toNet hc).ending v).map Fin.val = g.nodes[v].ending := by
  have key : ∀ (n : ℕ) (l : List ℕ), (∀ k ∈ l, k < n) → (below n l).map Fin.val = l := by
    intro n l
    induction l with
    | nil => intro _; rfl
    | cons a l ih =>
      intro h
      have : below n (a :: l) = ⟨a, h a (by simp)⟩ :: below n l := by
        unfold below
        rw [List.filterMap_cons, dif_pos (h a (by simp))]
      rw [this, List.map_cons, ih fun k hk => h k (by simp [hk])]
  have hv : g.nodes[v.val]? = some g.nodes[v] := List.getElem?_eq_getElem v.isLt
  refine ⟨key _ _ fun k hk => ?_, key _ _ fun k hk => ?_⟩
  · obtain ⟨e, he, -⟩ := ((hc.starting _ _ hv).2 k).mp hk
    exact (List.getElem?_eq_some_iff.mp he).1
  · obtain ⟨e, he, -⟩ := ((hc.ending _ _ hv).2 k).mp hk
    exact (List.getElem?_eq_some_iff.mp he).1

/-- The ends of the edges have fitting types and pipes have at least two points. The first is not
checked when a network is built. -/
structure Fitting (N : Network.Net) : Prop where
  points : ∀ k dx d r n, N.edge k = .gas (.pipe dx d r) n → 2 ≤ n
  gasStart : ∀ k kind n, N.edge k = .gas kind n → (N.node (N.src k)).kind.isGas
  gasEnd : ∀ k kind n, N.edge k = .gas kind n → (∀ g p, kind ≠ .gaspower g p) → (N.node (N.dst k)).kind.isGas
  plantEnd : ∀ k g p n, N.edge k = .gas (.gaspower g p) n → (N.node (N.dst k)).kind.isPlant
  lines : ∀ k G B, N.edge k = .line G B → (N.node (N.src k)).kind.isPower ∧ (N.node (N.dst k)).kind.isPower

/-- C48. Every network that is built from jsons and whose edges have ends of fitting types is admissible, so that the theorems
about whole networks apply. -/
theorem C48_admissible {valid : Json → Json → Bool} {nodeTypes : List (String × ComponentType Network.Node)}
    {edgeTypes : List (String × ComponentType Network.EdgeKind)} {topology boundary : Json}
    (hp : Proper nodeTypes edgeTypes topology) {g : Graph Network.Node Network.EdgeKind}
    (h : buildNet valid nodeTypes edgeTypes topology boundary = Res.ok g) (hf : Fitting (toNet (C48_graph hp h))) :
    Network.Admissible (toNet (C48_graph hp h)) := by
  have hc := C48_graph hp h
  have edge : ∀ k : Fin g.edges.length, g.edges[k.val]? = some g.edges[k] := fun k => List.getElem?_eq_getElem k.isLt
  have node : ∀ v : Fin g.nodes.length, g.nodes[v.val]? = some g.nodes[v] := fun v => List.getElem?_eq_getElem v.isLt
  refine ⟨fun v => ?_, fun v => ?_, fun k => ?_, hf.points, hf.gasStart, hf.gasEnd, hf.plantEnd, hf.lines⟩
  · obtain ⟨h1, h2⟩ := hc.starting _ _ (node v)
    refine ⟨nodup_below h1, fun k => ?_⟩
    show k ∈ below _ _ ↔ _
    rw [mem_below, h2 k.val]
    constructor
    · rintro ⟨e, h3, h4⟩
      rw [edge k] at h3
      injection h3 with h3
      subst h3
      exact Fin.ext h4
    · intro h3
      exact ⟨_, edge k, congrArg Fin.val h3⟩
  · obtain ⟨h1, h2⟩ := hc.ending _ _ (node v)
    refine ⟨nodup_below h1, fun k => ?_⟩
    show k ∈ below _ _ ↔ _
    rw [mem_below, h2 k.val]
    constructor
    · rintro ⟨e, h3, h4⟩
      rw [edge k] at h3
      injection h3 with h3
      subst h3
      exact Fin.ext h4
    · intro h3
      exact ⟨_, edge k, congrArg Fin.val h3⟩
  · intro h1
    exact (hc.ends _ (List.getElem_mem (h := k.isLt))).2.2 (congrArg Fin.val h1)

/-- The hypotheses hold in the example of two nodes that are joined by a pipe, here a short one. -/
example : Fitting (toNet (C48_graph (sample_proper _ _ _) (sample_built (⟨.pressure, fun _ => Res.ok (1, 0), 0, 0⟩ : Network.Node)
    ⟨.flow, fun _ => Res.ok (2, 0), 0, 0⟩ (Network.EdgeKind.gas .shortpipe 0)))) := by
  have one : ∀ (P : Fin 1 → Prop), P 0 → ∀ k, P k := fun P h k => by
    rw [Subsingleton.elim k 0]; exact h
  constructor
  · refine one _ ?_
    intro dx d r n h
    cases h
  · refine one _ ?_
    intro kind n _
    rfl
  · refine one _ ?_
    intro kind n _ _
    rfl
  · refine one _ ?_
    intro g p n h
    cases h
  · refine one _ ?_
    intro G B h
    cases h

end Verif.Factory
