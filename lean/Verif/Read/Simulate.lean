import Verif.Read.Example
import Verif.Network.Laws

/-!
# Property C100: a network that is read and set up can be simulated

This is false of the code: the types of the ends of a transmission line are never checked, so that a null pointer is used. It is
proved for files that fit: the ends of edges have the right types, lengths and widths are positive, pipes have a possible
geometry, and the boundary values cover the time.
-/

set_option autoImplicit false

namespace Verif.Read

open Verif.Json Verif.Factory Verif.Interp Verif.Schema

/-! ## Specification -/

/-- Names of the types of nodes in the gas network. -/
def gasNodes : List String := ["ConstraintSink", "Innode", "Pressureboundarynode", "Sink", "Source"]

/-- Names of the types of nodes in the power grid. -/
def powerNodes : List String := ["ExternalPowerplant", "PQnode", "PVnode", "StochasticPQnode", "Vphinode"]

/-- The types of nodes an edge of some type may lead from and to. -/
def Allowed (edge start stop : String) : Prop :=
  if edge = "Transmissionline" then start ∈ powerNodes ∧ stop ∈ powerNodes
  else if edge = "Gaspowerconnection" then start ∈ gasNodes ∧ stop = "ExternalPowerplant"
  else start ∈ gasNodes ∧ stop ∈ gasNodes

/-- The topology has a node of this type with this id. -/
def HasNode (topology : Json) (id type : String) : Prop :=
  ∃ x, (type, x) ∈ entries (types topology "nodes") ∧ id? x = some id

/-- The files describe a network that makes sense. -/
structure Fit (defaults topology : Json) : Prop where
  /-- Every edge leads from and to nodes of types that are allowed for it. -/
  ends : ∀ e ∈ entries (types topology "connections"), ∃ a b start stop, e.2.find? "from" = some (str a) ∧
    e.2.find? "to" = some (str b) ∧ HasNode topology a start ∧ HasNode topology b stop ∧ Allowed e.1 start stop
  /-- Pipes and their cells have a positive length. -/
  lengths : ∀ j, ("Pipe", j) ∈ entries (types topology "connections") →
    (∀ L, Metres (defaultsFor defaults "Pipe") j "length" L → 0 < L) ∧
    ∀ w, Number (defaultsFor defaults "Pipe") j "desired_delta_x" w → 0 < w
  /-- Pipes are not too narrow and their roughness is at most the diameter. -/
  geometry : ∀ j, ("Pipe", j) ∈ entries (types topology "connections") → ∀ D r,
    Metres (defaultsFor defaults "Pipe") j "diameter" D → Metres (defaultsFor defaults "Pipe") j "roughness" r →
    1 / 10 ^ 11 ≤ D ∧ 0 ≤ r ∧ r ≤ D

/-- Boundary values for all nodes are given, at increasing times around the time `t`, and in the boundary json only. -/
structure Covers (defaults topology boundary : Json) (t : ℝ) : Prop where
  listed : ∀ name x, (name, x) ∈ entries (types topology "nodes") → name ∈ gasNodes ++ powerNodes → name ≠ "Innode" →
    name ≠ "StochasticPQnode" → ∀ e, (name, e) ∈ entries (types boundary "nodes") → id? e = id? x →
    ∃ l, Lists e l ∧ (l.map Prod.fst).Pairwise (· < ·) ∧ (∃ p ∈ l, (p.1 : ℝ) ≤ t) ∧ ∃ q ∈ l, t ≤ (q.1 : ℝ)
  only : ∀ name x, (name, x) ∈ entries (types topology "nodes") →
    x.find? "boundary_values" = none ∧ (defaultsFor defaults name).find? "boundary_values" = none

/-- The value at a time: the listed one, or the affine interpolation of the neighbouring ones. -/
def ValueAt (sign : ℝ) (l : List (ℚ × List ℚ)) (t : ℝ) (b : ℝ × ℝ) : Prop :=
  (∃ p ∈ l, (p.1 : ℝ) = t ∧ b = listed sign p) ∨
  ∃ i, ∃ hi : i + 1 < l.length, (l[i].1 : ℝ) ≤ t ∧ t ≤ (l[i + 1].1 : ℝ) ∧
    b = listed sign l[i] + ((t - l[i].1) / (l[i + 1].1 - l[i].1)) • (listed sign l[i + 1] - listed sign l[i])

/-! ## Proofs -/

/-- Between the first and the last time an interpolation has the value of the specification. -/
theorem Interpolates.valueAt {s : ℝ} {l : List (ℚ × List ℚ)} {f : ℝ → Res (ℝ × ℝ)} (h : Interpolates s l f)
    (hl : (l.map Prod.fst).Pairwise (· < ·)) {t : ℝ} {p q : ℚ × List ℚ} (hp : p ∈ l) (hpt : (p.1 : ℝ) ≤ t) (hq : q ∈ l)
    (hqt : t ≤ (q.1 : ℝ)) : ∃ b, f t = Res.ok b ∧ ValueAt s l t b := by
  classical
  obtain ⟨i0, h0, rfl⟩ := List.mem_iff_getElem.mp hp
  obtain ⟨j, hj, rfl⟩ := List.mem_iff_getElem.mp hq
  let P : ℕ → Prop := fun i => ∃ hi : i < l.length, (l[i].1 : ℝ) ≤ t
  obtain ⟨hi, hit⟩ : P (Nat.findGreatest P l.length) := Nat.findGreatest_spec (m := i0) h0.le ⟨h0, hpt⟩
  set i := Nat.findGreatest P l.length with hidef
  rcases Nat.lt_or_ge (i + 1) l.length with h1 | h1
  · have hnot : ¬ P (i + 1) := Nat.findGreatest_is_greatest (by omega) h1.le
    have : t ≤ (l[i + 1].1 : ℝ) := by
      by_contra hc
      exact hnot ⟨h1, (not_le.mp hc).le⟩
    exact ⟨_, h.between i h1 t hit this, Or.inr ⟨i, h1, hit, this, rfl⟩⟩
  · have hji : (l[j].1 : ℝ) ≤ (l[i].1 : ℝ) := by
      rcases Nat.lt_or_ge j i with h2 | h2
      · have := List.pairwise_iff_getElem.mp hl j i (by simpa using hj) (by simpa using hi) h2
        rw [List.getElem_map, List.getElem_map] at this
        exact_mod_cast this.le
      · have : j = i := by omega
        subst this
        exact le_rfl
    have : t = (l[i].1 : ℝ) := le_antisymm (hqt.trans hji) hit
    rw [this]
    exact ⟨_, h.points i hi, Or.inl ⟨l[i], List.getElem_mem hi, rfl, rfl⟩⟩

theorem kind_gas {name : String} {k : Network.NodeKind} (h : name ∈ gasNodes) (hk : kindOf name = some k) : k.isGas = true := by
  simp only [gasNodes, List.mem_cons, List.not_mem_nil, or_false] at h
  rcases h with rfl | rfl | rfl | rfl | rfl <;> (injection hk with hk; subst hk; rfl)

theorem kind_power {name : String} {k : Network.NodeKind} (h : name ∈ powerNodes) (hk : kindOf name = some k) :
    k.isPower = true := by
  simp only [powerNodes, List.mem_cons, List.not_mem_nil, or_false] at h
  rcases h with rfl | rfl | rfl | rfl | rfl <;> (injection hk with hk; subst hk; rfl)

theorem kind_plant {k : Network.NodeKind} (hk : kindOf "ExternalPowerplant" = some k) : k.isPlant = true := by
  injection hk with hk; subst hk; rfl

/-- The types of nodes with given boundary values. -/
theorem kind_cases {name : String} {k : Network.NodeKind} (hk : kindOf name = some k) (hi : k ≠ .innode) :
    name = "StochasticPQnode" ∨ (name ∈ gasNodes ++ powerNodes ∧ name ≠ "Innode" ∧ name ≠ "StochasticPQnode" ∧
      ∃ s, signOf name = some s) := by
  unfold kindOf at hk
  split at hk <;> first
    | (injection hk with hk; exact absurd hk.symm hi)
    | (injection hk with hk; exact Or.inl rfl)
    | (injection hk with hk; exact Or.inr ⟨by decide, by decide, by decide, _, rfl⟩)
    | cases hk

/-- The boundary condition of a stochastic node is what is drawn. -/
theorem stochastic_read {draws : Json → Res (ℝ → Res (ℝ × ℝ))} {mem : ℕ → ℝ} {defaults : Json}
    {nodes : List (String × ComponentType Network.Node)}
    (hn : Res.each (nodeList draws mem) (withDefaults defaults) = Res.ok nodes) {j : Json} {n : Network.Node}
    (h : Prepared accepts nodes ("StochasticPQnode", j) n) : ∃ data d, draws data = Res.ok d ∧ n.boundary = d := by
  obtain ⟨t, data, j', ht, hc, -⟩ := h
  obtain ⟨s, b, c, d, hl, hdef, rfl⟩ := table_mem hn ht
  obtain ⟨-, -, rfl⟩ : s = stochasticTopology ∧ b = some stochasticBoundary ∧ c = stochasticNode draws mem := by
    simpa [nodeList] using hl
  obtain ⟨m, -, hc⟩ := Res.bind_eq_ok.mp hc
  obtain ⟨d, hd, hc⟩ := Res.bind_eq_ok.mp hc
  injection hc with hc
  subst hc
  exact ⟨data, d, hd, rfl⟩

theorem node_of_id {g : Graph Network.Node Network.EdgeKind} (hn : (g.nodes.map Node.id).Nodup) {n n' : Node Network.Node}
    (h : n ∈ g.nodes) (h' : n' ∈ g.nodes) (hid : n.id = n'.id) : n = n' :=
  List.inj_on_of_nodup_map hn h h' hid

/-- C100, the part that holds. A network that is read from files which fit is admissible. At every time that is covered by
the boundary values its residual is computed for all states and controls. What is missing: nothing checks that the files fit. -/
theorem C100_partial {draws : Json → Res (ℝ → Res (ℝ × ℝ))} {mem : ℕ → ℝ} {defaults topology boundary : Json}
    (ho : topology.isObj = true) (hs : Shaped topology) (hd : DistinctTypes topology) (sb : Shaped boundary)
    (db : DistinctTypes boundary) {g : Graph Network.Node Network.EdgeKind}
    (h : readNet draws mem defaults topology boundary = Res.ok g) (hf : Fit defaults topology) :
    ∃ hc : Consistent g, Network.Admissible (toNet hc) ∧
      ∀ t, Covers defaults topology boundary t → (∀ data d, draws data = Res.ok d → ∃ b, d t = Res.ok b) →
        Network.Computable (toNet hc) t ∧ ∀ s z, ∃ r, (toNet hc).residual s t z = Res.ok r := by
  obtain ⟨nodes, edges, h1, h2, h3⟩ := readNet_ok h
  have hp := proper_of h1 h2 hs hd
  obtain ⟨hc, hids, ⟨ns, p1, f1⟩, es, p2, f2⟩ := buildNet_made hp h3
  have hn : (g.nodes.map Node.id).Nodup := (List.nodup_append.mp hids).1
  -- a node with an id has the type of the entry with this id
  have kind : ∀ (v : Fin g.nodes.length) a type, g.nodeId v.val = some a → HasNode topology a type →
      kindOf type = some g.nodes[v].data.kind := by
    rintro v a type hv ⟨x, hx, hid⟩
    obtain ⟨n, hmem, h5, h6⟩ := forall₂_mem_left f1 (p1.mem_iff.mpr hx)
    have e : n = g.nodes[v] := by
      refine node_of_id hn hmem (List.getElem_mem _) ?_
      rw [hid] at h5
      unfold Graph.nodeId at hv
      rw [List.getElem?_eq_getElem v.isLt] at hv
      exact (Option.some.inj h5).symm.trans (Option.some.inj hv).symm
    rw [← e]
    exact (node_matches h1 h6).kind
  -- every edge belongs to an entry
  have edge : ∀ k : Fin g.edges.length, ∃ e ∈ entries (types topology "connections"),
      EdgeMatches (defaultsFor defaults e.1) e.2 e.1 g.edges[k].data ∧
      ∃ start stop, kindOf start = some ((toNet hc).node ((toNet hc).src k)).kind ∧
        kindOf stop = some ((toNet hc).node ((toNet hc).dst k)).kind ∧ Allowed e.1 start stop := by
    intro k
    obtain ⟨e, he, h5, h6⟩ := forall₂_mem_right f2 (List.getElem_mem (h := k.isLt))
    have he' := p2.mem_iff.mp he
    obtain ⟨a, b, start, stop, ha, hb, hsa, hsb, hal⟩ := hf.ends e he'
    exact ⟨e, he', edge_matches h2 h6, start, stop, kind ((toNet hc).src k) a start (h5.2.2.1 a ha) hsa,
      kind ((toNet hc).dst k) b stop (h5.2.2.2 b hb) hsb, hal⟩
  have data : ∀ (k : Fin g.edges.length) x, (toNet hc).edge k = x → g.edges[k].data = x := fun _ _ h => h
  have hfit : Fitting (toNet hc) := by
    refine ⟨?_, ?_, ?_, ?_, ?_⟩
    · intro k dx D r n hk
      obtain ⟨⟨name, j⟩, he, hm, -⟩ := edge k
      rw [data k _ hk] at hm
      cases hm with
      | pipe L w _ _ _ _ hL hw _ _ _ hcells => exact (hcells ((hf.lengths j he).1 L hL) ((hf.lengths j he).2 w hw)).1
    · intro k kd n hk
      obtain ⟨⟨name, j⟩, he, hm, start, stop, h5, -, h7⟩ := edge k
      rw [data k _ hk] at hm
      refine kind_gas (name := start) ?_ h5
      cases hm <;> exact h7.1
    · intro k kd n hk hno
      obtain ⟨⟨name, j⟩, he, hm, start, stop, -, h6, h7⟩ := edge k
      rw [data k _ hk] at hm
      refine kind_gas (name := stop) ?_ h6
      cases hm with
      | gaspower a b => exact absurd rfl (hno _ _)
      | _ => exact h7.2
    · intro k a b n hk
      obtain ⟨⟨name, j⟩, he, hm, start, stop, -, h6, h7⟩ := edge k
      rw [data k _ hk] at hm
      refine kind_plant ?_
      cases hm with
      | gaspower => rw [← h6, show stop = _ from h7.2]
    · intro k G B hk
      obtain ⟨⟨name, j⟩, he, hm, start, stop, h5, h6, h7⟩ := edge k
      rw [data k _ hk] at hm
      cases hm with
      | line => exact ⟨kind_power h7.1 h5, kind_power h7.2 h6⟩
  refine ⟨hc, C48_admissible hp h3 hfit, fun t hcov hdraw => ?_⟩
  have hcomp : Network.Computable (toNet hc) t := by
    refine ⟨fun v hv => ?_, fun k dx D r n hk => ?_⟩
    · obtain ⟨⟨name, x⟩, hx, h5, h6⟩ := forall₂_mem_right f1 (List.getElem_mem (h := v.isLt))
      have hx' := p1.mem_iff.mp hx
      rcases kind_cases (node_matches h1 h6).kind hv with hname | ⟨hname, hin, hst, s, hsign⟩
      · obtain rfl : name = _ := hname
        obtain ⟨data, d, hd1, hd2⟩ := stochastic_read h1 h6
        obtain ⟨b, hb⟩ := hdraw data d hd1
        exact ⟨b, by rw [← hb, ← hd2]; rfl⟩
      · obtain ⟨hnone, hdef⟩ := hcov.only name x hx'
        obtain ⟨n, hmem, hid, e, he, hid', hl⟩ := C99_boundary ho hs hd sb db h hx' hsign hnone hdef
        obtain ⟨l, hlist, hsort, ⟨p, hp1, hp2⟩, q, hq1, hq2⟩ := hcov.listed name x hx' hname hin hst e he (hid'.trans hid.symm)
        obtain ⟨b, hb, -⟩ := (hl l hlist hsort).2.valueAt hsort hp1 hp2 hq1 hq2
        have : n = g.nodes[v.val] := node_of_id hn hmem (List.getElem_mem _) (Option.some.inj (hid.symm.trans h5))
        exact ⟨b, by rw [← hb, this]; rfl⟩
    · obtain ⟨⟨name, j⟩, he, hm, -⟩ := edge k
      rw [data k _ hk] at hm
      cases hm with
      | pipe L w D r _ _ hL hw hD hr _ hcells =>
        have hpos := (hf.lengths j he).1 L hL
        obtain ⟨-, h8, -⟩ := hcells hpos ((hf.lengths j he).2 w hw)
        obtain ⟨h9, h10, h11⟩ := hf.geometry j he D r hD hr
        refine ⟨?_, ?_, by exact_mod_cast h10, by exact_mod_cast h11⟩
        · rintro rfl
          rw [mul_zero] at h8
          exact hpos.ne (by exact_mod_cast h8)
        · have : ((1 / 10 ^ 11 : ℚ) : ℝ) ≤ (D : ℝ) := by exact_mod_cast h9
          refine le_trans (le_of_eq ?_) this
          norm_num
  exact ⟨hcomp, fun s z => let ⟨r, hr, _⟩ := Network.C72_residual_iff_laws _ (C48_admissible hp h3 hfit) s t hcomp z; ⟨r, hr⟩⟩

end Verif.Read
