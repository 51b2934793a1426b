import Verif.Read.Simulate
import Verif.Network.Simulate

/-!
# Property C101: the states that are computed obey the laws with the data of the files

Reading (C99), building (C48), computing residuals (C72, C83) and solving (C85) together: whatever is returned by a simulation of
the network in the files takes and gives the listed amounts of gas and power, and pipes, compressors, valves, lines and
plants behave as the data in the files say, up to the tolerance of the solver.
-/

set_option autoImplicit false

namespace Verif.Read

open Verif.Json Verif.Factory Verif.Interp Verif.Schema

/-! ## Specification -/

/-- A node gets what is prescribed for its type, up to a tolerance. -/
def Served (N : Network.Net) (tol : ℝ) (type : String) (v : Fin N.nodes) (b : ℝ × ℝ) (state : Net.Vec) : Prop :=
  -- sources and sinks: the flow into the edges of the node
  (type ∈ ["Source", "Sink", "ConstraintSink"] → (∃ k, (N.edge k).isGas ∧ (N.src k = v ∨ N.dst k = v)) →
    |N.outflow v state - b.1| ≤ tol) ∧
  -- nodes with given pressure: the pressure at all ends of edges
  (type = "Pressureboundarynode" → ∀ k, (N.edge k).isGas → (N.src k = v → |N.startPressure k state - b.1| ≤ tol) ∧
    (N.dst k = v → |N.endPressure k state - b.1| ≤ tol)) ∧
  -- nodes of the grid
  (type = "PQnode" → |N.active v state - b.1| ≤ tol ∧ |N.reactive v state - b.2| ≤ tol) ∧
  (type = "PVnode" → |N.active v state - b.1| ≤ tol ∧ |N.voltage state v - b.2| ≤ tol) ∧
  (type ∈ ["Vphinode", "ExternalPowerplant"] → |N.voltage state v - b.1| ≤ tol ∧ |N.angle state v - b.2| ≤ tol)

/-- An edge behaves as its type and the data `d` and `j` say, up to a tolerance, between two times. -/
def Behaves (N : Network.Net) (tol : ℝ) (d j : Json) (type : String) (k : Fin N.edges) (s t : ℝ) (a : Net.Args) : Prop :=
  (type ∈ ["Shortpipe", "Compressorstation", "Controlvalve"] → |N.startFlow k a.new - N.endFlow k a.new| ≤ tol) ∧
  (type = "Shortpipe" → |N.endPressure k a.new - N.startPressure k a.new| ≤ tol) ∧
  (type = "Compressorstation" →
    |N.endPressure k a.new - (N.startPressure k a.new + a.control (N.controlRange k).1)| ≤ tol) ∧
  (type = "Controlvalve" →
    |N.endPressure k a.new - (N.startPressure k a.new - a.control (N.controlRange k).1)| ≤ tol) ∧
  (type = "Gaspowerconnection" → ∃ g p : ℚ, ∃ power, Number d j "gas2power_q_coeff" g ∧ Number d j "power2gas_q_coeff" p ∧
    Power.generated ⟨g, p⟩ (N.startFlow k a.new) = Res.ok power ∧ |N.active (N.dst k) a.new - power| ≤ tol) ∧
  (type = "Transmissionline" → ∃ G B : ℚ, Number d j "G" G ∧ Number d j "B" B ∧ N.edge k = .line G B) ∧
  -- the box scheme of the isothermal Euler equations in cells of equal width
  (type = "Pipe" → ∃ (L w D r : ℚ) (n : ℕ), Metres d j "length" L ∧ Number d j "desired_delta_x" w ∧
    Metres d j "diameter" D ∧ Metres d j "roughness" r ∧ 2 ≤ n ∧ (L : ℝ) / (n - 1) ≤ w ∧ Network.edgeNeed (N.edge k) = 2 * n ∧
    ∀ i : ℕ, i + 1 < n → ∃ x : ℝ × ℝ, Box.evaluatePoint (Box.eulerLaw D r) s t (L / (n - 1))
      (Net.segment a.last ((N.edgeRange k).1 + 2 * i)) (Net.segment a.last ((N.edgeRange k).1 + 2 * (i + 1)))
      (Net.segment a.new ((N.edgeRange k).1 + 2 * i)) (Net.segment a.new ((N.edgeRange k).1 + 2 * (i + 1))) = Res.ok x ∧
      |x.1| ≤ tol ∧ |x.2| ≤ tol)

/-- A step of a simulation respects the files. -/
structure Respects {g : Graph Network.Node Network.EdgeKind} (hc : Consistent g) (defaults topology boundary : Json) (tol s t : ℝ)
    (a : Net.Args) : Prop where
  /-- Every node with boundary values in the files gets the value for the time. -/
  nodes : ∀ type x, (type, x) ∈ entries (types topology "nodes") → type ≠ "Innode" → type ≠ "StochasticPQnode" →
    ∃ v : Fin g.nodes.length, id? x = some g.nodes[v].id ∧ ∃ e l b, (type, e) ∈ entries (types boundary "nodes") ∧
      id? e = id? x ∧ Lists e l ∧ ValueAt (if type ∈ ["Sink", "ConstraintSink"] then -1 else 1) l t b ∧
      Served (toNet hc) tol type v b a.new
  /-- Inner nodes lose no gas. -/
  inner : ∀ x, ("Innode", x) ∈ entries (types topology "nodes") → ∃ v : Fin g.nodes.length, id? x = some g.nodes[v].id ∧
    ((∃ k, ((toNet hc).edge k).isGas ∧ ((toNet hc).src k = v ∨ (toNet hc).dst k = v)) → |(toNet hc).outflow v a.new| ≤ tol)
  /-- Every edge behaves as described. -/
  edges : ∀ e ∈ entries (types topology "connections"), ∃ k : Fin g.edges.length, id? e.2 = some g.edges[k].id ∧
    Behaves (toNet hc) tol (defaultsFor defaults e.1) e.2 e.1 k s t a
  /-- All ends of gas edges at a gas node have about the same pressure. -/
  pressures : ∃ P : Fin g.nodes.length → ℝ, ∀ k, ((toNet hc).edge k).isGas →
    |(toNet hc).startPressure k a.new - P ((toNet hc).src k)| ≤ ((toNet hc).degree ((toNet hc).src k) - 1) * tol ∧
    (((toNet hc).node ((toNet hc).dst k)).kind.isGas →
      |(toNet hc).endPressure k a.new - P ((toNet hc).dst k)| ≤ ((toNet hc).degree ((toNet hc).dst k) - 1) * tol)

/-! ## Proofs -/

/-- A node whose type has boundary values in the files. -/
theorem sign_of {name : String} {k : Network.NodeKind} (hk : kindOf name = some k) (h1 : name ≠ "Innode")
    (h2 : name ≠ "StochasticPQnode") :
    name ∈ gasNodes ++ powerNodes ∧ signOf name = some (if name ∈ ["Sink", "ConstraintSink"] then -1 else 1) := by
  unfold kindOf at hk
  split at hk <;> first
    | exact absurd rfl h1
    | exact absurd rfl h2
    | exact ⟨by decide, by simp [signOf]⟩
    | cases hk

theorem served_of {N : Network.Net} {tol s t : ℝ} {a : Net.Args} (h : Network.LawsWithin N tol s t a) {v : Fin N.nodes}
    {type : String} (hk : kindOf type = some (N.node v).kind) {b : ℝ × ℝ} (hb : (N.node v).boundary t = Res.ok b) :
    Served N tol type v b a.new := by
  have hg := h.grid v b hb
  refine ⟨fun ht hatt => ?_, ?_, ?_, ?_, fun ht => ?_⟩
  · refine (h.flows v hatt).2 ?_ b hb
    simp only [List.mem_cons, List.not_mem_nil, or_false] at ht
    rcases ht with rfl | rfl | rfl <;> (injection hk with hk; exact hk.symm)
  · rintro rfl
    injection hk with hk
    exact h.prescribed v b hk.symm hb
  · rintro rfl
    injection hk with hk
    rw [← hk] at hg
    exact hg
  · rintro rfl
    injection hk with hk
    rw [← hk] at hg
    exact hg
  · simp only [List.mem_cons, List.not_mem_nil, or_false] at ht
    rcases ht with rfl | rfl <;> (injection hk with hk; rw [← hk] at hg; exact hg)

theorem behaves_of {N : Network.Net} {tol s t : ℝ} {a : Net.Args} (h : Network.LawsWithin N tol s t a) {k : Fin N.edges}
    {d j : Json} {type : String} (hm : EdgeMatches d j type (N.edge k))
    (hlen : type = "Pipe" → (∀ L, Metres d j "length" L → 0 < L) ∧ ∀ w, Number d j "desired_delta_x" w → 0 < w) :
    Behaves N tol d j type k s t a := by
  generalize hx : N.edge k = x at hm
  unfold Behaves
  have no : ∀ {x y : String} {p : Prop}, x ≠ y → x = y → p := fun h e => absurd e h
  cases hm with
  | shortpipe n =>
    obtain ⟨h1, h2⟩ := h.short k _ n hx trivial
    refine ⟨fun _ => h2, fun _ => ?_, no (by decide), no (by decide), no (by decide), no (by decide), no (by decide)⟩
    simpa [Gas.demandedRise] using h1
  | compressor n =>
    obtain ⟨h1, h2⟩ := h.short k _ n hx trivial
    exact ⟨fun _ => h2, no (by decide), fun _ => h1, no (by decide), no (by decide), no (by decide), no (by decide)⟩
  | controlvalve n =>
    obtain ⟨h1, h2⟩ := h.short k _ n hx trivial
    refine ⟨fun _ => h2, no (by decide), no (by decide), fun _ => ?_, no (by decide), no (by decide), no (by decide)⟩
    simpa [Gas.demandedRise, sub_eq_add_neg] using h1
  | gaspower g p n hg hp =>
    obtain ⟨power, h1, h2⟩ := h.plants k _ _ n hx
    exact ⟨fun hn => absurd hn (by decide), no (by decide), no (by decide), no (by decide),
      fun _ => ⟨g, p, power, hg, hp, h1, h2⟩, no (by decide), no (by decide)⟩
  | line G B hG hB =>
    exact ⟨fun hn => absurd hn (by decide), no (by decide), no (by decide), no (by decide), no (by decide),
      fun _ => ⟨G, B, hG, hB, hx⟩, no (by decide)⟩
  | pipe L w D r dx n hL hw hD hr _ hcells =>
    refine ⟨fun hn => absurd hn (by decide), no (by decide), no (by decide), no (by decide), no (by decide), no (by decide),
      fun _ => ?_⟩
    obtain ⟨h1, h2⟩ := hlen rfl
    obtain ⟨h3, h4, h5, -⟩ := hcells (h1 L hL) (h2 w hw)
    have hn : (0 : ℝ) < (n : ℝ) - 1 := by
      have : (2 : ℝ) ≤ n := by exact_mod_cast h3
      linarith
    have e : (L : ℝ) / (n - 1) = dx := by rw [← h4]; field_simp
    refine ⟨L, w, D, r, n, hL, hw, hD, hr, h3, by rw [e]; exact h5, by rw [hx]; rfl, ?_⟩
    rw [e]
    exact h.pipes k dx D r n hx

/-- All laws together are those of the files. -/
theorem respects_of {draws : Json → Res (ℝ → Res (ℝ × ℝ))} {mem : ℕ → ℝ} {defaults topology boundary : Json}
    (ho : topology.isObj = true) (hs : Shaped topology) (hd : DistinctTypes topology) (sb : Shaped boundary)
    (db : DistinctTypes boundary) {g : Graph Network.Node Network.EdgeKind}
    (h : readNet draws mem defaults topology boundary = Res.ok g) (hf : Fit defaults topology) (hc : Consistent g)
    {tol s t : ℝ} (hcov : Covers defaults topology boundary t) {a : Net.Args}
    (hl : Network.LawsWithin (toNet hc) tol s t a) : Respects hc defaults topology boundary tol s t a := by
  obtain ⟨nodes, edges, h1, h2, h3⟩ := readNet_ok h
  have hp := proper_of h1 h2 hs hd
  obtain ⟨-, hids, ⟨ns, p1, f1⟩, es, p2, f2⟩ := buildNet_made hp h3
  have hn : (g.nodes.map Node.id).Nodup := (List.nodup_append.mp hids).1
  have node : ∀ type x, (type, x) ∈ entries (types topology "nodes") → ∃ v : Fin g.nodes.length, id? x = some g.nodes[v].id ∧
      kindOf type = some g.nodes[v].data.kind := by
    intro type x hx
    obtain ⟨n, hmem, h5, h6⟩ := forall₂_mem_left f1 (p1.mem_iff.mpr hx)
    obtain ⟨i, hi, rfl⟩ := List.mem_iff_getElem.mp hmem
    exact ⟨⟨i, hi⟩, h5, (node_matches h1 h6).kind⟩
  refine ⟨fun type x hx hin hst => ?_, fun x hx => ?_, fun e he => ?_, ?_⟩
  · obtain ⟨v, hid, hk⟩ := node type x hx
    obtain ⟨hname, hsign⟩ := sign_of hk hin hst
    obtain ⟨hnone, hdef⟩ := hcov.only type x hx
    obtain ⟨n, hmem, hid1, e, he, hid2, hll⟩ := C99_boundary ho hs hd sb db h hx hsign hnone hdef
    obtain ⟨l, hlist, hsort, ⟨p, hp1, hp2⟩, q, hq1, hq2⟩ := hcov.listed type x hx hname hin hst e he (hid2.trans hid1.symm)
    obtain ⟨b, hb, hval⟩ := (hll l hlist hsort).2.valueAt hsort hp1 hp2 hq1 hq2
    have : n = g.nodes[v.val] := node_of_id hn hmem (List.getElem_mem _) (Option.some.inj (hid1.symm.trans hid))
    subst this
    exact ⟨v, hid, e, l, b, he, hid2.trans hid1.symm, hlist, hval, served_of (N := toNet hc) (v := v) hl hk hb⟩
  · obtain ⟨v, hid, hk⟩ := node _ x hx
    injection hk with hk
    exact ⟨v, hid, fun hatt => (hl.flows v hatt).1 hk.symm⟩
  · obtain ⟨x, hmem, h5, h6⟩ := forall₂_mem_left f2 (p2.mem_iff.mpr he)
    obtain ⟨i, hi, rfl⟩ := List.mem_iff_getElem.mp hmem
    refine ⟨⟨i, hi⟩, h5.1, behaves_of (N := toNet hc) (k := ⟨i, hi⟩) hl (edge_matches h2 h6) ?_⟩
    obtain ⟨type, j⟩ := e
    rintro rfl
    exact hf.lengths j he
  · exact hl.pressures

open Verif.Newton Verif.Evolve Network in
/-- C101. Whatever a simulation of the network in the files returns respects the files: there is a state for each time, and each
state that is free of NaN and divisions by zero is reached from the one before with the controls of its time such that all
nodes get the listed values and all edges behave as described, up to the tolerance. -/
theorem C101_simulation {draws : Json → Res (ℝ → Res (ℝ × ℝ))} {mem : ℕ → ℝ} {defaults topology boundary : Json}
    (ho : topology.isObj = true) (hs : Shaped topology) (hd : DistinctTypes topology) (sb : Shaped boundary)
    (db : DistinctTypes boundary) {g : Graph Network.Node Network.EdgeKind}
    (h : readNet draws mem defaults topology boundary = Res.ok g) (hf : Fit defaults topology)
    (times : List ℝ) (hcov : ∀ t ∈ times, Covers defaults topology boundary t)
    (hdraw : ∀ data d, draws data = Res.ok d → ∀ t ∈ times, ∃ b, d t = Res.ok b) :
    ∃ hc : Consistent g, ∀ (lu : ℝ → ℝ → Option (Fin (toNet hc).stateCount → ℝ) → (Fin (toNet hc).controlCount → ℝ) →
        Option (Fin (toNet hc).stateCount → ℝ) →
        Option (Option (Fin (toNet hc).stateCount → ℝ) → Option (Fin (toNet hc).stateCount → ℝ)))
      (tol : ℝ) (maxIter : ℤ) (_ : 1 ≤ maxIter) (fuel : ℕ) (retries : ℤ) (simplified : Bool)
      (controls : ℝ → Res (Fin (toNet hc).controlCount → ℝ)) (initial : Fin (toNet hc).stateCount → ℝ)
      (states : List (Option (Fin (toNet hc).stateCount → ℝ)))
      (trace : List (Attempt ℝ (Option (Fin (toNet hc).stateCount → ℝ)) (Fin (toNet hc).controlCount → ℝ)))
      (_ : simulate retries simplified (newtonSolver (fun s t x c => (toNet hc).system (lu s t x c) s t x c) tol maxIter fuel)
        controls times (some initial) = (Res.ok states, trace)),
      states.length = times.length ∧ states.head? = some (some initial) ∧
      ∀ i (hi : i + 1 < times.length) (hs : i + 1 < states.length) (x y : Fin (toNet hc).stateCount → ℝ),
        states[i] = some x → states[i + 1] = some y → (toNet hc).Finite (ext y) →
        ∃ c, controls times[i + 1] = Res.ok c ∧
          Respects hc defaults topology boundary tol times[i] times[i + 1] ⟨ext x, ext y, ext c⟩ := by
  obtain ⟨hc, hadm, hcomp⟩ := C100_partial ho hs hd sb db h hf
  refine ⟨hc, fun lu tol maxIter hmax fuel retries simplified controls initial states trace hsim => ?_⟩
  obtain ⟨h1, h2, h3⟩ := C85_simulation (toNet hc) hadm lu tol maxIter hmax fuel retries simplified controls times
    (fun t ht => (hcomp t (hcov t ht) fun data d hdd => hdraw data d hdd t ht).1) initial states trace hsim
  refine ⟨h1, h2, fun i hi his x y hx hy hfin => ?_⟩
  obtain ⟨c, hcc, -, hlaws⟩ := h3 i hi his x y hx hy hfin
  exact ⟨c, hcc, respects_of ho hs hd sb db h hf hc (hcov _ (List.getElem_mem _)) hlaws⟩

end Verif.Read
