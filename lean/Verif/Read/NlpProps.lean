import Verif.Read.NlpLemmas

/-!
# Property C104: the optimization problem handed over to Ipopt is the one of the files
-/

set_option autoImplicit false

namespace Verif.Read

open Verif.Json Verif.Factory Verif.Interp Verif.Schema Verif.Initial Verif.Times Verif.Newton Verif.Evolve Verif.OptTimes
  Verif.IndexLambda Verif.Weights Verif.Jacobian Network Net

/-! ## Specification -/

/-- The topology lists a constrained sink with this id. -/
def ConstraintSink (topology : Json) (id : String) : Prop :=
  ∃ x, ("ConstraintSink", x) ∈ entries (types topology "nodes") ∧ id? x = some id

/-- The times of the constraints: every n-th of the times after the first. (The last one may be moved to the final time, C20.) -/
def Selected (every : ℤ) (times ktimes : List ℝ) : Prop :=
  ktimes ≠ [] ∧ ktimes.Pairwise (· < ·) ∧ (∀ t ∈ ktimes, t ∈ times.tail) ∧
    (∀ i, i + 1 < ktimes.length → ktimes[i]? = times[1 + (if every ≤ 0 then 1 else every.toNat) * i]?) ∧
    times.length - 1 ≤ (if every ≤ 0 then 1 else every.toNat) * ktimes.length ∧
    (if every ≤ 0 then 1 else every.toNat) * (ktimes.length - 1) < times.length - 1

open Classical in
/-- The problem is the one of the files. Variables and constraints are numbered time by time: within a time, the control of edge
`k` has the number `(controlRange k).1` and the constraint of node `v` the number `pos v`. -/
structure Poses {g : Graph Network.Node EdgeKind} (hc : Consistent g) (s : Settings) (every : ℤ) (f : Files) (b : Bounds)
    (pos : Fin g.nodes.length → ℕ) (P : Nlp) : Prop where
  times : GoodGrid P.times s.start s.stop s.desired
  controlTimes : ControlTimes s P.times P.controlTimes ∧ P.controlTimes.Pairwise (· < ·) ∧ P.controlTimes.head? = some s.start ∧
    ∃ t, P.controlTimes.getLast? = some t ∧ s.stop < t + EPSILON
  constraintTimes : Selected every P.times P.constraintTimes
  /-- There is a control for each compressor and control valve, and a constraint for each constrained sink. -/
  controls : P.controls = (Finset.univ.filter fun k : Fin (toNet hc).edges => ((toNet hc).edge k).isControl).card
  constraints : P.constraints = (Finset.univ.filter fun v : Fin g.nodes.length => ConstraintSink f.topology g.nodes[v].id).card
  numbered : (∀ k, ((toNet hc).edge k).isControl → 0 ≤ ((toNet hc).controlRange k).1 ∧ ((toNet hc).controlRange k).1 < P.controls) ∧
    ∀ k l, ((toNet hc).edge k).isControl → ((toNet hc).edge l).isControl →
      ((toNet hc).controlRange k).1 = ((toNet hc).controlRange l).1 → k = l
  numberedSinks : (∀ v : Fin g.nodes.length, ConstraintSink f.topology g.nodes[v].id → pos v < P.constraints) ∧
    ∀ v w : Fin g.nodes.length, ConstraintSink f.topology g.nodes[v].id → ConstraintSink f.topology g.nodes[w].id → pos v = pos w → v = w
  /-- There is a value and a bound for each variable, and a bound for each constraint. -/
  lengths : P.start.length = P.controls * P.controlTimes.length ∧ P.lower.length = P.controls * P.controlTimes.length ∧
    P.upper.length = P.controls * P.controlTimes.length ∧ P.constraintLower.length = P.constraints * P.constraintTimes.length ∧
    P.constraintUpper.length = P.constraints * P.constraintTimes.length
  /-- They are those in the files. -/
  values : ∀ k : Fin g.edges.length, ((toNet hc).edge k).isControl →
    FixedBy f.control g.edges[k].id P.controlTimes P.controls ((toNet hc).controlRange k).1.toNat P.start ∧
    FixedBy b.lower g.edges[k].id P.controlTimes P.controls ((toNet hc).controlRange k).1.toNat P.lower ∧
    FixedBy b.upper g.edges[k].id P.controlTimes P.controls ((toNet hc).controlRange k).1.toNat P.upper
  bounds : ∀ v : Fin g.nodes.length, ConstraintSink f.topology g.nodes[v].id →
    FixedBy b.constraintLower g.nodes[v].id P.constraintTimes P.constraints (pos v) P.constraintLower ∧
    FixedBy b.constraintUpper g.nodes[v].id P.constraintTimes P.constraints (pos v) P.constraintUpper
  /-- The Jacobian has entries at distinct places, namely for each constraint and each control that can have an influence on it. -/
  jacobian : P.jacobian.supplyIndices.length = P.jacobian.nonZeros ∧ P.jacobian.supplyIndices.Nodup ∧
    ∀ row col, (row, col) ∈ P.jacobian.supplyIndices ↔
      row < P.constraintTimes.length * P.constraints ∧ col < P.controlTimes.length * P.controls ∧
      (col / P.controls = 0 ∨ ∃ u c, P.controlTimes[col / P.controls - 1]? = some u ∧
        P.constraintTimes[row / P.constraints]? = some c ∧ u < c)
  /-- States begin with the file of initial values and follow the files and the controls. -/
  simulation : ∀ x states, P.simulation x = Res.ok states → x.length = P.controls * P.controlTimes.length ∧
    states.length = P.times.length ∧ (∃ z, states.head? = some (some z) ∧ Begins hc f.initial z) ∧
    ∀ i (hi : i + 1 < P.times.length) (his : i + 1 < states.length) (y z : Vec),
      states[i] = some y → states[i + 1] = some z → (toNet hc).Finite z →
      ∃ c, Controlled (toNet hc) P.controlTimes x P.times[i + 1] c ∧
        Respects hc f.defaults f.topology f.boundary s.tolerance P.times[i] P.times[i + 1] ⟨y, z, c⟩
  /-- The objective is the integral, by the trapezoidal rule, of the sum of the squares of the controls of the compressors, taken as 0 at the
  first time. -/
  objective : (∀ x states, P.simulation x = Res.ok states → ∃ v, P.objective x = Res.ok v) ∧
    ∀ x v, P.objective x = Res.ok v → (∃ states, P.simulation x = Res.ok states) ∧
      ∃ c : ℕ → Vec, (∀ i, 1 ≤ i → ∀ hi : i < P.times.length, Controlled (toNet hc) P.controlTimes x P.times[i] (c i)) ∧
        v = trapezoid P.times.length (fun i => P.times.getD i 0) fun i => if i = 0 then 0 else
          ∑ k : Fin (toNet hc).edges, if ((toNet hc).edge k).isCompressor then c i ((toNet hc).controlRange k).1 ^ 2 else 0
  /-- If all constrained sinks have edges, constraints have values. The constraint of a sink is the pressure at the end of an edge there,
  unless this edge is a pipe (C74). -/
  constraintValues : (∀ x values, P.constraintValues x = Res.ok values → ∃ states, P.simulation x = Res.ok states) ∧
    ((∀ v : Fin g.nodes.length, ConstraintSink f.topology g.nodes[v].id →
        ∃ k, ((toNet hc).edge k).isGas ∧ ((toNet hc).src k = v ∨ (toNet hc).dst k = v)) →
      ∀ x states, P.simulation x = Res.ok states → ∃ values, P.constraintValues x = Res.ok values ∧
        values.length = P.constraints * P.constraintTimes.length ∧
        ∀ v : Fin g.nodes.length, ConstraintSink f.topology g.nodes[v].id → ∀ i j : ℕ, i < P.constraintTimes.length →
          P.constraintTimes[i]? = P.times[j]? → ∀ z, states[j]? = some (some z) →
          ∃ value, values[i * P.constraints + pos v]? = some (some value) ∧
          ∃ k, ((toNet hc).edge k).isGas ∧
            ((toNet hc).src k = v ∧ ((∀ dx d r n, (toNet hc).edge k ≠ .gas (.pipe dx d r) n) → value = (toNet hc).startPressure k z) ∨
            (toNet hc).dst k = v ∧ ((∀ dx d r n, (toNet hc).edge k ≠ .gas (.pipe dx d r) n) → value = (toNet hc).endPressure k z)))

/-! ## Constraint components -/

theorem isConstraintSink_iff {topology : Json} {id : String} : isConstraintSink topology id = true ↔ ConstraintSink topology id := by
  unfold isConstraintSink ConstraintSink
  rw [List.any_eq_true]
  constructor
  · rintro ⟨⟨t, x⟩, h, h'⟩
    simp only [Bool.and_eq_true, beq_iff_eq] at h'
    obtain ⟨rfl, h'⟩ := h'
    exact ⟨x, h, h'⟩
  · rintro ⟨x, h, h'⟩
    exact ⟨_, h, by simp [h']⟩

section Components
variable {g : Graph Network.Node EdgeKind} (hc : Consistent g) (topology : Json) (mem : ℕ → ℝ)

theorem mem_constraintComponents {c : ControlComponent ℝ} :
    c ∈ constraintComponents hc topology mem ↔ ∃ v, constraintNode hc topology mem v = some c := by
  simp [constraintComponents]

theorem constraint_of {c : ControlComponent ℝ} {v : Fin g.nodes.length} (h : constraintNode hc topology mem v = some c) :
    c.id = g.nodes[v].id ∧ (goals hc topology).constrained v = true ∧
      (c.start : ℤ) = (constraintRange (goals hc topology) v).1 ∧ c.start < (goals hc topology).count ∧
      c.read = Gas.readVector (accepts (boundaryOf 1)) mem := by
  unfold constraintNode at h
  split at h
  · next hv =>
    injection h with h
    subst h
    have := (constraint_bounds (goals hc topology) hv).1
    exact ⟨rfl, hv, Int.toNat_of_nonneg this.1, by simp only; unfold Goals.count; omega, rfl⟩
  · cases h

theorem constraint_ids (hids : (g.nodes.map Node.id ++ g.edges.map Edge.id).Nodup) :
    ((constraintComponents hc topology mem).map ControlComponent.id).Nodup := by
  refine List.Sublist.nodup ?_ (List.nodup_append.mp hids).1
  have e2 : g.nodes.map Node.id = (List.finRange g.nodes.length).map fun v => g.nodes[v].id := by
    rw [← List.ofFn_eq_map]
    exact List.ext_getElem (by simp) (by simp)
  rw [e2]
  exact sublist_filterMap fun k c h => (constraint_of hc topology mem h).1

theorem disjoint_constraints : DisjointControls (fun _ => 1) (constraintComponents hc topology mem) := by
  intro a ha b hb j h1 h2 h3 h4
  simp only at h2 h4
  obtain ⟨v, hv⟩ := (mem_constraintComponents hc topology mem).mp ha
  obtain ⟨w, hw⟩ := (mem_constraintComponents hc topology mem).mp hb
  obtain ⟨-, a1, a2, -⟩ := constraint_of hc topology mem hv
  obtain ⟨-, b1, b2, -⟩ := constraint_of hc topology mem hw
  have := constraint_unique (goals hc topology) a1 b1 (by omega)
  subst this
  exact Option.some.inj (hv.symm.trans hw)

end Components

/-! ## Values of constraints -/

theorem each_of {α β : Type} {l : List α} {body : α → Res β} {Q : α → β → Prop} (h : ∀ a ∈ l, ∃ b, body a = Res.ok b ∧ Q a b) :
    ∃ bs, Res.each l body = Res.ok bs ∧ List.Forall₂ Q l bs := by
  induction l with
  | nil => exact ⟨[], rfl, .nil⟩
  | cons a l ih =>
    obtain ⟨b, h1, h2⟩ := h a (by simp)
    obtain ⟨bs, h3, h4⟩ := ih fun a ha => h a (by simp [ha])
    exact ⟨b :: bs, Res.each_eq_ok.mpr (.cons h1 (Res.each_eq_ok.mp h3)), .cons h2 h4⟩

theorem flatten_block {α : Type} {n : ℕ} {bs : List (List α)} (h : ∀ b ∈ bs, b.length = n) :
    bs.flatten.length = n * bs.length ∧ ∀ i (hi : i < bs.length) j, j < n → bs.flatten[i * n + j]? = bs[i][j]? := by
  induction bs with
  | nil => exact ⟨rfl, fun i hi => by simp at hi⟩
  | cons b bs ih =>
    obtain ⟨h1, h2⟩ := ih fun b hb => h b (by simp [hb])
    have hb := h b (by simp)
    refine ⟨by simp [h1, hb]; ring, fun i hi j hj => ?_⟩
    rw [List.flatten_cons]
    cases i with
    | zero => rw [List.getElem?_append_left (by omega)]; simp
    | succ i =>
      rw [List.getElem?_append_right (by rw [hb]; nlinarith), hb, show (i + 1) * n + j - n = i * n + j by
        rw [Nat.add_mul]; omega]
      simpa using h2 i (by simpa using hi) j hj

section Values
variable {N : Net} (hN : Admissible N) (G : Goals N)
include hN

theorem constraints_eq (hG : G.Attached) {times cgrid ktimes x : List ℝ} (ht : times.Pairwise (· < ·)) (hk : ∀ t ∈ ktimes, t ∈ times)
    {states : List (Option (Fin N.stateCount → ℝ))} (hst : states.length = times.length)
    (hcon : ∀ t ∈ times, ∃ c : Fin N.controlCount → ℝ, controlsAt cgrid x t = Res.ok c) :
    ∃ values, constraintsOf G times cgrid ktimes x states = Res.ok values ∧ values.length = G.count * ktimes.length ∧
      ∀ v, G.constrained v = true → ∀ i j : ℕ, i < ktimes.length → ktimes[i]? = times[j]? → ∀ z, states[j]? = some (some z) →
        values[i * G.count + (constraintRange G v).1.toNat]? = some (some (ext z (constrainedIndex v))) := by
  obtain ⟨blocks, h1, h2⟩ := each_of (l := ktimes) (body := fun t => do
      let z ← Res.get states (times.idxOf t)
      let c ← controlsAt (N := N) cgrid x t
      match z with
      | none => Res.ok (List.replicate G.count none)
      | some z => do
        let v ← G.constraintVector (z, c)
        Res.ok (List.ofFn fun i => some (v i)))
    (Q := fun t block => block.length = G.count ∧ ∀ v, G.constrained v = true → ∀ j, times[j]? = some t →
      ∀ z, states[j]? = some (some z) → block[(constraintRange G v).1.toNat]? = some (some (ext z (constrainedIndex v)))) (by
    intro t htm
    have hidx : times.idxOf t < times.length := List.idxOf_lt_length_iff.mpr (hk t htm)
    have same : ∀ j, times[j]? = some t → j = times.idxOf t := by
      intro j hj
      obtain ⟨hjl, hj⟩ := List.getElem?_eq_some_iff.mp hj
      have hnd : times.Nodup := ht.imp fun h => h.ne
      exact (List.Nodup.getElem_inj_iff hnd (hi := hjl) (hj := hidx)).mp (by rw [hj, List.getElem_idxOf])
    obtain ⟨c, hcc⟩ := hcon t (hk t htm)
    have hs : Res.get states (times.idxOf t) = Res.ok states[times.idxOf t] :=
      Res.get_eq_ok.mpr (List.getElem?_eq_getElem (by omega))
    simp only [hs, Res.ok_bind, hcc]
    match hz : states[times.idxOf t] with
    | none =>
      refine ⟨_, rfl, by simp, fun v hv j hj z hzz => ?_⟩
      obtain rfl := same j hj
      obtain ⟨_, hzz⟩ := List.getElem?_eq_some_iff.mp hzz
      rw [hz] at hzz
      cases hzz
    | some z =>
      obtain ⟨values, h1, h2⟩ := constraint_value hN G hG (z, c)
      simp only [h1, Res.ok_bind]
      refine ⟨_, rfl, by simp, fun v hv j hj z' hzz => ?_⟩
      obtain rfl := same j hj
      obtain ⟨_, hzz⟩ := List.getElem?_eq_some_iff.mp hzz
      rw [hz] at hzz
      injection hzz with hzz
      subst hzz
      have hb := (constraint_bounds G hv).1
      have hlt : (constraintRange G v).1.toNat < G.count := by unfold Goals.count; omega
      have := h2 v hv ⟨_, hlt⟩ (Int.toNat_of_nonneg hb.1)
      rw [List.getElem?_ofFn, dif_pos hlt, this])
  have hlen : ∀ b ∈ blocks, b.length = G.count := by
    intro b hb
    obtain ⟨t, -, h⟩ := forall₂_mem_right h2 hb
    exact h.1
  obtain ⟨f1, f2⟩ := flatten_block hlen
  have hll := h2.length_eq
  refine ⟨blocks.flatten, ?_, by rw [f1, hll], fun v hv i j hi hij z hz => ?_⟩
  · unfold constraintsOf
    exact Res.bind_eq_ok.mpr ⟨_, h1, rfl⟩
  · have hb := (constraint_bounds G hv).1
    have hlt : (constraintRange G v).1.toNat < G.count := by unfold Goals.count; omega
    rw [f2 i (by omega) _ hlt]
    have := (List.forall₂_iff_get.mp h2).2 i hi (by omega)
    refine this.2 v hv j ?_ z hz
    rw [← hij, List.getElem?_eq_getElem hi]
    rfl

end Values

/-! ## Control times -/

theorem last_of_vector {coarse fine : List ℝ} (hs : coarse.Pairwise (· < ·)) (hn : 0 < coarse.length) {ps : List (ℕ × ℝ)}
    (h : computeIndexLambdaVector coarse fine = Res.ok ps) : ∀ t ∈ fine, t < coarse[coarse.length - 1] + EPSILON := by
  induction fine generalizing ps with
  | nil => intro t ht; simp at ht
  | cons a fine ih =>
    unfold computeIndexLambdaVector at h
    obtain ⟨p, h1, h⟩ := Res.bind_eq_ok.mp h
    obtain ⟨qs, h2, -⟩ := Res.bind_eq_ok.mp h
    intro t ht
    rcases List.mem_cons.mp ht with rfl | ht
    · by_contra hlt
      rw [C08_end_iterator coarse hs hn _ (not_lt.mp hlt)] at h1
      cases h1
    · exact ih h2 t ht

theorem selected_of {times ktimes : List ℝ} {every : ℤ} (hs : times.Pairwise (· < ·)) (hN : 2 ≤ times.length)
    (h : selectConstraintTimes times every = Res.ok ktimes) : Selected every times ktimes := by
  obtain ⟨c1, a1, a2, a3, a4, -⟩ := C20_selection times every hs hN
  rw [h] at a1
  injection a1 with a1
  subst a1
  obtain ⟨c2, m, b1, -, b2, b3, b4, b5, b6, -⟩ := select_eq times every hN
  rw [h] at b1
  injection b1 with b1
  subst b1
  subst b5
  exact ⟨a2, a3, a4, b6, b4, b3⟩

/-! ## The property -/

open Classical in
/-- C104. Whenever an optimization is set up, the problem is the one of the files. -/
theorem C104_problem {draws : Json → Res (ℝ → Res (ℝ × ℝ))} {mem : ℕ → ℝ} {lu : Solve} {fuel : ℕ} {s : Settings} {every : ℤ}
    {f : Files} {b : Bounds}
    (ho : f.topology.isObj = true) (hs : Shaped f.topology) (hd : DistinctTypes f.topology) (sb : Shaped f.boundary)
    (db : DistinctTypes f.boundary) (hf : Fit f.defaults f.topology) (hlt : s.start < s.stop) (hdes : 0 < s.desired)
    (hmax : 1 ≤ s.iterations) (hcov : ∀ t, s.start ≤ t → t ≤ s.stop → Covers f.defaults f.topology f.boundary t)
    (hdraw : ∀ data d, draws data = Res.ok d → ∀ t, s.start ≤ t → t ≤ s.stop → ∃ b, d t = Res.ok b)
    {P : Nlp} (h : optimization draws mem lu fuel s every f b = Res.ok P) :
    ∃ g, ∃ hc : Consistent g, readNet draws mem f.defaults f.topology f.boundary = Res.ok g ∧ Connected (toNet hc) ∧
      ∃ pos, Poses hc s every f b pos P := by
  unfold optimization at h
  obtain ⟨times, ht, h⟩ := Res.bind_eq_ok.mp h
  obtain ⟨g, hg, h⟩ := Res.bind_eq_ok.mp h
  split at h
  case isFalse => cases h
  next hc =>
  obtain ⟨_, hset, h⟩ := Res.bind_eq_ok.mp h
  obtain ⟨initial, hinit, h⟩ := Res.bind_eq_ok.mp h
  simp only at h
  split at h
  case isFalse => cases h
  next hn =>
  obtain ⟨cgrid, hcgrid, h⟩ := Res.bind_eq_ok.mp h
  obtain ⟨start, hstart, h⟩ := Res.bind_eq_ok.mp h
  obtain ⟨ktimes, hktimes, h⟩ := Res.bind_eq_ok.mp h
  obtain ⟨lower, hlower, h⟩ := Res.bind_eq_ok.mp h
  obtain ⟨upper, hupper, h⟩ := Res.bind_eq_ok.mp h
  obtain ⟨klower, hklower, h⟩ := Res.bind_eq_ok.mp h
  obtain ⟨kupper, hkupper, h⟩ := Res.bind_eq_ok.mp h
  obtain ⟨ps, hps, h⟩ := Res.bind_eq_ok.mp h
  obtain ⟨w, hw, h⟩ := Res.bind_eq_ok.mp h
  obtain ⟨jac, hjac, h⟩ := Res.bind_eq_ok.mp h
  obtain ⟨_, -, h⟩ := Res.bind_eq_ok.mp h
  obtain ⟨_, -, h⟩ := Res.bind_eq_ok.mp h
  obtain ⟨_, -, h⟩ := Res.bind_eq_ok.mp h
  obtain ⟨_, -, h⟩ := Res.bind_eq_ok.mp h
  obtain ⟨_, -, h⟩ := Res.bind_eq_ok.mp h
  obtain ⟨_, -, h⟩ := Res.bind_eq_ok.mp h
  obtain ⟨_, -, h⟩ := Res.bind_eq_ok.mp h
  obtain ⟨_, -, h⟩ := Res.bind_eq_ok.mp h
  injection h with h
  -- facts about the network
  obtain ⟨times'', e1, hgood, -⟩ := (C26_grid_partial s.start s.desired s.stop).1 hlt hdes
  rw [ht] at e1
  injection e1 with e1
  subst e1
  obtain ⟨nodes, edges, h1, h2, h3⟩ := readNet_ok hg
  obtain ⟨-, hids, ⟨ns, p1, f1⟩, -⟩ := buildNet_made (proper_of h1 h2 hs hd) h3
  have hin := hgood.bounds
  obtain ⟨hc', h101⟩ := C101_simulation ho hs hd sb db hg hf times (fun t ht => hcov t (hin t ht).1 (hin t ht).2)
    (fun data d hdd t ht => hdraw data d hdd t (hin t ht).1 (hin t ht).2)
  obtain ⟨_, hadm, -⟩ := C100_partial ho hs hd sb db hg hf
  have hnn : (g.nodes.map Node.id).Nodup := (List.nodup_append.mp hids).1
  have sink : ∀ v : Fin g.nodes.length, (goals hc f.topology).constrained v = true ↔ ConstraintSink f.topology g.nodes[v].id :=
    fun v => isConstraintSink_iff
  have flow : ∀ v : Fin g.nodes.length, ConstraintSink f.topology g.nodes[v].id → ((toNet hc).node v).kind = .flow := by
    rintro v ⟨x, hx, hid⟩
    obtain ⟨n, hmem, h5, h6⟩ := forall₂_mem_left f1 (p1.mem_iff.mpr hx)
    have : n = g.nodes[v.val] := node_of_id hnn hmem (List.getElem_mem _) (Option.some.inj (h5.symm.trans hid))
    subst this
    have := (node_matches h1 h6).kind
    exact (Option.some.inj this).symm
  -- times
  obtain ⟨c1, c2, c3⟩ := controlGrid_times hlt hdes ht hcgrid
  have hcn : 0 < cgrid.length := by
    cases cgrid with
    | nil => simp at c3
    | cons => simp
  have hfirst : cgrid[0] = s.start := by
    rw [List.head?_eq_getElem?, List.getElem?_eq_getElem hcn] at c3
    exact Option.some.inj c3
  have hlast := last_of_vector c2 hcn hps
  have hstop : s.stop ∈ times := List.mem_of_getLast? hgood.2.2.1
  have hsel := selected_of hgood.1 hgood.2.2.2.1 hktimes
  have hcs : ∀ c ∈ controlComponents hc mem, c.read = Gas.readVector (accepts (boundaryOf 1)) mem ∧
      c.start < (toNet hc).controlCount := by
    intro c hcm
    obtain ⟨k, hk⟩ := (mem_controlComponents hc mem).mp hcm
    obtain ⟨-, b1, b2, b3⟩ := control_of hc mem hk
    have := Admissible.control_bounds (N := toNet hc) b2
    exact ⟨b3, by unfold Net.controlCount; omega⟩
  have hks : ∀ c ∈ constraintComponents hc f.topology mem, c.read = Gas.readVector (accepts (boundaryOf 1)) mem ∧
      c.start < (goals hc f.topology).count := by
    intro c hcm
    obtain ⟨k, hk⟩ := (mem_constraintComponents hc f.topology mem).mp hcm
    obtain ⟨-, b1, b2, b3, b4⟩ := constraint_of hc f.topology mem hk
    exact ⟨b4, b3⟩
  have cvalue : ∀ {json : Json} {u : IV ℝ}, boundsOf (controlComponents hc mem) mem cgrid (toNet hc).controlCount json = Res.ok u →
      u.values.length = (toNet hc).controlCount * cgrid.length ∧ ∀ k : Fin g.edges.length, ((toNet hc).edge k).isControl →
        FixedBy json g.edges[k].id cgrid (toNet hc).controlCount ((toNet hc).controlRange k).1.toNat u.values := by
    intro json u hu
    obtain ⟨-, -, r1, r2⟩ := boundsOf_ok (control_ids hc mem hids) (disjoint_controls hc mem) hcs c2 hu
    refine ⟨r1, fun k hk => ?_⟩
    have hmem : controlEdge hc mem k = some ⟨g.edges[k].id, ((toNet hc).controlRange k).1.toNat, Gas.readVector (accepts (boundaryOf 1)) mem⟩ := by
      unfold controlEdge
      exact if_pos hk
    exact r2 _ ((mem_controlComponents hc mem).mpr ⟨k, hmem⟩)
  have kvalue : ∀ {json : Json} {u : IV ℝ}, boundsOf (constraintComponents hc f.topology mem) mem ktimes (goals hc f.topology).count json = Res.ok u →
      u.values.length = (goals hc f.topology).count * ktimes.length ∧ ∀ v : Fin g.nodes.length, ConstraintSink f.topology g.nodes[v].id →
        FixedBy json g.nodes[v].id ktimes (goals hc f.topology).count (constraintRange (goals hc f.topology) v).1.toNat u.values := by
    intro json u hu
    obtain ⟨-, -, r1, r2⟩ := boundsOf_ok (constraint_ids hc f.topology mem hids) (disjoint_constraints hc f.topology mem) hks hsel.2.1 hu
    refine ⟨r1, fun v hv => ?_⟩
    have hmem : constraintNode hc f.topology mem v = some ⟨g.nodes[v].id, (constraintRange (goals hc f.topology) v).1.toNat, Gas.readVector (accepts (boundaryOf 1)) mem⟩ := by
      unfold constraintNode
      exact if_pos ((sink v).mpr hv)
    exact r2 _ ((mem_constraintComponents hc f.topology mem).mpr ⟨v, hmem⟩)
  obtain ⟨l1, v1⟩ := cvalue hstart
  obtain ⟨l2, v2⟩ := cvalue hlower
  obtain ⟨l3, v3⟩ := cvalue hupper
  obtain ⟨l4, v4⟩ := kvalue hklower
  obtain ⟨l5, v5⟩ := kvalue hkupper
  have ccount : ∀ x : List ℝ, x.length = (toNet hc).controlCount * cgrid.length → ∀ t ∈ times,
      ∃ c : Fin (toNet hc).controlCount → ℝ, controlsAt cgrid x t = Res.ok c := by
    intro x hx t htm
    exact controls_ok hx c2 hcn (by rw [hfirst]; exact (hin t htm).1) (hlast t htm)
  -- what a simulation is
  have sim : ∀ x states, P.simulation x = Res.ok states → x.length = (toNet hc).controlCount * cgrid.length ∧
      ∃ z, states = z.map (Option.map ext) ∧ (simulate s.retries s.simplified
        (newtonSolver (fun a b x c => (toNet hc).system (lu (toNet hc) a b x c) a b x c) s.tolerance s.iterations fuel)
        (controlsAt (N := toNet hc) cgrid x) times (some (entriesOf initial))).1 = Res.ok z := by
    intro x states hx
    rw [← h] at hx
    simp only at hx
    split at hx
    · next hxl =>
      obtain ⟨z, hz, hx⟩ := Res.bind_eq_ok.mp hx
      injection hx with hx
      exact ⟨hxl, z, hx.symm, hz⟩
    · cases hx
  have lengths : ∀ {x z}, (simulate s.retries s.simplified
        (newtonSolver (fun a b x c => (toNet hc).system (lu (toNet hc) a b x c) a b x c) s.tolerance s.iterations fuel)
        (controlsAt (N := toNet hc) cgrid x) times (some (entriesOf initial))).1 = Res.ok z → z.length = times.length := by
    intro x z hz
    exact (h101 (lu (toNet hc)) s.tolerance s.iterations hmax fuel s.retries s.simplified (controlsAt (N := toNet hc) cgrid x)
      (entriesOf initial) z _ (Prod.ext hz rfl)).1
  have obj : ∀ x z, x.length = (toNet hc).controlCount * cgrid.length → z.length = times.length →
      ∃ c : ℕ → Fin (toNet hc).controlCount → ℝ, (∀ i, 1 ≤ i → ∀ hi : i < times.length, controlsAt cgrid x times[i] = Res.ok (c i)) ∧
        objectiveOf (goals hc f.topology) times cgrid x w z = Res.ok (trapezoid times.length (fun i => times.getD i 0) fun i =>
          if i = 0 then 0 else ∑ k : Fin (toNet hc).edges, if ((toNet hc).edge k).isCompressor then
            ext (c i) ((toNet hc).controlRange k).1 ^ 2 else 0) := by
    intro x z hx hz
    have : ∀ i, ∃ c : Fin (toNet hc).controlCount → ℝ, ∀ hi : i < times.length, controlsAt cgrid x times[i] = Res.ok c := by
      intro i
      by_cases hi : i < times.length
      · obtain ⟨c, hcc⟩ := ccount x hx times[i] (List.getElem_mem _)
        exact ⟨c, fun _ => hcc⟩
      · exact ⟨0, fun hi' => absurd hi' hi⟩
    choose c hcc using this
    exact ⟨c, fun i _ hi => hcc i hi, objective_eq ⟨fun _ => rfl, rfl⟩ hgood.2.2.2.1 hw hz fun i _ hi => hcc i hi⟩
  refine ⟨g, hc, hg, connected_of hadm hset, fun v => (constraintRange (goals hc f.topology) v).1.toNat, ?_⟩
  have hP := h
  subst hP
  refine
  { times := hgood
    controlTimes := ⟨c1, c2, c3, cgrid[cgrid.length - 1], ?_, hlast _ hstop⟩
    constraintTimes := hsel
    controls := by rw [← controlCount_card]
    constraints := ?_
    numbered := ⟨fun k hk => ?_, fun k l hk hl => control_unique hk hl⟩
    numberedSinks := ⟨fun v hv => ?_, fun v w hv hw he => ?_⟩
    lengths := ⟨l1, l2, l3, l4, l5⟩
    values := fun k hk => ⟨v1 k hk, v2 k hk, v3 k hk⟩
    bounds := fun v hv => ⟨v4 v hv, v5 v hv⟩
    jacobian := ?_
    simulation := ?_
    objective := ?_
    constraintValues := ?_ }
  · show cgrid.getLast? = _
    rw [List.getLast?_eq_getElem?]
    exact List.getElem?_eq_getElem (by omega)
  · show (goals hc f.topology).count = _
    rw [constraintCount_card]
    congr 1
    exact Finset.filter_congr fun v _ => sink v
  · have := Admissible.control_bounds (N := toNet hc) hk
    refine ⟨this.1, ?_⟩
    show _ < ((toNet hc).controlCount : ℤ)
    unfold Net.controlCount
    omega
  · have := (constraint_bounds (goals hc f.topology) ((sink v).mpr hv)).1
    show (constraintRange (goals hc f.topology) v).1.toNat < (constraints (goals hc f.topology)).toNat
    omega
  · have := (constraint_bounds (goals hc f.topology) ((sink v).mpr hv)).1
    have := (constraint_bounds (goals hc f.topology) ((sink w).mpr hw)).1
    have he' : (constraintRange (goals hc f.topology) v).1.toNat = (constraintRange (goals hc f.topology) w).1.toNat := he
    exact constraint_unique (goals hc f.topology) ((sink v).mpr hv) ((sink w).mpr hw) (by omega)
  · have hk' : ktimes.Pairwise (· ≤ ·) := hsel.2.1.imp fun h => h.le
    have hc'' : cgrid.Pairwise (· ≤ ·) := c2.imp fun h => h.le
    obtain ⟨j1, j2, -⟩ := C09_indices _ _ ktimes cgrid hk' hc'' jac hjac
    exact ⟨j1, j2, fun row col => C11_stored_iff_causal _ _ ktimes cgrid hk' hc'' jac hjac row col⟩
  · intro x states hx
    obtain ⟨hxl, z, rfl, hz⟩ := sim x states hx
    obtain ⟨a1, a2, a3⟩ := h101 (lu (toNet hc)) s.tolerance s.iterations hmax fuel s.retries s.simplified (controlsAt (N := toNet hc) cgrid x)
      (entriesOf initial) z _ (Prod.ext hz rfl)
    refine ⟨hxl, by simpa using a1, ⟨ext (entriesOf initial), by rw [List.head?_map, a2]; rfl,
      begins_of hc hids (by simp [uninit]) hinit⟩, ?_⟩
    intro i hi his y z' hy hz' hfin
    simp only [List.getElem_map, Option.map_eq_some_iff] at hy hz'
    obtain ⟨y', hy', rfl⟩ := hy
    obtain ⟨z'', hz'', rfl⟩ := hz'
    obtain ⟨c, hcc, hr⟩ := a3 i hi (by simpa using his) y' z'' hy' hz'' hfin
    exact ⟨ext c, controls_interpolate hxl c2 hcc, hr⟩
  · refine ⟨fun x states hx => ?_, fun x v hv => ?_⟩
    · obtain ⟨hxl, z, rfl, hz⟩ := sim x states hx
      obtain ⟨c, -, he⟩ := obj x z hxl (lengths hz)
      exact ⟨_, (if_pos hxl).trans (Res.bind_eq_ok.mpr ⟨z, hz, he⟩)⟩
    · simp only at hv
      split at hv
      · next hxl =>
        obtain ⟨z, hz, hv⟩ := Res.bind_eq_ok.mp hv
        obtain ⟨c, hcc, he⟩ := obj x z hxl (lengths hz)
        rw [he] at hv
        injection hv with hv
        refine ⟨⟨z.map (Option.map ext), ?_⟩, fun i => ext (c i), fun i h1 hi => controls_interpolate hxl c2 (hcc i h1 hi), hv.symm⟩
        simp only
        rw [if_pos hxl]
        exact Res.bind_eq_ok.mpr ⟨z, hz, rfl⟩
      · cases hv
  · refine ⟨fun x values hv => ?_, fun hatt x states hx => ?_⟩
    · simp only at hv
      split at hv
      · next hxl =>
        obtain ⟨z, hz, hv⟩ := Res.bind_eq_ok.mp hv
        refine ⟨z.map (Option.map ext), ?_⟩
        simp only
        rw [if_pos hxl]
        exact Res.bind_eq_ok.mpr ⟨z, hz, rfl⟩
      · cases hv
    · obtain ⟨hxl, z, rfl, hz⟩ := sim x states hx
      have hG : (goals hc f.topology).Attached := fun v hv =>
        ⟨flow v ((sink v).mp hv), (ends_ne_nil hadm).mpr (hatt v ((sink v).mp hv))⟩
      obtain ⟨values, q1, q2, q3⟩ := constraints_eq hadm (goals hc f.topology) hG hgood.1
        (fun t ht => List.mem_of_mem_tail (hsel.2.2.1 t ht)) (lengths hz) (ccount x hxl)
      refine ⟨values, ?_, q2, fun v hv i j hi hij z' hz' => ?_⟩
      · simp only
        rw [if_pos hxl]
        exact Res.bind_eq_ok.mpr ⟨z, hz, q1⟩
      · rw [List.getElem?_map, Option.map_eq_some_iff] at hz'
        obtain ⟨oz, ho1, ho2⟩ := hz'
        obtain ⟨z'', rfl, rfl⟩ := Option.map_eq_some_iff.mp ho2
        refine ⟨_, q3 v ((sink v).mpr hv) i j hi hij z'' ho1, ?_⟩
        exact constrained_pressure hadm (hG v ((sink v).mpr hv)).2 (ext z'')

end Verif.Read
