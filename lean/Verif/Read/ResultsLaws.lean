import Verif.Read.ResultsNet

/-!
# From the laws of the network to those of the results

Lemmas for C109.
-/

set_option autoImplicit false

namespace Verif.Read

open Verif.Json Verif.Factory Verif.Interp Verif.Schema Verif.Initial Verif.Times Network Net

theorem kind_of_plant {type : String} (h : kindOf type = some .plant) : type = "ExternalPowerplant" := by
  unfold kindOf at h
  split at h <;> first
    | rfl
    | cases h

theorem kind_of_power {type : String} {k : NodeKind} (h : kindOf type = some k) (hk : k.isPower = true) : type ∈ powerNodes := by
  unfold kindOf at h
  split at h <;> first
    | (cases h; simp [NodeKind.isPower] at hk; done)
    | (simp [powerNodes]; done)
    | cases h

theorem density_of {r : ℝ} (h : Euler.p r / 100000 ≠ 0) : r ≠ 0 ∧ 1 - Euler.alpha * Euler.cVac * r ≠ 0 := by
  constructor
  · rintro rfl
    exact h (by simp [Euler.p])
  · intro h0
    exact h (by simp [Euler.p, h0])

section
variable {f : Files} {g : Graph Network.Node EdgeKind} {hc : Consistent g}
  {node : Fin g.nodes.length → String × Json} {edge : Fin g.edges.length → String × Json}
  (S : Sited f.defaults f.topology hc node edge) (last : ℝ) (times : List ℝ) (states : List Vec)
include S

namespace Sited

omit S in
theorem pressureOf_pipe {k : Fin g.edges.length} {dx d r : ℝ} {n : ℕ} (hk : (toNet hc).edge k = .gas (.pipe dx d r) n) (x : ℝ) :
    (toNet hc).pressureOf k x = Euler.p x / 100000 := by
  unfold Net.pressureOf
  rw [hk]

theorem pipe_type {k : Fin g.edges.length} {dx d r : ℝ} {n : ℕ} (hk : (toNet hc).edge k = .gas (.pipe dx d r) n) :
    ("Pipe", (edge k).2) ∈ entries (types f.topology "connections") ∧ pointsOf hc k = n := by
  have hm := S.edgeMatch k
  have hmem := S.edge_mem k
  generalize edge k = e at hm hmem
  obtain ⟨type, j⟩ := e
  rw [hk] at hm
  cases hm
  refine ⟨hmem, ?_⟩
  unfold pointsOf
  rw [hk]
  simp [edgeNeed]

theorem finite_of {i : ℕ} (h : PipesFilled (resultsOf hc f.topology last times states) f.topology i) :
    (toNet hc).Finite (states.getD i 0) := by
  intro (k : Fin g.edges.length) dx d r n hk j hj
  obtain ⟨h1, h2⟩ := S.pipe_type hk
  have := h _ h1 j (by rw [S.edge_id, S.points_eq, h2]; exact hj)
  rw [S.edge_id, S.pressure_eq, pressureOf_pipe hk] at this
  exact density_of this

theorem pointState_eq {i : ℕ} (h : PipesFilled (resultsOf hc f.topology last times states) f.topology i)
    {k : Fin g.edges.length} {dx d r : ℝ} {n : ℕ} (hk : (toNet hc).edge k = .gas (.pipe dx d r) n) {j : ℕ} (hj : j < n) :
    (resultsOf hc f.topology last times states).pointState (edge k).2 i j =
      Net.segment (states.getD i 0) (((toNet hc).edgeRange k).1 + 2 * j) := by
  have hfin := (S.finite_of last times states h k dx d r n hk j hj).2
  unfold Results.pointState
  rw [S.edge_id, S.pressure_eq, S.flow_eq, pressureOf_pipe hk]
  have := (Euler.C31_units (states.getD i 0 (((toNet hc).edgeRange k).1 + 2 * j),
    states.getD i 0 (((toNet hc).edgeRange k).1 + 2 * j + 1))).2.2.2 hfin
  unfold Net.segment
  rw [← this]
  unfold Euler.fromBar Euler.pQvol Euler.bar
  congr 2
  simp

theorem obeys_of (hf : Fit f.defaults f.topology) {cgrid : List ℝ} {tol s t : ℝ} {i : ℕ} {c : Vec}
    (hx : PipesFilled (resultsOf hc f.topology last times states) f.topology i)
    (hy' : PipesFilled (resultsOf hc f.topology last times states) f.topology (i + 1))
    (hcon : ControlledBy hc f.control cgrid t c) (hplants : Connected (toNet hc))
    (h : Respects hc f.defaults f.topology f.boundary tol s t ⟨states.getD i 0, states.getD (i + 1) 0, c⟩) :
    Obeys (resultsOf hc f.topology last times states) f tol cgrid s t i := by
  have net : ∀ v : Fin g.nodes.length, (resultsOf hc f.topology last times states).netFlow f.topology g.nodes[v].id (i + 1) =
    (toNet hc).outflow v (states.getD (i + 1) 0) := fun v => S.netFlow_eq last times states (i + 1) hf v
  refine ⟨fun type x hmem h1 h2 => ?_, fun x hmem hatt => ?_, fun type x hmem => ?_, ?_⟩
  · obtain ⟨w, hid, e, l, b, he, hid', hl, hv, serv⟩ := h.nodes type x hmem h1 h2
    obtain ⟨v, hv'⟩ := S.of_node hmem
    have hvx : (node v).2 = x := by rw [hv']
    have hvt : (node v).1 = type := by rw [hv']
    obtain rfl : v = w := S.nodeInj _ _ (by have := S.nodeId v; rw [hvx, hid] at this; exact (Option.some.inj this).symm)
    have hidx : idOf x = g.nodes[v].id := idOf_eq hid
    refine ⟨b, ⟨e, l, he, by rw [hid', hid, hidx], hl, hv⟩, ?_⟩
    obtain ⟨s1, s2, s3, s4, s5⟩ := serv
    have kind := (S.nodeMatch v).kind
    rw [hvt] at kind
    have power : type ∈ powerNodes → ((toNet hc).node v).kind.isPower = true := fun hp => kind_power hp kind
    have eA : type ∈ powerNodes → (resultsOf hc f.topology last times states).gridActive f.defaults f.topology type x (i + 1) =
        (toNet hc).active v (states.getD (i + 1) 0) := fun hp => by
      have := S.gridActive_eq last times states (i + 1) v (power hp)
      rw [hvt, hvx] at this
      exact this
    have eR : type ∈ powerNodes → (resultsOf hc f.topology last times states).gridReactive f.defaults f.topology type x (i + 1) =
        (toNet hc).reactive v (states.getD (i + 1) 0) := fun hp => by
      have := S.gridReactive_eq last times states (i + 1) v (power hp)
      rw [hvt, hvx] at this
      exact this
    refine ⟨fun ht hatt => ?_, fun ht e he hg => ⟨fun ha => ?_, fun ha => ?_⟩, fun ht => ?_, fun ht => ?_, fun ht => ?_⟩
    · rw [hidx] at hatt ⊢
      rw [net]
      exact s1 ht ((S.attached_iff v).mp hatt)
    · obtain ⟨k, rfl⟩ := S.of_edge he
      rw [hidx] at ha
      rw [S.startP_eq]
      exact (s2 ht k ((S.gas_iff k).mpr hg)).1 ((S.from_iff k v).mp ha)
    · obtain ⟨k, rfl⟩ := S.of_edge he
      rw [hidx] at ha
      rw [S.endP_eq last times states (i + 1) hf k ((S.gas_iff k).mpr hg)]
      exact (s2 ht k ((S.gas_iff k).mpr hg)).2 ((S.to_iff k v).mp ha)
    · have hp : type ∈ powerNodes := by rw [ht]; decide
      rw [eA hp, eR hp]
      exact s3 ht
    · have hp : type ∈ powerNodes := by rw [ht]; decide
      rw [eA hp, hidx, S.voltage_eq]
      exact s4 ht
    · rw [hidx, S.voltage_eq, S.angle_eq]
      exact s5 ht
  · obtain ⟨v, hid, h1⟩ := h.inner x hmem
    rw [idOf_eq hid] at hatt ⊢
    rw [net]
    exact h1 ((S.attached_iff v).mp hatt)
  · obtain ⟨l, hid, hb⟩ := h.edges (type, x) hmem
    obtain ⟨k, hk⟩ := S.of_edge hmem
    have hkx : (edge k).2 = x := by rw [hk]
    have hkt : (edge k).1 = type := by rw [hk]
    obtain rfl : k = l := S.edgeInj _ _ (by
      have h1 := S.edgeId k
      rw [hkx] at h1
      exact Option.some.inj (h1.symm.trans hid))
    obtain ⟨b1, b2, b3, b4, b5, b6, b7⟩ := hb
    have hmat := S.edgeMatch k
    rw [hkx, hkt] at hmat
    have gas : type ≠ "Transmissionline" → ((toNet hc).edge k).isGas = true := fun ht => (S.gas_iff k).mpr (by rw [hkt]; exact ht)
    have eP := S.startP_eq last times states (i + 1) k
    have eQ := S.startQ_eq last times states (i + 1) k
    have eP' := fun ht => S.endP_eq last times states (i + 1) hf k (gas ht)
    have eQ' := fun ht => S.endQ_eq last times states (i + 1) hf k (gas ht)
    rw [hkx] at eP eQ eP' eQ'
    have control : type ∈ ["Compressorstation", "Controlvalve"] →
        ControlIs f.control cgrid t (idOf x) (c ((toNet hc).controlRange k).1) := by
      intro ht
      have hc1 : ((toNet hc).edge k).isControl = true := by
        generalize (toNet hc).edge k = y at hmat
        cases hmat <;> first
          | rfl
          | simp at ht
      obtain ⟨e, h1, h2⟩ := hcon k hc1
      exact ⟨e, by rw [idOf_eq hid]; exact h1, h2⟩
    refine ⟨fun ht => ?_, fun ht => ?_, fun ht => ?_, fun ht => ?_, fun ht => ?_, fun ht => ?_⟩
    · have : type ≠ "Transmissionline" := by rintro rfl; simp at ht
      rw [eQ, eQ' this]
      exact b1 ht
    · rw [eP, eP' (by rw [ht]; decide)]
      exact b2 ht
    · rw [eP, eP' (by rw [ht]; decide)]
      exact ⟨_, control (by rw [ht]; decide), b3 ht⟩
    · rw [eP, eP' (by rw [ht]; decide)]
      exact ⟨_, control (by rw [ht]; decide), b4 ht⟩
    · obtain ⟨a, p, power, h1, h2, h3, h4⟩ := b5 ht
      set w : Fin g.nodes.length := (toNet hc).dst k with hw
      refine ⟨a, p, power, h1, h2, by rw [eQ]; exact h3, (node w).2, ?_, ?_, ?_⟩
      all_goals
        have hpl : ((toNet hc).node w).kind = .plant := by
          generalize hy : (toNet hc).edge k = y at hmat
          cases hmat with
          | gaspower g' p' n' =>
            have := hplants.2 k _ _ _ hy
            revert this
            rw [show (toNet hc).dst k = w from rfl]
            generalize ((toNet hc).node w).kind = z
            cases z <;> simp [NodeKind.isPlant]
          | _ => exact absurd ht (by decide)
        have hty : (node w).1 = "ExternalPowerplant" := by
          have := (S.nodeMatch w).kind
          rw [hpl] at this
          exact kind_of_plant this
      · have := S.node_mem w
        rw [← hty]
        exact this
      · rw [S.node_id, ← hkx]
        exact S.dst k
      · have := S.gridActive_eq last times states (i + 1) w (by rw [hpl]; rfl)
        rw [hty] at this
        rw [this]
        exact h4
    · obtain ⟨L, w, D, rough, n, h1, h2, h3, h4, h5, h6, h7, h8⟩ := b7 ht
      generalize hy : (toNet hc).edge k = y at hmat
      cases hmat with
      | compressor => exact absurd ht (by decide)
      | controlvalve => exact absurd ht (by decide)
      | shortpipe => exact absurd ht (by decide)
      | gaspower => exact absurd ht (by decide)
      | line => exact absurd ht (by decide)
      | pipe L' w' D' r' dx n' hL hw hd hr hs hn =>
        have hnn : n' = n := by
          rw [hy] at h7
          simp only [edgeNeed] at h7
          omega
        subst hnn
        refine ⟨L, w, D, rough, n', h1, h2, h3, h4, h5, h6, ?_, fun j hj => ?_⟩
        · rw [idOf_eq hid, S.points_eq, (S.pipe_type hy).2]
        · obtain ⟨z, hz⟩ := h8 j hj
          refine ⟨z, ?_⟩
          have q1 := fun j hj => S.pointState_eq last times states hx hy (j := j) hj
          have q2 := fun j hj => S.pointState_eq last times states hy' hy (j := j) hj
          rw [hkx] at q1 q2
          rw [q1 j (by omega), q1 (j + 1) hj, q2 j (by omega), q2 (j + 1) hj]
          simpa using hz
  · obtain ⟨P, hP⟩ := h.pressures
    refine ⟨pick (fun v => g.nodes[v].id) P 0, fun e he hg => ?_⟩
    obtain ⟨k, rfl⟩ := S.of_edge he
    have hpick : ∀ v : Fin (toNet hc).nodes, pick (fun v => g.nodes[v].id) P 0 g.nodes[(v : Fin g.nodes.length)].id = P v :=
      fun v => pick_eq S.nodeInj P 0 v
    refine ⟨_, _, S.src k, S.dst k, ?_, fun hn => ?_⟩
    · rw [S.startP_eq, hpick, S.endsAt_eq]
      exact (hP k ((S.gas_iff k).mpr hg)).1
    · rw [S.endP_eq last times states (i + 1) hf k ((S.gas_iff k).mpr hg), hpick, S.endsAt_eq]
      refine (hP k ((S.gas_iff k).mpr hg)).2 ?_
      obtain ⟨a, b, start, stop, -, h2, -, ⟨x, h3, h4⟩, hall⟩ := hf.ends _ he
      have hb := S.dst k
      rw [nameAt_eq h2] at hb
      obtain ⟨v, hv⟩ := S.of_node h3
      have hvv : v = (toNet hc).dst k := S.nodeInj _ _ (by
        have := S.nodeId v
        rw [hv] at this
        simp only at this
        rw [h4] at this
        exact Option.some.inj (this.symm.trans hb))
      have kind := (S.nodeMatch v).kind
      rw [hv, hvv] at kind
      refine kind_gas ?_ kind
      unfold Allowed at hall
      rw [if_neg hg, if_neg hn] at hall
      exact hall.2

/-! ## The type, the points and the first state -/

omit S in
theorem kind_cases_power {type : String} {k : NodeKind} (h : kindOf type = some k) (hk : k.isPower = true) :
    (type = "PQnode" ∧ k = .power .pq) ∨ (type = "StochasticPQnode" ∧ k = .power .pq) ∨ (type = "PVnode" ∧ k = .power .pv) ∨
      (type = "Vphinode" ∧ k = .power .vphi) ∨ (type = "ExternalPowerplant" ∧ k = .plant) := by
  unfold kindOf at h
  split at h <;> first
    | (cases h; simp [NodeKind.isPower] at hk; done)
    | (cases h; simp)
    | cases h

theorem powerType_eq (v : Fin g.nodes.length) (hv : ((toNet hc).node v).kind.isPower = true) :
    powerType f.topology g.nodes[v].id ((toNet hc).node v).kind = (node v).1 := by
  have stoch : ((entries (types f.topology "nodes")).any fun x => x.1 == "StochasticPQnode" && id? x.2 == some g.nodes[v].id) =
      true ↔ (node v).1 = "StochasticPQnode" := by
    rw [List.any_eq_true]
    constructor
    · rintro ⟨e, he, h⟩
      simp only [Bool.and_eq_true, beq_iff_eq] at h
      obtain ⟨w, rfl⟩ := S.of_node he
      rw [S.nodeId w] at h
      rw [← S.nodeInj w v (Option.some.inj h.2)]
      exact h.1
    · intro h
      exact ⟨node v, S.node_mem v, by simp [h, S.nodeId v]⟩
  rcases kind_cases_power (S.nodeMatch v).kind hv with ⟨h1, h2⟩ | ⟨h1, h2⟩ | ⟨h1, h2⟩ | ⟨h1, h2⟩ | ⟨h1, h2⟩
  · rw [h2, h1]
    exact if_neg (by rw [stoch, h1]; decide)
  · rw [h2, h1]
    exact if_pos (stoch.mpr h1)
  all_goals
    rw [h2, h1]
    rfl

theorem placed_of (hf : Fit f.defaults f.topology) : Placed (resultsOf hc f.topology last times states) f := by
  intro type x hmem
  obtain ⟨k, hk⟩ := S.of_edge hmem
  have hkx : (edge k).2 = x := by rw [hk]
  have hkt : (edge k).1 = type := by rw [hk]
  have hmat := S.edgeMatch k
  rw [hkx, hkt] at hmat
  have hid : idOf x = g.edges[k].id := by rw [← hkx]; exact S.edge_id k
  rw [hid]
  simp only [S.points_eq, S.position_eq]
  unfold pointsOf positionOf
  generalize (toNet hc).edge k = y at hmat
  cases hmat with
  | gaspower => exact ⟨fun _ => by simp [edgeNeed], fun h => absurd h (by decide), fun h => absurd h (by decide)⟩
  | line => exact ⟨fun h => absurd h (by decide), fun h => absurd h (by decide), fun h => absurd h (by decide)⟩
  | pipe L w D r dx n hL hw _ _ _ hn =>
    refine ⟨fun h => absurd h (by decide), fun h => absurd h (by decide), fun _ => ⟨L, hL, ?_⟩⟩
    obtain ⟨q1, q2⟩ := hf.lengths x hmem
    obtain ⟨h1, h2, -⟩ := hn (q1 L hL) (q2 w hw)
    have e : edgeNeed (.gas (.pipe dx D r) n) / 2 = n := by simp [edgeNeed]
    rw [e]
    refine ⟨h1, fun j => ?_⟩
    have : (2 : ℝ) ≤ n := by exact_mod_cast h1
    have h3 : (n : ℝ) - 1 ≠ 0 := by linarith
    simp only
    rw [← h2]
    field_simp
  | _ => exact ⟨fun h => absurd h (by decide), fun _ => by simp [edgeNeed], fun h => absurd h (by decide)⟩

theorem starts_of (hf : Fit f.defaults f.topology) (h : Begins hc f.initial (states.getD 0 0)) :
    Starts (resultsOf hc f.topology last times states) f := by
  refine ⟨fun type x hmem hp => ?_, fun type x hmem hs => ?_, fun x hmem => ?_, fun x hmem => ?_⟩
  · obtain ⟨v, hv⟩ := S.of_node hmem
    have kind := (S.nodeMatch v).kind
    have hid := S.node_id v
    rw [hv] at kind hid
    obtain ⟨e, a, b, h1, h2, h3, h4⟩ := h.power v (kind_power hp kind)
    refine ⟨e, a, b, ?_, h2, ?_, ?_⟩ <;> rw [hid]
    · exact h1
    · rw [S.voltage_eq]; exact h3
    · rw [S.angle_eq]; exact h4
  all_goals
    obtain ⟨k, hk⟩ := S.of_edge hmem
    have hmat := S.edgeMatch k
    have hid := S.edge_id k
    have e1 := S.startP_eq last times states 0 k
    have e2 := S.startQ_eq last times states 0 k
    have hg := S.gas_iff k
    have e3 := fun h => S.endP_eq last times states 0 hf k h
    have e4 := fun h => S.endQ_eq last times states 0 hf k h
    rw [hk] at hmat hid e1 e2 e3 e4 hg
    simp only at hmat hid e1 e2 e3 e4 hg
  · have hgas := hg.mpr (by rintro rfl; simp at hs)
    have : ∃ kind n, (toNet hc).edge k = .gas kind n ∧ kind.isShort := by
      generalize (toNet hc).edge k = y at hmat
      cases hmat with
      | compressor n => exact ⟨_, n, rfl, trivial⟩
      | controlvalve n => exact ⟨_, n, rfl, trivial⟩
      | shortpipe n => exact ⟨_, n, rfl, trivial⟩
      | _ => exact absurd hs (by decide)
    obtain ⟨kind, n, hy, hsh⟩ := this
    obtain ⟨e, p, q, p', q', h1, h2, h3, h4, h5, h6⟩ := h.short k kind n hy hsh
    exact ⟨e, p, q, p', q', by rw [hid]; exact h1, h2, e1.trans h3, e2.trans h4, (e3 hgas).trans h5, (e4 hgas).trans h6⟩
  · have : ∃ a b n, (toNet hc).edge k = .gas (.gaspower a b) n := by
      generalize ht : "Gaspowerconnection" = type at hmat
      generalize (toNet hc).edge k = y at hmat
      cases hmat with
      | gaspower a b n => exact ⟨_, _, n, rfl⟩
      | _ => exact absurd ht (by decide)
    obtain ⟨a, b, n, hy⟩ := this
    obtain ⟨e, p, q, h1, h2, h3, h4⟩ := h.plant k a b n hy
    exact ⟨e, p, q, by rw [hid]; exact h1, h2, e1.trans h3, e2.trans h4⟩
  · have : ∃ dx D r n, (toNet hc).edge k = .gas (.pipe dx D r) n := by
      generalize ht : "Pipe" = type at hmat
      generalize (toNet hc).edge k = y at hmat
      cases hmat with
      | pipe L w D r dx n => exact ⟨_, _, _, n, rfl⟩
      | _ => exact absurd ht (by decide)
    obtain ⟨dx, D, r, n, hy⟩ := this
    obtain ⟨e, l, h1, h2, h3, h4, h5⟩ := h.pipe k dx D r n hy
    refine ⟨e, l, by rw [hid]; exact h1, h2, h3, h4, fun hsort j hj b hb => ?_⟩
    rw [hid] at hj hb ⊢
    rw [S.points_eq, (S.pipe_type hy).2] at hj
    rw [S.pressure_eq, S.flow_eq]
    have hpos : positionOf hc k j = j * dx := by unfold positionOf; rw [hy]
    rw [S.position_eq, hpos] at hb
    exact h5 hsort j hj b hb

/-! ## Reported powers -/

theorem powerOf_eq (v : Fin g.nodes.length) (hv : ((toNet hc).node v).kind.isPower = true) (time : ℝ) (x : Vec) {p q : ℝ}
    (h : reported hc (node v).1 last v time (listOf (toNet hc).stateCount x) = Res.ok [("P", p), ("Q", q)]) :
    powerOf hc f.topology last v time x "P" = p ∧ powerOf hc f.topology last v time x "Q" = q := by
  unfold powerOf
  rw [S.powerType_eq v hv, h]
  exact ⟨rfl, rfl⟩

omit S in
/-- What is reported, by the type of a node. -/
theorem reported_eq (hadm : Admissible (toNet hc)) {x : Vec} (hx : ext (entriesOf (listOf (toNet hc).stateCount x) :
    Fin (toNet hc).stateCount → ℝ) = x) (type : String) (v : Fin g.nodes.length) (time : ℝ) :
    (((toNet hc).node v).kind = .power .pq →
      ∀ b, ((toNet hc).node v).boundary (if type = "StochasticPQnode" then last else time) = Res.ok b →
      reported hc type last v time (listOf (toNet hc).stateCount x) = Res.ok [("P", b.1), ("Q", b.2)]) ∧
    (((toNet hc).node v).kind = .power .pv → ∀ b, ((toNet hc).node v).boundary time = Res.ok b →
      reported hc type last v time (listOf (toNet hc).stateCount x) = Res.ok [("P", b.1), ("Q", (toNet hc).reactive v x)]) ∧
    (((toNet hc).node v).kind = .power .vphi ∨ ((toNet hc).node v).kind = .plant →
      reported hc type last v time (listOf (toNet hc).stateCount x) =
        Res.ok [("P", (toNet hc).active v x), ("Q", (toNet hc).reactive v x)]) := by
  obtain ⟨bus, h1, -, h3, h4⟩ := bus_power hadm v x
  obtain ⟨p1, p2⟩ := Power.C41_power bus x
  unfold reported
  simp only [hx]
  refine ⟨fun hk b hb => ?_, fun hk b hb => ?_, ?_⟩
  · rw [hk]
    simp only [hb, Res.ok_bind]
  · rw [hk]
    simp only [hb, Res.ok_bind, h1, p2, h4]
  · rintro (hk | hk) <;> rw [hk] <;> simp only [Res.ok_bind, h1, p1, p2, h3, h4]

end Sited
end

end Verif.Read
