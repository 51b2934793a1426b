import Verif.Network.Balance
import Verif.Network.Jacobian

/-!
# Property C72: a solved network obeys all physical laws

The residual of a whole network vanishes if and only if all laws of `Laws` hold at once.
-/

set_option autoImplicit false

namespace Verif.Network

open Verif.Net Real

/-! ## Specification -/

/-- Is it a gas edge? -/
def EdgeKind.isGas : EdgeKind → Bool
  | .gas _ _ => true
  | .line _ _ => false

namespace Net
variable (N : Net)

/-- The flow at the start of a gas edge, into the edge. -/
def startFlow (k : Fin N.edges) (state : Vec) : ℝ := state ((N.edgeRange k).1 + 1)

/-- The flow at the end of a gas edge, out of the edge. -/
def endFlow (k : Fin N.edges) (state : Vec) : ℝ := state ((N.edgeRange k).2 - 1)

/-- The pressure in bar that belongs to a state value of an edge: in pipes the value is the density. -/
noncomputable def pressureOf (k : Fin N.edges) (value : ℝ) : ℝ :=
  match N.edge k with
  | .gas (.pipe _ _ _) _ => Euler.p value / 100000
  | _ => value

/-- Pressure at the start of a gas edge. -/
noncomputable def startPressure (k : Fin N.edges) (state : Vec) : ℝ := N.pressureOf k (state (N.edgeRange k).1)

/-- Pressure at the end of a gas edge. -/
noncomputable def endPressure (k : Fin N.edges) (state : Vec) : ℝ := N.pressureOf k (state ((N.edgeRange k).2 - 2))

/-- What flows from a node into its edges, minus what flows out of its edges into it. -/
noncomputable def outflow (v : Fin N.nodes) (state : Vec) : ℝ :=
  (∑ k, if N.src k = v then (if (N.edge k).isGas then N.startFlow k state else 0) else 0) -
  ∑ k, if N.dst k = v then (if (N.edge k).isGas then N.endFlow k state else 0) else 0

/-- Active power flowing from a power node into the grid. -/
noncomputable def active (v : Fin N.nodes) (state : Vec) : ℝ :=
  (N.node v).G * N.voltage state v ^ 2 +
    ((∑ k, if N.src k = v then N.voltage state v * N.voltage state (N.dst k) *
      ((N.edge k).conductance * cos (N.angle state v - N.angle state (N.dst k)) +
        (N.edge k).susceptance * sin (N.angle state v - N.angle state (N.dst k))) else 0) +
    ∑ k, if N.dst k = v then N.voltage state v * N.voltage state (N.src k) *
      ((N.edge k).conductance * cos (N.angle state v - N.angle state (N.src k)) +
        (N.edge k).susceptance * sin (N.angle state v - N.angle state (N.src k))) else 0)

/-- Reactive power flowing from a power node into the grid. -/
noncomputable def reactive (v : Fin N.nodes) (state : Vec) : ℝ :=
  -((N.node v).B * N.voltage state v ^ 2) +
    ((∑ k, if N.src k = v then N.voltage state v * N.voltage state (N.dst k) *
      ((N.edge k).conductance * sin (N.angle state v - N.angle state (N.dst k)) -
        (N.edge k).susceptance * cos (N.angle state v - N.angle state (N.dst k))) else 0) +
    ∑ k, if N.dst k = v then N.voltage state v * N.voltage state (N.src k) *
      ((N.edge k).conductance * sin (N.angle state v - N.angle state (N.src k)) -
        (N.edge k).susceptance * cos (N.angle state v - N.angle state (N.src k))) else 0)

end Net

/-- The laws the new state of a network has to obey. -/
structure Laws (N : Net) (lastTime newTime : ℝ) (a : Args) : Prop where
  /-- Every gas node has one pressure, which all its edges have there; at pressure nodes it is the prescribed one. -/
  pressures : ∃ P : Fin N.nodes → ℝ,
    (∀ k, (N.edge k).isGas → N.startPressure k a.new = P (N.src k) ∧
      ((N.node (N.dst k)).kind.isGas → N.endPressure k a.new = P (N.dst k))) ∧
    ∀ v b, (N.node v).kind = .pressure → (N.node v).boundary newTime = Res.ok b → P v = b.1
  /-- Kirchhoff's law: nothing is lost at inner nodes, and at sources and sinks the prescribed amount enters. -/
  flows : ∀ v, (∃ k, (N.edge k).isGas ∧ (N.src k = v ∨ N.dst k = v)) →
    ((N.node v).kind = .innode → N.outflow v a.new = 0) ∧
    ((N.node v).kind = .flow → ∀ b, (N.node v).boundary newTime = Res.ok b → N.outflow v a.new = b.1)
  /-- Short pipes change nothing, compressors raise and control valves lower the pressure by their control. -/
  short : ∀ k kind n, N.edge k = .gas kind n → kind.isShort →
    N.endPressure k a.new = N.startPressure k a.new + Gas.demandedRise kind (a.control (N.controlRange k).1) ∧
    N.startFlow k a.new = N.endFlow k a.new
  /-- The box scheme of the isothermal Euler equations holds in every cell of every pipe. -/
  pipes : ∀ k dx d r n, N.edge k = .gas (.pipe dx d r) n → ∀ j : ℕ, j + 1 < n →
    Box.evaluatePoint (Box.eulerLaw d r) lastTime newTime dx
      (Net.segment a.last ((N.edgeRange k).1 + 2 * j)) (Net.segment a.last ((N.edgeRange k).1 + 2 * (j + 1)))
      (Net.segment a.new ((N.edgeRange k).1 + 2 * j)) (Net.segment a.new ((N.edgeRange k).1 + 2 * (j + 1))) = Res.ok 0
  /-- The power flow equations with the prescribed values. -/
  grid : ∀ v b, (N.node v).boundary newTime = Res.ok b →
    match (N.node v).kind with
    | .power .pq => N.active v a.new = b.1 ∧ N.reactive v a.new = b.2
    | .power .pv => N.active v a.new = b.1 ∧ N.voltage a.new v = b.2
    | .power .vphi | .plant => N.voltage a.new v = b.1 ∧ N.angle a.new v = b.2
    | _ => True
  /-- The power of a plant is generated from the gas it takes. -/
  plants : ∀ k g p n, N.edge k = .gas (.gaspower g p) n →
    Power.generated ⟨g, p⟩ (N.startFlow k a.new) = Res.ok (N.active (N.dst k) a.new)

/-- Nothing keeps the residual from being computed: the boundary conditions have values, pipes have a real geometry. -/
structure Computable (N : Net) (newTime : ℝ) : Prop where
  boundary : ∀ v, (N.node v).kind ≠ .innode → ∃ b, (N.node v).boundary newTime = Res.ok b
  pipes : ∀ k dx d r n, N.edge k = .gas (.pipe dx d r) n → dx ≠ 0 ∧ Euler.RealPipe d r

/-! ## The rows of the components -/

theorem run_flatMap_single {α : Type} {l : List α} {f : α → List Op} {x : α} (hx : x ∈ l) {r : ℤ}
    (h : ∀ y ∈ l, y ≠ x → ∀ o ∈ f y, o.row ≠ r) (hset : ∀ v w : Vec, run v (f x) r = run w (f x) r) (u w : Vec) :
    run u (l.flatMap f) r = run w (f x) r := by
  classical
  induction l generalizing u with
  | nil => simp at hx
  | cons y l ih =>
    rw [List.flatMap_cons, run_append]
    by_cases hxl : x ∈ l
    · exact ih hxl (fun z hz => h z (by simp [hz])) _
    · obtain rfl : x = y := by simpa [hxl] using hx
      rw [run_of_not_mem]
      · exact hset _ _
      · intro o ho
        obtain ⟨z, hz, ho⟩ := List.mem_flatMap.mp ho
        exact h z (by simp [hz]) (fun e => hxl (e ▸ hz)) o ho

/-- In the rows of a component the residual of the network is the one of the component. -/
theorem component_residual {N : Net} (hN : Admissible N) {lastTime newTime : ℝ} {a : Args}
    {X : N.Component → List Op} (hX : ∀ c, N.componentEvaluate c lastTime newTime a = Res.ok (X c)) :
    ∃ ops, N.evaluate lastTime newTime a = Res.ok ops ∧
      ∀ c, ∀ r ∈ N.rows c, ∀ u w, run u ops r = run w (X c) r := by
  have h1 := forEach_ok (l := List.finRange N.nodes) (body := fun v => N.nodeEvaluate v newTime a)
    (g := fun v => X (.inl v)) fun v _ => hX (.inl v)
  have h2 := forEach_ok (l := N.equationEdges) (body := fun k => N.edgeEvaluate k lastTime newTime a)
    (g := fun k => X (.inr k)) fun k _ => hX (.inr k)
  have h3 := forEach_ok (l := N.controlEdges) (body := fun k => N.edgeEvaluate k lastTime newTime a)
    (g := fun k => X (.inr k)) fun k _ => hX (.inr k)
  refine ⟨((List.finRange N.nodes).map Sum.inl ++ N.equationEdges.map Sum.inr ++
    N.controlEdges.map Sum.inr : List N.Component).flatMap X, ?_, ?_⟩
  · unfold Net.evaluate
    rw [h1, Res.ok_bind, h2, Res.ok_bind, h3, Res.ok_bind]
    congr 1
    simp [List.flatMap_append, List.flatMap_map]
  · intro c r hr u w
    refine run_flatMap_single ?_ ?_ ((hN.component_fills (hX c)).sets r hr) u w
    · cases c with
      | inl v => simp [List.mem_finRange]
      | inr k =>
        rcases Net.edge_listed hr with hk | hk <;> simp [hk]
    · rintro c' - hne o ho rfl
      exact hne (hN.rows_unique ((hN.component_fills (hX c')).rows o ho) hr)

/-! ## The components -/

section
variable {N : Net} (hN : Admissible N)
include hN

theorem ends_sum (v : Fin N.nodes) (state : Vec) :
    ((N.ends v).map fun x => x.1.sign * Gas.flowAt state x).sum = N.outflow v state := by
  have key : ∀ (l : List (Fin N.edges)) (dir : Gas.Dir),
      ((l.filterMap fun k => (N.gasEdge k).map fun e => (dir, e)).map fun x : Gas.End => x.1.sign * Gas.flowAt state x).sum =
      (l.map fun k => if (N.edge k).isGas then dir.sign * state (match dir with
        | .start => (N.edgeRange k).1 + 1
        | .stop => (N.edgeRange k).2 - 1) else 0).sum := by
    intro l dir
    induction l with
    | nil => rfl
    | cons k l ih =>
      rw [List.map_cons, List.sum_cons, ← ih]
      cases hk : N.edge k with
      | line G B =>
        rw [List.filterMap_cons_none (by simp [Net.gasEdge, hk])]
        simp [EdgeKind.isGas]
      | gas kind n =>
        have hg := Admissible.gasEdge_eq (N := N) (k := k) |>.mpr ⟨kind, n, hk, rfl⟩
        rw [List.filterMap_cons_some (b := (dir, ⟨k.val, kind, (N.edgeRange k).1, (N.edgeRange k).2, (N.controlRange k).1⟩)) (by simp [hg])]
        simp only [List.map_cons, List.sum_cons, EdgeKind.isGas, if_true]
        congr 2
        cases dir with
        | start => rfl
        | stop =>
          show state ((N.edgeRange k).2 - 2 + 1) = _
          congr 1; ring
  have key2 : ∀ (l : List (Fin N.edges)) (e : Fin N.edges → Fin N.nodes) (g : Fin N.edges → ℝ), l.Nodup →
      (∀ k, k ∈ l ↔ e k = v) → (l.map g).sum = ∑ k, if e k = v then g k else 0 := by
    intro l e g hl he
    rw [← List.sum_toFinset g hl, ← Finset.sum_filter]
    refine Finset.sum_congr ?_ fun _ _ => rfl
    ext k
    simp [he]
  unfold Net.ends
  rw [List.map_append, List.sum_append, key, key, key2 _ N.src _ (hN.starting v).1 (hN.starting v).2,
    key2 _ N.dst _ (hN.ending v).1 (hN.ending v).2]
  unfold Net.outflow
  rw [sub_eq_add_neg, ← Finset.sum_neg_distrib]
  congr 1
  · refine Finset.sum_congr rfl fun k _ => ?_
    simp [Gas.Dir.sign, Net.startFlow]
  · refine Finset.sum_congr rfl fun k _ => ?_
    split_ifs <;> simp [Gas.Dir.sign, Net.endFlow]

omit hN in
theorem isGas_iff {k : Fin N.edges} : (N.edge k).isGas = true ↔ ∃ kind n, N.edge k = .gas kind n := by
  cases h : N.edge k <;> simp [EdgeKind.isGas]

omit hN in
theorem end_pressure {k : Fin N.edges} {kind : Gas.Kind} {n : ℕ} (hk : N.edge k = .gas kind n) (state : Vec) :
    Gas.pressureAt state (.start, ⟨k.val, kind, (N.edgeRange k).1, (N.edgeRange k).2, (N.controlRange k).1⟩) =
      N.startPressure k state ∧
    Gas.pressureAt state (.stop, ⟨k.val, kind, (N.edgeRange k).1, (N.edgeRange k).2, (N.controlRange k).1⟩) =
      N.endPressure k state := by
  simp only [Net.startPressure, Net.endPressure, Net.pressureOf, hk]
  cases kind <;> exact ⟨rfl, rfl⟩

/-- A statement about the pressures at a node. -/
theorem ends_pressure (v : Fin N.nodes) (state : Vec) (P : ℝ) :
    (∀ x ∈ N.ends v, Gas.pressureAt state x = P) ↔
      ∀ k, (N.edge k).isGas → (N.src k = v → N.startPressure k state = P) ∧
        (N.dst k = v → N.endPressure k state = P) := by
  constructor
  · intro h k hk
    obtain ⟨kind, n, hk⟩ := isGas_iff.mp hk
    obtain ⟨e1, e2⟩ := end_pressure hk state
    have hg := Admissible.gasEdge_eq.mpr ⟨kind, n, hk, rfl⟩
    refine ⟨fun hv => ?_, fun hv => ?_⟩
    · rw [← e1]; exact h _ (hN.mem_ends.mpr ⟨k, _, hg, Or.inl ⟨hv, rfl⟩⟩)
    · rw [← e2]; exact h _ (hN.mem_ends.mpr ⟨k, _, hg, Or.inr ⟨hv, rfl⟩⟩)
  · intro h x hx
    obtain ⟨k, e, he, hc⟩ := hN.mem_ends.mp hx
    obtain ⟨kind, n, hk, rfl⟩ := Admissible.gasEdge_eq.mp he
    obtain ⟨e1, e2⟩ := end_pressure hk state
    have := h k (isGas_iff.mpr ⟨kind, n, hk⟩)
    rcases hc with ⟨hv, rfl⟩ | ⟨hv, rfl⟩
    · rw [e1]; exact this.1 hv
    · rw [e2]; exact this.2 hv

theorem ends_empty (v : Fin N.nodes) : N.ends v ≠ [] ↔ ∃ k, (N.edge k).isGas ∧ (N.src k = v ∨ N.dst k = v) := by
  constructor
  · intro h
    obtain ⟨x, rest, hx⟩ := List.exists_cons_of_ne_nil h
    obtain ⟨k, e, he, hc⟩ := hN.mem_ends.mp (show x ∈ N.ends v by rw [hx]; simp)
    obtain ⟨kind, n, hk, rfl⟩ := Admissible.gasEdge_eq.mp he
    exact ⟨k, isGas_iff.mpr ⟨kind, n, hk⟩, hc.imp (·.1) (·.1)⟩
  · rintro ⟨k, hk, hv⟩ h
    obtain ⟨kind, n, hk⟩ := isGas_iff.mp hk
    have hg := Admissible.gasEdge_eq.mpr ⟨kind, n, hk, rfl⟩
    rcases hv with hv | hv
    · have := hN.mem_ends.mpr ⟨k, _, hg, Or.inl ⟨hv, rfl⟩⟩
      rw [h] at this; simp at this
    · have := hN.mem_ends.mpr ⟨k, _, hg, Or.inr ⟨hv, rfl⟩⟩
      rw [h] at this; simp at this

theorem bus_power (v : Fin N.nodes) (state : Vec) :
    ∃ b, N.bus v = Res.ok b ∧ b.first = (N.nodeRange v).1 ∧ Power.activeSpec b state = N.active v state ∧
      Power.reactiveSpec b state = N.reactive v state := by
  refine ⟨_, bus_eq hN v, rfl, ?_, ?_⟩
  · unfold Net.active
    rw [← attached_sum N hN v (fun G B w => N.voltage state v * N.voltage state w *
      (G * cos (N.angle state v - N.angle state w) + B * sin (N.angle state v - N.angle state w)))
      (fun w => by simp)]
    simp only [Power.activeSpec, List.map_map, Function.comp_def, Net.voltage, Net.angle]
  · unfold Net.reactive
    rw [← attached_sum N hN v (fun G B w => N.voltage state v * N.voltage state w *
      (G * sin (N.angle state v - N.angle state w) - B * cos (N.angle state v - N.angle state w)))
      (fun w => by simp)]
    simp only [Power.reactiveSpec, List.map_map, Function.comp_def, Net.voltage, Net.angle]
    ring

/-- What the equations of a node say. -/
def NodeLaw (N : Net) (v : Fin N.nodes) (newTime : ℝ) (state : Vec) : Prop :=
  match (N.node v).kind with
  | .innode => (∃ P, ∀ x ∈ N.ends v, Gas.pressureAt state x = P) ∧ (N.ends v ≠ [] → N.outflow v state = 0)
  | .flow => (∃ P, ∀ x ∈ N.ends v, Gas.pressureAt state x = P) ∧
      (N.ends v ≠ [] → ∀ b, (N.node v).boundary newTime = Res.ok b → N.outflow v state = b.1)
  | .pressure => ∀ b, (N.node v).boundary newTime = Res.ok b → ∀ x ∈ N.ends v, Gas.pressureAt state x = b.1
  | .power .pq => ∀ b, (N.node v).boundary newTime = Res.ok b → N.active v state = b.1 ∧ N.reactive v state = b.2
  | .power .pv => ∀ b, (N.node v).boundary newTime = Res.ok b → N.active v state = b.1 ∧ N.voltage state v = b.2
  | .power .vphi | .plant => ∀ b, (N.node v).boundary newTime = Res.ok b → N.voltage state v = b.1 ∧ N.angle state v = b.2

theorem flow_law {v : Fin N.nodes} (hv : (N.node v).kind.isGas) (state : Vec) (prescribed : ℝ) (hne : N.ends v ≠ []) :
    ∃ ops, Gas.flowBalance (N.ends v) state prescribed = Res.ok ops ∧
      ((∀ r ∈ N.rows (.inl v), run (fun _ => 0) ops r = 0) ↔
        (∃ P, ∀ x ∈ N.ends v, Gas.pressureAt state x = P) ∧ N.outflow v state = prescribed) := by
  obtain ⟨ops, ho, h⟩ := Gas.C35_flow_node (N.ends v) hne state prescribed (hN.ends_usable hv) (hN.ends_rows v)
  refine ⟨ops, ho, ?_⟩
  have h1 := (h (fun _ => 0)).1
  rw [ends_sum hN] at h1
  have e1 : (∀ r ∈ N.rows (.inl v), run (fun _ => 0) ops r = 0) ↔
      ∀ x ∈ N.ends v, run (fun _ => 0) ops (Gas.rowOf x) = 0 := by
    simp only [Net.rows, hv, if_true, Set.mem_ofPred_eq]
    constructor
    · intro h x hx; exact h _ ⟨x, hx, rfl⟩
    · rintro h r ⟨x, hx, rfl⟩; exact h x hx
  rw [e1, h1]
  refine and_congr ⟨fun h => ?_, ?_⟩ Iff.rfl
  · obtain ⟨x, rest, hx⟩ := List.exists_cons_of_ne_nil hne
    exact ⟨_, fun y hy => h y hy x (by rw [hx]; simp)⟩
  · rintro ⟨P, hP⟩ x hx y hy
    rw [hP x hx, hP y hy]

theorem node_law (v : Fin N.nodes) {newTime : ℝ} (hb : (N.node v).kind ≠ .innode → ∃ b, (N.node v).boundary newTime = Res.ok b)
    (a : Args) :
    ∃ ops, N.nodeEvaluate v newTime a = Res.ok ops ∧
      ((∀ r ∈ N.rows (.inl v), run (fun _ => 0) ops r = 0) ↔ NodeLaw N v newTime a.new) := by
  have hempty : (N.node v).kind.isGas → N.ends v = [] →
      (∀ r ∈ N.rows (.inl v), run (fun _ => 0) ([] : List Op) r = 0) := by
    intro hv he r hr
    rfl
  have hpower : ∀ k : Power.Kind, ∀ b, (N.node v).kind.isGas = false →
      ∃ bus, N.bus v = Res.ok bus ∧ ((∀ r ∈ N.rows (.inl v), run (fun _ => 0) (Power.busEvaluate k bus b a.new) r = 0) ↔
        match k with
        | .pq => N.active v a.new = b.1 ∧ N.reactive v a.new = b.2
        | .pv => N.active v a.new = b.1 ∧ N.voltage a.new v = b.2
        | .vphi => N.voltage a.new v = b.1 ∧ N.angle a.new v = b.2) := by
    intro k b hg
    obtain ⟨bus, hbus, h1, h2, h3⟩ := bus_power hN v a.new
    refine ⟨bus, hbus, ?_⟩
    have := (Power.C41_node_meaning k bus b a.new (fun _ => 0)).1
    rw [h1, h2, h3] at this
    have hlen : (N.nodeRange v).2 = (N.nodeRange v).1 + nodeNeed (N.node v).kind := N.range_length (.inl v)
    have e1 : (∀ r ∈ N.rows (.inl v), run (fun _ => 0) (Power.busEvaluate k bus b a.new) r = 0) ↔
        run (fun _ => 0) (Power.busEvaluate k bus b a.new) (N.nodeRange v).1 = 0 ∧
          run (fun _ => 0) (Power.busEvaluate k bus b a.new) ((N.nodeRange v).1 + 1) = 0 := by
      have hp := not_isGas_power hg
      simp only [nodeNeed, hp, if_true] at hlen
      simp only [Net.rows, hg, Bool.false_eq_true, if_false, Set.mem_ofPred_eq]
      constructor
      · intro h
        refine ⟨h _ ⟨le_rfl, ?_⟩, h _ ⟨?_, ?_⟩⟩
        · show _ < (N.nodeRange v).2; push_cast at hlen; omega
        · show (N.nodeRange v).1 ≤ _; omega
        · show _ < (N.nodeRange v).2; push_cast at hlen; omega
      · rintro ⟨h, h'⟩ r ⟨r1, r2⟩
        change (N.nodeRange v).1 ≤ r at r1
        change r < (N.nodeRange v).2 at r2
        push_cast at hlen
        have : r = (N.nodeRange v).1 ∨ r = (N.nodeRange v).1 + 1 := by omega
        rcases this with rfl | rfl <;> assumption
    rw [e1, this]
    cases k <;> rfl
  unfold Net.nodeEvaluate NodeLaw
  cases hk : (N.node v).kind with
  | innode =>
    have hv : (N.node v).kind.isGas := by rw [hk]; rfl
    by_cases hne : N.ends v = []
    · refine ⟨[], by simp only [hne]; rfl, ⟨fun _ => ⟨⟨0, by simp [hne]⟩, fun h => absurd hne h⟩, fun _ => hempty hv hne⟩⟩
    · obtain ⟨ops, ho, h⟩ := flow_law hN hv a.new 0 hne
      refine ⟨ops, ho, h.trans ?_⟩
      simp [hne]
  | flow =>
    have hv : (N.node v).kind.isGas := by rw [hk]; rfl
    obtain ⟨b, hb⟩ := hb (by rw [hk]; simp)
    by_cases hne : N.ends v = []
    · refine ⟨[], by simp [hne], ⟨fun _ => ⟨⟨0, by simp [hne]⟩, fun h => absurd hne h⟩, fun _ => hempty hv hne⟩⟩
    · obtain ⟨ops, ho, h⟩ := flow_law hN hv a.new b.1 hne
      refine ⟨ops, by simp only [List.isEmpty_iff, hne, if_false, hb, Res.ok_bind, ho], h.trans ?_⟩
      simp [hne, hb]
  | pressure =>
    have hv : (N.node v).kind.isGas := by rw [hk]; rfl
    obtain ⟨b, hb⟩ := hb (by rw [hk]; simp)
    by_cases hne : N.ends v = []
    · exact ⟨[], by simp [hne], ⟨fun _ => by simp [hne], fun _ => hempty hv hne⟩⟩
    · obtain ⟨ops, ho, h⟩ := Gas.C35_pressure_node (N.ends v) a.new b.1 (hN.ends_usable hv) (hN.ends_rows v)
      refine ⟨ops, by simp only [List.isEmpty_iff, hne, if_false, hb, Res.ok_bind, ho], ?_⟩
      have e1 : (∀ r ∈ N.rows (.inl v), run (fun _ => 0) ops r = 0) ↔
          ∀ x ∈ N.ends v, run (fun _ => 0) ops (Gas.rowOf x) = 0 := by
        simp only [Net.rows, hv, if_true, Set.mem_ofPred_eq]
        constructor
        · intro h x hx; exact h _ ⟨x, hx, rfl⟩
        · rintro h r ⟨x, hx, rfl⟩; exact h x hx
      rw [e1, (h _).2.1]
      simp [hb]
  | power k =>
    have hg : (N.node v).kind.isGas = false := by rw [hk]; rfl
    obtain ⟨b, hb⟩ := hb (by rw [hk]; simp)
    obtain ⟨bus, hbus, h⟩ := hpower k b hg
    refine ⟨_, by simp only [hbus, hb, Res.ok_bind], h.trans ?_⟩
    cases k <;> simp [hb]
  | plant =>
    have hg : (N.node v).kind.isGas = false := by rw [hk]; rfl
    obtain ⟨b, hb⟩ := hb (by rw [hk]; simp)
    obtain ⟨bus, hbus, h⟩ := hpower .vphi b hg
    refine ⟨_, by simp only [hbus, hb, Res.ok_bind], h.trans ?_⟩
    simp [hb]

/-- What the equations of an edge say. -/
def EdgeLaw (N : Net) (k : Fin N.edges) (lastTime newTime : ℝ) (a : Args) : Prop :=
  match N.edge k with
  | .line _ _ => True
  | .gas (.pipe dx d r) n => ∀ j : ℕ, j + 1 < n → Box.evaluatePoint (Box.eulerLaw d r) lastTime newTime dx
      (Net.segment a.last ((N.edgeRange k).1 + 2 * j)) (Net.segment a.last ((N.edgeRange k).1 + 2 * (j + 1)))
      (Net.segment a.new ((N.edgeRange k).1 + 2 * j)) (Net.segment a.new ((N.edgeRange k).1 + 2 * (j + 1))) = Res.ok 0
  | .gas (.gaspower g p) _ => Power.generated ⟨g, p⟩ (N.startFlow k a.new) = Res.ok (N.active (N.dst k) a.new)
  | .gas kind _ => N.endPressure k a.new = N.startPressure k a.new + Gas.demandedRise kind (a.control (N.controlRange k).1) ∧
      N.startFlow k a.new = N.endFlow k a.new

theorem edge_law (k : Fin N.edges) (lastTime newTime : ℝ)
    (hp : ∀ dx d r n, N.edge k = .gas (.pipe dx d r) n → dx ≠ 0 ∧ Euler.RealPipe d r) (a : Args) :
    ∃ ops, N.edgeEvaluate k lastTime newTime a = Res.ok ops ∧
      ((∀ r ∈ N.rows (.inr k), run (fun _ => 0) ops r = 0) ↔ EdgeLaw N k lastTime newTime a) := by
  have hlen := Admissible.edgeRange_length (k := k)
  unfold EdgeLaw
  cases hk : N.edge k with
  | line G B =>
    have h0 : N.gasEdge k = none := by simp [Net.gasEdge, hk]
    exact ⟨[], by simp [Net.edgeEvaluate, h0], by simp⟩
  | gas kind n =>
    have hg : N.gasEdge k = some ⟨k.val, kind, (N.edgeRange k).1, (N.edgeRange k).2, (N.controlRange k).1⟩ :=
      Admissible.gasEdge_eq.mpr ⟨kind, n, hk, rfl⟩
    have hrows : N.rows (.inr k) = Net.edgeRows (N.edgeRange k) (.gas kind n) := by
      show Net.edgeRows (N.edgeRange k) (N.edge k) = _
      rw [hk]
    rw [hk] at hlen
    have hshort : kind.isShort → ∃ ops, N.edgeEvaluate k lastTime newTime a = Res.ok ops ∧
        ((∀ r ∈ N.rows (.inr k), run (fun _ => 0) ops r = 0) ↔
          N.endPressure k a.new = N.startPressure k a.new + Gas.demandedRise kind (a.control (N.controlRange k).1) ∧
          N.startFlow k a.new = N.endFlow k a.new) := by
      intro hs
      have h4 : edgeNeed (.gas kind n) = 4 := by cases kind <;> first | rfl | exact hs.elim
      rw [h4] at hlen
      obtain ⟨ops, ho, h⟩ := Gas.C37_meaning ⟨k.val, kind, (N.edgeRange k).1, (N.edgeRange k).2,
        (N.controlRange k).1⟩ (by unfold Gas.Short; simp only; omega) hs lastTime newTime a
      refine ⟨ops, ?_, ?_⟩
      · unfold Net.edgeEvaluate
        simp only [hg]
        cases kind <;> first | exact hs.elim | exact ho
      · have h1 := (h (fun _ => 0)).1
        obtain ⟨e1, e2⟩ := end_pressure hk a.new
        rw [e1, e2] at h1
        have e3 : Gas.flowAt a.new (.stop, ⟨k.val, kind, (N.edgeRange k).1, (N.edgeRange k).2,
            (N.controlRange k).1⟩) = N.endFlow k a.new := by
          show a.new ((N.edgeRange k).2 - 2 + 1) = a.new ((N.edgeRange k).2 - 1)
          congr 1; ring
        rw [e3] at h1
        refine Iff.trans ?_ h1
        rw [hrows]
        have hmem : ∀ r, r ∈ Net.edgeRows (N.edgeRange k) (.gas kind n) ↔
            r = (N.edgeRange k).1 + 1 ∨ r = (N.edgeRange k).1 + 2 := by
          intro r
          cases kind <;> first
            | exact hs.elim
            | (simp only [Net.edgeRows, Set.mem_ofPred_eq]; push_cast at hlen; omega)
        constructor
        · intro h; exact ⟨h _ ((hmem _).mpr (Or.inl rfl)), h _ ((hmem _).mpr (Or.inr rfl))⟩
        · rintro ⟨h, h'⟩ r hr
          rcases (hmem r).mp hr with rfl | rfl <;> assumption
    cases kind with
    | shortpipe => exact hshort trivial
    | controlvalve => exact hshort trivial
    | compressor => exact hshort trivial
    | gaspower g p =>
      have hplant := hN.plantEnd k g p n hk
      obtain ⟨b, hb, -, hact, -⟩ := bus_power hN (N.dst k) a.new
      refine ⟨[.set ((N.edgeRange k).1 + 1) (Power.activePower b a.new -
        Power.gen ⟨g, p⟩ (a.new ((N.edgeRange k).1 + 1)))], ?_, ?_⟩
      · unfold Net.edgeEvaluate
        simp only [hg, hplant, hb, if_true, Res.ok_bind, Power.connectionEvaluate, Power.generated_eq]
      · rw [hrows]
        simp only [Net.edgeRows, Set.mem_singleton_iff, forall_eq, run_cons, run_nil, Op.apply, Function.update_self,
          Power.generated_eq, (Power.C41_power b a.new).1, hact, Res.ok.injEq, sub_eq_zero, Net.startFlow]
        exact eq_comm
    | pipe dx d r =>
      simp only [edgeNeed] at hlen
      have hn := hN.points k dx d r n hk
      obtain ⟨hdx, hpipe⟩ := hp dx d r n hk
      have hpoints : Gas.HasPoints ⟨k.val, .pipe dx d r, (N.edgeRange k).1, (N.edgeRange k).2,
        (N.controlRange k).1⟩ n := by unfold Gas.HasPoints; simp only; omega
      have hex : ∀ i : ℤ, ∃ v, Box.evaluatePoint (Box.eulerLaw d r) lastTime newTime dx (Net.segment a.last (i - 1))
          (Net.segment a.last (i + 1)) (Net.segment a.new (i - 1)) (Net.segment a.new (i + 1)) = Res.ok v := by
        intro i
        have hs : ∀ y, (Box.eulerLaw d r).source y = Res.ok _ := fun y => Euler.C34_source_defined hpipe y
        exact ⟨_, by unfold Box.evaluatePoint; rw [hs, hs, Res.ok_bind, Res.ok_bind]⟩
      choose f hf using hex
      have ho : Gas.edgeEvaluate ⟨k.val, .pipe dx d r, (N.edgeRange k).1, (N.edgeRange k).2, (N.controlRange k).1⟩
          lastTime newTime a = Res.ok ((Gas.cells ⟨k.val, .pipe dx d r, (N.edgeRange k).1, (N.edgeRange k).2,
            (N.controlRange k).1⟩).flatMap fun i => [.set i (f i).1, .set (i + 1) (f i).2]) := by
        unfold Gas.edgeEvaluate
        refine forEach_ok fun i _ => ?_
        unfold Gas.cellEvaluate
        rw [hf, Res.ok_bind]
      refine ⟨_, by unfold Net.edgeEvaluate; simp only [hg]; exact ho, ?_⟩
      rw [Gas.cells_eq hpoints, List.flatMap_map, hrows]
      have hrun : ∀ j : ℕ, j + 1 < n → ∀ e : ℤ, e = 0 ∨ e = 1 →
          run (fun _ => 0) ((List.range (n - 1)).flatMap fun j : ℕ =>
            [Op.set ((N.edgeRange k).1 + 1 + 2 * (j : ℤ)) (f ((N.edgeRange k).1 + 1 + 2 * (j : ℤ))).1,
              Op.set ((N.edgeRange k).1 + 1 + 2 * (j : ℤ) + 1) (f ((N.edgeRange k).1 + 1 + 2 * (j : ℤ))).2])
            ((N.edgeRange k).1 + 1 + 2 * (j : ℤ) + e) =
          if e = 0 then (f ((N.edgeRange k).1 + 1 + 2 * (j : ℤ))).1 else (f ((N.edgeRange k).1 + 1 + 2 * (j : ℤ))).2 := by
        intro j hj e he
        rw [run_flatMap_single (x := j) (by simp; omega) (w := fun _ => 0)]
        · rcases he with rfl | rfl
          · simp only [run_cons, run_nil, Op.apply, add_zero, if_true]
            rw [Function.update_of_ne (by omega), Function.update_self]
          · simp only [run_cons, run_nil, Op.apply, one_ne_zero, if_false]
            rw [Function.update_self]
        · intro y _ hy o ho
          simp only [List.mem_cons, List.not_mem_nil, or_false] at ho
          rcases ho with rfl | rfl <;> simp only [Op.row] <;> omega
        · intro v w
          rcases he with rfl | rfl
          · simp only [run_cons, run_nil, Op.apply, add_zero]
            rw [Function.update_of_ne (by omega), Function.update_self, Function.update_of_ne (by omega),
              Function.update_self]
          · simp only [run_cons, run_nil, Op.apply]
            rw [Function.update_self, Function.update_self]
      have hcell : ∀ j : ℕ, Box.evaluatePoint (Box.eulerLaw d r) lastTime newTime dx
          (Net.segment a.last ((N.edgeRange k).1 + 2 * j)) (Net.segment a.last ((N.edgeRange k).1 + 2 * (j + 1)))
          (Net.segment a.new ((N.edgeRange k).1 + 2 * j)) (Net.segment a.new ((N.edgeRange k).1 + 2 * (j + 1))) =
            Res.ok (f ((N.edgeRange k).1 + 1 + 2 * (j : ℤ))) := by
        intro j
        rw [← hf]
        congr 2 <;> ring
      constructor
      · intro h j hj
        rw [hcell]
        congr 1
        have h0 := h ((N.edgeRange k).1 + 1 + 2 * (j : ℤ) + 0) (by
          simp only [Net.edgeRows, Set.mem_ofPred_eq]; push_cast at hlen; omega)
        have h1 := h ((N.edgeRange k).1 + 1 + 2 * (j : ℤ) + 1) (by
          simp only [Net.edgeRows, Set.mem_ofPred_eq]; push_cast at hlen; omega)
        rw [hrun j hj 0 (Or.inl rfl), if_pos rfl] at h0
        rw [hrun j hj 1 (Or.inr rfl), if_neg one_ne_zero] at h1
        exact Prod.ext h0 h1
      · intro h q hq
        simp only [Net.edgeRows, Set.mem_ofPred_eq] at hq
        obtain ⟨j, e, hj, he, rfl⟩ : ∃ (j : ℕ) (e : ℤ), j + 1 < n ∧ (e = 0 ∨ e = 1) ∧
            q = (N.edgeRange k).1 + 1 + 2 * (j : ℤ) + e := by
          refine ⟨((q - (N.edgeRange k).1 - 1) / 2).toNat, (q - (N.edgeRange k).1 - 1) % 2, ?_, ?_, ?_⟩ <;>
            push_cast at hlen <;> omega
        have h0 := h j hj
        rw [hcell] at h0
        injection h0 with h0
        rw [hrun j hj e he, h0]
        rcases he with rfl | rfl <;> simp

/-- All components together say what `Laws` says. -/
theorem laws_iff {lastTime newTime : ℝ} (hc : Computable N newTime) (a : Args) :
    ((∀ v, NodeLaw N v newTime a.new) ∧ ∀ k, EdgeLaw N k lastTime newTime a) ↔ Laws N lastTime newTime a := by
  constructor
  · rintro ⟨hv, he⟩
    have hP : ∀ v, (N.node v).kind.isGas → ∃ P, (∀ x ∈ N.ends v, Gas.pressureAt a.new x = P) ∧
        ((N.node v).kind = .pressure → ∀ b, (N.node v).boundary newTime = Res.ok b → P = b.1) := by
      intro v hg
      have := hv v
      unfold NodeLaw at this
      cases hk : (N.node v).kind with
      | innode => simp only [hk] at this; obtain ⟨⟨P, hP⟩, -⟩ := this; exact ⟨P, hP, by simp⟩
      | flow => simp only [hk] at this; obtain ⟨⟨P, hP⟩, -⟩ := this; exact ⟨P, hP, by simp⟩
      | pressure =>
        simp only [hk] at this
        obtain ⟨b, hb⟩ := hc.boundary v (by rw [hk]; simp)
        refine ⟨b.1, this b hb, fun _ b' hb' => ?_⟩
        rw [hb] at hb'; injection hb' with hb'; rw [hb']
      | power k => rw [hk] at hg; simp [NodeKind.isGas] at hg
      | plant => rw [hk] at hg; simp [NodeKind.isGas] at hg
    refine ⟨?_, ?_, ?_, ?_, ?_, ?_⟩
    · classical
      refine ⟨fun v => if h : (N.node v).kind.isGas then (hP v h).choose else 0, fun k hk => ?_, ?_⟩
      · obtain ⟨kind, n, hkk⟩ := isGas_iff.mp hk
        have hs := hN.gasStart k kind n hkk
        refine ⟨?_, fun hd => ?_⟩
        · beta_reduce; rw [dif_pos hs]
          exact ((ends_pressure hN _ _ _).mp (hP _ hs).choose_spec.1 k hk).1 rfl
        · beta_reduce; rw [dif_pos hd]
          exact ((ends_pressure hN _ _ _).mp (hP _ hd).choose_spec.1 k hk).2 rfl
      · intro v b hk hb
        have hg : (N.node v).kind.isGas := by rw [hk]; rfl
        beta_reduce; rw [dif_pos hg]
        exact (hP v hg).choose_spec.2 hk b hb
    · intro v hne
      rw [← ends_empty hN] at hne
      have := hv v
      unfold NodeLaw at this
      constructor
      · intro hk
        simp only [hk] at this
        exact this.2 hne
      · intro hk
        simp only [hk] at this
        exact this.2 hne
    · intro k kind n hk hs
      have := he k
      unfold EdgeLaw at this
      rw [hk] at this
      cases kind <;> first | exact hs.elim | exact this
    · intro k dx d r n hk
      have := he k
      unfold EdgeLaw at this
      rw [hk] at this
      exact this
    · intro v b hb
      have := hv v
      unfold NodeLaw at this
      cases hk : (N.node v).kind with
      | power p => cases p <;> simp only [hk] at this <;> exact this b hb
      | plant => simp only [hk] at this; exact this b hb
      | _ => trivial
    · intro k g p n hk
      have := he k
      unfold EdgeLaw at this
      rw [hk] at this
      exact this
  · intro h
    obtain ⟨P, hP, hPb⟩ := h.pressures
    have hall : ∀ v, (N.node v).kind.isGas → ∀ x ∈ N.ends v, Gas.pressureAt a.new x = P v := by
      intro v hg
      rw [ends_pressure hN]
      rintro k hk
      refine ⟨?_, ?_⟩
      · rintro rfl; exact (hP k hk).1
      · rintro rfl; exact (hP k hk).2 hg
    refine ⟨fun v => ?_, fun k => ?_⟩
    · unfold NodeLaw
      cases hk : (N.node v).kind with
      | innode =>
        exact ⟨⟨_, hall v (by rw [hk]; rfl)⟩, fun hne => (h.flows v ((ends_empty hN v).mp hne)).1 hk⟩
      | flow =>
        exact ⟨⟨_, hall v (by rw [hk]; rfl)⟩, fun hne => (h.flows v ((ends_empty hN v).mp hne)).2 hk⟩
      | pressure =>
        intro b hb
        rw [← hPb v b hk hb]
        exact hall v (by rw [hk]; rfl)
      | power p => cases p <;> (intro b hb; have := h.grid v b hb; simp only [hk] at this; exact this)
      | plant => intro b hb; have := h.grid v b hb; simp only [hk] at this; exact this
    · unfold EdgeLaw
      cases hk : N.edge k with
      | line G B => trivial
      | gas kind n =>
        cases kind with
        | pipe dx d r => exact h.pipes k dx d r n hk
        | gaspower g p => exact h.plants k g p n hk
        | _ => exact h.short k _ n hk trivial

end

/-- C72. In every admissible network whose boundary values and pipes are usable, the residual is computed, and it
vanishes if and only if the new state obeys all laws: one pressure at every gas node, the prescribed ones at
pressure nodes, Kirchhoff's law, the pressure changes of short components, the isothermal Euler equations in
pipes, the power flow equations, and the generation of the plants. -/
theorem C72_residual_iff_laws (N : Net) (hN : Admissible N) (lastTime newTime : ℝ) (hc : Computable N newTime)
    (z : N.Point) :
    ∃ residual, N.residual lastTime newTime z = Res.ok residual ∧
      (residual = 0 ↔ Laws N lastTime newTime (N.args z)) := by
  choose f hf hfl using fun v => node_law hN v (hc.boundary v) (N.args z)
  choose g hg hgl using fun k => edge_law hN k lastTime newTime (hc.pipes k) (N.args z)
  obtain ⟨ops, ho, hrun⟩ := component_residual hN (lastTime := lastTime) (newTime := newTime) (a := N.args z)
    (X := fun c => match c with | .inl v => f v | .inr k => g k) (fun c => by cases c; exacts [hf _, hg _])
  refine ⟨fun i => run (fun _ => 0) ops i.val, by unfold Net.residual; rw [ho, Res.ok_bind], ?_⟩
  rw [← laws_iff hN hc]
  have hcover : ∀ r : ℤ, 0 ≤ r ∧ r < N.states ↔ ∃ c, r ∈ N.rows c := fun r => hN.rows_cover
  constructor
  · intro h
    have hz : ∀ c, ∀ r ∈ N.rows c, run (fun _ => 0) ops r = 0 := by
      intro c r hr
      obtain ⟨h0, h1⟩ := (hcover r).mpr ⟨c, hr⟩
      have := congrFun h ⟨r.toNat, by unfold Net.stateCount; omega⟩
      simpa [Int.toNat_of_nonneg h0] using this
    refine ⟨fun v => (hfl v).mp fun r hr => ?_, fun k => (hgl k).mp fun r hr => ?_⟩
    · rw [← hrun (.inl v) r hr (fun _ => 0)]; exact hz _ r hr
    · rw [← hrun (.inr k) r hr (fun _ => 0)]; exact hz _ r hr
  · rintro ⟨h1, h2⟩
    funext i
    have hi : (0 : ℤ) ≤ i.val ∧ (i.val : ℤ) < N.states := by
      have := i.isLt
      unfold Net.stateCount at this
      omega
    obtain ⟨c, hr⟩ := (hcover _).mp hi
    show run (fun _ => 0) ops i.val = 0
    rw [hrun c _ hr _ (fun _ => 0)]
    cases c with
    | inl v => exact (hfl v).mpr (h1 v) _ hr
    | inr k => exact (hgl k).mpr (h2 k) _ hr

end Verif.Network
