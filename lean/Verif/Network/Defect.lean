import Verif.Network.Conserve

/-!
# Property C83: an inexactly solved network obeys all laws up to the tolerance

The Newton solver stops as soon as the residual is small, not when it vanishes. If no entry of the residual exceeds
`ε`, every law of `Laws` holds up to a multiple of `ε` that depends on the shape of the network only.
-/

set_option autoImplicit false

namespace Verif.Network

open Verif.Net Real

/-! ## Specification -/

/-- The number of ends of gas edges at a node. -/
noncomputable def Net.degree (N : Net) (v : Fin N.nodes) : ℕ :=
  (∑ k, if N.src k = v then (if (N.edge k).isGas then 1 else 0) else 0) +
  ∑ k, if N.dst k = v then (if (N.edge k).isGas then 1 else 0) else 0

/-- The laws of `Laws`, up to an error of `ε` in each equation. -/
structure LawsWithin (N : Net) (ε lastTime newTime : ℝ) (a : Args) : Prop where
  /-- At a gas node with `m` ends of edges all of them have the same pressure up to `(m - 1) ε`. -/
  pressures : ∃ P : Fin N.nodes → ℝ,
    (∀ k, (N.edge k).isGas → |N.startPressure k a.new - P (N.src k)| ≤ (N.degree (N.src k) - 1) * ε ∧
      ((N.node (N.dst k)).kind.isGas → |N.endPressure k a.new - P (N.dst k)| ≤ (N.degree (N.dst k) - 1) * ε))
  /-- At pressure nodes all ends have the prescribed pressure up to `ε`. -/
  prescribed : ∀ v b, (N.node v).kind = .pressure → (N.node v).boundary newTime = Res.ok b →
    ∀ k, (N.edge k).isGas → (N.src k = v → |N.startPressure k a.new - b.1| ≤ ε) ∧
      (N.dst k = v → |N.endPressure k a.new - b.1| ≤ ε)
  /-- Kirchhoff's law. -/
  flows : ∀ v, (∃ k, (N.edge k).isGas ∧ (N.src k = v ∨ N.dst k = v)) →
    ((N.node v).kind = .innode → |N.outflow v a.new| ≤ ε) ∧
    ((N.node v).kind = .flow → ∀ b, (N.node v).boundary newTime = Res.ok b → |N.outflow v a.new - b.1| ≤ ε)
  /-- Short pipes, compressors and control valves. -/
  short : ∀ k kind n, N.edge k = .gas kind n → kind.isShort →
    |N.endPressure k a.new - (N.startPressure k a.new + Gas.demandedRise kind (a.control (N.controlRange k).1))| ≤ ε ∧
    |N.startFlow k a.new - N.endFlow k a.new| ≤ ε
  /-- The box scheme in every cell of every pipe. -/
  pipes : ∀ k dx d r n, N.edge k = .gas (.pipe dx d r) n → ∀ j : ℕ, j + 1 < n → ∃ w : ℝ × ℝ,
    Box.evaluatePoint (Box.eulerLaw d r) lastTime newTime dx
      (Net.segment a.last ((N.edgeRange k).1 + 2 * j)) (Net.segment a.last ((N.edgeRange k).1 + 2 * (j + 1)))
      (Net.segment a.new ((N.edgeRange k).1 + 2 * j)) (Net.segment a.new ((N.edgeRange k).1 + 2 * (j + 1))) =
      Res.ok w ∧ |w.1| ≤ ε ∧ |w.2| ≤ ε
  /-- The power flow equations. -/
  grid : ∀ v b, (N.node v).boundary newTime = Res.ok b →
    match (N.node v).kind with
    | .power .pq => |N.active v a.new - b.1| ≤ ε ∧ |N.reactive v a.new - b.2| ≤ ε
    | .power .pv => |N.active v a.new - b.1| ≤ ε ∧ |N.voltage a.new v - b.2| ≤ ε
    | .power .vphi | .plant => |N.voltage a.new v - b.1| ≤ ε ∧ |N.angle a.new v - b.2| ≤ ε
    | _ => True
  /-- The power of a plant is generated from the gas it takes. -/
  plants : ∀ k g p n, N.edge k = .gas (.gaspower g p) n → ∃ power,
    Power.generated ⟨g, p⟩ (N.startFlow k a.new) = Res.ok power ∧ |N.active (N.dst k) a.new - power| ≤ ε

/-! ## Nodes -/

/-- If the successive differences are small, all pressures are close to the first. -/
theorem pressures_close {p : Gas.End → ℝ} {ε : ℝ} (hε : 0 ≤ ε) :
    ∀ (rest : List Gas.End) (x : Gas.End), ((x :: rest).map Gas.rowOf).Nodup →
      (∀ y ∈ x :: rest, Gas.rowOf y ≠ Gas.rowOf ((x :: rest).getLast (by simp)) →
        |Gas.pressures Gas.rowOf p (Gas.rowOf x) (p x) rest (Gas.rowOf y)| ≤ ε) →
      ∀ y ∈ x :: rest, |p y - p x| ≤ rest.length * ε
  | [], x, _, _ => by
    intro y hy
    obtain rfl : y = x := by simpa using hy
    simp
  | z :: rest, x, hn, h => by
    have hn' : ((z :: rest).map Gas.rowOf).Nodup := (List.nodup_cons.mp hn).2
    have hx : ∀ y ∈ z :: rest, Gas.rowOf x ≠ Gas.rowOf y := by
      intro y hy e
      exact (List.nodup_cons.mp hn).1 (e ▸ List.mem_map_of_mem hy)
    have hlast : (x :: z :: rest).getLast (by simp) = (z :: rest).getLast (by simp) := by simp
    have h0 : |p z - p x| ≤ ε := by
      have := h x (by simp) (by rw [hlast]; exact hx _ (List.getLast_mem _))
      rw [Gas.pressures, if_pos rfl, Gas.pressures_eq_zero (hx z (by simp)).symm
        (fun y hy => (hx y (by simp [hy])).symm), add_zero] at this
      exact this
    have ih := pressures_close hε rest z hn' (fun y hy hne => by
      have := h y (by simp [List.mem_cons.mp hy]) (by rw [hlast]; exact hne)
      rw [Gas.pressures, if_neg (hx y hy), zero_add] at this
      exact this)
    intro y hy
    rcases List.mem_cons.mp hy with rfl | hy
    · simp only [sub_self, abs_zero]; positivity
    · have h1 := ih y hy
      have h2 := abs_add_le (p y - p z) (p z - p x)
      have e : p y - p z + (p z - p x) = p y - p x := by ring
      rw [e] at h2
      push_cast [List.length_cons]
      nlinarith

section
variable {N : Net} (hN : Admissible N)
include hN

theorem degree_eq (v : Fin N.nodes) : (N.ends v).length = N.degree v := by
  have key : ∀ (l : List (Fin N.edges)) (dir : Gas.Dir),
      (l.filterMap fun k => (N.gasEdge k).map fun e => (dir, e)).length =
      (l.map fun k => if (N.edge k).isGas then 1 else 0).sum := by
    intro l dir
    induction l with
    | nil => rfl
    | cons k l ih =>
      rw [List.map_cons, List.sum_cons, ← ih]
      cases hk : N.edge k with
      | line G B =>
        rw [List.filterMap_cons_none (by simp [Net.gasEdge, hk])]
        simp [EdgeKind.isGas]
      | gas kind n =>
        have hg := Admissible.gasEdge_eq (N := N) (k := k) |>.mpr ⟨kind, n, hk, rfl⟩
        rw [List.filterMap_cons_some (b := (dir, ⟨k.val, kind, (N.edgeRange k).1, (N.edgeRange k).2,
          (N.controlRange k).1⟩)) (by simp [hg])]
        simp [EdgeKind.isGas, Nat.add_comm]
  have key2 : ∀ (l : List (Fin N.edges)) (e : Fin N.edges → Fin N.nodes) (g : Fin N.edges → ℕ), l.Nodup →
      (∀ k, k ∈ l ↔ e k = v) → (l.map g).sum = ∑ k, if e k = v then g k else 0 := by
    intro l e g hl he
    rw [← List.sum_toFinset g hl, ← Finset.sum_filter]
    refine Finset.sum_congr ?_ fun _ _ => rfl
    ext k
    simp [he]
  unfold Net.ends Net.degree
  rw [List.length_append, key, key, key2 _ N.src _ (hN.starting v).1 (hN.starting v).2,
    key2 _ N.dst _ (hN.ending v).1 (hN.ending v).2]

/-- A statement about all ends at a node. -/
theorem ends_all (v : Fin N.nodes) (state : Vec) (Q : ℝ → Prop) (h : ∀ x ∈ N.ends v, Q (Gas.pressureAt state x)) :
    ∀ k, (N.edge k).isGas → (N.src k = v → Q (N.startPressure k state)) ∧ (N.dst k = v → Q (N.endPressure k state)) := by
  intro k hk
  obtain ⟨kind, n, hk⟩ := isGas_iff.mp hk
  obtain ⟨e1, e2⟩ := end_pressure hk state
  have hg := Admissible.gasEdge_eq.mpr ⟨kind, n, hk, rfl⟩
  refine ⟨fun hv => ?_, fun hv => ?_⟩
  · rw [← e1]; exact h _ (hN.mem_ends.mpr ⟨k, _, hg, Or.inl ⟨hv, rfl⟩⟩)
  · rw [← e2]; exact h _ (hN.mem_ends.mpr ⟨k, _, hg, Or.inr ⟨hv, rfl⟩⟩)

/-- The equations of a node up to an error. -/
def NodeWithin (N : Net) (v : Fin N.nodes) (ε newTime : ℝ) (state : Vec) : Prop :=
  ((N.node v).kind.isGas → N.ends v ≠ [] →
    ∃ P, ∀ x ∈ N.ends v, |Gas.pressureAt state x - P| ≤ (N.degree v - 1) * ε) ∧
  match (N.node v).kind with
  | .innode => N.ends v ≠ [] → |N.outflow v state| ≤ ε
  | .flow => N.ends v ≠ [] → ∀ b, (N.node v).boundary newTime = Res.ok b → |N.outflow v state - b.1| ≤ ε
  | .pressure => ∀ b, (N.node v).boundary newTime = Res.ok b → ∀ x ∈ N.ends v, |Gas.pressureAt state x - b.1| ≤ ε
  | .power .pq => ∀ b, (N.node v).boundary newTime = Res.ok b →
      |N.active v state - b.1| ≤ ε ∧ |N.reactive v state - b.2| ≤ ε
  | .power .pv => ∀ b, (N.node v).boundary newTime = Res.ok b →
      |N.active v state - b.1| ≤ ε ∧ |N.voltage state v - b.2| ≤ ε
  | .power .vphi | .plant => ∀ b, (N.node v).boundary newTime = Res.ok b →
      |N.voltage state v - b.1| ≤ ε ∧ |N.angle state v - b.2| ≤ ε

/-- An inner node, a source or a sink. -/
theorem flow_within {v : Fin N.nodes} (hv : (N.node v).kind.isGas) (state : Vec) (prescribed : ℝ)
    (hne : N.ends v ≠ []) {ε : ℝ} (hε : 0 ≤ ε) :
    ∃ ops, Gas.flowBalance (N.ends v) state prescribed = Res.ok ops ∧
      ((∀ r ∈ N.rows (.inl v), |run (fun _ => 0) ops r| ≤ ε) →
        (∃ P, ∀ x ∈ N.ends v, |Gas.pressureAt state x - P| ≤ (N.degree v - 1) * ε) ∧
          |N.outflow v state - prescribed| ≤ ε) := by
  have hsum := ends_sum hN v state
  have hdeg := degree_eq hN v
  have hu := hN.ends_usable hv
  have hn := hN.ends_rows v
  have hrows : ∀ x ∈ N.ends v, Gas.rowOf x ∈ N.rows (.inl v) := by
    intro x hx
    simp only [Net.rows, hv, if_true, Set.mem_ofPred_eq]
    exact ⟨x, hx, rfl⟩
  obtain ⟨x, rest, hx⟩ := List.exists_cons_of_ne_nil hne
  rw [hx] at hsum hdeg hu hn hrows ⊢
  obtain ⟨ops, ho, -, hrun⟩ := Gas.flowBalance_spec x rest state prescribed hu hn
  refine ⟨ops, ho, fun h => ⟨⟨Gas.pressureAt state x, ?_⟩, ?_⟩⟩
  · have := pressures_close (p := Gas.pressureAt state) hε rest x hn (fun y hy hne => by
      have := h _ (hrows y hy)
      rw [hrun, if_neg hne, if_pos (List.mem_map_of_mem hy)] at this
      exact this)
    rw [← hdeg]
    push_cast [List.length_cons]
    simpa using this
  · have := h _ (hrows _ (List.getLast_mem (l := x :: rest) (by simp)))
    rw [hrun, if_pos rfl, hsum] at this
    rwa [show N.outflow v state - prescribed = -prescribed + N.outflow v state by ring]

/-- A node. -/
theorem node_within (v : Fin N.nodes) {newTime : ℝ}
    (hb : (N.node v).kind ≠ .innode → ∃ b, (N.node v).boundary newTime = Res.ok b) (a : Args) {ε : ℝ} (hε : 0 ≤ ε) :
    ∃ ops, N.nodeEvaluate v newTime a = Res.ok ops ∧
      ((∀ r ∈ N.rows (.inl v), |run (fun _ => 0) ops r| ≤ ε) → NodeWithin N v ε newTime a.new) := by
  have hpower : ∀ k : Power.Kind, ∀ b, (N.node v).kind.isGas = false →
      ∃ bus, N.bus v = Res.ok bus ∧
        ((∀ r ∈ N.rows (.inl v), |run (fun _ => 0) (Power.busEvaluate k bus b a.new) r| ≤ ε) →
        match k with
        | .pq => |N.active v a.new - b.1| ≤ ε ∧ |N.reactive v a.new - b.2| ≤ ε
        | .pv => |N.active v a.new - b.1| ≤ ε ∧ |N.voltage a.new v - b.2| ≤ ε
        | .vphi => |N.voltage a.new v - b.1| ≤ ε ∧ |N.angle a.new v - b.2| ≤ ε) := by
    intro k b hg
    obtain ⟨bus, hbus, h1, h2, h3⟩ := bus_power hN v a.new
    refine ⟨bus, hbus, fun h => ?_⟩
    have hlen : (N.nodeRange v).2 = (N.nodeRange v).1 + nodeNeed (N.node v).kind := N.range_length (.inl v)
    have hp := not_isGas_power hg
    simp only [nodeNeed, hp, if_true] at hlen
    simp only [Net.rows, hg, Bool.false_eq_true, if_false, Set.mem_ofPred_eq] at h
    have r0 := h bus.first ⟨by rw [h1]; exact le_rfl, by rw [h1]; show _ < (N.nodeRange v).2; push_cast at hlen; omega⟩
    have r1 := h (bus.first + 1) ⟨by rw [h1]; show (N.nodeRange v).1 ≤ _; omega,
      by rw [h1]; show _ < (N.nodeRange v).2; push_cast at hlen; omega⟩
    have hne : bus.first ≠ bus.first + 1 := by omega
    rw [← h2, ← h3]
    cases k <;>
    simp only [Power.busEvaluate, run_cons, run_nil, Op.apply, Function.update_self, Function.update_of_ne hne,
      (Power.C41_power bus a.new).1, (Power.C41_power bus a.new).2] at r0 r1
    · exact ⟨r0, r1⟩
    · rw [h1] at r1; exact ⟨r0, r1⟩
    · rw [h1] at r0 r1; exact ⟨r0, r1⟩
  unfold Net.nodeEvaluate NodeWithin
  cases hk : (N.node v).kind with
  | innode =>
    have hv : (N.node v).kind.isGas := by rw [hk]; rfl
    by_cases hne : N.ends v = []
    · exact ⟨[], by simp only [hne]; rfl, fun _ => ⟨fun _ h => absurd hne h, fun h => absurd hne h⟩⟩
    · obtain ⟨ops, ho, h⟩ := flow_within hN hv a.new 0 hne hε
      refine ⟨ops, ho, fun hr => ?_⟩
      have := h hr
      rw [sub_zero] at this
      exact ⟨fun _ _ => this.1, fun _ => this.2⟩
  | flow =>
    have hv : (N.node v).kind.isGas := by rw [hk]; rfl
    obtain ⟨b, hb⟩ := hb (by rw [hk]; simp)
    by_cases hne : N.ends v = []
    · exact ⟨[], by simp [hne], fun _ => ⟨fun _ h => absurd hne h, fun h => absurd hne h⟩⟩
    · obtain ⟨ops, ho, h⟩ := flow_within hN hv a.new b.1 hne hε
      refine ⟨ops, by simp only [List.isEmpty_iff, hne, if_false, hb, Res.ok_bind, ho], fun hr => ?_⟩
      refine ⟨fun _ _ => (h hr).1, fun _ b' hb' => ?_⟩
      rw [hb] at hb'; injection hb' with hb'; subst hb'
      exact (h hr).2
  | pressure =>
    have hv : (N.node v).kind.isGas := by rw [hk]; rfl
    obtain ⟨b, hb⟩ := hb (by rw [hk]; simp)
    by_cases hne : N.ends v = []
    · exact ⟨[], by simp [hne], fun _ => ⟨fun _ h => absurd hne h, fun b _ => by simp [hne]⟩⟩
    · obtain ⟨ops, ho, h⟩ := Gas.C35_pressure_node (N.ends v) a.new b.1 (hN.ends_usable hv) (hN.ends_rows v)
      refine ⟨ops, by simp only [List.isEmpty_iff, hne, if_false, hb, Res.ok_bind, ho], fun hr => ?_⟩
      have hall : ∀ x ∈ N.ends v, |Gas.pressureAt a.new x - b.1| ≤ ε := by
        intro x hx
        rw [← (h (fun _ => 0)).1 x hx]
        refine hr _ ?_
        simp only [Net.rows, hv, if_true, Set.mem_ofPred_eq]
        exact ⟨x, hx, rfl⟩
      refine ⟨fun _ _ => ?_, fun b' hb' => ?_⟩
      · have hdeg := degree_eq hN v
        obtain ⟨x, rest, hx⟩ := List.exists_cons_of_ne_nil hne
        rw [hx] at hdeg hall
        rw [← hdeg, hx]
        cases rest with
        | nil => exact ⟨Gas.pressureAt a.new x, fun y hy => by
            obtain rfl : y = x := by simpa using hy
            simp⟩
        | cons z rest =>
          refine ⟨b.1, fun y hy => (hall y hy).trans ?_⟩
          push_cast [List.length_cons]
          have : (0 : ℝ) ≤ rest.length := by positivity
          nlinarith
      · rw [hb] at hb'; injection hb' with hb'; subst hb'
        exact hall
  | power k =>
    have hg : (N.node v).kind.isGas = false := by rw [hk]; rfl
    obtain ⟨b, hb⟩ := hb (by rw [hk]; simp)
    obtain ⟨bus, hbus, h⟩ := hpower k b hg
    refine ⟨Power.busEvaluate k bus b a.new, by simp only [hbus, hb, Res.ok_bind], fun hr => ⟨fun h => (by cases h), ?_⟩⟩
    have := h hr
    cases k <;> simpa [hb] using this
  | plant =>
    have hg : (N.node v).kind.isGas = false := by rw [hk]; rfl
    obtain ⟨b, hb⟩ := hb (by rw [hk]; simp)
    obtain ⟨bus, hbus, h⟩ := hpower .vphi b hg
    refine ⟨Power.busEvaluate .vphi bus b a.new, by simp only [hbus, hb, Res.ok_bind], fun hr => ⟨fun h => (by cases h), ?_⟩⟩
    simpa [hb] using h hr

/-! ## Edges -/

omit hN in
/-- The values in the rows of a short component. -/
theorem short_values (e : Gas.Edge) (hs : Gas.Short e) (hk : e.kind.isShort) (lastTime newTime : ℝ) (a : Args) :
    ∃ ops, Gas.edgeEvaluate e lastTime newTime a = Res.ok ops ∧
      |run (fun _ => 0) ops (e.first + 1)| = |Gas.pressureAt a.new (.stop, e) -
        (Gas.pressureAt a.new (.start, e) + Gas.demandedRise e.kind (a.control e.control))| ∧
      |run (fun _ => 0) ops (e.first + 2)| = |Gas.flowAt a.new (.start, e) - Gas.flowAt a.new (.stop, e)| := by
  obtain ⟨h1, h2⟩ := Gas.short_states hs
  have hi : Gas.stateIndex (.stop, e) = e.first + 2 := by
    show e.after - 2 = e.first + 2
    unfold Gas.Short at hs; omega
  have hgen : ∀ x y : ℝ,
      run (fun _ => 0) [.set (Gas.equationStart e) x, .set (Gas.equationStart e + 1) y] (e.first + 1) = x ∧
      run (fun _ => 0) [.set (Gas.equationStart e) x, .set (Gas.equationStart e + 1) y] (e.first + 2) = y := by
    intro x y
    have e1 : Gas.equationStart e = e.first + 1 := rfl
    have e2 : Gas.equationStart e + 1 = e.first + 2 := by rw [e1]; ring
    simp only [run_cons, run_nil, Op.apply, e2]
    rw [e1]
    refine ⟨?_, ?_⟩
    · rw [Function.update_of_ne (by omega), Function.update_self]
    · rw [Function.update_self]
  cases hkind : e.kind with
  | pipe dx d k => rw [hkind] at hk; exact hk.elim
  | gaspower g q => rw [hkind] at hk; exact hk.elim
  | shortpipe =>
    refine ⟨_, by unfold Gas.edgeEvaluate; simp only [hkind, h1, h2, Res.ok_bind]; rfl, ?_⟩
    rw [(hgen _ _).1, (hgen _ _).2]
    simp only [Gas.pressureAt, hkind, Gas.flowAt, hi, Gas.demandedRise, Net.segment, Prod.fst_sub, Prod.snd_sub]
    simp only [Gas.stateIndex]
    exact ⟨by rw [abs_sub_comm, add_zero], trivial⟩
  | controlvalve =>
    refine ⟨_, by unfold Gas.edgeEvaluate; simp only [hkind, h1, h2, Res.ok_bind]; rfl, ?_⟩
    rw [(hgen _ _).1, (hgen _ _).2]
    simp only [Gas.pressureAt, hkind, Gas.flowAt, hi, Gas.demandedRise, Net.segment, Prod.fst_sub, Prod.snd_sub,
      Prod.fst_add, Prod.snd_add]
    simp only [Gas.stateIndex]
    refine ⟨by congr 1; ring, by rw [abs_sub_comm, add_zero, abs_sub_comm]⟩
  | compressor =>
    refine ⟨_, by unfold Gas.edgeEvaluate; simp only [hkind, h1, h2, Res.ok_bind]; rfl, ?_⟩
    rw [(hgen _ _).1, (hgen _ _).2]
    simp only [Gas.pressureAt, hkind, Gas.flowAt, hi, Gas.demandedRise, Net.segment, Prod.fst_sub, Prod.snd_sub]
    simp only [Gas.stateIndex]
    refine ⟨by congr 1; ring, by rw [sub_zero, abs_sub_comm]⟩

/-- The equations of an edge up to an error. -/
def EdgeWithin (N : Net) (k : Fin N.edges) (ε lastTime newTime : ℝ) (a : Args) : Prop :=
  match N.edge k with
  | .line _ _ => True
  | .gas (.pipe dx d r) n => ∀ j : ℕ, j + 1 < n → ∃ w : ℝ × ℝ, Box.evaluatePoint (Box.eulerLaw d r) lastTime newTime dx
      (Net.segment a.last ((N.edgeRange k).1 + 2 * j)) (Net.segment a.last ((N.edgeRange k).1 + 2 * (j + 1)))
      (Net.segment a.new ((N.edgeRange k).1 + 2 * j)) (Net.segment a.new ((N.edgeRange k).1 + 2 * (j + 1))) =
      Res.ok w ∧ |w.1| ≤ ε ∧ |w.2| ≤ ε
  | .gas (.gaspower g p) _ => ∃ power, Power.generated ⟨g, p⟩ (N.startFlow k a.new) = Res.ok power ∧
      |N.active (N.dst k) a.new - power| ≤ ε
  | .gas kind _ =>
      |N.endPressure k a.new - (N.startPressure k a.new + Gas.demandedRise kind (a.control (N.controlRange k).1))| ≤ ε ∧
      |N.startFlow k a.new - N.endFlow k a.new| ≤ ε

theorem edge_within (k : Fin N.edges) (lastTime newTime : ℝ)
    (hp : ∀ dx d r n, N.edge k = .gas (.pipe dx d r) n → dx ≠ 0 ∧ Euler.RealPipe d r) (a : Args) {ε : ℝ} :
    ∃ ops, N.edgeEvaluate k lastTime newTime a = Res.ok ops ∧
      ((∀ r ∈ N.rows (.inr k), |run (fun _ => 0) ops r| ≤ ε) → EdgeWithin N k ε lastTime newTime a) := by
  have hlen := Admissible.edgeRange_length (k := k)
  unfold EdgeWithin
  cases hk : N.edge k with
  | line G B =>
    have h0 : N.gasEdge k = none := by simp [Net.gasEdge, hk]
    exact ⟨[], by simp [Net.edgeEvaluate, h0], by simp⟩
  | gas kind n =>
    have hg : N.gasEdge k = some ⟨k.val, kind, (N.edgeRange k).1, (N.edgeRange k).2, (N.controlRange k).1⟩ :=
      Admissible.gasEdge_eq.mpr ⟨kind, n, hk, rfl⟩
    have hrows : N.rows (.inr k) = Net.edgeRows (N.edgeRange k) (.gas kind n) := by
      show Net.edgeRows (N.edgeRange k) (N.edge k) = _
      rw [hk]
    rw [hk] at hlen
    have hshort : kind.isShort → ∃ ops, N.edgeEvaluate k lastTime newTime a = Res.ok ops ∧
        ((∀ r ∈ N.rows (.inr k), |run (fun _ => 0) ops r| ≤ ε) →
          |N.endPressure k a.new - (N.startPressure k a.new +
            Gas.demandedRise kind (a.control (N.controlRange k).1))| ≤ ε ∧
          |N.startFlow k a.new - N.endFlow k a.new| ≤ ε) := by
      intro hs
      have h4 : edgeNeed (.gas kind n) = 4 := by cases kind <;> first | rfl | exact hs.elim
      rw [h4] at hlen
      obtain ⟨ops, ho, h, h'⟩ := short_values ⟨k.val, kind, (N.edgeRange k).1, (N.edgeRange k).2,
        (N.controlRange k).1⟩ (by unfold Gas.Short; simp only; omega) hs lastTime newTime a
      refine ⟨ops, ?_, fun hr => ?_⟩
      · unfold Net.edgeEvaluate
        simp only [hg]
        cases kind <;> first | exact hs.elim | exact ho
      · obtain ⟨e1, e2⟩ := end_pressure hk a.new
        rw [e1, e2] at h
        have e3 : Gas.flowAt a.new (.stop, ⟨k.val, kind, (N.edgeRange k).1, (N.edgeRange k).2,
            (N.controlRange k).1⟩) = N.endFlow k a.new := by
          show a.new ((N.edgeRange k).2 - 2 + 1) = a.new ((N.edgeRange k).2 - 1)
          congr 1; ring
        rw [e3] at h'
        rw [hrows] at hr
        refine ⟨?_, ?_⟩
        · refine h.symm.trans_le (hr _ ?_)
          cases kind <;> first
            | exact hs.elim
            | (simp only [Net.edgeRows, Set.mem_ofPred_eq]; push_cast at hlen; omega)
        · refine h'.symm.trans_le (hr _ ?_)
          cases kind <;> first
            | exact hs.elim
            | (simp only [Net.edgeRows, Set.mem_ofPred_eq]; push_cast at hlen; omega)
    cases kind with
    | shortpipe => exact hshort trivial
    | controlvalve => exact hshort trivial
    | compressor => exact hshort trivial
    | gaspower g p =>
      have hplant := hN.plantEnd k g p n hk
      obtain ⟨b, hb, -, hact, -⟩ := bus_power hN (N.dst k) a.new
      refine ⟨[.set ((N.edgeRange k).1 + 1) (Power.activePower b a.new -
        Power.gen ⟨g, p⟩ (a.new ((N.edgeRange k).1 + 1)))], ?_, fun h => ⟨_, Power.generated_eq _ _, ?_⟩⟩
      · unfold Net.edgeEvaluate
        simp only [hg, hplant, hb, if_true, Res.ok_bind, Power.connectionEvaluate, Power.generated_eq]
      · rw [hrows] at h
        simp only [Net.edgeRows, Set.mem_singleton_iff, forall_eq, run_cons, run_nil, Op.apply, Function.update_self,
          (Power.C41_power b a.new).1, hact] at h
        exact h
    | pipe dx d r =>
      simp only [edgeNeed] at hlen
      have hn := hN.points k dx d r n hk
      obtain ⟨hdx, hpipe⟩ := hp dx d r n hk
      have hpoints : Gas.HasPoints ⟨k.val, .pipe dx d r, (N.edgeRange k).1, (N.edgeRange k).2,
        (N.controlRange k).1⟩ n := by unfold Gas.HasPoints; simp only; omega
      have hex : ∀ i : ℤ, ∃ v, Box.evaluatePoint (Box.eulerLaw d r) lastTime newTime dx (Net.segment a.last (i - 1))
          (Net.segment a.last (i + 1)) (Net.segment a.new (i - 1)) (Net.segment a.new (i + 1)) = Res.ok v := by
        intro i
        have hs : ∀ y, (Box.eulerLaw d r).source y = Res.ok _ := fun y => Euler.C34_source_defined hpipe y
        exact ⟨_, by unfold Box.evaluatePoint; rw [hs, hs, Res.ok_bind, Res.ok_bind]⟩
      choose f hf using hex
      have ho : Gas.edgeEvaluate ⟨k.val, .pipe dx d r, (N.edgeRange k).1, (N.edgeRange k).2, (N.controlRange k).1⟩
          lastTime newTime a = Res.ok ((Gas.cells ⟨k.val, .pipe dx d r, (N.edgeRange k).1, (N.edgeRange k).2,
            (N.controlRange k).1⟩).flatMap fun i => [.set i (f i).1, .set (i + 1) (f i).2]) := by
        unfold Gas.edgeEvaluate
        refine forEach_ok fun i _ => ?_
        unfold Gas.cellEvaluate
        rw [hf, Res.ok_bind]
      refine ⟨_, by unfold Net.edgeEvaluate; simp only [hg]; exact ho, ?_⟩
      rw [Gas.cells_eq hpoints, List.flatMap_map, hrows]
      have hrun : ∀ j : ℕ, j + 1 < n → ∀ e : ℤ, e = 0 ∨ e = 1 →
          run (fun _ => 0) ((List.range (n - 1)).flatMap fun j : ℕ =>
            [Op.set ((N.edgeRange k).1 + 1 + 2 * (j : ℤ)) (f ((N.edgeRange k).1 + 1 + 2 * (j : ℤ))).1,
              Op.set ((N.edgeRange k).1 + 1 + 2 * (j : ℤ) + 1) (f ((N.edgeRange k).1 + 1 + 2 * (j : ℤ))).2])
            ((N.edgeRange k).1 + 1 + 2 * (j : ℤ) + e) =
          if e = 0 then (f ((N.edgeRange k).1 + 1 + 2 * (j : ℤ))).1 else (f ((N.edgeRange k).1 + 1 + 2 * (j : ℤ))).2 := by
        intro j hj e he
        rw [run_flatMap_single (x := j) (by simp; omega) (w := fun _ => 0)]
        · rcases he with rfl | rfl
          · simp only [run_cons, run_nil, Op.apply, add_zero, if_true]
            rw [Function.update_of_ne (by omega), Function.update_self]
          · simp only [run_cons, run_nil, Op.apply, one_ne_zero, if_false]
            rw [Function.update_self]
        · intro y _ hy o ho
          simp only [List.mem_cons, List.not_mem_nil, or_false] at ho
          rcases ho with rfl | rfl <;> simp only [Op.row] <;> omega
        · intro v w
          rcases he with rfl | rfl
          · simp only [run_cons, run_nil, Op.apply, add_zero]
            rw [Function.update_of_ne (by omega), Function.update_self, Function.update_of_ne (by omega),
              Function.update_self]
          · simp only [run_cons, run_nil, Op.apply]
            rw [Function.update_self, Function.update_self]
      have hcell : ∀ j : ℕ, Box.evaluatePoint (Box.eulerLaw d r) lastTime newTime dx
          (Net.segment a.last ((N.edgeRange k).1 + 2 * j)) (Net.segment a.last ((N.edgeRange k).1 + 2 * (j + 1)))
          (Net.segment a.new ((N.edgeRange k).1 + 2 * j)) (Net.segment a.new ((N.edgeRange k).1 + 2 * (j + 1))) =
            Res.ok (f ((N.edgeRange k).1 + 1 + 2 * (j : ℤ))) := by
        intro j
        rw [← hf]
        congr 2 <;> ring
      intro h j hj
      refine ⟨_, hcell j, ?_, ?_⟩
      · have h0 := h ((N.edgeRange k).1 + 1 + 2 * (j : ℤ) + 0) (by
          simp only [Net.edgeRows, Set.mem_ofPred_eq]; push_cast at hlen; omega)
        rwa [hrun j hj 0 (Or.inl rfl), if_pos rfl] at h0
      · have h1 := h ((N.edgeRange k).1 + 1 + 2 * (j : ℤ) + 1) (by
          simp only [Net.edgeRows, Set.mem_ofPred_eq]; push_cast at hlen; omega)
        rwa [hrun j hj 1 (Or.inr rfl), if_neg one_ne_zero] at h1

/-- All components together. -/
theorem lawsWithin_of {ε lastTime newTime : ℝ} (a : Args)
    (hv : ∀ v, NodeWithin N v ε newTime a.new) (he : ∀ k, EdgeWithin N k ε lastTime newTime a) :
    LawsWithin N ε lastTime newTime a := by
  have hne : ∀ k, (N.edge k).isGas → N.ends (N.src k) ≠ [] ∧ N.ends (N.dst k) ≠ [] := fun k hk =>
    ⟨(ends_empty hN _).mpr ⟨k, hk, Or.inl rfl⟩, (ends_empty hN _).mpr ⟨k, hk, Or.inr rfl⟩⟩
  refine ⟨?_, ?_, ?_, ?_, ?_, ?_, ?_⟩
  · classical
    have hP : ∀ v, ∃ P, (N.node v).kind.isGas → N.ends v ≠ [] →
        ∀ x ∈ N.ends v, |Gas.pressureAt a.new x - P| ≤ (N.degree v - 1) * ε := by
      intro v
      by_cases h : (N.node v).kind.isGas ∧ N.ends v ≠ []
      · obtain ⟨P, hP⟩ := (hv v).1 h.1 h.2
        exact ⟨P, fun _ _ => hP⟩
      · exact ⟨0, fun h1 h2 => absurd ⟨h1, h2⟩ h⟩
    choose P hP using hP
    refine ⟨P, fun k hk => ?_⟩
    obtain ⟨kind, n, hkk⟩ := isGas_iff.mp hk
    have hs := hN.gasStart k kind n hkk
    exact ⟨(ends_all hN _ a.new (fun p => |p - P (N.src k)| ≤ (N.degree (N.src k) - 1) * ε)
        (hP _ hs (hne k hk).1) k hk).1 rfl,
      fun hd => (ends_all hN _ a.new (fun p => |p - P (N.dst k)| ≤ (N.degree (N.dst k) - 1) * ε)
        (hP _ hd (hne k hk).2) k hk).2 rfl⟩
  · intro v b hk hb
    have := (hv v).2
    simp only [hk] at this
    exact ends_all hN v a.new (fun p => |p - b.1| ≤ ε) (this b hb)
  · intro v hne
    rw [← ends_empty hN] at hne
    have := (hv v).2
    constructor
    · intro hk
      simp only [hk] at this
      exact this hne
    · intro hk
      simp only [hk] at this
      exact this hne
  · intro k kind n hk hs
    have := he k
    unfold EdgeWithin at this
    rw [hk] at this
    cases kind <;> first | exact hs.elim | exact this
  · intro k dx d r n hk
    have := he k
    unfold EdgeWithin at this
    rw [hk] at this
    exact this
  · intro v b hb
    have := (hv v).2
    cases hk : (N.node v).kind with
    | power p => cases p <;> simp only [hk] at this <;> exact this b hb
    | plant => simp only [hk] at this; exact this b hb
    | _ => trivial
  · intro k g p n hk
    have := he k
    unfold EdgeWithin at this
    rw [hk] at this
    exact this

end

/-- C83. In every admissible network whose boundary values and pipes are usable, the residual is computed; if no
entry of it exceeds `ε`, the new state obeys all laws up to `ε`. -/
theorem C83_laws_within (N : Net) (hN : Admissible N) (lastTime newTime : ℝ) (hc : Computable N newTime)
    (z : N.Point) :
    ∃ residual, N.residual lastTime newTime z = Res.ok residual ∧
      ∀ ε, 0 ≤ ε → (∀ i, |residual i| ≤ ε) → LawsWithin N ε lastTime newTime (N.args z) := by
  obtain ⟨res, hres, -⟩ := C72_residual_iff_laws N hN lastTime newTime hc z
  refine ⟨res, hres, fun ε hε h => ?_⟩
  choose f hf hfl using fun v => node_within hN v (hc.boundary v) (N.args z) hε
  choose g hg hgl using fun k => edge_within hN k lastTime newTime (hc.pipes k) (N.args z) (ε := ε)
  obtain ⟨ops, ho, hrun⟩ := component_residual hN (lastTime := lastTime) (newTime := newTime) (a := N.args z)
    (X := fun c => match c with | .inl v => f v | .inr k => g k) (fun c => by cases c; exacts [hf _, hg _])
  unfold Net.residual at hres
  rw [ho, Res.ok_bind] at hres
  injection hres with hres
  subst hres
  have hz : ∀ c, ∀ r ∈ N.rows c, |run (fun _ => 0) ops r| ≤ ε := by
    intro c r hr
    obtain ⟨h0, h1⟩ := hN.rows_cover.mpr ⟨c, hr⟩
    have := h ⟨r.toNat, by unfold Net.stateCount; omega⟩
    simpa [Int.toNat_of_nonneg h0] using this
  refine lawsWithin_of hN _ (fun v => hfl v fun r hr => ?_) (fun k => hgl k fun r hr => ?_)
  · rw [← hrun (.inl v) r hr (fun _ => 0)]; exact hz _ r hr
  · rw [← hrun (.inr k) r hr (fun _ => 0)]; exact hz _ r hr

end Verif.Network
