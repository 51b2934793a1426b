import Verif.Network.Example
import Mathlib.Algebra.BigOperators.Ring.Finset

/-! # Property C42: power balance in the grid -/

set_option autoImplicit false

namespace Verif.Network

open Verif.Net Verif.Handler Real

noncomputable section

/-! ## Specification -/

/-- Voltage of a power node. -/
def Net.voltage (N : Net) (state : Vec) (v : Fin N.nodes) : ℝ := state (N.nodeRange v).1

/-- Voltage angle of a power node. -/
def Net.angle (N : Net) (state : Vec) (v : Fin N.nodes) : ℝ := state ((N.nodeRange v).1 + 1)

/-- Conductance of a line, zero for other edges. -/
def EdgeKind.conductance : EdgeKind → ℝ
  | .line G _ => G
  | .gas _ _ => 0

/-- Susceptance of a line, zero for other edges. -/
def EdgeKind.susceptance : EdgeKind → ℝ
  | .line _ B => B
  | .gas _ _ => 0

/-- The power nodes. -/
def Net.grid (N : Net) : Finset (Fin N.nodes) := Finset.univ.filter fun v => (N.node v).kind.isPower

/-! ## Proofs -/

/-- The sum over the attached lines, in terms of the edges. -/
theorem attached_sum (N : Net) (hN : Admissible N) (v : Fin N.nodes) (f : ℝ → ℝ → Fin N.nodes → ℝ)
    (h0 : ∀ w, f 0 0 w = 0) :
    ((N.attached v).map fun x => f x.1 x.2.1 x.2.2).sum =
      (∑ k, if N.src k = v then f (N.edge k).conductance (N.edge k).susceptance (N.dst k) else 0) +
      ∑ k, if N.dst k = v then f (N.edge k).conductance (N.edge k).susceptance (N.src k) else 0 := by
  have key : ∀ (l : List (Fin N.edges)) (o : Fin N.edges → Fin N.nodes),
      ((l.filterMap fun k => match N.edge k with
        | .line G B => some (G, B, o k)
        | .gas _ _ => none).map fun x : ℝ × ℝ × Fin N.nodes => f x.1 x.2.1 x.2.2).sum =
      (l.map fun k => f (N.edge k).conductance (N.edge k).susceptance (o k)).sum := by
    intro l o
    induction l with
    | nil => rfl
    | cons k l ih =>
      rw [List.map_cons, List.sum_cons, ← ih]
      cases hk : N.edge k with
      | line G B =>
        rw [List.filterMap_cons_some (b := (G, B, o k)) (by simp only [hk])]
        rfl
      | gas kind n =>
        rw [List.filterMap_cons_none (by simp only [hk])]
        simp [EdgeKind.conductance, EdgeKind.susceptance, h0]
  have key2 : ∀ (l : List (Fin N.edges)) (e : Fin N.edges → Fin N.nodes) (g : Fin N.edges → ℝ), l.Nodup →
      (∀ k, k ∈ l ↔ e k = v) → (l.map g).sum = ∑ k, if e k = v then g k else 0 := by
    intro l e g hl he
    rw [← List.sum_toFinset g hl, ← Finset.sum_filter]
    refine Finset.sum_congr ?_ fun _ _ => rfl
    ext k
    simp [he]
  unfold Net.attached
  rw [List.map_append, List.sum_append]
  exact congrArg₂ (· + ·) ((key _ N.dst).trans (key2 _ N.src _ (hN.starting v).1 (hN.starting v).2))
    ((key _ N.src).trans (key2 _ N.dst _ (hN.ending v).1 (hN.ending v).2))

theorem bus_eq {N : Net} (hN : Admissible N) (v : Fin N.nodes) :
    N.bus v = Res.ok ⟨(N.nodeRange v).1, (N.node v).G, (N.node v).B,
      (N.attached v).map fun x => ⟨x.1, x.2.1, (N.nodeRange x.2.2).1⟩⟩ := by
  obtain ⟨b, hb⟩ := hN.bus_ok v
  unfold Net.bus at hb ⊢
  split at hb
  · rename_i h; rw [if_pos h]
  · cases hb

/-- Double sum over nodes and edges. -/
theorem sum_grid {N : Net} (hN : Admissible N) (e : Fin N.edges → Fin N.nodes) (he : e = N.src ∨ e = N.dst)
    (g : Fin N.nodes → Fin N.edges → ℝ) (hg : ∀ v k kind n, N.edge k = .gas kind n → g v k = 0) :
    (∑ v ∈ N.grid, ∑ k, if e k = v then g v k else 0) = ∑ k, g (e k) k := by
  rw [Finset.sum_comm]
  refine Finset.sum_congr rfl fun k _ => ?_
  cases hk : N.edge k with
  | gas kind n =>
    rw [hg _ k kind n hk]
    refine Finset.sum_eq_zero fun v _ => ?_
    rw [hg _ k kind n hk]; simp
  | line G B =>
    rw [Finset.sum_ite_eq, if_pos]
    have := hN.lines k G B hk
    rcases he with rfl | rfl
    · simp [Net.grid, this.1]
    · simp [Net.grid, this.2]

/-- C42. In an admissible network, at every state, the active powers of all power nodes sum up to the losses in the
conductances of nodes and lines: the susceptances do not contribute. Likewise for the reactive powers, to
which the conductances do not contribute. -/
theorem C42_power_balance (N : Net) (hN : Admissible N) (state : Vec) :
    ∃ bus : Fin N.nodes → Power.Bus, (∀ v, N.bus v = Res.ok (bus v)) ∧
    (∑ v ∈ N.grid, Power.activePower (bus v) state =
      ∑ v ∈ N.grid, (N.node v).G * N.voltage state v ^ 2 +
      ∑ k, 2 * (N.edge k).conductance * N.voltage state (N.src k) * N.voltage state (N.dst k) *
        cos (N.angle state (N.src k) - N.angle state (N.dst k))) ∧
    (∑ v ∈ N.grid, Power.reactivePower (bus v) state =
      -(∑ v ∈ N.grid, (N.node v).B * N.voltage state v ^ 2 +
      ∑ k, 2 * (N.edge k).susceptance * N.voltage state (N.src k) * N.voltage state (N.dst k) *
        cos (N.angle state (N.src k) - N.angle state (N.dst k)))) := by
  refine ⟨_, bus_eq hN, ?_, ?_⟩
  · have h1 : ∀ v, Power.activePower ⟨(N.nodeRange v).1, (N.node v).G, (N.node v).B,
        (N.attached v).map fun x => ⟨x.1, x.2.1, (N.nodeRange x.2.2).1⟩⟩ state =
        (N.node v).G * N.voltage state v ^ 2 +
        ((∑ k, if N.src k = v then N.voltage state v * N.voltage state (N.dst k) *
          ((N.edge k).conductance * cos (N.angle state v - N.angle state (N.dst k)) +
            (N.edge k).susceptance * sin (N.angle state v - N.angle state (N.dst k))) else 0) +
        ∑ k, if N.dst k = v then N.voltage state v * N.voltage state (N.src k) *
          ((N.edge k).conductance * cos (N.angle state v - N.angle state (N.src k)) +
            (N.edge k).susceptance * sin (N.angle state v - N.angle state (N.src k))) else 0) := by
      intro v
      rw [← attached_sum N hN v (fun G B w => N.voltage state v * N.voltage state w *
        (G * cos (N.angle state v - N.angle state w) + B * sin (N.angle state v - N.angle state w)))
        (fun w => by simp), (Power.C41_power _ state).1]
      simp only [Power.activeSpec, List.map_map, Function.comp_def, Net.voltage, Net.angle]
    rw [Finset.sum_congr rfl fun v _ => h1 v, Finset.sum_add_distrib, Finset.sum_add_distrib,
      sum_grid hN N.src (Or.inl rfl) _ (fun v k kind n hk => by simp [hk, EdgeKind.conductance, EdgeKind.susceptance]),
      sum_grid hN N.dst (Or.inr rfl) _ (fun v k kind n hk => by simp [hk, EdgeKind.conductance, EdgeKind.susceptance]),
      ← Finset.sum_add_distrib]
    congr 1
    refine Finset.sum_congr rfl fun k _ => ?_
    rw [← neg_sub (N.angle state (N.src k)) (N.angle state (N.dst k)), cos_neg, sin_neg]
    ring
  · have h1 : ∀ v, Power.reactivePower ⟨(N.nodeRange v).1, (N.node v).G, (N.node v).B,
        (N.attached v).map fun x => ⟨x.1, x.2.1, (N.nodeRange x.2.2).1⟩⟩ state =
        -((N.node v).B * N.voltage state v ^ 2) +
        ((∑ k, if N.src k = v then N.voltage state v * N.voltage state (N.dst k) *
          ((N.edge k).conductance * sin (N.angle state v - N.angle state (N.dst k)) -
            (N.edge k).susceptance * cos (N.angle state v - N.angle state (N.dst k))) else 0) +
        ∑ k, if N.dst k = v then N.voltage state v * N.voltage state (N.src k) *
          ((N.edge k).conductance * sin (N.angle state v - N.angle state (N.src k)) -
            (N.edge k).susceptance * cos (N.angle state v - N.angle state (N.src k))) else 0) := by
      intro v
      rw [← attached_sum N hN v (fun G B w => N.voltage state v * N.voltage state w *
        (G * sin (N.angle state v - N.angle state w) - B * cos (N.angle state v - N.angle state w)))
        (fun w => by simp), (Power.C41_power _ state).2]
      simp only [Power.reactiveSpec, List.map_map, Function.comp_def, Net.voltage, Net.angle]
      ring
    rw [Finset.sum_congr rfl fun v _ => h1 v, Finset.sum_add_distrib, Finset.sum_add_distrib,
      sum_grid hN N.src (Or.inl rfl) _ (fun v k kind n hk => by simp [hk, EdgeKind.conductance, EdgeKind.susceptance]),
      sum_grid hN N.dst (Or.inr rfl) _ (fun v k kind n hk => by simp [hk, EdgeKind.conductance, EdgeKind.susceptance]),
      ← Finset.sum_add_distrib, Finset.sum_neg_distrib, neg_add]
    congr 1
    rw [← Finset.sum_neg_distrib]
    refine Finset.sum_congr rfl fun k _ => ?_
    rw [← neg_sub (N.angle state (N.src k)) (N.angle state (N.dst k)), cos_neg, sin_neg]
    ring

/-- C42. A grid without conductances neither creates nor consumes active power. -/
theorem C42_lossless (N : Net) (hN : Admissible N) (state : Vec) (hn : ∀ v, (N.node v).G = 0)
    (hl : ∀ k G B, N.edge k = .line G B → G = 0) :
    ∃ bus : Fin N.nodes → Power.Bus, (∀ v, N.bus v = Res.ok (bus v)) ∧
      ∑ v ∈ N.grid, Power.activePower (bus v) state = 0 := by
  obtain ⟨bus, hb, h, -⟩ := C42_power_balance N hN state
  refine ⟨bus, hb, ?_⟩
  rw [h]
  have h1 : ∀ k, (N.edge k).conductance = 0 := by
    intro k
    cases hk : N.edge k with
    | gas kind n => rfl
    | line G B => exact hl k G B hk
  simp [hn, h1]

/-- The example network has a grid of two nodes and a line; with the conductance `3` of the line and both
voltages one and angles zero the losses are `6`. -/
example : ∑ k, 2 * (exampleNet.edge k).conductance * exampleNet.voltage (fun j => if j % 2 = 0 then 1 else 0)
    (exampleNet.src k) * exampleNet.voltage (fun j => if j % 2 = 0 then 1 else 0) (exampleNet.dst k) *
    cos (exampleNet.angle (fun j => if j % 2 = 0 then 1 else 0) (exampleNet.src k) -
      exampleNet.angle (fun j => if j % 2 = 0 then 1 else 0) (exampleNet.dst k)) = 6 := by
  show ∑ k : Fin 4, _ = _
  rw [Fin.sum_univ_four]
  have e0 : (exampleNet.edge (0 : Fin 4)).conductance = 0 := rfl
  have e1 : (exampleNet.edge (1 : Fin 4)).conductance = 0 := rfl
  have e2 : (exampleNet.edge (2 : Fin 4)).conductance = 0 := rfl
  have e3 : (exampleNet.edge (3 : Fin 4)).conductance = 3 := rfl
  have r3 : exampleNet.nodeRange (exampleNet.src (3 : Fin 4)) = (0, 2) := rfl
  have r4 : exampleNet.nodeRange (exampleNet.dst (3 : Fin 4)) = (2, 4) := rfl
  simp only [e0, e1, e2, e3, Net.voltage, Net.angle, r3, r4]
  norm_num

end
end Verif.Network
