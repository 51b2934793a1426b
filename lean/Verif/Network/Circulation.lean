import Verif.Network.Equilibrium
import Verif.Box.Stationary
import Mathlib.Logic.Relation

/-!
# Property C136: stationary gas does not flow in circles

In a stationary state of a network the pressure falls along the flow in pipes. So gas that has passed a pipe does not
come back on its own, and in a network in which nothing enters or leaves nothing moves in the pipes.
-/

set_option autoImplicit false

namespace Verif.Network

open Verif.Net Relation

/-! ## Specification -/

/-- All pipes have a positive length and a real cross section, positive densities and gas slower than sound. -/
def Slow (N : Net) (state : Vec) : Prop :=
  ∀ k dx d r n, N.edge k = .gas (.pipe dx d r) n → 0 < dx ∧ Euler.RealPipe d r ∧
    ∀ j : ℕ, j < n → 0 < (segment state ((N.edgeRange k).1 + 2 * j)).1 ∧
      Box.Subsonic d (segment state ((N.edgeRange k).1 + 2 * j))

/-- No edge drives the flow: there are no compressors, and control valves lower the pressure and are passed in their
direction. -/
def Passive (N : Net) (a : Args) : Prop :=
  ∀ k kind n, N.edge k = .gas kind n → kind.isShort →
    kind = .shortpipe ∨ kind = .controlvalve ∧ 0 ≤ a.control (N.controlRange k).1 ∧ 0 ≤ N.startFlow k a.new

/-- Gas flows through the edge from `v` to `w`. -/
def FlowsThrough (N : Net) (state : Vec) (k : Fin N.edges) (v w : Fin N.nodes) : Prop :=
  N.src k = v ∧ N.dst k = w ∧ 0 < N.startFlow k state ∨ N.dst k = v ∧ N.src k = w ∧ N.startFlow k state < 0

/-- Gas flows from `v` to `w` through a pipe. -/
def FlowsInPipe (N : Net) (state : Vec) (v w : Fin N.nodes) : Prop :=
  ∃ k dx d r n, N.edge k = .gas (.pipe dx d r) n ∧ FlowsThrough N state k v w

/-- Gas flows from `v` to `w` through a pipe, a short pipe or a control valve. -/
def Flows (N : Net) (state : Vec) (v w : Fin N.nodes) : Prop :=
  ∃ k kind n, N.edge k = .gas kind n ∧ (∀ g p, kind ≠ .gaspower g p) ∧ FlowsThrough N state k v w

/-! ## One pipe -/

theorem pipe_downhill {N : Net} (hN : Admissible N) {t0 t1 : ℝ} (ht : t0 < t1) {a : Args} (hstat : a.last = a.new)
    (hl : Laws N t0 t1 a) (hs : Slow N a.new) {k : Fin N.edges} {dx d r : ℝ} {n : ℕ}
    (hk : N.edge k = .gas (.pipe dx d r) n) :
    N.startFlow k a.new = N.endFlow k a.new ∧ (0 < N.startFlow k a.new → N.endPressure k a.new < N.startPressure k a.new) ∧
      (N.startFlow k a.new < 0 → N.startPressure k a.new < N.endPressure k a.new) := by
  obtain ⟨hdx, hp, hj⟩ := hs k dx d r n hk
  have hn := hN.points k dx d r n hk
  have hrange := Admissible.edgeRange_length (N := N) (k := k)
  rw [hk] at hrange
  simp only [edgeNeed] at hrange
  have hcells : ∀ i < n - 1, Box.evaluatePoint (Box.eulerLaw d r) t0 t1 dx
      (segment a.new ((N.edgeRange k).1 + 2 * (i : ℕ))) (segment a.new ((N.edgeRange k).1 + 2 * ((i + 1 : ℕ) : ℤ)))
      (segment a.new ((N.edgeRange k).1 + 2 * (i : ℕ))) (segment a.new ((N.edgeRange k).1 + 2 * ((i + 1 : ℕ) : ℤ))) = Res.ok 0 := by
    intro i hi
    have := hl.pipes k dx d r n hk i (by omega)
    rw [hstat] at this
    push_cast
    exact this
  obtain ⟨h1, h2, h3, -⟩ := Box.C135_pipe hp ht hdx (n - 1) (fun i => segment a.new ((N.edgeRange k).1 + 2 * (i : ℕ)))
    (fun i hi => (hj i (by omega)).1) (fun i hi => (hj i (by omega)).2) hcells 0 (n - 1) (by omega) le_rfl
  have e1 : (N.edgeRange k).1 + 2 * ((n - 1 : ℕ) : ℤ) = (N.edgeRange k).2 - 2 := by
    rw [hrange]; push_cast [Nat.cast_sub (by omega : 1 ≤ n)]; ring
  have e2 : (N.edgeRange k).2 - 2 + 1 = (N.edgeRange k).2 - 1 := by ring
  simp only [Net.segment, e1, e2, Nat.cast_zero, mul_zero, add_zero] at h1 h2 h3
  refine ⟨h1, fun h => ?_, fun h => ?_⟩
  · unfold Net.endPressure Net.startPressure Net.pressureOf
    rw [hk]
    have := h2 h
    simp only
    linarith
  · unfold Net.endPressure Net.startPressure Net.pressureOf
    rw [hk]
    have := h3 h
    simp only
    linarith

/-! ## The network -/

/-- C136. In a stationary state that obeys the laws, of a network in which no edge drives the flow and the gas is
slower than sound, each gas node has a pressure (the one its edges have there), which falls strictly along the
flow in pipes and nowhere rises along the flow. -/
theorem C136_downhill (N : Net) (hN : Admissible N) {t0 t1 : ℝ} (ht : t0 < t1) (a : Args) (hstat : a.last = a.new)
    (hl : Laws N t0 t1 a) (hs : Slow N a.new) (hp : Passive N a) :
    ∃ P : Fin N.nodes → ℝ, (∀ k, (N.edge k).isGas → N.startPressure k a.new = P (N.src k) ∧
        ((N.node (N.dst k)).kind.isGas → N.endPressure k a.new = P (N.dst k))) ∧
      (∀ v w, FlowsInPipe N a.new v w → P w < P v) ∧ ∀ v w, Flows N a.new v w → P w ≤ P v := by
  obtain ⟨P, hP, -⟩ := hl.pressures
  have hends : ∀ k kind n, N.edge k = .gas kind n → (∀ g p, kind ≠ .gaspower g p) →
      N.startPressure k a.new = P (N.src k) ∧ N.endPressure k a.new = P (N.dst k) := by
    intro k kind n hk hg
    obtain ⟨h1, h2⟩ := hP k (by rw [hk]; rfl)
    exact ⟨h1, h2 (hN.gasEnd k kind n hk hg)⟩
  have hpipe : ∀ v w, FlowsInPipe N a.new v w → P w < P v := by
    rintro v w ⟨k, dx, d, r, n, hk, hf⟩
    obtain ⟨e1, e2⟩ := hends k _ n hk (by simp)
    obtain ⟨-, h1, h2⟩ := pipe_downhill hN ht hstat hl hs hk
    rcases hf with ⟨rfl, rfl, hq⟩ | ⟨rfl, rfl, hq⟩
    · rw [← e1, ← e2]; exact h1 hq
    · rw [← e1, ← e2]; exact h2 hq
  refine ⟨P, hP, hpipe, ?_⟩
  rintro v w ⟨k, kind, n, hk, hg, hf⟩
  cases kind with
  | pipe dx d r => exact (hpipe v w ⟨k, dx, d, r, n, hk, hf⟩).le
  | gaspower g p => exact absurd rfl (hg g p)
  | shortpipe =>
    obtain ⟨e1, e2⟩ := hends k _ n hk hg
    have := (hl.short k _ n hk trivial).1
    simp only [Gas.demandedRise, add_zero] at this
    rcases hf with ⟨rfl, rfl, -⟩ | ⟨rfl, rfl, -⟩ <;> linarith
  | compressor =>
    rcases hp k _ n hk trivial with h | ⟨h, -⟩ <;> cases h
  | controlvalve =>
    obtain ⟨e1, e2⟩ := hends k _ n hk hg
    have := (hl.short k _ n hk trivial).1
    simp only [Gas.demandedRise] at this
    rcases hp k _ n hk trivial with h | ⟨-, h1, h2⟩
    · cases h
    · rcases hf with ⟨rfl, rfl, hq⟩ | ⟨rfl, rfl, hq⟩ <;> linarith

/-- C136. In such a state gas that has passed a pipe never comes back to its start, by whatever way along the
flow. -/
theorem C136_no_circulation (N : Net) (hN : Admissible N) {t0 t1 : ℝ} (ht : t0 < t1) (a : Args) (hstat : a.last = a.new)
    (hl : Laws N t0 t1 a) (hs : Slow N a.new) (hp : Passive N a) (v w : Fin N.nodes) (h : FlowsInPipe N a.new v w) :
    ¬ ReflTransGen (Flows N a.new) w v := by
  obtain ⟨P, -, h1, h2⟩ := C136_downhill N hN ht a hstat hl hs hp
  intro hback
  have hle : ∀ u, ReflTransGen (Flows N a.new) w u → P u ≤ P w := by
    intro u hu
    induction hu with
    | refl => exact le_rfl
    | tail _ hstep ih => exact (h2 _ _ hstep).trans ih
  exact absurd (h1 v w h) (not_lt.mpr (hle v hback))

/-- C136. If in such a state no gas enters or leaves the network, neither at its nodes nor to or from the power grid,
there is no flow in any pipe. -/
theorem C136_rest (N : Net) (hN : Admissible N) {t0 t1 : ℝ} (ht : t0 < t1) (a : Args) (hstat : a.last = a.new)
    (hl : Laws N t0 t1 a) (hs : Slow N a.new) (hp : Passive N a)
    (hclosed : ∀ v, (N.node v).kind.isGas → N.outflow v a.new = 0)
    (hplants : ∀ k g p n, N.edge k = .gas (.gaspower g p) n → N.startFlow k a.new = 0) :
    ∀ k dx d r n, N.edge k = .gas (.pipe dx d r) n → N.startFlow k a.new = 0 ∧ N.endFlow k a.new = 0 := by
  obtain ⟨P, hP, hstrict, hweak⟩ := C136_downhill N hN ht a hstat hl hs hp
  have hgp : ∀ k g p n, N.edge k = .gas (.gaspower g p) n → N.endFlow k a.new = 0 := by
    intro k g p n hk
    have hrange := Admissible.edgeRange_length (N := N) (k := k)
    rw [hk] at hrange
    have h0 := hplants k g p n hk
    unfold Net.endFlow Net.startFlow at *
    rw [hrange]
    simp only [edgeNeed]
    rw [← h0]
    congr 1
    push_cast; ring
  have hsame : ∀ k, (N.edge k).isGas → N.startFlow k a.new = N.endFlow k a.new := by
    intro k hk
    cases he : N.edge k with
    | line G B => rw [he] at hk; cases hk
    | gas kind n =>
      cases kind with
      | pipe dx d r => exact (pipe_downhill hN ht hstat hl hs he).1
      | gaspower g p => rw [hplants k g p n he, hgp k g p n he]
      | shortpipe => exact (hl.short k _ n he trivial).2
      | compressor => exact (hl.short k _ n he trivial).2
      | controlvalve => exact (hl.short k _ n he trivial).2
  -- what an edge dissipates
  set D : Fin N.edges → ℝ := fun k => if (N.edge k).isGas then N.startFlow k a.new * (P (N.src k) - P (N.dst k)) else 0 with hD
  have hnonneg : ∀ k, 0 ≤ D k := by
    intro k
    simp only [hD]
    split
    · rename_i hk
      cases he : N.edge k with
      | line G B => rw [he] at hk; cases hk
      | gas kind n =>
        by_cases hg : ∀ g p, kind ≠ .gaspower g p
        · rcases lt_trichotomy (N.startFlow k a.new) 0 with hq | hq | hq
          · have := hweak _ _ ⟨k, kind, n, he, hg, Or.inr ⟨rfl, rfl, hq⟩⟩
            exact mul_nonneg_of_nonpos_of_nonpos hq.le (by linarith)
          · rw [hq]; simp
          · have := hweak _ _ ⟨k, kind, n, he, hg, Or.inl ⟨rfl, rfl, hq⟩⟩
            exact mul_nonneg hq.le (by linarith)
        · push Not at hg
          obtain ⟨g, p, rfl⟩ := hg
          rw [hplants k g p n he]; simp
    · exact le_rfl
  have hout : ∀ v, N.outflow v a.new = 0 := by
    intro v
    by_cases hv : (N.node v).kind.isGas
    · exact hclosed v hv
    · unfold Net.outflow
      rw [Finset.sum_eq_zero, Finset.sum_eq_zero, sub_zero]
      · intro k _
        split
        · rename_i hd
          split
          · rename_i hk
            cases he : N.edge k with
            | line G B => rw [he] at hk; cases hk
            | gas kind n =>
              by_cases hg : ∀ g p, kind ≠ .gaspower g p
              · exact absurd (hd ▸ hN.gasEnd k kind n he hg) hv
              · push Not at hg
                obtain ⟨g, p, rfl⟩ := hg
                exact hgp k g p n he
          · rfl
        · rfl
      · intro k _
        split
        · rename_i hd
          split
          · rename_i hk
            cases he : N.edge k with
            | line G B => rw [he] at hk; cases hk
            | gas kind n => exact absurd (hd ▸ hN.gasStart k kind n he) hv
          · rfl
        · rfl
  have hsum : ∑ k, D k = 0 := by
    have h0 : ∑ v, P v * N.outflow v a.new = 0 := Finset.sum_eq_zero fun v _ => by rw [hout v, mul_zero]
    rw [← h0]
    unfold Net.outflow
    simp only [mul_sub, Finset.sum_sub_distrib, Finset.mul_sum, mul_ite, mul_zero]
    rw [Finset.sum_comm, Finset.sum_comm (s := Finset.univ (α := Fin N.nodes))]
    simp only [Finset.sum_ite_eq, Finset.mem_univ, if_true]
    rw [← Finset.sum_sub_distrib]
    refine Finset.sum_congr rfl fun k _ => ?_
    simp only [hD]
    split
    · rename_i hk
      rw [← hsame k hk]; ring
    · ring
  intro k dx d r n hk
  have hzero : D k = 0 := (Finset.sum_eq_zero_iff_of_nonneg fun k _ => hnonneg k).mp hsum k (Finset.mem_univ k)
  have hgas : (N.edge k).isGas := by rw [hk]; rfl
  have hq : N.startFlow k a.new = 0 := by
    simp only [hD, if_pos hgas] at hzero
    rcases lt_trichotomy (N.startFlow k a.new) 0 with hq | hq | hq
    · have := hstrict _ _ ⟨k, dx, d, r, n, hk, Or.inr ⟨rfl, rfl, hq⟩⟩
      exact absurd hzero (mul_pos_of_neg_of_neg hq (by linarith)).ne'
    · exact hq
    · have := hstrict _ _ ⟨k, dx, d, r, n, hk, Or.inl ⟨rfl, rfl, hq⟩⟩
      exact absurd hzero (mul_pos hq (by linarith)).ne'
  exact ⟨hq, by rw [← hsame k hgas, hq]⟩

/-! ## Example: a pipe from a pressure node to a sink -/

noncomputable section

/-- The network: a pipe of one cell, from a node with given pressure to a sink. -/
def flowNet (dx : ℝ) : Net where
  nodes := 2
  edges := 1
  node v := ⟨if v = 0 then .pressure else .flow,
    fun _ => Res.ok (if v = 0 then Euler.p 2 / 100000 else -(1 / 1000), 0), 0, 0⟩
  edge _ := .gas (.pipe dx 1 0) 2
  src _ := 0
  dst _ := 1
  starting v := if v = 0 then [0] else []
  ending v := if v = 1 then [0] else []

/-- The state: densities 2 and 1, and the same flow at both ends. -/
def flowState : Vec := fun i => if i = 0 then 2 else if i = 2 then 1 else 1 / 1000

end

theorem flow_admissible (dx : ℝ) : Admissible (flowNet dx) where
  starting := by
    show ∀ v : Fin 2, (if v = 0 then [(0 : Fin 1)] else []).Nodup ∧
      ∀ k : Fin 1, k ∈ (if v = 0 then [(0 : Fin 1)] else []) ↔ (0 : Fin 2) = v
    decide
  ending := by
    show ∀ v : Fin 2, (if v = 1 then [(0 : Fin 1)] else []).Nodup ∧
      ∀ k : Fin 1, k ∈ (if v = 1 then [(0 : Fin 1)] else []) ↔ (1 : Fin 2) = v
    decide
  noLoop := by show ∀ _ : Fin 1, (0 : Fin 2) ≠ 1; decide
  points := by intro k dx d r n h; injection h with _ h; omega
  gasStart := by intro k kind n h; rfl
  gasEnd := by intro k kind n h _; rfl
  plantEnd := by intro k g p n h; injection h with h; cases h
  lines := by intro k G B h; cases h

theorem flow_laws {dx : ℝ} (t0 t1 : ℝ) (h : Box.evaluatePoint (Box.eulerLaw 1 0) t0 t1 dx (2, 1 / 1000) (1, 1 / 1000)
    (2, 1 / 1000) (1, 1 / 1000) = Res.ok 0) (c : Vec) : Laws (flowNet dx) t0 t1 ⟨flowState, flowState, c⟩ := by
  refine ⟨⟨fun v : Fin 2 => if v = 0 then Euler.p 2 / 100000 else Euler.p 1 / 100000, ?_, ?_⟩, ?_, ?_, ?_, ?_, ?_⟩
  · intro k hk
    obtain rfl : k = (0 : Fin 1) := Subsingleton.elim (α := Fin 1) _ _
    refine ⟨?_, fun _ => ?_⟩
    · show Euler.p (flowState 0) / 100000 = Euler.p 2 / 100000
      simp [flowState]
    · show Euler.p (flowState 2) / 100000 = Euler.p 1 / 100000
      simp [flowState]
  · show ∀ v : Fin 2, _
    intro v b hv hb
    match v, hv with
    | 0, _ => injection hb with hb; subst hb; rfl
    | 1, h => cases h
  · show ∀ v : Fin 2, _
    intro v _
    match v with
    | 0 => exact ⟨fun h => (by cases h), fun h => (by cases h)⟩
    | 1 =>
      refine ⟨fun h => (by cases h), fun _ b hb => ?_⟩
      injection hb with hb
      subst hb
      have : (flowNet dx).outflow (1 : Fin 2) flowState = 0 - flowState 3 := by
        unfold Net.outflow
        show (∑ k : Fin 1, _) - (∑ k : Fin 1, _) = _
        rw [Fin.sum_univ_one, Fin.sum_univ_one]
        rfl
      rw [this]
      show (0 : ℝ) - flowState 3 = -(1 / 1000)
      simp [flowState]
  · intro k kind n h hs
    injection h with h
    subst h
    exact hs.elim
  · intro k dx d r n hk j hj
    obtain rfl : k = (0 : Fin 1) := Subsingleton.elim (α := Fin 1) _ _
    injection hk with hk hn
    injection hk with e1 e2 e3
    subst e1 e2 e3 hn
    obtain rfl : j = 0 := by omega
    show Box.evaluatePoint _ t0 t1 _ (flowState 0, flowState 1) (flowState 2, flowState 3)
      (flowState 0, flowState 1) (flowState 2, flowState 3) = Res.ok 0
    simpa [flowState] using h
  · show ∀ v : Fin 2, _
    intro v b hb
    match v with
    | 0 => trivial
    | 1 => trivial
  · intro k g p n h
    injection h with h
    cases h

/-- A network with a flow meets the hypotheses of `C136_no_circulation`. -/
example : ∃ (N : Net) (a : Args), Admissible N ∧ a.last = a.new ∧ Laws N 0 60 a ∧ Slow N a.new ∧ Passive N a ∧
    ∃ v w, FlowsInPipe N a.new v w := by
  obtain ⟨dx, h0, h⟩ := Box.exists_width (d := 1) (k := 0) (by constructor <;> norm_num) one_pos (y := 2) (by norm_num)
    (by norm_num : (0 : ℝ) < 1 / 1000) (Box.subsonic_small le_rfl (by norm_num)) (Box.subsonic_small (by norm_num) le_rfl)
  refine ⟨flowNet dx, ⟨flowState, flowState, fun _ => 0⟩, flow_admissible dx, rfl, flow_laws 0 60 (h 0 60) _, ?_, ?_, ?_⟩
  · intro k dx' d r n hk
    obtain rfl : k = (0 : Fin 1) := Subsingleton.elim (α := Fin 1) _ _
    injection hk with hk hn
    injection hk with e1 e2 e3
    subst e1 e2 e3 hn
    refine ⟨h0, by constructor <;> norm_num, fun j hj => ?_⟩
    match j, hj with
    | 0, _ =>
      show 0 < flowState 0 ∧ Box.Subsonic 1 (flowState 0, flowState 1)
      simpa [flowState] using Box.subsonic_small (x := 2) (by norm_num) le_rfl
    | 1, _ =>
      show 0 < flowState 2 ∧ Box.Subsonic 1 (flowState 2, flowState 3)
      simpa [flowState] using Box.subsonic_small (x := 1) le_rfl (by norm_num)
  · intro k kind n hk hs
    injection hk with hk
    subst hk
    exact hs.elim
  · refine ⟨(0 : Fin 2), (1 : Fin 2), (0 : Fin 1), dx, 1, 0, 2, rfl, Or.inl ⟨rfl, rfl, ?_⟩⟩
    show 0 < flowState 1
    norm_num [flowState]

/-- A closed network meets the hypotheses of `C136_rest`. -/
example : ∃ a : Args, a.last = a.new ∧ Laws pipeNet 0 60 a ∧ Slow pipeNet a.new ∧ Passive pipeNet a ∧
    (∀ v, (pipeNet.node v).kind.isGas → pipeNet.outflow v a.new = 0) := by
  have e : ∀ i : ℕ, ∀ h : i < 4, ext calmState (i : ℤ) = (![1, 0, 1, 0] : Fin 4 → ℝ) ⟨i, h⟩ := calm_entry
  have e0 := e 0 (by norm_num)
  have e1 := e 1 (by norm_num)
  have e2 := e 2 (by norm_num)
  have e3 := e 3 (by norm_num)
  simp only [Nat.cast_ofNat, Nat.cast_zero, Nat.cast_one] at e0 e1 e2 e3
  have hcalm : Box.Subsonic 1 (1, 0) := by
    have := Euler.C31_density_round_trip 1
    unfold Box.Subsonic Euler.dp
    have hD := this.2 (by norm_num)
    have hc := Box.cVac_pos
    simp only [mul_zero, zero_div]
    rw [zero_pow (by norm_num)]
    exact div_pos hc (mul_self_pos.mpr hD)
  refine ⟨⟨ext calmState, ext calmState, fun _ => 0⟩, rfl, calm_laws _, ?_, ?_, ?_⟩
  · intro k dx d r n hk
    obtain rfl : k = (0 : Fin 1) := Subsingleton.elim (α := Fin 1) _ _
    injection hk with hk hn
    injection hk with e1' e2' e3'
    subst e1' e2' e3' hn
    refine ⟨by norm_num, by constructor <;> norm_num, fun j hj => ?_⟩
    match j, hj with
    | 0, _ =>
      show 0 < ext calmState 0 ∧ Box.Subsonic 1 (ext calmState 0, ext calmState 1)
      rw [e0, e1]; exact ⟨one_pos, hcalm⟩
    | 1, _ =>
      show 0 < ext calmState 2 ∧ Box.Subsonic 1 (ext calmState 2, ext calmState 3)
      rw [e2, e3]; exact ⟨one_pos, hcalm⟩
  · intro k kind n hk hs
    injection hk with hk
    subst hk
    exact hs.elim
  · show ∀ v : Fin 2, _
    intro v _
    unfold Net.outflow
    show (∑ k : Fin 1, _) - (∑ k : Fin 1, _) = _
    rw [Fin.sum_univ_one, Fin.sum_univ_one]
    match v with
    | 0 =>
      show ext calmState 1 - 0 = 0
      rw [e1]; norm_num
    | 1 =>
      show 0 - ext calmState 3 = 0
      rw [e3]; norm_num

end Verif.Network
