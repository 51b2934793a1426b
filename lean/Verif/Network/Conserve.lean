import Verif.Network.PipeExample

/-!
# Property C75: no gas is created or lost in a network

The mass in all pipes of a solved network changes exactly by what enters at the sources and pressure nodes minus what
leaves at the sinks and is burnt in the power plants.
-/

set_option autoImplicit false

namespace Verif.Network

open Verif.Net

/-! ## Specification -/

namespace Net
variable (N : Net)

/-- The mass of the gas in an edge (density times area, by the trapezoidal rule); only pipes have volume. -/
noncomputable def mass (k : Fin N.edges) (state : Vec) : ℝ :=
  match N.edge k with
  | .gas (.pipe dx d _) n => ∑ j ∈ Finset.range (n - 1), dx * SmoothAbs.circleArea (0.5 * d) *
      ((state ((N.edgeRange k).1 + 2 * j) + state ((N.edgeRange k).1 + 2 * (j + 1))) / 2)
  | _ => 0

/-- What enters the network at a node: nothing at inner nodes, the prescribed flow at sources and sinks, and whatever
flows into the edges at a pressure node. -/
noncomputable def supply (newTime : ℝ) (v : Fin N.nodes) (state : Vec) : ℝ :=
  match (N.node v).kind, (N.node v).boundary newTime with
  | .flow, .ok b => b.1
  | .pressure, _ => N.outflow v state
  | _, _ => 0

/-- What a power plant takes from the network. -/
noncomputable def burnt (k : Fin N.edges) (state : Vec) : ℝ :=
  match N.edge k with
  | .gas (.gaspower _ _) _ => N.startFlow k state
  | _ => 0

end Net

/-! ## Proof -/

section
variable {N : Net} (hN : Admissible N)
include hN

/-- Mass balance of an edge. -/
theorem edge_mass {lastTime newTime : ℝ} (hc : Computable N newTime) {a : Args} (h : Laws N lastTime newTime a)
    (k : Fin N.edges) :
    N.mass k a.new = N.mass k a.last + (newTime - lastTime) * Euler.rho0 *
      ((if (N.edge k).isGas then N.startFlow k a.new else 0) -
        (if (N.edge k).isGas ∧ (N.node (N.dst k)).kind.isGas then N.endFlow k a.new else 0) - N.burnt k a.new) := by
  have hlen := Admissible.edgeRange_length (k := k)
  unfold Net.mass Net.burnt
  cases hk : N.edge k with
  | line G B => simp [EdgeKind.isGas]
  | gas kind n =>
    have hshort : kind.isShort → 0 = 0 + (newTime - lastTime) * Euler.rho0 *
        (N.startFlow k a.new - (if (N.node (N.dst k)).kind.isGas then N.endFlow k a.new else 0) - 0) := by
      intro hs
      have hd := hN.gasEnd k kind n hk (by rintro g p rfl; exact hs.elim)
      rw [if_pos hd, (h.short k kind n hk hs).2]
      ring
    cases kind with
    | shortpipe => simpa [EdgeKind.isGas] using hshort trivial
    | controlvalve => simpa [EdgeKind.isGas] using hshort trivial
    | compressor => simpa [EdgeKind.isGas] using hshort trivial
    | gaspower g p =>
      have hd := isPlant_not_gas (hN.plantEnd k g p n hk)
      simp [EdgeKind.isGas, hd]
    | pipe dx d r =>
      have hd := hN.gasEnd k _ n hk (by simp)
      obtain ⟨hdx, hp⟩ := hc.pipes k dx d r n hk
      have hn := hN.points k dx d r n hk
      have hb := Box.C30_mass hp lastTime newTime dx hdx (n - 1)
        (fun j => Net.segment a.last ((N.edgeRange k).1 + 2 * j)) (fun j => Net.segment a.new ((N.edgeRange k).1 + 2 * j))
        (fun j hj => by
          have := h.pipes k dx d r n hk j (by omega)
          push_cast
          exact this)
      simp only [Net.segment] at hb
      push_cast at hb
      simp only [EdgeKind.isGas, hd, and_self, if_true, sub_zero]
      rw [hb]
      have e1 : N.startFlow k a.new = a.new ((N.edgeRange k).1 + 2 * 0 + 1) := by
        unfold Net.startFlow; rw [mul_zero, add_zero]
      have e2 : N.endFlow k a.new = a.new ((N.edgeRange k).1 + 2 * ((n - 1 : ℕ) : ℤ) + 1) := by
        unfold Net.endFlow
        rw [hk] at hlen
        simp only [edgeNeed] at hlen
        congr 1
        push_cast [Nat.cast_sub (show 1 ≤ n by omega)] at hlen ⊢
        omega
      rw [e1, e2]
      ring_nf

/-- The flows at the nodes are those of the edges. -/
theorem sum_outflow (state : Vec) :
    ∑ v, (if (N.node v).kind.isGas then N.outflow v state else 0) =
      ∑ k, ((if (N.edge k).isGas then N.startFlow k state else 0) -
        (if (N.edge k).isGas ∧ (N.node (N.dst k)).kind.isGas then N.endFlow k state else 0)) := by
  unfold Net.outflow
  rw [Finset.sum_sub_distrib]
  have h1 : ∀ v, (if (N.node v).kind.isGas then
      ((∑ k, if N.src k = v then (if (N.edge k).isGas then N.startFlow k state else 0) else 0) -
        ∑ k, if N.dst k = v then (if (N.edge k).isGas then N.endFlow k state else 0) else 0) else 0) =
      (∑ k, if N.src k = v then (if (N.edge k).isGas then N.startFlow k state else 0) else 0) -
        ∑ k, if N.dst k = v then
          (if (N.edge k).isGas ∧ (N.node (N.dst k)).kind.isGas then N.endFlow k state else 0) else 0 := by
    intro v
    by_cases hv : (N.node v).kind.isGas
    · rw [if_pos hv]
      congr 1
      refine Finset.sum_congr rfl fun k _ => ?_
      split_ifs with e1 e2 e3 e3 <;> first | rfl | (subst e1; simp_all)
    · rw [if_neg hv]
      symm
      rw [sub_eq_zero, Finset.sum_eq_zero, Finset.sum_eq_zero]
      · intro k _
        split_ifs with e1 e2
        · subst e1; exact absurd e2.2 hv
        · rfl
        · rfl
      · intro k _
        split_ifs with e1 e2
        · subst e1
          obtain ⟨kind, n, hk⟩ := isGas_iff.mp e2
          exact absurd (hN.gasStart k kind n hk) hv
        · rfl
        · rfl
  simp only [h1]
  rw [Finset.sum_sub_distrib, Finset.sum_comm, Finset.sum_comm (f := fun v k => if N.dst k = v then _ else _)]
  simp

omit hN in
/-- At a solution the flow out of a gas node is its supply. -/
theorem outflow_supply {lastTime newTime : ℝ} (hc : Computable N newTime) {a : Args} (h : Laws N lastTime newTime a)
    (hatt : ∀ v, (N.node v).kind = .flow → ∃ k, (N.edge k).isGas ∧ (N.src k = v ∨ N.dst k = v)) (v : Fin N.nodes) :
    (if (N.node v).kind.isGas then N.outflow v a.new else 0) = N.supply newTime v a.new := by
  unfold Net.supply
  cases hk : (N.node v).kind with
  | innode =>
    simp only [NodeKind.isGas, if_true]
    by_cases hne : ∃ k, (N.edge k).isGas ∧ (N.src k = v ∨ N.dst k = v)
    · exact (h.flows v hne).1 hk
    · unfold Net.outflow
      rw [Finset.sum_eq_zero, Finset.sum_eq_zero, sub_zero]
      · intro k _; split_ifs with e1 e2; exacts [absurd ⟨k, e2, Or.inr e1⟩ hne, rfl, rfl]
      · intro k _; split_ifs with e1 e2; exacts [absurd ⟨k, e2, Or.inl e1⟩ hne, rfl, rfl]
  | flow =>
    obtain ⟨b, hb⟩ := hc.boundary v (by rw [hk]; simp)
    simp only [NodeKind.isGas, if_true, hb]
    exact (h.flows v (hatt v hk)).2 hk b hb
  | pressure => simp [NodeKind.isGas]
  | power p => simp [NodeKind.isGas]
  | plant => simp [NodeKind.isGas]

/-- The balance of one time step, from the laws. -/
theorem laws_mass {lastTime newTime : ℝ} (hc : Computable N newTime) {a : Args} (h : Laws N lastTime newTime a)
    (hatt : ∀ v, (N.node v).kind = .flow → ∃ k, (N.edge k).isGas ∧ (N.src k = v ∨ N.dst k = v)) :
    ∑ k, N.mass k a.new = ∑ k, N.mass k a.last + (newTime - lastTime) * Euler.rho0 *
      (∑ v, N.supply newTime v a.new - ∑ k, N.burnt k a.new) := by
  have h1 : ∑ k, N.mass k a.new = _ := Finset.sum_congr rfl fun k _ => edge_mass hN hc h k
  rw [h1, Finset.sum_add_distrib, ← Finset.mul_sum, Finset.sum_sub_distrib (g := fun k => N.burnt k a.new),
    ← sum_outflow hN, Finset.sum_congr rfl fun v _ => outflow_supply hc h hatt v]

end

/-- C75. Whenever the equations of a time step are solved, the mass of the gas in the network changes exactly by what
enters at the nodes minus what the power plants burn, over the time step. -/
theorem C75_gas_conserved (N : Net) (hN : Admissible N) (lastTime newTime : ℝ) (hc : Computable N newTime)
    (hatt : ∀ v, (N.node v).kind = .flow → ∃ k, (N.edge k).isGas ∧ (N.src k = v ∨ N.dst k = v)) (z : N.Point)
    (hz : N.residual lastTime newTime z = Res.ok 0) :
    ∑ k, N.mass k (ext z.2.1) = ∑ k, N.mass k (ext z.1) + (newTime - lastTime) * Euler.rho0 *
      (∑ v, N.supply newTime v (ext z.2.1) - ∑ k, N.burnt k (ext z.2.1)) := by
  obtain ⟨r, hr, h⟩ := C72_residual_iff_laws N hN lastTime newTime hc z
  rw [hz] at hr
  injection hr with hr
  exact laws_mass (a := N.args z) hN hc (h.mp hr.symm) hatt

/-- C75 over a whole simulation with any number of steps. -/
theorem C75_simulation (N : Net) (hN : Admissible N) (time : ℕ → ℝ) (hc : ∀ i, Computable N (time (i + 1)))
    (hatt : ∀ v, (N.node v).kind = .flow → ∃ k, (N.edge k).isGas ∧ (N.src k = v ∨ N.dst k = v))
    (state : ℕ → Fin N.stateCount → ℝ) (control : ℕ → Fin N.controlCount → ℝ) (steps : ℕ)
    (hz : ∀ i < steps, N.residual (time i) (time (i + 1)) (state i, state (i + 1), control (i + 1)) = Res.ok 0) :
    ∑ k, N.mass k (ext (state steps)) = ∑ k, N.mass k (ext (state 0)) +
      ∑ i ∈ Finset.range steps, (time (i + 1) - time i) * Euler.rho0 *
        (∑ v, N.supply (time (i + 1)) v (ext (state (i + 1))) - ∑ k, N.burnt k (ext (state (i + 1)))) := by
  induction steps with
  | zero => simp
  | succ m ih =>
    have := C75_gas_conserved N hN (time m) (time (m + 1)) (hc m) hatt _ (hz m (by omega))
    rw [this, ih fun i hi => hz i (by omega), Finset.sum_range_succ]
    simp only
    ring

/-- All hypotheses are met by a step in which a pipe is filled; the balance then says how much is added. -/
example : pipeNet.mass (0 : Fin 1) (ext pipePoint.2.1) =
    pipeNet.mass (0 : Fin 1) (ext pipePoint.1) + 60 * Euler.rho0 * 0.01 := by
  have hatt : ∀ v, (pipeNet.node v).kind = .flow →
      ∃ k, (pipeNet.edge k).isGas ∧ (pipeNet.src k = v ∨ pipeNet.dst k = v) := by
    show ∀ v : Fin 2, _
    intro v hv
    match v, hv with
    | 0, h => cases h
    | 1, _ => exact ⟨(0 : Fin 1), rfl, Or.inr rfl⟩
  have h := C75_gas_conserved pipeNet pipe_admissible 0 60 (pipe_computable 60) hatt pipePoint pipe_residual
  have h1 := pipe_new 1 (by norm_num)
  simp only [Nat.cast_one] at h1
  have hs : ∀ f : Fin pipeNet.edges → ℝ, ∑ k, f k = f (0 : Fin 1) := fun f => Fin.sum_univ_one f
  have hs2 : ∀ f : Fin pipeNet.nodes → ℝ, ∑ k, f k = f (0 : Fin 2) + f (1 : Fin 2) := fun f => Fin.sum_univ_two f
  have e1 : pipeNet.supply 60 (0 : Fin 2) (ext pipePoint.2.1) = 0.01 := by
    show pipeNet.outflow (0 : Fin 2) _ = _
    have : pipeNet.outflow (0 : Fin 2) (ext pipePoint.2.1) = ext pipePoint.2.1 1 - 0 := by
      unfold Net.outflow
      rw [hs, hs]
      rfl
    rw [this, h1]
    simp [pipeNew]
  have e2 : pipeNet.supply 60 (1 : Fin 2) (ext pipePoint.2.1) = 0 := rfl
  have e3 : pipeNet.burnt (0 : Fin 1) (ext pipePoint.2.1) = 0 := rfl
  rw [hs, hs, hs2, hs, e1, e2, e3] at h
  rw [h]
  ring

end Verif.Network
