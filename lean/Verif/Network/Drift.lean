import Verif.Network.Defect

/-!
# Property C84: how much gas an inexactly solved simulation can lose

If the residuals of all steps are at most `ε`, the mass in the pipes differs from what the flows at the boundary say
by at most `ε` times a number computed from the shape of the network and the time steps.
-/

set_option autoImplicit false

namespace Verif.Network

open Verif.Net Finset

/-! ## Specification -/

namespace Net
variable (N : Net)

/-- What an edge can contribute to the error of one step, for residuals of size one: a pipe its volume, a short
component the mass that flows in one step at the unit of flow. -/
noncomputable def edgeSlack (dt : ℝ) (k : Fin N.edges) : ℝ :=
  match N.edge k with
  | .gas (.pipe dx d _) n => |dx| * SmoothAbs.circleArea (0.5 * d) * ((n - 1 : ℕ) : ℝ)
  | .gas .shortpipe _ | .gas .controlvalve _ | .gas .compressor _ => |dt| * Euler.rho0
  | _ => 0

/-- What a node can contribute. -/
noncomputable def nodeSlack (dt : ℝ) (v : Fin N.nodes) : ℝ :=
  match (N.node v).kind with
  | .innode | .flow => |dt| * Euler.rho0
  | _ => 0

/-- What all of them can contribute. -/
noncomputable def slack (dt : ℝ) : ℝ := ∑ k, N.edgeSlack dt k + ∑ v, N.nodeSlack dt v

end Net

/-! ## Proof -/

theorem rho0_pos : 0 < Euler.rho0 := by unfold Euler.rho0; norm_num

/-- The mass balance of a pipe with residuals. -/
theorem pipe_drift {d k : ℝ} (hp : Euler.RealPipe d k) (lastTime newTime dx : ℝ) (hdx : dx ≠ 0) (n : ℕ)
    (last new : ℕ → ℝ × ℝ) {ε : ℝ}
    (hres : ∀ i < n, ∃ w : ℝ × ℝ, Box.evaluatePoint (Box.eulerLaw d k) lastTime newTime dx (last i) (last (i + 1))
      (new i) (new (i + 1)) = Res.ok w ∧ |w.1| ≤ ε) :
    |∑ i ∈ range n, dx * SmoothAbs.circleArea (0.5 * d) * (((new i).1 + (new (i + 1)).1) / 2) -
      ∑ i ∈ range n, dx * SmoothAbs.circleArea (0.5 * d) * (((last i).1 + (last (i + 1)).1) / 2) -
      (newTime - lastTime) * Euler.rho0 * ((new 0).2 - (new n).2)| ≤
      ε * (|dx| * SmoothAbs.circleArea (0.5 * d) * n) := by
  classical
  have hA := Euler.area_pos hp.pos
  choose! w hw hw1 using hres
  have hsrc : ∀ i ≤ n, (Box.eulerLaw d k).source (new i) = Res.ok (Euler.valueOf (Euler.source d k (new i))) := by
    intro i _
    simp only [Box.eulerLaw]
    rw [Euler.C34_source_defined hp]; rfl
  have h0 : ∀ i, (Euler.valueOf (Euler.source d k (new i))).1 = 0 := by
    intro i; rw [Euler.C34_source_defined hp]; rfl
  have h := congrArg Prod.fst
    (Box.C30_balance (Box.eulerLaw d k) lastTime newTime dx hdx n last new w _ hsrc hw)
  simp only [smul_zero, sum_const_zero, Prod.fst_sub, Prod.smul_fst, Prod.fst_sum, Prod.fst_add, h0,
    add_zero, smul_eq_mul, mul_zero, sub_zero] at h
  have hf : ∀ s : ℝ × ℝ, ((Box.eulerLaw d k).flux s).1 = Euler.rho0 / SmoothAbs.circleArea (0.5 * d) * s.2 :=
    fun _ => rfl
  rw [hf, hf] at h
  have e : ∀ f : ℕ → ℝ × ℝ,
      ∑ i ∈ range n, dx * SmoothAbs.circleArea (0.5 * d) * (((f i).1 + (f (i + 1)).1) / 2) =
      SmoothAbs.circleArea (0.5 * d) * ∑ i ∈ range n, dx / 2 * ((f i).1 + (f (i + 1)).1) := by
    intro f; rw [mul_sum]; refine sum_congr rfl fun i _ => by ring
  have e2 : ∑ i ∈ range n, dx * SmoothAbs.circleArea (0.5 * d) * (((new i).1 + (new (i + 1)).1) / 2) -
      ∑ i ∈ range n, dx * SmoothAbs.circleArea (0.5 * d) * (((last i).1 + (last (i + 1)).1) / 2) -
      (newTime - lastTime) * Euler.rho0 * ((new 0).2 - (new n).2) =
      SmoothAbs.circleArea (0.5 * d) * ∑ i ∈ range n, dx * (w i).1 := by
    rw [e, e, h]
    have hA' : SmoothAbs.circleArea (0.5 * d) ≠ 0 := hA.ne'
    field_simp
  rw [e2, abs_mul, abs_of_pos hA]
  have h3 : |∑ i ∈ range n, dx * (w i).1| ≤ ∑ _i ∈ range n, |dx| * ε := by
    refine (abs_sum_le_sum_abs _ _).trans (sum_le_sum fun i hi => ?_)
    rw [abs_mul]
    exact mul_le_mul_of_nonneg_left (hw1 i (mem_range.mp hi)) (abs_nonneg _)
  rw [sum_const, card_range, nsmul_eq_mul] at h3
  calc _ ≤ SmoothAbs.circleArea (0.5 * d) * (n * (|dx| * ε)) := mul_le_mul_of_nonneg_left h3 hA.le
    _ = _ := by ring

section
variable {N : Net} (hN : Admissible N)
include hN

/-- Mass balance of an edge. -/
theorem edge_drift {ε lastTime newTime : ℝ} (hc : Computable N newTime) {a : Args}
    (h : LawsWithin N ε lastTime newTime a) (k : Fin N.edges) :
    |N.mass k a.new - N.mass k a.last - (newTime - lastTime) * Euler.rho0 *
      ((if (N.edge k).isGas then N.startFlow k a.new else 0) -
        (if (N.edge k).isGas ∧ (N.node (N.dst k)).kind.isGas then N.endFlow k a.new else 0) - N.burnt k a.new)| ≤
      ε * N.edgeSlack (newTime - lastTime) k := by
  have hlen := Admissible.edgeRange_length (k := k)
  unfold Net.mass Net.burnt Net.edgeSlack
  cases hk : N.edge k with
  | line G B => simp [EdgeKind.isGas]
  | gas kind n =>
    have hshort : kind.isShort → |(0 : ℝ) - 0 - (newTime - lastTime) * Euler.rho0 *
        (N.startFlow k a.new - (if (N.node (N.dst k)).kind.isGas then N.endFlow k a.new else 0) - 0)| ≤
        ε * (|newTime - lastTime| * Euler.rho0) := by
      intro hs
      have hd := hN.gasEnd k kind n hk (by rintro g p rfl; exact hs.elim)
      rw [if_pos hd, sub_zero, sub_zero, zero_sub, abs_neg, abs_mul, abs_mul, abs_of_pos rho0_pos, mul_comm ε]
      exact mul_le_mul_of_nonneg_left (h.short k kind n hk hs).2
        (mul_nonneg (abs_nonneg _) rho0_pos.le)
    cases kind with
    | shortpipe => simpa [EdgeKind.isGas] using hshort trivial
    | controlvalve => simpa [EdgeKind.isGas] using hshort trivial
    | compressor => simpa [EdgeKind.isGas] using hshort trivial
    | gaspower g p =>
      have hd := isPlant_not_gas (hN.plantEnd k g p n hk)
      simp [EdgeKind.isGas, hd]
    | pipe dx d r =>
      have hd := hN.gasEnd k _ n hk (by simp)
      obtain ⟨hdx, hp⟩ := hc.pipes k dx d r n hk
      have hn := hN.points k dx d r n hk
      have hb := pipe_drift hp lastTime newTime dx hdx (n - 1) (ε := ε)
        (fun j => Net.segment a.last ((N.edgeRange k).1 + 2 * j)) (fun j => Net.segment a.new ((N.edgeRange k).1 + 2 * j))
        (fun j hj => by
          obtain ⟨w, h1, h2, -⟩ := h.pipes k dx d r n hk j (by omega)
          push_cast
          exact ⟨w, h1, h2⟩)
      simp only [Net.segment] at hb
      push_cast at hb
      simp only [EdgeKind.isGas, hd, and_self, if_true, sub_zero]
      have e1 : N.startFlow k a.new = a.new ((N.edgeRange k).1 + 2 * 0 + 1) := by
        unfold Net.startFlow; rw [mul_zero, add_zero]
      have e2 : N.endFlow k a.new = a.new ((N.edgeRange k).1 + 2 * ((n - 1 : ℕ) : ℤ) + 1) := by
        unfold Net.endFlow
        rw [hk] at hlen
        simp only [edgeNeed] at hlen
        congr 1
        push_cast [Nat.cast_sub (show 1 ≤ n by omega)] at hlen ⊢
        omega
      rw [e1, e2]
      exact hb

omit hN in
/-- The flow out of a gas node is nearly its supply. -/
theorem outflow_drift {ε lastTime newTime : ℝ} (hε : 0 ≤ ε) (hc : Computable N newTime) {a : Args}
    (h : LawsWithin N ε lastTime newTime a)
    (hatt : ∀ v, (N.node v).kind = .flow → ∃ k, (N.edge k).isGas ∧ (N.src k = v ∨ N.dst k = v)) (v : Fin N.nodes) :
    |(newTime - lastTime) * Euler.rho0 *
      ((if (N.node v).kind.isGas then N.outflow v a.new else 0) - N.supply newTime v a.new)| ≤
      ε * N.nodeSlack (newTime - lastTime) v := by
  have hmul : ∀ x : ℝ, |x| ≤ ε → |(newTime - lastTime) * Euler.rho0 * x| ≤ ε * (|newTime - lastTime| * Euler.rho0) := by
    intro x hx
    rw [abs_mul, abs_mul, abs_of_pos rho0_pos, mul_comm ε]
    exact mul_le_mul_of_nonneg_left hx (mul_nonneg (abs_nonneg _) rho0_pos.le)
  unfold Net.supply Net.nodeSlack
  cases hk : (N.node v).kind with
  | innode =>
    simp only [NodeKind.isGas, if_true, sub_zero]
    refine hmul _ ?_
    by_cases hne : ∃ k, (N.edge k).isGas ∧ (N.src k = v ∨ N.dst k = v)
    · exact (h.flows v hne).1 hk
    · have : N.outflow v a.new = 0 := by
        unfold Net.outflow
        rw [Finset.sum_eq_zero, Finset.sum_eq_zero, sub_zero]
        · intro k _; split_ifs with e1 e2; exacts [absurd ⟨k, e2, Or.inr e1⟩ hne, rfl, rfl]
        · intro k _; split_ifs with e1 e2; exacts [absurd ⟨k, e2, Or.inl e1⟩ hne, rfl, rfl]
      rw [this, abs_zero]
      exact hε
  | flow =>
    obtain ⟨b, hb⟩ := hc.boundary v (by rw [hk]; simp)
    simp only [NodeKind.isGas, if_true, hb]
    exact hmul _ ((h.flows v (hatt v hk)).2 hk b hb)
  | pressure => simp [NodeKind.isGas]
  | power p => simp [NodeKind.isGas]
  | plant => simp [NodeKind.isGas]

/-- One time step. -/
theorem laws_drift {ε lastTime newTime : ℝ} (hε : 0 ≤ ε) (hc : Computable N newTime) {a : Args}
    (h : LawsWithin N ε lastTime newTime a)
    (hatt : ∀ v, (N.node v).kind = .flow → ∃ k, (N.edge k).isGas ∧ (N.src k = v ∨ N.dst k = v)) :
    |∑ k, N.mass k a.new - ∑ k, N.mass k a.last - (newTime - lastTime) * Euler.rho0 *
      (∑ v, N.supply newTime v a.new - ∑ k, N.burnt k a.new)| ≤ ε * N.slack (newTime - lastTime) := by
  set c := (newTime - lastTime) * Euler.rho0 with hcdef
  have hsplit : ∑ k, N.mass k a.new - ∑ k, N.mass k a.last - c *
      (∑ v, N.supply newTime v a.new - ∑ k, N.burnt k a.new) =
      ∑ k, (N.mass k a.new - N.mass k a.last - c *
        ((if (N.edge k).isGas then N.startFlow k a.new else 0) -
        (if (N.edge k).isGas ∧ (N.node (N.dst k)).kind.isGas then N.endFlow k a.new else 0) - N.burnt k a.new)) +
      ∑ v, c * ((if (N.node v).kind.isGas then N.outflow v a.new else 0) - N.supply newTime v a.new) := by
    rw [← Finset.mul_sum, Finset.sum_sub_distrib (f := fun v => if (N.node v).kind.isGas then N.outflow v a.new else 0),
      sum_outflow hN, Finset.sum_sub_distrib, Finset.sum_sub_distrib, ← Finset.mul_sum,
      Finset.sum_sub_distrib (g := fun k => N.burnt k a.new)]
    ring
  rw [hsplit]
  refine (abs_add_le _ _).trans ?_
  unfold Net.slack
  rw [mul_add]
  refine add_le_add ?_ ?_
  · rw [Finset.mul_sum]
    exact (abs_sum_le_sum_abs _ _).trans (sum_le_sum fun k _ => edge_drift hN hc h k)
  · rw [Finset.mul_sum]
    exact (abs_sum_le_sum_abs _ _).trans (sum_le_sum fun v _ => outflow_drift hε hc h hatt v)

end

/-- C84. Over any number of steps whose residuals are at most `ε`, the mass of the gas in the network differs from the
balance of what enters and what is burnt by at most `ε` times the sum of the slacks of the steps. -/
theorem C84_drift (N : Net) (hN : Admissible N) (time : ℕ → ℝ) (hc : ∀ i, Computable N (time (i + 1)))
    (hatt : ∀ v, (N.node v).kind = .flow → ∃ k, (N.edge k).isGas ∧ (N.src k = v ∨ N.dst k = v))
    (state : ℕ → Fin N.stateCount → ℝ) (control : ℕ → Fin N.controlCount → ℝ) (steps : ℕ) (ε : ℝ) (hε : 0 ≤ ε)
    (hz : ∀ i < steps, ∃ r, N.residual (time i) (time (i + 1)) (state i, state (i + 1), control (i + 1)) = Res.ok r ∧
      ∀ j, |r j| ≤ ε) :
    |∑ k, N.mass k (ext (state steps)) - (∑ k, N.mass k (ext (state 0)) +
      ∑ i ∈ Finset.range steps, (time (i + 1) - time i) * Euler.rho0 *
        (∑ v, N.supply (time (i + 1)) v (ext (state (i + 1))) - ∑ k, N.burnt k (ext (state (i + 1)))))| ≤
      ε * ∑ i ∈ Finset.range steps, N.slack (time (i + 1) - time i) := by
  induction steps with
  | zero => simp
  | succ m ih =>
    obtain ⟨r, hr, hrε⟩ := hz m (by omega)
    obtain ⟨r', hr', h⟩ := C83_laws_within N hN (time m) (time (m + 1)) (hc m)
      (state m, state (m + 1), control (m + 1))
    rw [hr] at hr'
    injection hr' with hr'
    subst hr'
    have h1 := laws_drift hN hε (hc m) (h ε hε hrε) hatt
    have h2 := ih fun i hi => hz i (by omega)
    rw [Finset.sum_range_succ, Finset.sum_range_succ, mul_add]
    refine le_trans (le_of_eq_of_le ?_ (abs_add_le _ _)) (add_le_add h2 h1)
    congr 1
    simp only [Net.args]
    ring

end Verif.Network
