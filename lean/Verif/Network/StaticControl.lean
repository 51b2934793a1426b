import Verif.Network.Static

/-!
# Property C181: in a network of short edges the states depend on the controls in an affine way
-/

set_option autoImplicit false

namespace Verif.Network

open Verif.Net Verif.Handler Verif.Newton Verif.Evolve Relation Matrix Finset

/-! ## The equations are affine in state and control -/

/-- The states before a step have no influence. -/
theorem ShortOnly.dLast_nil {N : Net} (hs : ShortOnly N) : N.dLast = Res.ok [] := by
  have edge : ∀ k, N.edgeLast k = Res.ok [] := by
    intro k
    obtain ⟨kind, n, he, hk⟩ := hs.edges k
    unfold Net.edgeLast
    rw [Admissible.gasEdge_eq.mpr ⟨kind, n, he, rfl⟩]
    cases kind with
    | pipe dx d r => exact absurd hk id
    | _ => rfl
  have nil : ∀ l : List (Fin N.edges), forEach l (fun k => N.edgeLast k) = Res.ok [] := by
    intro l
    induction l with
    | nil => rfl
    | cons k l ih => unfold forEach; rw [edge, ih]; rfl
  unfold Net.dLast
  rw [nil, nil]
  rfl

/-- The residual is affine in new state and control and independent of the last state. The matrices do not depend on the time. -/
theorem ShortOnly.affine_all {N : Net} (hN : Admissible N) (hs : ShortOnly N) :
    ∃ (M : Matrix (Fin N.stateCount) (Fin N.stateCount) ℝ) (K : Matrix (Fin N.stateCount) (Fin N.controlCount) ℝ),
      (∀ t0 t1 a, ∃ cs, N.dNew t0 t1 a = Res.ok cs ∧ matrixOf N.stateCount N.stateCount cs = M) ∧
      ∀ t0 t1, Computable N t1 → ∃ r0, ∀ z : N.Point, N.residual t0 t1 z = Res.ok (r0 + (M *ᵥ z.2.1 + K *ᵥ z.2.2)) := by
  have hN' := still_admissible hN
  have hs' : ShortOnly (still N) := ⟨hs.edges, hs.nodes⟩
  have hcomp' : Computable (still N) 0 := ⟨fun _ _ => ⟨_, rfl⟩, fun _ _ _ _ _ h => absurd h hs.noPipe⟩
  obtain ⟨-, cs, ctl, -, h, hctl, -⟩ := hN'.network_exact 0 (a₀ := (still N).args (0, 0, 0)) (hs'.regular hcomp' _)
  have h : ∀ t0 t1 a, N.dNew t0 t1 a = Res.ok cs := fun t0 t1 a => (hs.dNew_const hN t0 t1 0 0 a _).trans h
  have hctl : N.dControl = Res.ok ctl := hctl
  refine ⟨matrixOf N.stateCount N.stateCount cs, matrixOf N.stateCount N.controlCount ctl, fun t0 t1 a => ⟨cs, h _ _ _, rfl⟩, fun t0 t1 hcomp => ?_⟩
  choose g hg _ using C72_residual_iff_laws N hN t0 t1 hcomp
  have hd : ∀ z : N.Point, ∃ D : N.Point →L[ℝ] (Fin N.stateCount → ℝ), HasFDerivAt g D z ∧
      ∀ w : N.Point, D w = matrixOf N.stateCount N.stateCount cs *ᵥ w.2.1 + matrixOf N.stateCount N.controlCount ctl *ᵥ w.2.2 := by
    intro z
    obtain ⟨last, new, control, h1, h2, h3, D, ⟨g', hg', hD⟩, hm⟩ := C69_network_derivative_partial N hN t0 t1 z (hs.regular hcomp _)
    rw [hs.dLast_nil] at h1
    rw [h] at h2
    rw [hctl] at h3
    injection h1 with h1
    injection h2 with h2
    injection h3 with h3
    subst h1 h2 h3
    refine ⟨D, hD.congr_of_eventuallyEq ?_, fun w => ?_⟩
    · filter_upwards [hg'] with y hy
      rw [hg y] at hy
      injection hy
    · have hnil : matrixOf N.stateCount N.stateCount ([] : List (Contribution ℝ)) = 0 := by
        ext i j; simp [matrixOf, total]
      rw [show w = (w.1, w.2.1, w.2.2) from rfl, hm, hnil, Matrix.zero_mulVec, zero_add]
  refine ⟨g 0, fun z => ?_⟩
  rw [hg]
  congr 1
  have hline : ∀ t : ℝ, HasDerivAt (fun t : ℝ => g (t • z) - t • (matrixOf N.stateCount N.stateCount cs *ᵥ z.2.1 + matrixOf N.stateCount N.controlCount ctl *ᵥ z.2.2)) 0 t := by
    intro t
    obtain ⟨D, hD, hm⟩ := hd (t • z)
    have hpath : HasDerivAt (fun t : ℝ => t • z) z t := by simpa using (hasDerivAt_id t).smul_const z
    have hM := (hasDerivAt_id t).smul_const (matrixOf N.stateCount N.stateCount cs *ᵥ z.2.1 + matrixOf N.stateCount N.controlCount ctl *ᵥ z.2.2)
    have hcomp := hD.comp_hasDerivAt t hpath
    rw [hm] at hcomp
    have := hcomp.sub hM
    rwa [one_smul, sub_self] at this
  have hconst := is_const_of_deriv_eq_zero (fun t => (hline t).differentiableAt) (fun t => (hline t).deriv) 1 0
  simp only [one_smul, zero_smul, sub_zero] at hconst
  rw [← hconst]
  abel

/-! ## The property -/

/-- **C181.** In a network of short edges without circles, each joined to a pressure node, states of a time step depend on the controls in an affine way: states for a mean of controls
are the mean of the states, up to a multiple, the same for all times, states and controls, of the tolerance the equations are solved with. Without tolerance they agree. -/
theorem C181 (N : Net) (hN : Admissible N) (hs : ShortOnly N) (hc : NoShortCircles N) (hway : ∀ k, Supplied N (N.src k)) :
    ∃ C : ℝ, 0 ≤ C ∧ ∀ t0 t1, Computable N t1 → ∀ (lastX lastY lastZ x y z : Fin N.stateCount → ℝ) (u v : Fin N.controlCount → ℝ) (θ tol : ℝ), 0 ≤ θ → θ ≤ 1 →
      ∀ rx ry rz, N.residual t0 t1 (lastX, x, u) = Res.ok rx → N.residual t0 t1 (lastY, y, v) = Res.ok ry →
        N.residual t0 t1 (lastZ, z, θ • u + (1 - θ) • v) = Res.ok rz →
        Real.sqrt (∑ i, rx i ^ 2) ≤ tol → Real.sqrt (∑ i, ry i ^ 2) ≤ tol → Real.sqrt (∑ i, rz i ^ 2) ≤ tol →
        ∀ i, |z i - (θ * x i + (1 - θ) * y i)| ≤ C * tol := by
  obtain ⟨M, K, hM, haff⟩ := hs.affine_all hN
  obtain ⟨cs, hcs, rfl⟩ := hM 0 0 (N.args (0, 0, 0))
  have hdet := (C180_regular N hN hs 0 0 _ cs hcs).2.mpr ⟨hc, hway⟩
  set M := matrixOf N.stateCount N.stateCount cs with hMdef
  have hunit : IsUnit M.det := isUnit_iff_ne_zero.mpr hdet
  refine ⟨∑ i, ∑ j, |M⁻¹ i j| * 2, by positivity, fun t0 t1 hcomp lastX lastY lastZ x y z u v θ tol h0 h1 rx ry rz hx hy hz bx bY bz i => ?_⟩
  obtain ⟨r0, hr0⟩ := haff t0 t1 hcomp
  rw [hr0] at hx hy hz
  injection hx with hx
  injection hy with hy
  injection hz with hz
  have key : M *ᵥ (z - (θ • x + (1 - θ) • y)) = rz - (θ • rx + (1 - θ) • ry) := by
    rw [← hx, ← hy, ← hz]
    simp only [Matrix.mulVec_sub, Matrix.mulVec_add, Matrix.mulVec_smul]
    funext j
    simp only [Pi.sub_apply, Pi.add_apply, Pi.smul_apply, smul_eq_mul]
    ring
  have hsol : z - (θ • x + (1 - θ) • y) = M⁻¹ *ᵥ (rz - (θ • rx + (1 - θ) • ry)) := by
    rw [← key, Matrix.mulVec_mulVec, Matrix.nonsing_inv_mul _ hunit, Matrix.one_mulVec]
  have hi : z i - (θ * x i + (1 - θ) * y i) = ∑ j, M⁻¹ i j * (rz j - (θ * rx j + (1 - θ) * ry j)) := congrFun hsol i
  have ht : 0 ≤ tol := (Real.sqrt_nonneg _).trans bx
  have hj : ∀ j, |rz j - (θ * rx j + (1 - θ) * ry j)| ≤ 2 * tol := by
    intro j
    have e1 := abs_le.mp ((entry_le_norm rx j).trans bx)
    have e2 := abs_le.mp ((entry_le_norm ry j).trans bY)
    have e3 := abs_le.mp ((entry_le_norm rz j).trans bz)
    rw [abs_le]
    constructor <;> nlinarith
  rw [hi]
  calc |∑ j, M⁻¹ i j * (rz j - (θ * rx j + (1 - θ) * ry j))| ≤ ∑ j, |M⁻¹ i j * (rz j - (θ * rx j + (1 - θ) * ry j))| := abs_sum_le_sum_abs _ _
    _ ≤ ∑ j, |M⁻¹ i j| * 2 * tol := sum_le_sum fun j _ => by
        rw [abs_mul, mul_assoc]
        exact mul_le_mul_of_nonneg_left (hj j) (abs_nonneg _)
    _ = (∑ j, |M⁻¹ i j| * 2) * tol := by rw [sum_mul]
    _ ≤ (∑ i, ∑ j, |M⁻¹ i j| * 2) * tol := mul_le_mul_of_nonneg_right
        (single_le_sum (f := fun i => ∑ j, |M⁻¹ i j| * 2) (fun _ _ => sum_nonneg fun _ _ => by positivity) (mem_univ i)) ht

end Verif.Network
