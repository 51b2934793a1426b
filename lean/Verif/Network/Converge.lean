import Verif.Network.Smooth
import Verif.Network.Symmetry
import Verif.Newton.Local
import Mathlib.Topology.Instances.Matrix
import Mathlib.LinearAlgebra.Matrix.NonsingularInverse

/-! # Property C118: close to a solution the Newton solver finds one -/

set_option autoImplicit false

namespace Verif.Network

open Verif.Net Verif.Newton Verif.Evolve Verif.Handler Filter Topology

/-! ## Specification -/

/-- The linear solver solves every system with an invertible matrix. -/
def Solves {n : ℕ} (factor : Option (Res (List (Contribution ℝ))) → Option (Option (Fin n → ℝ) → Option (Fin n → ℝ))) : Prop :=
  ∀ entries, (matrixOf n n entries).det ≠ 0 →
    ∃ slv, factor (some (Res.ok entries)) = some slv ∧ ∀ w, ∃ v, slv (some w) = some v ∧ (matrixOf n n entries).mulVec v = w

/-! ## The estimate near a regular solution -/

/-- The Euclidean norm. -/
noncomputable def eu {n : ℕ} (v : Fin n → ℝ) : ℝ := Real.sqrt (∑ i, v i ^ 2)

theorem norm_le_eu {n : ℕ} (v : Fin n → ℝ) : ‖v‖ ≤ eu v :=
  (pi_norm_le_iff_of_nonneg (Real.sqrt_nonneg _)).mpr fun i => entry_le_norm v i

theorem eu_le {n : ℕ} (v : Fin n → ℝ) : eu v ≤ (n + 1) * ‖v‖ := by
  refine Real.sqrt_le_iff.mpr ⟨by positivity, ?_⟩
  have h : ∑ i, v i ^ 2 ≤ ∑ _i : Fin n, ‖v‖ ^ 2 := by
    refine Finset.sum_le_sum fun i _ => ?_
    have := norm_le_pi_norm v i
    rw [Real.norm_eq_abs] at this
    rw [← sq_abs]
    exact pow_le_pow_left₀ (abs_nonneg _) this 2
  rw [Finset.sum_const, Finset.card_univ, Fintype.card_fin, nsmul_eq_mul] at h
  refine h.trans ?_
  rw [mul_pow]
  refine mul_le_mul_of_nonneg_right ?_ (sq_nonneg _)
  nlinarith [(Nat.cast_nonneg n : (0 : ℝ) ≤ n)]

/-- At a regular point nothing is divided by zero. -/
theorem Regular.finite {N : Net} {t : ℝ} {new : Vec} (h : Regular N t new) : N.Finite new := by
  intro k dx d r n hk j hj
  obtain ⟨-, -, hp⟩ := h.pipes k dx d r n hk
  have hr : (N.edgeRange k).2 = (N.edgeRange k).1 + 2 * n := by
    have := Admissible.edgeRange_length (k := k)
    rw [hk] at this
    exact this
  have := (hp ((N.edgeRange k).1 + 2 * j) (by omega) (by omega) (by omega)).1
  refine ⟨this.ne', ?_⟩
  exact (Euler.C31_density_round_trip _).2 this.le

/-- The inverse of a matrix depends continuously on it. -/
theorem continuousAt_matrix_inv {n : ℕ} {A : Matrix (Fin n) (Fin n) ℝ} (h : A.det ≠ 0) :
    ContinuousAt (fun A : Matrix (Fin n) (Fin n) ℝ => A⁻¹) A := by
  have e : (fun A : Matrix (Fin n) (Fin n) ℝ => A⁻¹) = fun A => (A.det)⁻¹ • A.adjugate := by
    funext A
    rw [Matrix.inv_def, Ring.inverse_eq_inv']
  rw [e]
  exact ((Continuous.matrix_det continuous_id).continuousAt.inv₀ h).smul (Continuous.matrix_adjugate continuous_id).continuousAt

/-- The radius and the constants of the estimates around the regular point `z` with an invertible derivative. -/
theorem Admissible.nice {N : Net} (hN : Admissible N)
    {factor : Option (Res (List (Contribution ℝ))) → Option (Option (Fin N.stateCount → ℝ) → Option (Fin N.stateCount → ℝ))}
    (hfac : Solves factor) (s : ℝ) {t : ℝ} {z : N.Point} (hr : Regular N t (ext z.2.1)) (hdet : (N.newMatrix s t z).det ≠ 0) :
    ∃ (g : N.Point → Fin N.stateCount → ℝ) (r ε M C L : ℝ), 0 < r ∧ 0 < M ∧ 0 ≤ L ∧ ContinuousAt g z ∧
      (∀ w ∈ Metric.ball z r, Regular N t (ext w.2.1) ∧ N.residual s t w = Res.ok (g w)) ∧
      (∀ w ∈ Metric.ball z r, ∀ w' ∈ Metric.ball z r, ‖g w - g w'‖ ≤ L * ‖w - w'‖) ∧
      ∀ l ∈ Metric.ball z.1 r, ∀ c ∈ Metric.ball z.2.2 r,
        Represents (N.newton factor s t (some l) c) (fun x => g (l, x, c)) (Metric.ball z.2.1 r)
          (fun b => mulVecL _ _ (N.newMatrix s t (l, b, c))⁻¹) eu eu ∧
        Nice (fun x => g (l, x, c)) (fun b => mulVecL _ _ (N.newMatrix s t (l, b, c)))
          (fun b => mulVecL _ _ (N.newMatrix s t (l, b, c))⁻¹) eu eu z.2.1 r ε M C := by
  obtain ⟨g, last, control, -, -, hg, hD⟩ := hN.residual_strict s hr
  have hA := hN.newMatrix_continuous s hr
  have hreg : ∀ᶠ x in 𝓝 z, Regular N t (ext x.2.1) :=
    hr.near (s := fun x : N.Point => ext x.2.1) fun j => ((ext_continuous j).comp (continuous_fst.comp continuous_snd)).continuousAt
  have hdet' : ∀ᶠ x in 𝓝 z, (N.newMatrix s t x).det ≠ 0 :=
    ((Continuous.matrix_det continuous_id).continuousAt.comp (f := N.newMatrix s t) hA).eventually_ne hdet
  have hL1 : ContinuousAt (fun x => mulVecL _ _ (N.newMatrix s t x)) z := (continuous_mulVecL _ _).continuousAt.comp hA
  have hL2 : ContinuousAt (fun x => mulVecL _ _ (N.newMatrix s t x)⁻¹) z :=
    (continuous_mulVecL _ _).continuousAt.comp ((continuousAt_matrix_inv hdet).comp hA)
  set M : ℝ := ‖mulVecL _ _ (N.newMatrix s t z)⁻¹‖ + 1 with hM
  have hM0 : 0 < M := by positivity
  set C : ℝ := N.stateCount + 1 with hC
  have hC1 : 1 ≤ C := by rw [hC]; linarith [(Nat.cast_nonneg N.stateCount : (0 : ℝ) ≤ N.stateCount)]
  set ε : ℝ := 1 / (2 * (C * C * M)) with hε
  have hε0 : 0 < ε := by positivity
  have b1 : ∀ᶠ x in 𝓝 z, ‖mulVecL _ _ (N.newMatrix s t x)⁻¹‖ < M := by
    refine hL2.norm.eventually_lt continuousAt_const ?_
    rw [hM]
    linarith
  have b2 : ∀ᶠ x in 𝓝 z, ‖mulVecL _ _ (N.newMatrix s t x) - mulVecL _ _ (N.newMatrix s t z)‖ < ε / 2 := by
    refine (hL1.sub continuousAt_const).norm.eventually_lt continuousAt_const ?_
    rw [Pi.sub_apply, sub_self, norm_zero]
    positivity
  have b3 := hD.isLittleO.def (show 0 < ε / 2 by positivity)
  have b4 := hD.exists_lipschitzOnWith
  obtain ⟨K, U, hU, hK⟩ := b4
  rw [nhds_prod_eq] at b3
  obtain ⟨P, hP, Q, hQ, b3⟩ := eventually_prod_iff.mp b3
  obtain ⟨r, hr0, hball⟩ := Metric.eventually_nhds_iff_ball.mp
    ((((((hg.and hreg).and hdet').and b1).and b2).and (hP.and hQ)).and (Filter.eventually_mem_set.mpr hU))
  have hin : ∀ l ∈ Metric.ball z.1 r, ∀ c ∈ Metric.ball z.2.2 r, ∀ b ∈ Metric.ball z.2.1 r, (l, b, c) ∈ Metric.ball z r := by
    intro l hl c hc b hb
    rw [Metric.mem_ball] at hl hc hb ⊢
    exact max_lt hl (max_lt hb hc)
  refine ⟨g, r, ε, M, C, K, hr0, hM0, K.2, hD.continuousAt, fun w hw => ?_, fun w hw w' hw' => ?_, fun l hl c hc => ⟨?_, ?_⟩⟩
  · obtain ⟨⟨⟨⟨⟨⟨a1, a2⟩, -⟩, -⟩, -⟩, -⟩, -⟩ := hball w hw
    exact ⟨a2, a1⟩
  · have := hK.dist_le_mul w (hball w hw).2 w' (hball w' hw').2
    rwa [dist_eq_norm, dist_eq_norm] at this
  · refine ⟨fun x hx => ?_, fun x hx => ?_, fun v => rfl, fun w => rfl, fun x a y => rfl, fun x => rfl⟩
    · obtain ⟨⟨⟨⟨⟨⟨a1, a2⟩, -⟩, -⟩, -⟩, -⟩, -⟩ := hball _ (hin l hl c hc x hx)
      exact (newton_evaluate N factor s t l x c).1 a2.finite _ a1
    · obtain ⟨⟨⟨⟨⟨⟨a1, a2⟩, a3⟩, -⟩, -⟩, -⟩, -⟩ := hball _ (hin l hl c hc x hx)
      obtain ⟨-, new, -, -, hn, -⟩ := C69_network_derivative_partial N hN s t (l, x, c) a2
      have hm : N.newMatrix s t (l, x, c) = matrixOf _ _ new := by unfold Net.newMatrix; rw [hn]
      rw [hm] at a3
      obtain ⟨slv, e1, e2⟩ := hfac new a3
      refine ⟨slv, ?_, fun w => ?_⟩
      · show N.factorized factor s t (some l) c (some x) = some slv
        simp only [Net.factorized, hn, e1]
      · obtain ⟨v, e3, e4⟩ := e2 w
        rw [e3, mulVecL_apply, hm, ← e4, Matrix.mulVec_mulVec, Matrix.nonsing_inv_mul _ (isUnit_iff_ne_zero.mpr a3), Matrix.one_mulVec]
  · have hinv : ∀ b ∈ Metric.ball z.2.1 r, IsUnit (N.newMatrix s t (l, b, c)).det := by
      intro b hb
      obtain ⟨⟨⟨⟨⟨-, a3⟩, -⟩, -⟩, -⟩, -⟩ := hball _ (hin l hl c hc b hb)
      exact isUnit_iff_ne_zero.mpr a3
    refine ⟨fun x hx x' hx' b hb => ?_, fun b hb w => ?_, fun b hb w => ?_, fun b hb w => ?_, fun v => ⟨eu_le v, ?_⟩, fun v => ⟨eu_le v, ?_⟩, hC1,
      hε0.le, hM0.le, ?_⟩
    · obtain ⟨-, ⟨p1, -⟩⟩ := (hball _ (hin l hl c hc x hx)).1
      obtain ⟨-, ⟨-, q1⟩⟩ := (hball _ (hin l hl c hc x' hx')).1
      obtain ⟨⟨-, d1⟩, -⟩ := (hball _ (hin l hl c hc b hb)).1
      have := b3 p1 q1
      have e : ((l, x, c) : N.Point) - (l, x', c) = (0, x - x', 0) := by simp
      simp only [e, derivativeOf_apply, Matrix.mulVec_zero, zero_add, add_zero] at this
      have hnorm : ‖((0, x - x', 0) : N.Point)‖ = ‖x - x'‖ := by simp [Prod.norm_def]
      rw [hnorm] at this
      have hd : ‖mulVecL _ _ (N.newMatrix s t (l, b, c)) (x - x') - mulVecL _ _ (N.newMatrix s t z) (x - x')‖ ≤ ε / 2 * ‖x - x'‖ := by
        rw [← sub_apply]
        exact (ContinuousLinearMap.le_opNorm _ _).trans (mul_le_mul_of_nonneg_right d1.le (norm_nonneg _))
      calc ‖g (l, x, c) - g (l, x', c) - mulVecL _ _ (N.newMatrix s t (l, b, c)) (x - x')‖
          = ‖(g (l, x, c) - g (l, x', c) - (N.newMatrix s t z).mulVec (x - x')) -
              (mulVecL _ _ (N.newMatrix s t (l, b, c)) (x - x') - mulVecL _ _ (N.newMatrix s t z) (x - x'))‖ := by
            rw [← mulVecL_apply]; congr 1; abel
        _ ≤ _ := norm_sub_le _ _
        _ ≤ ε / 2 * ‖x - x'‖ + ε / 2 * ‖x - x'‖ := add_le_add this hd
        _ = ε * ‖x - x'‖ := by ring
    · obtain ⟨⟨⟨-, a3⟩, -⟩, -⟩ := (hball _ (hin l hl c hc b hb)).1
      exact (ContinuousLinearMap.le_opNorm _ _).trans (mul_le_mul_of_nonneg_right a3.le (norm_nonneg _))
    · rw [mulVecL_apply, mulVecL_apply, Matrix.mulVec_mulVec, Matrix.mul_nonsing_inv _ (hinv b hb), Matrix.one_mulVec]
    · rw [mulVecL_apply, mulVecL_apply, Matrix.mulVec_mulVec, Matrix.nonsing_inv_mul _ (hinv b hb), Matrix.one_mulVec]
    · exact (norm_le_eu v).trans (le_mul_of_one_le_left (Real.sqrt_nonneg _) hC1)
    · exact (norm_le_eu v).trans (le_mul_of_one_le_left (Real.sqrt_nonneg _) hC1)
    · rw [hε]
      field_simp
      exact le_rfl

/-! ## One time step -/

/-- C118. Let the state `z.2.1` solve the equations of a time step of an admissible network exactly, with the last state `z.1` and the control
`z.2.2`, let it be regular, and let the matrix the components fill be invertible there. Then there is a radius such that the Newton solver
succeeds for every last state, every control and every guess within that radius, for every positive tolerance: in both modes, without
damping, and with a number of iterations that depends on the tolerance only. The state it finds is free of NaN and meets the
tolerance, and it differs from the exact solution by at most a constant times the tolerance and the differences of last state and control.
(`‖v‖` is the greatest absolute value of the entries.) -/
theorem C118_step (N : Net) (hN : Admissible N)
    (factor : Option (Res (List (Contribution ℝ))) → Option (Option (Fin N.stateCount → ℝ) → Option (Fin N.stateCount → ℝ)))
    (hfac : Solves factor) (s t : ℝ) (z : N.Point) (hr : Regular N t (ext z.2.1)) (hz : N.residual s t z = Res.ok 0)
    (hdet : (N.newMatrix s t z).det ≠ 0) :
    ∃ r > 0, ∃ K > 0, ∀ tol > 0, ∃ m : ℕ, ∀ (last guess : Fin N.stateCount → ℝ) (control : Fin N.controlCount → ℝ),
      ‖last - z.1‖ < r → ‖guess - z.2.1‖ < r → ‖control - z.2.2‖ < r → ∀ maxIter : ℤ, m ≤ maxIter → ∀ (full : Bool) (fuel : ℕ),
      ∃ y sol, solve (N.newton factor s t (some last) control) tol maxIter full fuel (some guess) = some (Res.ok (some y, sol)) ∧
        sol.success = true ∧ sol.used ≤ m ∧ Regular N t (ext y) ∧
        (∃ f, N.residual s t (last, y, control) = Res.ok f ∧ Real.sqrt (∑ i, f i ^ 2) ≤ tol) ∧
        ‖y - z.2.1‖ ≤ K * (tol + ‖last - z.1‖ + ‖control - z.2.2‖) := by
  obtain ⟨g, r₀, ε, M, C, L, hr0, hM, hL, hg, hres, hlip, hnice⟩ := hN.nice hfac s hr hdet
  have hg0 : g z = 0 := by
    have := (hres z (Metric.mem_ball_self hr0)).2
    rw [hz] at this
    injection this with this
    exact this.symm
  have hcont : ContinuousAt (fun w : N.Point => ‖w.2.1 - z.2.1‖ + 2 * (M * ‖g w‖)) z :=
    (((continuous_fst.comp continuous_snd).continuousAt.sub continuousAt_const).norm).add
      (continuousAt_const.mul (continuousAt_const.mul hg.norm))
  have hev := hcont.eventually_lt (continuousAt_const (y := r₀)) (by simpa [hg0] using hr0)
  obtain ⟨r₁, hr1, hball⟩ := Metric.eventually_nhds_iff_ball.mp hev
  have hmin : 0 < min r₀ r₁ := lt_min hr0 hr1
  refine ⟨min r₀ r₁, hmin, 2 * (M * (1 + L)), by positivity, fun tol htol => ?_⟩
  have hC : 0 < C := zero_lt_one.trans_le (hnice z.1 (Metric.mem_ball_self hr0) z.2.2 (Metric.mem_ball_self hr0)).2.one
  obtain ⟨m, hm⟩ := exists_pow_lt_of_lt_one (show 0 < tol / (C * (r₀ / (2 * M))) by positivity) (show (1 / 2 : ℝ) < 1 by norm_num)
  refine ⟨m, fun l x c hl hx hc maxIter hmax full fuel => ?_⟩
  have hl' : l ∈ Metric.ball z.1 r₀ := mem_ball_iff_norm.mpr (hl.trans_le (min_le_left _ _))
  have hc' : c ∈ Metric.ball z.2.2 r₀ := mem_ball_iff_norm.mpr (hc.trans_le (min_le_left _ _))
  have hin : ∀ b ∈ Metric.ball z.2.1 r₀, (l, b, c) ∈ Metric.ball z r₀ := fun b hb =>
    Metric.mem_ball.mpr (max_lt (Metric.mem_ball.mp hl') (max_lt (Metric.mem_ball.mp hb) (Metric.mem_ball.mp hc')))
  obtain ⟨hS, hn⟩ := hnice l hl' c hc'
  have hstart := hball (l, x, c) (mem_ball_iff_norm.mpr (max_lt (hl.trans_le (min_le_right _ _))
    (max_lt (hx.trans_le (min_le_right _ _)) (hc.trans_le (min_le_right _ _)))))
  have hF : C * ((1 / 2) ^ m * ‖g (l, x, c)‖) ≤ tol := by
    have h1 : ‖g (l, x, c)‖ ≤ r₀ / (2 * M) := by
      rw [le_div_iff₀ (by positivity)]
      have := norm_nonneg (x - z.2.1)
      simp only at hstart
      linarith
    have h2 := hm.le
    rw [le_div_iff₀ (by positivity)] at h2
    calc C * ((1 / 2) ^ m * ‖g (l, x, c)‖) ≤ C * ((1 / 2) ^ m * (r₀ / (2 * M))) := by gcongr
      _ = (1 / 2) ^ m * (C * (r₀ / (2 * M))) := by ring
      _ ≤ tol := h2
  obtain ⟨y, sol, e1, e2, e3, e4, -, e6⟩ := solve_converges hS hn hstart hF hmax full fuel
  obtain ⟨e7, e8⟩ := hres _ (hin y e4)
  refine ⟨y, sol, e1, e2, e3, e7, ⟨_, e8, e6⟩, ?_⟩
  have hmid : z.2.1 ∈ Metric.ball z.2.1 r₀ := Metric.mem_ball_self hr0
  have f1 := hn.close y e4 z.2.1 hmid z.2.1 hmid
  have f2 := hn.bound z.2.1 hmid (mulVecL _ _ (N.newMatrix s t (l, z.2.1, c)) (y - z.2.1))
  rw [hn.left z.2.1 hmid] at f2
  have f3 : ‖mulVecL _ _ (N.newMatrix s t (l, z.2.1, c)) (y - z.2.1)‖ ≤
      ‖g (l, y, c) - g (l, z.2.1, c)‖ + ε * ‖y - z.2.1‖ := by
    have := norm_sub_le (g (l, y, c) - g (l, z.2.1, c))
      (g (l, y, c) - g (l, z.2.1, c) - mulVecL _ _ (N.newMatrix s t (l, z.2.1, c)) (y - z.2.1))
    rw [sub_sub_cancel] at this
    linarith
  have f4 : ‖g (l, y, c)‖ ≤ tol := (norm_le_eu _).trans e6
  have f5 : ‖g (l, z.2.1, c)‖ ≤ L * (‖l - z.1‖ + ‖c - z.2.2‖) := by
    have := hlip _ (hin _ hmid) z (Metric.mem_ball_self hr0)
    rw [hg0, sub_zero] at this
    refine this.trans (mul_le_mul_of_nonneg_left ?_ hL)
    refine max_le (le_add_of_nonneg_right (norm_nonneg _)) (max_le ?_ (le_add_of_nonneg_left (norm_nonneg _)))
    rw [show ((l, z.2.1, c) - z : N.Point).2.1 = 0 from sub_self _, norm_zero]
    positivity
  have f6 := norm_sub_le (g (l, y, c)) (g (l, z.2.1, c))
  have hhalf := hn.half
  have h0 := norm_nonneg (y - z.2.1)
  have f7 : ‖y - z.2.1‖ ≤ M * (tol + L * (‖l - z.1‖ + ‖c - z.2.2‖) + ε * ‖y - z.2.1‖) := by
    refine f2.trans (mul_le_mul_of_nonneg_left ?_ hM.le)
    linarith
  have f8 : M * (ε * ‖y - z.2.1‖) ≤ 1 / 2 * ‖y - z.2.1‖ := by
    rw [← mul_assoc]
    exact mul_le_mul_of_nonneg_right hhalf h0
  have f9 : tol + L * (‖l - z.1‖ + ‖c - z.2.2‖) ≤ (1 + L) * (tol + ‖l - z.1‖ + ‖c - z.2.2‖) := by
    nlinarith [mul_nonneg hL htol.le, norm_nonneg (l - z.1), norm_nonneg (c - z.2.2)]
  have f10 := mul_le_mul_of_nonneg_left f9 hM.le
  linarith

/-! ## The whole simulation -/

section
variable {T X C : Type}

/-- A loop of successful steps. -/
theorem loop_follows (R : ℤ) (sm : Bool) (solver : Solver T X C) (controls : T → Res C) (τ : ℕ → T) (Good : ℕ → X → Prop) (n : ℕ) :
    ∀ (k : ℕ) (x : X) (hist : List (Attempt T X C)), Good k x →
      (∀ i, k ≤ i → i < k + n → ∀ x, Good i x → ∃ c, controls (τ (i + 1)) = Res.ok c ∧ ∀ hist full,
        ∃ y, solver hist ⟨full, τ i, τ (i + 1), x, x, c⟩ = Res.ok (true, y) ∧ Good (i + 1) y) →
      ∃ (xs : ℕ → X) (trace : List (Attempt T X C)),
        loop R sm solver controls ((List.range n).map fun i => τ (k + i + 1)) (τ k) x x hist =
          (Res.ok ((List.range n).map fun i => xs i), trace) ∧ trace.length = hist.length + n ∧ ∀ i < n, Good (k + i + 1) (xs i) := by
  induction n with
  | zero => exact fun k x hist _ _ => ⟨fun _ => x, hist, rfl, rfl, fun i hi => absurd hi (by omega)⟩
  | succ n ih =>
    intro k x hist hx hstep
    obtain ⟨c, hc, hsol⟩ := hstep k le_rfl (by omega) x hx
    obtain ⟨y, hy, hgood⟩ := hsol hist (!sm)
    obtain ⟨xs, trace, h1, h2, h3⟩ := ih (k + 1) y (hist ++ [⟨!sm, τ k, τ (k + 1), x, x, c⟩]) hgood
      (fun i hi hi' => hstep i (by omega) (by omega))
    refine ⟨fun i => if i = 0 then y else xs (i - 1), trace, ?_, by rw [h2, List.length_append]; simp; omega, ?_⟩
    · rw [List.range_succ_eq_map, List.map_cons, List.map_map, List.map_cons, List.map_map]
      have e1 : ((fun i => τ (k + i + 1)) ∘ Nat.succ) = fun i => τ (k + 1 + i + 1) := by
        funext i
        show τ (k + (i + 1) + 1) = _
        congr 1
        omega
      have e2 : ((fun i => if i = 0 then y else xs (i - 1)) ∘ Nat.succ) = xs := by
        funext i
        show (if i + 1 = 0 then y else xs (i + 1 - 1)) = xs i
        rw [if_neg (by omega)]
        rfl
      rw [e1, e2, loop]
      have hone : makeOneStep R sm solver (τ k) (τ (k + 0 + 1)) x x c hist = (Res.ok y, hist ++ [⟨!sm, τ k, τ (k + 1), x, x, c⟩]) := by
        unfold makeOneStep
        rw [attempts]
        simp only [add_zero, hy]
      rw [show controls (τ (k + 0 + 1)) = Res.ok c from hc]
      simp only [hone]
      rw [show τ (k + 0 + 1) = τ (k + 1) from rfl, h1]
      rfl
    · intro i hi
      cases i with
      | zero => exact hgood
      | succ i =>
        show Good (k + (i + 1) + 1) (if i + 1 = 0 then y else xs (i + 1 - 1))
        rw [if_neg (by omega), show k + (i + 1) + 1 = k + 1 + i + 1 by omega]
        exact h3 i (by omega)

end

theorem lower_bound (n : ℕ) (f : ℕ → ℝ) (h : ∀ i < n, 0 < f i) : ∃ r > 0, ∀ i < n, r ≤ f i := by
  induction n with
  | zero => exact ⟨1, one_pos, fun i hi => absurd hi (by omega)⟩
  | succ n ih =>
    obtain ⟨r, hr, h'⟩ := ih fun i hi => h i (by omega)
    refine ⟨min r (f n), lt_min hr (h n (by omega)), fun i hi => ?_⟩
    rcases (by omega : i < n ∨ i = n) with hi | rfl
    · exact (min_le_left _ _).trans (h' i hi)
    · exact min_le_right _ _

theorem upper_bound (n : ℕ) (f : ℕ → ℝ) : ∃ E > 0, ∀ i ≤ n, f i ≤ E := by
  induction n with
  | zero => exact ⟨max 1 (f 0), lt_max_of_lt_left one_pos, fun i hi => Nat.le_zero.mp hi ▸ le_max_right _ _⟩
  | succ n ih =>
    obtain ⟨r, hr, h'⟩ := ih
    refine ⟨max r (f (n + 1)), lt_max_of_lt_left hr, fun i hi => ?_⟩
    rcases (by omega : i ≤ n ∨ i = n + 1) with hi | rfl
    · exact (h' i hi).trans (le_max_left _ _)
    · exact le_max_right _ _

/-- The bound of the errors in terms of the perturbation. -/
def growth (K : ℕ → ℝ) : ℕ → ℝ
  | 0 => 1
  | i + 1 => K i * (2 + growth K i)

/-- C118. Let the states `Y 0, Y 1, …` solve the equations of all time steps of an admissible network exactly with the controls `U 1, U 2, …`,
let them be regular, and let the matrices the components fill be invertible there. If the states change little from one time to the next
(for the radius `r`, which depends on them), then every simulation with slightly wrong initial state and controls and a small tolerance
succeeds — in both modes, with any number of retries, none of which is needed, and as soon as the limit of iterations is not too small — and its
states differ from the exact ones by at most a constant times the perturbation. -/
theorem C118_simulation (N : Net) (hN : Admissible N)
    (factor : Option (Res (List (Contribution ℝ))) → Option (Option (Fin N.stateCount → ℝ) → Option (Fin N.stateCount → ℝ)))
    (hfac : Solves factor) (time : ℕ → ℝ) (steps : ℕ) (hsteps : 1 ≤ steps) (Y : ℕ → Fin N.stateCount → ℝ) (U : ℕ → Fin N.controlCount → ℝ)
    (hr : ∀ i < steps, Regular N (time (i + 1)) (ext (Y (i + 1))))
    (hz : ∀ i < steps, N.residual (time i) (time (i + 1)) (Y i, Y (i + 1), U (i + 1)) = Res.ok 0)
    (hdet : ∀ i < steps, (N.newMatrix (time i) (time (i + 1)) (Y i, Y (i + 1), U (i + 1))).det ≠ 0) :
    ∃ r > 0, (∀ i < steps, ‖Y (i + 1) - Y i‖ < r) →
      ∃ E > 0, ∃ δ₀ > 0, ∀ δ, 0 < δ → δ ≤ δ₀ → ∀ tol, 0 < tol → tol ≤ δ → ∃ m : ℕ, ∀ maxIter : ℤ, m ≤ maxIter →
      ∀ (initial : Fin N.stateCount → ℝ) (controls : ℝ → Res (Fin N.controlCount → ℝ)), ‖initial - Y 0‖ ≤ δ →
      (∀ i < steps, ∃ u, controls (time (i + 1)) = Res.ok u ∧ ‖u - U (i + 1)‖ ≤ δ) →
      ∀ (retries : ℤ) (simplified : Bool) (fuel : ℕ), ∃ (states : ℕ → Fin N.stateCount → ℝ)
        (trace : List (Attempt ℝ (Option (Fin N.stateCount → ℝ)) (Fin N.controlCount → ℝ))),
        simulate retries simplified (newtonSolver (N.newton factor) tol maxIter fuel) controls ((List.range (steps + 1)).map time)
          (some initial) = (Res.ok ((List.range (steps + 1)).map fun i => some (states i)), trace) ∧
        trace.length = steps ∧ ∀ i ≤ steps, ‖states i - Y i‖ ≤ E * δ := by
  have key : ∀ i, ∃ r K, i < steps → 0 < r ∧ 0 < K ∧ ∀ tol > 0, ∃ m : ℕ, ∀ (last guess : Fin N.stateCount → ℝ)
      (control : Fin N.controlCount → ℝ),
      ‖last - Y i‖ < r → ‖guess - Y (i + 1)‖ < r → ‖control - U (i + 1)‖ < r → ∀ maxIter : ℤ, m ≤ maxIter → ∀ (full : Bool) (fuel : ℕ),
      ∃ y sol, solve (N.newton factor (time i) (time (i + 1)) (some last) control) tol maxIter full fuel (some guess) =
          some (Res.ok (some y, sol)) ∧
        sol.success = true ∧ sol.used ≤ m ∧ Regular N (time (i + 1)) (ext y) ∧
        (∃ f, N.residual (time i) (time (i + 1)) (last, y, control) = Res.ok f ∧ Real.sqrt (∑ i, f i ^ 2) ≤ tol) ∧
        ‖y - Y (i + 1)‖ ≤ K * (tol + ‖last - Y i‖ + ‖control - U (i + 1)‖) := by
    intro i
    by_cases hi : i < steps
    · obtain ⟨r, h1, K, h2, h3⟩ := C118_step N hN factor hfac (time i) (time (i + 1)) (Y i, Y (i + 1), U (i + 1)) (hr i hi) (hz i hi) (hdet i hi)
      exact ⟨r, K, fun _ => ⟨h1, h2, h3⟩⟩
    · exact ⟨0, 0, fun h => absurd h hi⟩
  choose rad K hkey using key
  obtain ⟨ρ, hρ, hρ'⟩ := lower_bound steps rad fun i hi => (hkey i hi).1
  refine ⟨ρ / 2, by positivity, fun hclose => ?_⟩
  obtain ⟨E, hE, hE'⟩ := upper_bound steps (growth K)
  have hE1 : 1 ≤ E := hE' 0 (by omega)
  refine ⟨E, hE, ρ / (4 * E), by positivity, fun δ hδ hδ0 tol htol htolδ => ?_⟩
  have hm : ∀ i, ∃ m : ℕ, i < steps → ∀ (last guess : Fin N.stateCount → ℝ) (control : Fin N.controlCount → ℝ),
      ‖last - Y i‖ < rad i → ‖guess - Y (i + 1)‖ < rad i → ‖control - U (i + 1)‖ < rad i → ∀ maxIter : ℤ, m ≤ maxIter →
      ∀ (full : Bool) (fuel : ℕ),
      ∃ y sol, solve (N.newton factor (time i) (time (i + 1)) (some last) control) tol maxIter full fuel (some guess) =
          some (Res.ok (some y, sol)) ∧
        sol.success = true ∧ sol.used ≤ m ∧ Regular N (time (i + 1)) (ext y) ∧
        (∃ f, N.residual (time i) (time (i + 1)) (last, y, control) = Res.ok f ∧ Real.sqrt (∑ i, f i ^ 2) ≤ tol) ∧
        ‖y - Y (i + 1)‖ ≤ K i * (tol + ‖last - Y i‖ + ‖control - U (i + 1)‖) := by
    intro i
    by_cases hi : i < steps
    · obtain ⟨m, h⟩ := (hkey i hi).2.2 tol htol
      exact ⟨m, fun _ => h⟩
    · exact ⟨0, fun h => absurd h hi⟩
  choose m hm using hm
  refine ⟨(Finset.range steps).sup m, fun maxIter hmax initial controls hinit hcontrols retries simplified fuel => ?_⟩
  have hsmall : ∀ i ≤ steps, growth K i * δ < ρ / 2 := by
    intro i hi
    have h1 := mul_le_mul_of_nonneg_right (hE' i hi) hδ.le
    have h2 : E * δ ≤ ρ / 4 := by
      rw [le_div_iff₀ (by positivity)] at hδ0
      linarith
    linarith
  have hδρ : δ < ρ := by
    have := hsmall 0 (by omega)
    rw [growth, one_mul] at this
    linarith
  let Good : ℕ → Option (Fin N.stateCount → ℝ) → Prop := fun i x => ∃ v, x = some v ∧ ‖v - Y i‖ ≤ growth K i * δ
  obtain ⟨xs, trace, h1, h2, h3⟩ := loop_follows retries simplified (newtonSolver (N.newton factor) tol maxIter fuel) controls time Good steps
    0 (some initial) [] ⟨initial, rfl, by rw [growth, one_mul]; exact hinit⟩ (by
      rintro i - hi x ⟨v, rfl, hv⟩
      rw [zero_add] at hi
      obtain ⟨u, hu, hu'⟩ := hcontrols i hi
      refine ⟨u, hu, fun hist full => ?_⟩
      have hlt := hsmall i hi.le
      have hri := hρ' i hi
      have hguess : ‖v - Y (i + 1)‖ < rad i := by
        have := norm_sub_le (v - Y i) (Y (i + 1) - Y i)
        rw [sub_sub_sub_cancel_right] at this
        have := hclose i hi
        linarith
      have hmi : (m i : ℤ) ≤ maxIter := by
        have : m i ≤ (Finset.range steps).sup m := Finset.le_sup (f := m) (Finset.mem_range.mpr hi)
        omega
      obtain ⟨y, sol, e1, e2, -, -, -, e3⟩ := hm i hi v v u (by linarith) hguess (by linarith) maxIter hmi full fuel
      refine ⟨some y, ?_, y, rfl, ?_⟩
      · unfold newtonSolver
        simp only [e1, e2]
      · refine e3.trans ?_
        rw [growth, mul_assoc]
        refine mul_le_mul_of_nonneg_left ?_ (hkey i hi).2.1.le
        linarith)
  have h4 : ∀ i, ∃ v, i < steps → xs i = some v ∧ ‖v - Y (i + 1)‖ ≤ growth K (i + 1) * δ := by
    intro i
    by_cases hi : i < steps
    · obtain ⟨v, hv⟩ := h3 i hi
      rw [zero_add] at hv
      exact ⟨v, fun _ => hv⟩
    · exact ⟨0, fun h => absurd h hi⟩
  choose vs hvs using h4
  refine ⟨fun i => if i = 0 then initial else vs (i - 1), trace, ?_, by simpa using h2, fun i hi => ?_⟩
  · obtain ⟨n, rfl⟩ : ∃ n, steps = n + 1 := ⟨steps - 1, by omega⟩
    have e1 : (List.range (n + 1 + 1)).map time = time 0 :: time 1 :: (List.range n).map fun i => time (i + 2) := by
      rw [List.range_succ_eq_map, List.map_cons, List.map_map, List.range_succ_eq_map, List.map_cons, List.map_map]
      rfl
    have e2 : time 1 :: (List.range n).map (fun i => time (i + 2)) = (List.range (n + 1)).map fun i => time (0 + i + 1) := by
      rw [List.range_succ_eq_map, List.map_cons, List.map_map]
      refine congrArg₂ List.cons rfl (List.map_congr_left fun i _ => ?_)
      show time (i + 2) = time (0 + (i + 1) + 1)
      congr 1
      omega
    obtain ⟨u, hu, -⟩ := hcontrols 0 (by omega)
    rw [e1]
    unfold simulate
    simp only [show controls (time 1) = Res.ok u from hu, e2, h1]
    congr 2
    rw [List.range_succ_eq_map (n := n + 1), List.map_cons, List.map_map]
    refine congrArg₂ List.cons rfl (List.map_congr_left fun i hi => ?_)
    rw [(hvs i (List.mem_range.mp hi)).1]
    show some (vs i) = some (if i + 1 = 0 then initial else vs (i + 1 - 1))
    rw [if_neg (by omega)]
    rfl
  · cases i with
    | zero =>
      show ‖initial - Y 0‖ ≤ _
      exact hinit.trans (le_mul_of_one_le_left hδ.le hE1)
    | succ i =>
      show ‖(if i + 1 = 0 then initial else vs i) - Y (i + 1)‖ ≤ _
      rw [if_neg (by omega)]
      exact (hvs i (by omega)).2.trans (mul_le_mul_of_nonneg_right (hE' (i + 1) hi) hδ.le)

end Verif.Network
