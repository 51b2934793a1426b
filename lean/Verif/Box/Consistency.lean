import Verif.Box.Props
import Verif.Gas.Edges
import Mathlib.Analysis.Calculus.MeanValue
import Mathlib.Analysis.Calculus.ContDiff.Operations
import Mathlib.Analysis.Calculus.ContDiff.Comp

/-!
# Property C134: the equations of a pipe approximate the isothermal Euler equations

The residual of the box scheme at an exact solution is of the order `dt * (dt + dx ^ 2)`: the scheme is
consistent, of first order in time and of second order in space.
-/

set_option autoImplicit false

namespace Verif.Box

open Set Verif.Euler Verif.SmoothAbs Verif.Net Verif.Gas

variable {V : Type} [NormedAddCommGroup V] [NormedSpace ℝ V]

/-! ## Two formulas of Taylor -/

/-- The error of one backward difference. -/
theorem backward_error {f f' f'' : ℝ → V} {a b M : ℝ} (hab : a ≤ b)
    (h1 : ∀ s ∈ Icc a b, HasDerivAt f (f' s) s) (h2 : ∀ s ∈ Icc a b, HasDerivAt f' (f'' s) s)
    (hM : ∀ s ∈ Icc a b, ‖f'' s‖ ≤ M) : ‖f b - f a - (b - a) • f' b‖ ≤ M * (b - a) ^ 2 / 2 := by
  have hd : ∀ s ∈ Icc a b, HasDerivAt (fun s => f s - f a - (s - a) • f' s) (-((s - a) • f'' s)) s := by
    intro s hs
    have h3 : HasDerivAt (fun s : ℝ => s - a) 1 s := (hasDerivAt_id s).sub_const a
    refine (((h1 s hs).sub_const (f a)).sub (h3.smul (h2 s hs))).congr_deriv ?_
    module
  have hB : ∀ s, HasDerivAt (fun s : ℝ => M * (s - a) ^ 2 / 2) (M * (s - a)) s := by
    intro s
    have h3 : HasDerivAt (fun s : ℝ => s - a) 1 s := (hasDerivAt_id s).sub_const a
    refine (((h3.pow 2).const_mul M).div_const 2).congr_deriv ?_
    simp; ring
  have key := image_norm_le_of_norm_deriv_right_le_deriv_boundary (a := a) (b := b)
    (f := fun s => f s - f a - (s - a) • f' s)
    (fun s hs => (hd s hs).continuousAt.continuousWithinAt)
    (fun s hs => (hd s (Ico_subset_Icc_self hs)).hasDerivWithinAt) (by simp) hB (fun s hs => ?_)
  · exact key (right_mem_Icc.mpr hab)
  · rw [norm_neg, norm_smul, Real.norm_eq_abs, abs_of_nonneg (by linarith [hs.1]), mul_comm]
    exact mul_le_mul_of_nonneg_right (hM s (Ico_subset_Icc_self hs)) (by linarith [hs.1])

/-- The error of the trapezoidal rule. -/
theorem trapezoidal_error {f f' f'' f''' : ℝ → V} {a b M : ℝ} (hab : a ≤ b)
    (h1 : ∀ s ∈ Icc a b, HasDerivAt f (f' s) s) (h2 : ∀ s ∈ Icc a b, HasDerivAt f' (f'' s) s)
    (h3 : ∀ s ∈ Icc a b, HasDerivAt f'' (f''' s) s) (hM : ∀ s ∈ Icc a b, ‖f''' s‖ ≤ M) :
    ‖f b - f a - ((b - a) / 2) • (f' a + f' b)‖ ≤ M * (b - a) ^ 3 / 12 := by
  have hd : ∀ s ∈ Icc a b, HasDerivAt (fun s => f s - f a - ((s - a) / 2) • (f' a + f' s))
      ((1 / 2 : ℝ) • (f' s - f' a - (s - a) • f'' s)) s := by
    intro s hs
    have h4 : HasDerivAt (fun s : ℝ => (s - a) / 2) (1 / 2) s := ((hasDerivAt_id s).sub_const a).div_const 2
    refine (((h1 s hs).sub_const (f a)).sub (h4.smul ((h2 s hs).const_add (f' a)))).congr_deriv ?_
    module
  have hB : ∀ s, HasDerivAt (fun s : ℝ => M * (s - a) ^ 3 / 12) (M * (s - a) ^ 2 / 4) s := by
    intro s
    have h4 : HasDerivAt (fun s : ℝ => s - a) 1 s := (hasDerivAt_id s).sub_const a
    refine (((h4.pow 3).const_mul M).div_const 12).congr_deriv ?_
    simp; ring
  have key := image_norm_le_of_norm_deriv_right_le_deriv_boundary (a := a) (b := b)
    (f := fun s => f s - f a - ((s - a) / 2) • (f' a + f' s))
    (fun s hs => (hd s hs).continuousAt.continuousWithinAt)
    (fun s hs => (hd s (Ico_subset_Icc_self hs)).hasDerivWithinAt) (by simp) hB (fun s hs => ?_)
  · exact key (right_mem_Icc.mpr hab)
  · have hsub : Icc a s ⊆ Icc a b := Icc_subset_Icc_right hs.2.le
    have := backward_error hs.1 (fun r hr => h2 r (hsub hr)) (fun r hr => h3 r (hsub hr))
      (fun r hr => hM r (hsub hr))
    rw [norm_smul, Real.norm_eq_abs, abs_of_pos (by norm_num)]
    linarith

/-! ## Every balance law -/

/-- C134. One cell, for every balance law. Let `u t x` be given, let its second derivative in time be bounded by
`M` at the two ends of the cell, and the third derivative of the flux in space at the new time by `K`. If
`u` solves the balance law (derivative in time plus derivative of the flux in space equals source) at the
two ends of the cell at the new time, then the residual of the box scheme is computed and is at most
`M / 2 * dt ^ 2 + K / 12 * dt * dx ^ 2`. -/
theorem C134_truncation (bl : Law V) (u ut utt : ℝ → ℝ → V) (fx fxx fxxx : ℝ → V) (t0 t1 x0 x1 M K : ℝ)
    (ht : t0 ≤ t1) (hx : x0 < x1)
    (hut : ∀ x ∈ ({x0, x1} : Set ℝ), ∀ t ∈ Icc t0 t1, HasDerivAt (fun t => u t x) (ut t x) t)
    (hutt : ∀ x ∈ ({x0, x1} : Set ℝ), ∀ t ∈ Icc t0 t1, HasDerivAt (fun t => ut t x) (utt t x) t)
    (hM : ∀ x ∈ ({x0, x1} : Set ℝ), ∀ t ∈ Icc t0 t1, ‖utt t x‖ ≤ M)
    (hfx : ∀ x ∈ Icc x0 x1, HasDerivAt (fun x => bl.flux (u t1 x)) (fx x) x)
    (hfxx : ∀ x ∈ Icc x0 x1, HasDerivAt fx (fxx x) x)
    (hfxxx : ∀ x ∈ Icc x0 x1, HasDerivAt fxx (fxxx x) x)
    (hK : ∀ x ∈ Icc x0 x1, ‖fxxx x‖ ≤ K)
    (hsol : ∀ x ∈ ({x0, x1} : Set ℝ), bl.source (u t1 x) = Res.ok (ut t1 x + fx x)) :
    ∃ r, evaluatePoint bl t0 t1 (x1 - x0) (u t0 x0) (u t0 x1) (u t1 x0) (u t1 x1) = Res.ok r ∧
      ‖r‖ ≤ M / 2 * (t1 - t0) ^ 2 + K / 12 * (t1 - t0) * (x1 - x0) ^ 2 := by
  have m0 : x0 ∈ ({x0, x1} : Set ℝ) := by simp
  have m1 : x1 ∈ ({x0, x1} : Set ℝ) := by simp
  have b0 := backward_error ht (hut x0 m0) (hutt x0 m0) (hM x0 m0)
  have b1 := backward_error ht (hut x1 m1) (hutt x1 m1) (hM x1 m1)
  have b2 := trapezoidal_error hx.le hfx hfxx hfxxx hK
  have hdx : 0 < x1 - x0 := by linarith
  have hdt : 0 ≤ t1 - t0 := by linarith
  refine ⟨_, by unfold evaluatePoint; rw [hsol x0 m0, hsol x1 m1]; rfl, ?_⟩
  set A := u t1 x0 - u t0 x0 - (t1 - t0) • ut t1 x0 with hA
  set B := u t1 x1 - u t0 x1 - (t1 - t0) • ut t1 x1 with hB
  set C := bl.flux (u t1 x1) - bl.flux (u t1 x0) - ((x1 - x0) / 2) • (fx x0 + fx x1) with hC
  have heq : (0.5 : ℝ) • (u t1 x0 + u t1 x1) - (0.5 : ℝ) • (u t0 x0 + u t0 x1)
      - ((t1 - t0) / (x1 - x0)) • (bl.flux (u t1 x0) - bl.flux (u t1 x1))
      - (0.5 * (t1 - t0)) • (ut t1 x1 + fx x1 + (ut t1 x0 + fx x0)) =
      (1 / 2 : ℝ) • A + (1 / 2 : ℝ) • B + ((t1 - t0) / (x1 - x0)) • C := by
    rw [hA, hB, hC]
    match_scalars <;> field_simp <;> ring
  rw [heq]
  have e1 : ‖(1 / 2 : ℝ) • A‖ ≤ M * (t1 - t0) ^ 2 / 4 := by
    rw [norm_smul, Real.norm_eq_abs, abs_of_pos (by norm_num)]; linarith
  have e2 : ‖(1 / 2 : ℝ) • B‖ ≤ M * (t1 - t0) ^ 2 / 4 := by
    rw [norm_smul, Real.norm_eq_abs, abs_of_pos (by norm_num)]; linarith
  have e3 : ‖((t1 - t0) / (x1 - x0)) • C‖ ≤ K / 12 * (t1 - t0) * (x1 - x0) ^ 2 := by
    rw [norm_smul, Real.norm_eq_abs, abs_of_nonneg (by positivity)]
    calc (t1 - t0) / (x1 - x0) * ‖C‖ ≤ (t1 - t0) / (x1 - x0) * (K * (x1 - x0) ^ 3 / 12) :=
          mul_le_mul_of_nonneg_left b2 (by positivity)
      _ = _ := by field_simp
  calc _ ≤ ‖(1 / 2 : ℝ) • A + (1 / 2 : ℝ) • B‖ + _ := norm_add_le _ _
    _ ≤ ‖(1 / 2 : ℝ) • A‖ + ‖(1 / 2 : ℝ) • B‖ + _ := by gcongr; exact norm_add_le _ _
    _ ≤ _ := by linarith

/-! ## The isothermal Euler equations -/

/-- Specification: the density `ρ` and the flow `q`, functions of time and place, solve the isothermal Euler
equations in a pipe of diameter `d` and roughness `k` on a rectangle of times and places. They are three
times continuously differentiable around the rectangle, the density is positive, mass is conserved, and the
momentum changes by the pressure, the transport of momentum and the friction. -/
structure Solves (d k T0 T1 X0 X1 : ℝ) (ρ q : ℝ × ℝ → ℝ) : Prop where
  smooth : ∃ Ω : Set (ℝ × ℝ), IsOpen Ω ∧ Icc T0 T1 ×ˢ Icc X0 X1 ⊆ Ω ∧ ContDiffOn ℝ 3 ρ Ω ∧ ContDiffOn ℝ 3 q Ω
  positive : ∀ t ∈ Icc T0 T1, ∀ x ∈ Icc X0 X1, 0 < ρ (t, x)
  mass : ∀ t ∈ Icc T0 T1, ∀ x ∈ Icc X0 X1,
    deriv (fun s => ρ (s, x)) t + deriv (fun y => rho0 / circleArea (0.5 * d) * q (t, y)) x = 0
  momentum : ∀ t ∈ Icc T0 T1, ∀ x ∈ Icc X0 X1,
    deriv (fun s => q (s, x)) t +
      deriv (fun y => circleArea (0.5 * d) / rho0 * p (ρ (t, y)) +
        rho0 / circleArea (0.5 * d) * q (t, y) ^ 2 / ρ (t, y)) x =
      -(rho0 / (2 * circleArea (0.5 * d) * d) * force d k (q (t, x)) / ρ (t, x))

/-- The partial derivative of a smooth function along a direction, as a smooth function. -/
theorem exists_partial {Ω : Set (ℝ × ℝ)} (hΩ : IsOpen Ω) {g : ℝ × ℝ → V} {n : ℕ}
    (hg : ContDiffOn ℝ (n + 1 : ℕ) g Ω) (e : ℝ × ℝ) :
    ∃ g' : ℝ × ℝ → V, ContDiffOn ℝ n g' Ω ∧
      ∀ z ∈ Ω, ∀ c : ℝ → ℝ × ℝ, ∀ s, c s = z → HasDerivAt c e s → HasDerivAt (fun r => g (c r)) (g' z) s := by
  refine ⟨fun z => fderiv ℝ g z e, (hg.fderiv_of_isOpen hΩ (m := n) (by norm_cast)).clm_apply contDiffOn_const, ?_⟩
  rintro z hz c s rfl hc
  have h1 : DifferentiableAt ℝ g (c s) :=
    (hg.differentiableOn (by norm_num)).differentiableAt (hΩ.mem_nhds hz)
  exact h1.hasFDerivAt.comp_hasDerivAt s hc

theorem curve_time (t x : ℝ) : HasDerivAt (fun s : ℝ => (s, x)) ((1 : ℝ), (0 : ℝ)) t :=
  (hasDerivAt_id t).prodMk (hasDerivAt_const t x)

theorem curve_space (t x : ℝ) : HasDerivAt (fun y : ℝ => (t, y)) ((0 : ℝ), (1 : ℝ)) x :=
  (hasDerivAt_const x t).prodMk (hasDerivAt_id x)

omit [NormedSpace ℝ V] in
/-- A continuous function is bounded on a rectangle. -/
theorem bounded_on_rectangle {T0 T1 X0 X1 : ℝ} {g : ℝ × ℝ → V} {Ω : Set (ℝ × ℝ)}
    (hsub : Icc T0 T1 ×ˢ Icc X0 X1 ⊆ Ω) (hg : ContinuousOn g Ω) :
    ∃ C, ∀ z ∈ Icc T0 T1 ×ˢ Icc X0 X1, ‖g z‖ ≤ C :=
  (isCompact_Icc.prod isCompact_Icc).exists_bound_of_continuousOn (hg.mono hsub)

/-- The flux is smooth where the density is positive. -/
theorem flux_contDiffOn (d : ℝ) : ContDiffOn ℝ 3 (flux d) {z | 0 < z.1} := by
  have h0 : ∀ z ∈ {z : ℝ × ℝ | 0 < z.1}, z.1 ≠ 0 := fun z hz => (ne_of_gt hz)
  have hD : ∀ z ∈ {z : ℝ × ℝ | 0 < z.1}, 1 - alpha * cVac * z.1 ≠ 0 :=
    fun z hz => (C31_density_round_trip z.1).2 (le_of_lt hz)
  have f1 : ContDiffOn ℝ 3 (fun z : ℝ × ℝ => z.1) {z | 0 < z.1} := contDiff_fst.contDiffOn
  have f2 : ContDiffOn ℝ 3 (fun z : ℝ × ℝ => z.2) {z | 0 < z.1} := contDiff_snd.contDiffOn
  refine ContDiffOn.prodMk (contDiffOn_const.mul f2) (ContDiffOn.add (contDiffOn_const.mul ?_) ?_)
  · exact (contDiffOn_const.mul f1).div (contDiffOn_const.sub (contDiffOn_const.mul f1)) hD
  · exact ((contDiffOn_const.mul f2).mul f2).div f1 h0

/-- C134. For every smooth solution of the isothermal Euler equations with positive density there is a
constant `C` such that for all time steps and all cells inside the rectangle the residual of the box scheme
at the solution is computed and is at most `C * dt * (dt + dx ^ 2)` in each component. -/
theorem C134_consistency {d k T0 T1 X0 X1 : ℝ} (hp : RealPipe d k) {ρ q : ℝ × ℝ → ℝ}
    (h : Solves d k T0 T1 X0 X1 ρ q) :
    ∃ C, ∀ t0 t1 x0 x1, T0 ≤ t0 → t0 ≤ t1 → t1 ≤ T1 → X0 ≤ x0 → x0 < x1 → x1 ≤ X1 →
      ∃ r : ℝ × ℝ, evaluatePoint (eulerLaw d k) t0 t1 (x1 - x0) (ρ (t0, x0), q (t0, x0))
          (ρ (t0, x1), q (t0, x1)) (ρ (t1, x0), q (t1, x0)) (ρ (t1, x1), q (t1, x1)) = Res.ok r ∧
        |r.1| ≤ C * (t1 - t0) * ((t1 - t0) + (x1 - x0) ^ 2) ∧
        |r.2| ≤ C * (t1 - t0) * ((t1 - t0) + (x1 - x0) ^ 2) := by
  obtain ⟨Ω₀, hΩ₀, hsub₀, hρ, hq⟩ := h.smooth
  have hu₀ : ContDiffOn ℝ 3 (fun z => (ρ z, q z)) Ω₀ := hρ.prodMk hq
  -- the part with positive density
  set Ω : Set (ℝ × ℝ) := Ω₀ ∩ (fun z => (ρ z, q z)) ⁻¹' {z | 0 < z.1} with hΩdef
  have hΩ : IsOpen Ω := hu₀.continuousOn.isOpen_inter_preimage hΩ₀ (isOpen_lt continuous_const continuous_fst)
  have hsub : Icc T0 T1 ×ˢ Icc X0 X1 ⊆ Ω := fun z hz => ⟨hsub₀ hz, h.positive z.1 hz.1 z.2 hz.2⟩
  have hu : ContDiffOn ℝ (2 + 1 : ℕ) (fun z => (ρ z, q z)) Ω := by
    exact_mod_cast hu₀.mono inter_subset_left
  have hF : ContDiffOn ℝ (2 + 1 : ℕ) (fun z => flux d (ρ z, q z)) Ω := by
    have := (flux_contDiffOn d).comp (hu₀.mono (inter_subset_left (t := (fun z => (ρ z, q z)) ⁻¹' {z | 0 < z.1})))
      (fun z hz => hz.2)
    exact_mod_cast this
  obtain ⟨ut, hut, dut⟩ := exists_partial hΩ hu (1, 0)
  obtain ⟨utt, hutt, dutt⟩ := exists_partial (n := 1) hΩ hut (1, 0)
  obtain ⟨fx, hfx, dfx⟩ := exists_partial hΩ hF (0, 1)
  obtain ⟨fxx, hfxx, dfxx⟩ := exists_partial (n := 1) hΩ hfx (0, 1)
  obtain ⟨fxxx, hfxxx, dfxxx⟩ := exists_partial (n := 0) hΩ hfxx (0, 1)
  obtain ⟨M, hM⟩ := bounded_on_rectangle hsub hutt.continuousOn
  obtain ⟨K, hK⟩ := bounded_on_rectangle hsub hfxxx.continuousOn
  refine ⟨max (M / 2) (K / 12), fun t0 t1 x0 x1 h1 h2 h3 h4 h5 h6 => ?_⟩
  have hmem : ∀ t ∈ Icc t0 t1, ∀ x ∈ Icc x0 x1, (t, x) ∈ Icc T0 T1 ×ˢ Icc X0 X1 :=
    fun t ht x hx => ⟨⟨h1.trans ht.1, ht.2.trans h3⟩, ⟨h4.trans hx.1, hx.2.trans h6⟩⟩
  have hend : ∀ x ∈ ({x0, x1} : Set ℝ), x ∈ Icc x0 x1 := by
    rintro x (rfl | rfl)
    · exact left_mem_Icc.mpr h5.le
    · exact right_mem_Icc.mpr h5.le
  have hnew : t1 ∈ Icc t0 t1 := right_mem_Icc.mpr h2
  have hsol : ∀ x ∈ ({x0, x1} : Set ℝ), (eulerLaw d k).source (ρ (t1, x), q (t1, x)) =
      Res.ok (ut (t1, x) + fx (t1, x)) := by
    intro x hx
    have hz := hmem t1 hnew x (hend x hx)
    have d1 := dut _ (hsub hz) (fun s => (s, x)) t1 rfl (curve_time t1 x)
    have d2 := dfx _ (hsub hz) (fun y => (t1, y)) x rfl (curve_space t1 x)
    have d11 : HasDerivAt (fun s => ρ (s, x)) (ut (t1, x)).1 t1 :=
      (ContinuousLinearMap.fst ℝ ℝ ℝ).hasFDerivAt.comp_hasDerivAt _ d1
    have d12 : HasDerivAt (fun s => q (s, x)) (ut (t1, x)).2 t1 :=
      (ContinuousLinearMap.snd ℝ ℝ ℝ).hasFDerivAt.comp_hasDerivAt _ d1
    have d21 : HasDerivAt (fun y => (flux d (ρ (t1, y), q (t1, y))).1) (fx (t1, x)).1 x :=
      (ContinuousLinearMap.fst ℝ ℝ ℝ).hasFDerivAt.comp_hasDerivAt _ d2
    have d22 : HasDerivAt (fun y => (flux d (ρ (t1, y), q (t1, y))).2) (fx (t1, x)).2 x :=
      (ContinuousLinearMap.snd ℝ ℝ ℝ).hasFDerivAt.comp_hasDerivAt _ d2
    have hmass := h.mass t1 hz.1 x hz.2
    have hmom := h.momentum t1 hz.1 x hz.2
    simp only [eulerLaw]
    rw [C34_source_defined hp]
    congr 1
    have e21 : (fun y => (flux d (ρ (t1, y), q (t1, y))).1) = fun y => rho0 / circleArea (0.5 * d) * q (t1, y) := rfl
    have e22 : (fun y => (flux d (ρ (t1, y), q (t1, y))).2) = fun y => circleArea (0.5 * d) / rho0 * p (ρ (t1, y)) +
        rho0 / circleArea (0.5 * d) * q (t1, y) ^ 2 / ρ (t1, y) := by
      funext y; simp only [flux]; ring
    rw [e21] at d21
    rw [e22] at d22
    rw [d11.deriv, d21.deriv] at hmass
    rw [d12.deriv, d22.deriv] at hmom
    refine Prod.ext ?_ ?_
    · simpa using hmass.symm
    · simp only [Prod.snd_add]
      rw [hmom]; ring
  obtain ⟨r, hr, hb⟩ := C134_truncation (eulerLaw d k) (fun t x => (ρ (t, x), q (t, x))) (fun t x => ut (t, x))
    (fun t x => utt (t, x)) (fun x => fx (t1, x)) (fun x => fxx (t1, x)) (fun x => fxxx (t1, x)) t0 t1 x0 x1 M K h2 h5
    (fun x hx t ht => dut _ (hsub (hmem t ht x (hend x hx))) (fun s => (s, x)) t rfl (curve_time t x))
    (fun x hx t ht => dutt _ (hsub (hmem t ht x (hend x hx))) (fun s => (s, x)) t rfl (curve_time t x))
    (fun x hx t ht => hM _ (hmem t ht x (hend x hx)))
    (fun x hx => dfx _ (hsub (hmem t1 hnew x hx)) (fun y => (t1, y)) x rfl (curve_space t1 x))
    (fun x hx => dfxx _ (hsub (hmem t1 hnew x hx)) (fun y => (t1, y)) x rfl (curve_space t1 x))
    (fun x hx => dfxxx _ (hsub (hmem t1 hnew x hx)) (fun y => (t1, y)) x rfl (curve_space t1 x))
    (fun x hx => hK _ (hmem t1 hnew x hx))
    hsol
  have hdt : 0 ≤ t1 - t0 := by linarith
  have hle : ‖r‖ ≤ max (M / 2) (K / 12) * (t1 - t0) * ((t1 - t0) + (x1 - x0) ^ 2) := by
    refine hb.trans ?_
    have a1 : M / 2 * (t1 - t0) ^ 2 ≤ max (M / 2) (K / 12) * (t1 - t0) ^ 2 :=
      mul_le_mul_of_nonneg_right (le_max_left _ _) (by positivity)
    have a2 : K / 12 * ((t1 - t0) * (x1 - x0) ^ 2) ≤ max (M / 2) (K / 12) * ((t1 - t0) * (x1 - x0) ^ 2) :=
      mul_le_mul_of_nonneg_right (le_max_right _ _) (by positivity)
    nlinarith
  exact ⟨r, hr, (norm_fst_le r).trans hle, (norm_snd_le r).trans hle⟩

/-- A flow of constant density that slows down by laminar friction solves the equations. -/
theorem solves_slowing {d k : ℝ} (hp : RealPipe d k) (T1 X0 X1 : ℝ) {ρ₀ q₀ : ℝ} (hρ : 0 < ρ₀)
    (hq : reynolds q₀ d < 2000) :
    Solves d k 0 T1 X0 X1 (fun _ => ρ₀) fun z =>
      q₀ * Real.exp (-(rho0 / (2 * circleArea (0.5 * d) * d) * (64 / coeffReynolds d) / ρ₀) * z.1) := by
  set c := rho0 / (2 * circleArea (0.5 * d) * d) * (64 / coeffReynolds d) / ρ₀ with hc
  have hcpos : 0 < c := by
    have := area_pos hp.pos
    have := coeffReynolds_pos hp.pos
    have := hp.pos
    have : 0 < rho0 := by unfold rho0; norm_num
    rw [hc]; positivity
  refine ⟨⟨univ, isOpen_univ, subset_univ _, contDiffOn_const, ?_⟩, fun _ _ _ _ => hρ, ?_, ?_⟩
  · exact (contDiff_const.mul (contDiff_const.mul contDiff_fst).exp).contDiffOn
  · intro t _ x _
    simp
  · intro t ht x _
    have hd : HasDerivAt (fun s => q₀ * Real.exp (-c * s)) (q₀ * (Real.exp (-c * t) * (-c * 1))) t :=
      (((hasDerivAt_id t).const_mul (-c)).exp).const_mul q₀
    have hlam : reynolds (q₀ * Real.exp (-c * t)) d < 2000 := by
      refine lt_of_le_of_lt ?_ hq
      rw [reynolds_eq, reynolds_eq, abs_mul]
      have h1 : |Real.exp (-c * t)| ≤ 1 := by
        rw [abs_of_pos (Real.exp_pos _)]
        exact Real.exp_le_one_iff.mpr (by nlinarith [ht.1])
      exact mul_le_mul_of_nonneg_left (mul_le_of_le_one_right (abs_nonneg _) h1) (coeffReynolds_pos hp.pos).le
    have hf : force d k (q₀ * Real.exp (-c * t)) = 64 / coeffReynolds d * (q₀ * Real.exp (-c * t)) := by
      unfold force; rw [if_pos hlam]
    simp only [deriv_const, add_zero]
    rw [hd.deriv, hf, hc]
    ring

/-- The hypotheses of `C134_consistency` are met by a flow that is not stationary. -/
example : ∃ q : ℝ × ℝ → ℝ, q (0, 0) ≠ 0 ∧ Solves 1 0 0 10 0 1000 (fun _ => 1) q :=
  ⟨_, by norm_num, solves_slowing (by constructor <;> norm_num) 10 0 1000 (q₀ := 1 / 1000000) one_pos (by
    rw [reynolds_eq]; unfold coeffReynolds circleArea Pi eta rho0; norm_num [abs_of_pos])⟩

/-! ## The equations of a pipe -/

/-- Writes that set each row of interest to a small value. -/
theorem run_small {ops : List Op} {B : ℝ} (h : ∀ o ∈ ops, ∃ r x, o = Op.set r x ∧ |x| ≤ B) (v : Vec) (r : ℤ)
    (hr : |v r| ≤ B ∨ ∃ o ∈ ops, o.row = r) : |run v ops r| ≤ B := by
  induction ops generalizing v with
  | nil =>
    rcases hr with hr | ⟨o, ho, -⟩
    · exact hr
    · simp at ho
  | cons o ops ih =>
    obtain ⟨r', x, rfl, hx⟩ := h o (by simp)
    have step : run v (Op.set r' x :: ops) = run (Function.update v r' x) ops := rfl
    rw [step]
    refine ih (fun o ho => h o (by simp [ho])) _ ?_
    by_cases e : r = r'
    · subst e; left; simpa using hx
    · rcases hr with hr | ⟨o, ho, hor⟩
      · left; rwa [Function.update_of_ne e]
      · rcases List.mem_cons.mp ho with rfl | ho
        · exact absurd hor.symm e
        · exact Or.inr ⟨o, ho, hor⟩

/-- C134. A whole pipe. For every smooth solution of the isothermal Euler equations in a pipe of length `L` there is
a constant `C` such that for every number of points, every time step and all states that hold the values
of the solution at the points of the pipe (at the last and at the new time), the pipe writes to each of
its rows a value of at most `C * dt * (dt + dx ^ 2)`. -/
theorem C134_pipe {d k T0 T1 L : ℝ} (hp : RealPipe d k) (hL : 0 < L) {ρ q : ℝ × ℝ → ℝ}
    (h : Solves d k T0 T1 0 L ρ q) :
    ∃ C, ∀ (e : Edge) (n : ℕ), 2 ≤ n → HasPoints e n → e.kind = .pipe (cellWidth L n) d k →
      ∀ t0 t1, T0 ≤ t0 → t0 ≤ t1 → t1 ≤ T1 → ∀ a : Args,
      (∀ j < n, segment a.last (e.first + 2 * (j : ℤ)) =
        (ρ (t0, (j : ℝ) * cellWidth L n), q (t0, (j : ℝ) * cellWidth L n))) →
      (∀ j < n, segment a.new (e.first + 2 * (j : ℤ)) =
        (ρ (t1, (j : ℝ) * cellWidth L n), q (t1, (j : ℝ) * cellWidth L n))) →
      ∃ ops, edgeEvaluate e t0 t1 a = Res.ok ops ∧
        ∀ v : Vec, ∀ r, e.first + 1 ≤ r → r + 1 < e.after →
          |run v ops r| ≤ C * (t1 - t0) * ((t1 - t0) + cellWidth L n ^ 2) := by
  obtain ⟨C, hC⟩ := C134_consistency hp h
  refine ⟨C, fun e n hn hpt hk t0 t1 h1 h2 h3 a hlast hnew => ?_⟩
  set dx := cellWidth L n with hdx
  have hn' : (0 : ℝ) < (n : ℝ) - 1 := by
    have : (2 : ℝ) ≤ n := by exact_mod_cast hn
    linarith
  have hwidth : ((n : ℝ) - 1) * dx = L := by
    rw [hdx]; unfold cellWidth; push_cast; field_simp
  have hpos : 0 < dx := by
    rw [hdx]; unfold cellWidth; push_cast; exact div_pos hL hn'
  have hcell : ∀ i ∈ cells e, ∃ w : ℝ × ℝ, cellEvaluate dx d k t0 t1 i a = Res.ok [.set i w.1, .set (i + 1) w.2] ∧
      |w.1| ≤ C * (t1 - t0) * ((t1 - t0) + dx ^ 2) ∧ |w.2| ≤ C * (t1 - t0) * ((t1 - t0) + dx ^ 2) := by
    intro i hi
    rw [cells_eq hpt] at hi
    obtain ⟨j, hj, rfl⟩ := List.mem_map.mp hi
    have hj := List.mem_range.mp hj
    have hjn : ((j : ℝ) + 1) ≤ (n : ℝ) - 1 := by
      have : ((j + 1 + 1 : ℕ) : ℝ) ≤ n := by exact_mod_cast (by omega : j + 1 + 1 ≤ n)
      push_cast at this; linarith
    obtain ⟨w, hw, hw1, hw2⟩ := hC t0 t1 ((j : ℝ) * dx) (((j + 1 : ℕ) : ℝ) * dx) h1 h2 h3 (by positivity)
      (by push_cast; nlinarith) (by push_cast; nlinarith)
    have ew : (((j + 1 : ℕ) : ℝ) * dx) - (j : ℝ) * dx = dx := by push_cast; ring
    rw [ew] at hw hw1 hw2
    refine ⟨w, ?_, hw1, hw2⟩
    have i1 : e.first + 1 + 2 * (j : ℤ) - 1 = e.first + 2 * (j : ℤ) := by ring
    have i2 : e.first + 1 + 2 * (j : ℤ) + 1 = e.first + 2 * ((j + 1 : ℕ) : ℤ) := by push_cast; ring
    unfold cellEvaluate
    rw [i1, i2, hlast j (by omega), hlast (j + 1) (by omega), hnew j (by omega), hnew (j + 1) (by omega), hw]
    rfl
  choose! w hw hw1 hw2 using hcell
  refine ⟨_, by simp only [edgeEvaluate, hk]; exact forEach_ok hw, fun v r hr1 hr2 => run_small ?_ v r (Or.inr ?_)⟩
  · intro o ho
    obtain ⟨i, hi, ho⟩ := List.mem_flatMap.mp ho
    simp only [List.mem_cons, List.not_mem_nil, or_false] at ho
    rcases ho with rfl | rfl
    · exact ⟨_, _, rfl, hw1 i hi⟩
    · exact ⟨_, _, rfl, hw2 i hi⟩
  · have hpt' : e.after = e.first + 2 * n := hpt
    have hmem : e.first + 1 + 2 * ((r - e.first - 1) / 2) ∈ cells e := by
      rw [cells_eq hpt]
      refine List.mem_map.mpr ⟨((r - e.first - 1) / 2).toNat, List.mem_range.mpr (by omega), ?_⟩
      rw [Int.toNat_of_nonneg (by omega)]
    rcases Int.even_or_odd (r - e.first - 1) with ⟨m, hm⟩ | ⟨m, hm⟩
    · refine ⟨_, List.mem_flatMap.mpr ⟨_, hmem, List.mem_cons_self⟩, ?_⟩
      simp only [Op.row]; omega
    · refine ⟨_, List.mem_flatMap.mpr ⟨_, hmem, List.mem_cons_of_mem _ List.mem_cons_self⟩, ?_⟩
      simp only [Op.row]; omega

end Verif.Box
