import Verif.Euler.Model
import Verif.SmoothAbs.Props
import Mathlib.Analysis.Calculus.Deriv.Inv
import Mathlib.Analysis.SpecialFunctions.Pow.Deriv
import Mathlib.Analysis.SpecialFunctions.Log.Deriv
import Mathlib.Tactic.FinCases
import Mathlib.Tactic.Positivity

/-! # Properties C31, C32 and C33: gas pressure and friction -/

set_option autoImplicit false

namespace Verif.Euler

open Verif.SmoothAbs Filter Topology Set

/-! ## Pressure and density (C31) -/

theorem cVac_pos : 0 < cVac := by unfold cVac p0 T z0 T0 rho0 bar; norm_num

theorem alpha_neg : alpha < 0 := by unfold alpha pcrit Tcrit T bar; norm_num

/-- C31. Density to pressure and back: nothing is lost, for every density where the pressure is defined; among
these are all non-negative densities. -/
theorem C31_density_round_trip (r : ℝ) :
    (1 - alpha * cVac * r ≠ 0 → rho (p r) = r) ∧ (0 ≤ r → 1 - alpha * cVac * r ≠ 0) := by
  have hc := cVac_pos
  have ha := alpha_neg
  constructor
  · intro h
    unfold rho p
    have : 1 + alpha * (cVac * r / (1 - alpha * cVac * r)) = 1 / (1 - alpha * cVac * r) := by
      rw [eq_div_iff h, add_mul, one_mul, mul_assoc alpha (_ / _), div_mul_cancel₀ _ h]; ring
    rw [this, mul_one_div, div_div_div_cancel_right₀ h, mul_div_cancel_left₀ _ hc.ne']
  · intro hr
    have : 0 ≤ -alpha * (cVac * r) := mul_nonneg (by linarith) (mul_nonneg hc.le hr)
    have : 0 < 1 - alpha * cVac * r := by nlinarith
    exact this.ne'

/-- C31. Pressure to density and back, for every pressure whose density is defined; among these are all
pressures from 0 to 440 bar, and these have non-negative densities. -/
theorem C31_pressure_round_trip (q : ℝ) :
    (1 + alpha * q ≠ 0 → p (rho q) = q) ∧
    (0 ≤ q → q ≤ 440 * bar → 1 + alpha * q ≠ 0 ∧ 0 ≤ rho q) := by
  have hc := cVac_pos
  constructor
  · intro h
    unfold rho p
    have : 1 - alpha * cVac * (q / (cVac * (1 + alpha * q))) = 1 / (1 + alpha * q) := by
      field_simp; ring
    rw [this, div_div_eq_mul_div, div_one, mul_div_assoc', mul_div_mul_left _ _ hc.ne',
      div_mul_cancel₀ _ h]
  · intro h0 h1
    have : 0 < 1 + alpha * q := by
      have ha : -(1 / (44100000 : ℝ)) < alpha := by unfold alpha pcrit Tcrit T bar; norm_num
      unfold bar at h1
      nlinarith
    exact ⟨this.ne', div_nonneg h0 (mul_nonneg hc.le this.le)⟩

/-- C31. The supplied derivative of the pressure is its derivative. -/
theorem C31_derivative (r : ℝ) (h : 1 - alpha * cVac * r ≠ 0) : HasDerivAt p (dp r) r := by
  have h1 : HasDerivAt (fun r : ℝ => cVac * r) cVac r := by
    simpa using (hasDerivAt_id r).const_mul cVac
  have h2 : HasDerivAt (fun r : ℝ => 1 - alpha * cVac * r) (-(alpha * cVac)) r := by
    simpa using ((hasDerivAt_id r).const_mul (alpha * cVac)).const_sub 1
  refine (h1.div h2 h).congr_deriv ?_
  unfold dp
  field_simp
  ring

/-- C31. On the non-negative densities the pressure is strictly increasing, and it stays below 445 bar
however large the density. -/
theorem C31_monotone : StrictMonoOn p (Ici 0) ∧ ∀ r, 0 ≤ r → 0 ≤ p r ∧ p r < 445 * bar := by
  have hc := cVac_pos
  have ha := alpha_neg
  have hD : ∀ r : ℝ, 0 ≤ r → 0 < 1 - alpha * cVac * r := by
    intro r hr
    have : 0 ≤ -alpha * (cVac * r) := mul_nonneg (by linarith) (mul_nonneg hc.le hr)
    nlinarith
  constructor
  · intro a ha0 b hb0 hab
    unfold p
    rw [div_lt_div_iff₀ (hD a ha0) (hD b hb0)]
    have := mul_lt_mul_of_pos_left hab hc
    nlinarith
  · intro r hr
    refine ⟨div_nonneg (mul_nonneg hc.le hr) (hD r hr).le, ?_⟩
    unfold p
    rw [div_lt_iff₀ (hD r hr)]
    have h1 : (1 : ℝ) ≤ -alpha * (445 * bar) := by unfold alpha pcrit Tcrit T bar; norm_num
    have h2 : 0 ≤ cVac * r := mul_nonneg hc.le hr
    have hb : 0 < bar := by unfold bar; norm_num
    nlinarith

/-- Beyond 445 bar the conversion from pressure silently gives a negative density. -/
theorem C31_beyond_range (q : ℝ) (h : 445 * bar ≤ q) : rho q < 0 := by
  have hc := cVac_pos
  unfold rho bar at *
  have ha : alpha < -(1 / (44500000 : ℝ)) := by unfold alpha pcrit Tcrit T bar; norm_num
  have h1 : 1 + alpha * q < 0 := by nlinarith
  exact div_neg_of_pos_of_neg (by linarith) (mul_neg_of_pos_of_neg hc h1)

/-- C31. Conversions between Pascal and bar and between states and (pressure, flow) are mutually inverse. -/
theorem C31_units (pq : ℝ × ℝ) : toBar (fromBar pq) = pq ∧ fromBar (toBar pq) = pq ∧
    (1 + alpha * pq.1 ≠ 0 → pQvol (state pq) = pq) ∧
    (1 - alpha * cVac * pq.1 ≠ 0 → state (pQvol pq) = pq) := by
  have hb : bar ≠ 0 := by unfold bar; norm_num
  refine ⟨?_, ?_, ?_, ?_⟩
  · unfold toBar fromBar; ext <;> simp [hb]
  · unfold toBar fromBar; ext <;> simp [hb]
  · intro h
    unfold pQvol state; ext
    · exact (C31_pressure_round_trip pq.1).1 h
    · rfl
  · intro h
    unfold pQvol state; ext
    · exact (C31_density_round_trip pq.1).1 h
    · rfl

/-! ## Turbulent friction (C33) -/

/-- Specification: the formula of Swamee and Jain. -/
noncomputable def sjArg (Re d k : ℝ) : ℝ := k / (3.7 * d) + 5.74 / Re ^ (0.9 : ℝ)

/-- Specification: the formula of Swamee and Jain, `1/4 / log10(...)^2`. -/
noncomputable def sj (d k : ℝ) (Re : ℝ) : ℝ := 1 / 4 / (Real.logb 10 (sjArg Re d k)) ^ 2

theorem swameeJain_ok {Re : ℝ} (d k : ℝ) (h : 4000 ≤ Re) : swameeJain Re d k = Res.ok (sj d k Re) := by
  unfold swameeJain turbulentBorder EPSILON
  rw [if_neg (by norm_num; linarith)]
  simp only [Res.ok.injEq]
  unfold sj sjArg
  rw [pow_two]; norm_num

/-- Derivative of `sjArg`. -/
noncomputable def dsjArg (Re : ℝ) : ℝ :=
  -5.74 / (Re ^ (0.9 : ℝ) * Re ^ (0.9 : ℝ)) * 0.9 * Re ^ (0.9 : ℝ) / Re

theorem sjArg_hasDerivAt {Re : ℝ} (d k : ℝ) (h : 0 < Re) :
    HasDerivAt (fun R => sjArg R d k) (dsjArg Re) Re := by
  have h1 : HasDerivAt (fun R : ℝ => R ^ (0.9 : ℝ)) (0.9 * Re ^ ((0.9 : ℝ) - 1)) Re :=
    Real.hasDerivAt_rpow_const (Or.inl h.ne')
  have hx : 0 < Re ^ (0.9 : ℝ) := Real.rpow_pos_of_pos h _
  have h2 := ((hasDerivAt_const Re (5.74 : ℝ)).div h1 hx.ne').const_add (k / (3.7 * d))
  refine h2.congr_deriv ?_
  rw [Real.rpow_sub_one h.ne']
  unfold dsjArg
  field_simp
  ring

/-- The derivative of the Swamee-Jain formula. -/
noncomputable def dsj (d k Re : ℝ) : ℝ :=
  -(1 / 2) / (Real.logb 10 (sjArg Re d k)) ^ 3 * (dsjArg Re / (Real.log 10 * sjArg Re d k))

theorem logb_ne_zero {a : ℝ} (h0 : 0 < a) (h1 : a ≠ 1) : Real.logb 10 a ≠ 0 := by
  unfold Real.logb
  exact div_ne_zero (Real.log_ne_zero_of_pos_of_ne_one h0 h1)
    (Real.log_ne_zero_of_pos_of_ne_one (by norm_num) (by norm_num))

theorem sj_hasDerivAt {Re d k : ℝ} (h : 0 < Re) (ha : 0 < sjArg Re d k) (ha1 : sjArg Re d k ≠ 1) :
    HasDerivAt (sj d k) (dsj d k Re) Re := by
  have hl : Real.log 10 ≠ 0 := Real.log_ne_zero_of_pos_of_ne_one (by norm_num) (by norm_num)
  have h1 := sjArg_hasDerivAt d k h
  have h2 : HasDerivAt (fun R => Real.logb 10 (sjArg R d k))
      (dsjArg Re / sjArg Re d k / Real.log 10) Re := (h1.log ha.ne').div_const _
  have hne := logb_ne_zero ha ha1
  have h3 := ((hasDerivAt_const Re (1 / 4 : ℝ)).div (h2.pow 2) (pow_ne_zero 2 hne))
  refine h3.congr_deriv ?_
  unfold dsj
  simp only [Pi.pow_apply]
  field_simp
  ring

theorem dSwameeJain_eq {Re : ℝ} (d k : ℝ) (h : 4000 ≤ Re) (ha : 0 < sjArg Re d k) :
    dSwameeJain Re d k = Res.ok (sjArg Re d k ^ 2 * dsj d k Re) := by
  have hRe : 0 < Re := by linarith
  have hl : Real.log 10 ≠ 0 := Real.log_ne_zero_of_pos_of_ne_one (by norm_num) (by norm_num)
  unfold dSwameeJain turbulentBorder EPSILON
  rw [if_neg (by norm_num; linarith)]
  have hx : Real.exp (Real.log Re * 0.9) = Re ^ (0.9 : ℝ) := (Real.rpow_def_of_pos hRe _).symm
  simp only [hx, Res.ok.injEq]
  change -0.5 / (Real.logb 10 (sjArg Re d k) * Real.logb 10 (sjArg Re d k) *
    Real.logb 10 (sjArg Re d k)) * (1 / Real.log 10 * sjArg Re d k *
    (-5.74 / (Re ^ (0.9 : ℝ) * Re ^ (0.9 : ℝ))) * 0.9 * Re ^ (0.9 : ℝ) / Re) = _
  unfold dsj
  have : (1 / Real.log 10 * sjArg Re d k *
    (-5.74 / (Re ^ (0.9 : ℝ) * Re ^ (0.9 : ℝ))) * 0.9 * Re ^ (0.9 : ℝ) / Re) =
      1 / Real.log 10 * sjArg Re d k * dsjArg Re := by unfold dsjArg; ring
  rw [this]
  field_simp
  norm_num
  ring

theorem dsjArg_neg {Re : ℝ} (h : 0 < Re) : dsjArg Re < 0 := by
  have hx : 0 < Re ^ (0.9 : ℝ) := Real.rpow_pos_of_pos h _
  unfold dsjArg
  refine div_neg_of_neg_of_pos ?_ h
  refine mul_neg_of_neg_of_pos (mul_neg_of_neg_of_pos (div_neg_of_neg_of_pos (by norm_num) ?_)
    (by norm_num)) hx
  positivity

theorem dsj_ne_zero {Re d k : ℝ} (h : 0 < Re) (ha : 0 < sjArg Re d k) (ha1 : sjArg Re d k ≠ 1) :
    dsj d k Re ≠ 0 := by
  have hl : 0 < Real.log 10 := Real.log_pos (by norm_num)
  unfold dsj
  exact mul_ne_zero (div_ne_zero (by norm_num) (pow_ne_zero 3 (logb_ne_zero ha ha1)))
    (div_ne_zero (dsjArg_neg h).ne (mul_pos hl ha).ne')

/-- For every real pipe (roughness at most the diameter) and turbulent flow the argument of the logarithm
lies strictly between 0 and 1. -/
theorem sjArg_range {Re d k : ℝ} (h : 4000 ≤ Re) (hd : 0 < d) (hk : 0 ≤ k) (hkd : k ≤ d) :
    0 < sjArg Re d k ∧ sjArg Re d k < 1 := by
  have hRe : 0 < Re := by linarith
  have hx : 0 < Re ^ (0.9 : ℝ) := Real.rpow_pos_of_pos hRe _
  have h60 : (60 : ℝ) ≤ Re ^ (0.9 : ℝ) := by
    have h1 : Re ^ ((1 : ℝ) / 2) ≤ Re ^ (0.9 : ℝ) :=
      Real.rpow_le_rpow_of_exponent_le (by linarith) (by norm_num)
    have h2 : (3600 : ℝ) ^ ((1 : ℝ) / 2) ≤ Re ^ ((1 : ℝ) / 2) :=
      Real.rpow_le_rpow (by norm_num) (by linarith) (by norm_num)
    have h3 : (3600 : ℝ) ^ ((1 : ℝ) / 2) = 60 := by
      rw [← Real.sqrt_eq_rpow, show (3600 : ℝ) = 60 ^ 2 by norm_num, Real.sqrt_sq (by norm_num)]
    linarith
  have hA : 0 ≤ k / (3.7 * d) := by positivity
  have hA' : k / (3.7 * d) ≤ 1 / 3.7 := by
    rw [div_le_div_iff₀ (by positivity) (by norm_num)]; nlinarith
  have hB : 0 < 5.74 / Re ^ (0.9 : ℝ) := by positivity
  have hB' : 5.74 / Re ^ (0.9 : ℝ) ≤ 5.74 / 60 := by
    exact div_le_div_of_nonneg_left (by norm_num) (by norm_num) h60
  unfold sjArg
  constructor
  · linarith
  · have : (1 : ℝ) / 3.7 + 5.74 / 60 < 1 := by norm_num
    linarith

/-- C33 as stated: the supplied value is the derivative of the formula, for real pipes. -/
def C33Statement : Prop := ∀ Re d k : ℝ, 4000 ≤ Re → 0 < d → 0 ≤ k → k ≤ d →
  ∃ s, dSwameeJain Re d k = Res.ok s ∧ HasDerivAt (sj d k) s Re

/-- What the code computes instead: the true derivative times the square of the argument of the logarithm.
This is the true derivative with a multiplication by `a` in the place of a division. -/
theorem C33_actual (Re d k : ℝ) (h : 4000 ≤ Re) (hd : 0 < d) (hk : 0 ≤ k) (hkd : k ≤ d) :
    ∃ s, HasDerivAt (sj d k) s Re ∧ s ≠ 0 ∧ 0 < sjArg Re d k ∧ sjArg Re d k < 1 ∧
      dSwameeJain Re d k = Res.ok (sjArg Re d k ^ 2 * s) := by
  obtain ⟨h0, h1⟩ := sjArg_range h hd hk hkd
  exact ⟨dsj d k Re, sj_hasDerivAt (by linarith) h0 h1.ne, dsj_ne_zero (by linarith) h0 h1.ne, h0, h1,
    dSwameeJain_eq d k h h0⟩

/-- C33 is false, and not only somewhere: for every real pipe and every turbulent Reynolds number the
supplied value is not the derivative. -/
theorem C33_false_everywhere (Re d k : ℝ) (h : 4000 ≤ Re) (hd : 0 < d) (hk : 0 ≤ k) (hkd : k ≤ d)
    (s : ℝ) (hs : dSwameeJain Re d k = Res.ok s) : ¬ HasDerivAt (sj d k) s Re := by
  obtain ⟨t, ht, ht0, h0, h1, he⟩ := C33_actual Re d k h hd hk hkd
  rw [he] at hs
  injection hs with hs
  intro hder
  have := hder.unique ht
  rw [← hs] at this
  have h2 : sjArg Re d k ^ 2 < 1 := by nlinarith
  have : (sjArg Re d k ^ 2 - 1) * t = 0 := by linarith
  rcases mul_eq_zero.mp this with h | h
  · linarith
  · exact ht0 h

theorem C33_false : ¬ C33Statement := by
  intro h
  obtain ⟨s, hs, hd⟩ := h 5000 1 0 (by norm_num) (by norm_num) le_rfl (by norm_num)
  exact C33_false_everywhere 5000 1 0 (by norm_num) (by norm_num) le_rfl (by norm_num) s hs hd

/-! ## Seams of the friction factor (C32) -/

/-- The inverse of the matrix of the spline conditions. -/
noncomputable def coeffInv : Matrix (Fin 4) (Fin 4) ℝ :=
  !![2 / 2000 ^ 3, 1 / 2000 ^ 2, -2 / 2000 ^ 3, 1 / 2000 ^ 2;
     -9 / 2000 ^ 2, -5 / 2000, 9 / 2000 ^ 2, -4 / 2000;
     12 / 2000, 8, -12 / 2000, 5;
     -4, -4 * 2000, 5, -2 * 2000]

theorem coeff_mul_inv : coeffMatrix * coeffInv = 1 := by
  unfold coeffMatrix coeffInv laminarBorder turbulentBorder
  ext i j
  fin_cases i <;> fin_cases j <;>
    simp [Matrix.mul_apply, Fin.sum_univ_four] <;> norm_num

theorem coeff_solves (b : Fin 4 → ℝ) : coeffMatrix.mulVec (coeffMatrix⁻¹.mulVec b) = b := by
  have : IsUnit coeffMatrix.det := by
    have h := congrArg Matrix.det coeff_mul_inv
    rw [Matrix.det_mul, Matrix.det_one] at h
    exact IsUnit.of_mul_eq_one _ h
  rw [Matrix.mulVec_mulVec, Matrix.mul_nonsing_inv _ this, Matrix.one_mulVec]

/-- The spline of the transition region. -/
def spline (c : Fin 4 → ℝ) (Re : ℝ) : ℝ := c 0 * (Re * Re * Re) + c 1 * (Re * Re) + c 2 * Re + c 3 * 1

/-- Its derivative. -/
def dspline (c : Fin 4 → ℝ) (Re : ℝ) : ℝ := c 0 * (3 * Re * Re) + c 1 * (2 * Re) + c 2 * 1 + c 3 * 0

theorem spline_hasDerivAt (c : Fin 4 → ℝ) (Re : ℝ) : HasDerivAt (spline c) (dspline c Re) Re := by
  have hx : HasDerivAt (fun x : ℝ => x) 1 Re := hasDerivAt_id Re
  have := ((((hx.mul hx).mul hx).const_mul (c 0)).add ((hx.mul hx).const_mul (c 1))).add
    (hx.const_mul (c 2)) |>.add_const (c 3 * 1)
  refine this.congr_deriv ?_
  unfold dspline
  simp only [Pi.mul_apply]
  ring

/-- The coefficients exist for every real pipe and meet the four conditions at the seams. -/
theorem coefficients_spec (d k : ℝ) (ha : 0 < sjArg 4000 d k) :
    ∃ c, coefficients d k = Res.ok c ∧ spline c 2000 = 64 / 2000 ∧
      dspline c 2000 = -64 / (2000 * 2000) ∧ spline c 4000 = sj d k 4000 ∧
      dspline c 4000 = sjArg 4000 d k ^ 2 * dsj d k 4000 := by
  have h1 : swameeJain turbulentBorder d k = Res.ok (sj d k 4000) := swameeJain_ok d k le_rfl
  have h2 : dSwameeJain turbulentBorder d k = Res.ok (sjArg 4000 d k ^ 2 * dsj d k 4000) :=
    dSwameeJain_eq d k le_rfl ha
  have hsol := coeff_solves ![64 / laminarBorder, -64 / (laminarBorder * laminarBorder), sj d k 4000,
    sjArg 4000 d k ^ 2 * dsj d k 4000]
  refine ⟨_, by unfold coefficients; rw [h1, h2]; rfl, ?_⟩
  generalize coeffMatrix⁻¹.mulVec ![64 / laminarBorder, -64 / (laminarBorder * laminarBorder),
    sj d k 4000, sjArg 4000 d k ^ 2 * dsj d k 4000] = c at hsol ⊢
  have e0 := congrFun hsol 0
  have e1 := congrFun hsol 1
  have e2 := congrFun hsol 2
  have e3 := congrFun hsol 3
  simp [coeffMatrix, laminarBorder, turbulentBorder, Matrix.mulVec, dotProduct,
    Fin.sum_univ_four] at e0 e1 e2 e3
  unfold spline dspline
  refine ⟨?_, ?_, ?_, ?_⟩ <;> norm_num at * <;> linarith

/-- The friction factor as a function of the Reynolds number: `64 / Re` below 2000 (this is what `source`
uses, in simplified form), `lambda_non_laminar` from there on; for real pipes. -/
noncomputable def friction (d k Re : ℝ) : ℝ :=
  if Re < 2000 then 64 / Re
  else match lambda Re d k with
    | Res.ok l => l
    | _ => 0

theorem lambda_transition {d k Re : ℝ} {c : Fin 4 → ℝ} (hc : coefficients d k = Res.ok c)
    (h1 : 2000 ≤ Re) (h2 : Re ≤ 4000) : lambda Re d k = Res.ok (spline c Re) := by
  unfold lambda laminarBorder turbulentBorder EPSILON
  rw [if_neg (by norm_num; linarith), if_neg (not_lt.mpr h2), hc]
  rfl

theorem dlambda_transition {d k Re : ℝ} {c : Fin 4 → ℝ} (hc : coefficients d k = Res.ok c)
    (h1 : 2000 ≤ Re) (h2 : Re ≤ 4000) : dlambda Re d k = Res.ok (dspline c Re) := by
  unfold dlambda laminarBorder turbulentBorder EPSILON
  rw [if_neg (by norm_num; linarith), if_neg (not_lt.mpr h2), hc]
  rfl

theorem lambda_turbulent {d k Re : ℝ} (h : 4000 < Re) : lambda Re d k = Res.ok (sj d k Re) := by
  unfold lambda laminarBorder turbulentBorder EPSILON
  rw [if_neg (by norm_num; linarith), if_pos h, swameeJain_ok d k h.le]

theorem friction_transition {d k Re : ℝ} {c : Fin 4 → ℝ} (hc : coefficients d k = Res.ok c)
    (h1 : 2000 ≤ Re) (h2 : Re ≤ 4000) : friction d k Re = spline c Re := by
  unfold friction
  rw [if_neg (not_lt.mpr h1), lambda_transition hc h1 h2]

theorem friction_turbulent {d k Re : ℝ} (h : 4000 < Re) : friction d k Re = sj d k Re := by
  unfold friction
  rw [if_neg (by linarith), lambda_turbulent h]

/-- C32, laminar seam: value 64/2000 and derivative -64/2000² from both sides. -/
theorem C32_laminar_seam (d k : ℝ) (hd : 0 < d) (hk : 0 ≤ k) (hkd : k ≤ d) :
    HasDerivAt (friction d k) (-64 / (2000 * 2000)) 2000 ∧ friction d k 2000 = 64 / 2000 := by
  obtain ⟨h0, -⟩ := sjArg_range (Re := 4000) le_rfl hd hk hkd
  obtain ⟨c, hc, e0, e1, -, -⟩ := coefficients_spec d k h0
  have h64 : HasDerivAt (fun R : ℝ => 64 / R) (-64 / (2000 * 2000)) 2000 := by
    have := (hasDerivAt_const (2000 : ℝ) (64 : ℝ)).div (hasDerivAt_id (2000 : ℝ)) (by norm_num)
    refine this.congr_deriv ?_
    simp; norm_num
  have hs : HasDerivAt (spline c) (-64 / (2000 * 2000)) 2000 := e1 ▸ spline_hasDerivAt c 2000
  have hval : friction d k 2000 = 64 / 2000 := by
    rw [friction_transition hc le_rfl (by norm_num), e0]
  refine ⟨hasDerivAt_glue h64 hs ?_ ?_, hval⟩
  · filter_upwards with R hR
    rcases lt_or_eq_of_le hR with h | h
    · unfold friction; rw [if_pos h]
    · rw [h, hval]
  · filter_upwards [Iio_mem_nhds (show (2000 : ℝ) < 4000 by norm_num)] with R hR hle
    exact friction_transition hc hle (le_of_lt hR)

/-- C32, turbulent seam: the friction factor is continuous at 4000. -/
theorem C32_turbulent_continuous (d k : ℝ) (hd : 0 < d) (hk : 0 ≤ k) (hkd : k ≤ d) :
    ContinuousAt (friction d k) 4000 := by
  obtain ⟨h0, h1⟩ := sjArg_range (Re := 4000) le_rfl hd hk hkd
  obtain ⟨c, hc, -, -, e2, -⟩ := coefficients_spec d k h0
  have hL : ContinuousAt (spline c) 4000 := (spline_hasDerivAt c 4000).continuousAt
  have hR : ContinuousAt (sj d k) 4000 := (sj_hasDerivAt (by norm_num) h0 h1.ne).continuousAt
  rw [continuousAt_iff_continuous_left_right]
  have hval : friction d k 4000 = spline c 4000 := friction_transition hc (by norm_num) le_rfl
  constructor
  · refine hL.continuousWithinAt.congr_of_eventuallyEq ?_ hval
    have : Ioi (2000 : ℝ) ∈ 𝓝[≤] (4000 : ℝ) :=
      mem_nhdsWithin_of_mem_nhds (Ioi_mem_nhds (by norm_num))
    filter_upwards [this, self_mem_nhdsWithin] with R h1 h2
    exact friction_transition hc (le_of_lt h1) h2
  · refine hR.continuousWithinAt.congr_of_eventuallyEq ?_ (by rw [hval, e2])
    filter_upwards [self_mem_nhdsWithin] with R h2
    have h2 : (4000 : ℝ) ≤ R := h2
    rcases lt_or_eq_of_le h2 with h | h
    · exact friction_turbulent h
    · rw [← h, hval, e2]

/-- C32 as stated. -/
def C32Statement : Prop := ∀ d k : ℝ, 0 < d → 0 ≤ k → k ≤ d →
  DifferentiableAt ℝ (friction d k) 2000 ∧ DifferentiableAt ℝ (friction d k) 4000

/-- C32 is false at the turbulent seam, for every real pipe: because of the wrong derivative (C33) the
spline arrives with another slope than the formula leaves with. -/
theorem C32_turbulent_kink (d k : ℝ) (hd : 0 < d) (hk : 0 ≤ k) (hkd : k ≤ d) :
    ¬ DifferentiableAt ℝ (friction d k) 4000 := by
  obtain ⟨h0, h1⟩ := sjArg_range (Re := 4000) le_rfl hd hk hkd
  obtain ⟨c, hc, -, -, e2, e3⟩ := coefficients_spec d k h0
  intro hdiff
  have hder := hdiff.hasDerivAt
  set s := deriv (friction d k) 4000
  have hval : friction d k 4000 = spline c 4000 := friction_transition hc (by norm_num) le_rfl
  have hl : HasDerivWithinAt (friction d k) (dspline c 4000) (Iic 4000) 4000 := by
    refine (spline_hasDerivAt c 4000).hasDerivWithinAt.congr_of_eventuallyEq ?_ hval
    have : Ioi (2000 : ℝ) ∈ 𝓝[≤] (4000 : ℝ) :=
      mem_nhdsWithin_of_mem_nhds (Ioi_mem_nhds (by norm_num))
    filter_upwards [this, self_mem_nhdsWithin] with R h1 h2
    exact friction_transition hc (le_of_lt h1) h2
  have hr : HasDerivWithinAt (friction d k) (dsj d k 4000) (Ici 4000) 4000 := by
    refine (sj_hasDerivAt (by norm_num) h0 h1.ne).hasDerivWithinAt.congr_of_eventuallyEq ?_
      (by rw [hval, e2])
    filter_upwards [self_mem_nhdsWithin] with R h2
    have h2 : (4000 : ℝ) ≤ R := h2
    rcases lt_or_eq_of_le h2 with h | h
    · exact friction_turbulent h
    · rw [← h, hval, e2]
  have u1 := (uniqueDiffWithinAt_Iic (4000 : ℝ)).eq_deriv _ hl hder.hasDerivWithinAt
  have u2 := (uniqueDiffWithinAt_Ici (4000 : ℝ)).eq_deriv _ hr hder.hasDerivWithinAt
  have : sjArg 4000 d k ^ 2 * dsj d k 4000 = dsj d k 4000 := by rw [← e3, u1, u2]
  have hne := dsj_ne_zero (Re := 4000) (by norm_num) h0 h1.ne
  have h2 : sjArg 4000 d k ^ 2 < 1 := by nlinarith
  have : (sjArg 4000 d k ^ 2 - 1) * dsj d k 4000 = 0 := by linarith
  rcases mul_eq_zero.mp this with h | h
  · linarith
  · exact hne h

theorem C32_false : ¬ C32Statement := fun h =>
  C32_turbulent_kink 1 0 (by norm_num) le_rfl (by norm_num) (h 1 0 (by norm_num) le_rfl (by norm_num)).2

end Verif.Euler
