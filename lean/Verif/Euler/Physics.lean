import Verif.Euler.Source
import Mathlib.Analysis.Real.Pi.Bounds

/-!
# Property C169: the equations of a pipe are the isothermal Euler equations with friction

In terms of density, velocity and pressure the flux is that of the Euler equations, and the source is friction
after Darcy and Weisbach in a pipe with a circular cross section.
-/

set_option autoImplicit false

namespace Verif.Euler

open Verif.SmoothAbs Real

/-! ## Specification, with all constants as numbers -/

/-- The compressibility factor of the American Gas Association at 283.15 K, for natural gas. -/
noncomputable def compressibility (P : ℝ) : ℝ := 1 + 0.257 * (P / 4645120) - 0.533 * (P / 4645120) / (283.15 / 192.033)

/-- The velocity of gas: a flow `q` in cubic metres per second of gas at normal conditions, where its density is
0.785, through the area `A` at density `r`. -/
noncomputable def velocity (A r q : ℝ) : ℝ := 0.785 * q / (A * r)

/-- The formula of Swamee and Jain for the friction factor, in its usual form. -/
def SwameeJain (d k Re l : ℝ) : Prop := 0 < l ∧ 1 / √l = -2 * logb 10 (k / (3.7 * d) + 5.74 / Re ^ (0.9 : ℝ))

/-- The friction factor at a Reynolds number: after Hagen and Poiseuille in laminar flow, after Swamee and Jain in turbulent
flow, and in between a cubic polynomial that fits both in value, and the first also in slope. -/
def FrictionFactor (d k Re l : ℝ) : Prop :=
  (0 < Re → Re < 2000 → l = 64 / Re) ∧ (4000 < Re → SwameeJain d k Re l) ∧
  (2000 ≤ Re → Re ≤ 4000 → ∃ a b c e : ℝ, l = a * Re ^ 3 + b * Re ^ 2 + c * Re + e ∧
    a * 2000 ^ 3 + b * 2000 ^ 2 + c * 2000 + e = 64 / 2000 ∧ 3 * a * 2000 ^ 2 + 2 * b * 2000 + c = -64 / 2000 ^ 2 ∧
    SwameeJain d k 4000 (a * 4000 ^ 3 + b * 4000 ^ 2 + c * 4000 + e))

/-! ## Theorems -/

/-- C169. The cross section of a pipe is the area of a circle, up to the digits of pi that are kept. -/
theorem C169_area (d : ℝ) : |circleArea (0.5 * d) - π * (d / 2) ^ 2| ≤ d ^ 2 / 10 ^ 15 := by
  have e : circleArea (0.5 * d) - π * (d / 2) ^ 2 = (SmoothAbs.Pi - π) / 4 * d ^ 2 := by unfold circleArea; ring
  have h1 := pi_gt_d20
  have h2 := pi_lt_d20
  have h : |(SmoothAbs.Pi - π) / 4| ≤ 1 / 10 ^ 15 := by
    unfold SmoothAbs.Pi
    rw [abs_le]; constructor <;> norm_num at * <;> linarith
  rw [e, abs_mul, abs_of_nonneg (sq_nonneg d)]
  have := mul_le_mul_of_nonneg_right h (sq_nonneg d)
  linarith

/-- C169. Pressure and density obey the law of real gases with this factor: pressure divided by density, factor and
temperature is the same as at normal conditions (101325 Pa, 273.15 K, density 0.785, factor 1.005). -/
theorem C169_gas_law {r : ℝ} (hr : 0 < r) :
    0 < compressibility (p r) ∧ p r / (r * compressibility (p r) * 283.15) = 101325 / (0.785 * 1.005 * 273.15) := by
  have hc : compressibility (p r) = 1 + alpha * p r := by
    unfold compressibility alpha pcrit Tcrit T bar; ring
  have hα : alpha < 0 := by unfold alpha pcrit Tcrit T bar; norm_num
  have hv : 0 < cVac := by unfold cVac p0 T z0 T0 rho0 bar; norm_num
  have hD : 0 < 1 - alpha * cVac * r := by nlinarith [mul_pos hv hr]
  have hz : 1 + alpha * p r = 1 / (1 - alpha * cVac * r) := by unfold p; field_simp; ring
  rw [hc, hz]
  refine ⟨by positivity, ?_⟩
  have e : p r / (r * (1 / (1 - alpha * cVac * r)) * 283.15) = cVac / 283.15 := by
    unfold p
    generalize 1 - alpha * cVac * r = D at hD
    field_simp
  rw [e]
  unfold cVac p0 T z0 T0 rho0 bar
  norm_num

/-- C169. The flux: what is conserved are density and, in units of normal density and area, mass flow; density flows with the
velocity, and momentum by pressure and velocity. -/
theorem C169_flux {d : ℝ} (hd : 0 < d) {r : ℝ} (hr : 0 < r) (q : ℝ) :
    flux d (r, q) = (r * velocity (circleArea (0.5 * d)) r q,
      circleArea (0.5 * d) / 0.785 * (p r + r * velocity (circleArea (0.5 * d)) r q ^ 2)) := by
  have hA : 0 < circleArea (0.5 * d) := by unfold circleArea SmoothAbs.Pi; positivity
  unfold flux velocity rho0
  refine Prod.ext ?_ ?_
  · field_simp
  · field_simp

theorem swameeJain_spec {d k Re : ℝ} (h : 4000 ≤ Re) (hp : RealPipe d k) : SwameeJain d k Re (sj d k Re) := by
  obtain ⟨a0, a1⟩ := sjArg_range h hp.pos hp.nonneg hp.rough
  have hl : logb 10 (sjArg Re d k) < 0 := logb_neg (by norm_num) a0 a1
  have e : sj d k Re = (1 / (-2 * logb 10 (sjArg Re d k))) ^ 2 := by
    unfold sj; field_simp; norm_num
  have hpos : 0 < 1 / (-2 * logb 10 (sjArg Re d k)) := by
    apply one_div_pos.mpr; linarith
  refine ⟨by rw [e]; positivity, ?_⟩
  rw [e, sqrt_sq hpos.le, one_div_one_div]
  rfl

/-- C169. The source: mass is neither made nor lost, and momentum is lost by friction after Darcy and Weisbach, with the
friction factor that belongs to the Reynolds number. -/
theorem C169_source {d k : ℝ} (hp : RealPipe d k) {r : ℝ} (hr : 0 < r) (q : ℝ) :
    ∃ l, FrictionFactor d k (r * |velocity (circleArea (0.5 * d)) r q| * d / 0.00001) l ∧
      source d k (r, q) = Res.ok (0, -(circleArea (0.5 * d) / 0.785 * (l / (2 * d) * r *
        velocity (circleArea (0.5 * d)) r q * |velocity (circleArea (0.5 * d)) r q|))) := by
  have hd := hp.pos
  have hA : 0 < circleArea (0.5 * d) := by unfold circleArea SmoothAbs.Pi; positivity
  have habs : |velocity (circleArea (0.5 * d)) r q| = 0.785 * |q| / (circleArea (0.5 * d) * r) := by
    unfold velocity
    rw [abs_div, abs_mul, abs_of_pos (mul_pos hA hr), abs_of_pos (by norm_num : (0 : ℝ) < 0.785)]
  have hRe : r * |velocity (circleArea (0.5 * d)) r q| * d / 0.00001 = reynolds q d := by
    rw [habs]; unfold reynolds eta rho0; field_simp; norm_num; ring
  rw [hRe, habs]
  have hcoeff : 0 < coeffReynolds d := by unfold coeffReynolds eta rho0; positivity
  by_cases hlam : reynolds q d < 2000
  · refine ⟨64 / reynolds q d, ⟨fun _ _ => rfl, fun h => absurd h (by linarith), fun h => absurd h (by linarith)⟩, ?_⟩
    rw [C34_source_defined hp]
    unfold force
    simp only [if_pos hlam]
    rw [reynolds_eq]
    congr 2
    unfold velocity
    rcases eq_or_ne q 0 with rfl | hq
    · simp
    · have : 0 < |q| := abs_pos.mpr hq
      unfold rho0
      field_simp
  · obtain ⟨l, hl⟩ := lambda_ok hp _ (not_lt.mp hlam)
    refine ⟨l, ⟨fun _ h => absurd h hlam, fun h => ?_, fun h2 h4 => ?_⟩, ?_⟩
    · rw [lambda_turbulent h] at hl
      injection hl with hl
      rw [← hl]
      exact swameeJain_spec h.le hp
    · obtain ⟨c, hc, e0, e1, e2, -⟩ := coefficients_spec d k hp.arg
      rw [lambda_transition hc h2 h4] at hl
      injection hl with hl
      unfold spline at hl e0 e2
      unfold dspline at e1
      refine ⟨c 0, c 1, c 2, c 3, by rw [← hl]; ring, by linarith, by norm_num at e1 ⊢; linarith, ?_⟩
      have : c 0 * 4000 ^ 3 + c 1 * 4000 ^ 2 + c 2 * 4000 + c 3 = sj d k 4000 := by rw [← e2]; ring
      rw [this]
      exact swameeJain_spec le_rfl hp
    · rw [C34_source_defined hp]
      unfold force
      simp only [if_neg hlam, hl]
      congr 2
      unfold velocity rho0
      field_simp

/-- A pipe of one metre meets the hypotheses of `C169_source`, in turbulent flow. -/
example : RealPipe 1 0 ∧ 4000 < 50 * |velocity (circleArea (0.5 * 1)) 50 1| * 1 / 0.00001 := by
  refine ⟨by constructor <;> norm_num, ?_⟩
  unfold velocity circleArea SmoothAbs.Pi
  rw [abs_of_pos (by norm_num)]
  norm_num

end Verif.Euler
