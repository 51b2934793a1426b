import Verif.SmoothAbs.Model
import Verif.Basic.Deriv
import Mathlib.Analysis.Calculus.Deriv.Mul
import Mathlib.Analysis.Calculus.Deriv.Add
import Mathlib.Analysis.Calculus.Deriv.Pow
import Mathlib.Analysis.Calculus.Deriv.Abs
import Mathlib.Tactic.NormNum
import Mathlib.Tactic.Linarith
import Mathlib.Tactic.FieldSimp

/-! # Property C28: the smoothed absolute value -/

set_option autoImplicit false

namespace Verif.SmoothAbs

open Filter Topology

theorem eps_pos : 0 < eps := by unfold eps; norm_num

/-- The inner piece as a polynomial. -/
noncomputable def inner (x : ℝ) : ℝ := x * (x / eps) / 2 * (-(x / eps) * (x / eps) + 3)

theorem inner_hasDerivAt (x : ℝ) :
    HasDerivAt inner ((x / eps) * (-2 * (x / eps) * (x / eps) + 3)) x := by
  have h1 : HasDerivAt (fun x : ℝ => x / eps) (1 / eps) x := (hasDerivAt_id x).div_const eps
  have h := (((hasDerivAt_id' x).mul h1).div_const 2).mul (((h1.neg).mul h1).add_const 3)
  refine HasDerivAt.congr_deriv (f := inner) h ?_
  simp only [Pi.mul_apply, Pi.neg_apply]
  have := eps_pos.ne'
  field_simp
  ring

theorem smoothAbs_inner {x : ℝ} (h1 : -eps ≤ x) (h2 : x ≤ eps) : smoothAbs x = inner x := by
  have he := eps_pos
  unfold smoothAbs inner
  by_cases a : x ≤ -eps
  · have : x = -eps := le_antisymm a h1
    rw [if_pos a, this]; field_simp; norm_num
  · rw [if_neg a]
    by_cases b : eps ≤ x
    · have : x = eps := le_antisymm h2 b
      rw [if_pos b, this]; field_simp; norm_num
    · rw [if_neg b]

/-- C28. The supplied derivative is the derivative, everywhere. -/
theorem C28_derivative (x : ℝ) : HasDerivAt smoothAbs (dsmoothAbs x) x := by
  have he := eps_pos
  have hneg : HasDerivAt (fun y : ℝ => -y) (-1) x := (hasDerivAt_id x).neg
  have hid : HasDerivAt (fun y : ℝ => y) 1 x := hasDerivAt_id x
  have hin := inner_hasDerivAt x
  rcases lt_trichotomy x (-eps) with h | h | h
  · have : dsmoothAbs x = -1 := by unfold dsmoothAbs; rw [if_pos h.le]
    rw [this]
    refine hneg.congr_of_eventuallyEq ?_
    filter_upwards [Iio_mem_nhds h] with y hy
    have hy : y < -eps := hy
    unfold smoothAbs; rw [if_pos hy.le]
  · have : dsmoothAbs x = -1 := by unfold dsmoothAbs; rw [if_pos h.le]
    rw [this]
    refine hasDerivAt_glue (f := fun y => -y) (g := inner) hneg ?_ ?_ ?_
    · convert hin using 1; rw [h]; field_simp; norm_num
    · filter_upwards with y hy
      unfold smoothAbs; rw [if_pos (hy.trans h.le)]
    · filter_upwards [Iio_mem_nhds (show x < eps by linarith)] with y hy hxy
      exact smoothAbs_inner (by linarith) (le_of_lt hy)
  · rcases lt_trichotomy x eps with h' | h' | h'
    · have : dsmoothAbs x = (x / eps) * (-2 * (x / eps) * (x / eps) + 3) := by
        unfold dsmoothAbs; rw [if_neg (not_le.mpr h), if_neg (not_le.mpr h')]
      rw [this]
      refine hin.congr_of_eventuallyEq ?_
      filter_upwards [Ioo_mem_nhds h h'] with y hy
      exact smoothAbs_inner hy.1.le hy.2.le
    · have : dsmoothAbs x = 1 := by
        unfold dsmoothAbs; rw [if_neg (not_le.mpr h), if_pos h'.ge]
      rw [this]
      refine hasDerivAt_glue (f := inner) (g := fun y => y) ?_ hid ?_ ?_
      · convert hin using 1; rw [h']; field_simp; norm_num
      · filter_upwards [Ioi_mem_nhds h] with y hy hxy
        exact smoothAbs_inner (le_of_lt hy) (hxy.trans h'.le)
      · filter_upwards [Ioi_mem_nhds h] with y hy hxy
        have hy : -eps < y := hy
        unfold smoothAbs; rw [if_neg (not_le.mpr hy), if_pos (h'.ge.trans hxy)]
    · have : dsmoothAbs x = 1 := by
        unfold dsmoothAbs; rw [if_neg (not_le.mpr h), if_pos h'.le]
      rw [this]
      refine hid.congr_of_eventuallyEq ?_
      filter_upwards [Ioi_mem_nhds h'] with y hy
      have hy : eps < y := hy
      unfold smoothAbs; rw [if_neg (by linarith), if_pos hy.le]

/-- C28. The derivative is continuous: there is no kink. -/
theorem C28_derivative_continuous : Continuous dsmoothAbs := by
  have he := eps_pos
  have h1 : Continuous fun x : ℝ => if eps ≤ x then (1 : ℝ) else
      (x / eps) * (-2 * (x / eps) * (x / eps) + 3) := by
    refine Continuous.if_le (by fun_prop) (by fun_prop) continuous_const continuous_id ?_
    intro x hx; rw [← hx]; field_simp; norm_num
  refine Continuous.if_le continuous_const h1 continuous_id continuous_const ?_
  intro x hx
  rw [hx, if_neg (by linarith)]; field_simp; norm_num

/-- C28. The smoothed absolute value is even, agrees with `|x|` outside the smoothing radius `10^-4`, is
never negative, vanishes only at 0, and lies below `|x|` by at most the radius. -/
theorem C28_values (x : ℝ) :
    smoothAbs (-x) = smoothAbs x ∧ (1 / 10000 ≤ |x| → smoothAbs x = |x|) ∧
    0 ≤ smoothAbs x ∧ (smoothAbs x = 0 ↔ x = 0) ∧ smoothAbs x ≤ |x| ∧
    |x| - smoothAbs x ≤ 1 / 10000 := by
  have he := eps_pos
  have hev : (1 / 10000 : ℝ) = eps := rfl
  rw [hev]
  rcases lt_or_ge |x| eps with h | h
  · obtain ⟨h1, h2⟩ := abs_lt.mp h
    have hin : smoothAbs x = inner x := smoothAbs_inner h1.le h2.le
    have hin' : smoothAbs (-x) = inner (-x) := smoothAbs_inner (by linarith) (by linarith)
    set u := |x| / eps with hu
    have hxu : x * x = (u * eps) * (u * eps) := by
      rw [hu]; field_simp; rw [sq_abs]
    have hu0 : 0 ≤ u := div_nonneg (abs_nonneg x) he.le
    have hu1 : u < 1 := by rw [hu, div_lt_one he]; exact h
    have hval : inner x = eps * (u * u * (3 - u * u) / 2) := by
      have : inner x = (x * x) / eps / 2 * (3 - (x * x) / (eps * eps)) := by
        unfold inner; field_simp; ring
      rw [this, hxu]; field_simp
    have habs : |x| = eps * u := by rw [hu]; field_simp
    have hpos3 : 0 < 3 - u * u := by nlinarith
    refine ⟨?_, fun h' => absurd h' (not_le.mpr h), ?_, ?_, ?_, ?_⟩
    · rw [hin, hin']; unfold inner; field_simp
    · rw [hin, hval]; positivity
    · rw [hin, hval]
      constructor
      · intro h0
        have : u = 0 := by
          rcases mul_eq_zero.mp h0 with h0 | h0
          · exact absurd h0 he.ne'
          · have : u * u * (3 - u * u) = 0 := by linarith
            rcases mul_eq_zero.mp this with h0 | h0
            · exact mul_self_eq_zero.mp h0
            · exact absurd h0 hpos3.ne'
        have : |x| = 0 := by rw [habs, this, mul_zero]
        exact abs_eq_zero.mp this
      · intro h0
        rw [hu, h0]; simp
    · rw [hin, hval, habs]
      refine mul_le_mul_of_nonneg_left ?_ he.le
      nlinarith [mul_nonneg hu0 (mul_nonneg (sq_nonneg (1 - u)) (by linarith : (0:ℝ) ≤ u + 2))]
    · rw [hin, hval, habs]
      have : u - u * u * (3 - u * u) / 2 ≤ 1 := by nlinarith [mul_nonneg hu0 hu0]
      nlinarith
  · have hx : smoothAbs x = |x| := by
      unfold smoothAbs
      rcases le_total 0 x with h0 | h0
      · rw [abs_of_nonneg h0] at h ⊢
        rw [if_neg (by linarith), if_pos h]
      · rw [abs_of_nonpos h0] at h ⊢
        rw [if_pos (by linarith)]
    have hx' : smoothAbs (-x) = |x| := by
      unfold smoothAbs
      rcases le_total 0 x with h0 | h0
      · rw [abs_of_nonneg h0] at h ⊢
        rw [if_pos (by linarith), neg_neg]
      · rw [abs_of_nonpos h0] at h ⊢
        rw [if_neg (by linarith), if_pos h]
    refine ⟨by rw [hx, hx'], fun _ => hx, by rw [hx]; exact abs_nonneg x, ?_, hx.le, ?_⟩
    · rw [hx, abs_eq_zero]
    · rw [hx]; linarith

/-- `dabs_dx` gives the derivative of the absolute value, or throws if the argument is next to 0. -/
theorem dabs_spec (x : ℝ) : (|x| < 1 / 10 ^ 13 ∧ dabs x = Res.throws) ∨
    (1 / 10 ^ 13 ≤ |x| ∧ ∃ d, dabs x = Res.ok d ∧ HasDerivAt (fun y : ℝ => |y|) d x ∧ d * x = |x|) := by
  rcases lt_or_ge |x| (1 / 10 ^ 13) with h | h
  · left; exact ⟨h, by unfold dabs; rw [if_pos h]⟩
  · right
    refine ⟨h, ?_⟩
    have hx : x ≠ 0 := by
      rintro rfl
      rw [abs_zero] at h; norm_num at h
    rcases lt_or_gt_of_ne hx with h0 | h0
    · refine ⟨-1, ?_, hasDerivAt_abs_neg h0, by rw [abs_of_neg h0]; ring⟩
      unfold dabs; rw [if_neg (not_lt.mpr h), if_neg (not_lt.mpr h0.le), if_pos h0]; norm_num
    · refine ⟨1, ?_, hasDerivAt_abs_pos h0, by rw [abs_of_pos h0]; ring⟩
      unfold dabs; rw [if_neg (not_lt.mpr h), if_pos h0, if_neg (not_lt.mpr h0.le)]; norm_num

/-- A point in the smoothed region: the value really differs from `|x|`. -/
example : smoothAbs (1 / 20000) = 11 / 320000 ∧ dsmoothAbs (1 / 20000) = 5 / 4 := by
  constructor
  · unfold smoothAbs eps; norm_num
  · unfold dsmoothAbs eps; norm_num

end Verif.SmoothAbs
