import Verif.Box.Exists
import Mathlib.Order.Monotone.Union
import Mathlib.Analysis.Calculus.Deriv.MeanValue
import Mathlib.Analysis.Complex.ExponentialBounds

/-!
# Properties C172 and C173: friction grows with the flow, and so does the pressure it takes

C172: at the same density the friction grows with the flow, through laminar, transitional and turbulent flow, although the derivative with which the code joins the transition to
turbulent flow is not the derivative of the formula. C173: of two stationary states of a pipe the one with more flow and more pressure at the delivery has more pressure everywhere.
-/

set_option autoImplicit false

namespace Verif.Box

open Verif.Euler Verif.SmoothAbs Set

/-! ## The formula for turbulent flow -/

theorem viscous_small {Re : ℝ} (h : 4000 ≤ Re) : 0 < 5.74 / Re ^ (0.9 : ℝ) ∧ 5.74 / Re ^ (0.9 : ℝ) ≤ 5.74 / 60 := by
  have hRe : 0 < Re := by linarith
  have hx : 0 < Re ^ (0.9 : ℝ) := Real.rpow_pos_of_pos hRe _
  have h60 : (60 : ℝ) ≤ Re ^ (0.9 : ℝ) := by
    have h1 : Re ^ ((1 : ℝ) / 2) ≤ Re ^ (0.9 : ℝ) := Real.rpow_le_rpow_of_exponent_le (by linarith) (by norm_num)
    have h2 : (3600 : ℝ) ^ ((1 : ℝ) / 2) ≤ Re ^ ((1 : ℝ) / 2) := Real.rpow_le_rpow (by norm_num) (by linarith) (by norm_num)
    have h3 : (3600 : ℝ) ^ ((1 : ℝ) / 2) = 60 := by
      rw [← Real.sqrt_eq_rpow, show (3600 : ℝ) = 60 ^ 2 by norm_num, Real.sqrt_sq (by norm_num)]
    linarith
  exact ⟨by positivity, div_le_div_of_nonneg_left (by norm_num) (by norm_num) h60⟩

theorem arg_small {d k : ℝ} (hp : RealPipe d k) {Re : ℝ} (h : 4000 ≤ Re) :
    5.74 / Re ^ (0.9 : ℝ) ≤ sjArg Re d k ∧ sjArg Re d k ≤ 0.366 ∧ Real.log (sjArg Re d k) < -1 := by
  obtain ⟨w0, w1⟩ := viscous_small h
  have hd := hp.pos
  have hk := hp.nonneg
  have hA : 0 ≤ k / (3.7 * d) := by positivity
  have hA' : k / (3.7 * d) ≤ 1 / 3.7 := by
    rw [div_le_div_iff₀ (by positivity) (by norm_num)]; nlinarith [hp.rough]
  have hs : sjArg Re d k ≤ 0.366 := by
    unfold sjArg
    have : (1 : ℝ) / 3.7 + 5.74 / 60 ≤ 0.366 := by norm_num
    linarith
  refine ⟨by unfold sjArg; linarith, hs, ?_⟩
  rw [Real.log_lt_iff_lt_exp (sjArg_range h hd hk hp.rough).1, Real.exp_neg, lt_inv_comm₀ (by linarith [(sjArg_range h hd hk hp.rough).1]) (Real.exp_pos 1)]
  refine lt_of_lt_of_le Real.exp_one_lt_d9 ?_
  rw [le_inv_comm₀ (by norm_num) (sjArg_range h hd hk hp.rough).1]
  exact hs.trans (by norm_num)

/-- The derivative of the formula, in terms of its value. -/
theorem dsj_eq {d k : ℝ} (hp : RealPipe d k) {Re : ℝ} (h : 4000 ≤ Re) :
    Re * dsj d k Re = sj d k Re * (1.8 * (5.74 / Re ^ (0.9 : ℝ)) / sjArg Re d k / Real.log (sjArg Re d k)) := by
  have hRe : 0 < Re := by linarith
  have hx : 0 < Re ^ (0.9 : ℝ) := Real.rpow_pos_of_pos hRe _
  have ha := (sjArg_range h hp.pos hp.nonneg hp.rough).1
  have hg : Real.log (sjArg Re d k) ≠ 0 := by linarith [(arg_small hp h).2.2]
  have hl : 0 < Real.log 10 := Real.log_pos (by norm_num)
  unfold dsj sj dsjArg Real.logb
  field_simp
  norm_num

theorem sj_square_pos {d k : ℝ} (hp : RealPipe d k) {Re : ℝ} (h : 4000 ≤ Re) : 0 < Re * dsj d k Re + 2 * sj d k Re := by
  obtain ⟨a0, a1⟩ := sjArg_range h hp.pos hp.nonneg hp.rough
  obtain ⟨hw, -, hg⟩ := arg_small hp h
  have w0 := (viscous_small h).1
  have hs := sj_pos a0 a1
  rw [dsj_eq hp h]
  set g := Real.log (sjArg Re d k) with hgd
  have hr : 1.8 * (5.74 / Re ^ (0.9 : ℝ)) / sjArg Re d k ≤ 1.8 := by
    rw [div_le_iff₀ a0]; linarith
  have hr0 : 0 ≤ 1.8 * (5.74 / Re ^ (0.9 : ℝ)) / sjArg Re d k := by positivity
  set r := 1.8 * (5.74 / Re ^ (0.9 : ℝ)) / sjArg Re d k with hrd
  have : -2 < r / g := by
    rw [lt_div_iff_of_neg (by linarith)]; linarith
  nlinarith

theorem sj_border {d k : ℝ} (hp : RealPipe d k) : 0.04 ≤ sj d k 4000 := by
  obtain ⟨a0, a1⟩ := sjArg_range (Re := 4000) le_rfl hp.pos hp.nonneg hp.rough
  have hw := (arg_small hp (Re := 4000) le_rfl).1
  have hneg : Real.logb 10 (sjArg 4000 d k) < 0 := Real.logb_neg (by norm_num) a0 a1
  have h1 : -(5 / 2) ≤ Real.logb 10 (sjArg 4000 d k) := by
    rw [Real.le_logb_iff_rpow_le (by norm_num) a0]
    refine le_trans ?_ hw
    rw [le_div_iff₀ (Real.rpow_pos_of_pos (by norm_num) _)]
    have h0 : 0 ≤ (10 : ℝ) ^ (-(5 / 2) : ℝ) * 4000 ^ (0.9 : ℝ) := by positivity
    rw [← pow_le_pow_iff_left₀ h0 (by norm_num) (by norm_num : (10 : ℕ) ≠ 0), mul_pow, ← Real.rpow_natCast, ← Real.rpow_natCast (4000 ^ (0.9 : ℝ)),
      ← Real.rpow_mul (by norm_num), ← Real.rpow_mul (by norm_num)]
    rw [show (-(5 / 2) : ℝ) * ((10 : ℕ) : ℝ) = -((25 : ℕ) : ℝ) by norm_num, show (0.9 : ℝ) * ((10 : ℕ) : ℝ) = ((9 : ℕ) : ℝ) by norm_num,
      Real.rpow_neg (by norm_num), Real.rpow_natCast, Real.rpow_natCast]
    norm_num
  unfold sj
  rw [le_div_iff₀ (by have := hneg.ne; positivity)]
  nlinarith

/-! ## The transition -/

theorem transition_pos {y M t : ℝ} (hy : 0.04 ≤ y) (hM0 : 0 ≤ M) (hM : M ≤ 0.1 * y) (t0 : 0 ≤ t) (t1 : t ≤ 1) :
    0 < 0.032 * (1 - 5 * t - t ^ 2 + 5 * t ^ 3) + y * (6 * t + 6 * t ^ 2 - 10 * t ^ 3) + M * (2 * t + t ^ 2 - 5 * t ^ 3) := by
  have h2 : t ^ 2 ≤ t := by nlinarith
  have h3 : t ^ 3 ≤ t ^ 2 := by nlinarith [mul_nonneg (sq_nonneg t) (by linarith : 0 ≤ 1 - t)]
  have p3 : 0 ≤ t ^ 3 := by positivity
  have k1 : -(2 * (M * t ^ 3)) ≤ M * (2 * t + t ^ 2 - 5 * t ^ 3) := by nlinarith
  have k2 : M * t ^ 3 ≤ 0.1 * y * t ^ 3 := mul_le_mul_of_nonneg_right hM p3
  have k3 : 0.04 * (6 * t + 6 * t ^ 2 - 10.2 * t ^ 3) ≤ y * (6 * t + 6 * t ^ 2 - 10.2 * t ^ 3) :=
    mul_le_mul_of_nonneg_right hy (by nlinarith)
  nlinarith

theorem spline_square_pos {d k : ℝ} (hp : RealPipe d k) {c : Fin 4 → ℝ} (e0 : spline c 2000 = 64 / 2000) (e1 : dspline c 2000 = -64 / (2000 * 2000))
    (e2 : spline c 4000 = sj d k 4000) (e3 : dspline c 4000 = sjArg 4000 d k ^ 2 * dsj d k 4000) {Re : ℝ} (h2 : 2000 ≤ Re) (h4 : Re ≤ 4000) :
    0 < Re * dspline c Re + 2 * spline c Re := by
  obtain ⟨a0, a1⟩ := sjArg_range (Re := 4000) le_rfl hp.pos hp.nonneg hp.rough
  obtain ⟨hw, ha, hg⟩ := arg_small hp (Re := 4000) le_rfl
  obtain ⟨w0, w1⟩ := viscous_small (Re := 4000) le_rfl
  have hy := sj_border hp
  have hs := dsj_eq hp (Re := 4000) le_rfl
  set y := sj d k 4000 with hyd
  set M := -(2000 * dspline c 4000) with hMd
  have eM : M = 0.9 * y * (sjArg 4000 d k * (5.74 / 4000 ^ (0.9 : ℝ))) * (-Real.log (sjArg 4000 d k))⁻¹ := by
    have : dsj d k 4000 = y * (1.8 * (5.74 / 4000 ^ (0.9 : ℝ)) / sjArg 4000 d k / Real.log (sjArg 4000 d k)) / 4000 := by
      rw [← hs]; ring
    rw [hMd, e3, this]
    have : Real.log (sjArg 4000 d k) ≠ 0 := by linarith
    rw [inv_neg]
    field_simp
    norm_num
  have hi : (-Real.log (sjArg 4000 d k))⁻¹ ≤ 1 := inv_le_one_of_one_le₀ (by linarith)
  have hi0 : 0 ≤ (-Real.log (sjArg 4000 d k))⁻¹ := inv_nonneg.mpr (by linarith)
  have hy0 : 0 < y := by linarith
  have hM0 : 0 ≤ M := by rw [eM]; positivity
  have hM : M ≤ 0.1 * y := by
    rw [eM]
    have k1 : sjArg 4000 d k * (5.74 / 4000 ^ (0.9 : ℝ)) ≤ 0.366 * (5.74 / 60) := mul_le_mul ha w1 w0.le (by norm_num)
    have k2 : 0.9 * y * (sjArg 4000 d k * (5.74 / 4000 ^ (0.9 : ℝ))) ≤ 0.1 * y := by nlinarith
    calc _ ≤ 0.9 * y * (sjArg 4000 d k * (5.74 / 4000 ^ (0.9 : ℝ))) * 1 := mul_le_mul_of_nonneg_left hi (by positivity)
      _ ≤ _ := by linarith
  set t := (Re - 2000) / 2000 with ht
  have t0 : 0 ≤ t := by rw [ht]; apply div_nonneg <;> linarith
  have t1 : t ≤ 1 := by rw [ht, div_le_one (by norm_num)]; linarith
  have hR : Re = 2000 * (1 + t) := by rw [ht]; ring
  have key := transition_pos hy hM0 hM t0 t1
  have e : Re * dspline c Re + 2 * spline c Re =
      2 * ((2 * t ^ 3 - 3 * t ^ 2 + 1) * spline c 2000 + 2000 * (t ^ 3 - 2 * t ^ 2 + t) * dspline c 2000 + t ^ 2 * (3 - 2 * t) * spline c 4000 +
        (t ^ 2 * (1 - t)) * M) +
      (1 + t) * ((6 * t ^ 2 - 6 * t) * spline c 2000 + 2000 * (3 * t ^ 2 - 4 * t + 1) * dspline c 2000 + (6 * t - 6 * t ^ 2) * spline c 4000 +
        (2 * t - 3 * t ^ 2) * M) := by
    rw [hMd, hR]; unfold spline dspline; ring
  rw [e, e0, e1, e2]
  norm_num at key ⊢
  nlinarith

/-! ## Friction -/

/-- The factor of friction times the square of the Reynolds number grows. -/
theorem friction_square {d k : ℝ} (hp : RealPipe d k) : StrictMonoOn (fun R => friction d k R * R ^ 2) (Ioi 0) := by
  obtain ⟨c, hc, e0, e1, e2, e3⟩ := coefficients_spec d k hp.arg
  have f1 : ∀ R ∈ Ioc (0 : ℝ) 2000, friction d k R * R ^ 2 = 64 * R := by
    intro R hR
    rcases lt_or_eq_of_le hR.2 with h | h
    · unfold friction
      rw [if_pos h]
      have := hR.1
      field_simp
    · rw [h, friction_transition hc le_rfl (by norm_num), e0]; norm_num
  have f2 : ∀ R ∈ Icc (2000 : ℝ) 4000, friction d k R * R ^ 2 = spline c R * R ^ 2 :=
    fun R hR => by rw [friction_transition hc hR.1 hR.2]
  have f3 : ∀ R ∈ Ici (4000 : ℝ), friction d k R * R ^ 2 = sj d k R * R ^ 2 := by
    intro R hR
    rcases lt_or_eq_of_le (mem_Ici.mp hR) with h | h
    · rw [friction_turbulent h]
    · rw [← h, friction_transition hc (by norm_num) le_rfl, e2]
  have m1 : StrictMonoOn (fun R => friction d k R * R ^ 2) (Ioc 0 2000) := by
    intro x hx y hy hxy
    beta_reduce
    rw [f1 x hx, f1 y hy]; linarith
  have m2 : StrictMonoOn (fun R => friction d k R * R ^ 2) (Icc 2000 4000) := by
    have hd : ∀ R, HasDerivAt (fun R => spline c R * R ^ 2) (R * (R * dspline c R + 2 * spline c R)) R := by
      intro R
      refine ((spline_hasDerivAt c R).mul (hasDerivAt_pow 2 R)).congr_deriv ?_
      simp; ring
    have : StrictMonoOn (fun R => spline c R * R ^ 2) (Icc 2000 4000) := by
      refine strictMonoOn_of_deriv_pos (convex_Icc _ _) (fun R _ => (hd R).continuousAt.continuousWithinAt) ?_
      intro R hR
      have hR' := interior_subset hR
      rw [(hd R).deriv]
      exact mul_pos (by linarith [hR'.1]) (spline_square_pos hp e0 e1 e2 e3 hR'.1 hR'.2)
    intro x hx y hy hxy
    beta_reduce
    rw [f2 x hx, f2 y hy]; exact this hx hy hxy
  have m3 : StrictMonoOn (fun R => friction d k R * R ^ 2) (Ici 4000) := by
    have hd : ∀ R ∈ Ici (4000 : ℝ), HasDerivAt (fun R => sj d k R * R ^ 2) (R * (R * dsj d k R + 2 * sj d k R)) R := by
      intro R hR
      have hR0 : 0 < R := lt_of_lt_of_le (by norm_num) (mem_Ici.mp hR)
      obtain ⟨a0, a1⟩ := sjArg_range (mem_Ici.mp hR) hp.pos hp.nonneg hp.rough
      refine ((sj_hasDerivAt hR0 a0 a1.ne).mul (hasDerivAt_pow 2 R)).congr_deriv ?_
      simp; ring
    have : StrictMonoOn (fun R => sj d k R * R ^ 2) (Ici 4000) := by
      refine strictMonoOn_of_deriv_pos (convex_Ici _) (fun R hR => (hd R hR).continuousAt.continuousWithinAt) ?_
      intro R hR
      have hR' := interior_subset hR
      rw [(hd R hR').deriv]
      exact mul_pos (lt_of_lt_of_le (by norm_num) (mem_Ici.mp hR')) (sj_square_pos hp (mem_Ici.mp hR'))
    intro x hx y hy hxy
    beta_reduce
    rw [f3 x hx, f3 y hy]; exact this hx hy hxy
  have m12 := m1.union m2 (c := 2000) ⟨⟨by norm_num, le_rfl⟩, fun x hx => hx.2⟩ ⟨⟨le_rfl, by norm_num⟩, fun x hx => hx.1⟩
  rw [Ioc_union_Icc_eq_Ioc (by norm_num) (by norm_num)] at m12
  have m := m12.union m3 (c := 4000) ⟨⟨by norm_num, le_rfl⟩, fun x hx => hx.2⟩ ⟨mem_Ici.mpr le_rfl, fun x hx => hx⟩
  rwa [Ioc_union_Ici_eq_Ioi (by norm_num)] at m

theorem force_friction {d k : ℝ} (hp : RealPipe d k) {q : ℝ} (hq : 0 < q) :
    force d k q = friction d k (coeffReynolds d * q) * (coeffReynolds d * q) ^ 2 / coeffReynolds d ^ 2 := by
  have hc := coeffReynolds_pos hp.pos
  unfold force friction
  rw [reynolds_eq, abs_of_pos hq]
  split
  · field_simp
  · next h =>
    obtain ⟨l, hl⟩ := lambda_ok hp _ (not_lt.mp h)
    rw [hl]
    field_simp

theorem force_lt {d k : ℝ} (hp : RealPipe d k) {q q' : ℝ} (hq : 0 < q) (h : q < q') : force d k q < force d k q' := by
  have hc := coeffReynolds_pos hp.pos
  rw [force_friction hp hq, force_friction hp (hq.trans h)]
  refine div_lt_div_of_pos_right ?_ (by positivity)
  exact friction_square hp (mem_Ioi.mpr (by positivity)) (mem_Ioi.mpr (mul_pos hc (hq.trans h))) (mul_lt_mul_of_pos_left h hc)

theorem fric_strictMono {d k : ℝ} (hp : RealPipe d k) : StrictMono (fric d k) := by
  have hA := area_pos hp.pos
  have hd := hp.pos
  have hκ : 0 < rho0 / (2 * circleArea (0.5 * d) * d) := by unfold rho0; positivity
  have pos : ∀ {q q' : ℝ}, 0 < q → q < q' → fric d k q < fric d k q' :=
    fun hq h => mul_lt_mul_of_pos_left (force_lt hp hq h) hκ
  intro q q' h
  rcases lt_or_ge 0 q with hq | hq
  · exact pos hq h
  · rcases lt_or_ge 0 q' with hq' | hq'
    · exact lt_of_le_of_lt (fric_nonpos hp hq) (fric_pos hp hq')
    · rcases hq'.eq_or_lt with e | hq''
      · have := fric_pos hp (q := -q) (by linarith)
        rw [fric_neg] at this
        rw [e, fric_zero]; linarith
      · have := pos (q := -q') (q' := -q) (by linarith) (by linarith)
        rw [fric_neg, fric_neg] at this; linarith

/-- **C172.** At every positive density the friction grows with the flow: the momentum part of the source is strictly smaller for the larger flow (so that it slows the gas more),
for all flows, in both directions, laminar or turbulent or between. -/
theorem C172 {d k : ℝ} (hp : RealPipe d k) {ρ q q' : ℝ} (hρ : 0 < ρ) (h : q < q') :
    ∃ s s', Euler.source d k (ρ, q) = Res.ok (0, s) ∧ Euler.source d k (ρ, q') = Res.ok (0, s') ∧ s' < s := by
  refine ⟨_, _, source_eq hp _, source_eq hp _, ?_⟩
  have := div_lt_div_of_pos_right (fric_strictMono hp h) hρ
  simp only
  linarith

/-- A pipe of one metre with a roughness of a centimetre: both directions, laminar and turbulent. -/
example : ∃ s s', Euler.source 1 0.01 (40, -300) = Res.ok (0, s) ∧ Euler.source 1 0.01 (40, 0.0001) = Res.ok (0, s') ∧ s' < s :=
  C172 (by constructor <;> norm_num) (by norm_num) (by norm_num)

/-! ## Comparing stationary states -/

/-- What is slow at a density is slow at a larger one. -/
theorem slow_up {a B x y : ℝ} (hB : 0 ≤ B) (hy : 0 < y) (hxy : y ≤ x) (h : B / y ^ 2 < a * dp y) : B / x ^ 2 < a * dp x := by
  have hx : 0 < x := lt_of_lt_of_le hy hxy
  have hb := beta_pos
  set β := -(alpha * cVac) with hβ
  have form : ∀ z, 0 < z → (B / z ^ 2 < a * dp z ↔ B * (1 / z + β) ^ 2 < a * cVac) := by
    intro z hz
    have e : dp z = cVac / (1 + β * z) ^ 2 := by
      unfold dp
      rw [show 1 - alpha * cVac * z = 1 + β * z by rw [hβ]; ring]
      ring
    have hz' : 0 < 1 + β * z := by positivity
    rw [e, ← mul_div_assoc, div_lt_div_iff₀ (by positivity) (by positivity),
      show (1 / z + β) ^ 2 = (1 + β * z) ^ 2 / z ^ 2 by field_simp, ← mul_div_assoc, div_lt_iff₀ (by positivity)]
  rw [form y hy] at h
  rw [form x hx]
  refine lt_of_le_of_lt (mul_le_mul_of_nonneg_left ?_ hB) h
  have : 1 / x ≤ 1 / y := one_div_le_one_div_of_le hy hxy
  have : 0 < 1 / x := by positivity
  exact pow_le_pow_left₀ (by positivity) (by linarith) 2

/-- Comparing two cells, from the side to which the gas flows. -/
theorem cell_compare {a B E B' E' l r l' r' : ℝ} (ha : 0 < a) (hl : 0 < l) (hr : 0 < r) (hl' : 0 < l') (hr' : 0 < r')
    (hB : 0 ≤ B) (hE : 0 ≤ E) (hBB : B ≤ B') (hEE : E ≤ E')
    (h : a * p l + (B - E) / l = a * p r + (B + E) / r) (h' : a * p l' + (B' - E') / l' = a * p r' + (B' + E') / r')
    (sl : (B + E) / l ^ 2 < a * dp l) (sr : (B + E) / r ^ 2 < a * dp r) (sl' : B' / l' ^ 2 < a * dp l') (sr' : B' / r' ^ 2 < a * dp r')
    (hrr : r ≤ r') : l ≤ l' ∧ (r < r' ∨ E < E' → l < l') := by
  have weak : ∀ {b c x A : ℝ}, b ≤ c → c / x ^ 2 < A → b / x ^ 2 < A :=
    fun hbc hc => lt_of_le_of_lt (div_le_div_of_nonneg_right hbc (sq_nonneg _)) hc
  -- the gas flows to the smaller pressure
  have hlr : r' ≤ l' := by
    by_contra hc
    have := bernoulli_lt ha hl' hr' sl' sr' (not_le.mp hc)
    have k1 : 0 ≤ E' / l' := div_nonneg (hE.trans hEE) hl'.le
    have k2 : 0 ≤ E' / r' := div_nonneg (hE.trans hEE) hr'.le
    rw [sub_div, add_div] at h'
    linarith
  have i1 : 1 / l' ≤ 1 / r' := one_div_le_one_div_of_le hr' hlr
  have i2 : 0 < 1 / l' := by positivity
  have i3 : 0 < 1 / r' := by positivity
  -- the second cell with the smaller flow
  have d1 : 0 ≤ (B' - B) * (1 / r' - 1 / l') := mul_nonneg (by linarith) (by linarith)
  have d2 : 0 ≤ (E' - E) * (1 / r' + 1 / l') := mul_nonneg (by linarith) (by linarith)
  have e1 : a * p l' + (B - E) / l' = a * p r' + (B + E) / r' + (B' - B) * (1 / r' - 1 / l') + (E' - E) * (1 / r' + 1 / l') := by
    have x1 : (B' - E') / l' = (B - E) / l' + (B' - B) * (1 / l') - (E' - E) * (1 / l') := by ring
    have x2 : (B' + E') / r' = (B + E) / r' + (B' - B) * (1 / r') + (E' - E) * (1 / r') := by ring
    rw [x1, x2] at h'
    linarith
  have sr1 : (B + E) / r' ^ 2 < a * dp r' := slow_up (by linarith) hr hrr sr
  have e2 : a * p r + (B + E) / r ≤ a * p r' + (B + E) / r' := by
    rcases hrr.eq_or_lt with e | hlt
    · rw [e]
    · exact (bernoulli_lt ha hr hr' sr sr1 hlt).le
  have t1 : (B - E) / l ^ 2 < a * dp l := weak (by linarith) sl
  have t2 : (B - E) / l' ^ 2 < a * dp l' := weak (by linarith) sl'
  constructor
  · by_contra hc
    have := bernoulli_lt ha hl' hl t2 t1 (not_le.mp hc)
    linarith
  · intro hs
    have strict : a * p l + (B - E) / l < a * p l' + (B - E) / l' := by
      rcases hs with hs | hs
      · have := bernoulli_lt ha hr hr' sr sr1 hs
        linarith
      · have : 0 < (E' - E) * (1 / r' + 1 / l') := mul_pos (by linarith) (by linarith)
        linarith
    by_contra hc
    rcases (not_lt.mp hc).eq_or_lt with e | hlt
    · rw [e] at strict; exact lt_irrefl _ strict
    · have := bernoulli_lt ha hl' hl t2 t1 hlt
      linarith

theorem cell_form {d k : ℝ} (hp : RealPipe d k) {dx : ℝ} (hdx : 0 < dx) {l r : ℝ × ℝ} {q : ℝ} (el : l.2 = q) (er : r.2 = q)
    (h : evaluatePoint (eulerLaw d k) 0 1 dx l r l r = Res.ok 0) :
    circleArea (0.5 * d) / rho0 * p l.1 + (rho0 / circleArea (0.5 * d) * q * q - dx / 2 * fric d k q) / l.1 =
      circleArea (0.5 * d) / rho0 * p r.1 + (rho0 / circleArea (0.5 * d) * q * q + dx / 2 * fric d k q) / r.1 := by
  have m := ((cell_iff hp zero_lt_one hdx _ _).mp h).2
  simp only [flux] at m
  rw [el, er] at m
  rw [sub_div, add_div, mul_div_assoc (dx / 2), mul_div_assoc (dx / 2)]
  linarith

/-- **C173.** Two stationary states of a pipe in which the gas flows to the right, slower than sound (the first with the friction over half a cell to spare). If the second has at least
the flow of the first and at least its pressure at the right end, then it has at least the pressure of the first at every point. If moreover its flow or its pressure at the right end is
larger, then its pressure is larger at every other point. -/
theorem C173 {d k : ℝ} (hp : RealPipe d k) {dx : ℝ} (hdx : 0 < dx) {N : ℕ} {u v : ℕ → ℝ × ℝ}
    (hu : Stationary d k dx N u) (hv : Stationary d k dx N v) (su : ∀ i ≤ N, Slow d k dx (u i)) (sv : ∀ i ≤ N, Subsonic d (v i))
    (hq : 0 ≤ (u N).2) (hqq : (u N).2 ≤ (v N).2) (hpp : p (u N).1 ≤ p (v N).1) :
    (∀ i ≤ N, p (u i).1 ≤ p (v i).1) ∧
    ((u N).2 < (v N).2 ∨ p (u N).1 < p (v N).1 → ∀ i < N, p (u i).1 < p (v i).1) := by
  have fu : ∀ i ≤ N, (u i).2 = (u N).2 := fun i hi => (hu.flow hp hdx i hi).trans (hu.flow hp hdx N le_rfl).symm
  have fv : ∀ i ≤ N, (v i).2 = (v N).2 := fun i hi => (hv.flow hp hdx i hi).trans (hv.flow hp hdx N le_rfl).symm
  set q := (u N).2 with hqd
  set q' := (v N).2 with hqd'
  have hA := area_pos hp.pos
  have hρ : 0 < rho0 := by unfold rho0; norm_num
  have ha := ratio_pos hp.pos
  have hE : 0 ≤ dx / 2 * fric d k q := mul_nonneg (by linarith) (fric_nonneg hp hq)
  have hEE : dx / 2 * fric d k q ≤ dx / 2 * fric d k q' := mul_le_mul_of_nonneg_left ((fric_strictMono hp).monotone hqq) (by linarith)
  have hB : 0 ≤ rho0 / circleArea (0.5 * d) * q * q := by
    rw [mul_assoc]; exact mul_nonneg (by positivity) (mul_self_nonneg q)
  have hBB : rho0 / circleArea (0.5 * d) * q * q ≤ rho0 / circleArea (0.5 * d) * q' * q' := by
    rw [mul_assoc, mul_assoc]
    exact mul_le_mul_of_nonneg_left (mul_self_le_mul_self hq hqq) (by positivity)
  have slow : ∀ i ≤ N, (rho0 / circleArea (0.5 * d) * q * q + dx / 2 * fric d k q) / (u i).1 ^ 2 < circleArea (0.5 * d) / rho0 * dp (u i).1 := by
    intro i hi
    have := su i hi
    rw [← Prod.mk.eta (p := u i), fu i hi] at this
    have := slow_iff hp (hu.pos i hi) this
    rwa [abs_of_nonneg (fric_nonneg hp hq)] at this
  have subs : ∀ i ≤ N, rho0 / circleArea (0.5 * d) * q' * q' / (v i).1 ^ 2 < circleArea (0.5 * d) / rho0 * dp (v i).1 := by
    intro i hi
    have := sv i hi
    rw [← Prod.mk.eta (p := v i), fv i hi] at this
    exact (subsonic_iff hp.pos (hv.pos i hi)).mp this
  have step : ∀ i < N, (u (i + 1)).1 ≤ (v (i + 1)).1 →
      (u i).1 ≤ (v i).1 ∧ ((u (i + 1)).1 < (v (i + 1)).1 ∨ dx / 2 * fric d k q < dx / 2 * fric d k q' → (u i).1 < (v i).1) := by
    intro i hi hrr
    exact cell_compare ha (hu.pos i (by omega)) (hu.pos (i + 1) (by omega)) (hv.pos i (by omega)) (hv.pos (i + 1) (by omega)) hB hE hBB hEE
      (cell_form hp hdx (fu i (by omega)) (fu (i + 1) (by omega)) (hu.solves i hi 0 1 zero_lt_one))
      (cell_form hp hdx (fv i (by omega)) (fv (i + 1) (by omega)) (hv.solves i hi 0 1 zero_lt_one))
      (slow i (by omega)) (slow (i + 1) (by omega)) (subs i (by omega)) (subs (i + 1) (by omega)) hrr
  have pmono : ∀ i ≤ N, (u i).1 ≤ (v i).1 → p (u i).1 ≤ p (v i).1 := by
    intro i hi h
    rcases h.eq_or_lt with e | hlt
    · rw [e]
    · exact (p_lt (hu.pos i hi) hlt).le
  have pinv : p (u N).1 ≤ p (v N).1 → (u N).1 ≤ (v N).1 := by
    intro h
    by_contra hc
    exact absurd (p_lt (hv.pos N le_rfl) (not_le.mp hc)) (not_lt.mpr h)
  have all : ∀ j ≤ N, (u (N - j)).1 ≤ (v (N - j)).1 := by
    intro j
    induction j with
    | zero => intro; exact pinv hpp
    | succ j ih =>
      intro hj
      refine (step (N - (j + 1)) (by omega) ?_).1
      rw [show N - (j + 1) + 1 = N - j by omega]
      exact ih (by omega)
  have all' : ∀ i ≤ N, (u i).1 ≤ (v i).1 := by
    intro i hi
    have := all (N - i) (by omega)
    rwa [Nat.sub_sub_self hi] at this
  refine ⟨fun i hi => pmono i hi (all' i hi), fun hs => ?_⟩
  rcases hs with hs | hs
  · intro i hi
    exact p_lt (hu.pos i hi.le) ((step i hi (all' (i + 1) hi)).2 (Or.inr (mul_lt_mul_of_pos_left (fric_strictMono hp hs) (by linarith))))
  · have start : (u N).1 < (v N).1 := by
      rcases (pinv hpp).eq_or_lt with e | hlt
      · rw [e] at hs; exact absurd hs (lt_irrefl _)
      · exact hlt
    have strict : ∀ j ≤ N, (u (N - j)).1 < (v (N - j)).1 := by
      intro j
      induction j with
      | zero => intro; exact start
      | succ j ih =>
        intro hj
        refine (step (N - (j + 1)) (by omega) (all' _ (by omega))).2 (Or.inl ?_)
        rw [show N - (j + 1) + 1 = N - j by omega]
        exact ih (by omega)
    intro i hi
    have := strict (N - i) (by omega)
    rw [Nat.sub_sub_self hi.le] at this
    exact p_lt (hu.pos i hi.le) this

/-! ## Short pipes -/

/-- Gas slower than sound is below the largest pressure, with its momentum. -/
theorem subsonic_below {d : ℝ} (hd : 0 < d) {x q : ℝ} (hx : 0 < x) (h : Subsonic d (x, q)) :
    circleArea (0.5 * d) / rho0 * p x + rho0 / circleArea (0.5 * d) * q * q / x < circleArea (0.5 * d) / rho0 * limitPressure := by
  have hs := (subsonic_iff hd hx).mp h
  have ha := ratio_pos hd
  have hb := beta_pos
  have hc := cVac_pos
  have e : dp x * x < limitPressure - p x := by
    rw [p_limit hx, limit_eq]
    unfold dp
    set β := -(alpha * cVac) with hβ
    rw [show 1 - alpha * cVac * x = 1 + β * x by rw [hβ]; ring]
    have : 0 < 1 + β * x := by positivity
    rw [sub_sub_cancel, div_div, div_mul_eq_mul_div, div_lt_div_iff₀ (by positivity) (by positivity)]
    nlinarith [mul_pos hc this, mul_pos hb hx]
  rw [div_lt_iff₀ (by positivity)] at hs
  have h1 : rho0 / circleArea (0.5 * d) * q * q / x < circleArea (0.5 * d) / rho0 * (dp x * x) := by
    rw [div_lt_iff₀ hx]
    linarith
  have := mul_lt_mul_of_pos_left e ha
  linarith

/-- **C171** for short pipes: for every delivery slower than sound and every number of cells there is a length below which every pipe has a stationary state with this delivery,
slower than sound with the friction over half a cell to spare. -/
theorem C171_short_partial {d k : ℝ} (hp : RealPipe d k) (N : ℕ) {x q : ℝ} (hx : 0 < x) (hq : 0 ≤ q) (hs : Subsonic d (x, q)) :
    ∃ ε, 0 < ε ∧ ∀ dx, 0 < dx → dx < ε → ∃ u, Stationary d k dx N u ∧ (∀ i ≤ N, Slow d k dx (u i)) ∧ (∀ i ≤ N, Subsonic d (u i)) ∧ u N = (x, q) := by
  have hf := fric_nonneg hp hq
  have h1 := subsonic_below hp.pos hx hs
  have h2 := (subsonic_iff hp.pos hx).mp hs
  have hA := area_pos hp.pos
  have hρ : 0 < rho0 := by unfold rho0; norm_num
  have hB : 0 ≤ rho0 / circleArea (0.5 * d) * q * q := by
    rw [mul_assoc]; exact mul_nonneg (by positivity) (mul_self_nonneg q)
  set a := circleArea (0.5 * d) / rho0 with ha
  set B := rho0 / circleArea (0.5 * d) * q * q with hBd
  set F := fric d k q with hF
  set δ1 := a * limitPressure - (a * p x + B / x) with hδ1
  set δ2 := a * dp x - B / x ^ 2 with hδ2
  have p1 : 0 < δ1 := by linarith
  have p2 : 0 < δ2 := by linarith
  refine ⟨min (δ1 / (N * (F / x) + 1)) (δ2 / (F / x ^ 2 + 1)), lt_min (by positivity) (by positivity), fun dx hdx hlt => ?_⟩
  have l1 := lt_of_lt_of_le hlt (min_le_left _ _)
  have l2 := lt_of_lt_of_le hlt (min_le_right _ _)
  rw [lt_div_iff₀ (by positivity)] at l1 l2
  obtain ⟨u, st, sub, e, mono, -⟩ := C171_partial hp hdx (N := N) hx hq hs (by
    rw [deliverable_iff hp hx hq, ← ha, ← hBd, ← hF]
    have : (N : ℝ) * dx * (F / x) < δ1 := by nlinarith
    linarith)
  refine ⟨u, st, ?_, sub, e⟩
  -- the density does not grow towards the delivery
  have up : ∀ j ≤ N, x ≤ (u (N - j)).1 := by
    intro j
    induction j with
    | zero => intro; simp [e]
    | succ j ih =>
      intro hj
      refine (ih (by omega)).trans ?_
      have := mono (N - (j + 1)) (by omega)
      rw [show N - (j + 1) + 1 = N - j by omega] at this
      by_contra hc
      exact absurd (p_lt (st.pos _ (by omega)) (not_le.mp hc)) (not_lt.mpr this)
  intro i hi
  have hxi : x ≤ (u i).1 := by
    have := up (N - i) (by omega)
    rwa [Nat.sub_sub_self hi] at this
  have fi : (u i).2 = q := by
    rw [st.flow hp hdx i hi, ← st.flow hp hdx N le_rfl, e]
  rw [← Prod.mk.eta (p := u i), fi, slow_iff' hp (st.pos i hi), abs_of_nonneg hf]
  refine slow_up (by positivity) hx hxi ?_
  have : dx / 2 * F / x ^ 2 < δ2 := by
    rw [mul_div_assoc]
    have : 0 ≤ dx * (F / x ^ 2) := by positivity
    nlinarith
  rw [add_div, ← ha, ← hBd]
  linarith

/-- Two stationary states of a pipe of ten cells with different flows and different deliveries, which meet the hypotheses of `C173`, and what it says of them. -/
example : ∃ dx u v, 0 < dx ∧ Stationary 1 0 dx 10 u ∧ Stationary 1 0 dx 10 v ∧ (∀ i ≤ 10, Slow 1 0 dx (u i)) ∧ (∀ i ≤ 10, Subsonic 1 (v i)) ∧
    u 10 = (1, 1 / 2000) ∧ v 10 = (2, 1 / 1000) ∧ p (u 0).1 < p (v 0).1 := by
  have hp : RealPipe 1 0 := by constructor <;> norm_num
  have s1 : Subsonic 1 ((1 : ℝ), (1 / 2000 : ℝ)) := by
    have := subsonic_small le_rfl (by norm_num : (1 : ℝ) ≤ 2)
    unfold Subsonic at this ⊢
    refine lt_of_le_of_lt ?_ this
    have hA := area_pos (d := 1) one_pos
    have hρ : 0 < rho0 := by unfold rho0; norm_num
    refine pow_le_pow_left₀ (by positivity) ?_ 2
    refine div_le_div_of_nonneg_right ?_ (by positivity)
    simp only
    linarith
  have s2 : Subsonic 1 ((2 : ℝ), (1 / 1000 : ℝ)) := subsonic_small (by norm_num) le_rfl
  obtain ⟨ε, h0, h⟩ := C171_short_partial hp 10 one_pos (by norm_num) s1
  obtain ⟨ε', h0', h'⟩ := C171_short_partial hp 10 two_pos (by norm_num) s2
  have hm : 0 < min ε ε' / 2 := by have := lt_min h0 h0'; positivity
  obtain ⟨u, su, sl, -, eu⟩ := h (min ε ε' / 2) hm (by linarith [min_le_left ε ε', lt_min h0 h0'])
  obtain ⟨v, sv, -, sb, ev⟩ := h' (min ε ε' / 2) hm (by linarith [min_le_right ε ε', lt_min h0 h0'])
  refine ⟨_, u, v, hm, su, sv, sl, sb, eu, ev, ?_⟩
  have hpp : p (u 10).1 < p (v 10).1 := by rw [eu, ev]; exact p_lt one_pos (by norm_num)
  exact (C173 hp hm su sv sl sb (by rw [eu]; norm_num) (by rw [eu, ev]; norm_num) hpp.le).2 (Or.inr hpp) 0 (by norm_num)

end Verif.Box
