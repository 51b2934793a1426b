import Verif.Euler.Source
import Mathlib.Analysis.Complex.ExponentialBounds
import Mathlib.Tactic.Positivity
import Mathlib.Tactic.NormNum

/-!
# The iteratively computed friction factor (C147)

`exact_turbulent_lambda` of `Isothermaleulerequation.cpp` solves the equation of Colebrook and White by Newton's method.
-/

set_option autoImplicit false

namespace Verif.Euler

open Verif.SmoothAbs

noncomputable section

/-! ## Model -/

/-- `inner` — `Isothermaleulerequation.cpp` 335. -/
def cwInner (Re diameter roughness mu : ℝ) : ℝ := 2.51 / Re * mu + roughness / (3.71 * diameter)

/-- `f` — `Isothermaleulerequation.cpp` 337. -/
def cwF (Re diameter roughness mu : ℝ) : ℝ := mu + 2 * Real.logb 10 (cwInner Re diameter roughness mu)

/-- `df` — `Isothermaleulerequation.cpp` 336, 338. -/
def cwDf (Re diameter roughness mu : ℝ) : ℝ :=
  1 + 2 / Real.log 10 * (2.51 / Re) / cwInner Re diameter roughness mu

/-- The new `mu` — `Isothermaleulerequation.cpp` 339. -/
def cwStep (Re diameter roughness mu : ℝ) : ℝ :=
  mu - cwF Re diameter roughness mu / cwDf Re diameter roughness mu

/-- The loop — `Isothermaleulerequation.cpp` 334-343: at most so many rounds; `f` is the one before the update, and not
its absolute value. -/
def cwLoop (Re diameter roughness : ℝ) : ℕ → ℝ → ℝ
  | 0, mu => mu
  | n + 1, mu =>
    if cwF Re diameter roughness mu < 1 / 10 ^ 12 then cwStep Re diameter roughness mu
    else cwLoop Re diameter roughness n (cwStep Re diameter roughness mu)

/-- `exact_turbulent_lambda` — `Isothermaleulerequation.cpp` 324-346. -/
def exactLambda (Re diameter roughness : ℝ) : Res ℝ :=
  if Re < turbulentBorder - EPSILON then Res.throws
  else do
    let lambda ← swameeJain Re diameter roughness
    let mu := cwLoop Re diameter roughness 10 (1 / Real.sqrt lambda)
    Res.ok (1 / (mu * mu))

/-! ## Specification -/

/-- Specification: by how much a friction factor misses the equation of Colebrook and White,
`1/√λ = -2 log₁₀ (2.51/(Re √λ) + k/(3.71 d))`. -/
def colebrookWhite (Re d k l : ℝ) : ℝ :=
  1 / Real.sqrt l + 2 * Real.logb 10 (2.51 / (Re * Real.sqrt l) + k / (3.71 * d))

/-- **C147** in full: for Reynolds numbers from 4000 on and roughnesses up to the diameter, the computed factor solves the
equation of Colebrook and White up to the tolerance of the code. -/
def C147Statement : Prop :=
  ∀ Re d k : ℝ, 4000 ≤ Re → 0 < d → 0 ≤ k → k ≤ d →
    ∃ l, exactLambda Re d k = Res.ok l ∧ |colebrookWhite Re d k l| < 1 / 10 ^ 12

/-! ## Proofs -/

theorem log10_pos : 0 < Real.log 10 := Real.log_pos (by norm_num)

theorem inner_pos {Re d k mu : ℝ} (hR : 0 < Re) (hd : 0 < d) (hk : 0 ≤ k) (hm : 0 < mu) : 0 < cwInner Re d k mu := by
  unfold cwInner
  positivity

theorem df_pos {Re d k mu : ℝ} (hR : 0 < Re) (hd : 0 < d) (hk : 0 ≤ k) (hm : 0 < mu) : 1 < cwDf Re d k mu := by
  have := inner_pos hR hd hk hm
  have h10 := log10_pos
  unfold cwDf
  have : 0 < 2 / Real.log 10 * (2.51 / Re) / cwInner Re d k mu := by positivity
  linarith

/-- The equation in terms of `mu`. -/
theorem colebrookWhite_eq {Re d k mu : ℝ} (hm : 0 < mu) :
    colebrookWhite Re d k (1 / (mu * mu)) = cwF Re d k mu := by
  have hs : Real.sqrt (1 / (mu * mu)) = 1 / mu := by
    rw [Real.sqrt_eq_iff_mul_self_eq_of_pos (by positivity)]
    field_simp
  unfold colebrookWhite cwF cwInner
  rw [hs]
  congr 3
  · simp
  · congr 1
    field_simp

/-- The function is concave: a step ends where it is not positive. -/
theorem step_nonpos {Re d k mu : ℝ} (hR : 0 < Re) (hd : 0 < d) (hk : 0 ≤ k) (hm : 0 < mu)
    (hs : 0 < cwStep Re d k mu) : cwF Re d k (cwStep Re d k mu) ≤ 0 := by
  have hi := inner_pos hR hd hk hm
  have hi' := inner_pos hR hd hk hs
  have h10 := log10_pos
  have hdf := df_pos hR hd hk hm
  have hlog := Real.log_le_sub_one_of_pos (div_pos hi' hi)
  rw [Real.log_div hi'.ne' hi.ne'] at hlog
  have hdiff : cwInner Re d k (cwStep Re d k mu) / cwInner Re d k mu - 1 =
      2.51 / Re * (cwStep Re d k mu - mu) / cwInner Re d k mu := by
    rw [div_sub_one hi.ne']
    congr 1
    unfold cwInner
    ring
  rw [hdiff] at hlog
  have hnew : cwDf Re d k mu * (cwStep Re d k mu - mu) = - cwF Re d k mu := by
    unfold cwStep
    field_simp
    ring
  have hkey : cwF Re d k (cwStep Re d k mu) - cwF Re d k mu ≤ cwDf Re d k mu * (cwStep Re d k mu - mu) := by
    have e : cwF Re d k (cwStep Re d k mu) - cwF Re d k mu = (cwStep Re d k mu - mu) + 2 / Real.log 10 *
        (Real.log (cwInner Re d k (cwStep Re d k mu)) - Real.log (cwInner Re d k mu)) := by
      unfold cwF Real.logb
      ring
    rw [e]
    have := mul_le_mul_of_nonneg_left hlog (show (0 : ℝ) ≤ 2 / Real.log 10 by positivity)
    have e2 : cwDf Re d k mu * (cwStep Re d k mu - mu) = (cwStep Re d k mu - mu) + 2 / Real.log 10 *
        (2.51 / Re * (cwStep Re d k mu - mu) / cwInner Re d k mu) := by
      unfold cwDf
      ring
    rw [e2]
    linarith
  linarith

/-- A step from where the argument of the logarithm is below one stays positive. -/
theorem step_pos {Re d k mu : ℝ} (hR : 0 < Re) (hd : 0 < d) (hk : 0 ≤ k) (hm : 0 < mu)
    (h1 : cwInner Re d k mu < 1) : 0 < cwStep Re d k mu := by
  have hi := inner_pos hR hd hk hm
  have h10 := log10_pos
  have hdf := df_pos hR hd hk hm
  have hlog : Real.log (cwInner Re d k mu) < 0 := Real.log_neg hi h1
  have hprod : cwStep Re d k mu * cwDf Re d k mu =
      2 / Real.log 10 * (2.51 / Re * mu / cwInner Re d k mu - Real.log (cwInner Re d k mu)) := by
    unfold cwStep
    rw [sub_mul, div_mul_cancel₀ _ (by linarith : cwDf Re d k mu ≠ 0)]
    unfold cwDf cwF Real.logb
    ring
  have hpos : 0 < cwStep Re d k mu * cwDf Re d k mu := by
    rw [hprod]
    have : 0 < 2.51 / Re * mu / cwInner Re d k mu := by positivity
    have h2 : 0 < 2 / Real.log 10 := by positivity
    exact mul_pos h2 (by linarith)
  exact (mul_pos_iff_of_pos_right (by linarith)).mp hpos

theorem log10_ge : 1 ≤ Real.log 10 := by
  rw [Real.le_log_iff_exp_le (by norm_num)]
  linarith [Real.exp_one_lt_d9]

/-- Where the iteration starts. -/
def cwStart (Re d k : ℝ) : ℝ := -2 * Real.logb 10 (sjArg Re d k)

theorem start_eq {Re d k : ℝ} (h : 4000 ≤ Re) (hd : 0 < d) (hk : 0 ≤ k) (hkd : k ≤ d) :
    0 < cwStart Re d k ∧ 1 / Real.sqrt (sj d k Re) = cwStart Re d k := by
  obtain ⟨h0, h1⟩ := sjArg_range h hd hk hkd
  have hneg : Real.logb 10 (sjArg Re d k) < 0 := Real.logb_neg (by norm_num) h0 h1
  refine ⟨by unfold cwStart; linarith, ?_⟩
  have hs : Real.sqrt (sj d k Re) = 1 / (-2 * Real.logb 10 (sjArg Re d k)) := by
    rw [Real.sqrt_eq_iff_mul_self_eq_of_pos (one_div_pos.mpr (by linarith))]
    unfold sj
    field_simp
    norm_num
  rw [hs, one_div_one_div]
  rfl

theorem start_inner {Re d k : ℝ} (h : 4000 ≤ Re) (hd : 0 < d) (hk : 0 ≤ k) (hkd : k ≤ d) :
    cwInner Re d k (cwStart Re d k) < 1 := by
  have hR : 0 < Re := by linarith
  have hx : 0 < Re ^ (0.9 : ℝ) := Real.rpow_pos_of_pos hR _
  have h10 := log10_ge
  have hA : 1 / Re ^ (0.9 : ℝ) ≤ sjArg Re d k := by
    unfold sjArg
    have h1 : 0 ≤ k / (3.7 * d) := by positivity
    have h2 : 1 / Re ^ (0.9 : ℝ) ≤ 5.74 / Re ^ (0.9 : ℝ) := div_le_div_of_nonneg_right (by norm_num) hx.le
    linarith
  have hlog : -(0.9 * Real.log Re) ≤ Real.log (sjArg Re d k) := by
    have := Real.log_le_log (by positivity) hA
    rw [Real.log_div one_ne_zero hx.ne', Real.log_one, Real.log_rpow hR] at this
    linarith
  have hsq : Real.log Re ≤ 2 * Real.sqrt Re := by
    have := Real.log_le_sub_one_of_pos (Real.sqrt_pos.mpr hR)
    rw [Real.log_sqrt hR.le] at this
    linarith
  have hroot : 60 ≤ Real.sqrt Re := Real.le_sqrt_of_sq_le (by linarith)
  have hmu : cwStart Re d k ≤ 3.6 * Real.sqrt Re := by
    unfold cwStart Real.logb
    have hl : -(0.9 * (2 * Real.sqrt Re)) ≤ Real.log (sjArg Re d k) := by linarith
    have h3 : -(0.9 * (2 * Real.sqrt Re)) ≤ Real.log (sjArg Re d k) / Real.log 10 := by
      rw [le_div_iff₀ (by linarith)]
      nlinarith [Real.sqrt_nonneg Re]
    linarith
  have hc : 2.51 / Re * cwStart Re d k ≤ 0.2 := by
    have hrr : Re = Real.sqrt Re * Real.sqrt Re := (Real.mul_self_sqrt hR.le).symm
    rw [div_mul_eq_mul_div, div_le_iff₀ hR]
    nlinarith
  have hk' : k / (3.71 * d) ≤ 0.3 := by
    rw [div_le_iff₀ (by positivity)]
    linarith
  unfold cwInner
  linarith

/-- What the loop does: one step or two. -/
theorem loop_eq {Re d k mu : ℝ} (hR : 0 < Re) (hd : 0 < d) (hk : 0 ≤ k) (hm : 0 < mu) (h1 : cwInner Re d k mu < 1)
    (n : ℕ) : cwLoop Re d k (n + 2) mu =
      if cwF Re d k mu < 1 / 10 ^ 12 then cwStep Re d k mu else cwStep Re d k (cwStep Re d k mu) := by
  have hs := step_pos hR hd hk hm h1
  have hneg := step_nonpos hR hd hk hm hs
  rw [cwLoop]
  split
  · rfl
  · rw [cwLoop, if_pos (lt_of_le_of_lt hneg (by norm_num))]

/-- Where the function is not positive, a step goes up. -/
theorem step_up {Re d k mu : ℝ} (hR : 0 < Re) (hd : 0 < d) (hk : 0 ≤ k) (hm : 0 < mu) (hf : cwF Re d k mu ≤ 0) :
    mu ≤ cwStep Re d k mu := by
  have hdf := df_pos hR hd hk hm
  have : cwF Re d k mu / cwDf Re d k mu ≤ 0 := div_nonpos_of_nonpos_of_nonneg hf (by linarith)
  unfold cwStep
  linarith

theorem f_strictMono {Re d k a b : ℝ} (hR : 0 < Re) (hd : 0 < d) (hk : 0 ≤ k) (ha : 0 < a) (hab : a < b) :
    cwF Re d k a < cwF Re d k b := by
  have hi := inner_pos hR hd hk ha
  have hlt : cwInner Re d k a < cwInner Re d k b := by
    unfold cwInner
    have : 2.51 / Re * a < 2.51 / Re * b := mul_lt_mul_of_pos_left hab (by positivity)
    linarith
  have := Real.logb_lt_logb (b := 10) (by norm_num) hi hlt
  unfold cwF
  linarith

/-- `λ` in terms of `mu`. -/
theorem lambda_mu {l : ℝ} (hl : 0 < l) : 0 < 1 / Real.sqrt l ∧ l = 1 / (1 / Real.sqrt l * (1 / Real.sqrt l)) := by
  have hs := Real.sqrt_pos.mpr hl
  refine ⟨by positivity, ?_⟩
  rw [one_div_mul_one_div, Real.mul_self_sqrt hl.le, one_div_one_div]

theorem exactLambda_eq {Re d k : ℝ} (h : 4000 ≤ Re) (hd : 0 < d) (hk : 0 ≤ k) (hkd : k ≤ d) :
    ∃ mu, exactLambda Re d k = Res.ok (1 / (mu * mu)) ∧ 0 < mu ∧ cwF Re d k mu ≤ 0 ∧
      mu = (if cwF Re d k (cwStart Re d k) < 1 / 10 ^ 12 then cwStep Re d k (cwStart Re d k)
        else cwStep Re d k (cwStep Re d k (cwStart Re d k))) := by
  have hR : 0 < Re := by linarith
  obtain ⟨hm, hst⟩ := start_eq h hd hk hkd
  have hin := start_inner h hd hk hkd
  have hs := step_pos hR hd hk hm hin
  have hneg := step_nonpos hR hd hk hm hs
  have hs2 := lt_of_lt_of_le hs (step_up hR hd hk hs hneg)
  refine ⟨_, ?_, ?_, ?_, rfl⟩
  · unfold exactLambda
    rw [if_neg (by unfold turbulentBorder EPSILON; norm_num; linarith), swameeJain_ok d k h]
    simp only [Res.ok_bind]
    rw [hst, loop_eq hR hd hk hm hin 8]
  · split
    · exact hs
    · exact hs2
  · split
    · exact hneg
    · exact step_nonpos hR hd hk hs hs2

/-- **C147 (partial)**: for Reynolds numbers from 4000 on and roughnesses up to the diameter a positive friction factor is
computed that is never below a solution of the equation of Colebrook and White: the friction is never underestimated. If
the value of Swamee and Jain isn't below the solution either, the computed one is between both. (Missing: how well the
equation is solved; that the tolerance is kept is false, `C147_false`.) -/
theorem C147_partial {Re d k : ℝ} (h : 4000 ≤ Re) (hd : 0 < d) (hk : 0 ≤ k) (hkd : k ≤ d) :
    ∃ l, exactLambda Re d k = Res.ok l ∧ 0 < l ∧ colebrookWhite Re d k l ≤ 0 ∧
      (∀ exact, 0 < exact → colebrookWhite Re d k exact = 0 → exact ≤ l) ∧
      ∀ approx, swameeJain Re d k = Res.ok approx → colebrookWhite Re d k approx ≤ 0 → l ≤ approx := by
  have hR : 0 < Re := by linarith
  obtain ⟨mu, hl, hm, hf, hmu⟩ := exactLambda_eq h hd hk hkd
  refine ⟨_, hl, by positivity, by rw [colebrookWhite_eq hm]; exact hf, ?_, ?_⟩
  · intro exact he h0
    obtain ⟨hp, hq⟩ := lambda_mu he
    rw [hq, colebrookWhite_eq hp] at h0
    have hle : mu ≤ 1 / Real.sqrt exact := by
      by_contra hlt
      have := f_strictMono hR hd hk hp (not_le.mp hlt)
      linarith
    rw [hq]
    exact one_div_le_one_div_of_le (by positivity) (mul_le_mul hle hle hm.le hp.le)
  · intro approx ha hcw
    rw [swameeJain_ok d k h] at ha
    injection ha with ha
    obtain ⟨hst0, hst⟩ := start_eq h hd hk hkd
    have hpos : 0 < approx := by
      by_contra hn
      rw [← ha] at hn
      rw [Real.sqrt_eq_zero'.mpr (not_lt.mp hn)] at hst
      simp at hst
      linarith
    obtain ⟨hp, hq⟩ := lambda_mu hpos
    rw [hq, colebrookWhite_eq hp, ← ha, hst] at hcw
    rw [if_pos (lt_of_le_of_lt hcw (by norm_num))] at hmu
    have hup := step_up hR hd hk hst0 hcw
    rw [← hmu] at hup
    rw [hq, ← ha, hst]
    exact one_div_le_one_div_of_le (by positivity) (mul_le_mul hup hup hst0.le hm.le)

/-- The roughness of the witness, for the Reynolds number 10^10 and the diameter 1. -/
def witnessRoughness : ℝ := 3.7 * 4.26 / 10 ^ 9

theorem witness_start : cwStart (10 ^ 10) 1 witnessRoughness = 16 := by
  have hx : ((10 : ℝ) ^ 10) ^ (0.9 : ℝ) = 10 ^ 9 := by
    rw [← Real.rpow_natCast, ← Real.rpow_mul (by norm_num), ← Real.rpow_natCast]
    norm_num
  have ha : sjArg (10 ^ 10) 1 witnessRoughness = (10 : ℝ) ^ (-8 : ℝ) := by
    unfold sjArg witnessRoughness
    rw [hx, Real.rpow_neg (by norm_num), show (8 : ℝ) = ((8 : ℕ) : ℝ) by norm_num, Real.rpow_natCast]
    norm_num
  unfold cwStart
  rw [ha, Real.logb_rpow (by norm_num) (by norm_num)]
  norm_num

theorem witness_step {D δ F : ℝ} (h : D * δ = -F) (hF : F ≤ -(2 / 13)) (h1 : 1 < D) (h2 : D ≤ 2) : 1 / 13 ≤ δ := by
  have hδ : 0 < δ := by
    have : 0 < D * δ := by rw [h]; linarith
    exact (mul_pos_iff_of_pos_left (by linarith)).mp this
  have := mul_le_mul_of_nonneg_right h2 hδ.le
  linarith

/-- **C147 is false**: the loop ends as soon as `f` is negative, however large it is. -/
theorem C147_false : ¬ C147Statement := by
  intro hall
  have hk0 : 0 ≤ witnessRoughness := by unfold witnessRoughness; norm_num
  have hk1 : witnessRoughness ≤ 1 := by unfold witnessRoughness; norm_num
  obtain ⟨l, hl, hsmall⟩ := hall (10 ^ 10) 1 witnessRoughness (by norm_num) (by norm_num) hk0 hk1
  obtain ⟨mu, hl', hm, -, hmu⟩ := exactLambda_eq (Re := 10 ^ 10) (d := 1) (k := witnessRoughness) (by norm_num)
    (by norm_num) hk0 hk1
  rw [hl] at hl'
  injection hl' with hl'
  rw [hl', colebrookWhite_eq hm] at hsmall
  rw [witness_start] at hmu
  have h10 := log10_ge
  have h10' : Real.log 10 ≤ 9 := by
    have := Real.log_le_sub_one_of_pos (show (0 : ℝ) < 10 by norm_num)
    linarith
  -- the argument of the logarithm at the start
  set i0 := cwInner (10 ^ 10) 1 witnessRoughness 16 with hi0
  have hi_lo : 8.2 / 10 ^ 9 ≤ i0 := by rw [hi0]; unfold cwInner witnessRoughness; norm_num
  have hi_hi : i0 ≤ 10 / 1.2 / 10 ^ 9 := by rw [hi0]; unfold cwInner witnessRoughness; norm_num
  have hi_pos : 0 < i0 := lt_of_lt_of_le (by norm_num) hi_lo
  -- the value at the start is far below zero
  have hf0 : cwF (10 ^ 10) 1 witnessRoughness 16 ≤ -(2 / 13) := by
    have h1 : Real.logb 10 i0 ≤ Real.logb 10 (10 / 1.2 / 10 ^ 9) :=
      Real.logb_le_logb_of_le (by norm_num) hi_pos hi_hi
    have h2 : Real.logb 10 (10 / 1.2 / 10 ^ 9 : ℝ) = 1 - Real.logb 10 1.2 - 9 := by
      rw [Real.logb_div (by norm_num) (by norm_num), Real.logb_div (by norm_num) (by norm_num),
        Real.logb_self_eq_one (by norm_num), Real.logb_pow, Real.logb_self_eq_one (by norm_num)]
      norm_num
    have h3 : (1 : ℝ) / 13 ≤ Real.logb 10 1.2 := by
      have h4 : Real.logb 10 (10 : ℝ) ≤ Real.logb 10 ((1.2 : ℝ) ^ 13) :=
        Real.logb_le_logb_of_le (by norm_num) (by norm_num) (by norm_num)
      rw [Real.logb_self_eq_one (by norm_num), Real.logb_pow] at h4
      norm_num at h4 ⊢
      linarith
    unfold cwF
    rw [← hi0]
    linarith
  rw [if_pos (lt_of_le_of_lt hf0 (by norm_num))] at hmu
  have hdf1 := df_pos (Re := 10 ^ 10) (d := 1) (k := witnessRoughness) (mu := 16) (by norm_num) (by norm_num) hk0
    (by norm_num)
  have hdf2 : cwDf (10 ^ 10) 1 witnessRoughness 16 ≤ 2 := by
    unfold cwDf
    rw [← hi0]
    have h1 : 2 / Real.log 10 ≤ 2 := by
      rw [div_le_iff₀ (by linarith)]
      linarith
    have h2 : 2 / Real.log 10 * (2.51 / 10 ^ 10) / i0 ≤ 1 := by
      rw [div_le_one hi_pos]
      have : 2 / Real.log 10 * (2.51 / 10 ^ 10) ≤ 2 * (2.51 / 10 ^ 10) :=
        mul_le_mul_of_nonneg_right h1 (by norm_num)
      refine le_trans this (le_trans ?_ hi_lo)
      norm_num
    linarith
  -- the step
  set δ := mu - 16 with hδ
  have hδdf : cwDf (10 ^ 10) 1 witnessRoughness 16 * δ = - cwF (10 ^ 10) 1 witnessRoughness 16 := by
    rw [hδ, hmu]
    unfold cwStep
    field_simp
    ring
  have hδlo : 1 / 13 ≤ δ := witness_step hδdf hf0 hdf1 hdf2
  set u := 2.51 / 10 ^ 10 * δ / i0 with hu
  have hulo : 0.002001 ≤ u := by
    rw [hu, le_div_iff₀ hi_pos]
    have : 0.002001 * i0 ≤ 0.002001 * (10 / 1.2 / 10 ^ 9) := mul_le_mul_of_nonneg_left hi_hi (by norm_num)
    refine le_trans this ?_
    have h2 : 2.51 / 10 ^ 10 * (1 / 13) ≤ 2.51 / 10 ^ 10 * δ := mul_le_mul_of_nonneg_left hδlo (by norm_num)
    refine le_trans ?_ h2
    norm_num
  have hi1 : cwInner (10 ^ 10) 1 witnessRoughness mu = i0 * (1 + u) := by
    rw [hu, mul_add, mul_div_cancel₀ _ hi_pos.ne', hi0, hδ]
    unfold cwInner
    ring
  have hlogu : Real.log (1 + u) ≤ u - 1 / 10 ^ 6 := by
    have h1 : Real.log (1 + u) = Real.log ((1 + u) / 1.002001) + Real.log 1.002001 := by
      rw [Real.log_div (by linarith) (by norm_num)]
      ring
    have h2 := Real.log_le_sub_one_of_pos (show 0 < (1 + u) / 1.002001 by positivity)
    have h3 : Real.log (1.002001 : ℝ) = 2 * Real.log 1.001 := by
      rw [show (1.002001 : ℝ) = 1.001 ^ 2 by norm_num, Real.log_pow]
      norm_num
    have h4 := Real.log_le_sub_one_of_pos (show (0 : ℝ) < 1.001 by norm_num)
    have h5 : (1 + u) / 1.002001 - 1 ≤ u - 0.002001 := by
      rw [div_sub_one (by norm_num), div_le_iff₀ (by norm_num)]
      nlinarith
    linarith
  have hend : cwF (10 ^ 10) 1 witnessRoughness mu ≤ -(1 / 10 ^ 7) := by
    have e : cwF (10 ^ 10) 1 witnessRoughness mu = cwF (10 ^ 10) 1 witnessRoughness 16 +
        cwDf (10 ^ 10) 1 witnessRoughness 16 * δ + 2 / Real.log 10 * (Real.log (1 + u) - u) := by
      unfold cwF cwDf Real.logb
      rw [hi1, ← hi0, Real.log_mul hi_pos.ne' (by linarith), hu, hδ]
      ring
    rw [e, hδdf]
    have h1 : 2 / 9 ≤ 2 / Real.log 10 := div_le_div_of_nonneg_left (by norm_num) (by linarith) h10'
    have h2 : 2 / Real.log 10 * (Real.log (1 + u) - u) ≤ 2 / Real.log 10 * (-(1 / 10 ^ 6)) :=
      mul_le_mul_of_nonneg_left (by linarith) (by linarith)
    linarith
  have := (abs_lt.mp hsmall).1
  linarith

/-- The hypotheses of `C147_partial` are met, by a pipe of the test of the code. -/
example : (4000 : ℝ) ≤ 20000 ∧ (0 : ℝ) < 3.5 ∧ (0 : ℝ) ≤ 1 ∧ (1 : ℝ) ≤ 3.5 := by norm_num

end

end Verif.Euler
