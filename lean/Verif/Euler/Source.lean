import Verif.Euler.Props
import Mathlib.Analysis.Calculus.FDeriv.Prod
import Mathlib.Analysis.Calculus.FDeriv.Mul
import Mathlib.Analysis.Calculus.Deriv.Comp

/-! # Property C34: derivatives of flux and source -/

set_option autoImplicit false

namespace Verif.Euler

open Verif.SmoothAbs Filter Topology Set

theorem Mat2.map_apply (m : Mat2) (v : ℝ × ℝ) :
    m.map v = (m.m00 * v.1 + m.m01 * v.2, m.m10 * v.1 + m.m11 * v.2) := by
  simp [Mat2.map]

/-- The value of a computation that ends normally. -/
noncomputable def valueOf (r : Res (ℝ × ℝ)) : ℝ × ℝ :=
  match r with
  | Res.ok v => v
  | _ => (0, 0)

theorem inv_fst_hasFDerivAt {st : ℝ × ℝ} (h : st.1 ≠ 0) :
    HasFDerivAt (fun s : ℝ × ℝ => (s.1)⁻¹) ((-(st.1 ^ 2)⁻¹) • ContinuousLinearMap.fst ℝ ℝ ℝ) st :=
  (hasDerivAt_inv h).comp_hasFDerivAt st hasFDerivAt_fst

/-- C34. The Jacobian matrix of the flux is its derivative, at every state with non-zero density and defined
pressure (see `C31_density_round_trip`: every positive density). -/
theorem C34_flux (d : ℝ) (st : ℝ × ℝ) (h : st.1 ≠ 0) (hD : 1 - alpha * cVac * st.1 ≠ 0) :
    HasFDerivAt (flux d) (dflux d st).map st := by
  have h1 : HasFDerivAt (fun s : ℝ × ℝ => rho0 / circleArea (0.5 * d) * s.2)
      ((rho0 / circleArea (0.5 * d)) • ContinuousLinearMap.snd ℝ ℝ ℝ) st :=
    hasFDerivAt_snd.const_mul _
  have h2 : HasFDerivAt (fun s : ℝ × ℝ => circleArea (0.5 * d) / rho0 * p s.1)
      ((circleArea (0.5 * d) / rho0) • (dp st.1 • ContinuousLinearMap.fst ℝ ℝ ℝ)) st :=
    ((C31_derivative st.1 hD).comp_hasFDerivAt st hasFDerivAt_fst).const_mul _
  have h3 := (h1.mul hasFDerivAt_snd).mul (inv_fst_hasFDerivAt h)
  have h4 := h1.prodMk (h2.add h3)
  refine (h4.congr_fderiv ?_).congr_of_eventuallyEq ?_
  · ext <;> simp [Mat2.map, dflux] <;> field_simp <;> ring
  · filter_upwards with s
    simp [flux, div_eq_mul_inv]

/-! ## The source -/

/-- The friction force without the factors that depend on the pipe and the density. -/
noncomputable def force (d k q : ℝ) : ℝ :=
  if reynolds q d < 2000 then 64 / coeffReynolds d * q
  else match lambda (reynolds q d) d k with
    | Res.ok l => l * |q| * q
    | _ => 0

theorem area_pos {d : ℝ} (hd : 0 < d) : 0 < circleArea (0.5 * d) := by
  unfold circleArea Pi; positivity

theorem coeffReynolds_pos {d : ℝ} (hd : 0 < d) : 0 < coeffReynolds d := by
  have := area_pos hd
  unfold coeffReynolds eta rho0; positivity

theorem reynolds_eq (q d : ℝ) : reynolds q d = coeffReynolds d * |q| := rfl

theorem force_odd (d k q : ℝ) : force d k (-q) = -force d k q := by
  unfold force
  have : reynolds (-q) d = reynolds q d := by rw [reynolds_eq, reynolds_eq, abs_neg]
  rw [this]
  by_cases h : reynolds q d < 2000
  · rw [if_pos h, if_pos h]; ring
  · rw [if_neg h, if_neg h, abs_neg]
    split <;> ring

/-- A pipe the theorems speak about: its diameter is at least 10^-11 m and its roughness lies between zero
and the diameter. -/
structure RealPipe (d k : ℝ) : Prop where
  diameter : 1 / 10 ^ 11 ≤ d
  nonneg : 0 ≤ k
  rough : k ≤ d

theorem RealPipe.pos {d k : ℝ} (h : RealPipe d k) : 0 < d := lt_of_lt_of_le (by norm_num) h.diameter

theorem RealPipe.arg {d k : ℝ} (h : RealPipe d k) : 0 < sjArg 4000 d k :=
  (sjArg_range le_rfl h.pos h.nonneg h.rough).1

theorem lambda_ok {d k : ℝ} (hp : RealPipe d k) (Re : ℝ) (h : 2000 ≤ Re) :
    ∃ l, lambda Re d k = Res.ok l := by
  obtain ⟨c, hc, -⟩ := coefficients_spec d k hp.arg
  rcases le_or_gt Re 4000 with h4 | h4
  · exact ⟨_, lambda_transition hc h h4⟩
  · exact ⟨_, lambda_turbulent h4⟩

/-- C34. The source is defined at every state: `source` never throws. -/
theorem C34_source_defined {d k : ℝ} (hp : RealPipe d k) (st : ℝ × ℝ) :
    source d k st = Res.ok (0, -rho0 / (2 * circleArea (0.5 * d) * d) * force d k st.2 / st.1) := by
  unfold source force
  by_cases h : reynolds st.2 d < laminarBorder
  · have h' : reynolds st.2 d < 2000 := h
    simp only [if_pos h, if_pos h']
    congr 2
    ring
  · have h' : ¬ reynolds st.2 d < 2000 := h
    simp only [if_neg h, if_neg h']
    obtain ⟨l, hl⟩ := lambda_ok hp _ (not_lt.mp h')
    rw [hl]
    simp only [Res.ok_bind]
    congr 2
    ring

/-- Specification of the derivative of `force` below the turbulent border. -/
noncomputable def dforce (d : ℝ) (c : Fin 4 → ℝ) (q : ℝ) : ℝ :=
  if reynolds q d < 2000 then 64 / coeffReynolds d
  else dspline c (reynolds q d) * coeffReynolds d * (|q| * |q|) + 2 * spline c (reynolds q d) * |q|

theorem force_pos {d k : ℝ} {c : Fin 4 → ℝ} (hd : 0 < d) (hc : coefficients d k = Res.ok c)
    (e0 : spline c 2000 = 64 / 2000) (e1 : dspline c 2000 = -64 / (2000 * 2000)) (q : ℝ) (hq : 0 < q)
    (h2 : 2000 ≤ coeffReynolds d * q) (h4 : coeffReynolds d * q < 4000) :
    HasDerivAt (force d k) (dforce d c q) q := by
  have hk := coeffReynolds_pos hd
  set κ := coeffReynolds d with hκ
  have hlin : HasDerivAt (fun x : ℝ => κ * x) κ q := by
    simpa using (hasDerivAt_id q).const_mul κ
  have hg : HasDerivAt (fun x : ℝ => spline c (κ * x) * x * x)
      (dspline c (κ * q) * κ * (q * q) + 2 * spline c (κ * q) * q) q := by
    have := (((spline_hasDerivAt c (κ * q)).comp q hlin).mul (hasDerivAt_id' q)).mul (hasDerivAt_id' q)
    refine this.congr_deriv ?_
    simp only [Function.comp, Pi.mul_apply]
    ring
  have hdf : dforce d c q = dspline c (κ * q) * κ * (q * q) + 2 * spline c (κ * q) * q := by
    unfold dforce
    rw [reynolds_eq, abs_of_pos hq, if_neg (not_lt.mpr h2)]
  have hright : ∀ x : ℝ, 0 < x → 2000 ≤ κ * x → κ * x ≤ 4000 → force d k x = spline c (κ * x) * x * x := by
    intro x hx hx2 hx4
    unfold force
    rw [reynolds_eq, abs_of_pos hx, if_neg (not_lt.mpr hx2), lambda_transition hc hx2 hx4]
  have hnear4 : ∀ᶠ x in 𝓝 q, κ * x < 4000 :=
    hlin.continuousAt.eventually_lt continuousAt_const h4
  have hnear0 : ∀ᶠ x in 𝓝 q, 0 < x := lt_mem_nhds hq
  rw [hdf]
  rcases lt_or_eq_of_le h2 with h2' | h2'
  · refine hg.congr_of_eventuallyEq ?_
    have hnear2 : ∀ᶠ x in 𝓝 q, 2000 < κ * x :=
      continuousAt_const.eventually_lt hlin.continuousAt h2'
    filter_upwards [hnear4, hnear0, hnear2] with x a b c
    exact hright x b c.le a.le
  · have hqk : q = 2000 / κ := by rw [h2']; field_simp
    have hleft : HasDerivAt (fun x : ℝ => 64 / κ * x)
        (dspline c (κ * q) * κ * (q * q) + 2 * spline c (κ * q) * q) q := by
      have : HasDerivAt (fun x : ℝ => 64 / κ * x) (64 / κ) q := by
        simpa using (hasDerivAt_id q).const_mul (64 / κ)
      refine this.congr_deriv ?_
      rw [← h2', e0, e1, hqk]
      field_simp
      norm_num
    refine hasDerivAt_glue hleft hg ?_ ?_
    · filter_upwards [hnear0] with x hx hxq
      rcases lt_or_eq_of_le hxq with hlt | heq
      · unfold force
        rw [reynolds_eq, abs_of_pos hx, if_pos (by rw [h2']; exact mul_lt_mul_of_pos_left hlt hk)]
      · rw [heq, hright q hq h2 h4.le, ← h2', e0, hqk]
        field_simp
    · filter_upwards [hnear4, hnear0] with x a b hxq
      refine hright x b ?_ a.le
      rw [h2']; exact mul_le_mul_of_nonneg_left hxq hk.le

theorem force_hasDerivAt {d k : ℝ} {c : Fin 4 → ℝ} (hd : 0 < d) (hc : coefficients d k = Res.ok c)
    (e0 : spline c 2000 = 64 / 2000) (e1 : dspline c 2000 = -64 / (2000 * 2000)) (q : ℝ)
    (h4 : reynolds q d < 4000) : HasDerivAt (force d k) (dforce d c q) q := by
  rcases lt_or_ge (reynolds q d) 2000 with h2 | h2
  · have : dforce d c q = 64 / coeffReynolds d := by unfold dforce; rw [if_pos h2]
    rw [this]
    have hl : HasDerivAt (fun x : ℝ => 64 / coeffReynolds d * x) (64 / coeffReynolds d) q := by
      simpa using (hasDerivAt_id q).const_mul (64 / coeffReynolds d)
    refine hl.congr_of_eventuallyEq ?_
    have hcont : ContinuousAt (fun x => reynolds x d) q := by
      simp only [reynolds_eq]
      exact continuousAt_const.mul continuous_abs.continuousAt
    filter_upwards [hcont.eventually_lt continuousAt_const h2] with x hx
    unfold force; rw [if_pos hx]
  · rcases lt_trichotomy q 0 with h | h | h
    · have hr : reynolds q d = coeffReynolds d * (-q) := by rw [reynolds_eq, abs_of_neg h]
      have hp := force_pos hd hc e0 e1 (-q) (by linarith) (hr ▸ h2) (hr ▸ h4)
      have hdf : dforce d c (-q) = dforce d c q := by
        unfold dforce; rw [reynolds_eq, reynolds_eq, abs_neg]
      rw [hdf] at hp
      have := (hp.comp q (hasDerivAt_neg q)).neg
      refine (this.congr_deriv (by ring)).congr_of_eventuallyEq ?_
      filter_upwards with x
      simp [Function.comp, force_odd]
    · rw [h, reynolds_eq, abs_zero, mul_zero] at h2; norm_num at h2
    · rw [reynolds_eq, abs_of_pos h] at h2 h4
      exact force_pos hd hc e0 e1 q h h2 h4

theorem flow_large {d k : ℝ} (hp : RealPipe d k) {q : ℝ} (h : 2000 ≤ reynolds q d) :
    1 / 10 ^ 13 ≤ |q| := by
  have hd := hp.pos
  have hb := hp.diameter
  have hcr : coeffReynolds d = 0.785 * 4 * 100000 / (Pi * d) := by
    unfold coeffReynolds circleArea eta rho0
    have : Pi ≠ 0 := by unfold Pi; norm_num
    field_simp
    norm_num
  have hpi : 0 < Pi * d := mul_pos (by unfold Pi; norm_num) hd
  rw [reynolds_eq, hcr, div_mul_eq_mul_div, le_div_iff₀ hpi] at h
  have : (3 : ℝ) ≤ Pi := by unfold Pi; norm_num
  nlinarith [abs_nonneg q]

theorem source_hasFDerivAt {d k s : ℝ} (hp : RealPipe d k) (st : ℝ × ℝ) (h0 : st.1 ≠ 0)
    (hf : HasDerivAt (force d k) s st.2) (M : Mat2)
    (hM : M = ⟨0, 0, rho0 / (2 * circleArea (0.5 * d) * d) * force d k st.2 / (st.1 * st.1),
      -rho0 / (2 * circleArea (0.5 * d) * d) / st.1 * s⟩) :
    HasFDerivAt (fun x => valueOf (source d k x)) M.map st := by
  have h1 : HasFDerivAt (fun x : ℝ × ℝ => -rho0 / (2 * circleArea (0.5 * d) * d) * force d k x.2)
      ((-rho0 / (2 * circleArea (0.5 * d) * d)) • (s • ContinuousLinearMap.snd ℝ ℝ ℝ)) st :=
    (hf.comp_hasFDerivAt st hasFDerivAt_snd).const_mul _
  have h2 := (hasFDerivAt_const (0 : ℝ) st).prodMk (h1.mul (inv_fst_hasFDerivAt h0))
  refine (h2.congr_fderiv ?_).congr_of_eventuallyEq ?_
  · rw [hM]
    ext <;> simp [Mat2.map] <;> field_simp
  · filter_upwards with x
    rw [C34_source_defined hp]
    simp [valueOf, div_eq_mul_inv]

/-- C34, proved part: at every state with Reynolds number below 4000 (laminar, transition, and the seam
between them) the Jacobian matrix of the source is computed without an exception and is the
derivative of the source. Missing: Reynolds numbers from 4000 on, where it is false. -/
theorem C34_source_partial {d k : ℝ} (hp : RealPipe d k) (st : ℝ × ℝ) (h0 : st.1 ≠ 0)
    (hRe : reynolds st.2 d < 4000) :
    ∃ M, dsource d k st = Res.ok M ∧ HasFDerivAt (fun x => valueOf (source d k x)) M.map st := by
  obtain ⟨c, hc, e0, e1, -, -⟩ := coefficients_spec d k hp.arg
  have hf := force_hasDerivAt hp.pos hc e0 e1 st.2 hRe
  rcases lt_or_ge (reynolds st.2 d) 2000 with h | h
  · have hlam : reynolds st.2 d < laminarBorder := h
    refine ⟨_, by unfold dsource; simp only [if_pos hlam]; rfl, ?_⟩
    refine source_hasFDerivAt hp st h0 hf _ ?_
    unfold force dforce
    rw [if_pos h, if_pos h]
    congr 1 <;> ring
  · have hlam : ¬ reynolds st.2 d < laminarBorder := not_lt.mpr h
    have hl := lambda_transition hc h hRe.le
    have hdl := dlambda_transition hc h hRe.le
    have hq := flow_large hp h
    obtain ⟨hlt, -⟩ | ⟨-, s, hs, -, hsq⟩ := dabs_spec st.2
    · exact absurd hq (not_le.mpr hlt)
    have hdR : dReynolds st.2 d = Res.ok (coeffReynolds d * s) := by
      unfold dReynolds laminarBorder EPSILON
      rw [if_neg (by norm_num; linarith), hs]
      rfl
    refine ⟨_, by unfold dsource; simp only [if_neg hlam, hl, hdl, hdR, hs, Res.ok_bind]; rfl, ?_⟩
    refine source_hasFDerivAt hp st h0 hf _ ?_
    unfold force dforce
    rw [if_neg (not_lt.mpr h), if_neg (not_lt.mpr h), hl]
    have hsq2 : |st.2| * st.2 * s = |st.2| * |st.2| := by rw [← hsq]; ring
    congr 1
    · ring
    · congr 1
      linear_combination (dspline c (reynolds st.2 d) * coeffReynolds d) * hsq2 +
        (spline c (reynolds st.2 d)) * hsq

/-- C34 as stated. -/
def C34Statement : Prop := ∀ (d k : ℝ), RealPipe d k → ∀ st : ℝ × ℝ, st.1 ≠ 0 →
  ∃ M, dsource d k st = Res.ok M ∧ HasFDerivAt (fun x => valueOf (source d k x)) M.map st

/-- At every turbulent state the source has a derivative, and the supplied matrix differs from it in the entry for the flow. -/
theorem C34_source_turbulent {d k : ℝ} (hp : RealPipe d k) (st : ℝ × ℝ) (h0 : st.1 ≠ 0)
    (hRe : 4000 < reynolds st.2 d) :
    ∃ M T : Mat2, dsource d k st = Res.ok M ∧ HasFDerivAt (fun x => valueOf (source d k x)) T.map st ∧ M.m11 ≠ T.m11 := by
  have hd := hp.pos
  have hk := coeffReynolds_pos hd
  obtain ⟨a0, a1⟩ := sjArg_range hRe.le hd hp.nonneg hp.rough
  have hlam : ¬ reynolds st.2 d < laminarBorder := by
    unfold laminarBorder; linarith
  have hl := lambda_turbulent (d := d) (k := k) hRe
  have hdl : dlambda (reynolds st.2 d) d k =
      Res.ok (sjArg (reynolds st.2 d) d k ^ 2 * dsj d k (reynolds st.2 d)) := by
    unfold dlambda laminarBorder turbulentBorder EPSILON
    rw [if_neg (by norm_num; linarith), if_pos hRe, dSwameeJain_eq d k hRe.le a0]
  have hq := flow_large hp (by linarith)
  obtain ⟨hlt, -⟩ | ⟨-, s, hs, hsd, hsq⟩ := dabs_spec st.2
  · exact absurd hq (not_le.mpr hlt)
  have hdR : dReynolds st.2 d = Res.ok (coeffReynolds d * s) := by
    unfold dReynolds laminarBorder EPSILON
    rw [if_neg (by norm_num; linarith), hs]
    rfl
  have hR : HasDerivAt (fun x => reynolds x d) (coeffReynolds d * s) st.2 := hsd.const_mul _
  have hsj := (sj_hasDerivAt (by linarith) a0 a1.ne).comp st.2 hR
  have hforce := ((hsj.mul hsd).mul (hasDerivAt_id' st.2)).congr_of_eventuallyEq (f₁ := force d k) (by
    filter_upwards [continuousAt_const.eventually_lt hR.continuousAt hRe] with x hx
    unfold force
    rw [if_neg (by linarith), lambda_turbulent hx]
    rfl)
  refine ⟨_, _, by unfold dsource; simp only [if_neg hlam, hl, hdl, hdR, hs, Res.ok_bind]; rfl,
    source_hasFDerivAt hp st h0 hforce _ rfl, ?_⟩
  intro heq
  simp only [Function.comp, Pi.mul_apply] at heq
  have hfac : -rho0 / (2 * circleArea (0.5 * d) * d) / st.1 ≠ 0 := by
    have := area_pos hd
    have hr : -rho0 ≠ 0 := by unfold rho0; norm_num
    exact div_ne_zero (div_ne_zero hr (by positivity)) h0
  have heq' := mul_left_cancel₀ hfac heq
  have hdne := dsj_ne_zero (by linarith : 0 < reynolds st.2 d) a0 a1.ne
  have hq0 : 0 < |st.2| := lt_of_lt_of_le (by norm_num) hq
  have hkey : (sjArg (reynolds st.2 d) d k ^ 2 - 1) * dsj d k (reynolds st.2 d) *
      (coeffReynolds d * (|st.2| * |st.2|)) = 0 := by
    have hsq2 : |st.2| * st.2 * s = |st.2| * |st.2| := by rw [← hsq]; ring
    rw [← hsq2]
    linear_combination heq'
  have h2 : sjArg (reynolds st.2 d) d k ^ 2 < 1 := by nlinarith
  rcases mul_eq_zero.mp hkey with h | h
  · rcases mul_eq_zero.mp h with h | h
    · linarith
    · exact hdne h
  · exact absurd h (by positivity)

/-- C34 is false at every turbulent state: there the supplied matrix is not the derivative of the source. -/
theorem C34_source_false_turbulent {d k : ℝ} (hp : RealPipe d k) (st : ℝ × ℝ) (h0 : st.1 ≠ 0)
    (hRe : 4000 < reynolds st.2 d) :
    ∃ M, dsource d k st = Res.ok M ∧ ¬ HasFDerivAt (fun x => valueOf (source d k x)) M.map st := by
  obtain ⟨M, T, hM, hT, hne⟩ := C34_source_turbulent hp st h0 hRe
  refine ⟨M, hM, fun h => hne ?_⟩
  have heq := congrArg (fun L : ℝ × ℝ →L[ℝ] ℝ × ℝ => (L (0, 1)).2) (h.unique hT)
  simpa only [Mat2.map_apply, mul_zero, zero_add, mul_one] using heq

/-- A turbulent state of a real pipe: diameter 1 m, flow 1 m³/s. -/
theorem turbulent_example : RealPipe 1 0 ∧ 4000 < reynolds 1 1 := by
  refine ⟨⟨by norm_num, le_rfl, by norm_num⟩, ?_⟩
  unfold reynolds circleArea Pi eta rho0
  norm_num

/-- A state in the transition region: diameter 1 m, flow 0.03 m³/s. -/
example : 2000 < reynolds 0.03 1 ∧ reynolds 0.03 1 < 4000 := by
  unfold reynolds circleArea Pi eta rho0
  rw [abs_of_pos (by norm_num)]
  norm_num

theorem C34_false : ¬ C34Statement := by
  intro h
  obtain ⟨M, hM, hder⟩ := h 1 0 turbulent_example.1 (1, 1) (by norm_num)
  obtain ⟨M', hM', hn⟩ := C34_source_false_turbulent turbulent_example.1 (1, 1) (by norm_num)
    turbulent_example.2
  rw [hM] at hM'
  injection hM' with e
  exact hn (e ▸ hder)

end Verif.Euler
