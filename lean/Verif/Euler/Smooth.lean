import Verif.Euler.Source
import Mathlib.Topology.Order.OrderClosed

/-! # Continuity of the derivatives of flux and source below the turbulent border -/

set_option autoImplicit false

namespace Verif.Euler

open Filter Topology Verif.SmoothAbs

theorem continuous_reynolds (d : ℝ) : Continuous fun q => reynolds q d := by
  simp only [reynolds_eq]
  exact continuous_const.mul continuous_abs

theorem continuous_dforce {d : ℝ} {c : Fin 4 → ℝ} (hd : 0 < d) (e0 : spline c 2000 = 64 / 2000)
    (e1 : dspline c 2000 = -64 / (2000 * 2000)) : Continuous (dforce d c) := by
  have hk := coeffReynolds_pos hd
  have hs : Continuous (spline c) := continuous_iff_continuousAt.mpr fun x => (spline_hasDerivAt c x).continuousAt
  have hds : Continuous (dspline c) := by unfold dspline; fun_prop
  have hR := continuous_reynolds d
  have : dforce d c = fun q => if 2000 ≤ reynolds q d then
      dspline c (reynolds q d) * coeffReynolds d * (|q| * |q|) + 2 * spline c (reynolds q d) * |q| else 64 / coeffReynolds d := by
    funext q
    unfold dforce
    by_cases h : reynolds q d < 2000
    · rw [if_pos h, if_neg (not_le.mpr h)]
    · rw [if_neg h, if_pos (not_lt.mp h)]
  rw [this]
  refine Continuous.if_le ?_ continuous_const continuous_const hR ?_
  · exact (((hds.comp hR).mul continuous_const).mul (continuous_abs.mul continuous_abs)).add
      ((continuous_const.mul (hs.comp hR)).mul continuous_abs)
  · intro q hq
    rw [← hq, e0, e1]
    have : |q| = 2000 / coeffReynolds d := by
      rw [reynolds_eq] at hq
      rw [hq]; field_simp
    rw [this]
    field_simp
    norm_num

/-- The derivative of the source that is computed is continuous below the turbulent border. -/
theorem dsource_continuous {d k : ℝ} (hp : RealPipe d k) :
    ∃ S : ℝ × ℝ → Mat2, (∀ st : ℝ × ℝ, st.1 ≠ 0 → reynolds st.2 d < 4000 → ∃ M, dsource d k st = Res.ok M ∧ M.map = (S st).map) ∧
      ∀ st : ℝ × ℝ, st.1 ≠ 0 → reynolds st.2 d < 4000 → ContinuousAt (fun x => (S x).m10) st ∧ ContinuousAt (fun x => (S x).m11) st ∧
        (S st).m00 = 0 ∧ (S st).m01 = 0 := by
  obtain ⟨c, hc, e0, e1, -, -⟩ := coefficients_spec d k hp.arg
  refine ⟨fun st => ⟨0, 0, rho0 / (2 * circleArea (0.5 * d) * d) * force d k st.2 / (st.1 * st.1),
      -rho0 / (2 * circleArea (0.5 * d) * d) / st.1 * dforce d c st.2⟩, fun st h0 hR => ?_, fun st h0 hR => ⟨?_, ?_, rfl, rfl⟩⟩
  · obtain ⟨M, hM, hD⟩ := C34_source_partial hp st h0 hR
    exact ⟨M, hM, hD.unique (source_hasFDerivAt hp st h0 (force_hasDerivAt hp.pos hc e0 e1 st.2 hR) _ rfl)⟩
  · have hf : ContinuousAt (fun x : ℝ × ℝ => force d k x.2) st :=
      ContinuousAt.comp (f := Prod.snd) (force_hasDerivAt hp.pos hc e0 e1 st.2 hR).continuousAt continuousAt_snd
    exact (continuousAt_const.mul hf).div (continuousAt_fst.mul continuousAt_fst) (mul_ne_zero h0 h0)
  · exact (continuousAt_const.div continuousAt_fst h0).mul
      ((continuous_dforce hp.pos e0 e1).comp continuous_snd).continuousAt

theorem dp_continuousAt {r : ℝ} (h : 1 - alpha * cVac * r ≠ 0) : ContinuousAt dp r := by
  unfold dp
  have : ContinuousAt (fun r : ℝ => 1 - alpha * cVac * r) r := by fun_prop
  exact continuousAt_const.div (this.mul this) (mul_ne_zero h h)

end Verif.Euler
