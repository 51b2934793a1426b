import Verif.Box.Model
import Verif.Basic.Derives
import Verif.Euler.Source
import Mathlib.Algebra.BigOperators.Group.Finset.Basic
import Mathlib.Algebra.BigOperators.Module
import Mathlib.Tactic.Module

/-! # Properties C29 and C30: the box scheme -/

set_option autoImplicit false

namespace Verif.Box

open Filter Topology Finset

variable {V : Type} [NormedAddCommGroup V] [NormedSpace ℝ V]

/-! ## C29: derivatives -/

/-- At the state `v` the law supplies the derivatives of its flux and source. -/
structure ExactAt (bl : Law V) (v : V) : Prop where
  flux : HasFDerivAt bl.flux (bl.dflux v) v
  source : ∃ D, bl.dsource v = Res.ok D ∧ Derives bl.source D v

/-- C29. Let the four states of a cell depend differentiably on a parameter (for example: be the parameter, or let
only one of them vary). Then near the parameter the residual is computed without exception, and its
derivative is the sum over the four states of the supplied derivative applied to the derivative of the
state. -/
theorem C29_derivatives {E : Type} [NormedAddCommGroup E] [NormedSpace ℝ E] (bl : Law V)
    (lastTime newTime dx : ℝ) (_hdx : dx ≠ 0) (ll lr nl nr : E → V) (ll' lr' nl' nr' : E →L[ℝ] V) (y : E)
    (hll : HasFDerivAt ll ll' y) (hlr : HasFDerivAt lr lr' y) (hnl : HasFDerivAt nl nl' y)
    (hnr : HasFDerivAt nr nr' y) (hl : ExactAt bl (nl y)) (hr : ExactAt bl (nr y)) :
    ∃ L R, dNewLeft bl lastTime newTime dx (nl y) = Res.ok L ∧
      dNewRight bl lastTime newTime dx (nr y) = Res.ok R ∧
      Derives (fun z => evaluatePoint bl lastTime newTime dx (ll z) (lr z) (nl z) (nr z))
        (dLastLeft.comp ll' + dLastRight.comp lr' + L.comp nl' + R.comp nr') y := by
  obtain ⟨Dl, hDl, sl⟩ := hl.source
  obtain ⟨Dr, hDr, sr⟩ := hr.source
  refine ⟨_, _, by unfold dNewLeft; rw [hDl]; rfl, by unfold dNewRight; rw [hDr]; rfl, ?_⟩
  obtain ⟨gr, gl, he, dr, dl⟩ := (sr.comp hnr).map₂ (sl.comp hnl)
  have fl := hl.flux.comp y hnl
  have fr := hr.flux.comp y hnr
  refine ⟨fun z => (0.5 : ℝ) • (nl z + nr z) - (0.5 : ℝ) • (ll z + lr z)
    - ((newTime - lastTime) / dx) • (bl.flux (nl z) - bl.flux (nr z))
    - (0.5 * (newTime - lastTime)) • (gr z + gl z), ?_, ?_⟩
  · filter_upwards [he] with z hz
    unfold evaluatePoint
    rw [hz.1, hz.2]; rfl
  · have h := (((hnl.add hnr).const_smul (0.5 : ℝ)).sub ((hll.add hlr).const_smul (0.5 : ℝ))).sub
      ((fl.sub fr).const_smul ((newTime - lastTime) / dx)) |>.sub
      ((dr.add dl).const_smul (0.5 * (newTime - lastTime)))
    refine h.congr_fderiv ?_
    ext v
    simp only [dLastLeft, dLastRight, _root_.add_apply, _root_.sub_apply,
      _root_.smul_apply, ContinuousLinearMap.comp_apply, ContinuousLinearMap.id_apply]
    module

/-! ## C30: conservation -/

/-- C30. For a pipe with `N` cells: if all residuals are computed, the sum over the cells of cell width times
residual is the change of the trapezoidal total, minus the time step times (flux in minus flux out), minus
the time step times the trapezoidal total of the sources. Nothing is lost between the cells. -/
theorem C30_balance (bl : Law V) (lastTime newTime dx : ℝ) (hdx : dx ≠ 0) (N : ℕ) (last new : ℕ → V)
    (res : ℕ → V) (src : ℕ → V) (hs : ∀ i ≤ N, bl.source (new i) = Res.ok (src i))
    (hres : ∀ i < N, evaluatePoint bl lastTime newTime dx (last i) (last (i + 1)) (new i) (new (i + 1)) =
      Res.ok (res i)) :
    ∑ i ∈ range N, dx • res i =
      ∑ i ∈ range N, (dx / 2) • (new i + new (i + 1)) - ∑ i ∈ range N, (dx / 2) • (last i + last (i + 1))
      - (newTime - lastTime) • (bl.flux (new 0) - bl.flux (new N))
      - (newTime - lastTime) • ∑ i ∈ range N, (dx / 2) • (src i + src (i + 1)) := by
  have hr : ∀ i ∈ range N, dx • res i = (dx / 2) • (new i + new (i + 1)) -
      (dx / 2) • (last i + last (i + 1)) - (newTime - lastTime) • (bl.flux (new i) - bl.flux (new (i + 1)))
      - (newTime - lastTime) • ((dx / 2) • (src i + src (i + 1))) := by
    intro i hi
    have hi' := mem_range.mp hi
    have := hres i hi'
    unfold evaluatePoint at this
    rw [hs i hi'.le, hs (i + 1) hi'] at this
    simp only [Res.ok_bind, Res.ok.injEq] at this
    rw [← this]
    match_scalars <;> field_simp <;> ring
  rw [sum_congr rfl hr]
  simp only [sum_sub_distrib, ← smul_sum]
  have htel : ∑ i ∈ range N, (bl.flux (new i) - bl.flux (new (i + 1))) = bl.flux (new 0) - bl.flux (new N) := by
    rw [sum_range_sub']
  rw [← sum_sub_distrib, htel]

/-- C30. If the residuals of all cells vanish and there is no source, the total changes exactly by what flows in
and out at the two ends. -/
theorem C30_conservation (bl : Law V) (lastTime newTime dx : ℝ) (hdx : dx ≠ 0) (N : ℕ) (last new : ℕ → V)
    (hs : ∀ i ≤ N, bl.source (new i) = Res.ok 0)
    (hres : ∀ i < N, evaluatePoint bl lastTime newTime dx (last i) (last (i + 1)) (new i) (new (i + 1)) =
      Res.ok 0) :
    ∑ i ∈ range N, (dx / 2) • (new i + new (i + 1)) =
      ∑ i ∈ range N, (dx / 2) • (last i + last (i + 1))
      + (newTime - lastTime) • (bl.flux (new 0) - bl.flux (new N)) := by
  have h := C30_balance bl lastTime newTime dx hdx N last new (fun _ => 0) (fun _ => 0) hs hres
  simp only [smul_zero, sum_const_zero, add_zero, sub_zero] at h
  have := sub_eq_zero.mp h.symm
  rw [sub_eq_iff_eq_add] at this
  rw [this, add_comm]

/-! ## The Euler equations in a pipe -/

open Verif.Euler

/-- At all states with positive density and no fully turbulent flow the Euler equations satisfy the
hypothesis of `C29_derivatives`. -/
theorem eulerLaw_exactAt {d k : ℝ} (hp : RealPipe d k) (st : ℝ × ℝ) (h0 : 0 < st.1)
    (hRe : reynolds st.2 d < 4000) : ExactAt (eulerLaw d k) st where
  flux := by
    exact C34_flux d st h0.ne' ((C31_density_round_trip st.1).2 h0.le)
  source := by
    obtain ⟨M, hM, hd⟩ := C34_source_partial hp st h0.ne' hRe
    refine ⟨M.map, by simp only [eulerLaw]; rw [hM]; rfl, ?_⟩
    refine Derives.of_eq (g := fun x => valueOf (Euler.source d k x)) ?_ hd
    intro y
    simp only [eulerLaw]
    rw [C34_source_defined hp y]; rfl

/-- C30. Mass in a pipe: whatever the friction is, if the residuals of all cells vanish, the mass (density times
area, by the trapezoidal rule) changes exactly by the inflow minus the outflow over the time step. -/
theorem C30_mass {d k : ℝ} (hp : RealPipe d k) (lastTime newTime dx : ℝ) (hdx : dx ≠ 0) (N : ℕ)
    (last new : ℕ → ℝ × ℝ)
    (hres : ∀ i < N, evaluatePoint (eulerLaw d k) lastTime newTime dx (last i) (last (i + 1)) (new i)
      (new (i + 1)) = Res.ok 0) :
    ∑ i ∈ range N, dx * SmoothAbs.circleArea (0.5 * d) * (((new i).1 + (new (i + 1)).1) / 2) =
      ∑ i ∈ range N, dx * SmoothAbs.circleArea (0.5 * d) * (((last i).1 + (last (i + 1)).1) / 2) +
      (newTime - lastTime) * (rho0 * (new 0).2 - rho0 * (new N).2) := by
  have hsrc : ∀ i ≤ N, (eulerLaw d k).source (new i) = Res.ok (valueOf (Euler.source d k (new i))) := by
    intro i _
    simp only [eulerLaw]
    rw [C34_source_defined hp]; rfl
  have h0 : ∀ i, (valueOf (Euler.source d k (new i))).1 = 0 := by
    intro i; rw [C34_source_defined hp]; rfl
  have h := congrArg Prod.fst
    (C30_balance (eulerLaw d k) lastTime newTime dx hdx N last new (fun _ => 0) _ hsrc hres)
  have hA := area_pos hp.pos
  simp only [smul_zero, sum_const_zero, Prod.fst_sub, Prod.smul_fst, Prod.fst_sum, Prod.fst_add, h0,
    add_zero, smul_eq_mul, mul_zero, sub_zero, Prod.fst_zero] at h
  have hf : ∀ s : ℝ × ℝ, ((eulerLaw d k).flux s).1 = rho0 / SmoothAbs.circleArea (0.5 * d) * s.2 :=
    fun _ => rfl
  rw [hf, hf] at h
  have e : ∀ f : ℕ → ℝ × ℝ,
      ∑ i ∈ range N, dx * SmoothAbs.circleArea (0.5 * d) * (((f i).1 + (f (i + 1)).1) / 2) =
      SmoothAbs.circleArea (0.5 * d) * ∑ i ∈ range N, dx / 2 * ((f i).1 + (f (i + 1)).1) := by
    intro f; rw [mul_sum]; refine sum_congr rfl fun i _ => by ring
  rw [e, e]
  have h2 := eq_add_of_sub_eq (sub_eq_zero.mp (by linarith :
    (∑ i ∈ range N, dx / 2 * ((new i).1 + (new (i + 1)).1)
      - ∑ i ∈ range N, dx / 2 * ((last i).1 + (last (i + 1)).1)) -
      (newTime - lastTime) * (rho0 / SmoothAbs.circleArea (0.5 * d) * (new 0).2 -
        rho0 / SmoothAbs.circleArea (0.5 * d) * (new N).2) = 0))
  rw [h2]
  field_simp
  ring

/-- A gas at rest (constant density, no flow) satisfies the hypotheses of `C30_mass`, with any number of
cells; and a laminar state those of `C29_derivatives`. -/
example (N : ℕ) : ∀ i < N, evaluatePoint (eulerLaw 1 0) 0 60 100 ((fun _ => (40, 0)) i : ℝ × ℝ)
    ((fun _ => (40, 0)) (i + 1)) ((fun _ => (40, 0)) i) ((fun _ => (40, 0)) (i + 1)) = Res.ok 0 := by
  intro i _
  have hp : RealPipe 1 0 := turbulent_example.1
  have hs : (eulerLaw 1 0).source (40, 0) = Res.ok 0 := by
    simp only [eulerLaw]
    rw [C34_source_defined hp]
    have : force 1 0 0 = 0 := by unfold force; split <;> simp; split <;> rfl
    simp [this]
  unfold evaluatePoint
  rw [hs]
  simp

example : ExactAt (eulerLaw 1 0) (40, 0.01) := by
  refine eulerLaw_exactAt turbulent_example.1 _ (by norm_num) ?_
  unfold reynolds SmoothAbs.circleArea SmoothAbs.Pi eta rho0
  rw [abs_of_pos (by norm_num)]
  norm_num

end Verif.Box
