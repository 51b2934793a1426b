import Verif.Box.Props

/-!
# Property C135: friction acts against the flow, and stationary gas flows downhill

In a stationary state of a pipe the flow is the same everywhere, and the pressure falls in the direction of the
flow, as long as the gas is slower than sound.
-/

set_option autoImplicit false

namespace Verif.Box

open Verif.Euler Verif.SmoothAbs

/-! ## The sign of the friction -/

theorem dsj_neg {Re d k : ℝ} (h : 0 < Re) (ha : 0 < sjArg Re d k) (ha1 : sjArg Re d k < 1) : dsj d k Re < 0 := by
  have hl : 0 < Real.log 10 := Real.log_pos (by norm_num)
  have hlog : Real.logb 10 (sjArg Re d k) < 0 := Real.logb_neg (by norm_num) ha ha1
  have h3 : (Real.logb 10 (sjArg Re d k)) ^ 3 < 0 := Odd.pow_neg (by decide) hlog
  unfold dsj
  refine mul_neg_of_pos_of_neg (div_pos_of_neg_of_neg (by norm_num) h3) (div_neg_of_neg_of_pos (dsjArg_neg h) ?_)
  positivity

theorem sj_pos {Re d k : ℝ} (ha : 0 < sjArg Re d k) (ha1 : sjArg Re d k < 1) : 0 < sj d k Re := by
  have := logb_ne_zero ha ha1.ne
  unfold sj; positivity

/-- The friction factor is positive, also between laminar and turbulent flow. -/
theorem lambda_pos {d k : ℝ} (hp : RealPipe d k) {Re l : ℝ} (h : 2000 ≤ Re) (hl : lambda Re d k = Res.ok l) :
    0 < l := by
  rcases le_or_gt Re 4000 with h4 | h4
  · obtain ⟨a0, a1⟩ := sjArg_range (Re := 4000) le_rfl hp.pos hp.nonneg hp.rough
    obtain ⟨c, hc, e0, e1, e2, e3⟩ := coefficients_spec d k a0
    rw [lambda_transition hc h h4] at hl
    injection hl with hl
    have hs := sj_pos (Re := 4000) (d := d) (k := k) a0 a1
    have hd : dspline c 4000 ≤ 0 := by
      rw [e3]
      exact mul_nonpos_of_nonneg_of_nonpos (sq_nonneg _) (dsj_neg (by norm_num) a0 a1).le
    rw [← e2] at hs
    set t := (Re - 2000) / 2000 with ht
    have t0 : 0 ≤ t := by rw [ht]; apply div_nonneg <;> linarith
    have t1 : t ≤ 1 := by rw [ht, div_le_one (by norm_num)]; linarith
    have hR : Re = 2000 * (1 + t) := by rw [ht]; ring
    have herm : spline c Re = (2 * t ^ 3 - 3 * t ^ 2 + 1) * spline c 2000 +
        2000 * (t ^ 3 - 2 * t ^ 2 + t) * dspline c 2000 + t ^ 2 * (3 - 2 * t) * spline c 4000 +
        2000 * (t ^ 2 * (1 - t)) * -dspline c 4000 := by
      rw [hR]; unfold spline dspline; ring
    rw [← hl, herm, e0, e1]
    have k1 : 0 ≤ t ^ 2 * (1 - t) * -dspline c 4000 :=
      mul_nonneg (mul_nonneg (sq_nonneg _) (by linarith)) (by linarith)
    rcases lt_or_eq_of_le t1 with h1 | h1
    · have k2 : 0 < (1 - t) ^ 2 * (1 + t) := mul_pos (pow_pos (by linarith) 2) (by linarith)
      have k3 : 0 ≤ t ^ 2 * (3 - 2 * t) * spline c 4000 :=
        mul_nonneg (mul_nonneg (sq_nonneg _) (by linarith)) hs.le
      nlinarith
    · rw [h1]; norm_num; exact hs
  · rw [lambda_turbulent h4] at hl
    injection hl with hl
    obtain ⟨a0, a1⟩ := sjArg_range (Re := Re) h4.le hp.pos hp.nonneg hp.rough
    rw [← hl]; exact sj_pos a0 a1

theorem force_pos {d k : ℝ} (hp : RealPipe d k) {q : ℝ} (hq : 0 < q) : 0 < force d k q := by
  unfold force
  have hc := coeffReynolds_pos hp.pos
  split
  · positivity
  · rename_i h
    obtain ⟨l, hl⟩ := lambda_ok hp _ (not_lt.mp h)
    have := lambda_pos hp (not_lt.mp h) hl
    rw [hl]
    have : 0 < |q| := abs_pos.mpr hq.ne'
    simp only; positivity

/-- C135. Friction acts against the flow, whether it is laminar or turbulent, in every pipe and at every positive
density: the source has no mass part, and its momentum part has the sign opposite to the flow. -/
theorem C135_friction {d k : ℝ} (hp : RealPipe d k) (st : ℝ × ℝ) (h : 0 < st.1) :
    ∃ s, Euler.source d k st = Res.ok (0, s) ∧ (0 < st.2 → s < 0) ∧ (st.2 < 0 → 0 < s) ∧ (st.2 = 0 → s = 0) := by
  refine ⟨_, C34_source_defined hp st, ?_⟩
  have hA := area_pos hp.pos
  have hd := hp.pos
  have hκ : 0 < rho0 / (2 * circleArea (0.5 * d) * d) := by unfold rho0; positivity
  have e : -rho0 / (2 * circleArea (0.5 * d) * d) * force d k st.2 / st.1 =
      -(rho0 / (2 * circleArea (0.5 * d) * d) * (force d k st.2 / st.1)) := by ring
  rw [e]
  refine ⟨fun hq => ?_, fun hq => ?_, fun hq => ?_⟩
  · have := force_pos hp hq
    rw [neg_lt_zero]; positivity
  · have := force_pos hp (neg_pos.mpr hq)
    rw [force_odd] at this
    rw [neg_pos]
    exact mul_neg_of_pos_of_neg hκ (div_neg_of_neg_of_pos (by linarith) h)
  · have : force d k 0 = 0 := by
      have := force_odd d k 0
      rw [neg_zero] at this; linarith
    rw [hq, this]; simp

/-! ## Stationary states -/

/-- Specification: the gas is slower than sound. Its velocity is flow times normal density divided by density and
area, the square of the speed of sound is the derivative of the pressure by the density. -/
def Subsonic (d : ℝ) (st : ℝ × ℝ) : Prop := (rho0 * st.2 / (st.1 * circleArea (0.5 * d))) ^ 2 < dp st.1

theorem alpha_neg : alpha < 0 := by unfold alpha pcrit Tcrit T bar; norm_num

theorem cVac_pos : 0 < cVac := by unfold cVac p0 T z0 T0 rho0 bar; norm_num

/-- Among subsonic states with the same flow the momentum flux grows with the density. -/
theorem momentum_lt {d : ℝ} (hd : 0 < d) {q x y : ℝ} (hx : 0 < x) (hy : 0 < y) (sx : Subsonic d (x, q))
    (sy : Subsonic d (y, q)) (hxy : x < y) : (flux d (x, q)).2 < (flux d (y, q)).2 := by
  have hA := area_pos hd
  have hα := alpha_neg
  have hc := cVac_pos
  have hρ : 0 < rho0 := by unfold rho0; norm_num
  unfold Subsonic dp at sx sy
  simp only [flux, p] at *
  set A := circleArea (0.5 * d)
  set β := -(alpha * cVac) with hβ
  have hβ' : 0 < β := by rw [hβ, neg_pos]; exact mul_neg_of_neg_of_pos hα hc
  have dx : 1 - alpha * cVac * x = 1 + β * x := by rw [hβ]; ring
  have dy : 1 - alpha * cVac * y = 1 + β * y := by rw [hβ]; ring
  rw [dx] at sx ⊢
  rw [dy] at sy ⊢
  have px : 0 < 1 + β * x := by positivity
  have py : 0 < 1 + β * y := by positivity
  have key : rho0 ^ 2 * q ^ 2 / (x * y * A ^ 2) < cVac / ((1 + β * x) * (1 + β * y)) := by
    refine lt_of_pow_lt_pow_left₀ 2 (by positivity) ?_
    have e1 : (rho0 ^ 2 * q ^ 2 / (x * y * A ^ 2)) ^ 2 = (rho0 * q / (x * A)) ^ 2 * (rho0 * q / (y * A)) ^ 2 := by
      field_simp
    have e2 : (cVac / ((1 + β * x) * (1 + β * y))) ^ 2 =
        cVac / ((1 + β * x) * (1 + β * x)) * (cVac / ((1 + β * y) * (1 + β * y))) := by
      field_simp
    rw [e1, e2]
    exact mul_lt_mul'' sx sy (sq_nonneg _) (sq_nonneg _)
  have e : A / rho0 * (cVac * y / (1 + β * y)) + rho0 / A * q * q / y -
      (A / rho0 * (cVac * x / (1 + β * x)) + rho0 / A * q * q / x) =
      (y - x) * (A / rho0) * (cVac / ((1 + β * x) * (1 + β * y)) - rho0 ^ 2 * q ^ 2 / (x * y * A ^ 2)) := by
    field_simp
    ring
  rw [← sub_pos, e]
  have : 0 < y - x := by linarith
  have : 0 < cVac / ((1 + β * x) * (1 + β * y)) - rho0 ^ 2 * q ^ 2 / (x * y * A ^ 2) := by linarith
  positivity

/-- Pressure grows with density. -/
theorem p_lt {x y : ℝ} (hx : 0 < x) (hxy : x < y) : p x < p y := by
  have hα := alpha_neg
  have hc := cVac_pos
  have h1 : alpha * cVac < 0 := mul_neg_of_neg_of_pos hα hc
  unfold p
  rw [div_lt_div_iff₀ (by nlinarith) (by nlinarith)]
  nlinarith

/-- C135. One cell of a pipe in a stationary state, where the gas is slower than sound at both ends: the flow is the
same at both ends, and the pressure falls in the direction of the flow. Without flow it is the same at both
ends. -/
theorem C135_cell {d k : ℝ} (hp : RealPipe d k) {t0 t1 dx : ℝ} (ht : t0 < t1) (hdx : 0 < dx) {l r : ℝ × ℝ}
    (hl : 0 < l.1) (hr : 0 < r.1) (sl : Subsonic d l) (sr : Subsonic d r)
    (h : evaluatePoint (eulerLaw d k) t0 t1 dx l r l r = Res.ok 0) :
    l.2 = r.2 ∧ (0 < l.2 → p r.1 < p l.1) ∧ (l.2 < 0 → p l.1 < p r.1) ∧ (l.2 = 0 → p l.1 = p r.1) := by
  obtain ⟨s, hs, s1, s2, s3⟩ := C135_friction hp l hl
  obtain ⟨s', hs', s1', s2', s3'⟩ := C135_friction hp r hr
  have hA := area_pos hp.pos
  have hρ : 0 < rho0 := by unfold rho0; norm_num
  have hdt : 0 < t1 - t0 := by linarith
  unfold evaluatePoint at h
  simp only [eulerLaw] at h
  rw [hs, hs'] at h
  simp only [Res.ok_bind, Res.ok.injEq] at h
  have h1 := congrArg Prod.fst h
  have h2 := congrArg Prod.snd h
  simp only [Prod.fst_sub, Prod.snd_sub, Prod.smul_fst, Prod.smul_snd, Prod.fst_add, Prod.snd_add, Prod.fst_zero,
    Prod.snd_zero, smul_eq_mul] at h1 h2
  have hq : l.2 = r.2 := by
    have e : (t1 - t0) / dx * (rho0 / circleArea (0.5 * d)) * (l.2 - r.2) = 0 := by
      simp only [flux] at h1; linarith
    rcases mul_eq_zero.mp e with e | e
    · exact absurd e (by positivity)
    · linarith
  have hm : (flux d r).2 - (flux d l).2 = dx / 2 * (s + s') := by
    have e : (t1 - t0) / dx * ((flux d r).2 - (flux d l).2 - dx / 2 * (s + s')) = 0 := by
      have : (t1 - t0) / dx * (dx / 2 * (s + s')) = 0.5 * (t1 - t0) * (s + s') := by field_simp; norm_num; ring
      rw [mul_sub, this]; linarith
    rcases mul_eq_zero.mp e with e | e
    · exact absurd e (by positivity)
    · linarith
  have hl' : l = (l.1, r.2) := by rw [← hq]
  have mono : ∀ {x y : ℝ}, 0 < x → 0 < y → Subsonic d (x, r.2) → Subsonic d (y, r.2) → 
      (flux d (x, r.2)).2 < (flux d (y, r.2)).2 → p x < p y := by
    intro x y hx hy sx sy hf
    refine p_lt hx ?_
    rcases lt_trichotomy x y with h | h | h
    · exact h
    · subst h; exact absurd hf (lt_irrefl _)
    · exact absurd (momentum_lt hp.pos hy hx sy sx h) (not_lt.mpr hf.le)
  rw [hl'] at sl
  rw [hl'] at hm
  refine ⟨hq, fun h0 => ?_, fun h0 => ?_, fun h0 => ?_⟩
  · refine mono hr hl sr sl ?_
    have : dx / 2 * (s + s') < 0 := mul_neg_of_pos_of_neg (by linarith) (by linarith [s1 h0, s1' (hq ▸ h0)])
    show (flux d r).2 < _
    linarith
  · refine mono hl hr sl sr ?_
    have : 0 < dx / 2 * (s + s') := mul_pos (by linarith) (by linarith [s2 h0, s2' (hq ▸ h0)])
    show _ < (flux d r).2
    linarith
  · rw [s3 h0, s3' (hq ▸ h0)] at hm
    have e : (flux d r).2 = (flux d (l.1, r.2)).2 := by linarith
    rw [hq] at h0
    simp only [flux, h0] at e
    have hk : circleArea (0.5 * d) / rho0 ≠ 0 := by positivity
    have : circleArea (0.5 * d) / rho0 * p r.1 = circleArea (0.5 * d) / rho0 * p l.1 := by simpa using e
    exact (mul_left_cancel₀ hk this).symm

/-- C135. A whole pipe in a stationary state, where the gas is slower than sound everywhere: the flow is the same at
all points, and the pressure falls strictly from point to point in the direction of the flow. Without flow it
is the same at all points. -/
theorem C135_pipe {d k : ℝ} (hp : RealPipe d k) {t0 t1 dx : ℝ} (ht : t0 < t1) (hdx : 0 < dx) (N : ℕ)
    (u : ℕ → ℝ × ℝ) (hpos : ∀ i ≤ N, 0 < (u i).1) (hsub : ∀ i ≤ N, Subsonic d (u i))
    (h : ∀ i < N, evaluatePoint (eulerLaw d k) t0 t1 dx (u i) (u (i + 1)) (u i) (u (i + 1)) = Res.ok 0) :
    ∀ i j, i < j → j ≤ N → (u i).2 = (u j).2 ∧ (0 < (u i).2 → p (u j).1 < p (u i).1) ∧
      ((u i).2 < 0 → p (u i).1 < p (u j).1) ∧ ((u i).2 = 0 → p (u i).1 = p (u j).1) := by
  intro i j hij
  induction j, hij using Nat.le_induction with
  | base =>
    intro hj
    exact C135_cell hp ht hdx (hpos i (by omega)) (hpos _ hj) (hsub i (by omega)) (hsub _ hj) (h i (by omega))
  | succ j hij ih =>
    intro hj
    obtain ⟨a1, a2, a3, a4⟩ := ih (by omega)
    obtain ⟨b1, b2, b3, b4⟩ := C135_cell hp ht hdx (hpos j (by omega)) (hpos _ hj) (hsub j (by omega)) (hsub _ hj)
      (h j (by omega))
    refine ⟨a1.trans b1, fun h0 => ?_, fun h0 => ?_, fun h0 => ?_⟩
    · exact (b2 (a1 ▸ h0)).trans (a2 h0)
    · exact (a3 h0).trans (b3 (a1 ▸ h0))
    · exact (a4 h0).trans (b4 (a1 ▸ h0))

/-- For any two densities and any flow slower than sound there is a width of the cell for which this is a stationary
state. -/
theorem exists_width {d k : ℝ} (hp : RealPipe d k) {x y q : ℝ} (hx : 0 < x) (hxy : x < y) (hq : 0 < q)
    (sx : Subsonic d (x, q)) (sy : Subsonic d (y, q)) :
    ∃ dx, 0 < dx ∧ ∀ t0 t1, evaluatePoint (eulerLaw d k) t0 t1 dx (y, q) (x, q) (y, q) (x, q) = Res.ok 0 := by
  obtain ⟨s, hs, s1, -⟩ := C135_friction hp (y, q) (hx.trans hxy)
  obtain ⟨s', hs', s1', -⟩ := C135_friction hp (x, q) hx
  have hm := momentum_lt hp.pos hx (hx.trans hxy) sx sy hxy
  have hsum : s + s' < 0 := by linarith [s1 hq, s1' hq]
  have hpos : 0 < ((flux d (x, q)).2 - (flux d (y, q)).2) * 2 / (s + s') :=
    div_pos_of_neg_of_neg (by linarith) hsum
  refine ⟨_, hpos, fun t0 t1 => ?_⟩
  unfold evaluatePoint
  simp only [eulerLaw]
  rw [hs, hs']
  simp only [Res.ok_bind, Res.ok.injEq]
  have hne : (flux d (x, q)).2 - (flux d (y, q)).2 ≠ 0 := by linarith
  have hne' : s + s' ≠ 0 := by linarith
  refine Prod.ext ?_ ?_
  · have e : (flux d (y, q)).1 - (flux d (x, q)).1 = 0 := sub_self _
    simp [e]
  · have e : (t1 - t0) / (((flux d (x, q)).2 - (flux d (y, q)).2) * 2 / (s + s')) *
        ((flux d (y, q)).2 - (flux d (x, q)).2) = -(0.5 * (t1 - t0) * (s' + s)) := by
      field_simp; ring
    simp [e]

theorem subsonic_small {x : ℝ} (hx : 1 ≤ x) (hx2 : x ≤ 2) : Subsonic 1 (x, 1 / 1000) := by
  unfold Subsonic dp
  have h1 : (rho0 * (1 / 1000) / (x * circleArea (0.5 * 1))) ^ 2 ≤ 1 := by
    have : 0 ≤ rho0 * (1 / 1000) / (x * circleArea (0.5 * 1)) := by
      have := area_pos (d := 1) one_pos
      unfold rho0; positivity
    refine pow_le_one₀ this ?_
    rw [div_le_one (by have := area_pos (d := 1) one_pos; positivity)]
    unfold rho0 circleArea Pi
    nlinarith
  refine lt_of_le_of_lt h1 ?_
  have hα := alpha_neg
  have hc := cVac_pos
  have hD : 0 < 1 - alpha * cVac * x := by nlinarith [mul_neg_of_neg_of_pos hα hc]
  rw [lt_div_iff₀ (by positivity), one_mul]
  have hu : 1 - alpha * cVac * x ≤ 2 := by
    unfold alpha cVac pcrit Tcrit p0 T z0 T0 rho0 bar
    norm_num
    linarith
  have : (1 - alpha * cVac * x) * (1 - alpha * cVac * x) ≤ 4 := by nlinarith
  have : 4 < cVac := by unfold cVac p0 T z0 T0 rho0 bar; norm_num
  linarith

/-- A cell with flow from density 2 to density 1 meets the hypotheses of `C135_cell`. -/
example : ∃ dx, 0 < dx ∧ Subsonic 1 (2, 1 / 1000) ∧ Subsonic 1 (1, 1 / 1000) ∧
    evaluatePoint (eulerLaw 1 0) 0 60 dx (2, 1 / 1000) (1, 1 / 1000) (2, 1 / 1000) (1, 1 / 1000) = Res.ok 0 := by
  obtain ⟨dx, h0, h⟩ := exists_width (d := 1) (k := 0) (by constructor <;> norm_num) one_pos (y := 2) (by norm_num)
    (by norm_num : (0 : ℝ) < 1 / 1000) (subsonic_small le_rfl (by norm_num)) (subsonic_small (by norm_num) le_rfl)
  exact ⟨dx, h0, subsonic_small (by norm_num) le_rfl, subsonic_small le_rfl (by norm_num), h 0 60⟩

end Verif.Box
