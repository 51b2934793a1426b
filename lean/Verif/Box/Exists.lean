import Verif.Box.Unique

/-!
# Property C171: a pipe has a stationary state for every delivery

For a flow and a pressure at the end to which the gas flows there is exactly one stationary state of the pipe that is slower than sound, as long as the pressure at the other end
stays below the largest pressure of the gas law. For longer pipes the equations have no stationary state.
-/

set_option autoImplicit false

namespace Verif.Box

open Verif.Euler Verif.SmoothAbs

/-! ## Specification -/

/-- The pressure that the gas law does not reach for any density. -/
noncomputable def limitPressure : ℝ := -1 / alpha

/-- Delivery with pressure, momentum and the friction over the whole pipe (as large everywhere as where the gas leaves) below the largest pressure. -/
def Deliverable (d k length : ℝ) (st : ℝ × ℝ) : Prop :=
  ∀ s, Euler.source d k st = Res.ok (0, s) →
    p st.1 + st.1 * (rho0 * st.2 / (st.1 * circleArea (0.5 * d))) ^ 2 + rho0 / circleArea (0.5 * d) * (length * |s|) < limitPressure

/-- C171: for every delivery slower than sound there is a stationary state. -/
def C171Statement : Prop :=
  ∀ d k, RealPipe d k → ∀ dx, 0 < dx → ∀ (N : ℕ) (x q : ℝ), 0 < x → 0 ≤ q → Subsonic d (x, q) →
    ∃ u, Stationary d k dx N u ∧ u N = (x, q)

/-! ## The limit -/

theorem beta_pos : 0 < -(alpha * cVac) := beta_range.1

theorem limit_eq : limitPressure = cVac / -(alpha * cVac) := by
  have hc := cVac_pos
  have ha := alpha_neg
  unfold limitPressure
  have : alpha ≠ 0 := ha.ne
  field_simp

theorem limit_pos : 0 < limitPressure := by
  rw [limit_eq]
  exact div_pos cVac_pos beta_pos

theorem p_limit {x : ℝ} (hx : 0 < x) : p x = limitPressure - limitPressure / (1 - alpha * cVac * x) := by
  have hb := beta_pos
  have hc := cVac_pos
  have h1 : 0 < 1 - alpha * cVac * x := by nlinarith [mul_pos hb hx]
  have ha : alpha ≠ 0 := alpha_neg.ne
  unfold p limitPressure
  rw [eq_sub_iff_add_eq, ← add_div, div_eq_iff h1.ne']
  field_simp
  ring

theorem p_lt_limit {x : ℝ} (hx : 0 < x) : p x < limitPressure := by
  rw [p_limit hx]
  have hb := beta_pos
  have h1 : 0 < 1 - alpha * cVac * x := by nlinarith [mul_pos hb hx]
  have := div_pos limit_pos h1
  linarith

theorem p_continuousOn {y : ℝ} (hy : 0 < y) (L : ℝ) : ContinuousOn p (Set.Icc y L) := by
  unfold p
  refine ContinuousOn.div (by fun_prop) (by fun_prop) ?_
  intro x hx
  have hb := beta_pos
  have : 0 < x := lt_of_lt_of_le hy hx.1
  nlinarith [mul_pos hb this]

/-! ## One cell -/

/-- Where a cell gets its gas. -/
theorem exists_left {a B F y : ℝ} (hF : 0 ≤ F) (hy : 0 < y)
    (h : a * p y + (B + F) / y < a * limitPressure) (hB : 0 ≤ B) :
    ∃ x, y ≤ x ∧ a * p y + (B + F) / y = a * p x + (B - F) / x := by
  set R := a * p y + (B + F) / y with hR
  set δ := a * limitPressure - R with hδ
  have hδ0 : 0 < δ := by linarith
  have hb := beta_pos
  have hm := limit_pos
  set β := -(alpha * cVac) with hβ
  set L := max y (max (2 * (a * limitPressure) / (δ * β)) (2 * F / δ)) with hL
  have h1 : y ≤ L := le_max_left _ _
  have h2 : 2 * (a * limitPressure) / (δ * β) ≤ L := (le_max_left _ _).trans (le_max_right _ _)
  have h3 : 2 * F / δ ≤ L := (le_max_right _ _).trans (le_max_right _ _)
  have hL0 : 0 < L := lt_of_lt_of_le hy h1
  have hcont : ContinuousOn (fun x => a * p x + (B - F) / x) (Set.Icc y L) := by
    refine ContinuousOn.add (continuousOn_const.mul (p_continuousOn hy L)) (ContinuousOn.div continuousOn_const continuousOn_id ?_)
    intro x hx
    exact (lt_of_lt_of_le hy hx.1).ne'
  have e0 : a * p y + (B - F) / y ≤ R := by
    rw [hR]
    have : (B - F) / y ≤ (B + F) / y := div_le_div_of_nonneg_right (by linarith) hy.le
    linarith
  have e1 : R ≤ a * p L + (B - F) / L := by
    have d1 : a * (limitPressure / (1 - alpha * cVac * L)) ≤ δ / 2 := by
      have hden : 0 < 1 - alpha * cVac * L := by nlinarith [mul_pos hb hL0]
      rw [← mul_div_assoc, div_le_iff₀ hden]
      rw [div_le_iff₀ (by positivity)] at h2
      nlinarith
    have d2 : F / L ≤ δ / 2 := by
      rw [div_le_iff₀ hL0]
      rw [div_le_iff₀ hδ0] at h3
      linarith
    have d3 : 0 ≤ B / L := by positivity
    rw [p_limit hL0, sub_div, mul_sub]
    linarith
  obtain ⟨x, hx, hx'⟩ := intermediate_value_Icc h1 hcont ⟨e0, e1⟩
  exact ⟨x, hx.1, hx'.symm⟩

/-- Denser gas with the same flow is slower. -/
theorem subsonic_mono {d : ℝ} (hd : 0 < d) {x y q : ℝ} (hy : 0 < y) (hxy : y ≤ x) (h : Subsonic d (y, q)) : Subsonic d (x, q) := by
  have hx : 0 < x := lt_of_lt_of_le hy hxy
  rw [subsonic_iff hd hy] at h
  rw [subsonic_iff hd hx]
  have hb := beta_pos
  have ha := ratio_pos hd
  have hA := area_pos hd
  have hρ : 0 < rho0 := by unfold rho0; norm_num
  set β := -(alpha * cVac) with hβ
  set B := rho0 / circleArea (0.5 * d) * q * q with hB
  have hB0 : 0 ≤ B := by
    rw [hB, mul_assoc]
    exact mul_nonneg (by positivity) (mul_self_nonneg q)
  have form : ∀ z, 0 < z → (B / z ^ 2 < circleArea (0.5 * d) / rho0 * dp z ↔ B * (1 / z + β) ^ 2 < circleArea (0.5 * d) / rho0 * cVac) := by
    intro z hz
    have e : dp z = cVac / (1 + β * z) ^ 2 := by
      unfold dp
      rw [show 1 - alpha * cVac * z = 1 + β * z by rw [hβ]; ring]
      ring
    have hz' : 0 < 1 + β * z := by positivity
    rw [e, ← mul_div_assoc, div_lt_div_iff₀ (by positivity) (by positivity),
      show (1 / z + β) ^ 2 = (1 + β * z) ^ 2 / z ^ 2 by field_simp, ← mul_div_assoc, div_lt_iff₀ (by positivity)]
  rw [form y hy] at h
  rw [form x hx]
  refine lt_of_le_of_lt (mul_le_mul_of_nonneg_left ?_ hB0) h
  have : 1 / x ≤ 1 / y := one_div_le_one_div_of_le hy hxy
  have : 0 < 1 / x := by positivity
  exact pow_le_pow_left₀ (by positivity) (by linarith) 2

/-! ## The whole pipe -/

theorem deliverable_iff {d k length : ℝ} (hp : RealPipe d k) {x q : ℝ} (hx : 0 < x) (hq : 0 ≤ q) : Deliverable d k length (x, q) ↔
    circleArea (0.5 * d) / rho0 * p x + rho0 / circleArea (0.5 * d) * q * q / x + length * (fric d k q / x) <
      circleArea (0.5 * d) / rho0 * limitPressure := by
  have hA := area_pos hp.pos
  have hρ : 0 < rho0 := by unfold rho0; norm_num
  have h : Deliverable d k length (x, q) ↔ p x + x * (rho0 * q / (x * circleArea (0.5 * d))) ^ 2 +
      rho0 / circleArea (0.5 * d) * (length * |-(fric d k q / x)|) < limitPressure := by
    unfold Deliverable
    rw [source_eq hp]
    exact ⟨fun h => h _ rfl, fun h s hs => by injection hs with hs; injection hs with _ hs; rw [← hs]; exact h⟩
  have e : circleArea (0.5 * d) / rho0 * p x + rho0 / circleArea (0.5 * d) * q * q / x + length * (fric d k q / x) =
      circleArea (0.5 * d) / rho0 * (p x + x * (rho0 * q / (x * circleArea (0.5 * d))) ^ 2 +
      rho0 / circleArea (0.5 * d) * (length * |-(fric d k q / x)|)) := by
    rw [abs_neg, abs_of_nonneg (div_nonneg (fric_nonneg hp hq) hx.le)]
    field_simp
  rw [h, e]
  exact (mul_lt_mul_iff_right₀ (ratio_pos hp.pos)).symm

/-- The densities from the delivery upwards. -/
theorem exists_densities {a B F y : ℝ} (hB : 0 ≤ B) (hF : 0 ≤ F) (hy : 0 < y) : ∀ N : ℕ,
    a * p y + B / y + N * (2 * F / y) < a * limitPressure →
    ∃ x : ℕ → ℝ, x 0 = y ∧ (∀ j ≤ N, y ≤ x j) ∧ (∀ j < N, x j ≤ x (j + 1)) ∧
      (∀ j < N, a * p (x j) + (B + F) / x j = a * p (x (j + 1)) + (B - F) / x (j + 1)) ∧
      a * p (x N) + B / x N ≤ a * p y + B / y + N * (2 * F / y) := by
  intro N
  induction N with
  | zero => exact fun _ => ⟨fun _ => y, rfl, fun _ _ => le_rfl, fun j hj => by omega, fun j hj => by omega, by simp⟩
  | succ N ih =>
    intro h
    push_cast at h ⊢
    have hF' : 0 ≤ 2 * F / y := by positivity
    obtain ⟨x, h0, h1, h2, h3, h4⟩ := ih (by linarith)
    have hN := h1 N le_rfl
    have hx0 : 0 < x N := lt_of_lt_of_le hy hN
    have hFN : F / x N ≤ F / y := div_le_div_of_nonneg_left hF hy hN
    have e2 : 2 * F / y = F / y + F / y := by ring
    have hFy : 0 ≤ F / y := by positivity
    obtain ⟨z, hz, ez⟩ := exists_left (a := a) hF hx0 (B := B) (by rw [add_div]; linarith) hB
    have hz0 : 0 < z := lt_of_lt_of_le hx0 hz
    have hFz : F / z ≤ F / y := div_le_div_of_nonneg_left hF hy (hN.trans hz)
    refine ⟨fun j => if j ≤ N then x j else z, by simp [h0], ?_, ?_, ?_, ?_⟩
    · intro j _
      beta_reduce
      split
      · next hj => exact h1 j hj
      · exact hN.trans hz
    · intro j hj
      beta_reduce
      rw [if_pos (by omega : j ≤ N)]
      split
      · exact h2 j (by omega)
      · obtain rfl : j = N := by omega
        exact hz
    · intro j hj
      beta_reduce
      rw [if_pos (by omega : j ≤ N)]
      split
      · exact h3 j (by omega)
      · obtain rfl : j = N := by omega
        exact ez
    · beta_reduce
      rw [if_neg (by omega : ¬ N + 1 ≤ N)]
      rw [add_div, sub_div] at ez
      linarith

/-- **C171**, the part that holds: for every flow and every pressure at the end to which the gas flows, with the gas slower than sound there and not too much friction in the
whole pipe, there is exactly one stationary state which is slower than sound at every point. The pressure does not rise in the direction of the flow. What is missing: pipes with more friction, see
`C171_false`. -/
theorem C171_partial {d k : ℝ} (hp : RealPipe d k) {dx : ℝ} (hdx : 0 < dx) {N : ℕ} {x q : ℝ} (hx : 0 < x) (hq : 0 ≤ q) (hs : Subsonic d (x, q))
    (hd : Deliverable d k (N * dx) (x, q)) :
    ∃ u, Stationary d k dx N u ∧ (∀ i ≤ N, Subsonic d (u i)) ∧ u N = (x, q) ∧ (∀ i < N, p (u (i + 1)).1 ≤ p (u i).1) ∧
      ∀ v, Stationary d k dx N v → (∀ i ≤ N, Subsonic d (v i)) → v N = (x, q) → ∀ i ≤ N, v i = u i := by
  have hA := area_pos hp.pos
  have hρ : 0 < rho0 := by unfold rho0; norm_num
  have hf := fric_nonneg hp hq
  rw [deliverable_iff hp hx hq] at hd
  have hB : 0 ≤ rho0 / circleArea (0.5 * d) * q * q := by
    rw [mul_assoc]
    exact mul_nonneg (by positivity) (mul_self_nonneg q)
  obtain ⟨w, h0, h1, h2, h3, -⟩ := exists_densities (a := circleArea (0.5 * d) / rho0) hB (F := dx / 2 * fric d k q) (by positivity) hx N (by
    rw [show (N : ℝ) * (2 * (dx / 2 * fric d k q) / x) = N * dx * (fric d k q / x) by ring]
    exact hd)
  have pos : ∀ j ≤ N, 0 < w j := fun j hj => lt_of_lt_of_le hx (h1 j hj)
  have st : Stationary d k dx N fun i => (w (N - i), q) := by
    refine ⟨fun i _ => pos _ (Nat.sub_le _ _), fun i hi t0 t1 ht => cell_of hp hdx ?_ t0 t1 ht⟩
    have e : N - i = N - (i + 1) + 1 := by omega
    rw [e]
    exact h3 (N - (i + 1)) (by omega)
  have sub : ∀ i ≤ N, Subsonic d ((fun i => (w (N - i), q)) i) := fun i _ => subsonic_mono hp.pos hx (h1 _ (Nat.sub_le _ _)) hs
  refine ⟨fun i => (w (N - i), q), st, sub, by simp [h0], ?_, ?_⟩
  · intro i hi
    have e : N - i = N - (i + 1) + 1 := by omega
    have h := h2 (N - (i + 1)) (by omega)
    beta_reduce
    rw [e]
    rcases h.eq_or_lt with h | h
    · rw [← h]
    · exact (p_lt (pos _ (Nat.sub_le _ _)) h).le
  · intro v hv sv ev i hi
    refine ((C165 hp hdx hv st sv sub).1 ?_ ?_ ?_ i hi)
    · rw [ev]; exact hq
    · rw [ev]
    · rw [ev]; simp [h0]

/-- The mirror image of a stationary state. -/
theorem Stationary.mirror {d k : ℝ} (hp : RealPipe d k) {dx : ℝ} (hdx : 0 < dx) {N : ℕ} {u : ℕ → ℝ × ℝ} (h : Stationary d k dx N u) :
    Stationary d k dx N fun i => ((u (N - i)).1, -(u (N - i)).2) := by
  refine ⟨fun i _ => h.pos _ (Nat.sub_le _ _), fun i hi t0 t1 ht => ?_⟩
  have h1 := h.solves (N - (i + 1)) (by omega) t0 t1 ht
  have e : N - (i + 1) + 1 = N - i := by omega
  rw [e, cell_iff hp ht hdx] at h1
  rw [cell_iff hp ht hdx]
  simp only [flux, fric_neg] at h1 ⊢
  refine ⟨by rw [h1.1], ?_⟩
  have := h1.2
  simp only [neg_div, mul_neg, neg_mul, neg_neg]
  linarith

theorem deliverable_neg {d k length : ℝ} (hp : RealPipe d k) {x q : ℝ} (h : Deliverable d k length (x, q)) : Deliverable d k length (x, -q) := by
  unfold Deliverable at h ⊢
  rw [source_eq hp] at h ⊢
  intro s hs
  injection hs with hs
  injection hs with _ hs
  have h := h _ rfl
  rw [← hs]
  simp only at h ⊢
  rw [fric_neg, neg_div, neg_neg]
  rw [abs_neg] at h
  rw [show (rho0 * -q / (x * circleArea (0.5 * d))) ^ 2 = (rho0 * q / (x * circleArea (0.5 * d))) ^ 2 by ring]
  exact h

theorem subsonic_neg {d x q : ℝ} (h : Subsonic d (x, q)) : Subsonic d (x, -q) := by
  unfold Subsonic at h ⊢
  simp only at h ⊢
  rw [show (rho0 * -q / (x * circleArea (0.5 * d))) ^ 2 = (rho0 * q / (x * circleArea (0.5 * d))) ^ 2 by ring]
  exact h

/-- **C171** for gas that flows to the left. -/
theorem C171_left_partial {d k : ℝ} (hp : RealPipe d k) {dx : ℝ} (hdx : 0 < dx) {N : ℕ} {x q : ℝ} (hx : 0 < x) (hq : q ≤ 0) (hs : Subsonic d (x, q))
    (hd : Deliverable d k (N * dx) (x, q)) :
    ∃ u, Stationary d k dx N u ∧ (∀ i ≤ N, Subsonic d (u i)) ∧ u 0 = (x, q) ∧ (∀ i < N, p (u i).1 ≤ p (u (i + 1)).1) ∧
      ∀ v, Stationary d k dx N v → (∀ i ≤ N, Subsonic d (v i)) → v 0 = (x, q) → ∀ i ≤ N, v i = u i := by
  obtain ⟨u, h1, h2, h3, h4, -⟩ := C171_partial hp hdx (N := N) hx (q := -q) (by linarith) (subsonic_neg hs) (deliverable_neg hp hd)
  have st := h1.mirror hp hdx
  have sub : ∀ i ≤ N, Subsonic d ((fun i => ((u (N - i)).1, -(u (N - i)).2)) i) := fun i _ => subsonic_neg (h2 (N - i) (Nat.sub_le _ _))
  refine ⟨_, st, sub, by simp [h3], ?_, ?_⟩
  · intro i hi
    have h := h4 (N - (i + 1)) (by omega)
    rw [show N - (i + 1) + 1 = N - i by omega] at h
    exact h
  · intro v hv sv ev i hi
    refine ((C165 hp hdx hv st sv sub).2 ?_ ?_ ?_ i hi)
    · rw [ev]; exact hq
    · rw [ev]; simp [h3]
    · rw [ev]; simp [h3]

/-- A delivery with density 1 from a pipe of ten cells meets the hypotheses of `C171_partial`, if the cells are short. -/
example : ∃ dx, 0 < dx ∧ Subsonic 1 ((1 : ℝ), (1 / 1000 : ℝ)) ∧ Deliverable 1 0 (((10 : ℕ) : ℝ) * dx) (1, 1 / 1000) ∧ 0 < fric 1 0 (1 / 1000) := by
  have hp : RealPipe 1 0 := by constructor <;> norm_num
  have hq : (0 : ℝ) < 1 / 1000 := by norm_num
  have hf := fric_pos hp hq
  have hA := area_pos (d := 1) one_pos
  have hρ : 0 < rho0 := by unfold rho0; norm_num
  have ha := ratio_pos (d := 1) one_pos
  have hs : Subsonic 1 ((1 : ℝ), (1 / 1000 : ℝ)) := subsonic_small le_rfl (by norm_num)
  have hs' := (subsonic_iff one_pos one_pos).mp hs
  -- the square of the velocity is below the derivative of the pressure, which is below the limit minus the pressure
  have hb := beta_range
  have hc := cVac_pos
  have key : circleArea (0.5 * 1) / rho0 * p 1 + rho0 / circleArea (0.5 * 1) * (1 / 1000) * (1 / 1000) / 1 <
      circleArea (0.5 * 1) / rho0 * limitPressure := by
    have e : dp 1 < limitPressure - p 1 := by
      rw [p_limit one_pos, limit_eq]
      unfold dp
      set β := -(alpha * cVac) with hβ
      rw [show 1 - alpha * cVac * 1 = 1 + β by rw [hβ]; ring]
      have : 0 < 1 + β := by linarith
      rw [sub_sub_cancel, div_div, div_lt_div_iff_of_pos_left hc (by nlinarith) (by nlinarith)]
      nlinarith
    have := mul_lt_mul_of_pos_left e ha
    rw [one_pow] at hs'
    linarith
  set δ := circleArea (0.5 * 1) / rho0 * limitPressure - (circleArea (0.5 * 1) / rho0 * p 1 + rho0 / circleArea (0.5 * 1) * (1 / 1000) * (1 / 1000) / 1) with hδ
  have hδ0 : 0 < δ := by linarith
  refine ⟨δ / (20 * fric 1 0 (1 / 1000)), by positivity, hs, ?_, hf⟩
  rw [deliverable_iff hp one_pos hq.le]
  have : ((10 : ℕ) : ℝ) * (δ / (20 * fric 1 0 (1 / 1000))) * (fric 1 0 (1 / 1000) / 1) = δ / 2 := by
    push_cast
    field_simp
    norm_num
  rw [this]
  linarith

/-- **C171** is false: in a long cell the equations have no stationary state with a given delivery, as it would need a pressure that the gas law does not have. -/
theorem C171_false : ¬ C171Statement := by
  intro h
  have hp : RealPipe 1 0 := by constructor <;> norm_num
  have hq : (0 : ℝ) < 1 / 1000 := by norm_num
  have hA := area_pos (d := 1) one_pos
  have hρ : 0 < rho0 := by unfold rho0; norm_num
  have ha := ratio_pos (d := 1) one_pos
  have hm := limit_pos
  set B := rho0 / circleArea (0.5 * 1) * (1 / 1000) * (1 / 1000) with hB
  have hB0 : 0 < B := by positivity
  obtain ⟨dx, hdx, hE⟩ := exists_dx hp hq (E := B + circleArea (0.5 * 1) / rho0 * limitPressure) (by positivity)
  obtain ⟨u, hu, e⟩ := h 1 0 hp dx hdx 1 1 (1 / 1000) one_pos hq.le (subsonic_small le_rfl (by norm_num))
  obtain ⟨q, m⟩ := (cell_iff hp zero_lt_one hdx _ _).mp (hu.solves 0 one_pos 0 1 zero_lt_one)
  have hx := hu.pos 0 (Nat.zero_le _)
  rw [zero_add, e] at q m
  simp only at q
  simp only [flux] at m
  rw [q] at m
  have hpx := mul_lt_mul_of_pos_left (p_lt_limit hx) ha
  have hp1 : 0 < p 1 := by
    have hb := beta_range.1
    unfold p
    exact div_pos (by have := cVac_pos; linarith) (by linarith)
  have hp1' := mul_pos ha hp1
  set x := (u 0).1 with hxdef
  set f := fric 1 0 (1 / 1000) with hfdef
  have e1 : dx / 2 * (f / x + f / 1) = (dx / 2 * f) / x + dx / 2 * f := by ring
  rw [e1, hE] at m
  have e2 : 0 < circleArea (0.5 * 1) / rho0 * limitPressure / x := by positivity
  have e3 : rho0 / circleArea (0.5 * 1) * (1 / 1000) * (1 / 1000) / x = B / x := by rw [hB]
  have e4 : rho0 / circleArea (0.5 * 1) * (1 / 1000) * (1 / 1000) / 1 = B := by rw [hB]; ring
  rw [add_div] at m
  linarith

end Verif.Box
