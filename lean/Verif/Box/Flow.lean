import Verif.Box.Friction

/-!
# Property C174: the pressures at its ends determine the flow through a pipe

In stationary states that are slower than sound the flow through a pipe grows with the pressure at its left end and falls with the pressure at its right end.
-/

set_option autoImplicit false

namespace Verif.Box

open Verif.Euler Verif.SmoothAbs

theorem Slow.subsonic {d k dx : ℝ} (hp : RealPipe d k) (hdx : 0 < dx) {st : ℝ × ℝ} (hx : 0 < st.1) (h : Slow d k dx st) : Subsonic d st := by
  have hA := area_pos hp.pos
  have hρ : 0 < rho0 := by unfold rho0; norm_num
  have := h _ (source_eq hp st)
  unfold Subsonic
  have h0 : 0 ≤ rho0 / circleArea (0.5 * d) * (dx / 2 * |-(fric d k st.2 / st.1)|) / st.1 := by positivity
  linarith

theorem slow_neg {d k dx : ℝ} (hp : RealPipe d k) {x q : ℝ} (hx : 0 < x) (h : Slow d k dx (x, q)) : Slow d k dx (x, -q) := by
  rw [slow_iff' hp hx] at h ⊢
  rw [fric_neg, abs_neg]
  simpa using h

/-- Gas at rest is slow. -/
theorem slow_rest {d k dx : ℝ} (hp : RealPipe d k) {x : ℝ} (hx : 0 < x) : Slow d k dx (x, 0) := by
  rw [slow_iff' hp hx, fric_zero]
  have hb := beta_pos
  have h1 : 0 < 1 - alpha * cVac * x := by nlinarith [mul_pos hb hx]
  have : 0 < dp x := by
    unfold dp
    exact div_pos cVac_pos (mul_pos h1 h1)
  have := mul_pos (ratio_pos hp.pos) this
  simpa using this

/-- Gas at rest is stationary. -/
theorem stationary_rest {d k dx : ℝ} (hp : RealPipe d k) (hdx : 0 < dx) (N : ℕ) {x : ℝ} (hx : 0 < x) : Stationary d k dx N fun _ => (x, 0) := by
  refine ⟨fun _ _ => hx, fun i _ t0 t1 ht => ?_⟩
  rw [cell_iff hp ht hdx]
  simp [fric_zero]

/-- The pressure falls in the direction of the flow. -/
theorem falls {d k : ℝ} (hp : RealPipe d k) {dx : ℝ} (hdx : 0 < dx) {N : ℕ} (hN : 0 < N) {u : ℕ → ℝ × ℝ} (hu : Stationary d k dx N u)
    (su : ∀ i ≤ N, Slow d k dx (u i)) (hq : 0 < (u N).2) : p (u N).1 < p (u 0).1 :=
  (C173 hp hdx (stationary_rest hp hdx N (hu.pos N le_rfl)) hu (fun _ _ => slow_rest hp (hu.pos N le_rfl))
    (fun i hi => (su i hi).subsonic hp hdx (hu.pos i hi)) le_rfl hq.le le_rfl).2 (Or.inl hq) 0 hN

/-- The comparison for flows to the right. -/
theorem compare_right {d k : ℝ} (hp : RealPipe d k) {dx : ℝ} (hdx : 0 < dx) {N : ℕ} (hN : 0 < N) {u v : ℕ → ℝ × ℝ}
    (hu : Stationary d k dx N u) (hv : Stationary d k dx N v) (su : ∀ i ≤ N, Slow d k dx (u i)) (sv : ∀ i ≤ N, Slow d k dx (v i))
    (h0 : p (u 0).1 ≤ p (v 0).1) (h1 : p (v N).1 ≤ p (u N).1) (hq : 0 ≤ (v N).2) (hqq : (v N).2 ≤ (u N).2) :
    ¬ ((v N).2 < (u N).2 ∨ p (u 0).1 < p (v 0).1 ∨ p (v N).1 < p (u N).1) := by
  obtain ⟨c1, c2⟩ := C173 hp hdx hv hu sv (fun i hi => (su i hi).subsonic hp hdx (hu.pos i hi)) hq hqq h1
  rintro (h | h | h)
  · exact absurd (c2 (Or.inl h) 0 hN) (not_lt.mpr h0)
  · exact absurd (c1 0 (Nat.zero_le _)) (not_le.mpr h)
  · exact absurd (c2 (Or.inr h) 0 hN) (not_lt.mpr h0)

/-- The comparison. -/
theorem compare {d k : ℝ} (hp : RealPipe d k) {dx : ℝ} (hdx : 0 < dx) {N : ℕ} (hN : 0 < N) {u v : ℕ → ℝ × ℝ}
    (hu : Stationary d k dx N u) (hv : Stationary d k dx N v) (su : ∀ i ≤ N, Slow d k dx (u i)) (sv : ∀ i ≤ N, Slow d k dx (v i))
    (h0 : p (u 0).1 ≤ p (v 0).1) (h1 : p (v N).1 ≤ p (u N).1) (hqq : (v N).2 ≤ (u N).2) :
    ¬ ((v N).2 < (u N).2 ∨ p (u 0).1 < p (v 0).1 ∨ p (v N).1 < p (u N).1) := by
  have mir : ∀ {w : ℕ → ℝ × ℝ}, Stationary d k dx N w → (∀ i ≤ N, Slow d k dx (w i)) →
      ∀ i ≤ N, Slow d k dx ((w (N - i)).1, -(w (N - i)).2) :=
    fun hw sw i hi => slow_neg hp (hw.pos _ (Nat.sub_le _ _)) (sw _ (Nat.sub_le _ _))
  have fl : ∀ {w : ℕ → ℝ × ℝ}, Stationary d k dx N w → (w 0).2 = (w N).2 := fun hw => (hw.flow hp hdx N le_rfl).symm
  rcases le_or_gt 0 (v N).2 with hv0 | hv0
  · exact compare_right hp hdx hN hu hv su sv h0 h1 hv0 hqq
  · rcases le_or_gt (u N).2 0 with hu0 | hu0
    · have := compare_right hp hdx hN (hv.mirror hp hdx) (hu.mirror hp hdx) (mir hv sv) (mir hu su)
        (by simpa using h1) (by simpa using h0) (by simpa [fl hu] using hu0) (by simpa [fl hu, fl hv] using hqq)
      intro h
      apply this
      simp only [Nat.sub_self, Nat.sub_zero, fl hu, fl hv]
      rcases h with h | h | h
      · exact Or.inl (by linarith)
      · exact Or.inr (Or.inr h)
      · exact Or.inr (Or.inl h)
    · exfalso
      have a := falls hp hdx hN hu su hu0
      have b := falls hp hdx hN (hv.mirror hp hdx) (mir hv sv) (by simpa [fl hv] using hv0)
      simp only [Nat.sub_self, Nat.sub_zero] at b
      linarith

/-- **C174.** Two stationary states of a pipe with at least one cell, slower than sound with the friction over half a cell to spare. If the second has at least the pressure of the first
at the left end and at most its pressure at the right end, then it has at least its flow (to the right), and more flow if one of the pressures is different. If both states have the
same pressure at the left end and the same pressure at the right end, then they are the same at every point. -/
theorem C174 {d k : ℝ} (hp : RealPipe d k) {dx : ℝ} (hdx : 0 < dx) {N : ℕ} (hN : 0 < N) {u v : ℕ → ℝ × ℝ}
    (hu : Stationary d k dx N u) (hv : Stationary d k dx N v) (su : ∀ i ≤ N, Slow d k dx (u i)) (sv : ∀ i ≤ N, Slow d k dx (v i)) :
    (p (u 0).1 ≤ p (v 0).1 → p (v N).1 ≤ p (u N).1 → (u 0).2 ≤ (v 0).2 ∧
      (p (u 0).1 < p (v 0).1 ∨ p (v N).1 < p (u N).1 → (u 0).2 < (v 0).2)) ∧
    (p (u 0).1 = p (v 0).1 → p (u N).1 = p (v N).1 → ∀ i ≤ N, u i = v i) := by
  have main : ∀ {u v : ℕ → ℝ × ℝ}, Stationary d k dx N u → Stationary d k dx N v → (∀ i ≤ N, Slow d k dx (u i)) → (∀ i ≤ N, Slow d k dx (v i)) →
      p (u 0).1 ≤ p (v 0).1 → p (v N).1 ≤ p (u N).1 → (u 0).2 ≤ (v 0).2 ∧ (p (u 0).1 < p (v 0).1 ∨ p (v N).1 < p (u N).1 → (u 0).2 < (v 0).2) := by
    intro u v hu hv su sv h0 h1
    rw [← hu.flow hp hdx N le_rfl, ← hv.flow hp hdx N le_rfl]
    constructor
    · by_contra hc
      exact compare hp hdx hN hu hv su sv h0 h1 (not_le.mp hc).le (Or.inl (not_le.mp hc))
    · intro h
      by_contra hc
      exact compare hp hdx hN hu hv su sv h0 h1 (not_lt.mp hc) (Or.inr h)
  refine ⟨main hu hv su sv, fun h0 h1 => ?_⟩
  exact (C166_partial hp hdx hu hv su sv).1 (le_antisymm (main hu hv su sv h0.le h1.ge).1 (main hv hu sv su h0.ge h1.le).1) h0

/-- Two different states of a pipe of ten cells meet the hypotheses of `C174`: the same pressure on the right, different pressures on the left. -/
example : ∃ dx u v, 0 < dx ∧ Stationary 1 0 dx 10 u ∧ Stationary 1 0 dx 10 v ∧ (∀ i ≤ 10, Slow 1 0 dx (u i)) ∧ (∀ i ≤ 10, Slow 1 0 dx (v i)) ∧
    p (u 10).1 = p (v 10).1 ∧ p (u 0).1 < p (v 0).1 ∧ 0 < (u 0).2 ∧ (u 0).2 < (v 0).2 := by
  have hp : RealPipe 1 0 := by constructor <;> norm_num
  have s2 : Subsonic 1 ((1 : ℝ), (1 / 1000 : ℝ)) := subsonic_small le_rfl (by norm_num)
  have s1 : Subsonic 1 ((1 : ℝ), (1 / 2000 : ℝ)) := by
    have := s2
    unfold Subsonic at this ⊢
    refine lt_of_le_of_lt ?_ this
    have hA := area_pos (d := 1) one_pos
    have hρ : 0 < rho0 := by unfold rho0; norm_num
    refine pow_le_pow_left₀ (by positivity) ?_ 2
    refine div_le_div_of_nonneg_right ?_ (by positivity)
    simp only
    linarith
  obtain ⟨ε, h0, h⟩ := C171_short_partial hp 10 one_pos (by norm_num) s1
  obtain ⟨ε', h0', h'⟩ := C171_short_partial hp 10 one_pos (by norm_num) s2
  have hm : 0 < min ε ε' / 2 := by have := lt_min h0 h0'; positivity
  obtain ⟨u, su, sl, -, eu⟩ := h (min ε ε' / 2) hm (by linarith [min_le_left ε ε', lt_min h0 h0'])
  obtain ⟨v, sv, sl', sb, ev⟩ := h' (min ε ε' / 2) hm (by linarith [min_le_right ε ε', lt_min h0 h0'])
  have e : p (u 10).1 = p (v 10).1 := by rw [eu, ev]
  have fu := su.flow hp hm 10 le_rfl
  have fv := sv.flow hp hm 10 le_rfl
  rw [eu] at fu
  rw [ev] at fv
  refine ⟨_, u, v, hm, su, sv, sl, sl', e, ?_, by rw [← fu]; norm_num, by rw [← fu, ← fv]; norm_num⟩
  exact (C173 hp hm su sv sl sb (by rw [eu]; norm_num) (by rw [eu, ev]; norm_num) e.le).2 (Or.inl (by rw [eu, ev]; norm_num)) 0 (by norm_num)

end Verif.Box
