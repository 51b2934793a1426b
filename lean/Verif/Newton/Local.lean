import Verif.Newton.Props
import Mathlib.Analysis.Normed.Operator.Basic

/-!
# The Newton solver close to a solution

An estimate of Kantorovich's type for `Newtonsolver::solve` with exact derivatives: if the residual of the start is small compared with
the size of the ball in which the derivative changes little, then the solver succeeds, in both modes, and never damps a step.
-/

set_option autoImplicit false

namespace Verif.Newton

variable {V W : Type} [NormedAddCommGroup V] [NormedSpace ℝ V] [NormedAddCommGroup W] [NormedSpace ℝ W]

/-- The solver computes with the function `F` at the points of `U`, and solves linear equations there by the linear maps `B`. Vectors
with NaN are `none`. -/
structure Represents (S : System (Option V) (Option W) ℝ) (F : V → W) (U : Set V) (B : V → W →L[ℝ] V) (nX : V → ℝ) (nY : W → ℝ) :
    Prop where
  evaluate : ∀ x ∈ U, S.evaluate (some x) = some (F x)
  jac : ∀ x ∈ U, ∃ slv, S.jac (some x) = some slv ∧ ∀ w, slv (some w) = some (B x w)
  normX : ∀ v, S.normX (some v) = some (nX v)
  normY : ∀ w, S.normY (some w) = some (nY w)
  move : ∀ x l s, S.move (some x) l (some s) = some (x + l • s)
  neg : ∀ x, S.neg (some x) = some (-x)

/-- In the ball around `c` with radius `r` the linear maps `D` differ little from difference quotients of `F` and have the inverses `B`,
which are bounded by `M`; the norms of the solver are equivalent to those of the spaces. -/
structure Nice (F : V → W) (D : V → V →L[ℝ] W) (B : V → W →L[ℝ] V) (nX : V → ℝ) (nY : W → ℝ) (c : V) (r ε M C : ℝ) : Prop where
  close : ∀ x ∈ Metric.ball c r, ∀ x' ∈ Metric.ball c r, ∀ b ∈ Metric.ball c r, ‖F x - F x' - D b (x - x')‖ ≤ ε * ‖x - x'‖
  bound : ∀ b ∈ Metric.ball c r, ∀ w, ‖B b w‖ ≤ M * ‖w‖
  right : ∀ b ∈ Metric.ball c r, ∀ w, D b (B b w) = w
  left : ∀ b ∈ Metric.ball c r, ∀ v, B b (D b v) = v
  normX : ∀ v, nX v ≤ C * ‖v‖ ∧ ‖v‖ ≤ C * nX v
  normY : ∀ w, nY w ≤ C * ‖w‖ ∧ ‖w‖ ≤ C * nY w
  one : 1 ≤ C
  eps : 0 ≤ ε
  pos : 0 ≤ M
  small : C * C * (M * ε) ≤ 1 / 2

variable {S : System (Option V) (Option W) ℝ} {F : V → W} {D : V → V →L[ℝ] W} {B : V → W →L[ℝ] V} {nX : V → ℝ} {nY : W → ℝ} {c : V}
  {r ε M C : ℝ}

theorem Nice.half (h : Nice F D B nX nY c r ε M C) : M * ε ≤ 1 / 2 := by
  have h1 : 0 ≤ M * ε := mul_nonneg h.pos h.eps
  have h2 : 1 ≤ C * C := by nlinarith [h.one]
  nlinarith [h.small]

/-- One undamped step. -/
theorem Nice.step (h : Nice F D B nX nY c r ε M C) {x b : V} (hx : ‖x - c‖ + 2 * (M * ‖F x‖) < r) (hb : b ∈ Metric.ball c r) :
    ‖B b (F x)‖ ≤ M * ‖F x‖ ∧ ‖F (x + -B b (F x))‖ ≤ ε * ‖B b (F x)‖ ∧ ‖F (x + -B b (F x))‖ ≤ 1 / 2 * ‖F x‖ ∧
      ‖x + -B b (F x) - c‖ + 2 * (M * ‖F (x + -B b (F x))‖) < r ∧
      nX (-B b (F (x + -B b (F x)))) ≤ 1 / 2 * nX (-B b (F x)) := by
  have h0 : 0 ≤ M * ‖F x‖ := mul_nonneg h.pos (norm_nonneg _)
  have h1 := h.bound b hb (F x)
  have hn : ‖x + -B b (F x) - c‖ ≤ ‖x - c‖ + ‖B b (F x)‖ := by
    rw [show x + -B b (F x) - c = (x - c) - B b (F x) by abel]
    exact norm_sub_le _ _
  have hmem : x ∈ Metric.ball c r := by rw [mem_ball_iff_norm]; linarith
  have hmem' : x + -B b (F x) ∈ Metric.ball c r := by rw [mem_ball_iff_norm]; linarith
  have h2 : ‖F (x + -B b (F x))‖ ≤ ε * ‖B b (F x)‖ := by
    have := h.close _ hmem' _ hmem b hb
    rw [show x + -B b (F x) - x = -B b (F x) by abel, map_neg, h.right b hb, norm_neg] at this
    rwa [show F (x + -B b (F x)) - F x - -F x = F (x + -B b (F x)) by abel] at this
  have h3 : ‖F (x + -B b (F x))‖ ≤ 1 / 2 * ‖F x‖ := by
    have := h.half
    nlinarith [mul_le_mul_of_nonneg_left h1 h.eps, norm_nonneg (F x)]
  refine ⟨h1, h2, h3, ?_, ?_⟩
  · nlinarith [mul_le_mul_of_nonneg_left h3 h.pos]
  · have e1 := (h.normX (-B b (F (x + -B b (F x))))).1
    have e2 := (h.normX (-B b (F x))).2
    rw [norm_neg] at e1 e2
    have e3 := h.bound b hb (F (x + -B b (F x)))
    have hC : 0 ≤ C := zero_le_one.trans h.one
    have hn0 : 0 ≤ nX (-B b (F x)) := by
      have := (h.normX (-B b (F x))).2.trans' (norm_nonneg _)
      exact (mul_nonneg_iff_of_pos_left (zero_lt_one.trans_le h.one)).mp this
    calc nX (-B b (F (x + -B b (F x)))) ≤ C * (M * (ε * (C * nX (-B b (F x))))) := by
            refine e1.trans (mul_le_mul_of_nonneg_left (e3.trans (mul_le_mul_of_nonneg_left (h2.trans ?_) h.pos)) hC)
            exact mul_le_mul_of_nonneg_left e2 h.eps
      _ = C * C * (M * ε) * nX (-B b (F x)) := by ring
      _ ≤ 1 / 2 * nX (-B b (F x)) := mul_le_mul_of_nonneg_right h.small hn0

theorem gt_some_some {a b : ℝ} : gt (some a) (some b) = decide (b < a) := rfl

/-- The loop of the solver. -/
theorem iterate_converges (hS : Represents S F (Metric.ball c r) B nX nY) (h : Nice F D B nX nY c r ε M C) (tol : ℝ) (full : Bool) (fuel : ℕ)
    (fixed : Option (Option W → Option V))
    (hfix : full = false → ∃ b ∈ Metric.ball c r, ∃ slv, fixed = some slv ∧ ∀ w, slv (some w) = some (B b w)) (n : ℕ) :
    ∀ (x : V) (sol : Sol ℝ), ‖x - c‖ + 2 * (M * ‖F x‖) < r →
      ∃ x' sol' k, iterate S tol full fuel fixed n (some x) (some (F x)) sol = some (Res.ok (some x', sol')) ∧ k ≤ n ∧
        sol'.used = sol.used + k ∧ ‖x' - x‖ ≤ 2 * (M * ‖F x‖) ∧ ‖F x'‖ ≤ (1 / 2) ^ k * ‖F x‖ ∧
        (sol'.residual = if k = 0 then sol.residual else some (nY (F x'))) ∧ (k < n → nY (F x') ≤ tol) ∧
        (∀ j, k = j + 1 → tol < C * ((1 / 2) ^ j * ‖F x‖)) := by
  induction n with
  | zero =>
    intro x sol _
    refine ⟨x, sol, 0, rfl, le_rfl, rfl, ?_, by simp, rfl, by simp, by simp⟩
    rw [sub_self, norm_zero]
    have := mul_nonneg h.pos (norm_nonneg (F x))
    linarith
  | succ n ih =>
    intro x sol hx
    have h0 : 0 ≤ M * ‖F x‖ := mul_nonneg h.pos (norm_nonneg _)
    by_cases ht : tol < nY (F x)
    · have hmem : x ∈ Metric.ball c r := by rw [mem_ball_iff_norm]; linarith
      obtain ⟨b, hb, slv, hslv, hsol⟩ : ∃ b ∈ Metric.ball c r, ∃ slv, (if full = true then S.jac (some x) else fixed) = some slv ∧
          ∀ w, slv (some w) = some (B b w) := by
        cases full with
        | true =>
          obtain ⟨slv, h1, h2⟩ := hS.jac x hmem
          exact ⟨x, hmem, slv, h1, h2⟩
        | false =>
          obtain ⟨b, hb, slv, h1, h2⟩ := hfix rfl
          exact ⟨b, hb, slv, h1, h2⟩
      obtain ⟨s1, s2, s3, s4, s5⟩ := h.step hx hb
      have hmem' : x + -B b (F x) ∈ Metric.ball c r := by
        rw [mem_ball_iff_norm]
        have := mul_nonneg h.pos (norm_nonneg (F (x + -B b (F x))))
        linarith
      obtain ⟨x', sol', k, i1, i2, i3, i4, i5, i6, i7, i8⟩ := ih (x + -B b (F x))
        { sol with used := sol.used + 1, residual := some (nY (F (x + -B b (F x)))) } s4
      refine ⟨x', sol', k + 1, ?_, by omega, by rw [i3]; show sol.used + 1 + k = _; omega, ?_, ?_, ?_, fun hk => i7 (by omega), ?_⟩
      · have hls : lineSearch S slv (some x) (S.neg (slv (some (F x)))) (S.normX (S.neg (slv (some (F x))))) fuel 1
            (S.move (some x) 1 (S.neg (slv (some (F x))))) (S.evaluate (S.move (some x) 1 (S.neg (slv (some (F x))))))
            (S.normX (S.neg (slv (S.evaluate (S.move (some x) 1 (S.neg (slv (some (F x))))))))) =
            some (Res.ok (1, some (x + -B b (F x)), some (F (x + -B b (F x))))) := by
          simp only [hsol, hS.neg, hS.move, one_smul, hS.evaluate _ hmem', hS.normX]
          unfold lineSearch
          rw [if_neg]
          rw [Option.map_some, gt_some_some, decide_eq_true_eq, not_lt]
          refine s5.trans (le_of_eq ?_)
          norm_num
        rw [iterate, hS.normY, if_pos (by rw [gt_some_some, decide_eq_true_eq]; exact ht), hslv]
        simp only [hls, hS.normY]
        exact i1
      · have e1 : ‖x' - x‖ ≤ ‖x' - (x + -B b (F x))‖ + ‖B b (F x)‖ := by
          rw [show x' - x = (x' - (x + -B b (F x))) - B b (F x) by abel]
          exact norm_sub_le _ _
        have := mul_le_mul_of_nonneg_left s3 h.pos
        linarith
      · rw [pow_succ]
        refine i5.trans ?_
        have : (0 : ℝ) ≤ (1 / 2) ^ k := by positivity
        nlinarith [mul_le_mul_of_nonneg_left s3 this]
      · rw [i6, if_neg (Nat.succ_ne_zero k)]
        by_cases hk : k = 0
        · subst hk
          rw [if_pos rfl]
          have hx' : x' = x + -B b (F x) := by
            cases n with
            | zero =>
              rw [iterate] at i1
              injection i1 with i1
              injection i1 with i1
              injection i1 with i1 i1'
              injection i1 with i1
              exact i1.symm
            | succ n =>
              have hle := i7 (by omega)
              have hstop : iterate S tol full fuel fixed (n + 1) (some (x + -B b (F x))) (some (F (x + -B b (F x))))
                  { sol with used := sol.used + 1, residual := some (nY (F (x + -B b (F x)))) } =
                  some (Res.ok (some x', sol')) := i1
              obtain ⟨j, -, hj, hst, -, -⟩ := iterate_spec S tol full fuel fixed (n + 1) _ _ _ _ _
                (hS.evaluate _ hmem').symm hstop
              obtain rfl : j = 0 := by
                rw [i3] at hj
                simp at hj
                exact hj
              cases hst
              rfl
          rw [hx']
        · rw [if_neg hk]
      · intro j hj
        obtain rfl : k = j := by omega
        cases k with
        | zero =>
          rw [pow_zero, one_mul]
          exact ht.trans_le (h.normY _).1
        | succ k =>
          refine (i8 k rfl).trans_le ?_
          have : (0 : ℝ) ≤ (1 / 2) ^ k := by positivity
          rw [pow_succ]
          have hC := h.one
          nlinarith [mul_le_mul_of_nonneg_left s3 (mul_nonneg (zero_le_one.trans hC) this)]
    · refine ⟨x, sol, 0, ?_, by omega, rfl, ?_, by simp, rfl, fun _ => not_lt.mp ht, by simp⟩
      · rw [iterate, hS.normY, if_neg]
        rw [gt_some_some, decide_eq_true_eq]
        exact ht
      · rw [sub_self, norm_zero]
        linarith

/-- The solver succeeds if the residual of the start is small, in both modes and without any damping, after at most as many steps as
bisections of the residual are needed. -/
theorem solve_converges (hS : Represents S F (Metric.ball c r) B nX nY) (h : Nice F D B nX nY c r ε M C) {x : V}
    (hx : ‖x - c‖ + 2 * (M * ‖F x‖) < r) {tol : ℝ} {m : ℕ} (hm : C * ((1 / 2) ^ m * ‖F x‖) ≤ tol) {maxIter : ℤ} (hmax : (m : ℤ) ≤ maxIter)
    (full : Bool) (fuel : ℕ) :
    ∃ x' sol, solve S tol maxIter full fuel (some x) = some (Res.ok (some x', sol)) ∧ sol.success = true ∧ sol.used ≤ m ∧
      x' ∈ Metric.ball c r ∧ ‖x' - x‖ ≤ 2 * (M * ‖F x‖) ∧ nY (F x') ≤ tol := by
  have h0 : 0 ≤ M * ‖F x‖ := mul_nonneg h.pos (norm_nonneg _)
  have hmem : x ∈ Metric.ball c r := by rw [mem_ball_iff_norm]; linarith
  have hball : ∀ x', ‖x' - x‖ ≤ 2 * (M * ‖F x‖) → x' ∈ Metric.ball c r := by
    intro x' hx'
    rw [mem_ball_iff_norm]
    have : ‖x' - c‖ ≤ ‖x' - x‖ + ‖x - c‖ := by
      rw [show x' - c = (x' - x) + (x - c) by abel]
      exact norm_add_le _ _
    linarith
  by_cases hle : nY (F x) ≤ tol
  · refine ⟨x, ⟨true, some (nY (F x)), 0⟩, ?_, rfl, Nat.zero_le m, hmem, by rw [sub_self, norm_zero]; linarith, hle⟩
    rw [C23_solved_start]
    · rw [hS.evaluate x hmem, hS.normY]
    · exact ⟨nY (F x), by rw [hS.evaluate x hmem, hS.normY], hle⟩
  · obtain ⟨slv, hslv, hsol⟩ := hS.jac x hmem
    obtain ⟨x', sol, k, i1, i2, i3, i4, i5, i6, i7, i8⟩ := iterate_converges hS h tol full fuel
      (if full = true then none else S.jac (some x)) (fun hf => ⟨x, hmem, slv, by rw [hf]; exact hslv, hsol⟩) maxIter.toNat x Sol.default hx
    have hkm : k ≤ m := by
      cases k with
      | zero => omega
      | succ j =>
        by_contra hlt
        have hjm : m ≤ j := by omega
        have h1 := i8 j rfl
        have h2 : ((1 : ℝ) / 2) ^ j ≤ (1 / 2) ^ m := pow_le_pow_of_le_one (by norm_num) (by norm_num) hjm
        have h3 := mul_le_mul_of_nonneg_left (mul_le_mul_of_nonneg_right h2 (norm_nonneg (F x))) (zero_le_one.trans h.one)
        linarith
    have hres : nY (F x') ≤ tol := by
      by_cases hk : k < maxIter.toNat
      · exact i7 hk
      · have hkk : k = m := by omega
        refine (h.normY _).1.trans ((mul_le_mul_of_nonneg_left i5 (zero_le_one.trans h.one)).trans ?_)
        rw [hkk]
        exact hm
    have hk0 : k ≠ 0 := by
      rintro rfl
      refine hle ?_
      have : x' = x := by
        obtain ⟨j, -, hj, hst, -, -⟩ := iterate_spec S tol full fuel _ maxIter.toNat _ _ _ _ _ (hS.evaluate x hmem).symm i1
        obtain rfl : j = 0 := by
          rw [i3] at hj
          simp at hj
          exact hj
        cases hst
        rfl
      rw [← this]
      exact hres
    rw [if_neg hk0] at i6
    refine ⟨x', { sol with success := true }, ?_, rfl, ?_, hball x' i4, i4, hres⟩
    · unfold solve
      simp only [hS.evaluate x hmem, hS.normY]
      rw [if_neg (by rw [le_some_iff]; rintro ⟨q, hq, hq'⟩; injection hq with hq; exact hle (hq ▸ hq')), if_neg, i1]
      · simp only [i6, gt_some_some]
        rw [decide_eq_false (not_lt.mpr hres), Bool.and_false, Bool.not_false]
      · cases full <;> simp [hslv]
    · show sol.used ≤ m
      rw [i3]
      show 0 + k ≤ m
      omega

end Verif.Newton
