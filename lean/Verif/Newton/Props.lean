import Verif.Newton.Model
import Mathlib.Tactic.Linarith
import Mathlib.Tactic.NormNum
import Mathlib.Tactic.Ring
import Mathlib.Analysis.Calculus.FDeriv.Comp
import Mathlib.Analysis.Calculus.FDeriv.Linear
import Mathlib.Analysis.SpecificLimits.Basic
import Mathlib.Analysis.Real.Sqrt
import Mathlib.Analysis.Asymptotics.Lemmas

/-! # Properties C22 and C23 -/

set_option autoImplicit false
set_option linter.unusedSectionVars false

namespace Verif.Newton

variable {X Y K : Type} [Field K] [LinearOrder K] [IsStrictOrderedRing K]

/-! ## Specification -/

/-- The residual of a state is not NaN and at most the tolerance. -/
def MeetsTolerance (S : System X Y K) (tol : K) (x : X) : Prop :=
  ∃ r, S.normY (S.evaluate x) = some r ∧ r ≤ tol

/-- One damped Newton step with the linear solver `solve`: damping `2^-k`, accepted by the test on the
residual measured through `solve` (if no NaN occurs). -/
def DampedStep (S : System X Y K) (solve : Y → X) (x x' : X) : Prop :=
  ∃ k : ℕ, x' = S.move x ((1 / 2) ^ k) (S.neg (solve (S.evaluate x))) ∧
    ∀ new old, S.normX (S.neg (solve (S.evaluate x'))) = some new →
      S.normX (S.neg (solve (S.evaluate x))) = some old →
      new ≤ (1 - (1 / 2) ^ k / 2) * old

/-- `Steps S tol J n x x'`: `n` damped Newton steps lead from `x` to `x'`, each of them starting above
the tolerance; `J x` is the linear solver used at `x`. -/
inductive Steps (S : System X Y K) (tol : K) (J : X → Option (Y → X)) : ℕ → X → X → Prop
  | refl (x : X) : Steps S tol J 0 x x
  | step {n : ℕ} {x y z : X} (solve : Y → X) (r : K) (hJ : J x = some solve)
      (hr : S.normY (S.evaluate x) = some r) (htol : tol < r)
      (h : DampedStep S solve x y) (rest : Steps S tol J n y z) : Steps S tol J (n + 1) x z

/-! ## Comparison lemmas -/

theorem gt_some_iff {a : Option K} {b : K} : gt a (some b) = true ↔ ∃ r, a = some r ∧ b < r := by
  cases a <;> simp [gt]

theorem le_some_iff {a : Option K} {b : K} : le a (some b) = true ↔ ∃ r, a = some r ∧ r ≤ b := by
  cases a <;> simp [le]

/-! ## The line search -/

theorem lineSearch_spec (S : System X Y K) (solve : Y → X) (x step : X) (testnorm : Option K)
    (fuel : ℕ) : ∀ (k : ℕ) (cand : X) (vals : Y) (cur : Option K) (lam' : K) (x' : X) (vals' : Y),
    cand = S.move x ((1 / 2) ^ k) step → vals = S.evaluate cand →
    cur = S.normX (S.neg (solve vals)) →
    lineSearch S solve x step testnorm fuel ((1 / 2) ^ k) cand vals cur = some (Res.ok (lam', x', vals')) →
    ∃ k' : ℕ, x' = S.move x ((1 / 2) ^ k') step ∧ vals' = S.evaluate x' ∧
      ∀ new old, S.normX (S.neg (solve (S.evaluate x'))) = some new → testnorm = some old →
        new ≤ (1 - (1 / 2) ^ k' / 2) * old := by
  induction fuel with
  | zero =>
    intro k cand vals cur lam' x' vals' hc hv hcur h
    unfold lineSearch at h
    split at h
    · split at h <;> simp at h
    · rename_i hgt
      simp only [Option.some.injEq, Res.ok.injEq, Prod.mk.injEq] at h
      obtain ⟨-, rfl, rfl⟩ := h
      refine ⟨k, hc, hv, ?_⟩
      intro new old hn ho
      subst ho
      rw [← hv, ← hcur] at hn
      subst hn
      simp [gt] at hgt
      rw [div_eq_inv_mul]; convert hgt using 3; simp
  | succ fuel ih =>
    intro k cand vals cur lam' x' vals' hc hv hcur h
    unfold lineSearch at h
    split at h
    · split at h
      · simp at h
      · simp only at h
        have e : ((1 : K) / 2) ^ k * (1 / 2) = (1 / 2) ^ (k + 1) := (pow_succ _ _).symm
        rw [e] at h
        exact ih (k + 1) _ _ _ lam' x' vals' rfl rfl rfl h
    · rename_i hgt
      simp only [Option.some.injEq, Res.ok.injEq, Prod.mk.injEq] at h
      obtain ⟨-, rfl, rfl⟩ := h
      refine ⟨k, hc, hv, ?_⟩
      intro new old hn ho
      subst ho
      rw [← hv, ← hcur] at hn
      subst hn
      simp [gt] at hgt
      rw [div_eq_inv_mul]; convert hgt using 3; simp

/-! ## The iteration -/

theorem iterate_spec (S : System X Y K) (tol : K) (full : Bool) (fuel : ℕ) (fixed : Option (Y → X))
    (n : ℕ) : ∀ (x : X) (vals : Y) (sol : Sol K) (x' : X) (sol' : Sol K), vals = S.evaluate x →
    iterate S tol full fuel fixed n x vals sol = some (Res.ok (x', sol')) →
    ∃ k, k ≤ n ∧ sol'.used = sol.used + k ∧
      Steps S tol (fun y => if full then S.jac y else fixed) k x x' ∧
      (sol'.residual = if k = 0 then sol.residual else S.normY (S.evaluate x')) ∧
      (k < n → gt (S.normY (S.evaluate x')) (some tol) = false) := by
  induction n with
  | zero =>
    intro x vals sol x' sol' hv h
    simp only [iterate, Option.some.injEq, Res.ok.injEq, Prod.mk.injEq] at h
    obtain ⟨rfl, rfl⟩ := h
    exact ⟨0, le_rfl, rfl, Steps.refl _, by simp, by omega⟩
  | succ n ih =>
    intro x vals sol x' sol' hv h
    unfold iterate at h
    split at h
    · rename_i hgt
      split at h
      · simp at h
      · rename_i solve hJ
        simp only at h
        split at h
        · simp at h
        · simp at h
        · simp at h
        · rename_i lam y vals' hls
          have hls' := lineSearch_spec S solve x (S.neg (solve vals)) (S.normX (S.neg (solve vals)))
            fuel 0 (S.move x 1 (S.neg (solve vals))) _ _ lam y vals'
            (by rw [pow_zero]) rfl rfl (by rw [pow_zero]; exact hls)
          obtain ⟨k', hy, hvals', hdec⟩ := hls'
          obtain ⟨k, hk, hused, hsteps, hres, hlast⟩ := ih y vals' _ x' sol' hvals' h
          obtain ⟨r, hr, hrt⟩ := gt_some_iff.mp hgt
          subst hv
          refine ⟨k + 1, by omega, by rw [hused]; show sol.used + 1 + k = _; omega, ?_, ?_, ?_⟩
          · exact Steps.step solve r hJ hr hrt ⟨k', hy, hdec⟩ hsteps
          · rw [hres, if_neg (Nat.succ_ne_zero k)]
            by_cases h0 : k = 0
            · subst h0
              cases hsteps
              simp [hvals']
            · rw [if_neg h0]
          · intro hlt; exact hlast (by omega)
    · rename_i hgt
      simp only [Option.some.injEq, Res.ok.injEq, Prod.mk.injEq] at h
      obtain ⟨rfl, rfl⟩ := h
      refine ⟨0, by omega, rfl, Steps.refl _, by simp, ?_⟩
      intro _; rw [← hv]; simpa using hgt

/-- The linear solver used at `y`: the factorization at `y` itself or, in simplified mode, that at the
starting point `x`. -/
def solverAt (S : System X Y K) (full : Bool) (x y : X) : Option (Y → X) :=
  if full then S.jac y else S.jac x

theorem solve_spec (S : System X Y K) (tol : K) (maxIter : ℤ) (full : Bool) (fuel : ℕ) (x x' : X)
    (sol : Sol K) (h : solve S tol maxIter full fuel x = some (Res.ok (x', sol))) :
    ∃ k, k ≤ maxIter.toNat ∧ sol.used = k ∧ Steps S tol (solverAt S full x) k x x' ∧
      ((MeetsTolerance S tol x ∧ k = 0 ∧ sol.success = true ∧
          sol.residual = S.normY (S.evaluate x')) ∨
        (¬ MeetsTolerance S tol x ∧
        (sol.residual = if k = 0 then some 1000000 else S.normY (S.evaluate x')) ∧
        (k < maxIter.toNat → gt (S.normY (S.evaluate x')) (some tol) = false) ∧
        sol.success = !(decide ((k : ℤ) = maxIter) && gt sol.residual (some tol)))) := by
  unfold solve at h
  simp only at h
  split at h
  · rename_i hle
    simp only [Option.some.injEq, Res.ok.injEq, Prod.mk.injEq] at h
    obtain ⟨rfl, rfl⟩ := h
    exact ⟨0, by omega, rfl, Steps.refl _, Or.inl ⟨le_some_iff.mp hle, rfl, rfl, rfl⟩⟩
  · rename_i hle
    have hle' : ¬ MeetsTolerance S tol x := fun hm => hle (le_some_iff.mpr hm)
    obtain ⟨fixed, hfix⟩ : ∃ f, f = if full = true then none else S.jac x := ⟨_, rfl⟩
    rw [← hfix] at h
    by_cases hbad : (!full && fixed.isNone) = true
    · rw [if_pos hbad] at h; simp at h
    · rw [if_neg hbad] at h
      split at h
      · rename_i x'' sol'' hit
        obtain ⟨k, hk, hused, hsteps, hres, hlast⟩ := iterate_spec S tol full fuel fixed _ x _ _
          x'' sol'' rfl hit
        simp only [Option.some.injEq, Res.ok.injEq, Prod.mk.injEq] at h
        obtain ⟨rfl, rfl⟩ := h
        have hJ : (fun y => if full = true then S.jac y else fixed) = solverAt S full x := by
          funext y; unfold solverAt; cases full <;> simp [hfix]
        rw [hJ] at hsteps
        have hused' : sol''.used = k := by rw [hused]; simp [Sol.default]
        refine ⟨k, hk, hused', hsteps, Or.inr ⟨hle', ?_, hlast, ?_⟩⟩
        · simpa [Sol.default] using hres
        · simp [hused']
      · rename_i hno
        exact absurd h (hno x' sol)

/-! ## C22 -/

/-- C22 as stated: success implies that the returned state meets the tolerance. -/
def C22Statement (X Y K : Type) [Field K] [LinearOrder K] : Prop :=
  ∀ (S : System X Y K) (tol : K) (maxIter : ℤ) (full : Bool) (fuel : ℕ) (x x' : X) (sol : Sol K),
    solve S tol maxIter full fuel x = some (Res.ok (x', sol)) → sol.success = true →
    MeetsTolerance S tol x'

/-- A system whose residual is NaN at the starting point. -/
def nanSystem : System ℚ ℚ ℚ where
  evaluate := fun x => x
  jac := fun _ => some id
  normX := fun x => some |x|
  normY := fun _ => none
  move := fun x l s => x + l * s
  neg := fun x => -x

/-- C22 is false: a NaN residual is reported as success, with the made-up residual 10^6. -/
theorem C22_false : ¬ C22Statement ℚ ℚ ℚ := by
  intro h
  obtain ⟨r, hr, -⟩ := h nanSystem (1 / 100) 10 true 10 3 3 ⟨true, some 1000000, 0⟩ rfl rfl
  simp [nanSystem] at hr

/-- The system `x = 0` with its exact Jacobian. -/
def linSystem : System ℚ ℚ ℚ where
  evaluate := fun x => x
  jac := fun _ => some id
  normX := fun x => some |x|
  normY := fun x => some |x|
  move := fun x l s => x + l * s
  neg := fun x => -x

/-- C22 is false for another reason: a negative iteration limit is reported as success without a single
step, for a system that has no NaN at all. -/
theorem C22_false_negative_limit : ∃ x' sol,
    solve linSystem (1 / 100) (-1) true 10 3 = some (Res.ok (x', sol)) ∧ sol.success = true ∧
      ¬ MeetsTolerance linSystem (1 / 100) x' := by
  refine ⟨3, ⟨true, some 1000000, 0⟩, ?_, rfl, ?_⟩
  · unfold solve
    simp only
    rw [if_neg (by simp [linSystem, le]; norm_num)]
    simp [iterate, Sol.default]
  rintro ⟨r, hr, hle⟩
  simp [linSystem] at hr
  subst hr
  norm_num at hle

/-- C22, proved part: with a positive iteration limit (or limit 0 and a tolerance below the default
residual 10^6), success together with a final residual that is not NaN implies that the returned
state meets the tolerance, and the reported residual is the one of the returned state.
Missing: NaN residuals and negative limits, for which the claim is false. -/
theorem C22_success_partial (S : System X Y K) (tol : K) (maxIter : ℤ) (full : Bool) (fuel : ℕ)
    (x x' : X) (sol : Sol K)
    (h : solve S tol maxIter full fuel x = some (Res.ok (x', sol))) (hs : sol.success = true)
    (hnan : S.normY (S.evaluate x') ≠ none)
    (hmax : 1 ≤ maxIter ∨ (maxIter = 0 ∧ tol < 1000000)) :
    MeetsTolerance S tol x' ∧ (sol.residual = S.normY (S.evaluate x') ∨ sol.used = 0) := by
  obtain ⟨k, hk, hused, hsteps, hcase⟩ := solve_spec S tol maxIter full fuel x x' sol h
  rcases hcase with ⟨hm, rfl, -, hres⟩ | ⟨hm, hres, hlast, hsucc⟩
  · cases hsteps
    exact ⟨hm, Or.inl hres⟩
  · obtain ⟨r, hr⟩ := Option.ne_none_iff_exists'.mp hnan
    have hfin : gt (S.normY (S.evaluate x')) (some tol) = false → MeetsTolerance S tol x' := by
      intro hg
      refine ⟨r, hr, ?_⟩
      rw [hr] at hg
      simpa [gt] using hg
    have hres' : sol.residual = S.normY (S.evaluate x') ∨ sol.used = 0 := by
      by_cases h0 : k = 0
      · right; omega
      · left; rw [hres, if_neg h0]
    refine ⟨?_, hres'⟩
    by_cases hlt : k < maxIter.toNat
    · exact hfin (hlast hlt)
    · have hkm : (k : ℤ) = maxIter := by omega
      rw [hsucc] at hs
      simp only [hkm, decide_true, Bool.true_and, Bool.not_eq_true'] at hs
      rcases hmax with hmax | ⟨h0, htol⟩
      · rw [hres, if_neg (by omega)] at hs
        exact hfin hs
      · have : k = 0 := by omega
        rw [hres, if_pos this] at hs
        simp [gt] at hs
        exact absurd hs (not_le.mpr htol)

/-- A successful solve of `x = 0` from 3. -/
example : (match solve linSystem (1 / 100) 5 true 10 3 with
    | some (Res.ok (x, sol)) => some (x, sol.success, sol.residual, sol.used)
    | _ => none) = some (0, true, some 0, 1) := by decide +kernel

/-! ## C23 -/

/-- C23. If the solver returns, the state is reached by exactly `used_iterations` damped Newton steps, each
starting above the tolerance and reducing the residual measured through the linear solver of that
step; their number is at most the limit; failure is reported only after all of them, with a
residual above the tolerance. -/
theorem C23_iterations (S : System X Y K) (tol : K) (maxIter : ℤ) (full : Bool) (fuel : ℕ)
    (x x' : X) (sol : Sol K)
    (h : solve S tol maxIter full fuel x = some (Res.ok (x', sol))) :
    Steps S tol (solverAt S full x) sol.used x x' ∧ (sol.used : ℤ) ≤ max maxIter 0 ∧
      (sol.success = false → (sol.used : ℤ) = maxIter ∧
        (0 < maxIter → ∃ r, sol.residual = some r ∧ S.normY (S.evaluate x') = some r ∧ tol < r)) := by
  obtain ⟨k, hk, hused, hsteps, hcase⟩ := solve_spec S tol maxIter full fuel x x' sol h
  subst hused
  refine ⟨hsteps, by omega, ?_⟩
  intro hf
  rcases hcase with ⟨-, -, hs, -⟩ | ⟨-, hres, -, hsucc⟩
  · rw [hs] at hf; cases hf
  · rw [hsucc] at hf
    simp only [Bool.not_eq_false', Bool.and_eq_true, decide_eq_true_eq] at hf
    refine ⟨hf.1, fun hpos => ?_⟩
    obtain ⟨r, hr, hrt⟩ := gt_some_iff.mp hf.2
    rw [if_neg (by omega)] at hres
    exact ⟨r, hr, by rw [← hres]; exact hr, hrt⟩

/-- C23. If the system is solved at the start, nothing is changed. -/
theorem C23_solved_start (S : System X Y K) (tol : K) (maxIter : ℤ) (full : Bool) (fuel : ℕ) (x : X)
    (h : MeetsTolerance S tol x) :
    solve S tol maxIter full fuel x =
      some (Res.ok (x, ⟨true, S.normY (S.evaluate x), 0⟩)) := by
  unfold solve
  simp only
  rw [if_pos (le_some_iff.mpr h)]

/-! ### The residual norm itself may grow -/

/-- Euclidean norm of pairs. -/
noncomputable def norm2 (v : ℝ × ℝ) : ℝ := Real.sqrt (v.1 ^ 2 + v.2 ^ 2)

/-- The system `x - 1 = 0`, `100 y + 20 x² = 0` with its exact Jacobian; the inverse of the Jacobian
`[[1, 0], [40 x, 100]]` maps `(a, b)` to `(a, (b - 40 x a)/100)`. -/
noncomputable def growSystem : System (ℝ × ℝ) (ℝ × ℝ) ℝ where
  evaluate := fun v => (v.1 - 1, 100 * v.2 + 20 * v.1 ^ 2)
  jac := fun v => some fun w => (w.1, (w.2 - 40 * v.1 * w.1) / 100)
  normX := fun v => some (norm2 v)
  normY := fun v => some (norm2 v)
  move := fun v l s => (v.1 + l * s.1, v.2 + l * s.2)
  neg := fun v => (-v.1, -v.2)

/-- An accepted step need not decrease the residual norm: from `(0, 0)` with residual 1 the solver goes
to `(1, 0)` with residual 20. -/
theorem C23_residual_decrease_false : ∃ x' sol,
    solve growSystem (1 / 100) 1 true 0 (0, 0) = some (Res.ok (x', sol)) ∧ sol.used = 1 ∧
      growSystem.normY (growSystem.evaluate (0, 0)) = some 1 ∧ sol.residual = some 20 := by
  have n1 : norm2 (-1, 0) = 1 := by unfold norm2; norm_num
  have n1' : norm2 (1, 0) = 1 := by unfold norm2; norm_num
  have n20 : norm2 (0, 20) = 20 := by
    unfold norm2
    rw [show ((0 : ℝ), (20 : ℝ)).1 ^ 2 + ((0 : ℝ), (20 : ℝ)).2 ^ 2 = 20 ^ 2 by norm_num]
    exact Real.sqrt_sq (by norm_num)
  have n5 : norm2 (0, -(1 / 5)) = 1 / 5 := by
    unfold norm2
    rw [show ((0 : ℝ), (-(1 / 5) : ℝ)).1 ^ 2 + ((0 : ℝ), (-(1 / 5) : ℝ)).2 ^ 2 = (1 / 5) ^ 2 by norm_num]
    exact Real.sqrt_sq (by norm_num)
  have e0 : growSystem.evaluate (0, 0) = (-1, 0) := by simp [growSystem]
  have e1 : growSystem.evaluate (1, 0) = (0, 20) := by simp [growSystem]
  refine ⟨(1, 0), ⟨false, some 20, 1⟩, ?_, rfl, ?_, rfl⟩
  · unfold solve
    simp only [e0]
    have hY : ∀ v, growSystem.normY v = some (norm2 v) := fun _ => rfl
    have hX : ∀ v, growSystem.normX v = some (norm2 v) := fun _ => rfl
    rw [hY, n1, if_neg (by simp [le]; norm_num)]
    simp only [if_true, Bool.not_true, Bool.false_and, Bool.false_eq_true, if_false]
    have hm : growSystem.move (0, 0) 1 (growSystem.neg ((-1 : ℝ), ((0 : ℝ) - 40 * 0 * (-1)) / 100)) =
        (1, 0) := by simp [growSystem]
    have hs : growSystem.neg ((-1 : ℝ), ((0 : ℝ) - 40 * 0 * (-1)) / 100) = (1, 0) := by
      simp [growSystem]
    have hc : growSystem.neg ((0 : ℝ), ((20 : ℝ) - 40 * 0 * 0) / 100) = (0, -(1 / 5)) := by
      simp [growSystem]; norm_num
    have hit : iterate growSystem (1 / 100) true 0 none (1 : ℤ).toNat (0, 0) (-1, 0) Sol.default =
        some (Res.ok ((1, 0), ⟨false, some 20, 1⟩)) := by
      show iterate growSystem (1 / 100) true 0 none 1 (0, 0) (-1, 0) Sol.default = _
      unfold iterate
      rw [hY, n1, if_pos (by simp [gt]; norm_num)]
      simp only [if_true]
      have hj : growSystem.jac (0, 0) = some fun w => (w.1, (w.2 - 40 * 0 * w.1) / 100) := rfl
      rw [hj]
      simp only
      rw [hm, e1, hs, hc, hX, hX, n5, n1']
      unfold lineSearch
      rw [if_neg (by simp [gt]; norm_num)]
      simp only [iterate, hY, n20, Sol.default]
    rw [hit]
    simp only [Option.some.injEq, Res.ok.injEq, Prod.mk.injEq, true_and]
    simp [gt]
    norm_num
  · rw [e0]; show some (norm2 (-1, 0)) = _; rw [n1]

/-! ### The line search ends if the Jacobian is exact -/

section Termination

open Filter Topology

variable {V W : Type} [NormedAddCommGroup V] [NormedSpace ℝ V] [NormedAddCommGroup W] [NormedSpace ℝ W]

/-- The system of a differentiable function on normed spaces with its exact derivative `A x`. -/
noncomputable def realSystem (F : V → W) (A : V → (V ≃L[ℝ] W)) : System V W ℝ where
  evaluate := F
  jac := fun x => some (A x).symm
  normX := fun x => some ‖x‖
  normY := fun y => some ‖y‖
  move := fun x l s => x + l • s
  neg := fun x => -x

theorem lineSearch_ends {X Y : Type} (S : System X Y ℝ) (slv : Y → X) (x step : X) (t : ℝ) (k : ℕ)
    (hk : ∀ c, S.normX (S.neg (slv (S.evaluate (S.move x ((1 / 2) ^ k) step)))) = some c →
      c ≤ (1 - (1 / 2) ^ k / 2) * t) :
    ∀ (i : ℕ), i ≤ k → ∀ cand vals cur, cand = S.move x ((1 / 2) ^ i) step →
      vals = S.evaluate cand → cur = S.normX (S.neg (slv vals)) →
      lineSearch S slv x step (some t) (k - i) ((1 / 2) ^ i) cand vals cur ≠ none := by
  intro i hi
  obtain ⟨d, hd⟩ : ∃ d, d = k - i := ⟨_, rfl⟩
  induction d generalizing i with
  | zero =>
    intro cand vals cur hc hv hcur
    obtain rfl : i = k := by omega
    unfold lineSearch
    rw [if_neg]
    · simp
    · intro hg
      rw [Option.map_some] at hg
      obtain ⟨c, hcs, hlt⟩ := gt_some_iff.mp hg
      have := hk c (by rw [← hc, ← hv, ← hcur]; exact hcs)
      linarith
  | succ d ih =>
    intro cand vals cur hc hv hcur
    unfold lineSearch
    split
    · split
      · simp
      · obtain ⟨m, hm⟩ : ∃ m, k - i = m + 1 := ⟨d, by omega⟩
        rw [hm]
        simp only
        have e : ((1 : ℝ) / 2) ^ i * (1 / 2) = (1 / 2) ^ (i + 1) := (pow_succ _ _).symm
        rw [e, show m = k - (i + 1) by omega]
        exact ih (i + 1) (by omega) (by omega) _ _ _ rfl rfl rfl
    · simp

/-- C23. If the derivative is exact at `x`, the damping loop of a step from `x` ends (by acceptance or by
the exception for tiny steps) after finitely many halvings. -/
theorem C23_line_search_ends (F : V → W) (A : V → (V ≃L[ℝ] W)) (x : V)
    (hF : HasFDerivAt F (A x : V →L[ℝ] W) x) (hne : F x ≠ 0) :
    ∃ k, ∀ fuel, k ≤ fuel → ∀ s, s = -((A x).symm (F x)) →
      lineSearch (realSystem F A) (A x).symm x s (some ‖s‖) fuel 1 (x + (1 : ℝ) • s)
        (F (x + (1 : ℝ) • s)) (some ‖-((A x).symm (F (x + (1 : ℝ) • s)))‖) ≠ none := by
  obtain ⟨s, hs⟩ : ∃ s, s = -((A x).symm (F x)) := ⟨_, rfl⟩
  have hAs : A x s = -F x := by rw [hs, map_neg, ContinuousLinearEquiv.apply_symm_apply]
  have hs0 : s ≠ 0 := by
    intro h0
    rw [h0, map_zero] at hAs
    exact hne (by simpa using hAs.symm)
  have hsp : 0 < ‖s‖ := norm_pos_iff.mpr hs0
  -- G = A⁻¹ ∘ F has derivative the identity at x
  have hG : HasFDerivAt (fun y => (A x).symm (F y)) (ContinuousLinearMap.id ℝ V) x := by
    have h1 : HasFDerivAt (fun y => ((A x).symm : W →L[ℝ] V) (F y))
        (((A x).symm : W →L[ℝ] V).comp (A x : V →L[ℝ] W)) x :=
      ((A x).symm : W →L[ℝ] V).hasFDerivAt.comp x hF
    have e : ((A x).symm : W →L[ℝ] V).comp (A x : V →L[ℝ] W) = ContinuousLinearMap.id ℝ V := by
      ext v; simp
    rw [e] at h1
    exact h1
  have hbound := (hasFDerivAt_iff_isLittleO.mp hG).def (c := 1 / 2) (by norm_num)
  have hlam : Tendsto (fun k : ℕ => x + ((1 / 2 : ℝ) ^ k) • s) atTop (𝓝 x) := by
    have h0 : Tendsto (fun k : ℕ => ((1 / 2 : ℝ) ^ k)) atTop (𝓝 0) :=
      tendsto_pow_atTop_nhds_zero_of_lt_one (by norm_num) (by norm_num)
    have := (h0.smul_const s).const_add x
    simpa using this
  obtain ⟨k, hk⟩ := (hlam.eventually hbound).exists
  have hacc : ‖(A x).symm (F (x + ((1 / 2 : ℝ) ^ k) • s))‖ ≤ (1 - (1 / 2) ^ k / 2) * ‖s‖ := by
    set l : ℝ := (1 / 2 : ℝ) ^ k with hl
    have hl0 : 0 < l := by positivity
    have hl1 : l ≤ 1 := pow_le_one₀ (by norm_num) (by norm_num)
    simp only [add_sub_cancel_left, ContinuousLinearMap.id_apply] at hk
    have hGx : (A x).symm (F x) = -s := by rw [hs]; simp
    rw [hGx, norm_smul, Real.norm_of_nonneg hl0.le] at hk
    have e : (A x).symm (F (x + l • s)) =
        ((A x).symm (F (x + l • s)) - -s - l • s) + (-(1 - l)) • s := by
      rw [neg_smul, sub_smul, one_smul]; abel
    rw [e]
    refine (norm_add_le _ _).trans ?_
    rw [norm_smul, norm_neg, Real.norm_of_nonneg (by linarith)]
    nlinarith
  refine ⟨k, ?_⟩
  intro fuel hfuel s' hs'
  obtain rfl : s' = s := by rw [hs, hs']
  -- more fuel does not hurt
  have mono : ∀ (f i : ℕ) (cand : V) (vals : W) (cur : Option ℝ) (lam : ℝ),
      lineSearch (realSystem F A) (A x).symm x s' (some ‖s'‖) f lam cand vals cur ≠ none →
      lineSearch (realSystem F A) (A x).symm x s' (some ‖s'‖) (f + i) lam cand vals cur ≠ none := by
    intro f
    induction f with
    | zero =>
      intro i cand vals cur lam h
      unfold lineSearch at h ⊢
      split
      · rename_i hg
        rw [if_pos hg] at h
        split
        · simp
        · rename_i hm; rw [if_neg hm] at h; simp at h
      · simp
    | succ f ih =>
      intro i cand vals cur lam h
      rw [show f + 1 + i = (f + i) + 1 by omega]
      unfold lineSearch at h ⊢
      split
      · rename_i hg
        rw [if_pos hg] at h
        split
        · simp
        · rename_i hm
          rw [if_neg hm] at h
          exact ih i _ _ _ _ h
      · simp
  have hend := lineSearch_ends (realSystem F A) (A x).symm x s' ‖s'‖ k (by
    intro c hc
    have : c = ‖(A x).symm (F (x + ((1 / 2 : ℝ) ^ k) • s'))‖ := by
      simp only [realSystem, Option.some.injEq] at hc
      rw [← hc, norm_neg]
    rw [this]; exact hacc) 0 (by omega) (x + (1 : ℝ) • s') (F (x + (1 : ℝ) • s'))
    (some ‖-((A x).symm (F (x + (1 : ℝ) • s')))‖) (by simp [realSystem]) rfl rfl
  rw [pow_zero, Nat.sub_zero] at hend
  have := mono k (fuel - k) _ _ _ _ hend
  rwa [show k + (fuel - k) = fuel by omega] at this

end Termination

end Verif.Newton
