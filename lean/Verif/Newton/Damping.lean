import Verif.Newton.Props

/-!
# Property C23: when damping gives up

Source: `/repo/src/Newtonsolver/Newtonsolver.cpp` 132-146, modelled by `lineSearch`.
-/

set_option autoImplicit false

namespace Verif.Newton

variable {X Y K : Type} [Field K] [LinearOrder K] [IsStrictOrderedRing K]

theorem lineSearch_throws (S : System X Y K) (solve : Y → X) (x step : X) (t : Option K) (fuel : ℕ) : ∀ lam : K,
    lineSearch S solve x step t fuel lam (S.move x lam step) (S.evaluate (S.move x lam step))
      (S.normX (S.neg (solve (S.evaluate (S.move x lam step))))) = some Res.throws →
    ∃ k r b, k ≤ fuel ∧ t = some b ∧ S.normX (S.neg (solve (S.evaluate (S.move x (lam * (1 / 2) ^ k) step)))) = some r ∧
      r < 1 / 10 ^ 12 ∧ (1 - 1 / 2 * (lam * (1 / 2) ^ k)) * b < r := by
  induction fuel with
  | zero =>
    intro lam h
    unfold lineSearch at h
    split at h
    · next h1 =>
      split at h
      · next h2 =>
        cases hc : S.normX (S.neg (solve (S.evaluate (S.move x lam step)))) with
        | none => rw [hc] at h1; simp [gt] at h1
        | some r =>
          cases t with
          | none => rw [hc] at h1; simp [gt] at h1
          | some b =>
            rw [hc] at h1 h2
            simp only [gt, Option.map_some, decide_eq_true_eq] at h1 h2
            exact ⟨0, r, b, le_rfl, rfl, by simpa using hc, h2, by simpa using h1⟩
      · cases h
    · cases h
  | succ fuel ih =>
    intro lam h
    unfold lineSearch at h
    split at h
    · next h1 =>
      split at h
      · next h2 =>
        cases hc : S.normX (S.neg (solve (S.evaluate (S.move x lam step)))) with
        | none => rw [hc] at h1; simp [gt] at h1
        | some r =>
          cases t with
          | none => rw [hc] at h1; simp [gt] at h1
          | some b =>
            rw [hc] at h1 h2
            simp only [gt, Option.map_some, decide_eq_true_eq] at h1 h2
            exact ⟨0, r, b, by omega, rfl, by simpa using hc, h2, by simpa using h1⟩
      · obtain ⟨k, r, b, hk, hb, hr, h3, h4⟩ := ih _ h
        have e : lam * (1 / 2) * (1 / 2) ^ k = lam * (1 / 2) ^ (k + 1) := by ring
        rw [e] at hr h4
        exact ⟨k + 1, r, b, by omega, hb, hr, h3, h4⟩
    · cases h

/-- C23. Damping gives up only next to a solution: if the damping loop of a step throws, there is a candidate, after some halvings of the step, at which the next
step would be shorter than `10⁻¹²`, although it isn't shorter by as much as is asked for. -/
theorem C23_gives_up (S : System X Y K) (solve : Y → X) (x step : X) (fuel : ℕ)
    (h : lineSearch S solve x step (S.normX step) fuel 1 (S.move x 1 step) (S.evaluate (S.move x 1 step))
      (S.normX (S.neg (solve (S.evaluate (S.move x 1 step))))) = some Res.throws) :
    ∃ k r b, k ≤ fuel ∧ S.normX step = some b ∧ S.normX (S.neg (solve (S.evaluate (S.move x ((1 / 2) ^ k) step)))) = some r ∧
      r < 1 / 10 ^ 12 ∧ (1 - 1 / 2 * (1 / 2) ^ k) * b < r := by
  simpa using lineSearch_throws S solve x step (S.normX step) fuel 1 h

/-- A case in which it throws: a step of length zero to a place where the next one is tiny, but not zero. -/
example : lineSearch (⟨fun x => x, fun _ => some id, fun x => some |x|, fun x => some |x|, fun x _ _ => x + 1 / 10 ^ 13, fun x => -x⟩ : System ℚ ℚ ℚ)
    id 0 0 (some |0|) 3 1 (0 + 1 / 10 ^ 13) (0 + 1 / 10 ^ 13) (some |-(0 + 1 / 10 ^ 13)|) = some Res.throws := by
  unfold lineSearch
  rw [if_pos (by simp [gt]), if_pos (by simp [gt, minimalStepsize, abs_of_pos]; norm_num)]

end Verif.Newton
