import Verif.IndexLambda.Model
import Verif.Interp.Props

set_option linter.unusedSectionVars false

/-! # Property C08: time weights agree with interpolation -/

set_option autoImplicit false

namespace Verif.IndexLambda

open Verif.Interp

variable {K : Type*} [Field K] [LinearOrder K] [IsStrictOrderedRing K]

/-- Specification: component `k` of the combination described by the pair `(i, lam)`, as it is used
by the derivative distribution: only entry `i` if `lam = 1`, else entries `i` and `i-1`. -/
def combination (v : IV K) (i : ℕ) (lam : K) (k : ℕ) : Option K :=
  if lam = 1 then v.values[i * v.inner + k]?
  else if i = 0 then none
  else do
    let b ← v.values[i * v.inner + k]?
    let a ← v.values[(i - 1) * v.inner + k]?
    pure (lam * b + (1 - lam) * a)

/-- C08. For every strictly increasing grid, every data on it and every time from the first point
(minus EPSILON) to before the last point plus EPSILON, the pair is valid and describes exactly the
interpolated value. -/
theorem C08_agrees_with_interpolation (v : IV K) (hwf : v.WF) (hs : v.points.Pairwise (· < ·))
    (hn : 0 < v.points.length) (t : K) (h1 : v.points[0] - EPSILON ≤ t)
    (h2 : t < v.points[v.points.length - 1] + EPSILON) :
    ∃ i lam, computeIndexLambda v.points t = Res.ok (i, lam) ∧ i < v.points.length ∧
      0 < lam ∧ lam ≤ 1 ∧ (i = 0 → lam = 1) ∧
      ∃ r, eval v t = Res.ok r ∧ r.length = v.inner ∧
        ∀ k < v.inner, r[k]? = combination v i lam k := by
  have he := EPSILON_pos (K := K)
  have hsl := step_le hwf (i := v.points.length - 1) (by omega)
  have hs0 := step_le hwf hn
  unfold computeIndexLambda
  rw [getLast?_eq hn]
  simp only
  by_cases hb : v.points[v.points.length - 1] < t
  · rw [if_pos ⟨hb, h2⟩]
    refine ⟨_, _, rfl, by omega, one_pos, le_rfl, fun _ => rfl, _,
      eval_at_back hwf hn hb.le h2.le, by simp; omega, ?_⟩
    intro k hk
    rw [segment_get hk]; simp [combination]
  · rw [if_neg (by tauto)]
    have hb := not_lt.mp hb
    by_cases hf : v.points[0] < t
    · have hne : v.points ≠ [] := by intro h; simp [h] at hn
      obtain ⟨i, hi, q1, q2⟩ := exists_cell (l := v.points) hne
        (by rw [List.head_eq_getElem]; exact hf)
        (by rw [List.getLast_eq_getElem]; exact hb)
      rw [lowerBound_eq hs hi q1 q2, Res.get_of_lt hi]
      simp only [Res.ok_bind]
      rw [if_neg (by omega), Nat.add_sub_cancel, Res.get_of_lt (by omega)]
      simp only [Res.ok_bind]
      have hlt : v.points[i] < v.points[i + 1] := getElem_lt_of_pairwise hs (by omega) hi
      have hpos : 0 < v.points[i + 1] - v.points[i] := sub_pos.mpr hlt
      refine ⟨i + 1, _, rfl, hi, div_pos (by linarith) hpos, ?_, by omega, ?_⟩
      · rw [div_le_one hpos]; linarith
      · obtain ⟨r, hr, hlen, hk⟩ := C02_eval_affine v hwf hs i hi t q1.le q2
        refine ⟨r, hr, hlen, ?_⟩
        intro k hkk
        obtain ⟨a, b, c, ha, hb', hc, hce, -, -⟩ := hk k hkk
        unfold combination
        rw [hc]
        split
        · rename_i hl
          rw [hb', hce]
          congr 1
          have : (t - v.points[i]) * ((b - a) / (v.points[i + 1] - v.points[i]))
              = ((t - v.points[i]) / (v.points[i + 1] - v.points[i])) * (b - a) := by ring
          rw [this, hl]; ring
        · rw [if_neg (by omega), Nat.add_sub_cancel, ha, hb']
          simp only [Option.bind_eq_bind, Option.bind_some, Option.pure_def, Option.some.injEq]
          rw [hce]; ring
    · have hf := not_lt.mp hf
      have hlb : lowerBound v.points t = 0 := by
        unfold lowerBound
        rw [List.findIdx_eq hn]
        exact ⟨by simpa using hf, by omega⟩
      rw [hlb, Res.get_of_lt hn]
      simp only [Res.ok_bind, if_true]
      refine ⟨0, 1, rfl, hn, one_pos, le_rfl, fun _ => rfl, ?_⟩
      by_cases hlast : v.points[v.points.length - 1] ≤ t
      · -- one-point grid
        have hlen1 : v.points.length = 1 := by
          by_contra hne
          have := getElem_lt_of_pairwise hs (i := 0) (j := v.points.length - 1) (by omega) (by omega)
          exact absurd (lt_of_lt_of_le this (hlast.trans hf)) (lt_irrefl _)
        refine ⟨_, eval_at_back hwf hn hlast h2.le, by simp; omega, ?_⟩
        intro k hk
        rw [segment_get hk]; simp [combination, hlen1]
      · refine ⟨_, eval_at_front hwf hn (not_le.mp hlast) hf h1, by simp; omega, ?_⟩
        intro k hk
        rw [List.getElem?_take_of_lt hk]; simp [combination]

example : computeIndexLambda [(0 : ℚ), 1, 3] 2 = Res.ok (2, 1 / 2) := by decide +kernel
example : ∃ v : IV ℚ, v.WF ∧ v.points = [0, 1, 3] ∧ v.points.Pairwise (· < ·) :=
  ⟨⟨[0, 1, 3], 1, [4, 5, 6]⟩, by decide, rfl, by decide +kernel⟩

/-- C08, outside the covered range: from the last point plus EPSILON on, the code dereferences the
end iterator, although interpolation still accepts the time `back + EPSILON` itself (and the
constructor of the optimizer accepts such a state time). -/
theorem C08_end_iterator (pts : List K) (hs : pts.Pairwise (· < ·)) (hn : 0 < pts.length) (t : K)
    (h : pts[pts.length - 1] + EPSILON ≤ t) : computeIndexLambda pts t = Res.ub := by
  have he := EPSILON_pos (K := K)
  unfold computeIndexLambda
  rw [getLast?_eq hn]
  simp only
  rw [if_neg (by rintro ⟨_, h'⟩; linarith)]
  have : lowerBound pts t = pts.length := by
    unfold lowerBound
    rw [List.findIdx_eq_length]
    intro x hx
    obtain ⟨i, hi, rfl⟩ := List.getElem_of_mem hx
    have := getElem_le_of_pairwise hs (i := i) (j := pts.length - 1) (by omega) (by omega)
    simp; linarith
  rw [this, Res.get_of_ge le_rfl]
  rfl

example : eval (⟨[0, 1], 1, [4, 5]⟩ : IV ℚ) (1 + EPSILON) = Res.ok [5] ∧
    computeIndexLambda [(0 : ℚ), 1] (1 + EPSILON) = Res.ub := by
  constructor
  · decide +kernel
  · exact C08_end_iterator _ (by decide +kernel) (by decide) _ (by simp)

/-- C08 for the whole vector of state times: one valid pair per time, in order. -/
theorem C08_vector (coarse : List K) (hs : coarse.Pairwise (· < ·)) (hn : 0 < coarse.length)
    (fine : List K) (hf : ∀ t ∈ fine, coarse[0] - EPSILON ≤ t ∧
      t < coarse[coarse.length - 1] + EPSILON) :
    ∃ ps, computeIndexLambdaVector coarse fine = Res.ok ps ∧ ps.length = fine.length ∧
      ∀ j (hj : j < fine.length), ∃ p, ps[j]? = some p ∧
        computeIndexLambda coarse fine[j] = Res.ok p := by
  induction fine with
  | nil => exact ⟨[], rfl, rfl, fun j hj => by simp at hj⟩
  | cons t ts ih =>
    obtain ⟨ps, h1, h2, h3⟩ := ih (fun x hx => hf x (by simp [hx]))
    obtain ⟨a, b⟩ := hf t (by simp)
    obtain ⟨i, lam, hil, -⟩ := C08_agrees_with_interpolation
      (⟨coarse, 0, []⟩ : IV K) (by simp [IV.WF]) hs hn t a b
    refine ⟨(i, lam) :: ps, ?_, by simp [h2], ?_⟩
    · simp only at hil; simp [computeIndexLambdaVector, hil, h1]
    · intro j hj
      cases j with
      | zero => exact ⟨(i, lam), by simp, hil⟩
      | succ j =>
        obtain ⟨p, hp, hp'⟩ := h3 j (by simpa using hj)
        exact ⟨p, by simpa using hp, by simpa using hp'⟩

example : computeIndexLambdaVector [(0 : ℚ), 2] [0, 1, 2] =
    Res.ok [(0, 1), (1, 1 / 2), (1, 1)] := by decide +kernel

end Verif.IndexLambda
