import Verif.Float.Binary64
import Verif.Evolve.Model

/-! # Property C94: data for the whole simulated time suffice, in floating point arithmetic -/

set_option autoImplicit false
set_option linter.unusedSectionVars false

namespace Verif.Float

open Verif.Interp

variable {K : Type} [Field K] [LinearOrder K] [IsStrictOrderedRing K]

/-! ## The points -/

/-- The `i`-th point. -/
def point (R : Rounding K) (c d : K) (i : ℕ) : K := (fun x => R.add x d)^[i] c

theorem point_succ (R : Rounding K) (c d : K) (i : ℕ) : point R c d (i + 1) = R.add (point R c d i) d :=
  Function.iterate_succ_apply' _ _ _

theorem points_length (R : Rounding K) (c d : K) (n : ℕ) : (points R c d n).length = n := by
  induction n generalizing c with
  | zero => rfl
  | succ n ih => simp [points, ih]

theorem points_get (R : Rounding K) (c d : K) {n i : ℕ} (h : i < n) :
    (points R c d n)[i]? = some (point R c d i) := by
  induction n generalizing c i with
  | zero => omega
  | succ n ih =>
    cases i with
    | zero => rfl
    | succ i =>
      rw [points, List.getElem?_cons_succ, ih _ (by omega)]
      rfl

theorem point_rep {R : Rounding K} {c : K} (hc : R.Rep c) (d : K) (i : ℕ) : R.Rep (point R c d i) := by
  cases i with
  | zero => exact hc
  | succ i => rw [point_succ]; exact R.rep_rnd _

theorem point_le_succ {R : Rounding K} {c d : K} (hc : R.Rep c) (hd : 0 ≤ d) (i : ℕ) :
    point R c d i ≤ point R c d (i + 1) := by
  rw [point_succ]
  exact R.ge_of_rep_le (by linarith) (point_rep hc d i)

theorem point_mono {R : Rounding K} {c d : K} (hc : R.Rep c) (hd : 0 ≤ d) {i j : ℕ} (h : i ≤ j) :
    point R c d i ≤ point R c d j :=
  monotone_nat_of_le_succ (point_le_succ hc hd) h

/-- Accumulated rounding errors. -/
theorem point_error (R : Rounding K) (c : K) {d : K} (hd : 0 ≤ d) (i : ℕ) :
    |point R c d i - (c + i * d)| ≤ ((1 + R.unit) ^ i - 1) * (|c| + i * d) := by
  have hu := R.unit_nonneg
  induction i with
  | zero => simp [point]
  | succ i ih =>
    rw [point_succ]
    have hid : 0 ≤ (i : K) * d := mul_nonneg (Nat.cast_nonneg i) hd
    have hp : 1 ≤ (1 + R.unit) ^ i := one_le_pow₀ (by linarith)
    have h1 : |point R c d i + d - (c + (i + 1 : ℕ) * d)| ≤ ((1 + R.unit) ^ i - 1) * (|c| + (i + 1 : ℕ) * d) := by
      have e : point R c d i + d - (c + (i + 1 : ℕ) * d) = point R c d i - (c + i * d) := by push_cast; ring
      rw [e]
      refine le_trans ih (mul_le_mul_of_nonneg_left ?_ (by linarith))
      push_cast
      linarith
    have h2 : |c + (i + 1 : ℕ) * d| ≤ |c| + (i + 1 : ℕ) * d := by
      refine le_trans (abs_add_le _ _) ?_
      rw [abs_of_nonneg (mul_nonneg (Nat.cast_nonneg _) hd)]
    refine le_trans (abs_sub_rnd_le R h1 h2) (le_of_eq ?_)
    rw [pow_succ]
    ring

/-! ## The time grid -/

section
variable [FloorRing K]

theorem ceil_pos_of (R : Rounding K) {start stop desired : K} (h : start < stop) (hd : 0 < desired) :
    0 < ⌈R.div (R.sub stop start) desired⌉ :=
  Int.ceil_pos.mpr (R.pos (div_pos (R.pos (sub_pos.mpr h)) hd))

/-- The grid is made, and how. -/
theorem stateGrid_eq (R : Rounding K) {start desired stop : K} (h : start < stop) (hd : 0 < desired) :
    ∃ n : ℕ, 0 < n ∧ stateGrid R start desired stop =
      Res.ok (points R start (R.div (R.sub stop start) (R.rnd n)) (n + 1)) := by
  have hc := ceil_pos_of R h hd
  set c := ⌈R.div (R.sub stop start) desired⌉ with hcdef
  have hnum : numberOfTimesteps R start desired stop = Res.ok (c + 1) := by
    unfold numberOfTimesteps
    rw [if_neg hd.ne']
  have hcpos : (0 : K) < ((c + 1 - 1 : ℤ) : K) := by rw [add_sub_cancel_right]; exact_mod_cast hc
  have hdel : deltaT R start stop (c + 1) = .finite (R.div (R.sub stop start) (R.rnd ((c + 1 - 1 : ℤ) : K))) := by
    unfold deltaT
    rw [if_neg (by omega)]
  have hd1 : 0 < R.div (R.sub stop start) (R.rnd ((c + 1 - 1 : ℤ) : K)) :=
    R.pos (div_pos (R.pos (sub_pos.mpr h)) (R.pos hcpos))
  have hc2 := ceil_pos_of R h hd1
  unfold stateGrid
  rw [hnum, Res.ok_bind, hdel]
  unfold gridFromDelta makeFromStartDeltaEnd
  simp only [not_le.mpr h, not_le.mpr hd1, if_false, Res.ok_bind]
  generalize ⌈R.div (R.sub stop start) (R.div (R.sub stop start) (R.rnd ((c + 1 - 1 : ℤ) : K)))⌉ = c2 at hc2
  refine ⟨c2.toNat, by omega, ?_⟩
  have e1 : (c2 + 1).toNat - 1 = c2.toNat := by omega
  have e2 : (c2 + 1).toNat = c2.toNat + 1 := by omega
  rw [e1, e2]

theorem step_error (R : Rounding K) {start stop : K} (h : start < stop) {n : ℕ} (hn : 0 < n) (hr : R.Rep (n : K)) :
    |R.div (R.sub stop start) (R.rnd n) - (stop - start) / n| ≤ ((1 + R.unit) ^ 2 - 1) * ((stop - start) / n) := by
  have hn' : (0 : K) < n := by exact_mod_cast hn
  have hD : 0 < stop - start := sub_pos.mpr h
  have hr' : R.rnd (n : K) = n := hr
  rw [hr']
  have h1 : |R.sub stop start / n - (stop - start) / n| ≤ R.unit * ((stop - start) / n) := by
    rw [← sub_div, abs_div, abs_of_pos hn', ← mul_div_assoc]
    refine div_le_div_of_nonneg_right ?_ hn'.le
    have := R.error (stop - start)
    rwa [abs_of_pos hD] at this
  have h2 : |(stop - start) / n| ≤ (stop - start) / n := by rw [abs_of_pos (div_pos hD hn')]
  refine le_trans (abs_sub_rnd_le R h1 h2) (le_of_eq ?_)
  ring

/-- The distance of a computed time from the exact one. -/
theorem grid_error (R : Rounding K) {start stop : K} (h : start < stop) {n : ℕ} (hn : 0 < n) (hr : R.Rep (n : K)) (i : ℕ) :
    |point R start (R.div (R.sub stop start) (R.rnd n)) i - (start + i * ((stop - start) / n))| ≤
      ((1 + R.unit) ^ (i + 2) - 1) * (|start| + i * ((stop - start) / n)) := by
  have hu := R.unit_nonneg
  have hn' : (0 : K) < n := by exact_mod_cast hn
  have hD : 0 < (stop - start) / n := div_pos (sub_pos.mpr h) hn'
  have hd : 0 ≤ R.div (R.sub stop start) (R.rnd n) :=
    R.nonneg (div_nonneg (R.nonneg (sub_pos.mpr h).le) (R.nonneg hn'.le))
  have e1 := point_error R start hd i
  have e2 := step_error R h hn hr
  generalize R.div (R.sub stop start) (R.rnd n) = d at *
  generalize (stop - start) / (n : K) = D at *
  have hi : (0 : K) ≤ i := Nat.cast_nonneg i
  have hs : 0 ≤ |start| := abs_nonneg start
  have hp : 1 ≤ (1 + R.unit) ^ i := one_le_pow₀ (by linarith)
  have hq : 1 ≤ (1 + R.unit) ^ 2 := one_le_pow₀ (by linarith)
  have hdD : d ≤ (1 + R.unit) ^ 2 * D := by linarith [(abs_le.mp e2).2]
  have e3 : |(start + i * d) - (start + i * D)| ≤ i * (((1 + R.unit) ^ 2 - 1) * D) := by
    have e : (start + i * d) - (start + i * D) = i * (d - D) := by ring
    rw [e, abs_mul, abs_of_nonneg hi]
    exact mul_le_mul_of_nonneg_left e2 hi
  have e4 := abs_sub_le (point R start d i) (start + i * d) (start + i * D)
  have e5 : ((1 + R.unit) ^ i - 1) * (|start| + i * d) ≤
      ((1 + R.unit) ^ i - 1) * ((1 + R.unit) ^ 2 * |start| + i * ((1 + R.unit) ^ 2 * D)) := by
    refine mul_le_mul_of_nonneg_left (add_le_add ?_ (mul_le_mul_of_nonneg_left hdD hi)) (by linarith)
    nlinarith
  have e6 : ((1 + R.unit) ^ (i + 2) - 1) * (|start| + i * D) =
      ((1 + R.unit) ^ i - 1) * ((1 + R.unit) ^ 2 * |start| + i * ((1 + R.unit) ^ 2 * D)) +
        ((1 + R.unit) ^ 2 - 1) * |start| + i * (((1 + R.unit) ^ 2 - 1) * D) := by
    rw [pow_add]
    ring
  have e7 : 0 ≤ ((1 + R.unit) ^ 2 - 1) * |start| := mul_nonneg (by linarith) hs
  linarith

/-- C94. The time grid in floating point arithmetic: it starts exactly at the start, never decreases, and each time is close to
the exact one. -/
theorem C94_grid (R : Rounding K) {start desired stop : K} (hs : R.Rep start) (h : start < stop) (hd : 0 < desired) :
    ∃ grid, stateGrid R start desired stop = Res.ok grid ∧ 2 ≤ grid.length ∧ grid.head? = some start ∧
      grid.Pairwise (· ≤ ·) ∧ (∀ x ∈ grid, R.Rep x) ∧
      (R.Rep ((grid.length - 1 : ℕ) : K) → ∀ (i : ℕ) (x : K), grid[i]? = some x →
        |x - (start + i * ((stop - start) / (grid.length - 1 : ℕ)))| ≤
          ((1 + R.unit) ^ (i + 2) - 1) * (|start| + i * ((stop - start) / (grid.length - 1 : ℕ)))) := by
  obtain ⟨n, hn, hg⟩ := stateGrid_eq R h hd
  have hn' : (0 : K) < n := by exact_mod_cast hn
  have hd : 0 ≤ R.div (R.sub stop start) (R.rnd n) :=
    R.nonneg (div_nonneg (R.nonneg (sub_pos.mpr h).le) (R.nonneg hn'.le))
  refine ⟨_, hg, ?_, rfl, ?_, ?_, ?_⟩
  · rw [points_length]; omega
  · rw [List.pairwise_iff_getElem]
    intro i j hi hj hij
    rw [points_length] at hi hj
    have e1 := points_get R start (R.div (R.sub stop start) (R.rnd n)) hi
    have e2 := points_get R start (R.div (R.sub stop start) (R.rnd n)) hj
    rw [List.getElem?_eq_getElem (by rwa [points_length]), Option.some.injEq] at e1 e2
    rw [e1, e2]
    exact point_mono hs hd hij.le
  · intro x hx
    obtain ⟨i, hi, rfl⟩ := List.getElem_of_mem hx
    rw [points_length] at hi
    have e1 := points_get R start (R.div (R.sub stop start) (R.rnd n)) hi
    rw [List.getElem?_eq_getElem (by rwa [points_length]), Option.some.injEq] at e1
    rw [e1]
    exact point_rep hs _ i
  · rw [points_length, Nat.add_sub_cancel]
    intro hr i x hx
    have hi : i < n + 1 := by
      by_contra hcon
      rw [List.getElem?_eq_none (by rw [points_length]; omega)] at hx
      cases hx
    rw [points_get R _ _ hi, Option.some.injEq] at hx
    subst hx
    exact grid_error R h hn hr i

/-- Specification: the data begin at or before `start` and end at or after `stop`. -/
def Covers (R : Rounding K) (v : IV K) (start stop : K) : Prop :=
  v.WF ∧ v.points.Pairwise (· < ·) ∧ AllRep R v ∧
    ∃ front back, v.points.head? = some front ∧ v.points.getLast? = some back ∧ front ≤ start ∧ stop ≤ back

/-- C94 as stated: if boundary values or controls are given for all times from start to end, then they can be evaluated at all
times of the simulation. -/
def C94Statement (R : Rounding K) : Prop :=
  ∀ start desired stop : K, R.Rep start → R.Rep desired → R.Rep stop → start < stop → 0 < desired →
    ∀ grid, stateGrid R start desired stop = Res.ok grid → ∀ v : IV K, Covers R v start stop →
      ∀ t ∈ grid, ∃ r, eval R v t = Res.ok r

theorem eval_ok (R : Rounding K) {v : IV K} {start stop : K} (hv : Covers R v start stop) {t : K} (ht : R.Rep t)
    (h1 : start ≤ t) (h2 : t ≤ stop + R.rnd EPSILON) : ∃ r, eval R v t = Res.ok r := by
  obtain ⟨hwf, hs, hr, front, back, hf, hb, hf', hb'⟩ := hv
  have hn : 0 < v.points.length := by
    cases hp : v.points with
    | nil => rw [hp] at hf; cases hf
    | cons a l => simp
  rw [head?_eq hn, Option.some.injEq] at hf
  rw [getLast?_eq hn, Option.some.injEq] at hb
  subst hf hb
  obtain ⟨h3, h4, -⟩ := C93_range R v hwf hs hr hn t
  cases he : eval R v t with
  | ok r => exact ⟨r, rfl⟩
  | ub => exact absurd he h4
  | throws =>
    exfalso
    rcases h3.mp he with h | h
    · have := sub_eps_le (hr.1 _ (List.getElem_mem hn))
      linarith
    · have : t ≤ R.add v.points[v.points.length - 1] (R.rnd EPSILON) := R.ge_of_rep_le (by linarith) ht
      linarith

/-- C94, proved part: data for the whole simulated time suffice if the accumulated rounding errors stay below the tolerance of
the evaluation, in particular in exact arithmetic. Missing: longer time grids, see `C94_false`. -/
theorem C94_data_partial (R : Rounding K) {start desired stop : K} (hs : R.Rep start) (h : start < stop) (hd : 0 < desired)
    {grid : List K} (hg : stateGrid R start desired stop = Res.ok grid) (hr : R.Rep ((grid.length - 1 : ℕ) : K))
    (hu : ((1 + R.unit) ^ (grid.length + 1) - 1) * (|start| + (stop - start)) ≤ R.rnd EPSILON)
    {v : IV K} (hv : Covers R v start stop) {t : K} (ht : t ∈ grid) : ∃ r, eval R v t = Res.ok r := by
  obtain ⟨grid', hg', hlen, hhead, hp, hrep, herr⟩ := C94_grid R hs h hd
  rw [hg] at hg'
  injection hg' with hg'
  subst hg'
  obtain ⟨i, hi, rfl⟩ := List.getElem_of_mem ht
  refine eval_ok R hv (hrep _ ht) ?_ ?_
  · rw [head?_eq (by omega), Option.some.injEq] at hhead
    rcases Nat.eq_zero_or_pos i with rfl | h0
    · exact hhead.ge
    · have := List.pairwise_iff_getElem.mp hp 0 i (by omega) hi h0
      rwa [hhead] at this
  · have e := herr hr (grid.length - 1) grid[grid.length - 1] (by simp)
    have hle : grid[i] ≤ grid[grid.length - 1] := by
      rcases Nat.lt_or_ge i (grid.length - 1) with h0 | h0
      · exact List.pairwise_iff_getElem.mp hp _ _ hi (by omega) h0
      · have : i = grid.length - 1 := by omega
        subst this
        exact le_rfl
    have hn : ((grid.length - 1 : ℕ) : K) ≠ 0 := by
      have : grid.length - 1 ≠ 0 := by omega
      exact_mod_cast this
    rw [mul_div_cancel₀ _ hn, show grid.length - 1 + 2 = grid.length + 1 by omega] at e
    have := (abs_le.mp e).2
    linarith

/-- C94. The times are strictly increasing unless the wished step is so small that it drowns in rounding errors. -/
theorem C94_increasing (R : Rounding K) {start desired stop : K} (h : start < stop) (hd : 0 < desired)
    {grid : List K} (hg : stateGrid R start desired stop = Res.ok grid) (hr : R.Rep ((grid.length - 1 : ℕ) : K))
    (hu : R.unit ≤ 1 / 8) (hp : (1 + R.unit) ^ (grid.length + 1) ≤ 2)
    (hsmall : 8 * R.unit * (grid.length - 1 : ℕ) * (|start| + (stop - start)) < stop - start) :
    grid.Pairwise (· < ·) := by
  obtain ⟨n, hn, hg'⟩ := stateGrid_eq R h hd
  rw [hg] at hg'
  injection hg' with hg'
  subst hg'
  rw [points_length, Nat.add_sub_cancel] at hr hsmall
  rw [points_length] at hp
  have hu0 := R.unit_nonneg
  have hn' : (0 : K) < n := by exact_mod_cast hn
  have hD : 0 < stop - start := sub_pos.mpr h
  have hDn : 0 < (stop - start) / n := div_pos hD hn'
  have hd0 : 0 ≤ R.div (R.sub stop start) (R.rnd n) :=
    R.nonneg (div_nonneg (R.nonneg hD.le) (R.nonneg hn'.le))
  have hstep := abs_le.mp (step_error R h hn hr)
  have herr := grid_error R h hn hr
  generalize R.div (R.sub stop start) (R.rnd n) = d at *
  have key : ∀ i < n, point R start d i < point R start d (i + 1) := by
    intro i hi
    rw [point_succ]
    have hin : (i : K) * ((stop - start) / n) ≤ stop - start := by
      have : (i : K) ≤ n := by exact_mod_cast hi.le
      calc (i : K) * ((stop - start) / n) ≤ n * ((stop - start) / n) := mul_le_mul_of_nonneg_right this hDn.le
        _ = stop - start := mul_div_cancel₀ _ hn'.ne'
    have hi0 : 0 ≤ (i : K) * ((stop - start) / n) := mul_nonneg (Nat.cast_nonneg i) hDn.le
    have hpi : (1 + R.unit) ^ (i + 2) ≤ 2 :=
      le_trans (pow_le_pow_right₀ (by linarith) (by omega)) hp
    have hS : 0 ≤ |start| := abs_nonneg start
    have e1 : |point R start d i| ≤ 2 * (|start| + (stop - start)) := by
      have a1 := abs_add_le (point R start d i - (start + i * ((stop - start) / n))) (start + i * ((stop - start) / n))
      rw [sub_add_cancel] at a1
      have a2 := abs_add_le start (i * ((stop - start) / n))
      rw [abs_of_nonneg hi0] at a2
      have a3 : ((1 + R.unit) ^ (i + 2) - 1) * (|start| + i * ((stop - start) / n)) ≤
          1 * (|start| + i * ((stop - start) / n)) := mul_le_mul_of_nonneg_right (by linarith) (by linarith)
      linarith [herr i]
    have hp2 : (1 + R.unit) ^ 2 ≤ 2 := le_trans (pow_le_pow_right₀ (by linarith) (by omega)) hp
    have hDn' : (stop - start) / n ≤ stop - start := div_le_self hD.le (by exact_mod_cast hn)
    have e2 : d ≤ 2 * (|start| + (stop - start)) := by nlinarith [hstep.2]
    have e3 : (stop - start) / n / 2 ≤ d := by
      have a1 : (1 + R.unit) ^ 2 - 1 ≤ 1 / 2 := by nlinarith
      have a2 := mul_le_mul_of_nonneg_right a1 hDn.le
      linarith [hstep.1]
    have e4 : |point R start d i + d| ≤ 4 * (|start| + (stop - start)) := by
      have := abs_add_le (point R start d i) d
      rw [abs_of_nonneg hd0] at this
      linarith
    have e5 : R.unit * |point R start d i + d| < d := by
      have a1 := mul_le_mul_of_nonneg_left e4 hu0
      have a2 : 4 * R.unit * (|start| + (stop - start)) < (stop - start) / n / 2 := by
        rw [lt_div_iff₀ (by norm_num), lt_div_iff₀ hn']
        linarith
      linarith
    have e6 := (abs_le.mp (R.error (point R start d i + d))).1
    have : R.rnd (point R start d i + d) = R.add (point R start d i) d := rfl
    rw [this] at e6
    linarith
  have mono : ∀ j, j ≤ n → ∀ i < j, point R start d i < point R start d j := by
    intro j
    induction j with
    | zero => intro _ i hi; omega
    | succ j ih =>
      intro hj i hi
      have h1 := key j (by omega)
      rcases Nat.lt_or_ge i j with h0 | h0
      · exact lt_trans (ih (by omega) i h0) h1
      · have : i = j := by omega
        subst this
        exact h1
  rw [List.pairwise_iff_getElem]
  intro i j hi hj hij
  rw [points_length] at hi hj
  have e1 := points_get R start d hi
  have e2 := points_get R start d hj
  rw [List.getElem?_eq_getElem (by rwa [points_length]), Option.some.injEq] at e1 e2
  rw [e1, e2]
  exact mono j (by omega) i hij

end

/-! ## The property is false for `double` -/

/-- Data for two days. -/
def twoDays : IV ℚ := ⟨[0, 172800], 1, [1, 1]⟩

theorem twoDays_covers : Covers binary64 twoDays 0 172800 := by
  have h0 : binary64.Rep 0 := binary64.zero
  have h1 : binary64.Rep 1 := binary64.one
  have h2 : binary64.Rep 172800 := by exact_mod_cast binary64_nat (n := 172800) (by norm_num)
  refine ⟨by decide, by decide +kernel, ⟨?_, ?_⟩, 0, 172800, rfl, rfl, le_rfl, le_rfl⟩
  · intro x hx
    simp only [twoDays, List.mem_cons, List.not_mem_nil, or_false] at hx
    rcases hx with rfl | rfl
    · exact h0
    · exact h2
  · intro x hx
    simp only [twoDays, List.mem_cons, List.not_mem_nil, or_false] at hx
    rcases hx with rfl | rfl <;> exact h1

/-- The last time of a simulation of two days in steps of at most 59 minutes is too late. -/
theorem twoDays_fails : ∃ grid, stateGrid binary64 0 3540 172800 = Res.ok grid ∧
    grid.getLast? = some (172800 + 1 / 2 ^ 33) ∧ eval binary64 twoDays (172800 + 1 / 2 ^ 33) = Res.throws := by
  have h : (match stateGrid binary64 0 3540 172800 with
      | Res.ok grid => grid.getLast? == some (172800 + 1 / 2 ^ 33)
      | _ => false) = true := by decide +kernel
  cases hg : stateGrid binary64 0 3540 172800 with
  | ok grid =>
    rw [hg] at h
    exact ⟨grid, rfl, by simpa using h, by decide +kernel⟩
  | throws => rw [hg] at h; cases h
  | ub => rw [hg] at h; cases h

/-- C94 is false for `double`: the last time of the grid may lie so far behind the end that data which end at the end of the
simulation cannot be evaluated there. -/
theorem C94_false : ¬ C94Statement binary64 := by
  intro h
  obtain ⟨grid, hg, hl, he⟩ := twoDays_fails
  have hmem : (172800 + 1 / 2 ^ 33 : ℚ) ∈ grid := List.mem_of_mem_getLast? (by rw [hl]; rfl)
  obtain ⟨r, hr⟩ := h 0 3540 172800 binary64.zero
    (by exact_mod_cast binary64_nat (n := 3540) (by norm_num))
    (by exact_mod_cast binary64_nat (n := 172800) (by norm_num)) (by norm_num) (by norm_num) grid hg twoDays
    twoDays_covers _ hmem
  rw [he] at hr
  cases hr

theorem loop_not_ok {T X C : Type} {retries : ℤ} {simplified : Bool} {solver : Evolve.Solver T X C} {controls : T → Res C}
    {t : T} (hc : controls t = Res.throws) (ts : List T) (ht : t ∈ ts) (lastTime : T) (a b : X)
    (hist : List (Evolve.Attempt T X C)) (xs : List X) :
    (Evolve.loop retries simplified solver controls ts lastTime a b hist).1 ≠ Res.ok xs := by
  induction ts generalizing lastTime a b hist xs with
  | nil => cases ht
  | cons s ts ih =>
    unfold Evolve.loop
    rcases List.mem_cons.mp ht with rfl | ht
    · rw [hc]
      simp
    · cases controls s with
      | throws => simp
      | ub => simp
      | ok c =>
        simp only
        split
        · simp
        · simp
        · next x hist' _ =>
          split
          · next xs' hist'' hl =>
            exact absurd (congrArg Prod.fst hl) (ih ht _ _ _ _ _)
          · next h => exact fun e => h _ _ (Prod.ext e rfl)

/-- C94 is false for `double`, in terms of a whole simulation: with controls (or boundary values) that are given for two days,
a simulation of these two days in steps of at most 59 minutes never returns, whatever the solver does. -/
theorem C94_simulation_false : ∃ grid, stateGrid binary64 0 3540 172800 = Res.ok grid ∧
    ∀ (X : Type) (retries : ℤ) (simplified : Bool) (solver : Evolve.Solver ℚ X (List ℚ)) (initial : X) (xs : List X),
      (Evolve.simulate retries simplified solver (eval binary64 twoDays) grid initial).1 ≠ Res.ok xs := by
  obtain ⟨grid, hg, hl, he⟩ := twoDays_fails
  refine ⟨grid, hg, ?_⟩
  intro X retries simplified solver initial xs
  match grid, hl with
  | [], _ => simp [Evolve.simulate]
  | [_], _ => simp [Evolve.simulate]
  | t0 :: t1 :: ts, hl =>
    have hmem : (172800 + 1 / 2 ^ 33 : ℚ) ∈ t1 :: ts :=
      List.mem_of_mem_getLast? (by rw [List.getLast?_cons_cons] at hl; rw [hl]; rfl)
    unfold Evolve.simulate
    simp only
    cases eval binary64 twoDays t1 with
    | throws => simp
    | ub => simp
    | ok c =>
      simp only
      split
      · next xs' hist hl' => exact absurd (congrArg Prod.fst hl') (loop_not_ok he _ hmem _ _ _ _ _)
      · next h => exact fun e => h _ _ (Prod.ext e rfl)

/-- The number of time points the time data report need not be that of the grid: one day in steps of at most 23 minutes. -/
theorem C94_number_false : ∃ grid, stateGrid binary64 0 1380 86400 = Res.ok grid ∧
    numberOfTimesteps binary64 0 1380 86400 = Res.ok 64 ∧ grid.length = 65 := by
  have h : (match stateGrid binary64 0 1380 86400 with
      | Res.ok grid => grid.length == 65
      | _ => false) = true := by decide +kernel
  cases hg : stateGrid binary64 0 1380 86400 with
  | ok grid =>
    rw [hg] at h
    exact ⟨grid, rfl, by decide +kernel, by simpa using h⟩
  | throws => rw [hg] at h; cases h
  | ub => rw [hg] at h; cases h

/-! ## The hypotheses can be met -/

/-- One hour in steps of one minute: the bound is met. -/
example : ∃ grid, stateGrid binary64 0 60 3600 = Res.ok grid ∧ grid.length = 61 ∧
    binary64.Rep ((grid.length - 1 : ℕ) : ℚ) ∧
    ((1 + binary64.unit) ^ (grid.length + 1) - 1) * (|(0 : ℚ)| + (3600 - 0)) ≤ binary64.rnd EPSILON ∧
    8 * binary64.unit * (grid.length - 1 : ℕ) * (|(0 : ℚ)| + (3600 - 0)) < 3600 - 0 ∧
    (1 + binary64.unit) ^ (grid.length + 1) ≤ 2 := by
  have h : (match stateGrid binary64 0 60 3600 with
      | Res.ok grid => grid.length == 61
      | _ => false) = true := by decide +kernel
  cases hg : stateGrid binary64 0 60 3600 with
  | ok grid =>
    rw [hg] at h
    have hl : grid.length = 61 := by simpa using h
    refine ⟨grid, rfl, hl, ?_, ?_, ?_, ?_⟩ <;> rw [hl]
    · exact binary64_nat (by norm_num)
    · decide +kernel
    · decide +kernel
    · decide +kernel
  | throws => rw [hg] at h; cases h
  | ub => rw [hg] at h; cases h

/-- A constant boundary value of 5 for one hour. -/
def constantFive : IV ℚ := ⟨[0, 3600], 1, [5, 5]⟩

theorem constantFive_rep : AllRep binary64 constantFive := by
  have h (n : ℕ) (hn : n ≤ 2 ^ 53) : binary64.Rep (n : ℚ) := binary64_nat hn
  constructor
  · intro x hx
    simp only [constantFive, List.mem_cons, List.not_mem_nil, or_false] at hx
    rcases hx with rfl | rfl
    · exact binary64.zero
    · exact_mod_cast h 3600 (by norm_num)
  · intro x hx
    simp only [constantFive, List.mem_cons, List.not_mem_nil, or_false] at hx
    rcases hx with rfl | rfl <;> exact_mod_cast h 5 (by norm_num)

/-- C93. The overshoot is real: a constant boundary value is not constant for `double`. -/
theorem C93_constants_change : constantFive.WF ∧ constantFive.points.Pairwise (· < ·) ∧ AllRep binary64 constantFive ∧
    eval binary64 constantFive 2 = Res.ok [5 + 1 / 2 ^ 50] :=
  ⟨by decide, by decide +kernel, constantFive_rep, by decide +kernel⟩

/-- At the nodes the value is exact, and the unit of rounding of `double` is small enough for `C93_accuracy`. -/
example : eval binary64 constantFive 3600 = Res.ok [5] ∧ binary64.unit ≤ 1 / 100 := by
  constructor
  · have h := (C93_nodes binary64 constantFive (by decide) (by decide +kernel) constantFive_rep 1 (by decide)).1
    exact h.trans (by decide +kernel)
  · norm_num [binary64]

end Verif.Float
