import Verif.Basic.Res
import Mathlib.Analysis.Real.Sqrt
import Mathlib.Algebra.BigOperators.Group.List.Basic
import Mathlib.Algebra.Order.Floor.Ring
import Mathlib.Algebra.Order.Archimedean.Basic
import Mathlib.Data.List.Sort
import Mathlib.Data.Rat.Floor
import Mathlib.Tactic.FieldSimp
import Mathlib.Tactic.Linarith
import Mathlib.Tactic.LinearCombination
import Mathlib.Tactic.NormNum
import Mathlib.Tactic.Positivity

/-!
# The helper programs for statistics

`helper_functions/get_mean_sigma.cpp`, `helper_functions/get_quantiles.cpp` and
`helper_functions/extract_new_initial_condition.cpp`. Numbers are real or rational. Modelled here is what is done
with each single quantity; how it is looked up in the json files is in `Collect` for the first two programs.
-/

set_option autoImplicit false

namespace Verif.Helpers

/-! ## Mean and standard deviation -/

/-- `new_mean` — `get_mean_sigma.cpp` 286-288. -/
noncomputable def newMean (oldMean newValue n : ℝ) : ℝ := n / (n + 1) * oldMean + 1 / (n + 1) * newValue

/-- `new_sigma` — `get_mean_sigma.cpp` 289-294. -/
noncomputable def newSigma (oldSigma oldMean newValue n : ℝ) : ℝ :=
  Real.sqrt ((n - 1) / n * oldSigma * oldSigma + 1 / (n + 1) * (newValue - oldMean) * (newValue - oldMean))

/-- What happens to mean and standard deviation of one quantity when all runs are processed, one after another: the first
run sets the values — `get_mean_sigma.cpp` 117-138 —, every other run changes them — `get_mean_sigma.cpp` 148-169. The
number is `number_of_runs` — `get_mean_sigma.cpp` 68, 86: how many runs have been processed before. -/
noncomputable def processFrom : ℕ → ℝ → ℝ → List ℝ → ℝ × ℝ
  | _, mean, sigma, [] => (mean, sigma)
  | n, mean, sigma, x :: runs => processFrom (n + 1) (newMean mean x n) (newSigma sigma mean x n) runs

/-- All runs; there is at least one. -/
noncomputable def process (first : ℝ) (runs : List ℝ) : ℝ × ℝ := processFrom 1 first 0 runs

/-- Specification: the arithmetic mean. -/
noncomputable def mean (data : List ℝ) : ℝ := data.sum / data.length

/-- Specification: the sum of the squared deviations from the mean. -/
noncomputable def squares (data : List ℝ) : ℝ := (data.map fun x => (x - mean data) ^ 2).sum

/-- Specification: the sample standard deviation. -/
noncomputable def deviation (data : List ℝ) : ℝ := Real.sqrt (squares data / (data.length - 1))

theorem sum_squares (data : List ℝ) (c : ℝ) :
    (data.map fun x => (x - c) ^ 2).sum = (data.map fun x => x ^ 2).sum - 2 * c * data.sum + data.length * c ^ 2 := by
  induction data with
  | nil => simp
  | cons x l ih =>
    simp only [List.map_cons, List.sum_cons, ih, List.length_cons]
    push_cast
    ring

theorem squares_append (data : List ℝ) (h : data ≠ []) (x : ℝ) :
    squares (data ++ [x]) = squares data + data.length / (data.length + 1) * (x - mean data) ^ 2 := by
  have hl : (data.length : ℝ) ≠ 0 := by exact_mod_cast (List.length_pos_iff.mpr h).ne'
  have hl1 : (data.length : ℝ) + 1 ≠ 0 := by positivity
  unfold squares
  rw [sum_squares, sum_squares]
  simp only [mean, List.map_append, List.map_cons, List.map_nil, List.sum_append, List.sum_cons, List.sum_nil,
    List.length_append, List.length_cons, List.length_nil]
  push_cast
  field_simp
  ring

theorem mean_append (data : List ℝ) (h : data ≠ []) (x : ℝ) :
    mean (data ++ [x]) = newMean (mean data) x data.length := by
  have hl : (data.length : ℝ) ≠ 0 := by exact_mod_cast (List.length_pos_iff.mpr h).ne'
  have hl1 : (data.length : ℝ) + 1 ≠ 0 := by positivity
  simp only [mean, newMean, List.sum_append, List.sum_cons, List.sum_nil, List.length_append, List.length_cons,
    List.length_nil]
  push_cast
  field_simp
  ring

theorem squares_nonneg (data : List ℝ) : 0 ≤ squares data := by
  unfold squares
  apply List.sum_nonneg
  simp only [List.mem_map, forall_exists_index, and_imp]
  rintro y x - rfl
  positivity

theorem deviation_append (data : List ℝ) (h : data ≠ []) (x : ℝ) :
    deviation (data ++ [x]) = newSigma (deviation data) (mean data) x data.length := by
  have hl : (0 : ℝ) < data.length := by exact_mod_cast List.length_pos_iff.mpr h
  have hl1 : (data.length : ℝ) + 1 ≠ 0 := by positivity
  unfold deviation newSigma
  rw [squares_append data h]
  congr 1
  simp only [List.length_append, List.length_cons, List.length_nil]
  push_cast
  rcases eq_or_lt_of_le (show 1 ≤ data.length from List.length_pos_iff.mpr h) with h1 | h1
  · have h1' : (data.length : ℝ) = 1 := by exact_mod_cast h1.symm
    obtain ⟨y, rfl⟩ := List.length_eq_one_iff.mp h1.symm
    simp [squares, mean]
    ring
  · have h1' : (1 : ℝ) < data.length := by exact_mod_cast h1
    have h2 : (data.length : ℝ) - 1 ≠ 0 := by linarith
    have h3 : (data.length : ℝ) ≠ 0 := hl.ne'
    rw [mul_assoc _ (Real.sqrt _), Real.mul_self_sqrt (div_nonneg (squares_nonneg data) (by linarith))]
    generalize (data.length : ℝ) = n at *
    have h4 : n + 1 - 1 = n := by ring
    rw [h4]
    field_simp

theorem processFrom_eq (data runs : List ℝ) (h : data ≠ []) :
    processFrom data.length (mean data) (deviation data) runs = (mean (data ++ runs), deviation (data ++ runs)) := by
  induction runs generalizing data with
  | nil => simp [processFrom]
  | cons x runs ih =>
    have := ih (data ++ [x]) (by simp)
    rw [mean_append data h, deviation_append data h] at this
    simpa [processFrom] using this

/-- **C61**: processing any number of runs one at a time gives exactly their arithmetic mean and their sample standard
deviation. -/
theorem C61_exact (first : ℝ) (runs : List ℝ) :
    process first runs = (mean (first :: runs), deviation (first :: runs)) := by
  have := processFrom_eq [first] runs (by simp)
  simpa [process, mean, deviation, squares] using this

/-- **C61**: so the order in which the files are found doesn't matter. -/
theorem C61_order (first first' : ℝ) (runs runs' : List ℝ) (h : (first :: runs).Perm (first' :: runs')) :
    process first runs = process first' runs' := by
  have hm : mean (first :: runs) = mean (first' :: runs') := by
    unfold mean
    rw [h.sum_eq, h.length_eq]
  rw [C61_exact, C61_exact]
  simp only [deviation, squares]
  rw [hm, (h.map _).sum_eq, h.length_eq]

example : process 1 [3, 5] = (3, 2) := by
  rw [C61_exact]
  have hm : mean [1, 3, 5] = 3 := by norm_num [mean]
  simp only [deviation, squares, hm, Prod.mk.injEq, true_and]
  rw [Real.sqrt_eq_iff_mul_self_eq_of_pos (by norm_num)]
  norm_num

/-! ## Quantiles -/

/-- `std::round` of a number that is not negative: halves are rounded up. -/
def round (x : ℚ) : ℕ := ⌊x + 1 / 2⌋₊

/-- `highindex` — `get_quantiles.cpp` 399-401. -/
def highIndex (n : ℕ) (q : ℚ) : ℕ := round (1 / 2 * n + q * (1 / 2) * n)

/-- `lowindex` — `get_quantiles.cpp` 401-402. -/
def lowIndex (n : ℕ) (q : ℚ) : ℕ := round (1 / 2 * n - q * (1 / 2) * n)

/-- `data[index]`, a `std::vector`: undefined out of bounds. -/
def access (data : List ℚ) (index : ℕ) : Res ℚ :=
  match data[index]? with
  | some x => Res.ok x
  | none => Res.ub

/-- One entry of `make_quantiles` — `get_quantiles.cpp` 398-404: the values at both ends. -/
def quantile (data : List ℚ) (q : ℚ) : Res (ℚ × ℚ) := do
  let low ← access data (lowIndex data.length q)
  let high ← access data (highIndex data.length q)
  pure (low, high)

/-- `quantile_values` — `get_quantiles.cpp` 396. -/
def quantileValues : List ℚ := [0, 1 / 2, 3 / 4, 9 / 10]

/-- The loop of `make_quantiles` — `get_quantiles.cpp` 397-405. -/
def quantiles (data : List ℚ) : List ℚ → Res (List (ℚ × ℚ))
  | [] => Res.ok []
  | q :: qs => do
    let x ← quantile data q
    let xs ← quantiles data qs
    pure (x :: xs)

/-- `make_quantiles` — `get_quantiles.cpp` 381-407. -/
def makeQuantiles (data : List ℚ) : Res (List (ℚ × ℚ)) := quantiles data quantileValues

theorem access_ok {data : List ℚ} {i : ℕ} (h : i < data.length) : access data i = Res.ok data[i] := by
  simp [access, h]

theorem access_ub {data : List ℚ} {i : ℕ} (h : data.length ≤ i) : access data i = Res.ub := by
  simp [access, h]

theorem high_lt {n : ℕ} {q : ℚ} (hn : 11 ≤ n) (hq : q ≤ 9 / 10) : highIndex n q < n := by
  have : (11 : ℚ) ≤ n := by exact_mod_cast hn
  unfold highIndex round
  rw [Nat.floor_lt' (by omega)]
  nlinarith

theorem low_le_high {n : ℕ} {q : ℚ} (hq : 0 ≤ q) : lowIndex n q ≤ highIndex n q := by
  unfold lowIndex highIndex round
  apply Nat.floor_le_floor
  have : (0 : ℚ) ≤ q * (1 / 2) * n := by positivity
  linarith

theorem quantile_ok {data : List ℚ} {q : ℚ} (hn : 11 ≤ data.length) (h0 : 0 ≤ q) (hq : q ≤ 9 / 10) :
    ∃ (h1 : lowIndex data.length q < data.length) (h2 : highIndex data.length q < data.length),
      quantile data q = Res.ok (data[lowIndex data.length q], data[highIndex data.length q]) := by
  have h2 := high_lt hn hq
  have h1 := lt_of_le_of_lt (low_le_high (n := data.length) h0) h2
  refine ⟨h1, h2, ?_⟩
  unfold quantile
  rw [access_ok h1, access_ok h2]
  rfl

/-- **C62 (partial)**: with at least eleven samples, only existing samples are accessed; the results are samples.
(Missing are fewer samples: `C62_false`.) -/
theorem C62_bounds_partial {data : List ℚ} (hn : 11 ≤ data.length) :
    ∃ result, makeQuantiles data = Res.ok result ∧ result.length = 4 ∧ ∀ x ∈ result, x.1 ∈ data ∧ x.2 ∈ data := by
  obtain ⟨a1, b1, h1⟩ := quantile_ok (q := 0) hn (by norm_num) (by norm_num)
  obtain ⟨a2, b2, h2⟩ := quantile_ok (q := 1 / 2) hn (by norm_num) (by norm_num)
  obtain ⟨a3, b3, h3⟩ := quantile_ok (q := 3 / 4) hn (by norm_num) (by norm_num)
  obtain ⟨a4, b4, h4⟩ := quantile_ok (q := 9 / 10) hn (by norm_num) (by norm_num)
  refine ⟨[(data[lowIndex data.length 0], data[highIndex data.length 0]),
    (data[lowIndex data.length (1 / 2)], data[highIndex data.length (1 / 2)]),
    (data[lowIndex data.length (3 / 4)], data[highIndex data.length (3 / 4)]),
    (data[lowIndex data.length (9 / 10)], data[highIndex data.length (9 / 10)])], ?_, rfl, ?_⟩
  · simp only [makeQuantiles, quantileValues, quantiles, h1, h2, h3, h4]
    rfl
  · simp

/-- **C62 is false for fewer than eleven samples**: for every one of these numbers, the code reads behind the end. -/
theorem C62_false {data : List ℚ} (hn : data.length < 11) : makeQuantiles data = Res.ub := by
  have hhigh : data.length ≤ highIndex data.length (9 / 10) := by
    have : (data.length : ℚ) < 11 := by exact_mod_cast hn
    have hle : (data.length : ℚ) ≤ 10 := by exact_mod_cast Nat.lt_succ_iff.mp hn
    unfold highIndex round
    rw [Nat.le_floor_iff (by positivity)]
    linarith
  have hlast : quantile data (9 / 10) = Res.ub := by
    unfold quantile
    rw [access_ub hhigh]
    cases h : access data (lowIndex data.length (9 / 10)) with
    | ok x => rfl
    | ub => rfl
    | throws => simp only [access] at h; split at h <;> cases h
  have hnot : ∀ q, quantile data q ≠ Res.throws := by
    intro q h
    unfold quantile access at h
    split at h <;> split at h <;> cases h
  simp only [makeQuantiles, quantileValues, quantiles, hlast]
  cases h1 : quantile data 0 with
  | throws => exact absurd h1 (hnot _)
  | ub => rfl
  | ok x =>
    cases h2 : quantile data (1 / 2) with
    | throws => exact absurd h2 (hnot _)
    | ub => rfl
    | ok y =>
      cases h3 : quantile data (3 / 4) with
      | throws => exact absurd h3 (hnot _)
      | ub => rfl
      | ok z => rfl

/-- **C62 (partial)**: the results are ordered, as the data is sorted before: a larger quantile contains a smaller
one. -/
theorem C62_nested_partial {data : List ℚ} (hn : 11 ≤ data.length) (hs : data.Pairwise (· ≤ ·)) {q q' : ℚ} (h0 : 0 ≤ q)
    (hqq : q ≤ q') (hq : q' ≤ 9 / 10) {x y : ℚ × ℚ} (hx : quantile data q = Res.ok x) (hy : quantile data q' = Res.ok y) :
    y.1 ≤ x.1 ∧ x.1 ≤ x.2 ∧ x.2 ≤ y.2 := by
  obtain ⟨a1, b1, h1⟩ := quantile_ok (q := q) hn h0 (hqq.trans hq)
  obtain ⟨a2, b2, h2⟩ := quantile_ok (q := q') hn (h0.trans hqq) hq
  rw [h1] at hx
  rw [h2] at hy
  injection hx with hx
  injection hy with hy
  subst hx
  subst hy
  have hmono : ∀ {i j : ℕ} (hi : i < data.length) (hj : j < data.length), i ≤ j → data[i] ≤ data[j] := by
    intro i j hi hj hij
    rcases eq_or_lt_of_le hij with rfl | hlt
    · exact le_rfl
    · exact List.pairwise_iff_getElem.mp hs i j hi hj hlt
  have hn0 : (0 : ℚ) ≤ data.length := by positivity
  have hmul : q * (1 / 2) * data.length ≤ q' * (1 / 2) * data.length := by nlinarith
  refine ⟨hmono _ _ ?_, hmono _ _ (low_le_high h0), hmono _ _ ?_⟩
  · exact Nat.floor_le_floor (by linarith)
  · exact Nat.floor_le_floor (by linarith)

/-- Twelve samples. -/
example : makeQuantiles [0, 1, 2, 3, 4, 5, 6, 7, 8, 9, 10, 11] = Res.ok [(6, 6), (3, 9), (2, 11), (1, 11)] := by
  decide +kernel

/-! ## Extraction of a state -/

/-- `std::lower_bound` for the times of a result: the index of the first time that is not less than the given one. (It is
found by bisection, which gives the same if the times are increasing.) -/
def lowerBound (time : ℚ) : List ℚ → ℕ
  | [] => 0
  | t :: times => if t < time then lowerBound time times + 1 else 0

/-- The index of the time step that is extracted — `extract_new_initial_condition.cpp` 65-77: undefined if there are no
time steps. -/
def extracted (times : List ℚ) (time : ℚ) : Res ℕ :=
  let index := lowerBound time times
  let index := if index ≠ 0 then index - 1 else index
  if index < times.length then Res.ok index else Res.ub

/-- Specification (the documentation in `extract_new_initial_condition.cpp` 18-23): the first time step not before the
given time, or the last time step if the time is too great. -/
def Documented (times : List ℚ) (time : ℚ) (i : ℕ) : Prop :=
  (∃ t, times[i]? = some t ∧ time ≤ t ∧ ∀ j < i, ∀ t', times[j]? = some t' → t' < time) ∨
    ((∀ t ∈ times, t < time) ∧ i + 1 = times.length)

theorem lowerBound_le (time : ℚ) (times : List ℚ) : lowerBound time times ≤ times.length := by
  induction times with
  | nil => simp [lowerBound]
  | cons t l ih =>
    simp only [lowerBound, List.length_cons]
    split_ifs <;> omega

theorem lowerBound_lt {time : ℚ} {times : List ℚ} {i : ℕ} {t : ℚ} (h : i < lowerBound time times)
    (ht : times[i]? = some t) : t < time := by
  induction times generalizing i with
  | nil => simp at ht
  | cons u l ih =>
    simp only [lowerBound] at h
    split_ifs at h with hu
    · cases i with
      | zero => simp only [List.getElem?_cons_zero, Option.some.injEq] at ht; exact ht ▸ hu
      | succ i => exact ih (i := i) (by omega) (by simpa using ht)
    · omega

theorem lowerBound_ge {time : ℚ} {times : List ℚ} {t : ℚ} (ht : times[lowerBound time times]? = some t) : time ≤ t := by
  induction times with
  | nil => simp at ht
  | cons u l ih =>
    simp only [lowerBound] at ht
    split_ifs at ht with hu
    · exact ih (by simpa using ht)
    · simp only [List.getElem?_cons_zero, Option.some.injEq] at ht
      exact ht ▸ not_lt.mp hu

/-- **C63 is false**: from results for the times 0, 1 and 2, the state at time 1 is asked for. The state at time 0 is
given. -/
theorem C63_false : ¬ ∀ (times : List ℚ) (time : ℚ) (i : ℕ), times.Pairwise (· < ·) →
    extracted times time = Res.ok i → Documented times time i := by
  intro h
  have hnot : ¬ Documented [0, 1, 2] 1 0 := by
    rintro (⟨t, ht, hle, -⟩ | ⟨-, h⟩)
    · simp only [List.getElem?_cons_zero, Option.some.injEq] at ht
      rw [← ht] at hle
      norm_num at hle
    · simp at h
  exact hnot (h [0, 1, 2] 1 0 (by decide +kernel) (by decide +kernel))

/-- **C63 (partial)**: the right step is extracted if the time is not after the first one or is too great. -/
theorem C63_documented_partial {times : List ℚ} {time : ℚ} {i : ℕ}
    (htime : times.head?.any (fun t => time ≤ t) ∨ ∀ t ∈ times, t < time) (h : extracted times time = Res.ok i) :
    Documented times time i := by
  simp only [extracted] at h
  split_ifs at h with h1 h2 h2
  · injection h with h
    rcases htime with hf | hl
    · cases times with
      | nil => simp [lowerBound] at h1
      | cons u l =>
        simp only [List.head?_cons, Option.any_some, decide_eq_true_eq] at hf
        simp [lowerBound, not_lt.mpr hf] at h1
    · refine Or.inr ⟨hl, ?_⟩
      have : lowerBound time times = times.length := by
        rcases eq_or_lt_of_le (lowerBound_le time times) with h' | h'
        · exact h'
        · have hge := lowerBound_ge (List.getElem?_eq_getElem h')
          exact absurd (hl _ (List.getElem_mem h')) (not_lt.mpr hge)
      omega
  · injection h with h
    left
    rw [not_not] at h1
    rw [h1] at h h2
    subst h
    refine ⟨times[0], List.getElem?_eq_getElem h2, ?_, by omega⟩
    apply lowerBound_ge
    rw [h1, List.getElem?_eq_getElem h2]

/-- What is extracted in fact: the last step before the given time, or the first step if there is none before. -/
theorem C63_actual {times : List ℚ} {time : ℚ} {i : ℕ} (h : extracted times time = Res.ok i) :
    (∃ t, times[i]? = some t ∧ t < time ∧ ∀ t', times[i + 1]? = some t' → time ≤ t') ∨
      (i = 0 ∧ ∀ t, times[0]? = some t → time ≤ t) := by
  simp only [extracted] at h
  split_ifs at h with h1 h2 h2
  · injection h with h
    subst h
    left
    refine ⟨_, List.getElem?_eq_getElem h2, lowerBound_lt (by omega) (List.getElem?_eq_getElem h2), fun t' ht' => ?_⟩
    rw [show lowerBound time times - 1 + 1 = lowerBound time times by omega] at ht'
    exact lowerBound_ge ht'
  · injection h with h
    rw [not_not] at h1
    rw [h1] at h
    subst h
    refine Or.inr ⟨rfl, fun t ht => lowerBound_ge (times := times) ?_⟩
    rw [h1, ht]

/-- Results without time steps are undefined behaviour, all others are not. -/
theorem C63_defined {times : List ℚ} {time : ℚ} : (∃ i, extracted times time = Res.ok i) ↔ times ≠ [] := by
  have hle := lowerBound_le time times
  constructor
  · rintro ⟨i, h⟩ rfl
    simp [extracted, lowerBound] at h
  · intro h
    have := List.length_pos_iff.mpr h
    simp only [extracted]
    split_ifs with h1 h2 h2
    · exact ⟨_, rfl⟩
    · omega
    · exact ⟨_, rfl⟩
    · omega

example : extracted [0, 1, 2] 5 = Res.ok 2 ∧ Documented [0, 1, 2] 5 2 :=
  ⟨by decide +kernel, C63_documented_partial (Or.inr (by decide +kernel)) (by decide +kernel)⟩

end Verif.Helpers
