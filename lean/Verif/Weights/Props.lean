import Verif.Weights.Model
import Mathlib.Algebra.BigOperators.Intervals
import Mathlib.Algebra.BigOperators.Fin
import Mathlib.Algebra.Order.BigOperators.Group.Finset
import Mathlib.Data.Rat.Lemmas
import Mathlib.Tactic.Linarith
import Mathlib.Tactic.Ring
import Mathlib.Tactic.FieldSimp

/-! # Property C12: quadrature weights -/

set_option autoImplicit false
set_option linter.unusedSectionVars false

namespace Verif.Weights

open Finset

variable {K : Type*} [Field K]

/-- Specification: the composite trapezoidal rule on the points `t 0, …, t (n-1)`. -/
def trapezoid (n : ℕ) (t f : ℕ → K) : K :=
  ∑ i ∈ range (n - 1), (t (i + 1) - t i) * ((f i + f (i + 1)) / 2)

theorem weights_eq (ts : List K) (h : 2 ≤ ts.length) :
    ∃ w, weights ts = Res.ok w ∧ w.length = ts.length ∧
      ∀ i (hi : i < w.length) (_ : i < ts.length), w[i] =
        (if i + 1 < ts.length then 1 / 2 * (ts.getD (i + 1) 0 - ts.getD i 0) else 0) +
        (if 0 < i then 1 / 2 * (ts.getD i 0 - ts.getD (i - 1) 0) else 0) := by
  have g : ∀ i (hi : i < ts.length), ts.getD i 0 = ts[i] := by
    intro i hi; simp [List.getD_eq_getElem?_getD, hi]
  unfold weights
  rw [dif_neg (by omega), dif_pos h]
  refine ⟨_, rfl, by simp, ?_⟩
  intro i hi hi'
  simp only [List.getElem_ofFn]
  by_cases h1 : i + 1 = ts.length
  · obtain rfl : i = ts.length - 1 := by omega
    rw [if_pos h1, if_neg (by omega), if_pos (by omega), g _ (by omega), g _ (by omega)]; simp
  · rw [if_neg h1]
    by_cases h0 : i = 0
    · subst h0
      rw [if_pos rfl, if_pos (by omega), if_neg (by omega), g _ (by omega), g _ (by omega)]; simp
    · rw [if_neg h0, dif_pos (by omega), if_pos (by omega), if_pos (by omega), g _ (by omega),
        g _ (by omega), g _ (by omega)]
      ring

/-- C12. For every list of at least two time points the weights exist, one per time point, and the
weighted sum of any values is exactly the trapezoidal rule. -/
theorem C12_trapezoid [CharZero K] (ts : List K) (h : 2 ≤ ts.length) :
    ∃ w, weights ts = Res.ok w ∧ w.length = ts.length ∧
      ∀ f : ℕ → K, ∑ i ∈ range ts.length, w.getD i 0 * f i =
        trapezoid ts.length (fun i => ts.getD i 0) f := by
  obtain ⟨w, hw, hlen, hget⟩ := weights_eq ts h
  refine ⟨w, hw, hlen, ?_⟩
  intro f
  obtain ⟨n, hn⟩ : ∃ n, ts.length = n + 1 := ⟨ts.length - 1, by omega⟩
  have hterm : ∀ i ∈ range ts.length, w.getD i 0 * f i =
      (if i + 1 < ts.length then 1 / 2 * (ts.getD (i + 1) 0 - ts.getD i 0) else 0) * f i +
      (if 0 < i then 1 / 2 * (ts.getD i 0 - ts.getD (i - 1) 0) else 0) * f i := by
    intro i hi
    have hi := Finset.mem_range.mp hi
    have : w.getD i 0 = w[i]'(by omega) := by
      simp [List.getD_eq_getElem?_getD, show i < w.length by omega]
    rw [this, hget i (by omega) hi, add_mul]
  rw [Finset.sum_congr rfl hterm, Finset.sum_add_distrib, hn]
  unfold trapezoid
  rw [Nat.add_sub_cancel]
  rw [Finset.sum_range_succ, Finset.sum_range_succ' (n := n)
    (f := fun i => (if 0 < i then 1 / 2 * (ts.getD i 0 - ts.getD (i - 1) 0) else 0) * f i)]
  simp only [lt_irrefl, if_false, zero_mul, add_zero]
  rw [← Finset.sum_add_distrib]
  apply Finset.sum_congr rfl
  intro i hi
  have hi := Finset.mem_range.mp hi
  rw [if_pos (by omega), if_pos (by omega), Nat.add_sub_cancel]
  field_simp

example : weights [(0 : ℚ), 1, 3] = Res.ok [1 / 2, 3 / 2, 1] := by decide +kernel

/-- C12. The weights sum up to the length of the time interval, and every affine function
`a + b t` is integrated exactly. -/
theorem C12_affine_exact [CharZero K] (ts : List K) (h : 2 ≤ ts.length) (a b : K) :
    ∃ w, weights ts = Res.ok w ∧ w.length = ts.length ∧
      ∑ i ∈ range ts.length, w.getD i 0 = ts[ts.length - 1] - ts[0] ∧
      ∑ i ∈ range ts.length, w.getD i 0 * (a + b * ts.getD i 0) =
        (a * ts[ts.length - 1] + b * ts[ts.length - 1] ^ 2 / 2)
          - (a * ts[0] + b * ts[0] ^ 2 / 2) := by
  obtain ⟨w, hw, hlen, hsum⟩ := C12_trapezoid ts h
  have g : ∀ i (hi : i < ts.length), ts.getD i 0 = ts[i] := by
    intro i hi; simp [List.getD_eq_getElem?_getD, hi]
  have tele : ∀ F : ℕ → K, ∀ n, ∑ i ∈ range n, (F (i + 1) - F i) = F n - F 0 :=
    fun F n => Finset.sum_range_sub F n
  refine ⟨w, hw, hlen, ?_, ?_⟩
  · have := hsum (fun _ => 1)
    simp only [mul_one] at this
    rw [this, trapezoid]
    have e : ∀ i ∈ range (ts.length - 1), (ts.getD (i + 1) 0 - ts.getD i 0) * ((1 + 1 : K) / 2) =
        ts.getD (i + 1) 0 - ts.getD i 0 := by intro i _; field_simp; ring
    rw [Finset.sum_congr rfl e, tele (fun i => ts.getD i 0), g _ (by omega), g _ (by omega)]
  · have := hsum (fun i => a + b * ts.getD i 0)
    rw [this, trapezoid]
    have e : ∀ i ∈ range (ts.length - 1), (ts.getD (i + 1) 0 - ts.getD i 0) *
        (((a + b * ts.getD i 0) + (a + b * ts.getD (i + 1) 0)) / 2) =
        (a * ts.getD (i + 1) 0 + b * ts.getD (i + 1) 0 ^ 2 / 2) -
          (a * ts.getD i 0 + b * ts.getD i 0 ^ 2 / 2) := by intro i _; field_simp; ring
    rw [Finset.sum_congr rfl e,
      tele (fun i => a * ts.getD i 0 + b * ts.getD i 0 ^ 2 / 2), g _ (by omega), g _ (by omega)]
    norm_num

/-- C12. On a sorted grid the weights are non-negative, on a strictly increasing one positive. -/
theorem C12_nonneg [LinearOrder K] [IsStrictOrderedRing K] (ts : List K) (h : 2 ≤ ts.length) :
    ∃ w, weights ts = Res.ok w ∧
      (ts.Pairwise (· ≤ ·) → ∀ x ∈ w, 0 ≤ x) ∧ (ts.Pairwise (· < ·) → ∀ x ∈ w, 0 < x) := by
  obtain ⟨w, hw, hlen, hget⟩ := weights_eq ts h
  have g : ∀ i (hi : i < ts.length), ts.getD i 0 = ts[i] := by
    intro i hi; simp [List.getD_eq_getElem?_getD, hi]
  refine ⟨w, hw, ?_, ?_⟩
  · intro hs x hx
    obtain ⟨i, hi, rfl⟩ := List.getElem_of_mem hx
    rw [hget i hi (by omega)]
    have hle := List.pairwise_iff_getElem.mp hs
    apply add_nonneg
    · split
      · rename_i h1
        have := hle i (i + 1) (by omega) h1 (by omega)
        rw [g _ h1, g _ (by omega)]; linarith
      · exact le_rfl
    · split
      · rename_i h1
        have := hle (i - 1) i (by omega) (by omega) (by omega)
        rw [g _ (by omega), g _ (by omega)]; linarith
      · exact le_rfl
  · intro hs x hx
    obtain ⟨i, hi, rfl⟩ := List.getElem_of_mem hx
    rw [hget i hi (by omega)]
    have hlt := List.pairwise_iff_getElem.mp hs
    have p1 : ∀ h1 : i + 1 < ts.length, 0 < 1 / 2 * (ts.getD (i + 1) 0 - ts.getD i 0) := by
      intro h1
      have := hlt i (i + 1) (by omega) h1 (by omega)
      rw [g _ h1, g _ (by omega)]; linarith
    have p2 : 0 < i → 0 < 1 / 2 * (ts.getD i 0 - ts.getD (i - 1) 0) := by
      intro h1
      have := hlt (i - 1) i (by omega) (by omega) (by omega)
      rw [g _ (by omega), g _ (by omega)]; linarith
    by_cases h1 : i + 1 < ts.length <;> by_cases h2 : 0 < i
    · rw [if_pos h1, if_pos h2]; exact add_pos (p1 h1) (p2 h2)
    · rw [if_pos h1, if_neg h2, add_zero]; exact p1 h1
    · rw [if_neg h1, if_pos h2, zero_add]; exact p2 h2
    · omega

example : (2 ≤ [(0 : ℚ), 1, 3].length) ∧ [(0 : ℚ), 1, 3].Pairwise (· < ·) := by decide +kernel

/-- C12, use in the objective: the accumulated cost is the trapezoidal rule without the term of the
initial time (the loop starts at time index 1). -/
theorem C12_objective [CharZero K] (ts : List K) (h : 2 ≤ ts.length) (c : ℕ → K) :
    ∃ w, weights ts = Res.ok w ∧
      accumulate (fun i => w.getD i 0) c ts.length =
        trapezoid ts.length (fun i => ts.getD i 0) c - (ts[1] - ts[0]) / 2 * c 0 := by
  obtain ⟨w, hw, hlen, hget⟩ := weights_eq ts h
  obtain ⟨w', hw', -, hsum⟩ := C12_trapezoid ts h
  rw [hw] at hw'
  obtain rfl : w = w' := by simpa using hw'
  refine ⟨w, hw, ?_⟩
  have hfold : ∀ (l : List ℕ) (a : K), l.foldl (fun acc i => acc + w.getD i 0 * c i) a =
      a + (l.map fun i => w.getD i 0 * c i).sum := by
    intro l
    induction l with
    | nil => simp
    | cons x l ih => intro a; simp only [List.foldl_cons, ih, List.map_cons, List.sum_cons]; ring
  unfold accumulate
  rw [hfold, zero_add, ← hsum c]
  obtain ⟨n, hn⟩ : ∃ n, ts.length = n + 1 := ⟨ts.length - 1, by omega⟩
  have h0 : w.getD 0 0 = (ts[1] - ts[0]) / 2 := by
    have e : w.getD 0 0 = w[0]'(by omega) := by
      simp [List.getD_eq_getElem?_getD, show 0 < w.length by omega]
    rw [e, hget 0 (by omega) (by omega), if_pos (by omega), if_neg (by omega)]
    simp [List.getD_eq_getElem?_getD, show 1 < ts.length by omega, show 0 < ts.length by omega]
    ring
  simp only [hn]
  rw [Finset.sum_range_succ', h0, Nat.add_sub_cancel]
  have : ((List.range' 1 n).map fun i => w.getD i 0 * c i).sum =
      ∑ i ∈ range n, w.getD (i + 1) 0 * c (i + 1) := by
    rw [List.range'_eq_map_range, List.map_map, Finset.sum_range, ← List.sum_ofFn,
      List.ofFn_eq_map, ← List.map_coe_finRange_eq_range, List.map_map]
    congr 1
    apply List.map_congr_left
    intro i _
    simp [Nat.add_comm]
  rw [this]; ring

example : accumulate (fun i => [(1 / 2 : ℚ), 3 / 2, 1].getD i 0) (fun i => i + 1) 3 = 6 := by
  decide +kernel

end Verif.Weights
