import Verif.Float.Binary64
import Verif.Weights.Props
import Mathlib.Algebra.BigOperators.Group.Finset.Sigma

/-!
# Property C154: the objective in floating point arithmetic

`make_objective_function_coefficients`, `ImplicitOptimizer::evaluate_cost`, `evaluate_penalty`, `Networkproblem::evaluate_cost` and
`Compressorstation::evaluate_cost` with a rounding after each operation. The controls of the compressors at the times of the states are given
(their interpolation is C93). As in `Float/Rounding.lean` there is no overflow or underflow.
-/

set_option autoImplicit false
set_option linter.unusedSectionVars false

namespace Verif.Float

open Verif.Interp Verif.Weights

variable {K : Type} [Field K] [LinearOrder K]

/-! ## Model -/

/-- `make_objective_function_coefficients` — `ImplicitOptimizer.cpp` 33-51, for at least two times. -/
def coefficient (R : Rounding K) (ts : List K) (i : ℕ) : K :=
  if i + 1 = ts.length then R.mul (R.rnd (1 / 2)) (R.sub (ts.getD i 0) (ts.getD (i - 1) 0))
  else if i = 0 then R.mul (R.rnd (1 / 2)) (R.sub (ts.getD 1 0) (ts.getD 0 0))
  else R.mul (R.rnd (1 / 2)) (R.sub (ts.getD (i + 1) 0) (ts.getD (i - 1) 0))

/-- `Compressorstation::evaluate_cost` — `Compressorstation.cpp` 138-143, with weight 1. -/
def stationCost (R : Rounding K) (u : K) : K := R.mul (R.mul 1 u) u

/-- `Networkproblem::evaluate_cost` — `Networkproblem.cpp` 405-413, with weight 1. `us` are the controls of the compressors. -/
def networkCost (R : Rounding K) (us : List K) : K := R.mul 1 (us.foldl (fun cost u => R.add cost (stationCost R u)) 0)

/-- `Networkproblem::evaluate_penalty` — `Networkproblem.cpp` 435-443, `Compressorstation.cpp` 159-163, with weight 1. -/
def networkPenalty (R : Rounding K) (us : List K) : K := R.mul 1 (us.foldl (fun penalty _ => R.add penalty 0) 0)

/-- The loops of `evaluate_cost` and `evaluate_penalty` — `ImplicitOptimizer.cpp` 247-256 and 286-295. -/
def integrate (R : Rounding K) (ts : List K) (c : ℕ → K) : K :=
  (List.range' 1 (ts.length - 1)).foldl (fun acc i => R.add acc (R.mul (coefficient R ts i) (c i))) 0

/-- `evaluate_objective` — `ImplicitOptimizer.cpp` 207-219: cost plus penalty. `us i` are the controls of the compressors at time `i`. -/
def objective (R : Rounding K) (ts : List K) (us : ℕ → List K) : K :=
  R.add (integrate R ts fun i => networkCost R (us i)) (integrate R ts fun i => networkPenalty R (us i))

/-! ## Specification -/

/-- The integral of the sum of the squares of the controls, taken as 0 at the first time, by the trapezoidal rule, without rounding. -/
def exactObjective (ts : List K) (us : ℕ → List K) : K :=
  trapezoid ts.length (fun i => ts.getD i 0) fun i => if i = 0 then 0 else ((us i).map fun u => u ^ 2).sum

/-! ## Relative errors -/

variable [IsStrictOrderedRing K]

/-- After at most `k` roundings. -/
def Near (R : Rounding K) (k : ℕ) (x y : K) : Prop := 0 ≤ y ∧ (1 - R.unit) ^ k * y ≤ x ∧ x ≤ (1 + R.unit) ^ k * y

variable {R : Rounding K}

theorem Near.refl {y : K} (h : 0 ≤ y) (k : ℕ) : Near R k y y := by
  have h1 : (1 - R.unit) ^ k ≤ 1 := pow_le_one₀ (by linarith [R.unit_lt_one]) (by linarith [R.unit_nonneg])
  have h2 : 1 ≤ (1 + R.unit) ^ k := one_le_pow₀ (by linarith [R.unit_nonneg])
  exact ⟨h, by nlinarith, by nlinarith⟩

theorem Near.nonneg {k : ℕ} {x y : K} (h : Near R k x y) : 0 ≤ x :=
  le_trans (mul_nonneg (pow_nonneg (by linarith [R.unit_lt_one]) k) h.1) h.2.1

theorem Near.mono {k l : ℕ} {x y : K} (h : Near R k x y) (hkl : k ≤ l) : Near R l x y := by
  have h1 : (1 - R.unit) ^ l ≤ (1 - R.unit) ^ k :=
    pow_le_pow_of_le_one (by linarith [R.unit_lt_one]) (by linarith [R.unit_nonneg]) hkl
  have h2 : (1 + R.unit) ^ k ≤ (1 + R.unit) ^ l := pow_le_pow_right₀ (by linarith [R.unit_nonneg]) hkl
  exact ⟨h.1, (mul_le_mul_of_nonneg_right h1 h.1).trans h.2.1, h.2.2.trans (mul_le_mul_of_nonneg_right h2 h.1)⟩

theorem Near.rnd {k : ℕ} {x y : K} (h : Near R k x y) : Near R (k + 1) (R.rnd x) y := by
  have hx := h.nonneg
  have e := abs_le.mp (R.error x)
  rw [abs_of_nonneg hx] at e
  refine ⟨h.1, ?_, ?_⟩
  · calc (1 - R.unit) ^ (k + 1) * y = (1 - R.unit) * ((1 - R.unit) ^ k * y) := by ring
      _ ≤ (1 - R.unit) * x := mul_le_mul_of_nonneg_left h.2.1 (by linarith [R.unit_lt_one])
      _ ≤ R.rnd x := by linarith [e.1]
  · calc R.rnd x ≤ (1 + R.unit) * x := by linarith [e.2]
      _ ≤ (1 + R.unit) * ((1 + R.unit) ^ k * y) := mul_le_mul_of_nonneg_left h.2.2 (by linarith [R.unit_nonneg])
      _ = (1 + R.unit) ^ (k + 1) * y := by ring

theorem Near.add {k : ℕ} {x y x' y' : K} (h : Near R k x y) (h' : Near R k x' y') : Near R k (x + x') (y + y') :=
  ⟨add_nonneg h.1 h'.1, by rw [mul_add]; exact add_le_add h.2.1 h'.2.1, by rw [mul_add]; exact add_le_add h.2.2 h'.2.2⟩

theorem Near.mul {k l : ℕ} {x y x' y' : K} (h : Near R k x y) (h' : Near R l x' y') : Near R (k + l) (x * x') (y * y') := by
  have h0 : 0 ≤ (1 - R.unit) ^ k * y := mul_nonneg (pow_nonneg (by linarith [R.unit_lt_one]) k) h.1
  have h0' : 0 ≤ (1 - R.unit) ^ l * y' := mul_nonneg (pow_nonneg (by linarith [R.unit_lt_one]) l) h'.1
  refine ⟨mul_nonneg h.1 h'.1, ?_, ?_⟩
  · calc (1 - R.unit) ^ (k + l) * (y * y') = ((1 - R.unit) ^ k * y) * ((1 - R.unit) ^ l * y') := by ring
      _ ≤ x * x' := mul_le_mul h.2.1 h'.2.1 h0' h.nonneg
  · calc x * x' ≤ ((1 + R.unit) ^ k * y) * ((1 + R.unit) ^ l * y') := mul_le_mul h.2.2 h'.2.2 h'.nonneg (h.nonneg.trans h.2.2)
      _ = (1 + R.unit) ^ (k + l) * (y * y') := by ring

/-- Sums: one rounding for each summand. -/
theorem Near.sum {ι : Type} {k : ℕ} (f g : ι → K) (l : List ι) (h : ∀ i ∈ l, Near R k (f i) (g i)) (n : ℕ) {a b : K}
    (hab : Near R (k + n) a b) :
    Near R (k + n + l.length) (l.foldl (fun acc i => R.add acc (f i)) a) (b + (l.map g).sum) := by
  induction l generalizing n a b with
  | nil => simpa using hab
  | cons i l ih =>
    have h1 := ((hab.add ((h i (by simp)).mono (Nat.le_add_right k n))).rnd)
    have := ih (fun j hj => h j (List.mem_cons_of_mem _ hj)) (n + 1) h1
    rw [List.foldl_cons, List.map_cons, List.sum_cons, ← add_assoc, List.length_cons,
      show k + n + (l.length + 1) = k + (n + 1) + l.length by omega]
    exact this

/-! ## Cost at a time -/

theorem foldl_rep (f : K → K) (us : List K) : R.Rep (us.foldl (fun c u => R.add c (f u)) 0) := by
  have : ∀ a, R.Rep a → R.Rep (us.foldl (fun c u => R.add c (f u)) a) := by
    induction us with
    | nil => exact fun a h => h
    | cons u us ih => exact fun a _ => ih _ (R.rep_rnd _)
  exact this 0 R.zero

theorem networkCost_near {us : List K} (hr : ∀ u ∈ us, R.Rep u) :
    Near R (us.length + 1) (networkCost R us) (us.map fun u => u ^ 2).sum := by
  have h1 : ∀ u ∈ us, Near R 1 (stationCost R u) (u ^ 2) := by
    intro u hu
    have : stationCost R u = R.rnd (u ^ 2) := by
      unfold stationCost Rounding.mul
      rw [one_mul, hr u hu, sq]
    rw [this]
    exact (Near.refl (sq_nonneg u) 0).rnd
  have h2 := Near.sum (stationCost R) (fun u => u ^ 2) us h1 0 (Near.refl le_rfl (1 + 0))
  have h3 : networkCost R us = us.foldl (fun c u => R.add c (stationCost R u)) 0 := by
    unfold networkCost Rounding.mul
    rw [one_mul]
    exact foldl_rep _ _
  rw [h3, ← zero_add (us.map _).sum, show us.length + 1 = 1 + 0 + us.length by omega]
  exact h2

theorem networkPenalty_zero (us : List K) : networkPenalty R us = 0 := by
  have h : ∀ us : List K, us.foldl (fun p _ => R.add p 0) 0 = 0 := by
    intro us
    induction us with
    | nil => rfl
    | cons u us ih =>
      rw [List.foldl_cons, show R.add 0 0 = 0 by unfold Rounding.add; rw [add_zero, R.zero]]
      exact ih
  unfold networkPenalty Rounding.mul
  rw [h, mul_zero, R.zero]

theorem integrate_zero (ts : List K) : integrate R ts (fun _ => 0) = 0 := by
  have h : ∀ l : List ℕ, l.foldl (fun acc i => R.add acc (R.mul (coefficient R ts i) 0)) 0 = 0 := by
    intro l
    induction l with
    | nil => rfl
    | cons u us ih =>
      rw [List.foldl_cons, show R.add 0 (R.mul (coefficient R ts u) 0) = 0 by
        unfold Rounding.add Rounding.mul; rw [mul_zero, R.zero, add_zero, R.zero]]
      exact ih
  exact h _

/-! ## Integration -/

/-- The weight of a time without rounding. -/
def exactCoefficient (ts : List K) (i : ℕ) : K :=
  (if i + 1 < ts.length then 1 / 2 * (ts.getD (i + 1) 0 - ts.getD i 0) else 0) +
    (if 0 < i then 1 / 2 * (ts.getD i 0 - ts.getD (i - 1) 0) else 0)

theorem coefficient_near (hh : R.Rep (1 / 2)) {ts : List K} (hs : ts.Pairwise (· ≤ ·)) {i : ℕ} (h1 : 1 ≤ i) (hi : i < ts.length) :
    Near R 2 (coefficient R ts i) (exactCoefficient ts i) := by
  have hle : ∀ a b, a ≤ b → b < ts.length → ts.getD a 0 ≤ ts.getD b 0 := by
    intro a b hab hb
    rw [List.getD_eq_getElem?_getD, List.getD_eq_getElem?_getD, List.getElem?_eq_getElem (hab.trans_lt hb), List.getElem?_eq_getElem hb]
    rcases eq_or_lt_of_le hab with rfl | h
    · exact le_rfl
    · exact List.pairwise_iff_getElem.mp hs a b (hab.trans_lt hb) hb h
  have key : ∀ d : K, 0 ≤ d → Near R 2 (R.mul (R.rnd (1 / 2)) (R.rnd d)) (1 / 2 * d) := by
    intro d hd
    unfold Rounding.mul
    rw [hh]
    have := ((Near.refl (R := R) (show (0 : K) ≤ 1 / 2 by positivity) 0).mul (Near.refl hd 0).rnd).rnd
    exact this
  unfold coefficient exactCoefficient
  rw [if_pos (show 0 < i by omega)]
  by_cases hl : i + 1 = ts.length
  · rw [if_pos hl, if_neg (by omega), zero_add]
    exact key _ (by linarith [hle (i - 1) i (by omega) hi])
  · rw [if_neg hl, if_neg (by omega), if_pos (by omega)]
    have := key (ts.getD (i + 1) 0 - ts.getD (i - 1) 0) (by linarith [hle (i - 1) (i + 1) (by omega) (by omega)])
    rw [show 1 / 2 * (ts.getD (i + 1) 0 - ts.getD i 0) + 1 / 2 * (ts.getD i 0 - ts.getD (i - 1) 0) =
      1 / 2 * (ts.getD (i + 1) 0 - ts.getD (i - 1) 0) by ring]
    exact this

theorem exact_sum (ts : List K) (h2 : 2 ≤ ts.length) (us : ℕ → List K) :
    exactObjective ts us =
      ((List.range' 1 (ts.length - 1)).map fun i => exactCoefficient ts i * ((us i).map fun u => u ^ 2).sum).sum := by
  obtain ⟨w, hw, hacc⟩ := C12_objective ts h2 fun i => if i = 0 then 0 else ((us i).map fun u => u ^ 2).sum
  obtain ⟨w', hw', hlen, hget⟩ := weights_eq ts h2
  rw [hw] at hw'
  obtain rfl : w = w' := by simpa using hw'
  simp only [if_true, mul_zero, sub_zero] at hacc
  unfold exactObjective
  rw [← hacc]
  unfold accumulate
  have hfold : ∀ (l : List ℕ), (∀ i ∈ l, 1 ≤ i ∧ i < ts.length) → ∀ a : K,
      l.foldl (fun acc i => acc + w.getD i 0 * if i = 0 then 0 else ((us i).map fun u => u ^ 2).sum) a =
        a + (l.map fun i => exactCoefficient ts i * ((us i).map fun u => u ^ 2).sum).sum := by
    intro l
    induction l with
    | nil => simp
    | cons i l ih =>
      intro hl a
      obtain ⟨i1, i2⟩ := hl i (by simp)
      rw [List.foldl_cons, ih (fun j hj => hl j (List.mem_cons_of_mem _ hj)), List.map_cons, List.sum_cons, ← add_assoc,
        if_neg (by omega), List.getD_eq_getElem?_getD, List.getElem?_eq_getElem (show i < w.length by omega), Option.getD_some,
        hget i (by omega) i2]
      rfl
  rw [hfold _ (fun i hi => by obtain ⟨i1, i2⟩ := List.mem_range'_1.mp hi; omega), zero_add]

/-! ## The property -/

/-- C154. In floating point arithmetic the objective differs from the integral, by the trapezoidal rule, of the sum of the squares of the
controls at most by the factors of as many roundings as there are times and compressors together, and three more. -/
theorem C154_objective (R : Rounding K) (hh : R.Rep (1 / 2)) (ts : List K) (h2 : 2 ≤ ts.length) (hs : ts.Pairwise (· ≤ ·))
    (us : ℕ → List K) (m : ℕ) (hm : ∀ i, (us i).length ≤ m) (hr : ∀ i, ∀ u ∈ us i, R.Rep u) :
    (1 - R.unit) ^ (ts.length + m + 3) * exactObjective ts us ≤ objective R ts us ∧
      objective R ts us ≤ (1 + R.unit) ^ (ts.length + m + 3) * exactObjective ts us ∧ 0 ≤ objective R ts us := by
  have h1 : ∀ i ∈ List.range' 1 (ts.length - 1), Near R (m + 4) (R.mul (coefficient R ts i) (networkCost R (us i)))
      (exactCoefficient ts i * ((us i).map fun u => u ^ 2).sum) := by
    intro i hi
    obtain ⟨i1, i2⟩ := List.mem_range'_1.mp hi
    have := ((coefficient_near hh hs i1 (by omega)).mul ((networkCost_near (hr i)).mono (Nat.add_le_add_right (hm i) 1))).rnd
    exact this.mono (by omega)
  have hn := Near.sum _ _ _ h1 0 (Near.refl le_rfl (m + 4 + 0))
  have hrep : R.Rep (integrate R ts fun i => networkCost R (us i)) := by
    have : ∀ (l : List ℕ) (a : K), R.Rep a →
        R.Rep (l.foldl (fun acc i => R.add acc (R.mul (coefficient R ts i) (networkCost R (us i)))) a) := by
      intro l
      induction l with
      | nil => exact fun a h => h
      | cons u us ih => exact fun a _ => ih _ (R.rep_rnd _)
    exact this _ 0 R.zero
  have he : objective R ts us = integrate R ts fun i => networkCost R (us i) := by
    unfold objective Rounding.add
    simp only [networkPenalty_zero, integrate_zero, add_zero]
    exact hrep
  rw [zero_add, ← exact_sum ts h2, List.length_range'] at hn
  have hn' : Near R (ts.length + m + 3) (objective R ts us) (exactObjective ts us) := by
    rw [he, show ts.length + m + 3 = m + 4 + 0 + (ts.length - 1) by omega]
    exact hn
  exact ⟨hn'.2.1, hn'.2.2, hn'.nonneg⟩

/-- C154 (zeros): for different times the objective is zero if and only if all controls after the first time are. -/
theorem C154_zero (R : Rounding K) (hh : R.Rep (1 / 2)) (ts : List K) (h2 : 2 ≤ ts.length) (hs : ts.Pairwise (· < ·))
    (us : ℕ → List K) (m : ℕ) (hm : ∀ i, (us i).length ≤ m) (hr : ∀ i, ∀ u ∈ us i, R.Rep u) :
    objective R ts us = 0 ↔ ∀ i, 1 ≤ i → i < ts.length → ∀ u ∈ us i, u = 0 := by
  obtain ⟨c1, c2, -⟩ := C154_objective R hh ts h2 (hs.imp le_of_lt) us m hm hr
  have hpos : 0 < (1 - R.unit) ^ (ts.length + m + 3) := pow_pos (by linarith [R.unit_lt_one]) _
  have hc : ∀ i, 1 ≤ i → i < ts.length → 0 < exactCoefficient ts i := by
    intro i h1 hi
    have hlt : ∀ a b, a < b → b < ts.length → ts.getD a 0 < ts.getD b 0 := by
      intro a b hab hb
      rw [List.getD_eq_getElem?_getD, List.getD_eq_getElem?_getD, List.getElem?_eq_getElem (hab.trans hb), List.getElem?_eq_getElem hb]
      exact List.pairwise_iff_getElem.mp hs a b (hab.trans hb) hb hab
    have := hlt (i - 1) i (by omega) hi
    unfold exactCoefficient
    rw [if_pos (show 0 < i by omega)]
    split
    · next h => linarith [hlt i (i + 1) (by omega) h]
    · linarith
  have hsq : ∀ i, 0 ≤ ((us i).map fun u => u ^ 2).sum := fun i => List.sum_nonneg (by
    intro x hx
    obtain ⟨u, -, rfl⟩ := List.mem_map.mp hx
    positivity)
  have he := exact_sum ts h2 us
  have hnn : ∀ x ∈ (List.range' 1 (ts.length - 1)).map fun i => exactCoefficient ts i * ((us i).map fun u => u ^ 2).sum, 0 ≤ x := by
    intro x hx
    obtain ⟨i, hi, rfl⟩ := List.mem_map.mp hx
    obtain ⟨i1, i2⟩ := List.mem_range'_1.mp hi
    exact mul_nonneg (hc i i1 (by omega)).le (hsq i)
  constructor
  · intro h0 i h1 hi u hu
    have hz : exactObjective ts us = 0 := by
      have hge : 0 ≤ exactObjective ts us := by rw [he]; exact List.sum_nonneg hnn
      rw [h0] at c1
      by_contra hne
      have := mul_pos hpos (lt_of_le_of_ne hge (Ne.symm hne))
      linarith
    rw [he] at hz
    have t1 := (List.all_zero_of_le_zero_le_of_sum_eq_zero hnn hz) (List.mem_map.mpr ⟨i, List.mem_range'_1.mpr ⟨h1, by omega⟩, rfl⟩)
    have t2 := (mul_eq_zero.mp t1).resolve_left (hc i h1 hi).ne'
    have t3 := List.all_zero_of_le_zero_le_of_sum_eq_zero (l := (us i).map fun u => u ^ 2) (by
      intro x hx
      obtain ⟨u, -, rfl⟩ := List.mem_map.mp hx
      positivity) t2 (List.mem_map.mpr ⟨u, hu, rfl⟩)
    exact pow_eq_zero_iff (two_ne_zero) |>.mp t3
  · intro h0
    have hz : exactObjective ts us = 0 := by
      rw [he]
      refine List.sum_eq_zero fun x hx => ?_
      obtain ⟨i, hi, rfl⟩ := List.mem_map.mp hx
      obtain ⟨i1, i2⟩ := List.mem_range'_1.mp hi
      rw [List.sum_eq_zero (l := (us i).map fun u => u ^ 2) fun y hy => ?_, mul_zero]
      obtain ⟨u, hu, rfl⟩ := List.mem_map.mp hy
      rw [h0 i i1 (by omega) u hu, zero_pow two_ne_zero]
    rw [hz] at c1 c2
    simp only [mul_zero] at c1 c2
    exact le_antisymm c2 c1

/-- Without rounding the model is that of `Weights`: the weighted sum over the times. -/
theorem objective_exact (ts : List K) (h2 : 2 ≤ ts.length) (us : ℕ → List K) :
    ∃ w, weights ts = Res.ok w ∧ objective (.exact K) ts us =
      accumulate (fun i => w.getD i 0) (fun i => ((us i).map fun u => u * u).sum) ts.length := by
  obtain ⟨w, hw, hlen, hget⟩ := weights_eq ts h2
  refine ⟨w, hw, ?_⟩
  have hcost : ∀ us : List K, networkCost (.exact K) us = (us.map fun u => u * u).sum := by
    intro us
    have : ∀ (us : List K) (a : K), us.foldl (fun c u => Rounding.add (.exact K) c (stationCost (.exact K) u)) a =
        a + (us.map fun u => u * u).sum := by
      intro us
      induction us with
      | nil => simp
      | cons u us ih =>
        intro a
        rw [List.foldl_cons, ih, List.map_cons, List.sum_cons, ← add_assoc]
        simp [Rounding.add, stationCost, Rounding.mul, Rounding.exact]
    unfold networkCost Rounding.mul
    rw [this]
    simp [Rounding.exact]
  have hpen : integrate (.exact K) ts (fun i => networkPenalty (.exact K) (us i)) = 0 := by
    simp only [networkPenalty_zero, integrate_zero]
  unfold objective
  rw [hpen]
  unfold Rounding.add
  rw [add_zero]
  show integrate _ _ _ = _
  unfold integrate accumulate
  have hstep : ∀ (l : List ℕ), (∀ i ∈ l, 1 ≤ i ∧ i < ts.length) → ∀ a : K,
      l.foldl (fun acc i => Rounding.add (.exact K) acc (Rounding.mul (.exact K) (coefficient (.exact K) ts i) (networkCost (.exact K) (us i)))) a =
      l.foldl (fun acc i => acc + w.getD i 0 * ((us i).map fun u => u * u).sum) a := by
    intro l
    induction l with
    | nil => intro _ a; rfl
    | cons i l ih =>
      intro hl a
      rw [List.foldl_cons, List.foldl_cons, ih (fun j hj => hl j (List.mem_cons_of_mem _ hj))]
      congr 1
      obtain ⟨i1, i2⟩ := hl i (by simp)
      have hc := coefficient_near (R := .exact K) rfl (ts := ts)
      show a + coefficient (.exact K) ts i * networkCost (.exact K) (us i) = _
      rw [hcost]
      congr 2
      rw [List.getD_eq_getElem?_getD, List.getElem?_eq_getElem (show i < w.length by omega), Option.getD_some, hget i (by omega) i2]
      unfold coefficient Rounding.mul Rounding.sub Rounding.exact
      simp only [id]
      rw [if_pos (show 0 < i by omega)]
      by_cases hl : i + 1 = ts.length
      · rw [if_pos hl, if_neg (by omega), zero_add]
      · rw [if_neg hl, if_neg (by omega), if_pos (by omega)]
        ring
  exact hstep _ (fun i hi => by obtain ⟨i1, i2⟩ := List.mem_range'_1.mp hi; omega) 0

/-! ## Example -/

theorem binary64_half : binary64.Rep (1 / 2) := by
  have := rnd64_eq (k := 1) (j := -1) (by norm_num)
  have h : ((1 : ℤ) : ℚ) * 2 ^ (-1 : ℤ) = 1 / 2 := by norm_num
  rw [h] at this
  exact this

/-- C154 applies to the arithmetic of `double`: three times that are not equidistant, two compressors. The relative error is less than 1e-14,
and the value is not zero. -/
example : 0 < objective binary64 [0, 0.5, 2] (fun _ => [3, 5]) ∧
    |objective binary64 [0, 0.5, 2] (fun _ => [3, 5]) - 59.5| ≤ 1e-14 * 59.5 ∧
    exactObjective ([0, 0.5, 2] : List ℚ) (fun _ => [3, 5]) = 59.5 := by
  have he : exactObjective ([0, 0.5, 2] : List ℚ) (fun _ => [3, 5]) = 59.5 := by
    unfold exactObjective trapezoid
    norm_num [Finset.sum_range_succ]
  have hr : ∀ i : ℕ, ∀ u ∈ (fun _ : ℕ => [(3 : ℚ), 5]) i, binary64.Rep u := by
    intro i u hu
    simp only [List.mem_cons, List.not_mem_nil, or_false] at hu
    rcases hu with rfl | rfl
    · exact_mod_cast binary64_nat (n := 3) (by norm_num)
    · exact_mod_cast binary64_nat (n := 5) (by norm_num)
  obtain ⟨h1, h2, h3⟩ := C154_objective binary64 binary64_half [0, 0.5, 2] (by simp) (by norm_num) (fun _ => [3, 5]) 2 (by simp) hr
  have hz := C154_zero binary64 binary64_half [0, 0.5, 2] (by simp) (by norm_num) (fun _ => [3, 5]) 2 (by simp) hr
  refine ⟨lt_of_le_of_ne h3 fun h => ?_, ?_, he⟩
  · have := hz.mp h.symm 1 le_rfl (by simp) 3 (by simp)
    norm_num at this
  · rw [he] at h1 h2
    have hu : binary64.unit = 1 / 2 ^ 53 := rfl
    rw [hu] at h1 h2
    norm_num at h1 h2
    rw [abs_le]
    constructor <;> norm_num <;> linarith

end Verif.Float
