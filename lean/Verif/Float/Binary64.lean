import Verif.Float.Interp
import Mathlib.Data.Int.Log
import Mathlib.Data.Rat.Floor
import Mathlib.Algebra.Order.Field.Power

/-!
# Rounding to the nearest binary number with 53 digits

IEEE 754 binary64, without overflow and underflow.
-/

set_option autoImplicit false
set_option linter.unusedSectionVars false

namespace Verif.Float

/-- The nearest integer, in case of a tie the even one. -/
def roundEven (x : ℚ) : ℤ :=
  if x - ⌊x⌋ < 1 / 2 then ⌊x⌋
  else if 1 / 2 < x - ⌊x⌋ then ⌊x⌋ + 1
  else if ⌊x⌋ % 2 = 0 then ⌊x⌋ else ⌊x⌋ + 1

/-- The distance of neighbouring floating point numbers near `x`. -/
def ulp (x : ℚ) : ℚ := 2 ^ (Int.log 2 |x| - 52)

/-- Rounding to nearest, ties to even. -/
def rnd64 (x : ℚ) : ℚ := if x = 0 then 0 else roundEven (x / ulp x) * ulp x

/-! ## Rounding to integers -/

theorem roundEven_error (x : ℚ) : |(roundEven x : ℚ) - x| ≤ 1 / 2 := by
  have h1 := Int.floor_le x
  have h2 := Int.lt_floor_add_one x
  unfold roundEven
  rw [abs_le]
  split_ifs <;> push_cast <;> constructor <;> linarith

theorem roundEven_int (n : ℤ) : roundEven n = n := by
  unfold roundEven
  rw [Int.floor_intCast, sub_self, if_pos (by norm_num)]

theorem roundEven_mono {x y : ℚ} (h : x ≤ y) : roundEven x ≤ roundEven y := by
  have hf := Int.floor_le_floor h
  rcases hf.eq_or_lt with he | hlt
  · unfold roundEven
    rw [he]
    split_ifs <;> first | omega | (exfalso; linarith)
  · have h1 : roundEven x ≤ ⌊x⌋ + 1 := by
      unfold roundEven
      split_ifs <;> omega
    have h2 : ⌊y⌋ ≤ roundEven y := by
      unfold roundEven
      split_ifs <;> omega
    omega

theorem roundEven_neg (x : ℚ) : roundEven (-x) = -roundEven x := by
  by_cases hx : x = ⌊x⌋
  · rw [hx, ← Int.cast_neg, roundEven_int, roundEven_int]
  · have h1 := Int.floor_le x
    have h2 := Int.lt_floor_add_one x
    have h3 : (⌊x⌋ : ℚ) < x := lt_of_le_of_ne h1 (Ne.symm hx)
    have hf : ⌊-x⌋ = -⌊x⌋ - 1 := by
      rw [Int.floor_eq_iff]
      push_cast
      constructor <;> linarith
    unfold roundEven
    rw [hf]
    push_cast
    split_ifs <;> first | omega | (exfalso; linarith)

/-! ## Rounding to 53 digits -/

theorem ulp_pos (x : ℚ) : 0 < ulp x := by unfold ulp; positivity

theorem ulp_neg (x : ℚ) : ulp (-x) = ulp x := by unfold ulp; rw [abs_neg]

theorem rnd64_neg (x : ℚ) : rnd64 (-x) = -rnd64 x := by
  unfold rnd64
  by_cases h : x = 0
  · simp [h]
  · rw [if_neg (neg_ne_zero.mpr h), if_neg h, ulp_neg, neg_div, roundEven_neg]
    push_cast
    ring

/-- The lower end of the binade of `x`. -/
theorem zpow_log_le {x : ℚ} (h : x ≠ 0) : 2 ^ 52 * ulp x ≤ |x| := by
  have h1 := Int.zpow_log_le_self (b := 2) (r := |x|) (by norm_num) (abs_pos.mpr h)
  unfold ulp
  rw [← zpow_natCast, ← zpow_add₀ (by norm_num)]
  rw [Nat.cast_ofNat] at h1
  refine le_trans (le_of_eq ?_) h1
  congr 1
  push_cast
  ring

/-- The upper end of the binade of `x`. -/
theorem lt_zpow_log {x : ℚ} : |x| < 2 ^ 53 * ulp x := by
  have h1 := Int.lt_zpow_succ_log_self (b := 2) (by norm_num) |x|
  unfold ulp
  rw [← zpow_natCast, ← zpow_add₀ (by norm_num)]
  rw [Nat.cast_ofNat] at h1
  refine lt_of_lt_of_le h1 (le_of_eq ?_)
  congr 1
  push_cast
  ring

theorem rnd64_error (x : ℚ) : |rnd64 x - x| ≤ 1 / 2 ^ 53 * |x| := by
  unfold rnd64
  split
  · next h => simp [h]
  · next h =>
    have hu := ulp_pos x
    have h1 := roundEven_error (x / ulp x)
    have h2 := zpow_log_le h
    have e : (roundEven (x / ulp x) : ℚ) * ulp x - x = (roundEven (x / ulp x) - x / ulp x) * ulp x := by
      field_simp
    rw [e, abs_mul, abs_of_pos hu]
    have h3 := mul_le_mul_of_nonneg_right h1 hu.le
    linarith

theorem ulp_mono {x y : ℚ} (hx : 0 < x) (h : x ≤ y) : ulp x ≤ ulp y := by
  unfold ulp
  refine zpow_le_zpow_right₀ (by norm_num) ?_
  rw [abs_of_pos hx, abs_of_pos (lt_of_lt_of_le hx h)]
  have := Int.log_mono_right (b := 2) hx h
  omega

theorem ulp_lt {x y : ℚ} (h : ulp x < ulp y) : 2 * ulp x ≤ ulp y := by
  unfold ulp at *
  have h1 := (zpow_lt_zpow_iff_right₀ (show (1 : ℚ) < 2 by norm_num)).mp h
  calc (2 : ℚ) * 2 ^ (Int.log 2 |x| - 52) = 2 ^ (1 + (Int.log 2 |x| - 52)) := by
        rw [zpow_add₀ (by norm_num), zpow_one]
    _ ≤ 2 ^ (Int.log 2 |y| - 52) := zpow_le_zpow_right₀ (by norm_num) (by omega)

theorem rnd64_mono_pos {x y : ℚ} (hx : 0 < x) (h : x ≤ y) : rnd64 x ≤ rnd64 y := by
  have hy : 0 < y := lt_of_lt_of_le hx h
  have hux := ulp_pos x
  have huy := ulp_pos y
  unfold rnd64
  rw [if_neg hx.ne', if_neg hy.ne']
  rcases (ulp_mono hx h).eq_or_lt with he | hlt
  · rw [he]
    refine mul_le_mul_of_nonneg_right ?_ huy.le
    exact_mod_cast roundEven_mono (by gcongr)
  · have h2 := ulp_lt hlt
    have h3 : roundEven (x / ulp x) ≤ 2 ^ 53 := by
      have : x / ulp x ≤ ((2 ^ 53 : ℤ) : ℚ) := by
        rw [div_le_iff₀ hux]
        have := lt_zpow_log (x := x)
        rw [abs_of_pos hx] at this
        push_cast
        linarith
      have := roundEven_mono this
      rwa [roundEven_int] at this
    have h4 : 2 ^ 52 ≤ roundEven (y / ulp y) := by
      have : ((2 ^ 52 : ℤ) : ℚ) ≤ y / ulp y := by
        rw [le_div_iff₀ huy]
        have := zpow_log_le hy.ne'
        rw [abs_of_pos hy] at this
        push_cast
        linarith
      have := roundEven_mono this
      rwa [roundEven_int] at this
    have h3' : (roundEven (x / ulp x) : ℚ) ≤ 2 ^ 53 := by exact_mod_cast h3
    have h4' : (2 ^ 52 : ℚ) ≤ roundEven (y / ulp y) := by exact_mod_cast h4
    calc (roundEven (x / ulp x) : ℚ) * ulp x ≤ 2 ^ 53 * ulp x := mul_le_mul_of_nonneg_right h3' hux.le
      _ ≤ 2 ^ 52 * ulp y := by linarith
      _ ≤ roundEven (y / ulp y) * ulp y := mul_le_mul_of_nonneg_right h4' huy.le

theorem rnd64_pos {x : ℚ} (hx : 0 < x) : 0 < rnd64 x := by
  have h := rnd64_error x
  rw [abs_of_pos hx] at h
  have := (abs_le.mp h).1
  linarith

theorem rnd64_zero : rnd64 0 = 0 := by simp [rnd64]

theorem rnd64_mono {x y : ℚ} (h : x ≤ y) : rnd64 x ≤ rnd64 y := by
  rcases lt_trichotomy x 0 with hx | hx | hx
  · rcases lt_or_ge y 0 with hy | hy
    · have := rnd64_mono_pos (x := -y) (y := -x) (by linarith) (by linarith)
      rw [rnd64_neg, rnd64_neg] at this
      linarith
    · have h1 := rnd64_pos (x := -x) (by linarith)
      rw [rnd64_neg] at h1
      rcases hy.eq_or_lt with rfl | hy
      · rw [rnd64_zero]; linarith
      · have := rnd64_pos hy
        linarith
  · subst hx
    rw [rnd64_zero]
    rcases h.eq_or_lt with rfl | hy
    · rw [rnd64_zero]
    · exact (rnd64_pos hy).le
  · exact rnd64_mono_pos hx h

/-- Numbers with at most 53 digits are not changed. -/
theorem rnd64_eq {k j : ℤ} (hk : |k| ≤ 2 ^ 53) : rnd64 (k * 2 ^ j) = k * 2 ^ j := by
  by_cases h0 : k = 0
  · simp [h0, rnd64_zero]
  have hx : (k * 2 ^ j : ℚ) ≠ 0 := mul_ne_zero (by exact_mod_cast h0) (by positivity)
  unfold rnd64
  rw [if_neg hx]
  have hint : ∃ m : ℤ, (k * 2 ^ j : ℚ) / ulp (k * 2 ^ j) = m := by
    have habs : |(k * 2 ^ j : ℚ)| = (|k| : ℤ) * 2 ^ j := by
      rw [abs_mul, abs_of_pos (show (0 : ℚ) < 2 ^ j by positivity), Int.cast_abs]
    have hu := lt_zpow_log (x := (k * 2 ^ j : ℚ))
    have hl := zpow_log_le hx
    rw [habs] at hu hl
    by_cases he : |k| = 2 ^ 53
    · have hlog : Int.log 2 |(k * 2 ^ j : ℚ)| = 53 + j := by
        have e : ((2 ^ 53 : ℤ) : ℚ) * 2 ^ j = ((2 : ℕ) : ℚ) ^ (53 + j) := by
          rw [Nat.cast_ofNat, zpow_add₀ (by norm_num)]
          norm_num
        rw [habs, he, e]
        exact Int.log_zpow (by norm_num) _
      have hk' : k = 2 ^ 53 ∨ k = -2 ^ 53 := by
        rcases abs_choice k with h | h
        · left; omega
        · right; omega
      unfold ulp
      rw [hlog]
      rcases hk' with rfl | rfl
      · refine ⟨2 ^ 52, ?_⟩
        rw [div_eq_iff (by positivity), show (53 + j - 52 : ℤ) = j + 1 by ring, zpow_add₀ (by norm_num)]
        push_cast
        ring
      · refine ⟨-2 ^ 52, ?_⟩
        rw [div_eq_iff (by positivity), show (53 + j - 52 : ℤ) = j + 1 by ring, zpow_add₀ (by norm_num)]
        push_cast
        ring
    · have hlt : |k| < 2 ^ 53 := lt_of_le_of_ne hk he
      have hlt' : ((|k| : ℤ) : ℚ) < 2 ^ 53 := by exact_mod_cast hlt
      have hj : Int.log 2 |(k * 2 ^ j : ℚ)| - 52 ≤ j := by
        by_contra hcon
        push Not at hcon
        have h1 : (2 : ℚ) ^ (j + 1) ≤ ulp (k * 2 ^ j) := zpow_le_zpow_right₀ (by norm_num) (by omega)
        rw [zpow_add₀ (by norm_num), zpow_one] at h1
        have h2 : (0 : ℚ) < 2 ^ j := by positivity
        have h3 := mul_lt_mul_of_pos_right hlt' h2
        linarith
      obtain ⟨n, hn⟩ := Int.le.dest hj
      refine ⟨k * 2 ^ n, ?_⟩
      unfold ulp
      rw [div_eq_iff (by positivity)]
      generalize Int.log 2 |(k * 2 ^ j : ℚ)| - 52 = l at hn
      subst hn
      push_cast
      rw [mul_assoc, ← zpow_natCast, ← zpow_add₀ (by norm_num), add_comm l]
  obtain ⟨m, hm⟩ := hint
  rw [hm, roundEven_int, ← hm, div_mul_cancel₀ _ (ulp_pos _).ne']

theorem roundEven_abs_le {x : ℚ} {n : ℤ} (h : |x| ≤ n) : |roundEven x| ≤ n := by
  obtain ⟨h1, h2⟩ := abs_le.mp h
  have h3 := roundEven_mono h2
  have h4 := roundEven_mono h1
  rw [roundEven_int] at h3
  rw [roundEven_neg, roundEven_int] at h4
  exact abs_le.mpr ⟨h4, h3⟩

theorem rnd64_idem (x : ℚ) : rnd64 (rnd64 x) = rnd64 x := by
  by_cases h : x = 0
  · simp [h, rnd64_zero]
  · have e : rnd64 x = roundEven (x / ulp x) * 2 ^ (Int.log 2 |x| - 52) := by
      unfold rnd64
      rw [if_neg h]
      rfl
    rw [e]
    refine rnd64_eq (roundEven_abs_le ?_)
    rw [abs_div, abs_of_pos (ulp_pos x), div_le_iff₀ (ulp_pos x)]
    push_cast
    exact lt_zpow_log.le

/-- The rounding of `double`. -/
def binary64 : Rounding ℚ where
  rnd := rnd64
  unit := 1 / 2 ^ 53
  unit_nonneg := by norm_num
  unit_lt_one := by norm_num
  mono _ _ := rnd64_mono
  idem := rnd64_idem
  one := by
    have := rnd64_eq (k := 1) (j := 0) (by norm_num)
    simpa using this
  error := rnd64_error

/-- Integers up to 2^53 are of type `double`. -/
theorem binary64_nat {n : ℕ} (h : n ≤ 2 ^ 53) : binary64.Rep n := by
  have := rnd64_eq (k := n) (j := 0) (by rw [abs_of_nonneg (by omega)]; exact_mod_cast h)
  rw [zpow_zero, mul_one] at this
  exact_mod_cast this

end Verif.Float
