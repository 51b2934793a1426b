import Verif.Float.Binary64
import Verif.Unit.Props

/-!
# Numbers as texts in fixed notation (C155)

`Aux::to_string_precise` of `src/Auxillary/Misc/Misc.cpp` and `Misc.hpp`, used by `helper_functions/stringify_value_json.cpp`
and in error messages of `Gaspowerconnection.cpp`. Numbers are rational, which covers all finite floating point numbers except
the sign of zero; infinities and NaN are not modelled. The conversion is done by the standard library: fixed notation is the
exact value rounded to the given number of decimals, ties to even.
-/

set_option autoImplicit false

namespace Verif.Helpers

open Verif.Unit Verif.Float

/-! ## Model -/

/-- A decimal digit as a character. -/
def digitChar (d : ℕ) : Char := Char.ofNat ('0'.toNat + d)

/-- The last `n` decimal digits of a number. -/
def lastDigits : ℕ → ℕ → List Char
  | 0, _ => []
  | n + 1, k => lastDigits n (k / 10) ++ [digitChar (k % 10)]

/-- All decimal digits of a number. -/
def allDigits (k : ℕ) : List Char :=
  if k < 10 then [digitChar k] else allDigits (k / 10) ++ [digitChar (k % 10)]
  termination_by k
  decreasing_by omega

/-- `to_string_precise` — `Misc.cpp` 20-25: a sign for negative numbers, the digits before the point, the point (if decimals
are wanted) and `n` decimals. -/
def toStringPrecise (x : ℚ) (n : ℕ) : List Char :=
  let k := (roundEven (|x| * 10 ^ n)).toNat
  (if x < 0 then ['-'] else []) ++
    (allDigits (k / 10 ^ n) ++ if n = 0 then [] else '.' :: lastDigits n k)

/-! ## Digits -/

theorem digitChar_facts : ∀ d < 10, (digitChar d).isDigit = true ∧ (digitChar d).toNat - '0'.toNat = d := by decide

theorem natOf_append (a b : List Char) : natOf (a ++ b) = natOf a * 10 ^ b.length + natOf b := by
  have h : ∀ (b : List Char) (m : ℕ), b.foldl (fun n c => 10 * n + (c.toNat - '0'.toNat)) m =
      m * 10 ^ b.length + b.foldl (fun n c => 10 * n + (c.toNat - '0'.toNat)) 0 := by
    intro b
    induction b with
    | nil => intro m; simp
    | cons c b ih =>
      intro m
      simp only [List.foldl_cons, List.length_cons]
      rw [ih (10 * m + _), ih (10 * 0 + _)]
      ring
  unfold natOf
  rw [List.foldl_append, h]

theorem natOf_digit {d : ℕ} (h : d < 10) : natOf [digitChar d] = d := by
  simp only [natOf, List.foldl_cons, List.foldl_nil, (digitChar_facts d h).2]; omega

theorem lastDigits_facts (n k : ℕ) : (lastDigits n k).length = n ∧ (∀ c ∈ lastDigits n k, c.isDigit = true) ∧
    natOf (lastDigits n k) = k % 10 ^ n := by
  induction n generalizing k with
  | zero => simp [lastDigits, natOf, Nat.mod_one]
  | succ n ih =>
    obtain ⟨h1, h2, h3⟩ := ih (k / 10)
    have hd : k % 10 < 10 := Nat.mod_lt _ (by norm_num)
    refine ⟨by simp [lastDigits, h1], fun c hc => ?_, ?_⟩
    · rcases List.mem_append.mp hc with h | h
      · exact h2 c h
      · rw [List.mem_singleton.mp h]; exact (digitChar_facts _ hd).1
    · rw [lastDigits, natOf_append, h3, natOf_digit hd]
      simp only [List.length_singleton, pow_one]
      rw [pow_succ', Nat.mod_mul]
      omega

theorem allDigits_facts (k : ℕ) : allDigits k ≠ [] ∧ (∀ c ∈ allDigits k, c.isDigit = true) ∧ natOf (allDigits k) = k ∧
    ((allDigits k).head? = some '0' → allDigits k = ['0']) := by
  induction k using Nat.strong_induction_on with
  | _ k ih =>
    rw [allDigits]
    split
    · next h =>
      refine ⟨by simp, fun c hc => ?_, natOf_digit h, fun h0 => ?_⟩
      · rw [List.mem_singleton.mp hc]; exact (digitChar_facts _ h).1
      · simpa using h0
    · next h =>
      obtain ⟨h1, h2, h3, h4⟩ := ih (k / 10) (by omega)
      have hd : k % 10 < 10 := Nat.mod_lt _ (by norm_num)
      refine ⟨by simp, fun c hc => ?_, ?_, fun h0 => ?_⟩
      · rcases List.mem_append.mp hc with h | h
        · exact h2 c h
        · rw [List.mem_singleton.mp h]; exact (digitChar_facts _ hd).1
      · rw [natOf_append, h3, natOf_digit hd]
        simp only [List.length_singleton, pow_one]
        omega
      · exfalso
        have h0' : (allDigits (k / 10)).head? = some '0' := by
          generalize allDigits (k / 10) = l at h0 h1
          cases l with
          | nil => exact absurd rfl h1
          | cons c l => simpa using h0
        have := h4 h0'
        rw [this] at h3
        have : natOf ['0'] = 0 := by decide
        omega

/-! ## Reading a text again -/

/-- The number in a text. -/
def decimalPart (n k : ℕ) : List Char := allDigits (k / 10 ^ n) ++ if n = 0 then [] else '.' :: lastDigits n k

theorem decimalPart_head (n k : ℕ) : ∃ c l, decimalPart n k = c :: l ∧ c.isDigit = true := by
  obtain ⟨h1, h2, -⟩ := allDigits_facts (k / 10 ^ n)
  unfold decimalPart
  cases h : allDigits (k / 10 ^ n) with
  | nil => exact absurd h h1
  | cons c l => exact ⟨c, _, rfl, h2 c (by rw [h]; simp)⟩

/-- Reading digits, a point and decimals. -/
theorem read_decimal (n k : ℕ) (negative : Bool) :
    stod ((if negative then ['-'] else []) ++ decimalPart n k) =
      Res.ok (if negative then -((k : ℚ) / 10 ^ n) else (k : ℚ) / 10 ^ n,
        ((if negative then ['-'] else []) ++ decimalPart n k).length) := by
  obtain ⟨c, l, hcl, hc⟩ := decimalPart_head n k
  obtain ⟨a1, a2, a3, -⟩ := allDigits_facts (k / 10 ^ n)
  obtain ⟨b1, b2, b3⟩ := lastDigits_facts n k
  have hf := digit_facts hc
  have hdrop : (((if negative then ['-'] else []) ++ decimalPart n k).dropWhile Char.isWhitespace) =
      (if negative then ['-'] else []) ++ decimalPart n k := by
    cases negative
    · simp [hcl, hf.1]
    · simp [show Char.isWhitespace '-' = false from by decide]
  have hsign : sign ((if negative then ['-'] else []) ++ decimalPart n k) = (negative, decimalPart n k) := by
    cases negative
    · simp only [Bool.false_eq_true, if_false, List.nil_append]
      refine sign_plain fun d hd => ?_
      rw [hcl] at hd
      obtain rfl : c = d := by simpa using hd
      exact ⟨hf.2.1, hf.2.2.1⟩
    · simp [sign]
  have hspan : (decimalPart n k).span Char.isDigit = (allDigits (k / 10 ^ n), if n = 0 then [] else '.' :: lastDigits n k) := by
    unfold decimalPart
    refine span_digits a2 fun d hd => ?_
    split at hd
    · simp at hd
    · obtain rfl : '.' = d := by simpa using hd
      decide
  have hfrac : fraction (if n = 0 then [] else '.' :: lastDigits n k) = (lastDigits n k, []) := by
    split
    · next h => subst h; rfl
    · have := span_digits (d := lastDigits n k) (rest := []) b2 (by simp)
      simpa [fraction] using this
  have hval : ((natOf (allDigits (k / 10 ^ n) ++ lastDigits n k) : ℕ) : ℚ) / 10 ^ (lastDigits n k).length = (k : ℚ) / 10 ^ n := by
    rw [natOf_append, a3, b1, b3, Nat.div_add_mod']
  unfold stod
  simp only [hdrop, hsign, hspan, hfrac, exponent]
  rw [if_neg (by simp [a1]), hval]
  simp

theorem toStringPrecise_eq (x : ℚ) (n : ℕ) : toStringPrecise x n =
    (if decide (x < 0) then ['-'] else []) ++ decimalPart n (roundEven (|x| * 10 ^ n)).toNat := by
  simp [toStringPrecise, decimalPart]

theorem roundEven_nonneg {x : ℚ} (h : 0 ≤ x) : 0 ≤ roundEven x := by
  have := roundEven_mono h
  have h0 : roundEven 0 = 0 := by simpa using roundEven_int 0
  omega

/-- What the text stands for: the number rounded to a multiple of `10 ^ -n`. -/
theorem read_text (x : ℚ) (n : ℕ) :
    stod (toStringPrecise x n) = Res.ok ((roundEven (x * 10 ^ n) : ℚ) / 10 ^ n, (toStringPrecise x n).length) := by
  rw [toStringPrecise_eq, read_decimal]
  congr 2
  have hk : (((roundEven (|x| * 10 ^ n)).toNat : ℕ) : ℚ) = roundEven (|x| * 10 ^ n) := by
    have := Int.toNat_of_nonneg (roundEven_nonneg (x := |x| * 10 ^ n) (by positivity))
    exact_mod_cast this
  rw [hk]
  by_cases h : x < 0
  · have : roundEven (|x| * 10 ^ n) = -roundEven (x * 10 ^ n) := by rw [abs_of_neg h, neg_mul, roundEven_neg]
    simp [h, this, neg_div]
  · rw [abs_of_nonneg (not_lt.mp h)]; simp [h]

/-! ## Properties -/

/-- The texts in fixed notation with `n` decimals: maybe a minus, digits before the point, without superfluous zeros, and `n`
digits after the point; no point if there are none. -/
def Fixed (n : ℕ) (s : List Char) : Prop :=
  ∃ minus int frac, s = minus ++ int ++ (if n = 0 then [] else '.' :: frac) ∧ (minus = [] ∨ minus = ['-']) ∧
    int ≠ [] ∧ (∀ c ∈ int, c.isDigit = true) ∧ (int.head? = some '0' → int = ['0']) ∧
    frac.length = n ∧ ∀ c ∈ frac, c.isDigit = true

/-- **C155**, texts: every number is written in fixed notation with the given number of decimals, the whole text is read as a
number again, and this number differs from the first one by at most half a unit of the last decimal. Smaller numbers do not
become larger, and numbers with at most as many decimals are read back exactly. What is missing: other numbers are not read
back exactly, see `C155_false`. -/
theorem C155_partial (n : ℕ) : ∃ back : ℚ → ℚ,
    (∀ x, Fixed n (toStringPrecise x n) ∧ stod (toStringPrecise x n) = Res.ok (back x, (toStringPrecise x n).length) ∧
      |back x - x| ≤ 1 / 2 / 10 ^ n) ∧
    (∀ x y, x ≤ y → back x ≤ back y) ∧ ∀ x : ℚ, (∃ k : ℤ, x * 10 ^ n = (k : ℚ)) → back x = x := by
  have hp : (0 : ℚ) < 10 ^ n := by positivity
  refine ⟨fun x => (roundEven (x * 10 ^ n) : ℚ) / 10 ^ n, fun x => ⟨?_, read_text x n, ?_⟩, fun x y h => ?_, ?_⟩
  · obtain ⟨a1, a2, a3, a4⟩ := allDigits_facts ((roundEven (|x| * 10 ^ n)).toNat / 10 ^ n)
    obtain ⟨b1, b2, b3⟩ := lastDigits_facts n (roundEven (|x| * 10 ^ n)).toNat
    refine ⟨if x < 0 then ['-'] else [], _, _, ?_, by split <;> simp, a1, a2, a4, b1, b2⟩
    simp [toStringPrecise]
  · have h := roundEven_error (x * 10 ^ n)
    have e : (roundEven (x * 10 ^ n) : ℚ) / 10 ^ n - x = (roundEven (x * 10 ^ n) - x * 10 ^ n) / 10 ^ n := by
      field_simp
    simp only [e, abs_div, abs_of_pos hp]
    gcongr
  · have := roundEven_mono (mul_le_mul_of_nonneg_right h hp.le)
    have : (roundEven (x * 10 ^ n) : ℚ) ≤ roundEven (y * 10 ^ n) := by exact_mod_cast this
    simp only
    gcongr
  · rintro x ⟨k, hk⟩
    simp only [hk, roundEven_int]
    rw [← hk]; field_simp

/-- **C155** is false without restrictions: a small flow is written as zero. -/
theorem C155_false : ¬ ∀ x : ℚ, ∃ len, stod (toStringPrecise x 9) = Res.ok (x, len) := by
  intro h
  obtain ⟨len, h⟩ := h (1 / 10 ^ 10)
  rw [read_text] at h
  have h1 : roundEven ((1 : ℚ) / 10 ^ 10 * 10 ^ 9) = 0 := by
    have : (1 : ℚ) / 10 ^ 10 * 10 ^ 9 = 1 / 10 := by norm_num
    rw [this]
    decide +kernel
  rw [h1] at h
  simp only [Res.ok.injEq, Prod.mk.injEq] at h
  norm_num at h

theorem ulp_ge {x : ℚ} (h : 2 ^ 23 ≤ x) : (1 : ℚ) / 2 ^ 29 ≤ ulp x := by
  have h1 := ulp_mono (x := 2 ^ 23) (by norm_num) h
  refine le_trans ?_ h1
  have : Int.log 2 |(2 : ℚ) ^ 23| = 23 := by
    rw [abs_of_pos (by norm_num)]
    have := Int.log_zpow (R := ℚ) (b := 2) (by norm_num) 23
    exact_mod_cast this
  unfold ulp
  rw [this]
  norm_num

/-- Near a large floating point number `x` nothing else is rounded to. -/
theorem rnd64_near {x y : ℚ} (hx : rnd64 x = x) (hl : 2 ^ 24 ≤ x) (h : |y - x| ≤ 1 / 2 / 10 ^ 9) : rnd64 y = x := by
  have hx0 : 0 < x := lt_of_lt_of_le (by norm_num) hl
  obtain ⟨ha, hb⟩ := abs_le.mp h
  have hy : 2 ^ 23 ≤ y := by norm_num at *; linarith
  have hy0 : 0 < y := lt_of_lt_of_le (by norm_num) hy
  have hux := ulp_ge (x := x) (le_trans (by norm_num) hl)
  have huy := ulp_ge hy
  have hxm : x = roundEven (x / ulp x) * ulp x := by
    conv_lhs => rw [← hx]
    unfold rnd64
    rw [if_neg hx0.ne']
  have hle : ulp y ≤ ulp x := by
    rcases le_total y x with hyx | hyx
    · exact ulp_mono hy0 hyx
    by_contra hc
    have h2 := ulp_lt (not_le.mp hc)
    have h3 := zpow_log_le hy0.ne'
    have h4 := lt_zpow_log (x := x)
    rw [abs_of_pos hy0] at h3
    rw [abs_of_pos hx0] at h4
    have h5 : (roundEven (x / ulp x) : ℚ) < 2 ^ 53 := by
      rw [hxm] at h4
      nth_rewrite 2 [← hxm] at h4
      nth_rewrite 1 [← hxm] at h4
      exact lt_of_mul_lt_mul_right (hxm ▸ h4) (ulp_pos x).le
    have h6 : (roundEven (x / ulp x) : ℚ) + 1 ≤ 2 ^ 53 := by
      have : roundEven (x / ulp x) < 2 ^ 53 := by exact_mod_cast h5
      have : roundEven (x / ulp x) + 1 ≤ 2 ^ 53 := this
      exact_mod_cast this
    have h7 : x + ulp x ≤ 2 ^ 53 * ulp x := by
      have := mul_le_mul_of_nonneg_right h6 (ulp_pos x).le
      linarith
    have : x + ulp x ≤ y := by linarith
    norm_num at *
    linarith
  obtain ⟨m, hm⟩ : ∃ m : ℕ, ulp x = 2 ^ m * ulp y := by
    unfold ulp at hle ⊢
    have hlog : Int.log 2 |y| ≤ Int.log 2 |x| := by
      have := (zpow_le_zpow_iff_right₀ (a := (2 : ℚ)) (by norm_num)).mp hle
      omega
    refine ⟨(Int.log 2 |x| - Int.log 2 |y|).toNat, ?_⟩
    rw [← zpow_natCast, ← zpow_add₀ (by norm_num), Int.toNat_of_nonneg (by omega)]
    congr 1; omega
  have hint : x / ulp y = ((roundEven (x / ulp x) * 2 ^ m : ℤ) : ℚ) := by
    rw [div_eq_iff (ulp_pos y).ne']
    push_cast
    conv_lhs => rw [hxm, hm]
    rw [hm]; ring
  have hround : roundEven (y / ulp y) = roundEven (x / ulp x) * 2 ^ m := by
    have h1 := roundEven_error (y / ulp y)
    have h2 : |y / ulp y - x / ulp y| < 1 / 2 := by
      rw [← sub_div, abs_div, abs_of_pos (ulp_pos y), div_lt_iff₀ (ulp_pos y)]
      norm_num at *
      linarith
    rw [hint] at h2
    have h3 : |((roundEven (y / ulp y) - roundEven (x / ulp x) * 2 ^ m : ℤ) : ℚ)| < 1 := by
      push_cast
      have := abs_sub_le (roundEven (y / ulp y) : ℚ) (y / ulp y) ((roundEven (x / ulp x) : ℚ) * 2 ^ m)
      push_cast at h2
      linarith
    have h4 : |roundEven (y / ulp y) - roundEven (x / ulp x) * 2 ^ m| < 1 := by exact_mod_cast h3
    have := Int.abs_lt_one_iff.mp h4
    omega
  unfold rnd64
  rw [if_neg hy0.ne', hround, ← hint, div_mul_cancel₀ _ (ulp_pos y).ne']

/-- **C155**, large numbers: a floating point number of at least 2²⁴ is read back as the same floating point number from a text
with nine decimals. -/
theorem C155_large {x : ℚ} (hx : rnd64 x = x) (hl : 2 ^ 24 ≤ |x|) :
    ∃ y len, stod (toStringPrecise x 9) = Res.ok (y, len) ∧ rnd64 y = x := by
  obtain ⟨back, h, -, -⟩ := C155_partial 9
  obtain ⟨-, h1, h2⟩ := h x
  refine ⟨back x, _, h1, ?_⟩
  rcases le_total 0 x with h0 | h0
  · rw [abs_of_nonneg h0] at hl
    exact rnd64_near hx hl h2
  · rw [abs_of_nonpos h0] at hl
    have hn : rnd64 (-x) = -x := by rw [rnd64_neg, hx]
    have := rnd64_near hn hl (y := -back x) (by rw [← abs_neg]; ring_nf; ring_nf at h2; exact h2)
    rw [rnd64_neg] at this
    exact neg_injective this

/-- Some texts. -/
example : toStringPrecise (-(5 / 2)) 9 = "-2.500000000".toList ∧ toStringPrecise (2 / 3) 3 = "0.667".toList ∧
    toStringPrecise (1 / 8) 2 = "0.12".toList ∧ toStringPrecise (3 / 8) 2 = "0.38".toList ∧
    toStringPrecise 1204 0 = "1204".toList ∧ toStringPrecise (-(1 / 10 ^ 10)) 9 = "-0.000000000".toList := by
  decide +kernel

/-- A number the theorem on large numbers applies to. -/
example : rnd64 (2 ^ 24 + 1 / 2 ^ 28) = 2 ^ 24 + 1 / 2 ^ 28 ∧ (2 : ℚ) ^ 24 ≤ |2 ^ 24 + 1 / 2 ^ 28| := by
  refine ⟨?_, by norm_num [abs_of_pos]⟩
  have := rnd64_eq (k := 2 ^ 52 + 1) (j := -28) (by norm_num [abs_of_pos])
  norm_num at this ⊢
  exact this

end Verif.Helpers
