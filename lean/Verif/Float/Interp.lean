import Verif.Float.Rounding

/-! # Property C93: interpolation in floating point arithmetic -/

set_option autoImplicit false
set_option linter.unusedSectionVars false

namespace Verif.Float

open Verif.Interp

variable {K : Type} [Field K] [LinearOrder K] [IsStrictOrderedRing K]

/-- Specification: all times and values are of type `double`. -/
def AllRep (R : Rounding K) (v : IV K) : Prop := (∀ x ∈ v.points, R.Rep x) ∧ ∀ x ∈ v.values, R.Rep x

theorem eps_nonneg (R : Rounding K) : 0 ≤ R.rnd (EPSILON : K) := R.nonneg EPSILON_pos.le

theorem le_add_eps {R : Rounding K} {x : K} (h : R.Rep x) : x ≤ R.add x (R.rnd EPSILON) :=
  R.ge_of_rep_le (by linarith [eps_nonneg R]) h

theorem sub_eps_le {R : Rounding K} {x : K} (h : R.Rep x) : R.sub x (R.rnd EPSILON) ≤ x :=
  R.le_of_le_rep (by linarith [eps_nonneg R]) h

/-- The weight the code computes. -/
def weight (R : Rounding K) (p n t : K) : K := R.div (R.sub t p) (R.sub n p)

/-- The value the code computes between two nodes. -/
def blend (R : Rounding K) (lam a b : K) : K := R.add (R.mul (R.sub 1 lam) a) (R.mul lam b)

theorem eval_interior {R : Rounding K} {v : IV K} (hwf : v.WF) (hs : v.points.Pairwise (· < ·)) {i : ℕ}
    (hi : i + 1 < v.points.length) {t : K} (h1 : v.points[i] < t) (h2 : t ≤ v.points[i + 1])
    (hlast : t < v.points[v.points.length - 1]) :
    eval R v t = Res.ok (List.zipWith (blend R (weight R v.points[i] v.points[i + 1] t))
      ((v.values.drop (i * v.inner)).take v.inner)
      ((v.values.drop ((i + 1) * v.inner)).take v.inner)) := by
  have hfront : v.points[0] < t :=
    lt_of_le_of_lt (getElem_le_of_pairwise hs (Nat.zero_le i) (by omega)) h1
  unfold eval
  rw [getLast?_eq (by omega), head?_eq (by omega)]
  simp only [not_le.mpr hlast, not_le.mpr hfront, if_false]
  rw [lowerBound_eq hs hi h1 h2]
  have e1 : (i + 1) * v.inner - v.inner = i * v.inner := by
    rw [Nat.add_mul]; omega
  rw [Res.get_of_lt hi, if_neg (by omega), Nat.add_sub_cancel, Res.get_of_lt (by omega)]
  simp only [Res.ok_bind, e1]
  rw [segment_ok (step_le hwf hi), segment_ok (step_le hwf (by omega))]
  rfl

theorem eval_at_back {R : Rounding K} {v : IV K} (hwf : v.WF) (hn : 0 < v.points.length) {t : K}
    (h1 : v.points[v.points.length - 1] ≤ t)
    (h2 : t ≤ R.add v.points[v.points.length - 1] (R.rnd EPSILON)) :
    eval R v t = Res.ok ((v.values.drop ((v.points.length - 1) * v.inner)).take v.inner) := by
  unfold eval
  rw [getLast?_eq hn, head?_eq hn]
  simp only [h1, if_true, not_lt.mpr h2, if_false]
  exact segment_ok (step_le hwf (by omega))

theorem eval_at_front {R : Rounding K} {v : IV K} (hwf : v.WF) (hn : 0 < v.points.length) {t : K}
    (h0 : t < v.points[v.points.length - 1])
    (h1 : t ≤ v.points[0]) (h2 : R.sub v.points[0] (R.rnd EPSILON) ≤ t) :
    eval R v t = Res.ok (v.values.take v.inner) := by
  unfold eval
  rw [getLast?_eq hn, head?_eq hn]
  simp only [not_le.mpr h0, h1, if_true, not_lt.mpr h2, if_false]
  have := step_le hwf hn
  rw [segment_ok (by omega), List.drop_zero]

theorem weight_one (R : Rounding K) {p n : K} (h : p < n) : weight R p n n = 1 := by
  have : R.sub n p ≠ 0 := (R.pos (sub_pos.mpr h)).ne'
  unfold weight Rounding.div
  rw [div_self this, R.one]

theorem blend_one (R : Rounding K) (a : K) {b : K} (hb : R.Rep b) : blend R 1 a b = b := by
  unfold blend Rounding.add Rounding.mul Rounding.sub
  rw [sub_self, R.zero, zero_mul, R.zero, one_mul, hb, zero_add, hb]

theorem weight_mem (R : Rounding K) {p n t : K} (h1 : p < t) (h2 : t ≤ n) :
    0 ≤ weight R p n t ∧ weight R p n t ≤ 1 := by
  have ha : 0 < R.sub t p := R.pos (sub_pos.mpr h1)
  have hb : 0 < R.sub n p := R.pos (sub_pos.mpr (lt_of_lt_of_le h1 h2))
  have hab : R.sub t p ≤ R.sub n p := R.mono _ _ (by linarith)
  exact ⟨R.nonneg (div_nonneg ha.le hb.le), R.le_of_le_rep ((div_le_one hb).mpr hab) R.one⟩

/-- C93. In floating point arithmetic, too, evaluating at an interpolation point gives exactly the stored vector. -/
theorem C93_nodes (R : Rounding K) (v : IV K) (hwf : v.WF) (hs : v.points.Pairwise (· < ·)) (hr : AllRep R v)
    (i : ℕ) (hi : i < v.points.length) :
    eval R v v.points[i] = vectorAtIndex v (i : ℤ) ∧
      ∃ w, vectorAtIndex v (i : ℤ) = Res.ok w ∧ w.length = v.inner ∧
        ∀ k < v.inner, w[k]? = v.values[i * v.inner + k]? := by
  refine ⟨?_, (C01_eval_at_node v hwf hs i hi).2⟩
  rw [vectorAtIndex_ok hwf hi]
  have hle := step_le hwf hi
  by_cases hlast : i = v.points.length - 1
  · subst hlast
    exact eval_at_back hwf (by omega) le_rfl (le_add_eps (hr.1 _ (List.getElem_mem _)))
  · have hl : v.points[i] < v.points[v.points.length - 1] :=
      getElem_lt_of_pairwise hs (by omega) (by omega)
    cases i with
    | zero =>
      rw [eval_at_front hwf (by omega) hl le_rfl (sub_eps_le (hr.1 _ (List.getElem_mem _)))]
      simp
    | succ i =>
      have hlt : v.points[i] < v.points[i + 1] := getElem_lt_of_pairwise hs (by omega) hi
      rw [eval_interior hwf hs hi hlt le_rfl hl, weight_one R hlt]
      have hlen := step_le hwf (i := i) (by omega)
      congr 1
      apply List.ext_getElem
      · simp; omega
      · intro k h1 h2
        rw [List.getElem_zipWith]
        refine blend_one R _ (hr.2 _ ?_)
        exact List.mem_of_mem_drop (List.mem_of_mem_take (List.getElem_mem _))

/-- C93. Exactly the times more than the tolerance outside of the grid (computed in floating point arithmetic) are rejected;
there is never undefined behaviour. -/
theorem C93_range (R : Rounding K) (v : IV K) (hwf : v.WF) (hs : v.points.Pairwise (· < ·)) (hr : AllRep R v)
    (hn : 0 < v.points.length) (t : K) :
    (eval R v t = Res.throws ↔
      (t < R.sub v.points[0] (R.rnd EPSILON) ∨ R.add v.points[v.points.length - 1] (R.rnd EPSILON) < t)) ∧
    eval R v t ≠ Res.ub ∧ ∀ r, eval R v t = Res.ok r → r.length = v.inner := by
  have hfl : v.points[0] ≤ v.points[v.points.length - 1] :=
    getElem_le_of_pairwise hs (Nat.zero_le _) (by omega)
  have hf1 : R.sub v.points[0] (R.rnd EPSILON) ≤ v.points[0] := sub_eps_le (hr.1 _ (List.getElem_mem _))
  have hb1 : v.points[v.points.length - 1] ≤ R.add v.points[v.points.length - 1] (R.rnd EPSILON) :=
    le_add_eps (hr.1 _ (List.getElem_mem _))
  have hlen : ∀ s, s + v.inner ≤ v.values.length →
      ∀ r, Res.ok ((v.values.drop s).take v.inner) = Res.ok r → r.length = v.inner := by
    intro s hs r hr; injection hr with hr; subst hr; simp; omega
  have hsl := step_le hwf (i := v.points.length - 1) (by omega)
  have hs0 := step_le hwf hn
  by_cases hb : v.points[v.points.length - 1] ≤ t
  · by_cases hb2 : t ≤ R.add v.points[v.points.length - 1] (R.rnd EPSILON)
    · rw [eval_at_back hwf hn hb hb2]
      refine ⟨⟨by simp, ?_⟩, by simp, hlen _ hsl⟩
      rintro (h | h) <;> linarith
    · have : eval R v t = Res.throws := by
        unfold eval; rw [getLast?_eq hn, head?_eq hn]
        simp [hb, not_le.mp hb2]
      rw [this]
      exact ⟨⟨fun _ => Or.inr (not_le.mp hb2), fun _ => rfl⟩, by simp, by simp⟩
  · have hb := not_le.mp hb
    by_cases hf : t ≤ v.points[0]
    · by_cases hf2 : R.sub v.points[0] (R.rnd EPSILON) ≤ t
      · rw [eval_at_front hwf hn hb hf hf2]
        refine ⟨⟨by simp, ?_⟩, by simp, by simpa using hlen 0 (by omega)⟩
        rintro (h | h) <;> linarith
      · have : eval R v t = Res.throws := by
          unfold eval; rw [getLast?_eq hn, head?_eq hn]
          simp [not_le.mpr hb, hf, not_le.mp hf2]
        rw [this]
        exact ⟨⟨fun _ => Or.inl (not_le.mp hf2), fun _ => rfl⟩, by simp, by simp⟩
    · have hf := not_le.mp hf
      have hne : v.points ≠ [] := by intro h; simp [h] at hn
      obtain ⟨i, hi, h1, h2⟩ := exists_cell (l := v.points) hne
        (by rw [List.head_eq_getElem]; exact hf)
        (by rw [List.getLast_eq_getElem]; exact le_of_lt hb)
      rw [eval_interior hwf hs hi h1 h2 hb]
      have := step_le hwf (i := i) (by omega)
      have := step_le hwf hi
      refine ⟨⟨by simp, ?_⟩, by simp, ?_⟩
      · rintro (h | h) <;> linarith
      · intro r hr; injection hr with hr; subst hr; simp; omega

/-! ## Accuracy -/

theorem abs_sub_rnd_le (R : Rounding K) {x y e m : K} (h : |x - y| ≤ e * m) (hy : |y| ≤ m) :
    |R.rnd x - y| ≤ ((1 + R.unit) * (1 + e) - 1) * m := by
  have h1 := R.error x
  have hu := R.unit_nonneg
  have h2 : |x| ≤ |x - y| + |y| := by
    have := abs_add_le (x - y) y
    rwa [sub_add_cancel] at this
  have h3 : |R.rnd x - y| ≤ |R.rnd x - x| + |x - y| := abs_sub_le _ _ _
  have h4 : R.unit * |x| ≤ R.unit * (e * m + m) := mul_le_mul_of_nonneg_left (by linarith) hu
  linarith

/-- Rounding errors of the blend, for a weight between 0 and 1. -/
theorem blend_error (R : Rounding K) {lam a b m : K} (h0 : 0 ≤ lam) (h1 : lam ≤ 1) (ha : |a| ≤ m) (hb : |b| ≤ m) :
    |blend R lam a b - ((1 - lam) * a + lam * b)| ≤ ((1 + R.unit) ^ 3 - 1) * m := by
  have hu := R.unit_nonneg
  have hm : 0 ≤ m := le_trans (abs_nonneg _) ha
  have hl : 0 ≤ 1 - lam := by linarith
  have e1 : |R.sub 1 lam - (1 - lam)| ≤ R.unit * (1 - lam) := by
    have := R.error (1 - lam)
    rwa [abs_of_nonneg hl] at this
  have e2 : |R.sub 1 lam * a - (1 - lam) * a| ≤ R.unit * ((1 - lam) * m) := by
    rw [← sub_mul, abs_mul, ← mul_assoc]
    exact mul_le_mul e1 ha (abs_nonneg _) (mul_nonneg hu hl)
  have e3 : |(1 - lam) * a| ≤ (1 - lam) * m := by
    rw [abs_mul, abs_of_nonneg hl]
    exact mul_le_mul_of_nonneg_left ha hl
  have e4 := abs_sub_rnd_le R e2 e3
  have e5 : |lam * b| ≤ lam * m := by
    rw [abs_mul, abs_of_nonneg h0]
    exact mul_le_mul_of_nonneg_left hb h0
  have e6 : |R.mul lam b - lam * b| ≤ R.unit * (lam * m) :=
    le_trans (R.error _) (mul_le_mul_of_nonneg_left e5 hu)
  have e7 : |R.mul (R.sub 1 lam) a + R.mul lam b - ((1 - lam) * a + lam * b)| ≤
      ((1 + R.unit) * (1 + R.unit) - 1) * m := by
    have h := abs_add_le (R.mul (R.sub 1 lam) a - (1 - lam) * a) (R.mul lam b - lam * b)
    have e : R.mul (R.sub 1 lam) a + R.mul lam b - ((1 - lam) * a + lam * b) =
      (R.mul (R.sub 1 lam) a - (1 - lam) * a) + (R.mul lam b - lam * b) := by ring
    rw [e]
    have e4' : |R.mul (R.sub 1 lam) a - (1 - lam) * a| ≤ ((1 + R.unit) * (1 + R.unit) - 1) * ((1 - lam) * m) := e4
    have : R.unit * (lam * m) ≤ ((1 + R.unit) * (1 + R.unit) - 1) * (lam * m) := by
      refine mul_le_mul_of_nonneg_right ?_ (mul_nonneg h0 hm)
      nlinarith
    linarith
  have e8 : |(1 - lam) * a + lam * b| ≤ m := by
    have := abs_add_le ((1 - lam) * a) (lam * b)
    linarith
  have e9 := abs_sub_rnd_le R e7 e8
  refine le_trans e9 (le_of_eq ?_)
  ring

/-- Rounding errors of the weight. -/
theorem weight_error (R : Rounding K) {p n t : K} (h1 : p < t) (h2 : t ≤ n) :
    |weight R p n t - (t - p) / (n - p)| ≤ (1 + R.unit) ^ 2 / (1 - R.unit) - 1 := by
  have hu := R.unit_nonneg
  have hu1 : 0 < 1 - R.unit := by linarith [R.unit_lt_one]
  have hx : 0 < t - p := sub_pos.mpr h1
  have hy : 0 < n - p := by linarith
  have hA : 0 < R.sub t p := R.pos hx
  have hB : 0 < R.sub n p := R.pos hy
  have eA := R.error (t - p)
  have eB := R.error (n - p)
  rw [abs_of_pos hx] at eA
  rw [abs_of_pos hy] at eB
  have eA := abs_le.mp eA
  have eB := abs_le.mp eB
  have hW : weight R p n t = R.rnd (R.sub t p / R.sub n p) := rfl
  rw [hW]
  have hA' : R.rnd (t - p) = R.sub t p := rfl
  have hB' : R.rnd (n - p) = R.sub n p := rfl
  rw [hA'] at eA
  rw [hB'] at eB
  generalize R.sub t p = A at *
  generalize R.sub n p = B at *
  have hq : 0 < A / B := div_pos hA hB
  have eQ := R.error (A / B)
  rw [abs_of_pos hq] at eQ
  have eQ := abs_le.mp eQ
  set l := (t - p) / (n - p) with hl
  have hl0 : 0 ≤ l := div_nonneg hx.le hy.le
  have hl1 : l ≤ 1 := (div_le_one hy).mpr (by linarith)
  have hle : t - p = l * (n - p) := by rw [hl]; field_simp
  -- A / B is between the bounds
  have up : A / B ≤ (1 + R.unit) / (1 - R.unit) * l := by
    rw [div_le_iff₀ hB, div_mul_eq_mul_div, div_mul_eq_mul_div, le_div_iff₀ hu1]
    have a1 : A ≤ (1 + R.unit) * (t - p) := by linarith [eA.2]
    have b1 : (1 - R.unit) * (n - p) ≤ B := by linarith [eB.1]
    have c1 : A * (1 - R.unit) ≤ (1 + R.unit) * (l * (n - p)) * (1 - R.unit) := by
      rw [← hle]; exact mul_le_mul_of_nonneg_right a1 hu1.le
    have c2 : (1 + R.unit) * l * ((1 - R.unit) * (n - p)) ≤ (1 + R.unit) * l * B :=
      mul_le_mul_of_nonneg_left b1 (mul_nonneg (by linarith) hl0)
    linarith
  have lo : (1 - R.unit) / (1 + R.unit) * l ≤ A / B := by
    rw [le_div_iff₀ hB, div_mul_eq_mul_div, div_mul_eq_mul_div, div_le_iff₀ (by linarith)]
    have a1 : (1 - R.unit) * (t - p) ≤ A := by linarith [eA.1]
    have b1 : B ≤ (1 + R.unit) * (n - p) := by linarith [eB.2]
    have c1 : (1 - R.unit) * (l * (n - p)) * (1 + R.unit) ≤ A * (1 + R.unit) := by
      rw [← hle]; exact mul_le_mul_of_nonneg_right a1 (by linarith)
    have c2 : (1 - R.unit) * l * B ≤ (1 - R.unit) * l * ((1 + R.unit) * (n - p)) :=
      mul_le_mul_of_nonneg_left b1 (mul_nonneg hu1.le hl0)
    linarith
  have k0 : 0 ≤ (1 + R.unit) ^ 2 / (1 - R.unit) - 1 := by
    rw [sub_nonneg, le_div_iff₀ hu1]
    nlinarith
  have up' : R.rnd (A / B) ≤ (1 + R.unit) ^ 2 / (1 - R.unit) * l := by
    have h := mul_le_mul_of_nonneg_left up (show 0 ≤ 1 + R.unit by linarith)
    have e : (1 + R.unit) * ((1 + R.unit) / (1 - R.unit) * l) = (1 + R.unit) ^ 2 / (1 - R.unit) * l := by ring
    linarith [eQ.2]
  have lo' : (1 - R.unit) ^ 2 / (1 + R.unit) * l ≤ R.rnd (A / B) := by
    have h := mul_le_mul_of_nonneg_left lo hu1.le
    have e : (1 - R.unit) * ((1 - R.unit) / (1 + R.unit) * l) = (1 - R.unit) ^ 2 / (1 + R.unit) * l := by ring
    linarith [eQ.1]
  have k1 : 1 - (1 - R.unit) ^ 2 / (1 + R.unit) ≤ (1 + R.unit) ^ 2 / (1 - R.unit) - 1 := by
    have hp : 0 < 1 + R.unit := by linarith
    have e1 : 1 - (1 - R.unit) ^ 2 / (1 + R.unit) = (3 * R.unit - R.unit ^ 2) / (1 + R.unit) := by
      field_simp; ring
    have e2 : (1 + R.unit) ^ 2 / (1 - R.unit) - 1 = (3 * R.unit + R.unit ^ 2) / (1 - R.unit) := by
      field_simp; ring
    rw [e1, e2, div_le_div_iff₀ hp hu1]
    nlinarith [sq_nonneg R.unit, mul_nonneg hu (sq_nonneg R.unit)]
  have k2 : ((1 + R.unit) ^ 2 / (1 - R.unit) - 1) * l ≤ (1 + R.unit) ^ 2 / (1 - R.unit) - 1 := by
    nlinarith
  have k3 : (1 - (1 - R.unit) ^ 2 / (1 + R.unit)) * l ≤ ((1 + R.unit) ^ 2 / (1 - R.unit) - 1) * l :=
    mul_le_mul_of_nonneg_right k1 hl0
  rw [abs_le]
  constructor <;> linarith

/-- C93. Between two nodes the computed value differs from the exact interpolant by at most ten times the unit of rounding,
relative to the stored values, and it overshoots them by at most four times this unit. -/
theorem C93_accuracy (R : Rounding K) (hu : R.unit ≤ 1 / 100) (v : IV K) (hwf : v.WF) (hs : v.points.Pairwise (· < ·))
    (hr : AllRep R v) (i : ℕ) (hi : i + 1 < v.points.length) (t : K)
    (h1 : v.points[i] ≤ t) (h2 : t ≤ v.points[i + 1]) :
    ∃ r, eval R v t = Res.ok r ∧ r.length = v.inner ∧
      ∀ k < v.inner, ∃ a b c, v.values[i * v.inner + k]? = some a ∧
        v.values[(i + 1) * v.inner + k]? = some b ∧ r[k]? = some c ∧
        |c - (a + (t - v.points[i]) * ((b - a) / (v.points[i + 1] - v.points[i])))| ≤ 10 * R.unit * max |a| |b| ∧
        min a b - 4 * R.unit * max |a| |b| ≤ c ∧ c ≤ max a b + 4 * R.unit * max |a| |b| := by
  have hu0 := R.unit_nonneg
  have hlt : v.points[i] < v.points[i + 1] := getElem_lt_of_pairwise hs (by omega) hi
  have hpos : 0 < v.points[i + 1] - v.points[i] := sub_pos.mpr hlt
  have hl0 := step_le hwf (i := i) (by omega)
  have hl1 := step_le hwf hi
  have hm0 : ∀ a b : K, 0 ≤ R.unit * max |a| |b| := fun a b =>
    mul_nonneg hu0 (le_trans (abs_nonneg a) (le_max_left _ _))
  rcases eq_or_lt_of_le h1 with h1 | h1
  · obtain ⟨he, w, hw, hlen, hval⟩ := C93_nodes R v hwf hs hr i (by omega)
    refine ⟨w, by rw [← h1, he, hw], hlen, ?_⟩
    intro k hk
    refine ⟨v.values[i * v.inner + k]'(by omega), v.values[(i + 1) * v.inner + k]'(by omega),
      v.values[i * v.inner + k]'(by omega), by simp, by simp, ?_, ?_, ?_, ?_⟩
    · rw [hval k hk]; simp
    · rw [h1]
      simp only [sub_self, zero_mul, add_zero, abs_zero]
      linarith [hm0 (v.values[i * v.inner + k]'(by omega)) (v.values[(i + 1) * v.inner + k]'(by omega))]
    · linarith [hm0 (v.values[i * v.inner + k]'(by omega)) (v.values[(i + 1) * v.inner + k]'(by omega)),
        min_le_left (v.values[i * v.inner + k]'(by omega)) (v.values[(i + 1) * v.inner + k]'(by omega))]
    · linarith [hm0 (v.values[i * v.inner + k]'(by omega)) (v.values[(i + 1) * v.inner + k]'(by omega)),
        le_max_left (v.values[i * v.inner + k]'(by omega)) (v.values[(i + 1) * v.inner + k]'(by omega))]
  rcases eq_or_lt_of_le h2 with h2 | h2
  · obtain ⟨he, w, hw, hlen, hval⟩ := C93_nodes R v hwf hs hr (i + 1) hi
    refine ⟨w, by rw [h2, he, hw], hlen, ?_⟩
    intro k hk
    refine ⟨v.values[i * v.inner + k]'(by omega), v.values[(i + 1) * v.inner + k]'(by omega),
      v.values[(i + 1) * v.inner + k]'(by omega), by simp, by simp, ?_, ?_, ?_, ?_⟩
    · rw [hval k hk]; simp
    · have e : ∀ a b : K, b - (a + (t - v.points[i]) * ((b - a) / (v.points[i + 1] - v.points[i]))) = 0 := by
        intro a b; rw [h2]; field_simp; ring
      rw [e, abs_zero]
      linarith [hm0 (v.values[i * v.inner + k]'(by omega)) (v.values[(i + 1) * v.inner + k]'(by omega))]
    · linarith [hm0 (v.values[i * v.inner + k]'(by omega)) (v.values[(i + 1) * v.inner + k]'(by omega)),
        min_le_right (v.values[i * v.inner + k]'(by omega)) (v.values[(i + 1) * v.inner + k]'(by omega))]
    · linarith [hm0 (v.values[i * v.inner + k]'(by omega)) (v.values[(i + 1) * v.inner + k]'(by omega)),
        le_max_right (v.values[i * v.inner + k]'(by omega)) (v.values[(i + 1) * v.inner + k]'(by omega))]
  have hlast : t < v.points[v.points.length - 1] :=
    lt_of_lt_of_le h2 (getElem_le_of_pairwise hs (by omega) (by omega))
  refine ⟨_, eval_interior hwf hs hi h1 (le_of_lt h2) hlast, by simp; omega, ?_⟩
  intro k hk
  refine ⟨v.values[i * v.inner + k]'(by omega), v.values[(i + 1) * v.inner + k]'(by omega),
    blend R (weight R v.points[i] v.points[i + 1] t) (v.values[i * v.inner + k]'(by omega))
      (v.values[(i + 1) * v.inner + k]'(by omega)), by simp, by simp, ?_, ?_⟩
  · rw [List.getElem?_zipWith, segment_get hk, segment_get hk]
    rw [List.getElem?_eq_getElem (by omega), List.getElem?_eq_getElem (by omega)]
  generalize (v.values[i * v.inner + k]'(by omega)) = a
  generalize (v.values[(i + 1) * v.inner + k]'(by omega)) = b
  obtain ⟨w0, w1⟩ := weight_mem R h1 h2.le
  have ew := weight_error R h1 h2.le
  set m := max |a| |b| with hm
  have ha : |a| ≤ m := le_max_left _ _
  have hb : |b| ≤ m := le_max_right _ _
  have hmn : 0 ≤ m := le_trans (abs_nonneg _) ha
  have eb := blend_error R w0 w1 ha hb
  generalize weight R v.points[i] v.points[i + 1] t = lam at *
  have c3 : (1 + R.unit) ^ 3 - 1 ≤ 31 / 10 * R.unit := by nlinarith [mul_nonneg hu0 hu0]
  have c2 : (1 + R.unit) ^ 2 / (1 - R.unit) - 1 ≤ 31 / 10 * R.unit := by
    rw [sub_le_iff_le_add, div_le_iff₀ (by linarith)]
    nlinarith
  have eb' : |blend R lam a b - ((1 - lam) * a + lam * b)| ≤ 31 / 10 * R.unit * m :=
    le_trans eb (mul_le_mul_of_nonneg_right c3 hmn)
  have hum : 0 ≤ R.unit * m := mul_nonneg hu0 hmn
  obtain ⟨eb1, eb2⟩ := abs_le.mp eb'
  refine ⟨?_, ?_, ?_⟩
  · have e : blend R lam a b - (a + (t - v.points[i]) * ((b - a) / (v.points[i + 1] - v.points[i]))) =
        (blend R lam a b - ((1 - lam) * a + lam * b)) +
          (lam - (t - v.points[i]) / (v.points[i + 1] - v.points[i])) * (b - a) := by
      field_simp; ring
    rw [e]
    refine le_trans (abs_add_le _ _) ?_
    rw [abs_mul]
    have hba : |b - a| ≤ 2 * m := le_trans (abs_sub b a) (by linarith)
    have : |lam - (t - v.points[i]) / (v.points[i + 1] - v.points[i])| * |b - a| ≤ 31 / 10 * R.unit * (2 * m) :=
      mul_le_mul (le_trans ew c2) hba (abs_nonneg _) (by linarith)
    linarith
  · have h3 := mul_le_mul_of_nonneg_left (min_le_left a b) (sub_nonneg.mpr w1)
    have h4 := mul_le_mul_of_nonneg_left (min_le_right a b) w0
    linarith
  · have h3 := mul_le_mul_of_nonneg_left (le_max_left a b) (sub_nonneg.mpr w1)
    have h4 := mul_le_mul_of_nonneg_left (le_max_right a b) w0
    linarith

end Verif.Float
