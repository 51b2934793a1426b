import Verif.Interp.Model
import Mathlib.Tactic.Linarith
import Mathlib.Tactic.FieldSimp
import Mathlib.Tactic.Ring
import Mathlib.Tactic.NormNum

/-! # Helper lemmas for the interpolating vector -/

set_option linter.unusedSectionVars false

set_option autoImplicit false

namespace Verif.Interp

variable {K : Type*} [Field K] [LinearOrder K]

theorem EPSILON_pos [IsStrictOrderedRing K] : (0 : K) < EPSILON := by
  unfold EPSILON; positivity

theorem segment_ok {l : List K} {s n : ℕ} (h : s + n ≤ l.length) :
    segment l s n = Res.ok ((l.drop s).take n) := by simp [segment, h]

theorem segment_length {l r : List K} {s n : ℕ} (h : segment l s n = Res.ok r) : r.length = n := by
  unfold segment at h; split at h
  · injection h with h; subst h; simp; omega
  · cases h

theorem step_le {v : IV K} (hwf : v.WF) {i : ℕ} (hi : i < v.points.length) :
    i * v.inner + v.inner ≤ v.values.length := by
  rw [hwf]
  calc i * v.inner + v.inner = (i + 1) * v.inner := by ring
    _ ≤ v.points.length * v.inner := Nat.mul_le_mul_right _ hi

/-- The stored vector of step `i`. -/
theorem vectorAtIndex_ok {v : IV K} (hwf : v.WF) {i : ℕ} (hi : i < v.points.length) :
    vectorAtIndex v (i : ℤ) = Res.ok ((v.values.drop (i * v.inner)).take v.inner) := by
  have h := step_le hwf hi
  have h' : ¬ v.values.length < v.inner * i + v.inner := by rw [Nat.mul_comm]; omega
  simp only [vectorAtIndex, Int.toNat_natCast]
  rw [if_neg (by omega), if_neg h', segment_ok (by omega), Nat.mul_comm]

theorem getElem_lt_of_pairwise {l : List K} (h : l.Pairwise (· < ·)) {i j : ℕ} (hij : i < j)
    (hj : j < l.length) : l[i] < l[j] :=
  List.pairwise_iff_getElem.mp h i j (by omega) hj hij

theorem getElem_le_of_pairwise {l : List K} (h : l.Pairwise (· < ·)) {i j : ℕ} (hij : i ≤ j)
    (hj : j < l.length) : l[i] ≤ l[j] := by
  rcases Nat.lt_or_eq_of_le hij with h1 | h1
  · exact le_of_lt (getElem_lt_of_pairwise h h1 hj)
  · subst h1; exact le_refl _

theorem lowerBound_eq {l : List K} (h : l.Pairwise (· < ·)) {i : ℕ} (hi : i + 1 < l.length) {t : K}
    (h1 : l[i] < t) (h2 : t ≤ l[i + 1]) : lowerBound l t = i + 1 := by
  unfold lowerBound
  rw [List.findIdx_eq hi]
  refine ⟨by simpa using h2, ?_⟩
  intro j hj
  have : l[j] ≤ l[i] := getElem_le_of_pairwise h (by omega) (by omega)
  simp; exact lt_of_le_of_lt this h1

/-- A time strictly inside a sorted grid lies in exactly one half-open cell. -/
theorem exists_cell {l : List K} {t : K} (hne : l ≠ []) (h1 : l.head hne < t)
    (h2 : t ≤ l.getLast hne) : ∃ i, ∃ hi : i + 1 < l.length, l[i] < t ∧ t ≤ l[i + 1] := by
  induction l with
  | nil => exact absurd rfl hne
  | cons a l ih =>
    cases l with
    | nil => simp at h1 h2; exact absurd (lt_of_lt_of_le h1 h2) (lt_irrefl _)
    | cons b l =>
      by_cases hb : b < t
      · obtain ⟨i, hi, q1, q2⟩ := ih (by simp) hb (by simpa using h2)
        exact ⟨i + 1, by simpa using hi, by simpa using q1, by simpa using q2⟩
      · exact ⟨0, by simp, by simpa using h1, by simpa using not_lt.mp hb⟩

theorem head?_eq {l : List K} (h : 0 < l.length) : l.head? = some l[0] := by
  cases l with
  | nil => simp at h
  | cons a l => simp

theorem getLast?_eq {l : List K} (h : 0 < l.length) : l.getLast? = some l[l.length - 1] := by
  rw [List.getLast?_eq_getElem?]; simp [h]

/-- Interior evaluation in closed form. -/
theorem eval_interior {v : IV K} (hwf : v.WF) (hs : v.points.Pairwise (· < ·)) {i : ℕ}
    (hi : i + 1 < v.points.length) {t : K} (h1 : v.points[i] < t) (h2 : t ≤ v.points[i + 1])
    (hlast : t < v.points[v.points.length - 1]) :
    eval v t = Res.ok (List.zipWith
      (fun a b => (1 - (t - v.points[i]) / (v.points[i + 1] - v.points[i])) * a
        + (t - v.points[i]) / (v.points[i + 1] - v.points[i]) * b)
      ((v.values.drop (i * v.inner)).take v.inner)
      ((v.values.drop ((i + 1) * v.inner)).take v.inner)) := by
  have hfront : v.points[0] < t :=
    lt_of_le_of_lt (getElem_le_of_pairwise hs (Nat.zero_le i) (by omega)) h1
  unfold eval
  rw [getLast?_eq (by omega), head?_eq (by omega)]
  simp only [not_le.mpr hlast, not_le.mpr hfront, if_false]
  rw [lowerBound_eq hs hi h1 h2]
  have e1 : (i + 1) * v.inner - v.inner = i * v.inner := by
    rw [Nat.add_mul]; omega
  rw [Res.get_of_lt hi, if_neg (by omega), Nat.add_sub_cancel, Res.get_of_lt (by omega)]
  simp only [Res.ok_bind, e1]
  rw [segment_ok (step_le hwf hi), segment_ok (step_le hwf (by omega))]
  rfl

theorem eval_at_back {v : IV K} (hwf : v.WF) (hn : 0 < v.points.length) {t : K}
    (h1 : v.points[v.points.length - 1] ≤ t)
    (h2 : t ≤ v.points[v.points.length - 1] + EPSILON) :
    eval v t = Res.ok ((v.values.drop ((v.points.length - 1) * v.inner)).take v.inner) := by
  unfold eval
  rw [getLast?_eq hn, head?_eq hn]
  simp only [h1, if_true, not_lt.mpr h2, if_false]
  exact segment_ok (step_le hwf (by omega))

theorem eval_at_front {v : IV K} (hwf : v.WF) (hn : 0 < v.points.length) {t : K}
    (h0 : t < v.points[v.points.length - 1])
    (h1 : t ≤ v.points[0]) (h2 : v.points[0] - EPSILON ≤ t) :
    eval v t = Res.ok (v.values.take v.inner) := by
  unfold eval
  rw [getLast?_eq hn, head?_eq hn]
  simp only [not_le.mpr h0, h1, if_true, not_lt.mpr h2, if_false]
  have := step_le hwf hn
  rw [segment_ok (by omega), List.drop_zero]

/-! ## Segment writes -/

theorem writeSegment_length {l w : List K} {s : ℕ} (h : s + w.length ≤ l.length) :
    (writeSegment l s w).length = l.length := by
  simp [writeSegment]; omega

theorem writeSegment_get {l w : List K} {s k : ℕ} (h : s + w.length ≤ l.length) :
    (writeSegment l s w)[k]? =
      if s ≤ k ∧ k < s + w.length then w[k - s]? else l[k]? := by
  unfold writeSegment
  have hs : (l.take s).length = s := by simp; omega
  by_cases h1 : k < s
  · rw [if_neg (by omega), List.append_assoc, List.getElem?_append_left (by omega),
      List.getElem?_take_of_lt h1]
  · by_cases h2 : k < s + w.length
    · rw [if_pos ⟨by omega, h2⟩, List.getElem?_append_left (by simp; omega),
        List.getElem?_append_right (by omega), hs]
    · rw [if_neg (by omega), List.getElem?_append_right (by simp; omega)]
      rw [List.getElem?_drop]
      congr 1
      simp; omega

theorem segment_get {l : List K} {s n k : ℕ} (hk : k < n) :
    ((l.drop s).take n)[k]? = l[s + k]? := by
  rw [List.getElem?_take_of_lt hk, List.getElem?_drop]

theorem segment_writeSegment_same {l w : List K} {s : ℕ} (h : s + w.length ≤ l.length) :
    ((writeSegment l s w).drop s).take w.length = w := by
  apply List.ext_getElem?
  intro k
  by_cases hk : k < w.length
  · rw [segment_get hk, writeSegment_get h, if_pos (by omega)]
    congr 1; omega
  · rw [List.getElem?_eq_none (by simp; omega), List.getElem?_eq_none (by omega)]

theorem segment_writeSegment_other {l w : List K} {s s' n : ℕ} (h : s + w.length ≤ l.length)
    (hd : s' + n ≤ s ∨ s + w.length ≤ s') :
    ((writeSegment l s w).drop s').take n = (l.drop s').take n := by
  apply List.ext_getElem?
  intro k
  by_cases hk : k < n
  · rw [segment_get hk, segment_get hk, writeSegment_get h, if_neg (by omega)]
  · rw [List.getElem?_eq_none (by simp; omega), List.getElem?_eq_none (by simp; omega)]

theorem isSorted_iff {l : List K} : isSorted l = true ↔ l.Pairwise (· ≤ ·) := by
  induction l with
  | nil => simp [isSorted]
  | cons a l ih =>
    cases l with
    | nil => simp [isSorted]
    | cons b l =>
      rw [isSorted, Bool.and_eq_true, ih, List.pairwise_cons (a := a)]
      constructor
      · rintro ⟨h1, h2⟩
        have h1 : a ≤ b := by simpa using h1
        refine ⟨?_, h2⟩
        intro c hc
        rcases List.mem_cons.mp hc with rfl | hc
        · exact h1
        · exact le_trans h1 (List.rel_of_pairwise_cons h2 hc)
      · rintro ⟨h1, h2⟩
        exact ⟨by simpa using h1 b (by simp), h2⟩

/-! ## Equidistant grids -/

theorem equidistantLoop_length (c d : K) (n : ℕ) : (equidistantLoop c d n).length = n := by
  induction n generalizing c with
  | zero => rfl
  | succ n ih => simp [equidistantLoop, ih]

theorem equidistantLoop_get (c d : K) (n i : ℕ) (h : i < n) :
    (equidistantLoop c d n)[i]? = some (c + i * d) := by
  induction n generalizing c i with
  | zero => omega
  | succ n ih =>
    cases i with
    | zero => simp [equidistantLoop]
    | succ i =>
      simp only [equidistantLoop, List.getElem?_cons_succ]
      rw [ih _ _ (by omega)]; push_cast; congr 1; ring

end Verif.Interp
