import Verif.OptTimes.Model
import Mathlib.Data.List.Sort
import Mathlib.Order.Basic
import Mathlib.Data.Int.Order.Basic
import Mathlib.Data.List.Induction
import Mathlib.Tactic.Linarith
import Mathlib.Tactic.Ring

/-! # Properties C17, C18, C20: constraint times -/

set_option autoImplicit false
set_option linter.unusedSectionVars false

namespace Verif.OptTimes

variable {T : Type} [LinearOrder T]

/-! ## C17 -/

theorem scan_eq (ts : List T) (hs : ts.Pairwise (· ≤ ·)) :
    ∀ cs : List T, (scan ts cs = Res.ok [] ↔ cs.Sublist ts) ∧ scan ts cs ≠ Res.ub := by
  induction ts with
  | nil => intro cs; simp [scan]
  | cons t ts ih =>
    intro cs
    have hs' := List.Pairwise.of_cons hs
    cases cs with
    | nil => simp [scan]
    | cons c cs =>
      unfold scan
      by_cases h1 : t < c
      · rw [if_pos h1]
        refine ⟨?_, (ih hs' _).2⟩
        rw [(ih hs' (c :: cs)).1]
        refine ⟨fun h => h.cons t, fun h => ?_⟩
        cases h with
        | cons _ h => exact h
        | cons_cons _ h => exact absurd h1 (lt_irrefl _)
      · rw [if_neg h1]
        by_cases h2 : t = c
        · subst h2
          rw [if_pos rfl]
          refine ⟨?_, (ih hs' _).2⟩
          rw [(ih hs' cs).1]
          exact List.cons_sublist_cons.symm
        · rw [if_neg h2]
          refine ⟨⟨by simp, fun h => ?_⟩, by simp⟩
          exfalso
          have hmem : c ∈ t :: ts := h.subset (by simp)
          rcases List.mem_cons.mp hmem with rfl | hm
          · exact h2 rfl
          · exact h2 (le_antisymm (List.rel_of_pairwise_cons hs hm) (not_lt.mp h1))

/-- C17. For sorted state times the check passes exactly if the constraint times are a sublist of the
state times after the initial one, and throws otherwise. -/
theorem C17_check_iff_sublist (states cons : List T) (hs : states.Pairwise (· ≤ ·)) :
    (checkConstraintTimes states cons = Res.ok () ↔ cons.Sublist states.tail) ∧
    (¬ cons.Sublist states.tail → checkConstraintTimes states cons = Res.throws) := by
  have h := scan_eq states.tail (hs.sublist (List.tail_sublist _)) cons
  unfold checkConstraintTimes
  cases he : scan states.tail cons with
  | throws => rw [he] at h; simp only [Res.throws_bind]; constructor
              · simpa using h.1
              · simp
  | ub => rw [he] at h; simp at h
  | ok r =>
    rw [he] at h
    cases r with
    | nil => simp at h; simp [h]
    | cons a r => simp at h; simp [h]

theorem sublist_of_subset (ts cons : List T) (hs' : ts.Pairwise (· < ·)) (h2 : cons.Pairwise (· < ·))
    (h1 : ∀ c ∈ cons, c ∈ ts) : cons.Sublist ts := by
  induction ts generalizing cons with
  | nil =>
    cases cons with
    | nil => simp
    | cons c cs => exact absurd (h1 c (by simp)) (by simp)
  | cons t ts ih =>
    cases cons with
    | nil => simp
    | cons c cs =>
      have hcs := List.Pairwise.of_cons h2
      have hts := List.Pairwise.of_cons hs'
      by_cases h : c = t
      · subst h
        refine (ih cs hts hcs ?_).cons_cons c
        intro x hx
        rcases List.mem_cons.mp (h1 x (by simp [hx])) with rfl | hm
        · exact absurd (List.rel_of_pairwise_cons h2 hx) (lt_irrefl _)
        · exact hm
      · refine (ih (c :: cs) hts h2 ?_).cons t
        intro x hx
        rcases List.mem_cons.mp (h1 x hx) with rfl | hm
        · exfalso
          rcases List.mem_cons.mp hx with rfl | hx
          · exact h rfl
          · have hcm : c ∈ x :: ts := h1 c (by simp)
            rcases List.mem_cons.mp hcm with rfl | hcm
            · exact h rfl
            · exact absurd (lt_trans (List.rel_of_pairwise_cons h2 hx)
                (List.rel_of_pairwise_cons hs' hcm)) (lt_irrefl _)
        · exact hm

/-- C17. Hence every constraint time of an accepted optimizer is a state time after the initial one;
conversely strictly increasing constraint times are accepted as soon as each of them is one. -/
theorem C17_check_iff_subset (states cons : List T) (hs : states.Pairwise (· < ·)) :
    checkConstraintTimes states cons = Res.ok () ↔
      (∀ c ∈ cons, c ∈ states.tail) ∧ cons.Pairwise (· < ·) := by
  rw [(C17_check_iff_sublist states cons (hs.imp le_of_lt)).1]
  have hs' : states.tail.Pairwise (· < ·) := hs.sublist (List.tail_sublist _)
  constructor
  · intro h
    exact ⟨fun c hcm => h.subset hcm, hs'.sublist h⟩
  · rintro ⟨h1, h2⟩
    exact sublist_of_subset _ _ hs' h2 h1

example : checkConstraintTimes [(0 : ℕ), 1, 2, 4, 7] [2, 7] = Res.ok () := by decide
example : checkConstraintTimes [(0 : ℕ), 1, 2, 4, 7] [2, 3, 7] = Res.throws := by decide
example : checkConstraintTimes [(0 : ℕ), 1, 2, 4, 7] [0, 2] = Res.throws := by decide
example : checkConstraintTimes [(0 : ℕ), 1, 2, 4, 7] [2, 9] = Res.throws := by decide

/-! ## C18 -/

theorem walk_eq (cons : List T) (ts : List T) :
    ∀ ci ≤ cons.length, ts.Pairwise (· < ·) → (cons.take ci).Sublist ts →
    walk cons ts.reverse ci = if (cons.take ci).head? = ts.head? then Res.ok 0 else Res.ub := by
  induction ts using List.reverseRecOn with
  | nil =>
    intro ci hci _ hsub
    have h0 : cons.take ci = [] := by simpa using hsub
    have : ci = 0 := by
      by_contra hne
      have := congrArg List.length h0
      rw [List.length_take, List.length_nil] at this; omega
    subst this
    simp [walk]
  | append_singleton ts' t ih =>
    intro ci hci hs hsub
    have hs' : ts'.Pairwise (· < ·) := hs.sublist (List.sublist_append_left _ _)
    have hlt : ∀ x ∈ ts', x < t := by
      intro x hx
      exact (List.pairwise_append.mp hs).2.2 x hx t (by simp)
    rw [List.reverse_append]
    simp only [List.reverse_singleton, List.singleton_append, walk]
    by_cases h0 : ci = 0
    · subst h0
      rw [if_pos rfl, if_neg]
      cases ts' <;> simp
    · rw [if_neg h0, Res.get_of_lt (show ci - 1 < cons.length by omega)]
      simp only [Res.ok_bind]
      have htake : cons.take ci = cons.take (ci - 1) ++ [cons[ci - 1]] := by
        obtain ⟨m, rfl⟩ : ∃ m, ci = m + 1 := ⟨ci - 1, by omega⟩
        exact List.take_succ_eq_append_getElem (show m < cons.length by omega)
      generalize cons[ci - 1] = c at htake
      by_cases hct : c = t
      · subst hct
        rw [if_pos rfl]
        have hsub' : (cons.take (ci - 1)).Sublist ts' := by
          rw [htake] at hsub
          have := List.Sublist.reverse hsub
          simp only [List.reverse_append, List.reverse_singleton, List.singleton_append,
            List.cons_sublist_cons] at this
          simpa using this.reverse
        rw [ih (ci - 1) (by omega) hs' hsub', htake]
        cases hP : cons.take (ci - 1) with
        | cons p P =>
          cases ts' with
          | nil => rw [hP] at hsub'; simp at hsub'
          | cons a ts' => simp
        | nil =>
          cases ts' with
          | nil => simp
          | cons a ts' => have := hlt a (by simp); simp [this.ne']
      · rw [if_neg hct]
        have hsub' : (cons.take ci).Sublist ts' := by
          rw [htake] at hsub ⊢
          have := List.Sublist.reverse hsub
          simp only [List.reverse_append, List.reverse_singleton, List.singleton_append] at this
          cases this with
          | cons _ h => simpa using h.reverse
          | cons_cons _ h => exact absurd rfl hct
        rw [ih ci hci hs' hsub']
        cases ts' with
        | nil => rw [htake] at hsub'; simp at hsub'
        | cons a ts' => exact if_congr Iff.rfl rfl rfl

/-- C18 (full statement, false): for all accepted times the sweep stays inside the list. -/
def C18Statement : Prop :=
  ∀ states cons : List ℕ, states.Pairwise (· < ·) → 2 ≤ states.length →
    checkConstraintTimes states cons = Res.ok () → sweepAccesses states cons ≠ Res.ub

/-- C18. Exact description: on accepted times the sweep visits all constraint times and stays in bounds
if the first constraint time is the first simulated time; in all other cases (later first
constraint time, or no constraint time) it reads index -1. -/
theorem C18_in_bounds_iff (states cons : List T) (hs : states.Pairwise (· < ·))
    (hacc : checkConstraintTimes states cons = Res.ok ()) :
    sweepAccesses states cons =
      if cons.head? = states.tail.head? then Res.ok 0 else Res.ub := by
  have hsub := (C17_check_iff_sublist states cons (hs.imp le_of_lt)).1.mp hacc
  have := walk_eq cons states.tail cons.length le_rfl (hs.sublist (List.tail_sublist _))
    (by simpa using hsub)
  simpa [sweepAccesses] using this

/-- C18 is false: state times 0, 1, 2 with the single constraint time 2. -/
theorem C18_false : ¬ C18Statement := by
  intro h
  exact h [0, 1, 2] [2] (by decide) (by decide) (by decide) (by decide)

/-- C18, the part that holds: no access out of bounds if the first constraint time is the first
simulated time. Missing: all other accepted constraint times (`C18_in_bounds_iff`). -/
theorem C18_in_bounds_partial (states cons : List T) (hs : states.Pairwise (· < ·))
    (hacc : checkConstraintTimes states cons = Res.ok ())
    (hfirst : cons.head? = states.tail.head?) : sweepAccesses states cons = Res.ok 0 := by
  rw [C18_in_bounds_iff states cons hs hacc, if_pos hfirst]

example : checkConstraintTimes [(0 : ℕ), 1, 2, 4] [1, 4] = Res.ok () ∧
    [(1 : ℕ), 4].head? = [(0 : ℕ), 1, 2, 4].tail.head? := by decide

/-! ## C20 -/

theorem pick_eq (states : List T) (n : ℕ) (is : List ℕ) (h : ∀ i ∈ is, 1 + n * i < states.length) :
    ∃ r, pick states n is = Res.ok r ∧ r.length = is.length ∧
      ∀ k (hk : k < is.length), r[k]? = states[1 + n * is[k]]? := by
  induction is with
  | nil => exact ⟨[], rfl, rfl, by simp⟩
  | cons i is ih =>
    obtain ⟨r, h1, h2, h3⟩ := ih (fun j hj => h j (by simp [hj]))
    have hi := h i (by simp)
    refine ⟨states[1 + n * i] :: r, by simp [pick, Res.get_of_lt hi, h1], by simp [h2], ?_⟩
    intro k hk
    cases k with
    | zero => simp [hi]
    | succ k => simpa using h3 k (by simpa using hk)

/-- Arithmetic of the number of constraint times. -/
theorem number_bounds (N n : ℕ) (hN : 2 ≤ N) (hn : 1 ≤ n) :
    let m := if (N - 1) % n = 0 then (N - 1) / n else (N - 1) / n + 1
    1 ≤ m ∧ n * (m - 1) < N - 1 ∧ N - 1 ≤ n * m := by
  have hdm := Nat.div_add_mod (N - 1) n
  have hlt := Nat.mod_lt (N - 1) (show 0 < n by omega)
  intro m
  by_cases h : (N - 1) % n = 0
  · have hm : m = (N - 1) / n := if_pos h
    have h1 : 1 ≤ (N - 1) / n := by
      rcases Nat.eq_zero_or_pos ((N - 1) / n) with h0 | h0
      · rw [h0, h] at hdm; simp at hdm; omega
      · exact h0
    obtain ⟨q, hq⟩ : ∃ q, (N - 1) / n = q + 1 := ⟨(N - 1) / n - 1, by omega⟩
    rw [hm, hq]; rw [hq, h] at hdm
    have : n * (q + 1) = n * q + n := by ring
    refine ⟨by omega, ?_, by omega⟩
    rw [Nat.add_sub_cancel]; omega
  · have hm : m = (N - 1) / n + 1 := if_neg h
    rw [hm, Nat.add_sub_cancel]
    generalize (N - 1) / n = q at *
    generalize (N - 1) % n = r at *
    have : n * (q + 1) = n * q + n := by ring
    refine ⟨by omega, by omega, by omega⟩

/-- The selected times as positions in the list of state times. -/
theorem select_eq (states : List T) (n : ℤ) (hN : 2 ≤ states.length) :
    let n' := if n ≤ 0 then 1 else n.toNat
    ∃ cons m, selectConstraintTimes states n = Res.ok cons ∧ 1 ≤ n' ∧ 1 ≤ m ∧
      n' * (m - 1) < states.length - 1 ∧ states.length - 1 ≤ n' * m ∧ cons.length = m ∧
      (∀ k, k + 1 < m → cons[k]? = states[1 + n' * k]?) ∧
      cons[m - 1]? = if states.length % n' ≠ 0 then states[states.length - 1]?
        else states[1 + n' * (m - 1)]? := by
  intro n'
  have hn' : 1 ≤ n' := by
    simp only [n']; split
    · exact le_rfl
    · omega
  obtain ⟨b1, b2, b3⟩ := number_bounds states.length n' hN hn'
  set m := if (states.length - 1) % n' = 0 then (states.length - 1) / n'
    else (states.length - 1) / n' + 1 with hm
  obtain ⟨r, h1, h2, h3⟩ := pick_eq states n' (List.range m) (by
    intro i hi
    have : i ≤ m - 1 := by have := List.mem_range.mp hi; omega
    have := Nat.mul_le_mul_left n' this
    omega)
  have hrm : r.length = m := by simpa using h2
  have h3' : ∀ k < m, r[k]? = states[1 + n' * k]? := by
    intro k hk
    have := h3 k (by simpa using hk)
    simpa using this
  unfold selectConstraintTimes
  rw [if_neg (by omega)]
  show ∃ cons m, (pick states n' (List.range (if (states.length - 1) % n' = 0 then
    (states.length - 1) / n' else (states.length - 1) / n' + 1)) >>= _) = _ ∧ _
  rw [← hm, h1]
  simp only [Res.ok_bind]
  by_cases hmod : states.length % n' = 0
  · refine ⟨r, m, by rw [if_neg (by simpa using hmod)], hn', b1, b2, b3, hrm,
      fun k hk => h3' k (by omega), ?_⟩
    rw [if_neg (by simpa using hmod)]; exact h3' _ (by omega)
  · obtain ⟨a, hrl⟩ : ∃ a, r.getLast? = some a := by
      rw [List.getLast?_eq_getElem?]
      exact ⟨_, List.getElem?_eq_getElem (by omega)⟩
    have hsl : states.getLast? = some (states[states.length - 1]) := by
      rw [List.getLast?_eq_getElem?]; simp [show states.length - 1 < states.length by omega]
    refine ⟨r.dropLast ++ [states[states.length - 1]], m, ?_, hn', b1, b2, b3, ?_, ?_, ?_⟩
    · rw [if_pos hmod, hrl, hsl]
    · simp; omega
    · intro k hk
      rw [List.getElem?_append_left (by simp; omega), List.getElem?_dropLast, if_pos (by omega)]
      exact h3' k (by omega)
    · rw [if_pos hmod, List.getElem?_append_right (by simp; omega)]
      simp [hrm, show states.length - 1 < states.length by omega]

/-- C20. For at least one simulated step and every setting `n`, the selection succeeds, its times are
strictly increasing state times after the initial one, there is at least one of them, and the
optimizer's check accepts them. -/
theorem C20_selection (states : List T) (n : ℤ) (hs : states.Pairwise (· < ·))
    (hN : 2 ≤ states.length) :
    ∃ cons, selectConstraintTimes states n = Res.ok cons ∧ cons ≠ [] ∧
      cons.Pairwise (· < ·) ∧ (∀ c ∈ cons, c ∈ states.tail) ∧
      checkConstraintTimes states cons = Res.ok () := by
  obtain ⟨cons, m, h1, hn, hm, hb1, hb2, hlen, hk, hl⟩ := select_eq states n hN
  set n' := if n ≤ 0 then 1 else n.toNat
  -- position of each selected time
  have hpos : ∀ k (hk : k < cons.length), ∃ i, ∃ hi : i < states.length, 1 ≤ i ∧
      cons[k] = states[i] ∧ 1 + n' * k ≤ i ∧ (k + 1 < m → i = 1 + n' * k) := by
    intro k hkl
    by_cases hlast : k + 1 < m
    · have hle : n' * k ≤ n' * (m - 1) := Nat.mul_le_mul_left _ (by omega)
      refine ⟨1 + n' * k, by omega, by omega, ?_, le_rfl, fun _ => rfl⟩
      have := hk k hlast
      rw [List.getElem?_eq_getElem hkl, List.getElem?_eq_getElem (by omega)] at this
      simpa using this
    · obtain rfl : m = k + 1 := by omega
      rw [Nat.add_sub_cancel] at hl hb1
      have := hl
      by_cases hmod : states.length % n' ≠ 0
      · rw [if_pos hmod, List.getElem?_eq_getElem (by omega),
          List.getElem?_eq_getElem (by omega)] at this
        exact ⟨states.length - 1, by omega, by omega, by simpa using this, by omega,
          fun h => by omega⟩
      · rw [if_neg hmod, List.getElem?_eq_getElem (by omega),
          List.getElem?_eq_getElem (by omega)] at this
        exact ⟨1 + n' * k, by omega, by omega, by simpa using this, le_rfl,
          fun h => by omega⟩
  have hinc : cons.Pairwise (· < ·) := by
    rw [List.pairwise_iff_getElem]
    intro a b ha hb hab
    obtain ⟨i, hi, -, e1, -, e1'⟩ := hpos a ha
    obtain ⟨j, hj, -, e2, e2', -⟩ := hpos b hb
    have hi' := e1' (by omega)
    have : n' * (a + 1) ≤ n' * b := Nat.mul_le_mul_left _ (by omega)
    have e : n' * (a + 1) = n' * a + n' := by ring
    rw [e1, e2]
    exact List.pairwise_iff_getElem.mp hs i j hi hj (by omega)
  have hmem : ∀ c ∈ cons, c ∈ states.tail := by
    intro c hc
    obtain ⟨k, hkl, rfl⟩ := List.getElem_of_mem hc
    obtain ⟨i, hi, hi1, e, -⟩ := hpos k hkl
    rw [e]
    obtain ⟨i', rfl⟩ : ∃ i', i = i' + 1 := ⟨i - 1, by omega⟩
    have : states[i' + 1] = states.tail[i']'(by simp; omega) := by simp
    rw [this]; exact List.getElem_mem _
  refine ⟨cons, h1, ?_, hinc, hmem, (C17_check_iff_subset states cons hs).mpr ⟨hmem, hinc⟩⟩
  intro h; rw [h] at hlen; simp at hlen; omega

/-- C20 (full statement, false): the final time is always selected. -/
def C20Statement : Prop :=
  ∀ (states cons : List ℕ) (n : ℤ), states.Pairwise (· < ·) → 2 ≤ states.length →
    selectConstraintTimes states n = Res.ok cons → cons.getLast? = states.getLast?

/-- C20 is false: with 6 state times and `n = 3` the final time is left out. -/
theorem C20_false : ¬ C20Statement := by
  intro h
  have := h [0, 1, 2, 3, 4, 5] [1, 4] 3 (by decide) (by decide) (by decide)
  revert this; decide

/-- C20. The final time is selected exactly if the number of state times is not divisible by `n` or
`n ≤ 2`. Partial: missing are the remaining cases, in which the claim is false. -/
theorem C20_final_time_partial (states : List T) (n : ℤ) (hs : states.Pairwise (· < ·))
    (hN : 2 ≤ states.length) :
    ∃ cons, selectConstraintTimes states n = Res.ok cons ∧
      (cons.getLast? = states.getLast? ↔ (n ≤ 2 ∨ ¬ (n ∣ (states.length : ℤ)))) := by
  obtain ⟨cons, m, h1, hn, hm, hb1, hb2, hlen, hk, hl⟩ := select_eq states n hN
  refine ⟨cons, h1, ?_⟩
  have hdvd : 0 < n → (n ∣ (states.length : ℤ) ↔ states.length % n.toNat = 0) := by
    intro hp
    conv_lhs => rw [← Int.toNat_of_nonneg hp.le]
    rw [Int.natCast_dvd_natCast, Nat.dvd_iff_mod_eq_zero]
  rw [List.getLast?_eq_getElem?, List.getLast?_eq_getElem?, hlen, hl]
  have hinj : ∀ i (hi : i < states.length),
      (states[i]? = states[states.length - 1]? ↔ i = states.length - 1) := by
    intro i hi
    constructor
    · intro h
      by_contra hne
      rw [List.getElem?_eq_getElem hi, List.getElem?_eq_getElem (by omega)] at h
      have := List.pairwise_iff_getElem.mp hs i (states.length - 1) hi (by omega) (by omega)
      simp only [Option.some.injEq] at h
      rw [h] at this; exact lt_irrefl _ this
    · rintro rfl; rfl
  by_cases hn0 : n ≤ 0
  · simp only [if_pos hn0] at *
    simp only [Nat.mod_one, ne_eq, not_true, if_false]
    rw [hinj _ (by omega)]
    constructor
    · intro _; left; omega
    · intro _; omega
  · simp only [if_neg hn0] at *
    rw [hdvd (by omega)]
    by_cases hmod : states.length % n.toNat = 0
    · rw [if_neg (by simpa using hmod), hinj _ (by omega)]
      obtain ⟨q, hq⟩ := Nat.dvd_of_mod_eq_zero hmod
      -- states.length = n * q, hence m = q unless n = 1
      simp only [hmod, not_true, or_false]
      constructor
      · intro h
        by_contra hlt
        have hn3 : 3 ≤ n.toNat := by omega
        have e1 : n.toNat * q = 2 + n.toNat * (m - 1) := by omega
        have e2 : n.toNat ∣ 2 := by
          have := Nat.dvd_sub (Dvd.intro q rfl : n.toNat ∣ n.toNat * q)
            (Dvd.intro (m - 1) rfl : n.toNat ∣ n.toNat * (m - 1))
          rwa [e1, Nat.add_sub_cancel] at this
        have := Nat.le_of_dvd (by omega) e2
        omega
      · intro h
        rcases (show n.toNat = 1 ∨ n.toNat = 2 by omega) with h1 | h1
        · simp only [h1] at hb1 hb2 hq ⊢; omega
        · simp only [h1] at hb1 hb2 hq ⊢; omega
    · rw [if_pos (by simpa using hmod)]
      simp [hmod]

/-- C18 is reachable from the command line tool: whenever `n` is larger than the number of simulated
steps minus one and there are at least two steps, and `n` does not divide the number of state
times, the selected constraint times make the sweep read index -1. -/
theorem C18_reachable (states : List T) (n : ℤ) (hs : states.Pairwise (· < ·))
    (h3 : 3 ≤ states.length) (hn : (states.length : ℤ) ≤ n + 1) (hd : ¬ n ∣ (states.length : ℤ)) :
    ∃ cons, selectConstraintTimes states n = Res.ok cons ∧
      checkConstraintTimes states cons = Res.ok () ∧ sweepAccesses states cons = Res.ub := by
  obtain ⟨cons, m, h1, hn1, hm, hb1, hb2, hlen, hk, hl⟩ := select_eq states n (by omega)
  obtain ⟨cons', h1', -, -, -, hacc⟩ := C20_selection states n hs (by omega)
  rw [h1] at h1'
  obtain rfl : cons = cons' := by simpa using h1'
  refine ⟨cons, h1, hacc, ?_⟩
  rw [C18_in_bounds_iff states cons hs hacc, if_neg]
  have hn0 : ¬ n ≤ 0 := by omega
  simp only [if_neg hn0] at *
  have hmod : states.length % n.toNat ≠ 0 := by
    intro h
    apply hd
    rw [← Int.toNat_of_nonneg (show 0 ≤ n by omega), Int.natCast_dvd_natCast]
    exact Nat.dvd_of_mod_eq_zero h
  have hm1 : m = 1 := by
    by_contra hne
    have : n.toNat * 1 ≤ n.toNat * (m - 1) := Nat.mul_le_mul_left _ (by omega)
    omega
  subst hm1
  rw [if_pos hmod] at hl
  rw [List.head?_eq_getElem?, List.head?_eq_getElem?, List.getElem?_tail]
  simp only [Nat.sub_self] at hl
  rw [hl, List.getElem?_eq_getElem (by omega), List.getElem?_eq_getElem (by omega)]
  have := List.pairwise_iff_getElem.mp hs 1 (states.length - 1) (by omega) (by omega) (by omega)
  simpa using this.ne'

example : selectConstraintTimes [(0 : ℕ), 1, 2, 3, 4, 5, 6] 2 = Res.ok [1, 3, 6] := by decide
example : selectConstraintTimes [(0 : ℕ), 1, 2] 2 = Res.ok [2] ∧
    sweepAccesses [(0 : ℕ), 1, 2] [2] = Res.ub := by decide

end Verif.OptTimes
