import Mathlib.Algebra.BigOperators.Group.List.Basic
import Mathlib.Data.Int.Order.Basic
import Mathlib.Tactic.Ring
import Mathlib.Order.Lattice

/-!
# Property C40: the index ranges of the components

Sources: `/repo/src/Model/Networkproblem/Networkproblem.cpp`, `/repo/src/Model/Networkproblem/Componentclasses/`.
-/

set_option autoImplicit false

namespace Verif.Network

/-- `set_state_indices` (221-228), `set_control_indices` (382-390) and `set_constraint_indices` (499-508) in
`Networkproblem.cpp`, with those of the components — `SimpleStatecomponent.cpp` 61-68,
`SimpleControlcomponent.cpp` 45-52, `SimpleConstraintcomponent.cpp` 44-51. The argument lists how many indices
the components need; the result lists start and after index of each, and the next free index. -/
def setIndices (next : ℤ) : List ℕ → List (ℤ × ℤ) × ℤ
  | [] => ([], next)
  | need :: rest =>
    let start := next
    let after := next + need
    let (ranges, free) := setIndices after rest
    ((start, after) :: ranges, free)

/-! ## C40 -/

theorem setIndices_length (next : ℤ) (needs : List ℕ) : (setIndices next needs).1.length = needs.length := by
  induction needs generalizing next with
  | nil => rfl
  | cons n rest ih => simp [setIndices, ih]

theorem setIndices_free (next : ℤ) (needs : List ℕ) :
    (setIndices next needs).2 = next + (needs.sum : ℕ) := by
  induction needs generalizing next with
  | nil => simp [setIndices]
  | cons n rest ih => simp only [setIndices, ih, List.sum_cons]; push_cast; ring

theorem setIndices_get (next : ℤ) (needs : List ℕ) (i : ℕ) (h : i < needs.length) :
    (setIndices next needs).1[i]'(by rw [setIndices_length]; exact h) =
      (next + ((needs.take i).sum : ℕ), next + ((needs.take (i + 1)).sum : ℕ)) := by
  induction needs generalizing next i with
  | nil => simp at h
  | cons n rest ih =>
    cases i with
    | zero => simp [setIndices]
    | succ i =>
      have := ih (next + n) i (by simpa using h)
      simp only [setIndices, List.getElem_cons_succ, this, List.take_succ_cons, List.sum_cons]
      push_cast
      simp only [add_assoc]

theorem take_sum_succ (needs : List ℕ) (i : ℕ) (h : i < needs.length) :
    (needs.take (i + 1)).sum = (needs.take i).sum + needs[i] := by
  rw [List.sum_take_succ]

theorem take_sum_mono (needs : List ℕ) {i j : ℕ} (h : i ≤ j) : (needs.take i).sum ≤ (needs.take j).sum := by
  obtain ⟨d, rfl⟩ := Nat.exists_eq_add_of_le h
  rw [List.take_add, List.sum_append]
  omega

/-- C40. For every list of needed numbers the assigned ranges are in the order of the components, the first begins
at the given start, each begins where the one before ended, each has the needed length, and the next free
index is behind the last one. -/
theorem C40_contiguous (next : ℤ) (needs : List ℕ) :
    (setIndices next needs).1.length = needs.length ∧
    (∀ (i : ℕ) (h : i < needs.length) (h' : i < (setIndices next needs).1.length),
      ((setIndices next needs).1[i]).2 = ((setIndices next needs).1[i]).1 + needs[i]) ∧
    (∀ h : 0 < (setIndices next needs).1.length, ((setIndices next needs).1[0]).1 = next) ∧
    (∀ (i : ℕ) (h : i + 1 < (setIndices next needs).1.length),
      ((setIndices next needs).1[i + 1]).1 = ((setIndices next needs).1[i]).2) ∧
    (∀ (i : ℕ) (h : i + 1 = (setIndices next needs).1.length),
      ((setIndices next needs).1[i]).2 = (setIndices next needs).2) ∧
    (needs = [] → (setIndices next needs).2 = next) := by
  have hl := setIndices_length next needs
  refine ⟨hl, ?_, ?_, ?_, ?_, ?_⟩
  · intro i h h'
    rw [setIndices_get next needs i h]
    simp only [take_sum_succ needs i h]
    push_cast; ring
  · intro h
    rw [setIndices_get next needs 0 (by omega)]; simp
  · intro i h
    rw [setIndices_get next needs (i + 1) (by omega), setIndices_get next needs i (by omega)]
  · intro i h
    rw [setIndices_get next needs i (by omega), setIndices_free]
    have : i + 1 = needs.length := by omega
    simp [this]
  · rintro rfl; rfl

/-- C40. Every index of the whole vector belongs to exactly one component; no component owns an index outside. -/
theorem C40_partition (next : ℤ) (needs : List ℕ) :
    (∀ r, next ≤ r → r < (setIndices next needs).2 →
      ∃! i : Fin (setIndices next needs).1.length,
        ((setIndices next needs).1[i]).1 ≤ r ∧ r < ((setIndices next needs).1[i]).2) ∧
    ∀ (i : Fin (setIndices next needs).1.length) (r : ℤ),
      ((setIndices next needs).1[i]).1 ≤ r → r < ((setIndices next needs).1[i]).2 →
        next ≤ r ∧ r < (setIndices next needs).2 := by
  have hl := setIndices_length next needs
  constructor
  · intro r h1 h2
    rw [setIndices_free] at h2
    obtain ⟨d, rfl⟩ : ∃ d : ℕ, r = next + d := ⟨(r - next).toNat, by omega⟩
    have hd : d < needs.sum := by omega
    have hex : ∃ i, d < (needs.take (i + 1)).sum := ⟨needs.length, by
      rw [List.take_of_length_le (by omega)]; exact hd⟩
    classical
    let i := Nat.find hex
    have hi : d < (needs.take (i + 1)).sum := Nat.find_spec hex
    have hlo : (needs.take i).sum ≤ d := by
      rcases Nat.eq_zero_or_pos i with h0 | hp
      · rw [h0]; simp
      · have := Nat.find_min hex (m := i - 1) (by omega)
        have e : i - 1 + 1 = i := by omega
        rw [e] at this; omega
    have hilt : i < needs.length := by
      by_contra hge
      have e1 : needs.take i = needs := List.take_of_length_le (by omega)
      rw [e1] at hlo; omega
    refine ⟨⟨i, by rw [hl]; exact hilt⟩, ?_, ?_⟩
    · simp only [Fin.getElem_fin]
      rw [setIndices_get next needs i hilt]
      simp only
      omega
    · rintro ⟨j, hj⟩ ⟨h3, h4⟩
      simp only [Fin.getElem_fin] at h3 h4
      rw [setIndices_get next needs j (by omega)] at h3 h4
      simp only at h3 h4
      apply Fin.ext
      show j = i
      by_contra hne
      rcases Nat.lt_or_gt_of_ne hne with hlt | hgt
      · have := take_sum_mono needs (show j + 1 ≤ i by omega); omega
      · have := take_sum_mono needs (show i + 1 ≤ j by omega); omega
  · rintro ⟨i, hi⟩ r h1 h2
    simp only [Fin.getElem_fin] at h1 h2
    rw [setIndices_get next needs i (by omega)] at h1 h2
    simp only at h1 h2
    rw [setIndices_free]
    have := take_sum_mono needs (show i + 1 ≤ needs.length by omega)
    rw [List.take_of_length_le le_rfl] at this
    omega

/-- Needs 2, 0, 4 and 6. -/
example : setIndices 0 [2, 0, 4, 6] = ([(0, 2), (2, 2), (2, 6), (6, 12)], 12) := by decide

end Verif.Network
