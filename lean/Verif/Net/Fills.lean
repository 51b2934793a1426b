import Verif.Net.Jacobian

/-! # Writes that fill a set of rows -/

set_option autoImplicit false

namespace Verif.Net

/-- The writes go to the rows `R` only, and afterwards the values in these rows do not depend on the values before
(which means in particular that each of these rows is written). -/
structure Fills (ops : List Op) (R : Set ℤ) : Prop where
  rows : ∀ o ∈ ops, o.row ∈ R
  sets : ∀ r ∈ R, ∀ v w : Vec, run v ops r = run w ops r

theorem Fills.nil : Fills [] ∅ := ⟨by simp, by simp⟩

theorem Fills.append {xs ys : List Op} {R S : Set ℤ} (hx : Fills xs R) (hy : Fills ys S) :
    Fills (xs ++ ys) (R ∪ S) where
  rows := by
    intro o ho
    rcases List.mem_append.mp ho with h | h
    · exact Or.inl (hx.rows o h)
    · exact Or.inr (hy.rows o h)
  sets := by
    intro r hr v w
    rw [run_append, run_append]
    by_cases hS : r ∈ S
    · exact hy.sets r hS _ _
    · rcases hr with hr | hr
      · exact run_congr (hx.sets r hr v w)
      · exact absurd hr hS

theorem Fills.flatMap {α : Type} {l : List α} {f : α → List Op} {R : α → Set ℤ}
    (h : ∀ x ∈ l, Fills (f x) (R x)) : Fills (l.flatMap f) {r | ∃ x ∈ l, r ∈ R x} := by
  induction l with
  | nil => exact ⟨by simp, by simp⟩
  | cons x l ih =>
    have := (h x (by simp)).append (ih fun y hy => h y (by simp [hy]))
    rw [List.flatMap_cons]
    refine ⟨fun o ho => ?_, fun r hr => this.sets r ?_⟩
    · rcases this.rows o ho with h1 | ⟨y, hy, h1⟩
      · exact ⟨x, by simp, h1⟩
      · exact ⟨y, by simp [hy], h1⟩
    · obtain ⟨y, hy, h1⟩ := hr
      rcases List.mem_cons.mp hy with rfl | hy
      · exact Or.inl h1
      · exact Or.inr ⟨y, hy, h1⟩

theorem Fills.congr {ops : List Op} {R S : Set ℤ} (h : Fills ops R) (e : ∀ r, r ∈ R ↔ r ∈ S) : Fills ops S :=
  ⟨fun o ho => (e _).mp (h.rows o ho), fun r hr => h.sets r ((e r).mpr hr)⟩

/-- A row in the set is written. -/
theorem Fills.written {ops : List Op} {R : Set ℤ} (h : Fills ops R) {r : ℤ} (hr : r ∈ R) :
    ∃ o ∈ ops, o.row = r := by
  by_contra hno
  push Not at hno
  have := h.sets r hr (fun _ => 0) (fun _ => 1)
  rw [run_of_not_mem hno, run_of_not_mem hno] at this
  exact zero_ne_one this

theorem fills_one (i : ℤ) (x : ℝ) : Fills [.set i x] {i} where
  rows := by simp [Op.row]
  sets := by rintro r rfl v w; simp [run_cons, Op.apply]

theorem fills_two (i j : ℤ) (x y : ℝ) : Fills [.set i x, .set j y] {i, j} := by
  refine ((fills_one i x).append (fills_one j y)).congr fun r => ?_
  simp [or_comm]

end Verif.Net
