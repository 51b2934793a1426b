import Verif.Basic.Res
import Mathlib.Data.List.Basic
import Mathlib.Data.List.Forall2

/-! # Loops whose body may throw -/

set_option autoImplicit false

namespace Verif.Res

variable {α β : Type}

/-- A loop over a list that appends one value in each round. -/
def each (l : List α) (f : α → Res β) : Res (List β) :=
  match l with
  | [] => ok []
  | a :: rest => do
    let x ← f a
    let y ← each rest f
    ok (x :: y)

/-- A loop over a list that changes a state. -/
def fold {σ : Type} (l : List α) (s : σ) (f : σ → α → Res σ) : Res σ :=
  match l with
  | [] => ok s
  | a :: rest => do
    let s' ← f s a
    fold rest s' f

@[simp] theorem each_nil (f : α → Res β) : each [] f = ok [] := rfl

theorem each_eq_ok {l : List α} {f : α → Res β} {ys : List β} :
    each l f = ok ys ↔ List.Forall₂ (fun a b => f a = ok b) l ys := by
  induction l generalizing ys with
  | nil =>
    simp only [each, List.forall₂_nil_left_iff]
    exact ⟨fun h => by injection h with h; exact h.symm, fun h => by rw [h]⟩
  | cons a l ih =>
    simp only [each]
    constructor
    · intro h
      obtain ⟨x, hx, h⟩ := bind_eq_ok.mp h
      obtain ⟨y, hy, h⟩ := bind_eq_ok.mp h
      injection h with h
      subst h
      exact .cons hx (ih.mp hy)
    · intro h
      cases h with
      | cons h1 h2 => rw [h1, ok_bind, ih.mpr h2, ok_bind]

theorem each_ne_ub {l : List α} {f : α → Res β} (h : ∀ a ∈ l, f a ≠ ub) : each l f ≠ ub := by
  induction l with
  | nil => simp
  | cons a l ih =>
    have h1 := h a (by simp)
    have h2 := ih fun b hb => h b (by simp [hb])
    simp only [each]
    cases ha : f a with
    | ub => exact absurd ha h1
    | throws => simp
    | ok x =>
      cases hl : each l f with
      | ub => exact absurd hl h2
      | throws => simp
      | ok y => simp

theorem each_throws {l : List α} {f : α → Res β} (h : ∀ a ∈ l, f a ≠ ub) :
    each l f = throws ↔ ∃ a ∈ l, f a = throws := by
  induction l with
  | nil => simp
  | cons a l ih =>
    have h1 := h a (by simp)
    have ih := ih fun b hb => h b (by simp [hb])
    have h2 := each_ne_ub (l := l) fun b hb => h b (by simp [hb])
    simp only [each, List.exists_mem_cons_iff]
    cases ha : f a with
    | ub => exact absurd ha h1
    | throws => simp
    | ok x =>
      simp only [ok_bind, reduceCtorEq, false_or, ← ih]
      cases hl : each l f with
      | ub => exact absurd hl h2
      | throws => simp
      | ok y => simp

theorem each_congr {l : List α} {f g : α → Res β} (h : ∀ a ∈ l, f a = g a) : each l f = each l g := by
  induction l with
  | nil => rfl
  | cons a l ih => simp only [each, h a (by simp), ih fun b hb => h b (by simp [hb])]

theorem each_ok {l : List α} {f : α → Res β} {g : α → β} (h : ∀ a ∈ l, f a = ok (g a)) :
    each l f = ok (l.map g) := by
  induction l with
  | nil => rfl
  | cons a l ih => simp [each, h a (by simp), ih fun b hb => h b (by simp [hb])]

theorem each_append (l m : List α) (f : α → Res β) :
    each (l ++ m) f = (do let x ← each l f; let y ← each m f; ok (x ++ y)) := by
  induction l with
  | nil => simp only [List.nil_append, each_nil, ok_bind]; cases each m f <;> rfl
  | cons a l ih =>
    simp only [List.cons_append, each, ih]
    cases f a with
    | ok x =>
      simp only [ok_bind]
      cases each l f with
      | ok y => simp only [ok_bind]; cases each m f <;> rfl
      | _ => rfl
    | _ => rfl

theorem fold_append {σ : Type} (l m : List α) (s : σ) (f : σ → α → Res σ) :
    fold (l ++ m) s f = (do let t ← fold l s f; fold m t f) := by
  induction l generalizing s with
  | nil => rfl
  | cons a l ih =>
    simp only [List.cons_append, fold]
    cases f s a with
    | ok x => simp only [ok_bind, ih]
    | _ => rfl

end Verif.Res
