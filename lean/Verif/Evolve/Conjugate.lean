import Verif.Evolve.Newton

/-! # Simulations of systems that differ by a symmetry

Lemmas: if two families of equations differ only by a map of the states and a map of the times, so do the simulations, with all failures.
-/

set_option autoImplicit false
set_option linter.unusedSectionVars false

namespace Verif.Evolve

open Verif.Newton

variable {T X Y C : Type} {K : Type} [Field K] [LinearOrder K] [IsStrictOrderedRing K]

/-- `S'` is `S` in other coordinates: its equations at `f x` are those of `S` at `x`. -/
structure Conjugate (f : X → X) (S S' : System X Y K) : Prop where
  evaluate : ∀ x, S'.evaluate (f x) = S.evaluate x
  jac : ∀ x, S'.jac (f x) = S.jac x
  normX : S'.normX = S.normX
  normY : S'.normY = S.normY
  move : ∀ x lam s, S'.move (f x) lam s = f (S.move x lam s)
  neg : S'.neg = S.neg

theorem lineSearch_conj {f : X → X} {S S' : System X Y K} (h : Conjugate f S S') (sol : Y → X) (x step : X) (testnorm : Option K)
    (fuel : ℕ) : ∀ (lam : K) (cand : X) (vals : Y) (cur : Option K),
    lineSearch S' sol (f x) step testnorm fuel lam (f cand) vals cur =
      (lineSearch S sol x step testnorm fuel lam cand vals cur).map fun r => r >>= fun y => Res.ok (y.1, f y.2.1, y.2.2) := by
  induction fuel with
  | zero =>
    intro lam cand vals cur
    unfold lineSearch
    split_ifs <;> rfl
  | succ n ih =>
    intro lam cand vals cur
    unfold lineSearch
    split_ifs
    · rfl
    · simp only [h.move, h.evaluate, h.normX, h.neg, ih]
    · rfl

theorem iterate_conj {f : X → X} {S S' : System X Y K} (h : Conjugate f S S') (tol : K) (full : Bool) (fuel : ℕ)
    (fixed : Option (Y → X)) (n : ℕ) : ∀ (x : X) (vals : Y) (sol : Sol K),
    iterate S' tol full fuel fixed n (f x) vals sol =
      (iterate S tol full fuel fixed n x vals sol).map fun r => r >>= fun y => Res.ok (f y.1, y.2) := by
  induction n with
  | zero => intro x vals sol; rfl
  | succ n ih =>
    intro x vals sol
    unfold iterate
    rw [h.normY]
    split_ifs with h1 h2
    · rw [h.jac]
      cases S.jac x with
      | none => rfl
      | some s =>
        simp only [h.move, h.evaluate, h.normX, h.neg, lineSearch_conj h]
        cases lineSearch S s x (S.neg (s vals)) (S.normX (S.neg (s vals))) fuel 1 (S.move x 1 (S.neg (s vals)))
          (S.evaluate (S.move x 1 (S.neg (s vals)))) (S.normX (S.neg (s (S.evaluate (S.move x 1 (S.neg (s vals))))))) with
        | none => rfl
        | some r =>
          cases r with
          | throws => rfl
          | ub => rfl
          | ok y => exact ih _ _ _
    · cases fixed with
      | none => rfl
      | some s =>
        simp only [h.move, h.evaluate, h.normX, h.neg, lineSearch_conj h]
        cases lineSearch S s x (S.neg (s vals)) (S.normX (S.neg (s vals))) fuel 1 (S.move x 1 (S.neg (s vals)))
          (S.evaluate (S.move x 1 (S.neg (s vals)))) (S.normX (S.neg (s (S.evaluate (S.move x 1 (S.neg (s vals))))))) with
        | none => rfl
        | some r =>
          cases r with
          | throws => rfl
          | ub => rfl
          | ok y => exact ih _ _ _
    · rfl

theorem solve_conj {f : X → X} {S S' : System X Y K} (h : Conjugate f S S') (tol : K) (maxIter : ℤ) (full : Bool) (fuel : ℕ) (x : X) :
    solve S' tol maxIter full fuel (f x) =
      (solve S tol maxIter full fuel x).map fun r => r >>= fun y => Res.ok (f y.1, y.2) := by
  unfold solve
  simp only [h.evaluate, h.normY, h.jac, iterate_conj h]
  split_ifs
  all_goals first
    | rfl
    | (generalize iterate S tol _ fuel _ maxIter.toNat x (S.evaluate x) Sol.default = o
       rcases o with _ | (y | _ | _) <;> rfl)

/-- The result of a simulation in other coordinates. -/
def mapStates (f : X → X) (r : Res (List X)) : Res (List X) := r >>= fun xs => Res.ok (xs.map f)

variable {sys sys' : T → T → X → C → System X Y K} {f : X → X} {g : T → T}

theorem attempts_conj (h : ∀ s t x c, Conjugate f (sys s t x c) (sys' (g s) (g t) (f x) c)) (tol : K) (maxIter : ℤ) (fuel : ℕ) (R : ℤ)
    (sm : Bool) (s t : T) (x y : X) (c : C) (retry : ℤ) (full : Bool) (hist hist' : List (Attempt T X C)) :
    (attempts R sm (newtonSolver sys' tol maxIter fuel) (fun full => ⟨full, g s, g t, f x, f y, c⟩) retry full hist').1 =
      (attempts R sm (newtonSolver sys tol maxIter fuel) (fun full => ⟨full, s, t, x, y, c⟩) retry full hist).1 >>= fun z => Res.ok (f z) := by
  induction hn : (2 * R + 1 - retry).toNat using Nat.strong_induction_on generalizing retry full hist hist' with
  | _ n ih =>
    unfold attempts
    simp only [newtonSolver, solve_conj (h s t x c)]
    rcases solve (sys s t x c) tol maxIter full fuel y with _ | (⟨z, ⟨b, r, u⟩⟩ | _ | _)
    · rfl
    · cases b with
      | true => rfl
      | false =>
        simp only [Option.map_some, Res.ok_bind]
        by_cases h2 : 2 * R < retry
        · rw [if_pos h2, if_pos h2]; rfl
        · rw [if_neg h2, if_neg h2]
          exact ih _ (by omega) _ _ _ _ rfl
    · rfl
    · rfl

theorem loop_conj (h : ∀ s t x c, Conjugate f (sys s t x c) (sys' (g s) (g t) (f x) c)) (tol : K) (maxIter : ℤ) (fuel : ℕ) (R : ℤ)
    (sm : Bool) (controls controls' : T → Res C) (hc : ∀ t, controls' (g t) = controls t) (ts : List T) :
    ∀ (s : T) (x y : X) (hist hist' : List (Attempt T X C)),
    (loop R sm (newtonSolver sys' tol maxIter fuel) controls' (ts.map g) (g s) (f x) (f y) hist').1 =
      mapStates f (loop R sm (newtonSolver sys tol maxIter fuel) controls ts s x y hist).1 := by
  induction ts with
  | nil => intro s x y hist hist'; rfl
  | cons t ts ih =>
    intro s x y hist hist'
    rw [List.map_cons]
    unfold loop
    rw [hc]
    cases controls t with
    | throws => rfl
    | ub => rfl
    | ok c =>
      have e := attempts_conj h tol maxIter fuel R sm s t x y c (if sm then 0 else R) (!sm) hist hist'
      unfold makeOneStep
      simp only
      generalize attempts R sm (newtonSolver sys' tol maxIter fuel) (fun full => ⟨full, g s, g t, f x, f y, c⟩)
        (if sm then 0 else R) (!sm) hist' = A' at e ⊢
      generalize attempts R sm (newtonSolver sys tol maxIter fuel) (fun full => ⟨full, s, t, x, y, c⟩)
        (if sm then 0 else R) (!sm) hist = A at e ⊢
      obtain ⟨r', k'⟩ := A'
      obtain ⟨r, k⟩ := A
      simp only at e
      subst e
      rcases r with z | _ | _
      · have e := ih t z z k k'
        simp only [Res.ok_bind]
        generalize loop R sm (newtonSolver sys' tol maxIter fuel) controls' (ts.map g) (g t) (f z) (f z) k' = L' at e ⊢
        generalize loop R sm (newtonSolver sys tol maxIter fuel) controls ts t z z k = L at e ⊢
        obtain ⟨r', l'⟩ := L'
        obtain ⟨r, l⟩ := L
        simp only at e
        subst e
        rcases r with zs | _ | _ <;> rfl
      · rfl
      · rfl

/-- If the equations of all steps differ by a map of the states and a map of the times, so do the results of simulations. -/
theorem simulate_conj (h : ∀ s t x c, Conjugate f (sys s t x c) (sys' (g s) (g t) (f x) c)) (tol : K) (maxIter : ℤ) (fuel : ℕ) (R : ℤ)
    (sm : Bool) (controls controls' : T → Res C) (hc : ∀ t, controls' (g t) = controls t) (times : List T) (initial : X) :
    (simulate R sm (newtonSolver sys' tol maxIter fuel) controls' (times.map g) (f initial)).1 =
      mapStates f (simulate R sm (newtonSolver sys tol maxIter fuel) controls times initial).1 := by
  match times with
  | [] => rfl
  | [_] => rfl
  | t0 :: t1 :: ts =>
    simp only [List.map_cons, simulate, hc]
    cases controls t1 with
    | throws => rfl
    | ub => rfl
    | ok c =>
      have e := loop_conj h tol maxIter fuel R sm controls controls' hc (t1 :: ts) t0 initial initial [] []
      rw [List.map_cons] at e
      simp only
      generalize loop R sm (newtonSolver sys' tol maxIter fuel) controls' (g t1 :: ts.map g) (g t0) (f initial) (f initial) [] = L' at e ⊢
      generalize loop R sm (newtonSolver sys tol maxIter fuel) controls (t1 :: ts) t0 initial initial [] = L at e ⊢
      obtain ⟨r', l'⟩ := L'
      obtain ⟨r, l⟩ := L
      simp only at e
      subst e
      rcases r with zs | _ | _ <;> rfl

end Verif.Evolve
