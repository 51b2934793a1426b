import Verif.Evolve.Props
import Verif.Newton.Props
import Mathlib.Data.Rat.Defs

/-! # Property C24 for the actual Newton solver -/

set_option autoImplicit false
set_option linter.unusedSectionVars false

namespace Verif.Evolve

open Verif.Newton

variable {T X Y C : Type} {K : Type} [Field K] [LinearOrder K] [IsStrictOrderedRing K]

/-- The Newton solver as used by `make_one_step` — `Timeevolver.cpp` 147-149, with the model of
`Newtonsolver::solve`. `sys last new state control` is the system of equations of one time step.
The case that the damping loop needs more than `fuel` halvings is put down as undefined behaviour. -/
def newtonSolver (sys : T → T → X → C → System X Y K) (tol : K) (maxIter : ℤ) (fuel : ℕ) :
    Solver T X C := fun _ a =>
  match solve (sys a.lastTime a.newTime a.lastState a.control) tol maxIter a.full fuel a.guess with
  | none => Res.ub
  | some Res.throws => Res.throws
  | some Res.ub => Res.ub
  | some (Res.ok (x, sol)) => Res.ok (sol.success, x)

/-- C24 with the actual Newton solver: if a simulation with a positive iteration limit returns, every
stored state solves the discretised equations between the previous time and its own time up to the
tolerance, provided its residual is not NaN (this proviso cannot be dropped, see
`Verif.Newton.C22_false`). -/
theorem C24_residuals_partial (sys : T → T → X → C → System X Y K) (tol : K) (maxIter : ℤ)
    (hmax : 1 ≤ maxIter) (fuel : ℕ) (R : ℤ) (sm : Bool) (controls : T → Res C)
    (times : List T) (initial : X) (states : List X) (trace : List (Attempt T X C))
    (h : simulate R sm (newtonSolver sys tol maxIter fuel) controls times initial =
      (Res.ok states, trace)) :
    states.length = times.length ∧ states.head? = some initial ∧
    ∀ i (hi : i + 1 < times.length) (hs : i + 1 < states.length), ∃ c,
      controls times[i + 1] = Res.ok c ∧
      ((sys times[i] times[i + 1] states[i] c).normY
          ((sys times[i] times[i + 1] states[i] c).evaluate states[i + 1]) ≠ none →
        MeetsTolerance (sys times[i] times[i + 1] states[i] c) tol states[i + 1]) := by
  obtain ⟨h1, h2, h3⟩ := C24_solved R sm _ controls times initial states trace h
  refine ⟨h1, h2, ?_⟩
  intro i hi hs
  obtain ⟨e, a, c, -, hsol, ht, hn, hl, -, hc, rfl⟩ := h3 i hi hs
  refine ⟨a.control, hc, ?_⟩
  unfold newtonSolver at hsol
  split at hsol
  · cases hsol
  · cases hsol
  · cases hsol
  · rename_i x sol heq
    injection hsol with hsol
    simp only [Prod.mk.injEq] at hsol
    obtain ⟨hs1, hx⟩ := hsol
    rw [ht, hn, hl, hx] at heq
    intro hnan
    exact (C22_success_partial _ tol maxIter a.full fuel _ _ sol heq hs1 hnan (Or.inl hmax)).1

/-- A step of the implicit Euler method for `x' = c`, solved exactly by one Newton step. -/
def eulerSystem (last new : ℚ) (state : ℚ) (c : ℚ) : System ℚ ℚ ℚ where
  evaluate x := x - state - (new - last) * c
  jac _ := some id
  normX x := some |x|
  normY x := some |x|
  move x l s := x + l * s
  neg x := -x

example : (match simulate 1 true (newtonSolver eulerSystem (1 / 100) 5 10) (fun t => Res.ok (2 * t))
      [0, 1, 3] 10 with
    | (Res.ok s, _) => s
    | _ => []) = [10, 12, 24] := by
  simp [simulate, loop, makeOneStep, attempts, newtonSolver, solve, iterate, lineSearch, eulerSystem,
    gt, le, Sol.default]
  norm_num [abs]

end Verif.Evolve
