import Verif.Network.Drift
import Verif.Evolve.Newton
import Mathlib.Analysis.SpecialFunctions.Pow.Real

/-!
# Property C85: the states a simulation returns obey the laws of physics

`Timeevolver::simulate` with the Newton solver, applied to the equations of a network. The assembly of the Jacobian and its
factorization are arbitrary here: whatever directions they yield, what is accepted solves the equations.

A state is `none` if one of its entries is NaN, a residual is `none` if it cannot be a number because something was
divided by zero. (A quotient `x / 0` with `x ≠ 0` is infinite and keeps the solver going; putting it down as NaN only
weakens what is proved.)
-/

set_option autoImplicit false

namespace Verif.Network

open Verif.Net Verif.Newton Verif.Evolve Finset

/-- At the points of all pipes the density is not zero and the pressure is finite, so nothing is divided by zero. -/
def Net.Finite (N : Net) (new : Vec) : Prop :=
  ∀ k dx d r n, N.edge k = .gas (.pipe dx d r) n → ∀ j : ℕ, j < n →
    new ((N.edgeRange k).1 + 2 * j) ≠ 0 ∧ 1 - Euler.alpha * Euler.cVac * new ((N.edgeRange k).1 + 2 * j) ≠ 0

/-- `VectorXd::norm`. -/
noncomputable def euclidean {n : ℕ} (v : Option (Fin n → ℝ)) : Option ℝ := v.map fun v => Real.sqrt (∑ i, v i ^ 2)

open Classical in
/-- The equations of one time step as the Newton solver sees them — `Newtonsolver.cpp` 72-98 and 104-121 with
`Networkproblem::evaluate`. `lu` is the factorization of the Jacobian. -/
noncomputable def Net.system (N : Net)
    (lu : Option (Fin N.stateCount → ℝ) → Option (Option (Fin N.stateCount → ℝ) → Option (Fin N.stateCount → ℝ)))
    (lastTime newTime : ℝ) (last : Option (Fin N.stateCount → ℝ)) (control : Fin N.controlCount → ℝ) :
    System (Option (Fin N.stateCount → ℝ)) (Option (Fin N.stateCount → ℝ)) ℝ where
  evaluate new :=
    match last, new with
    | some x, some y =>
      if N.Finite (ext y) then
        match N.residual lastTime newTime (x, y, control) with
        | .ok r => some r
        | _ => none
      else none
    | _, _ => none
  jac := lu
  normX := euclidean
  normY := euclidean
  move x lam s := match x, s with
    | some x, some s => some (x + lam • s)
    | _, _ => none
  neg := Option.map fun x => -x

/-- No entry exceeds the norm. -/
theorem entry_le_norm {n : ℕ} (v : Fin n → ℝ) (i : Fin n) : |v i| ≤ Real.sqrt (∑ i, v i ^ 2) := by
  rw [← Real.sqrt_sq_eq_abs]
  exact Real.sqrt_le_sqrt (single_le_sum (f := fun i => v i ^ 2) (fun i _ => sq_nonneg _) (mem_univ i))

/-- C85. If a simulation of an admissible network returns, it returns a state for each time, the first being the initial
one, and each further state that is free of NaN and of divisions by zero obeys all laws of physics between the
previous time and its own with the control of its time, up to the tolerance of the solver. -/
theorem C85_simulation (N : Net) (hN : Admissible N)
    (lu : ℝ → ℝ → Option (Fin N.stateCount → ℝ) → (Fin N.controlCount → ℝ) → Option (Fin N.stateCount → ℝ) →
      Option (Option (Fin N.stateCount → ℝ) → Option (Fin N.stateCount → ℝ)))
    (tol : ℝ) (maxIter : ℤ) (hmax : 1 ≤ maxIter) (fuel : ℕ) (retries : ℤ) (simplified : Bool)
    (controls : ℝ → Res (Fin N.controlCount → ℝ)) (times : List ℝ) (hc : ∀ t ∈ times, Computable N t)
    (initial : Fin N.stateCount → ℝ) (states : List (Option (Fin N.stateCount → ℝ)))
    (trace : List (Attempt ℝ (Option (Fin N.stateCount → ℝ)) (Fin N.controlCount → ℝ)))
    (h : simulate retries simplified (newtonSolver (fun s t x c => N.system (lu s t x c) s t x c) tol maxIter fuel)
      controls times (some initial) = (Res.ok states, trace)) :
    states.length = times.length ∧ states.head? = some (some initial) ∧
    ∀ i (hi : i + 1 < times.length) (hs : i + 1 < states.length) (x y : Fin N.stateCount → ℝ),
      states[i] = some x → states[i + 1] = some y → N.Finite (ext y) →
      ∃ c, controls times[i + 1] = Res.ok c ∧
        (∃ r, N.residual times[i] times[i + 1] (x, y, c) = Res.ok r ∧ Real.sqrt (∑ i, r i ^ 2) ≤ tol) ∧
        LawsWithin N tol times[i] times[i + 1] ⟨ext x, ext y, ext c⟩ := by
  obtain ⟨h1, h2, h3⟩ := C24_residuals_partial (fun s t x c => N.system (lu s t x c) s t x c) tol maxIter hmax fuel
    retries simplified controls times (some initial) states trace h
  refine ⟨h1, h2, fun i hi hs x y hx hy hf => ?_⟩
  obtain ⟨c, hcc, hm⟩ := h3 i hi hs
  obtain ⟨r, hr, hlaws⟩ := C83_laws_within N hN times[i] times[i + 1] (hc _ (List.getElem_mem _)) (x, y, c)
  have hev : (N.system (lu times[i] times[i + 1] states[i] c) times[i] times[i + 1] states[i] c).evaluate states[i + 1] =
      some r := by
    rw [hx, hy]
    simp only [Net.system, if_pos hf, hr]
  rw [hev] at hm
  obtain ⟨q, hq, hle⟩ := hm (by simp [Net.system, euclidean])
  rw [hev] at hq
  have hq : some (Real.sqrt (∑ i, r i ^ 2)) = some q := hq
  injection hq with hq
  subst hq
  exact ⟨c, hcc, ⟨r, hr, hle⟩, hlaws tol ((Real.sqrt_nonneg _).trans hle) fun j => (entry_le_norm r j).trans hle⟩

/-- C85. The gas balance of a whole simulation: the change of the mass in the pipes is what entered at the nodes minus what
was burnt, up to the tolerance times the slacks of the steps. -/
theorem C85_balance (N : Net) (hN : Admissible N)
    (lu : ℝ → ℝ → Option (Fin N.stateCount → ℝ) → (Fin N.controlCount → ℝ) → Option (Fin N.stateCount → ℝ) →
      Option (Option (Fin N.stateCount → ℝ) → Option (Fin N.stateCount → ℝ)))
    (tol : ℝ) (htol : 0 ≤ tol) (maxIter : ℤ) (hmax : 1 ≤ maxIter) (fuel : ℕ) (retries : ℤ) (simplified : Bool)
    (controls : ℝ → Res (Fin N.controlCount → ℝ)) (time : ℕ → ℝ) (steps : ℕ) (hc : ∀ i, Computable N (time i))
    (hatt : ∀ v, (N.node v).kind = .flow → ∃ k, (N.edge k).isGas ∧ (N.src k = v ∨ N.dst k = v))
    (state : ℕ → Fin N.stateCount → ℝ)
    (trace : List (Attempt ℝ (Option (Fin N.stateCount → ℝ)) (Fin N.controlCount → ℝ)))
    (h : simulate retries simplified (newtonSolver (fun s t x c => N.system (lu s t x c) s t x c) tol maxIter fuel)
      controls ((List.range (steps + 1)).map time) (some (state 0)) =
      (Res.ok ((List.range (steps + 1)).map fun i => some (state i)), trace))
    (hf : ∀ i ≤ steps, N.Finite (ext (state i))) :
    |∑ k, N.mass k (ext (state steps)) - (∑ k, N.mass k (ext (state 0)) +
      ∑ i ∈ Finset.range steps, (time (i + 1) - time i) * Euler.rho0 *
        (∑ v, N.supply (time (i + 1)) v (ext (state (i + 1))) - ∑ k, N.burnt k (ext (state (i + 1)))))| ≤
      tol * ∑ i ∈ Finset.range steps, N.slack (time (i + 1) - time i) := by
  classical
  obtain ⟨-, -, h3⟩ := C85_simulation N hN lu tol maxIter hmax fuel retries simplified controls _
    (fun t ht => by obtain ⟨i, -, rfl⟩ := List.mem_map.mp ht; exact hc i) _ _ _ h
  have hstep : ∀ i < steps, ∃ c, ∃ r, N.residual (time i) (time (i + 1)) (state i, state (i + 1), c) = Res.ok r ∧
      ∀ j, |r j| ≤ tol := by
    intro i hi
    obtain ⟨c, -, ⟨r, hr, hle⟩, -⟩ := h3 i (by simp; omega) (by simp; omega) (state i) (state (i + 1)) (by simp) (by simp)
      (hf (i + 1) (by omega))
    refine ⟨c, r, by simpa using hr, fun j => (entry_le_norm r j).trans hle⟩
  choose! c hcr using hstep
  exact C84_drift N hN time (fun i => hc (i + 1)) hatt state (fun i => c (i - 1)) steps tol htol
    (fun i hi => by simpa using hcr i hi)

end Verif.Network
