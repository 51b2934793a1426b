import Verif.OptState.Props
import Verif.Basic.Res
import Mathlib.Algebra.Order.Field.Basic
import Mathlib.Algebra.Order.Field.Rat
import Mathlib.Order.Bounds.Basic
import Mathlib.Tactic.Linarith
import Mathlib.Tactic.NormNum

/-!
# Properties C86 and C87: what is written and printed after an optimization

Source: `/repo/src/Grazer/commands.cpp` 224-300 and `/repo/src/IpoptWrapper/Wrapper.cpp` 155-179.
-/

set_option autoImplicit false

namespace Verif.OptState

variable {X S V C G J F : Type}

/-! ## Model -/

/-- What `finalize_solution` (`Wrapper.cpp` 155-179) leaves of the optimizer. -/
def afterFinalize (p : Problem X S V C G J) (o : Opt S G J) (x : X) : Opt S G J :=
  (evaluatePenalty p (evaluateCost p o x).2 x).2

/-- What is left of an optimization: the constraints that are looked at for the printed violations (`none` if their
evaluation failed and they stay uninitialised), the states that are written to `states.json`, and the controls that are written
to `controls.json`. -/
structure Finished (X S C : Type) where
  constraints : Option C
  states : S
  controls : X

/-- The end of an optimization whose solution is `x` — `commands.cpp` 251-300: `evaluate_constraints` (line 255, without `new_x`), then `new_x`
and `evaluate_objective` (268-269); all return values are ignored; `get_current_full_state` (270) are the states in the cache. Before, Ipopt
has called `finalize_solution`. (If it did not, because it could not be initialised, the solution is an empty vector; this is left out here, see C184, and so is the density of the
Jacobian, lines 228-246, which throws if there are no constraints, see C144.) -/
def finish (p : Problem X S V C G J) (o : Opt S G J) (x : X) : Finished X S C :=
  let g := evaluateConstraints p (afterFinalize p o x) x
  let f := evaluateObjective p (newX g.2) x
  ⟨g.1, f.2.states, x⟩

/-- `Eigen::VectorXd::maxCoeff`: undefined for empty vectors. -/
def maxCoeff [LinearOrder F] : List F → Res F
  | [] => Res.ub
  | a :: l => Res.ok (l.foldl max a)

/-- `Maximum lower constraint violation` — `commands.cpp` 256-260. -/
def lowerViolation [Field F] [LinearOrder F] (constraints lower : List F) : Res F := do
  let v ← maxCoeff (List.zipWith (fun c l => -(c - l)) constraints lower)
  Res.ok (max 0 v)

/-- `Maximum upper constraint violation` — `commands.cpp` 261-265. -/
def upperViolation [Field F] [LinearOrder F] (constraints upper : List F) : Res F := do
  let v ← maxCoeff (List.zipWith (fun c u => -(u - c)) constraints upper)
  Res.ok (max 0 v)

/-- Both printed numbers. Constraints that could not be evaluated are uninitialised memory. -/
def printedViolations [Field F] [LinearOrder F] (r : Finished X S (List F)) (lower upper : List F) : Res (F × F) :=
  match r.constraints with
  | none => Res.ub
  | some c => do
    let l ← lowerViolation c lower
    let u ← upperViolation c upper
    Res.ok (l, u)

/-! ## C86: states and controls belong together -/

/-- C86. Whatever happened before, if the simulation of the solution succeeds then the states that are written are those of the
simulation with the controls that are written. -/
theorem C86_files_agree_partial (p : Problem X S V C G J) (o : Opt S G J) (x : X) (s : S) (h : p.sim x = some s) :
    (finish p o x).controls = x ∧ p.sim (finish p o x).controls = some (finish p o x).states := by
  refine ⟨rfl, ?_⟩
  show p.sim x = some (finish p o x).states
  simp only [finish, evaluateObjective, evaluateCost, ensureStates, newX, h, evaluatePenalty, Bool.false_eq_true, if_false, if_true]

/-- C86. In particular this holds if some evaluation at the solution, by whatever callback, was successful before: Ipopt only accepts
points at which it could evaluate the objective. -/
theorem C86_evaluated (p : Problem X S V C G J) (s0 : S) (g0 : G) (j0 : J) (before after : List (Call X G J)) (c : Call X G J)
    (hc : Contract none (before ++ [c])) (hok : ¬ (callback p (run p (fresh s0 g0 j0) before) c).1.Failed) :
    p.sim c.x = some (finish p (run p (fresh s0 g0 j0) (before ++ c :: after)) c.x).states := by
  cases hs : p.sim c.x with
  | none => exact absurd (C14_failure p s0 g0 j0 before c hc hs).1 hok
  | some s =>
    rw [← hs]
    exact (C86_files_agree_partial p _ c.x s hs).2

/-- C86 (full statement, false): the states that are written always are those of the controls that are written. -/
def C86Statement : Prop :=
  ∀ (p : Problem ℕ ℕ ℕ ℕ ℕ ℕ) (history : List (Call ℕ ℕ ℕ)) (x : ℕ), Contract none history →
    p.sim x = some (finish p (run p (fresh 0 0 0) history) x).states

/-- C86 is false: if the simulation fails for the starting point, at which Ipopt then stops, both files are written all the same; in this case the
states do not come from any simulation. -/
theorem C86_false : ¬ C86Statement := by
  intro h
  have := h exampleProblem [⟨.f, 7, true, (0, 0)⟩] 7 (by simp [Contract])
  revert this
  decide

example : exampleProblem.sim 5 = some (finish exampleProblem (run exampleProblem (fresh 0 0 0)
    [⟨.f, 5, true, (0, 0)⟩, ⟨.f, 3, true, (0, 0)⟩, ⟨.g, 7, true, (0, 0)⟩]) 5).states := by decide

example : Contract none ([⟨.f, 3, true, (0, 0)⟩] ++ [(⟨.f, 5, true, (0, 0)⟩ : Call ℕ ℕ ℕ)]) ∧
    ¬ (callback exampleProblem (run exampleProblem (fresh 0 0 0) [⟨.f, 3, true, (0, 0)⟩])
      ⟨.f, 5, true, (0, 0)⟩).1.Failed := by
  refine ⟨by simp [Contract], ?_⟩
  show ¬ ((some 36 : Option ℕ) = none)
  decide

/-! ## C87: the printed violations -/

/-- Specification: the amount by which the values violate the lower bounds is the least one by which these would have to be relaxed. -/
def IsLowerViolation [Field F] [LinearOrder F] (constraints lower : List F) (v : F) : Prop :=
  IsLeast {w | 0 ≤ w ∧ ∀ i (hc : i < constraints.length) (hl : i < lower.length), lower[i] - w ≤ constraints[i]} v

/-- Specification: likewise for the upper bounds. -/
def IsUpperViolation [Field F] [LinearOrder F] (constraints upper : List F) (v : F) : Prop :=
  IsLeast {w | 0 ≤ w ∧ ∀ i (hc : i < constraints.length) (hl : i < upper.length), constraints[i] ≤ upper[i] + w} v

theorem foldl_max_isGreatest [LinearOrder F] (l : List F) : ∀ a : F, IsGreatest {b | b ∈ a :: l} (l.foldl max a) := by
  induction l with
  | nil => intro a; exact ⟨by simp, fun b hb => by simpa using le_of_eq (by simpa using hb)⟩
  | cons c l ih =>
    intro a
    obtain ⟨h1, h2⟩ := ih (max a c)
    refine ⟨?_, ?_⟩
    · rw [List.foldl_cons]
      rcases List.mem_cons.mp h1 with h | h
      · rw [h]
        rcases max_choice a c with e | e <;> rw [e] <;> simp
      · exact List.mem_cons_of_mem _ (List.mem_cons_of_mem _ h)
    · intro b hb
      rw [List.foldl_cons]
      have hm : max a c ≤ l.foldl max (max a c) := h2 (List.mem_cons_self ..)
      rcases List.mem_cons.mp hb with rfl | hb
      · exact (le_max_left _ _).trans hm
      · rcases List.mem_cons.mp hb with rfl | hb
        · exact (le_max_right _ _).trans hm
        · exact h2 (List.mem_cons_of_mem _ hb)

theorem maxCoeff_spec [LinearOrder F] {l : List F} (h : l ≠ []) : ∃ m, maxCoeff l = Res.ok m ∧ IsGreatest {b | b ∈ l} m := by
  cases l with
  | nil => exact absurd rfl h
  | cons a l => exact ⟨_, rfl, foldl_max_isGreatest l a⟩

theorem zipWith_violation [Field F] [LinearOrder F] [IsStrictOrderedRing F] (f : F → F → F) (c b : List F) (hlen : c.length = b.length)
    (hne : c ≠ []) : ∃ m, maxCoeff (List.zipWith f c b) = Res.ok m ∧
      IsLeast {w | 0 ≤ w ∧ ∀ i (hc : i < c.length) (hb : i < b.length), f c[i] b[i] ≤ w} (max 0 m) := by
  have hne' : List.zipWith f c b ≠ [] := by
    intro h
    have := congrArg List.length h
    have hc := List.length_pos_iff.mpr hne
    simp only [List.length_zipWith, List.length_nil] at this
    omega
  obtain ⟨m, hm, hg⟩ := maxCoeff_spec hne'
  refine ⟨m, hm, ⟨le_max_left _ _, fun i hc hb => ?_⟩, fun w hw => ?_⟩
  · refine le_trans (hg.2 ?_) (le_max_right _ _)
    show f c[i] b[i] ∈ List.zipWith f c b
    have hi : i < (List.zipWith f c b).length := by simp only [List.length_zipWith]; omega
    have he : (List.zipWith f c b)[i] = f c[i] b[i] := List.getElem_zipWith
    rw [← he]
    exact List.getElem_mem _
  · refine max_le hw.1 ?_
    obtain ⟨i, hi, he⟩ := List.getElem_of_mem hg.1
    rw [← he, List.getElem_zipWith]
    simp only [List.length_zipWith] at hi
    exact hw.2 i (by omega) (by omega)

theorem lowerViolation_spec [Field F] [LinearOrder F] [IsStrictOrderedRing F] (c lower : List F) (hlen : c.length = lower.length)
    (hne : c ≠ []) : ∃ v, lowerViolation c lower = Res.ok v ∧ IsLowerViolation c lower v := by
  obtain ⟨m, hm, h⟩ := zipWith_violation (fun c l => -(c - l)) c lower hlen hne
  refine ⟨max 0 m, by simp only [lowerViolation, hm, Res.ok_bind], ⟨h.1.1, fun i hc hl => ?_⟩, fun w hw => h.2 ⟨hw.1, fun i hc hl => ?_⟩⟩
  · have := h.1.2 i hc hl
    linarith
  · have := hw.2 i hc hl
    linarith

theorem upperViolation_spec [Field F] [LinearOrder F] [IsStrictOrderedRing F] (c upper : List F) (hlen : c.length = upper.length)
    (hne : c ≠ []) : ∃ v, upperViolation c upper = Res.ok v ∧ IsUpperViolation c upper v := by
  obtain ⟨m, hm, h⟩ := zipWith_violation (fun c u => -(u - c)) c upper hlen hne
  refine ⟨max 0 m, by simp only [upperViolation, hm, Res.ok_bind], ⟨h.1.1, fun i hc hl => ?_⟩, fun w hw => h.2 ⟨hw.1, fun i hc hl => ?_⟩⟩
  · have := h.1.2 i hc hl
    linarith
  · have := hw.2 i hc hl
    linarith

/-- C87 (full statement, false): the printed violations are those of the constraints at the solution. -/
def C87Statement : Prop :=
  ∀ (p : Problem ℕ ℕ ℕ (List ℚ) ℕ ℕ) (history : List (Call ℕ ℕ ℕ)) (x s : ℕ) (lower upper : List ℚ), Contract none history →
    p.sim x = some s → (p.constraints x s).length = lower.length → lower.length = upper.length →
    ∃ l u, printedViolations (finish p (run p (fresh 0 0 0) history) x) lower upper = Res.ok (l, u) ∧
      IsLowerViolation (p.constraints x s) lower l ∧ IsUpperViolation (p.constraints x s) upper u

/-- The example problem with one constraint, the state itself. -/
def oneConstraint : Problem ℕ ℕ ℕ (List ℚ) ℕ ℕ where
  sim x := some (x + 1)
  cost x s := x * s
  penalty _ s := s
  add := (· + ·)
  zero := 0
  constraints _ s := [(s : ℚ)]
  derivs x s := some (2 * x, s)

/-- … and with none. -/
def noConstraint : Problem ℕ ℕ ℕ (List ℚ) ℕ ℕ := { oneConstraint with constraints := fun _ _ => [] }

/-- C87 is false: if the last trial point (here 9) is not the solution (here 1), its violation is printed; here a feasible solution is reported to
violate a bound by 5. -/
theorem C87_stale_false : ¬ C87Statement := by
  intro h
  obtain ⟨l, u, hp, -, hu⟩ := h oneConstraint [⟨.f, 1, true, (0, 0)⟩, ⟨.f, 9, true, (0, 0)⟩] 1 2 [0] [5]
    (by simp [Contract]) rfl rfl rfl
  have e : printedViolations (finish oneConstraint (run oneConstraint (fresh 0 0 0)
      [⟨.f, 1, true, (0, 0)⟩, ⟨.f, 9, true, (0, 0)⟩]) 1) [0] [5] = Res.ok ((0 : ℚ), (5 : ℚ)) := by decide +kernel
  rw [e] at hp
  injection hp with hp
  obtain ⟨-, rfl⟩ := Prod.mk.injEq .. ▸ hp
  have : (5 : ℚ) ≤ 0 := hu.2 ⟨le_refl _, fun i hc hl => by
    have : i = 0 := by simpa [oneConstraint] using hc
    subst this
    norm_num [oneConstraint]⟩
  norm_num at this

/-- C87 is false for every problem without constraints: the maximum of an empty vector is undefined behaviour, whatever was evaluated before. -/
theorem C87_empty_false (p : Problem X S V (List F) G J) [Field F] [LinearOrder F] (hnone : ∀ x s, p.constraints x s = []) (o : Opt S G J) (x : X)
    (lower upper : List F) : printedViolations (finish p o x) lower upper = Res.ub := by
  unfold printedViolations
  cases h : (finish p o x).constraints with
  | none => rfl
  | some c =>
    have hc : c = [] := by
      have h' : (evaluateConstraints p (afterFinalize p o x) x).1 = some c := h
      unfold evaluateConstraints at h'
      split at h'
      · exact absurd h' (by simp)
      · injection h' with h'
        rw [← h', hnone]
    subst hc
    rfl

example : printedViolations (finish noConstraint (run noConstraint (fresh 0 0 0) [⟨.f, 1, true, (0, 0)⟩]) 1) [] [] = Res.ub :=
  C87_empty_false noConstraint (fun _ _ => rfl) _ _ _ _

/-- C87, the part that holds: if there are constraints and the last evaluation was at the solution, or failed, then the printed numbers are the
violations at the solution. -/
theorem C87_violations_partial [Field F] [LinearOrder F] [IsStrictOrderedRing F] (p : Problem X S V (List F) G J) (s0 : S) (g0 : G) (j0 : J)
    (history : List (Call X G J)) (x : X) (s : S) (lower upper : List F) (hc : Contract none history)
    (hlast : ∀ y, lastX none history = some y → y = x ∨ p.sim y = none) (hsim : p.sim x = some s)
    (hl : (p.constraints x s).length = lower.length) (hu : (p.constraints x s).length = upper.length) (hne : p.constraints x s ≠ []) :
    ∃ l u, printedViolations (finish p (run p (fresh s0 g0 j0) history) x) lower upper = Res.ok (l, u) ∧
      IsLowerViolation (p.constraints x s) lower l ∧ IsUpperViolation (p.constraints x s) upper u := by
  have hi := inv_run p history none _ (inv_fresh p s0 g0 j0) hc
  generalize run p (fresh s0 g0 j0) history = o at hi
  have hstates : o.statesUpToDate = true → o.states = s := by
    intro hup
    obtain ⟨y, hy, hs⟩ := hi.1 hup
    rcases hlast y hy with rfl | hn
    · rw [hsim] at hs
      exact (Option.some.inj hs).symm
    · rw [hn] at hs; exact absurd hs (by simp)
  have hens : ∃ o', ensureStates p o x = (true, o') ∧ o'.statesUpToDate = true ∧ o'.states = s := by
    unfold ensureStates
    by_cases hup : o.statesUpToDate = true
    · exact ⟨o, by rw [if_pos hup], hup, hstates hup⟩
    · exact ⟨_, by rw [if_neg hup, hsim], rfl, rfl⟩
  obtain ⟨o', e, hup, hs⟩ := hens
  have e' : ensureStates p o' x = (true, o') := by unfold ensureStates; rw [if_pos hup]
  have hcon : (finish p o x).constraints = some (p.constraints x s) := by
    simp only [finish, afterFinalize, evaluateCost, e, evaluatePenalty, e', evaluateConstraints, hs]
  obtain ⟨l, e1, h1⟩ := lowerViolation_spec _ lower hl hne
  obtain ⟨u, e2, h2⟩ := upperViolation_spec _ upper hu hne
  exact ⟨l, u, by simp only [printedViolations, hcon, e1, e2, Res.ok_bind], h1, h2⟩

example : printedViolations (finish oneConstraint (run oneConstraint (fresh 0 0 0)
    [⟨.f, 1, true, (0, 0)⟩, ⟨.f, 9, true, (0, 0)⟩, ⟨.g, 6, true, (0, 0)⟩]) 6) [0] [5] = Res.ok ((0 : ℚ), (2 : ℚ)) := by decide +kernel

end Verif.OptState
