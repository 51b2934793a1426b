import Verif.Evolve.Newton

/-! # Property C82: a simulation that is stopped and started again gives the same states -/

set_option autoImplicit false

namespace Verif.Evolve

variable {T X C : Type}

/-- The solver does not depend on earlier attempts. -/
def Memoryless (solver : Solver T X C) : Prop := ∀ hist hist' a, solver hist a = solver hist' a

theorem attempts_hist {retries : ℤ} {simplified : Bool} {solver : Solver T X C} (hm : Memoryless solver)
    {call : Bool → Attempt T X C} {retry : ℤ} {full : Bool} {hist hist' : List (Attempt T X C)} :
    (attempts retries simplified solver call retry full hist).1 = (attempts retries simplified solver call retry full hist').1 := by
  induction hn : (2 * retries + 1 - retry).toNat using Nat.strong_induction_on generalizing retry full hist hist' with
  | _ n ih =>
    unfold attempts
    rw [hm hist hist']
    split
    · rfl
    · rfl
    · rfl
    · simp only []
      split
      · rfl
      · exact ih _ (by omega) rfl

theorem loop_hist {retries : ℤ} {simplified : Bool} {solver : Solver T X C} (hm : Memoryless solver) {controls : T → Res C}
    {ts : List T} {lastTime : T} {lastState newState : X} {hist hist' : List (Attempt T X C)} :
    (loop retries simplified solver controls ts lastTime lastState newState hist).1 =
      (loop retries simplified solver controls ts lastTime lastState newState hist').1 := by
  induction ts generalizing lastTime lastState newState hist hist' with
  | nil => rfl
  | cons t ts ih =>
    simp only [loop]
    cases controls t with
    | throws => rfl
    | ub => rfl
    | ok c =>
      have h : (makeOneStep retries simplified solver lastTime t lastState newState c hist).1 =
          (makeOneStep retries simplified solver lastTime t lastState newState c hist').1 := attempts_hist hm
      simp only []
      rcases h1 : makeOneStep retries simplified solver lastTime t lastState newState c hist with ⟨o, h2⟩
      rcases h3 : makeOneStep retries simplified solver lastTime t lastState newState c hist' with ⟨o', h4⟩
      rw [h1, h3] at h
      simp only [] at h
      subst h
      cases o with
      | throws => rfl
      | ub => rfl
      | ok x =>
        have h := ih (lastTime := t) (lastState := x) (newState := x) (hist := h2) (hist' := h4)
        simp only []
        rcases h5 : loop retries simplified solver controls ts t x x h2 with ⟨a, h6⟩
        rcases h7 : loop retries simplified solver controls ts t x x h4 with ⟨b, h8⟩
        rw [h5, h7] at h
        simp only [] at h
        subst h
        cases a <;> rfl

theorem loop_cons {retries : ℤ} {simplified : Bool} {solver : Solver T X C} (hm : Memoryless solver) {controls : T → Res C}
    {t : T} {ts : List T} {lastTime : T} {lastState newState : X} {states : List X} :
    (loop retries simplified solver controls (t :: ts) lastTime lastState newState []).1 = Res.ok states ↔
      ∃ c x xs, controls t = Res.ok c ∧
        (makeOneStep retries simplified solver lastTime t lastState newState c []).1 = Res.ok x ∧
        (loop retries simplified solver controls ts t x x []).1 = Res.ok xs ∧ states = x :: xs := by
  simp only [loop]
  cases controls t with
  | throws => simp
  | ub => simp
  | ok c =>
    simp only []
    rcases h1 : makeOneStep retries simplified solver lastTime t lastState newState c [] with ⟨o, h2⟩
    cases o with
    | throws => simp [h1]
    | ub => simp [h1]
    | ok x =>
      simp only []
      have h := loop_hist (retries := retries) (simplified := simplified) hm (controls := controls) (ts := ts) (lastTime := t)
        (lastState := x) (newState := x) (hist := h2) (hist' := [])
      rcases h5 : loop retries simplified solver controls ts t x x h2 with ⟨a, h6⟩
      rw [h5] at h
      simp only [] at h
      cases a with
      | throws => simp [h1, ← h]
      | ub => simp [h1, ← h]
      | ok xs => simp [h1, ← h, eq_comm]

/-- The loop over the first times and then over the others. -/
theorem loop_append {retries : ℤ} {simplified : Bool} {solver : Solver T X C} (hm : Memoryless solver) {controls : T → Res C}
    {ts ts' : List T} {lastTime : T} {lastState : X} {states : List X} :
    (loop retries simplified solver controls (ts ++ ts') lastTime lastState lastState []).1 = Res.ok states ↔
      ∃ xs ys, (loop retries simplified solver controls ts lastTime lastState lastState []).1 = Res.ok xs ∧
        (loop retries simplified solver controls ts' ((lastTime :: ts).getLast (by simp))
          ((lastState :: xs).getLast (by simp)) ((lastState :: xs).getLast (by simp)) []).1 = Res.ok ys ∧
        states = xs ++ ys := by
  induction ts generalizing lastTime lastState states with
  | nil =>
    constructor
    · exact fun h => ⟨[], states, rfl, h, rfl⟩
    · rintro ⟨xs, ys, h1, h2, rfl⟩
      injection h1 with h1
      subst h1
      exact h2
  | cons t ts ih =>
    rw [List.cons_append, loop_cons hm]
    constructor
    · rintro ⟨c, x, xs, h1, h2, h3, rfl⟩
      obtain ⟨xs', ys, h4, h5, rfl⟩ := ih.mp h3
      exact ⟨x :: xs', ys, (loop_cons hm).mpr ⟨c, x, xs', h1, h2, h4, rfl⟩, h5, rfl⟩
    · rintro ⟨xs, ys, h1, h2, rfl⟩
      obtain ⟨c, x, xs', h3, h4, h5, rfl⟩ := (loop_cons hm).mp h1
      exact ⟨c, x, xs' ++ ys, h3, h4, ih.mpr ⟨xs', ys, h5, h2, rfl⟩, rfl⟩

theorem simulate_ok {retries : ℤ} {simplified : Bool} {solver : Solver T X C} {controls : T → Res C} {t0 t1 : T} {ts : List T}
    {initial : X} {states : List X} :
    (simulate retries simplified solver controls (t0 :: t1 :: ts) initial).1 = Res.ok states ↔
      ∃ xs, (loop retries simplified solver controls (t1 :: ts) t0 initial initial []).1 = Res.ok xs ∧ states = initial :: xs := by
  unfold simulate
  cases hc : controls t1 with
  | throws => simp [loop, hc]
  | ub => simp [loop, hc]
  | ok c =>
    simp only []
    rcases h1 : loop retries simplified solver controls (t1 :: ts) t0 initial initial [] with ⟨a, h2⟩
    cases a with
    | throws => simp [hc]
    | ub => simp [hc]
    | ok xs => simp [hc, eq_comm]

/-- C82. If the solver does not depend on earlier attempts, a simulation over all times gives the states of a simulation over
the first times, and then those of one that starts with its last time and state and goes over the other times. One
succeeds if and only if both others do. -/
theorem C82_continue {retries : ℤ} {simplified : Bool} {solver : Solver T X C} (hm : Memoryless solver)
    {controls : T → Res C} {first last : List T} {middle : T} (hf : first ≠ []) (hl : last ≠ []) {initial : X} {states : List X} :
    (simulate retries simplified solver controls (first ++ middle :: last) initial).1 = Res.ok states ↔
      ∃ before x after, (simulate retries simplified solver controls (first ++ [middle]) initial).1 = Res.ok (before ++ [x]) ∧
        (simulate retries simplified solver controls (middle :: last) x).1 = Res.ok (x :: after) ∧
        states = before ++ x :: after := by
  obtain ⟨t0, first', rfl⟩ := List.exists_cons_of_ne_nil hf
  obtain ⟨l1, last', rfl⟩ := List.exists_cons_of_ne_nil hl
  obtain ⟨t1, mid, hmid⟩ : ∃ t1 mid, first' ++ [middle] = t1 :: mid := by
    cases first' with
    | nil => exact ⟨middle, [], rfl⟩
    | cons a l => exact ⟨a, l ++ [middle], rfl⟩
  have e1 : t0 :: first' ++ middle :: l1 :: last' = t0 :: t1 :: (mid ++ l1 :: last') := by
    rw [List.cons_append, show first' ++ middle :: l1 :: last' = (first' ++ [middle]) ++ l1 :: last' by simp, hmid]
    rfl
  have e2 : t0 :: first' ++ [middle] = t0 :: t1 :: mid := by rw [List.cons_append, hmid]
  have e3 : (t0 :: t1 :: mid).getLast (by simp) = middle := by
    simp only [← hmid]
    simp
  rw [e1, e2, simulate_ok, ← List.cons_append]
  constructor
  · rintro ⟨xs, h1, rfl⟩
    obtain ⟨ys, zs, h2, h3, rfl⟩ := (loop_append hm).mp h1
    rw [e3] at h3
    refine ⟨(initial :: ys).dropLast, (initial :: ys).getLast (by simp), zs, ?_, simulate_ok.mpr ⟨zs, h3, rfl⟩, ?_⟩
    · rw [simulate_ok]
      exact ⟨ys, h2, List.dropLast_append_getLast _⟩
    · rw [← List.cons_append]
      conv_lhs => rw [← List.dropLast_append_getLast (l := initial :: ys) (by simp)]
      simp
  · rintro ⟨before, x, after, h1, h2, rfl⟩
    obtain ⟨ys, h3, h4⟩ := simulate_ok.mp h1
    obtain ⟨zs, h5, h6⟩ := simulate_ok.mp h2
    injection h6 with _ h6
    subst h6
    refine ⟨ys ++ after, (loop_append hm).mpr ⟨ys, after, h3, ?_, rfl⟩, ?_⟩
    · rw [e3]
      simp only [← h4, List.getLast_append_singleton]
      exact h5
    · rw [← List.cons_append, ← h4]
      simp

/-- The Newton solver that is used does not depend on earlier attempts. -/
theorem C82_newton {Y K : Type} [Field K] [LinearOrder K] (sys : T → T → X → C → Newton.System X Y K) (tol : K) (maxIter : ℤ)
    (fuel : ℕ) : Memoryless (newtonSolver sys tol maxIter fuel) := fun _ _ _ => rfl

/-- A solver that solves each step of `x' = c` at once. -/
def eulerSolver : Solver ℚ ℚ ℚ := fun _ a => Res.ok (true, a.lastState + (a.newTime - a.lastTime) * a.control)

/-- A simulation over the times 0, 1 and 3, and one that starts again at time 1. -/
example : Memoryless eulerSolver ∧
    (simulate 1 true eulerSolver (fun t => Res.ok (2 * t)) ([0] ++ 1 :: [3]) 10).1 = Res.ok ([10] ++ 12 :: [24]) ∧
    (simulate 1 true eulerSolver (fun t => Res.ok (2 * t)) [1, 3] 12).1 = Res.ok [12, 24] := by
  refine ⟨fun _ _ _ => rfl, ?_, ?_⟩ <;>
  · simp [simulate, loop, makeOneStep, attempts, eulerSolver]
    norm_num

end Verif.Evolve
