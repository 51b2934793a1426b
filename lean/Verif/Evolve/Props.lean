import Verif.Evolve.Model
import Mathlib.Tactic.Ring
import Mathlib.Data.List.Range

/-! # Properties C24 and C25 -/

set_option autoImplicit false
set_option linter.unusedSectionVars false

namespace Verif.Evolve

variable {T X C : Type}

/-! ## One time step -/

/-- Which Jacobian the `j`-th attempt (counted from 0) of a step uses: in simplified mode the full one
only after `retries + 1` attempts. -/
def fullAt (retries : ℤ) (simplified : Bool) (j : ℕ) : Bool :=
  if simplified then decide (retries < j) else true

/-- The largest number of attempts for one step. -/
def maxAttempts (retries : ℤ) (simplified : Bool) : ℕ :=
  if retries < 0 then 1 else if simplified then 2 * retries.toNat + 2 else retries.toNat + 2

/-- The trace of a step: it adds a non-empty list of attempts, all but the last one failed, and the
outcome is decided by the last one. -/
theorem attempts_spec (R : ℤ) (sm : Bool) (solver : Solver T X C) (call : Bool → Attempt T X C)
    (retry : ℤ) (full : Bool) (hist : List (Attempt T X C)) :
    ∃ flags : List Bool, ∃ f : Bool,
      (attempts R sm solver call retry full hist).2 = hist ++ (flags ++ [f]).map call ∧
      (∀ i (hi : i < flags.length), ∃ x,
        solver (hist ++ (flags.take i).map call) (call flags[i]) = Res.ok (false, x)) ∧
      (flags.length : ℤ) ≤ max (2 * R + 1 - retry) 0 ∧
      (∀ i (hi : i < (flags ++ [f]).length),
        (flags ++ [f])[i] = (full || (sm && decide (retry ≤ R ∧ R < retry + i)))) ∧
      ((attempts R sm solver call retry full hist).1 =
        match solver (hist ++ flags.map call) (call f) with
        | Res.throws => Res.throws
        | Res.ub => Res.ub
        | Res.ok (true, x) => Res.ok x
        | Res.ok (false, _) => Res.throws) ∧
      (∀ x, solver (hist ++ flags.map call) (call f) = Res.ok (false, x) →
        (flags.length : ℤ) = max (2 * R + 1 - retry) 0) := by
  obtain ⟨d, hd⟩ : ∃ d, d = (2 * R + 1 - retry).toNat := ⟨_, rfl⟩
  induction d generalizing retry full hist with
  | zero =>
    unfold attempts
    have hlt : 2 * R < retry := by omega
    refine ⟨[], full, ?_, by simp, by simp, ?_, ?_, ?_⟩
    · split <;> simp [hlt]
    · intro i hi
      have : i = 0 := by simpa using hi
      subst this
      cases full <;> simp
    · simp only [List.map_nil, List.append_nil]
      cases h : solver hist (call full) with
      | ok p =>
        obtain ⟨b, x⟩ := p
        cases b <;> simp [hlt]
      | throws => simp
      | ub => simp
    · intro x _; simp; omega
  | succ d ih =>
    have hge : ¬ 2 * R < retry := by omega
    unfold attempts
    cases h : solver hist (call full) with
    | throws =>
      refine ⟨[], full, by simp, by simp, by simp, ?_, by simp [h], by simp [h]⟩
      intro i hi
      have : i = 0 := by simpa using hi
      subst this
      cases full <;> simp
    | ub =>
      refine ⟨[], full, by simp, by simp, by simp, ?_, by simp [h], by simp [h]⟩
      intro i hi
      have : i = 0 := by simpa using hi
      subst this
      cases full <;> simp
    | ok p =>
      obtain ⟨b, x⟩ := p
      cases b with
      | true =>
        refine ⟨[], full, by simp, by simp, by simp, ?_, by simp [h], by simp [h]⟩
        intro i hi
        have : i = 0 := by simpa using hi
        subst this
        cases full <;> simp
      | false =>
        simp only [if_neg hge]
        obtain ⟨flags, f, e1, e2, e3, e4, e5, e6⟩ := ih (retry + 1)
          (if (sm && decide (retry = R)) = true then true else full) (hist ++ [call full]) (by omega)
        refine ⟨full :: flags, f, ?_, ?_, ?_, ?_, ?_, ?_⟩
        · rw [e1]; simp
        · intro i hi
          cases i with
          | zero => exact ⟨x, by simpa using h⟩
          | succ i =>
            have hi' : i < flags.length := by simpa using hi
            obtain ⟨y, hy⟩ := e2 i hi'
            exact ⟨y, by simpa using hy⟩
        · simp only [List.length_cons, Nat.cast_add, Nat.cast_one]; omega
        · intro i hi
          cases i with
          | zero =>
            cases full <;> simp
          | succ i =>
            have hi' : i < (flags ++ [f]).length := by simpa using hi
            have := e4 i hi'
            simp only [List.cons_append, List.getElem_cons_succ]
            rw [this]
            push_cast
            by_cases hr : retry = R
            · subst hr
              cases sm <;> cases full <;> simp
            · have hdec : decide (retry + 1 ≤ R ∧ R < retry + 1 + i) =
                  decide (retry ≤ R ∧ R < retry + ((i : ℤ) + 1)) := by
                rw [decide_eq_decide]; omega
              rw [hdec]
              cases sm <;> cases full <;> simp [hr]
        · rw [e5]; simp
        · intro y hy
          have := e6 y (by simpa using hy)
          simp only [List.length_cons, Nat.cast_add, Nat.cast_one]; omega

/-- C25. A time step makes at least one and at most `2 * retries + 2` attempts (`retries + 2` if the full
Jacobian is used from the start; one if `retries` is negative). All of them are for the same times,
last state, control and starting guess; all but the last one failed; the `j`-th uses the full
Jacobian as `fullAt` says. The step gives the state of the last attempt if that succeeded, and
otherwise throws — after a failure only if the attempts are used up. -/
theorem C25_attempts (R : ℤ) (sm : Bool) (solver : Solver T X C) (lastTime newTime : T)
    (lastState newState : X) (control : C) (hist : List (Attempt T X C)) :
    ∃ as : List (Attempt T X C), ∃ a : Attempt T X C,
      (makeOneStep R sm solver lastTime newTime lastState newState control hist).2 =
        hist ++ (as ++ [a]) ∧
      as.length + 1 ≤ maxAttempts R sm ∧
      (∀ b ∈ as ++ [a], b.lastTime = lastTime ∧ b.newTime = newTime ∧ b.lastState = lastState ∧
        b.guess = newState ∧ b.control = control) ∧
      (∀ j (hj : j < (as ++ [a]).length), (as ++ [a])[j].full = true ↔
        fullAt R sm j = true ∧ (sm = true → 0 ≤ R)) ∧
      (∀ j (hj : j < as.length), ∃ x, solver (hist ++ as.take j) as[j] = Res.ok (false, x)) ∧
      ((makeOneStep R sm solver lastTime newTime lastState newState control hist).1 =
        match solver (hist ++ as) a with
        | Res.throws => Res.throws
        | Res.ub => Res.ub
        | Res.ok (true, x) => Res.ok x
        | Res.ok (false, _) => Res.throws) ∧
      (∀ x, solver (hist ++ as) a = Res.ok (false, x) → as.length + 1 = maxAttempts R sm) := by
  obtain ⟨flags, f, e1, e2, e3, e4, e5, e6⟩ := attempts_spec R sm solver
    (fun full => (⟨full, lastTime, newTime, lastState, newState, control⟩ : Attempt T X C))
    (if sm then 0 else R) (!sm) hist
  have hm : ∀ n : ℕ, (n : ℤ) ≤ max (2 * R + 1 - (if sm then 0 else R)) 0 → n + 1 ≤ maxAttempts R sm := by
    intro n hn
    unfold maxAttempts
    cases sm <;> simp at hn ⊢ <;> split <;> omega
  have hm' : ∀ n : ℕ, (n : ℤ) = max (2 * R + 1 - (if sm then 0 else R)) 0 → n + 1 = maxAttempts R sm := by
    intro n hn
    unfold maxAttempts
    cases sm <;> simp at hn ⊢ <;> split <;> omega
  refine ⟨flags.map _, _, by unfold makeOneStep; rw [e1, List.map_append]; rfl, ?_, ?_, ?_, ?_, ?_, ?_⟩
  · rw [List.length_map]; exact hm _ (by simpa using e3)
  · intro b hb
    simp only [List.mem_append, List.mem_map, List.mem_singleton] at hb
    rcases hb with ⟨g, -, rfl⟩ | rfl <;> exact ⟨rfl, rfl, rfl, rfl, rfl⟩
  · intro j hj
    have hj' : j < (flags ++ [f]).length := by simpa using hj
    have e := e4 j hj'
    have hfull : ((flags.map fun full => (⟨full, lastTime, newTime, lastState, newState, control⟩ :
        Attempt T X C)) ++ [⟨f, lastTime, newTime, lastState, newState, control⟩])[j].full =
        (flags ++ [f])[j] := by
      have : ((flags.map fun full => (⟨full, lastTime, newTime, lastState, newState, control⟩ :
        Attempt T X C)) ++ [⟨f, lastTime, newTime, lastState, newState, control⟩]) =
        (flags ++ [f]).map fun full => (⟨full, lastTime, newTime, lastState, newState, control⟩ :
        Attempt T X C) := by simp
      simp only [this, List.getElem_map]
    rw [hfull, e]
    unfold fullAt
    cases sm <;> simp
    constructor <;> intro h <;> omega
  · intro j hj
    have hj' : j < flags.length := by simpa using hj
    obtain ⟨x, hx⟩ := e2 j hj'
    exact ⟨x, by simpa [List.map_take] using hx⟩
  · unfold makeOneStep; rw [e5]
  · intro x hx
    rw [List.length_map]
    exact hm' _ (by simpa using e6 x hx)

/-! ## The whole simulation -/

theorem step_ok {R : ℤ} {sm : Bool} {solver : Solver T X C} {lastTime newTime : T}
    {lastState newState x : X} {control : C} {hist hist' : List (Attempt T X C)}
    (h : makeOneStep R sm solver lastTime newTime lastState newState control hist =
      (Res.ok x, hist')) :
    ∃ earlier a, hist' = earlier ++ [a] ∧ hist <+: earlier ∧ solver earlier a = Res.ok (true, x) ∧
      a.lastTime = lastTime ∧ a.newTime = newTime ∧ a.lastState = lastState ∧ a.guess = newState ∧
      a.control = control := by
  obtain ⟨as, a, e1, -, e2, -, -, e3, -⟩ := C25_attempts R sm solver lastTime newTime lastState
    newState control hist
  rw [h] at e1 e3
  obtain ⟨c1, c2, c3, c4, c5⟩ := e2 a (by simp)
  refine ⟨hist ++ as, a, by simpa using e1, ⟨as, rfl⟩, ?_, c1, c2, c3, c4, c5⟩
  simp only at e3
  split at e3
  · cases e3
  · cases e3
  · rename_i y hy; injection e3 with e3; rw [hy, e3]
  · cases e3

theorem step_prefix (R : ℤ) (sm : Bool) (solver : Solver T X C) (lastTime newTime : T)
    (lastState newState : X) (control : C) (hist : List (Attempt T X C)) :
    hist <+: (makeOneStep R sm solver lastTime newTime lastState newState control hist).2 := by
  obtain ⟨as, a, e1, -⟩ := C25_attempts R sm solver lastTime newTime lastState newState control hist
  exact ⟨as ++ [a], e1.symm⟩

theorem loop_spec (R : ℤ) (sm : Bool) (solver : Solver T X C) (controls : T → Res C) (ts : List T) :
    ∀ (lastTime : T) (s : X) (hist : List (Attempt T X C)) (xs : List X) (trace : List (Attempt T X C)),
    loop R sm solver controls ts lastTime s s hist = (Res.ok xs, trace) →
    hist <+: trace ∧ xs.length = ts.length ∧
    ∀ i (hi : i < ts.length) (hx : i < xs.length), ∃ earlier a c,
      (earlier ++ [a]) <+: trace ∧ controls ts[i] = Res.ok c ∧
      solver earlier a = Res.ok (true, xs[i]) ∧ a.newTime = ts[i] ∧ a.control = c ∧
      a.lastTime = ((lastTime :: ts)[i]'(by simp; omega)) ∧
      a.lastState = ((s :: xs)[i]'(by simp; omega)) ∧ a.guess = ((s :: xs)[i]'(by simp; omega)) := by
  induction ts with
  | nil =>
    intro lastTime s hist xs trace h
    simp only [loop, Prod.mk.injEq, Res.ok.injEq] at h
    obtain ⟨rfl, rfl⟩ := h
    exact ⟨List.prefix_refl _, rfl, fun i hi => by simp at hi⟩
  | cons t ts ih =>
    intro lastTime s hist xs trace h
    unfold loop at h
    split at h
    · simp at h
    · simp at h
    · rename_i c hc
      split at h
      · simp at h
      · simp at h
      · rename_i x hist' hstep
        split at h
        · rename_i xs' hist'' hrest
          simp only [Prod.mk.injEq, Res.ok.injEq] at h
          obtain ⟨rfl, rfl⟩ := h
          obtain ⟨hpre, hlen, hall⟩ := ih t x hist' xs' hist'' hrest
          obtain ⟨earlier, a, he, hhist, hsol, c1, c2, c3, c4, c5⟩ := step_ok hstep
          refine ⟨?_, by simp [hlen], ?_⟩
          · exact hhist.trans ((List.prefix_append _ _).trans (he ▸ hpre))
          · intro i hi hx
            cases i with
            | zero =>
              exact ⟨earlier, a, c, he ▸ hpre, hc, hsol, c2, c5, c1, c3, c4⟩
            | succ i =>
              simp only [List.length_cons] at hi hx
              obtain ⟨e, b, d, h1, h2, h3, h4, h5, h6, h7, h8⟩ := hall i (by omega) (by omega)
              exact ⟨e, b, d, h1, h2, h3, h4, h5, by simpa using h6, by simpa using h7,
                by simpa using h8⟩
        · rename_i o hne
          exact (hne xs trace h).elim

/-- C24. If a simulation returns, there is one stored state per time, the first one is the initial state,
and every later one was reported solved by the Newton solver in a call for the interval from the
previous time to its own time, with the stored previous state as last state (and as starting guess)
and the controls at its own time. -/
theorem C24_solved (R : ℤ) (sm : Bool) (solver : Solver T X C) (controls : T → Res C)
    (times : List T) (initial : X) (states : List X) (trace : List (Attempt T X C))
    (h : simulate R sm solver controls times initial = (Res.ok states, trace)) :
    states.length = times.length ∧ states.head? = some initial ∧
    ∀ i (hi : i + 1 < times.length) (hs : i + 1 < states.length), ∃ earlier a c,
      (earlier ++ [a]) <+: trace ∧ solver earlier a = Res.ok (true, states[i + 1]) ∧
      a.lastTime = times[i] ∧ a.newTime = times[i + 1] ∧ a.lastState = states[i] ∧
      a.guess = states[i] ∧ controls times[i + 1] = Res.ok c ∧ a.control = c := by
  match times, h with
  | [], h => simp [simulate] at h
  | [_], h => simp [simulate] at h
  | t0 :: t1 :: ts, h =>
    simp only [simulate] at h
    cases hc : controls t1 with
    | throws => simp [hc] at h
    | ub => simp [hc] at h
    | ok c =>
      simp only [hc] at h
      obtain ⟨r, hist, hl⟩ : ∃ r hist,
          loop R sm solver controls (t1 :: ts) t0 initial initial [] = (r, hist) := ⟨_, _, rfl⟩
      rw [hl] at h
      cases r with
      | throws => simp at h
      | ub => simp at h
      | ok xs =>
        simp only [Prod.mk.injEq, Res.ok.injEq] at h
        obtain ⟨rfl, rfl⟩ := h
        obtain ⟨-, hlen, hall⟩ := loop_spec R sm solver controls (t1 :: ts) t0 initial [] xs hist hl
        refine ⟨by simpa using hlen, rfl, ?_⟩
        intro i hi hs
        obtain ⟨e, b, d, h1, h2, h3, h4, h5, h6, h7, h8⟩ := hall i (by simpa using hi) (by simpa using hs)
        exact ⟨e, b, d, h1, h3, h6, h4, h7, h8, h2, h5⟩

theorem loop_no_ub (R : ℤ) (sm : Bool) (solver : Solver T X C) (controls : T → Res C)
    (hsol : ∀ hst a, solver hst a ≠ Res.ub) (hcon : ∀ t, controls t ≠ Res.ub) (ts : List T) :
    ∀ (lastTime : T) (s s' : X) (hist : List (Attempt T X C)),
      (loop R sm solver controls ts lastTime s s' hist).1 ≠ Res.ub := by
  induction ts with
  | nil => intro _ _ _ _; simp [loop]
  | cons t ts ih =>
    intro lastTime s s' hist
    unfold loop
    cases hc : controls t with
    | throws => simp
    | ub => exact absurd hc (hcon t)
    | ok c =>
      simp only
      obtain ⟨as, a, -, -, -, -, -, e, -⟩ := C25_attempts R sm solver lastTime t s s' c hist
      obtain ⟨r, hist', hl⟩ : ∃ r hist',
          makeOneStep R sm solver lastTime t s s' c hist = (r, hist') := ⟨_, _, rfl⟩
      rw [hl] at e ⊢
      cases r with
      | throws => simp
      | ub =>
        simp only at e
        split at e
        · cases e
        · rename_i h; exact absurd h (hsol _ _)
        · cases e
        · cases e
      | ok x =>
        simp only
        obtain ⟨r', hist'', hl'⟩ : ∃ r' hist'', loop R sm solver controls ts t x x hist' = (r', hist'') :=
          ⟨_, _, rfl⟩
        have := ih t x x hist'
        rw [hl'] at this ⊢
        cases r' with
        | ok xs => simp
        | throws => simp
        | ub => exact absurd rfl this

/-- C24. With at least two times, and a solver and controls that stay within defined behaviour, a
simulation returns or throws; if some time is not solved by any attempt, it throws. -/
theorem C24_throws (R : ℤ) (sm : Bool) (solver : Solver T X C) (controls : T → Res C)
    (times : List T) (initial : X) (h2 : 2 ≤ times.length)
    (hsol : ∀ hst a, solver hst a ≠ Res.ub) (hcon : ∀ t, controls t ≠ Res.ub) :
    ((∃ states, (simulate R sm solver controls times initial).1 = Res.ok states) ∨
      (simulate R sm solver controls times initial).1 = Res.throws) ∧
    ∀ t ∈ times.tail, (∀ hst a x, a.newTime = t → solver hst a ≠ Res.ok (true, x)) →
      (simulate R sm solver controls times initial).1 = Res.throws := by
  have main : (∃ states, (simulate R sm solver controls times initial).1 = Res.ok states) ∨
      (simulate R sm solver controls times initial).1 = Res.throws := by
    match times, h2 with
    | t0 :: t1 :: ts, _ =>
      simp only [simulate]
      cases hc : controls t1 with
      | throws => simp
      | ub => exact absurd hc (hcon t1)
      | ok c =>
        simp only
        obtain ⟨r, hist, hl⟩ : ∃ r hist,
            loop R sm solver controls (t1 :: ts) t0 initial initial [] = (r, hist) := ⟨_, _, rfl⟩
        have := loop_no_ub R sm solver controls hsol hcon (t1 :: ts) t0 initial initial []
        rw [hl] at this ⊢
        cases r with
        | ok xs => simp
        | throws => simp
        | ub => exact absurd rfl this
  refine ⟨main, ?_⟩
  intro t ht hno
  rcases main with ⟨states, hst⟩ | hth
  · obtain ⟨hlen, -, hall⟩ := C24_solved R sm solver controls times initial states
      (simulate R sm solver controls times initial).2 (by rw [← hst])
    obtain ⟨i, hi, rfl⟩ := List.getElem_of_mem ht
    have hi' : i + 1 < times.length := by simp at hi; omega
    obtain ⟨e, a, c, -, hs, -, hn, -⟩ := hall i hi' (by omega)
    exact absurd hs (hno e a _ (by rw [hn]; simp))
  · exact hth

/-! ## Example: a solver that fails the first two attempts of every step -/

/-- Succeeds with `lastState + control` only if the full Jacobian is used. -/
def stubborn : Solver ℕ ℕ ℕ := fun _ a => Res.ok (a.full, a.lastState + a.control)

/-- With one retry in simplified mode each step needs three attempts. -/
example : (match simulate 1 true stubborn (fun t => Res.ok t) [0, 1, 2] 10 with
    | (Res.ok s, trace) => (s, trace.map fun a => (a.newTime, a.full))
    | _ => ([], [])) =
    ([10, 11, 13], [(1, false), (1, false), (1, true), (2, false), (2, false), (2, true)]) := by
  simp [simulate, loop, makeOneStep, attempts, stubborn]

/-- With no attempt succeeding it throws after `2 * 1 + 2` attempts. -/
example : (match simulate 1 true (fun _ a => Res.ok (false, a.guess) : Solver ℕ ℕ ℕ)
      (fun t => Res.ok t) [0, 1, 2] 10 with
    | (Res.throws, trace) => trace.length
    | _ => 0) = 4 := by
  simp [simulate, loop, makeOneStep, attempts]

end Verif.Evolve
