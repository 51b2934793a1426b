import Verif.OptState.Model
import Mathlib.Tactic.Common

/-! # Properties C13, C14, C19, C21 -/

set_option autoImplicit false

namespace Verif.OptState

variable {Key X S V C G J : Type}

/-! ## C21: the state cache -/

/-- Invariant of the cache: each of the two entries is either still the default one or records the
true outcome of the simulation. -/
def Cache.Valid (sim : Key → Option S) (emptyKey : Key) (c : Cache Key S) : Prop :=
  (c.key ≠ emptyKey → sim c.key = some c.states) ∧ (c.failed ≠ emptyKey → sim c.failed = none)

theorem valid_refresh (sim : Key → Option S) (e : Key) (c : Cache Key S) (k : Key)
    (h : c.Valid sim e) : (refresh sim c k).2.Valid sim e := by
  unfold refresh
  cases hs : sim k with
  | none => exact ⟨h.1, fun _ => hs⟩
  | some s => exact ⟨fun _ => hs, h.2⟩

theorem valid_check [DecidableEq Key] (sim : Key → Option S) (e : Key) (c : Cache Key S) (k : Key)
    (h : c.Valid sim e) : (checkAndSupply sim c k).2.Valid sim e := by
  unfold checkAndSupply
  split
  · exact h
  · split
    · exact h
    · cases hs : sim k with
      | none => exact ⟨h.1, fun _ => hs⟩
      | some s => exact ⟨fun _ => hs, h.2⟩

theorem valid_history [DecidableEq Key] (sim : Key → Option S) (e : Key) (s0 : S)
    (ops : List (CacheOp Key)) :
    (ops.foldl (Cache.step sim) (Cache.init e s0)).Valid sim e := by
  have : ∀ (ops : List (CacheOp Key)) (c : Cache Key S), c.Valid sim e →
      (ops.foldl (Cache.step sim) c).Valid sim e := by
    intro ops
    induction ops with
    | nil => intro c h; exact h
    | cons o ops ih =>
      intro c h
      apply ih
      cases o with
      | refresh k => exact valid_refresh sim e c k h
      | check k => exact valid_check sim e c k h
  exact this ops _ ⟨fun h => absurd rfl h, fun h => absurd rfl h⟩

/-- C21. After any history of cache operations, a query with a non-empty key answers exactly what a
fresh simulation of that key would: its states, or failure iff it fails. -/
theorem C21_check_supplies_simulation [DecidableEq Key] (sim : Key → Option S) (e : Key) (s0 : S)
    (ops : List (CacheOp Key)) (k : Key) (hk : k ≠ e) :
    (checkAndSupply sim (ops.foldl (Cache.step sim) (Cache.init e s0)) k).1 = sim k := by
  have hv := valid_history sim e s0 ops
  generalize ops.foldl (Cache.step sim) (Cache.init e s0) = c at hv
  unfold checkAndSupply
  split
  · rename_i h; subst h; exact (hv.2 hk).symm
  · split
    · rename_i h; subst h; exact (hv.1 hk).symm
    · cases hs : sim k <;> rfl

/-- C21, for the refreshing interface: after any history, `refresh_cache` returns whether the
simulation of the key succeeds, and if it does `get_cached_states` returns its states. -/
theorem C21_refresh [DecidableEq Key] (sim : Key → Option S) (e : Key) (s0 : S)
    (ops : List (CacheOp Key)) (k : Key) :
    let r := refresh sim (ops.foldl (Cache.step sim) (Cache.init e s0)) k
    (r.1 = (sim k).isSome) ∧ (∀ s, sim k = some s → r.2.states = s) ∧
    (sim k = none → r.2.states = (ops.foldl (Cache.step sim) (Cache.init e s0)).states) := by
  unfold refresh
  cases hs : sim k <;> simp

/-- Without the hypothesis that the key is not the empty one the claim is false: a fresh cache
answers a query for the empty key with failure, whatever the simulation would do. -/
theorem C21_empty_key_false [DecidableEq Key] (sim : Key → Option S) (e : Key) (s0 : S) :
    (checkAndSupply sim (Cache.init e s0) e).1 = none := by
  simp [checkAndSupply, Cache.init]

/-- A history with a failure, a success and a repeated query. -/
example :
    let sim : ℕ → Option ℕ := fun k => if k = 2 then none else some (10 * k)
    let ops : List (CacheOp ℕ) := [.check 2, .check 3, .refresh 2, .check 3]
    let c := ops.foldl (Cache.step sim) (Cache.init 0 0)
    (c.key, c.states, c.failed) = (3, 30, 2) ∧ (checkAndSupply sim c 2).1 = none ∧
    (checkAndSupply sim c 3).1 = some 30 := by decide

/-! ## C13, C14: evaluations of the optimizer -/

/-- Specification: what each evaluation means for a control vector, without any state. -/
def meaning (p : Problem X S V C G J) (k : Kind) (x : X) : Out V C G J :=
  match k with
  | .f => .objective ((p.sim x).map fun s => p.add (p.cost x s) (p.penalty x s))
  | .g => .constraints ((p.sim x).map fun s => p.constraints x s)
  | .gradF => .gradient ((p.sim x).bind fun s => (p.derivs x s).map Prod.fst)
  | .jacG => .jacobian ((p.sim x).bind fun s => (p.derivs x s).map Prod.snd)

/-- Ipopt's contract: the first call announces a new vector, and a call that does not announce one
uses the vector of the call before it. -/
def Contract : Option X → List (Call X G J) → Prop
  | _, [] => True
  | last, c :: cs => (c.isNew = false → last = some c.x) ∧ Contract (some c.x) cs

/-- Invariant: if a flag is set, the stored data belong to the vector of the last call. -/
def Inv (p : Problem X S V C G J) (last : Option X) (o : Opt S G J) : Prop :=
  (o.statesUpToDate = true → ∃ x, last = some x ∧ p.sim x = some o.states) ∧
  (o.derivativesUpToDate = true → o.statesUpToDate = true ∧
    ∃ x, last = some x ∧ p.derivs x o.states = some (o.gradient, o.jacobian))

theorem ensureStates_spec (p : Problem X S V C G J) (x : X) (o : Opt S G J)
    (h : Inv p (some x) o) :
    Inv p (some x) (ensureStates p o x).2 ∧
    ((ensureStates p o x).1 = true →
      p.sim x = some (ensureStates p o x).2.states ∧ (ensureStates p o x).2.statesUpToDate = true) ∧
    ((ensureStates p o x).1 = false → p.sim x = none) := by
  unfold ensureStates
  by_cases hu : o.statesUpToDate = true
  · rw [if_pos hu]
    refine ⟨h, fun _ => ⟨?_, hu⟩, by simp⟩
    obtain ⟨y, hy, hsim⟩ := h.1 hu
    obtain rfl : x = y := by simpa using hy
    exact hsim
  · rw [if_neg hu]
    cases hs : p.sim x with
    | none => exact ⟨h, by simp, fun _ => rfl⟩
    | some s =>
      refine ⟨⟨fun _ => ⟨x, rfl, hs⟩, fun hd => absurd (h.2 hd).1 hu⟩, fun _ => ⟨rfl, rfl⟩, by simp⟩

theorem ensureDerivatives_spec (p : Problem X S V C G J) (junk : G × J) (x : X) (o : Opt S G J)
    (h : Inv p (some x) o) :
    Inv p (some x) (ensureDerivatives p junk o x).2 ∧
    ((ensureDerivatives p junk o x).1 = true → ∃ s, p.sim x = some s ∧ p.derivs x s =
      some ((ensureDerivatives p junk o x).2.gradient, (ensureDerivatives p junk o x).2.jacobian)) ∧
    ((ensureDerivatives p junk o x).1 = false →
      (p.sim x).bind (fun s => p.derivs x s) = none) := by
  unfold ensureDerivatives
  by_cases hd : o.derivativesUpToDate = true
  · rw [if_pos hd]
    refine ⟨h, fun _ => ?_, by simp⟩
    obtain ⟨hu, y, hy, hder⟩ := h.2 hd
    obtain rfl : x = y := by simpa using hy
    obtain ⟨z, hz, hsim⟩ := h.1 hu
    obtain rfl : x = z := by simpa using hz
    exact ⟨_, hsim, hder⟩
  · rw [if_neg hd]
    obtain ⟨h1, h2, h3⟩ := ensureStates_spec p x o h
    rcases he : ensureStates p o x with ⟨b, o'⟩
    rw [he] at h1 h2 h3
    cases b with
    | false => exact ⟨h1, by simp, fun _ => by simp [h3 rfl]⟩
    | true =>
      obtain ⟨hsim, hup⟩ := h2 rfl
      simp only [computeDerivatives]
      have hd' : o'.derivativesUpToDate = false := by
        cases hb : o'.statesUpToDate with
        | false => rw [hup] at hb; exact absurd hb (by simp)
        | true =>
          have : o'.derivativesUpToDate = o.derivativesUpToDate := by
            unfold ensureStates at he
            split at he
            · simp only [Prod.mk.injEq, true_and] at he; rw [he]
            · cases hs : p.sim x with
              | none => rw [hs] at he; simp at he
              | some s =>
                rw [hs] at he
                simp only [Prod.mk.injEq, true_and] at he
                rw [← he]
          rw [this]; simpa using hd
      cases hder : p.derivs x o'.states with
      | none =>
        refine ⟨⟨h1.1, ?_⟩, by simp, fun _ => by simp [hsim, hder]⟩
        intro hh; simp only at hh; rw [hd'] at hh; exact absurd hh (by simp)
      | some gj =>
        obtain ⟨g, j⟩ := gj
        refine ⟨⟨h1.1, fun _ => ⟨hup, x, rfl, hder⟩⟩, fun _ => ⟨_, hsim, hder⟩, by simp⟩

theorem evaluateObjective_spec (p : Problem X S V C G J) (x : X) (o : Opt S G J)
    (h : Inv p (some x) o) :
    Inv p (some x) (evaluateObjective p o x).2 ∧
    (evaluateObjective p o x).1 = (p.sim x).map fun s => p.add (p.cost x s) (p.penalty x s) := by
  obtain ⟨h1, h2, h3⟩ := ensureStates_spec p x o h
  unfold evaluateObjective evaluateCost
  rcases he : ensureStates p o x with ⟨b, o'⟩
  rw [he] at h1 h2 h3
  cases b with
  | false => exact ⟨h1, by simp [h3 rfl]⟩
  | true =>
    obtain ⟨hsim, hup⟩ := h2 rfl
    have hup' : o'.statesUpToDate = true := hup
    simp only [evaluatePenalty, ensureStates, hup', if_true]
    exact ⟨h1, by simp [hsim]⟩

theorem callback_spec (p : Problem X S V C G J) (last : Option X) (o : Opt S G J) (c : Call X G J)
    (h : Inv p last o) (hc : c.isNew = false → last = some c.x) :
    (callback p o c).1 = meaning p c.kind c.x ∧ Inv p (some c.x) (callback p o c).2 := by
  have hinv : Inv p (some c.x) (if c.isNew then newX o else o) := by
    cases hn : c.isNew with
    | true => exact ⟨by simp [newX], by simp [newX]⟩
    | false => rw [hc hn] at h; simpa using h
  unfold callback meaning
  generalize (if c.isNew then newX o else o) = o1 at hinv
  simp only
  cases c.kind with
  | f =>
    obtain ⟨h1, h2⟩ := evaluateObjective_spec p c.x o1 hinv
    exact ⟨by simp [h2], h1⟩
  | g =>
    obtain ⟨h1, h2, h3⟩ := ensureStates_spec p c.x o1 hinv
    simp only [evaluateConstraints]
    rcases he : ensureStates p o1 c.x with ⟨b, o'⟩
    rw [he] at h1 h2 h3
    cases b with
    | false => exact ⟨by simp [h3 rfl], h1⟩
    | true => exact ⟨by simp [(h2 rfl).1], h1⟩
  | gradF =>
    obtain ⟨h1, h2, h3⟩ := ensureDerivatives_spec p c.junk c.x o1 hinv
    simp only [evaluateGradient]
    rcases he : ensureDerivatives p c.junk o1 c.x with ⟨b, o'⟩
    rw [he] at h1 h2 h3
    cases b with
    | false =>
      refine ⟨?_, h1⟩
      have := h3 rfl
      cases hs : p.sim c.x with
      | none => simp
      | some s => simp only [hs, Option.bind_some] at this; simp [this]
    | true =>
      obtain ⟨s, hs, hd⟩ := h2 rfl
      exact ⟨by simp [hs, hd], h1⟩
  | jacG =>
    obtain ⟨h1, h2, h3⟩ := ensureDerivatives_spec p c.junk c.x o1 hinv
    simp only [evaluateJacobian]
    rcases he : ensureDerivatives p c.junk o1 c.x with ⟨b, o'⟩
    rw [he] at h1 h2 h3
    cases b with
    | false =>
      refine ⟨?_, h1⟩
      have := h3 rfl
      cases hs : p.sim c.x with
      | none => simp
      | some s => simp only [hs, Option.bind_some] at this; simp [this]
    | true =>
      obtain ⟨s, hs, hd⟩ := h2 rfl
      exact ⟨by simp [hs, hd], h1⟩

/-- The vector of the last call. -/
def lastX : Option X → List (Call X G J) → Option X
  | last, [] => last
  | _, c :: cs => lastX (some c.x) cs

theorem inv_run (p : Problem X S V C G J) :
    ∀ (cs : List (Call X G J)) (last : Option X) (o : Opt S G J), Inv p last o → Contract last cs →
      Inv p (lastX last cs) (run p o cs) := by
  intro cs
  induction cs with
  | nil => intro last o h _; exact h
  | cons c cs ih =>
    intro last o h hc
    exact ih _ _ (callback_spec p last o c h hc.1).2 hc.2

theorem inv_fresh (p : Problem X S V C G J) (s : S) (g : G) (j : J) :
    Inv p none (fresh s g j) := ⟨by simp [fresh], by simp [fresh]⟩

theorem contract_append (cs : List (Call X G J)) (c : Call X G J) :
    ∀ last : Option X, Contract last (cs ++ [c]) ↔
      Contract last cs ∧ (c.isNew = false → lastX last cs = some c.x) := by
  induction cs with
  | nil => intro last; simp [Contract, lastX]
  | cons d cs ih => intro last; simp only [List.cons_append, Contract, lastX, ih, and_assoc]

/-- C13. After any history of callbacks obeying Ipopt's contract, the next callback returns exactly
what the evaluation means for its control vector; in particular what it was evaluated at before, in
which order, and which evaluations failed does not matter. -/
theorem C13_history_independent (p : Problem X S V C G J) (s0 : S) (g0 : G) (j0 : J)
    (history : List (Call X G J)) (c : Call X G J) (hc : Contract none (history ++ [c])) :
    (callback p (run p (fresh s0 g0 j0) history) c).1 = meaning p c.kind c.x := by
  rw [contract_append] at hc
  exact (callback_spec p _ _ c (inv_run p history none _ (inv_fresh p s0 g0 j0) hc.1) hc.2).1

/-- C13. … which is what a freshly constructed optimizer returns. -/
theorem C13_same_as_fresh (p : Problem X S V C G J) (s0 s1 : S) (g0 g1 : G) (j0 j1 : J)
    (history : List (Call X G J)) (c : Call X G J) (hc : Contract none (history ++ [c])) :
    (callback p (run p (fresh s0 g0 j0) history) c).1 =
      (callback p (fresh s1 g1 j1) { c with isNew := true }).1 := by
  rw [C13_history_independent p s0 g0 j0 history c hc]
  exact (C13_history_independent p s1 g1 j1 [] { c with isNew := true } (by simp [Contract])).symm

/-- An evaluation that returned `false`. -/
def Out.Failed : Out V C G J → Prop
  | .objective v => v = none
  | .gradient v => v = none
  | .constraints v => v = none
  | .jacobian v => v = none

/-- C14. If the simulation fails for a control vector, each evaluation at it returns `false` after
any history; and such a failed call, wherever it is put into the history, has no influence on
what a later call that announces its vector returns. -/
theorem C14_failure (p : Problem X S V C G J) (s0 : S) (g0 : G) (j0 : J)
    (history : List (Call X G J)) (c : Call X G J) (hc : Contract none (history ++ [c]))
    (hfail : p.sim c.x = none) :
    (callback p (run p (fresh s0 g0 j0) history) c).1.Failed ∧
    ∀ (d : Call X G J), d.isNew = true →
      (callback p (run p (fresh s0 g0 j0) (history ++ [c])) d).1 =
        (callback p (run p (fresh s0 g0 j0) history) d).1 := by
  constructor
  · rw [C13_history_independent p s0 g0 j0 history c hc]
    unfold meaning Out.Failed
    cases c.kind <;> simp [hfail]
  · intro d hd
    have h1 : Contract none ((history ++ [c]) ++ [d]) := by
      rw [contract_append]; exact ⟨hc, by simp [hd]⟩
    have h2 : Contract none (history ++ [d]) := by
      rw [contract_append] at hc ⊢; exact ⟨hc.1, by simp [hd]⟩
    rw [C13_history_independent p s0 g0 j0 _ d h1, C13_history_independent p s0 g0 j0 _ d h2]

/-- C14. An evaluation returns `false` only if the simulation or the derivative computation fails
at its own control vector. -/
theorem C14_only_own_failure (p : Problem X S V C G J) (s0 : S) (g0 : G) (j0 : J)
    (history : List (Call X G J)) (c : Call X G J) (hc : Contract none (history ++ [c]))
    (s : S) (hsim : p.sim c.x = some s) (hd : p.derivs c.x s ≠ none) :
    ¬ (callback p (run p (fresh s0 g0 j0) history) c).1.Failed := by
  rw [C13_history_independent p s0 g0 j0 history c hc]
  obtain ⟨gj, hgj⟩ := Option.ne_none_iff_exists'.mp hd
  unfold meaning Out.Failed
  cases c.kind <;> simp [hsim, hgj]

/-- A problem with a failing control vector (7) and a history through it. -/
def exampleProblem : Problem ℕ ℕ ℕ ℕ ℕ ℕ where
  sim x := if x = 7 then none else some (x + 1)
  cost x s := x * s
  penalty _ s := s
  add := (· + ·)
  zero := 0
  constraints x s := x + s
  derivs x s := some (2 * x, s)

def exampleHistory : List (Call ℕ ℕ ℕ) :=
  [⟨.f, 3, true, (0, 0)⟩, ⟨.gradF, 3, false, (0, 0)⟩, ⟨.f, 7, true, (0, 0)⟩,
    ⟨.jacG, 7, false, (0, 0)⟩]

example : Contract none (exampleHistory ++ [⟨.jacG, 5, true, (0, 0)⟩]) := by
  simp [exampleHistory, Contract]

example : (callback exampleProblem (run exampleProblem (fresh 0 0 0) exampleHistory)
    ⟨.jacG, 5, true, (0, 0)⟩).1 = .jacobian (some 6) := by decide

example : (callback exampleProblem (run exampleProblem (fresh 0 0 0) exampleHistory)
    ⟨.g, 7, false, (0, 0)⟩).1 = .constraints none := by decide

/-! ## C19: the reported final values -/

/-- C19 (full statement, false): whatever was evaluated before, the final cost and penalty are those
of the final control vector. -/
def C19Statement : Prop :=
  ∀ (p : Problem ℕ ℕ ℕ ℕ ℕ ℕ) (history : List (Call ℕ ℕ ℕ)) (x s : ℕ),
    Contract none history → p.sim x = some s →
    finalize p (run p (fresh 0 0 0) history) x = (p.cost x s, p.penalty x s)

/-- C19 is false: if Ipopt's last trial point (here 3) is not the returned one (here 5), the cost is
evaluated with the states of the trial point. -/
theorem C19_false : ¬ C19Statement := by
  intro h
  have := h exampleProblem [⟨.f, 5, true, (0, 0)⟩, ⟨.f, 3, true, (0, 0)⟩] 5 6
    (by simp [Contract]) rfl
  revert this
  decide

/-- C19, the part that holds: if the last evaluation was at the final control vector, or if the last
evaluated vector's simulation failed, the reported values are those of the final vector. Missing:
the case that the last evaluation was at another vector with a successful simulation, for which
`C19_false` gives a counterexample. -/
theorem C19_final_values_partial (p : Problem X S V C G J) (s0 : S) (g0 : G) (j0 : J)
    (history : List (Call X G J)) (x : X) (s : S) (hc : Contract none history)
    (hlast : ∀ y, lastX none history = some y → y = x ∨ p.sim y = none)
    (hsim : p.sim x = some s) :
    finalize p (run p (fresh s0 g0 j0) history) x = (p.cost x s, p.penalty x s) := by
  have hi := inv_run p history none _ (inv_fresh p s0 g0 j0) hc
  generalize run p (fresh s0 g0 j0) history = o at hi
  have hinv : Inv p (some x) o := by
    constructor
    · intro hu
      obtain ⟨y, hy, hs⟩ := hi.1 hu
      rcases hlast y hy with rfl | hn
      · exact ⟨y, rfl, hs⟩
      · rw [hn] at hs; exact absurd hs (by simp)
    · intro hd
      obtain ⟨hu, y, hy, hder⟩ := hi.2 hd
      refine ⟨hu, ?_⟩
      rcases hlast y hy with rfl | hn
      · exact ⟨y, rfl, hder⟩
      · obtain ⟨z, hz, hs⟩ := hi.1 hu
        rw [hy] at hz
        obtain rfl : y = z := by simpa using hz
        rw [hn] at hs; exact absurd hs (by simp)
  obtain ⟨h1, h2, h3⟩ := ensureStates_spec p x o hinv
  unfold finalize evaluateCost
  rcases he : ensureStates p o x with ⟨b, o'⟩
  rw [he] at h1 h2 h3
  cases b with
  | false => have := h3 rfl; rw [hsim] at this; exact absurd this (by simp)
  | true =>
    obtain ⟨hs, hup⟩ := h2 rfl
    rw [hsim] at hs
    obtain rfl : s = o'.states := by simpa using hs
    have hup' : o'.statesUpToDate = true := hup
    simp [evaluatePenalty, ensureStates, hup']

example : finalize exampleProblem (run exampleProblem (fresh 0 0 0)
    [⟨.f, 3, true, (0, 0)⟩, ⟨.f, 5, true, (0, 0)⟩]) 5 = (30, 6) := by decide

end Verif.OptState
