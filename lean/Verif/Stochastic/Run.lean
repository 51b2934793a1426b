import Verif.Stochastic.Props
import Verif.Evolve.Props
import Verif.Basic.Loop

/-!
# Properties C97 and C98: the random demand in simulations, repeated simulations and repeated attempts

`StochasticPQnode::prepare_timestep`, `Networkproblem::prepare_timestep` and how `Timeevolver` calls them. Each node
owns a generator, whose state is kept as long as the node lives.
-/

set_option autoImplicit false

namespace Verif.Stochastic

open Verif.Evolve

variable {State X C : Type}

/-- What `prepare_timestep` uses of a node: the parameters read from the input (`StochasticPQnode.hpp` 99-107), the
first two entries of its boundary values at a time and the powers at the node for a state of the network. -/
structure Demand (X : Type) where
  stability : ℝ
  factor : ℝ
  sigmaP : ℝ
  thetaP : ℝ
  sigmaQ : ℝ
  thetaQ : ℝ
  steps : ℤ
  boundary : ℝ → Res (ℝ × ℝ)
  P : X → ℝ
  Q : X → ℝ

/-- `Normaldistribution::get_sample` with one argument — `Normaldistribution.cpp` 55-63. -/
def sampleNormal (normal : Generator State) (deviation : ℝ) (s : State) : Res (ℝ × State) :=
  Res.ok (normal s 0 deviation)

/-- `StochasticPQnode::prepare_timestep` — `StochasticPQnode.cpp` 89-107: the demand `(current_P, current_Q)` and the
state of the generator afterwards. The boundary values are evaluated once instead of twice, which is the same. -/
noncomputable def prepareTimestep (normal : Generator State) (n : Demand X) (lastTime newTime : ℝ) (last : X)
    (s : State) : Res ((ℝ × ℝ) × State) := do
  let b ← n.boundary newTime
  let p ← oup (sampleNormal normal) n.stability n.factor (n.P last) n.thetaP b.1 (newTime - lastTime) n.sigmaP n.steps s
  let q ← oup (sampleNormal normal) n.stability n.factor (n.Q last) n.thetaQ b.2 (newTime - lastTime) n.sigmaQ n.steps p.2
  Res.ok ((p.1, q.1), q.2)

/-- `Networkproblem::prepare_timestep` — `Networkproblem.cpp` 250-261. All other components have no effect here and are
left out. There is a generator per node: lists of different length do not occur. -/
noncomputable def prepareAll (normal : Generator State) (lastTime newTime : ℝ) (last : X) :
    List (Demand X) → List State → Res (List ((ℝ × ℝ) × State))
  | [], _ => Res.ok []
  | _ :: _, [] => Res.ub
  | n :: ns, s :: ss => do
    let r ← prepareTimestep normal n lastTime newTime last s
    let rs ← prepareAll normal lastTime newTime last ns ss
    Res.ok (r :: rs)

/-- The states of the generators after the given attempts: each one calls `prepare_timestep` —
`Timeevolver.cpp` 144-150. -/
noncomputable def replay (normal : Generator State) (nodes : List (Demand X)) (hist : List (Attempt ℝ X C))
    (ss : List State) : Res (List State) :=
  Res.fold hist ss fun ss a => do
    let r ← prepareAll normal a.lastTime a.newTime a.lastState nodes ss
    Res.ok (r.map Prod.snd)

/-- One attempt — `Timeevolver.cpp` 145-149: the demands are chosen, then the equations with these demands are solved.
The Newton solver `solve` is an arbitrary function of the demands and its other arguments. -/
noncomputable def stochasticSolver (normal : Generator State) (nodes : List (Demand X))
    (solve : List (ℝ × ℝ) → Attempt ℝ X C → Res (Bool × X)) (ss : List State) : Solver ℝ X C := fun hist a => do
  let ss' ← replay normal nodes hist ss
  let r ← prepareAll normal a.lastTime a.newTime a.lastState nodes ss'
  solve (r.map Prod.fst) a

/-- A network with stochastic nodes, its solver and what is simulated. -/
structure Setting (State X C : Type) where
  normal : Generator State
  nodes : List (Demand X)
  solve : List (ℝ × ℝ) → Attempt ℝ X C → Res (Bool × X)
  controls : ℝ → Res C
  times : List ℝ
  initial : X

/-- `Timeevolver::simulate` — `Timeevolver.cpp` 66-182 — for a network whose generators are in the given states: the
stored states and the states of the generators afterwards. (If the simulation throws, nobody looks at the latter.) -/
noncomputable def simulateFrom (w : Setting State X C) (retries : ℤ) (simplified : Bool) (ss : List State) :
    Res (List X) × Res (List State) :=
  let r := simulate retries simplified (stochasticSolver w.normal w.nodes w.solve ss) w.controls w.times w.initial
  (r.1, replay w.normal w.nodes r.2 ss)

/-- Two simulations with the same controls, one after the other, with the same network, as an optimization makes them —
`ControlStateCache::refresh_cache` — `ControlStateCache.cpp` 33-51 (`Verif.OptState`). -/
noncomputable def twice (w : Setting State X C) (retries : ℤ) (simplified : Bool) (ss : List State) :
    Res (List X × List X) := do
  let first ← (simulateFrom w retries simplified ss).1
  let ss' ← (simulateFrom w retries simplified ss).2
  let second ← (simulateFrom w retries simplified ss').1
  Res.ok (first, second)

/-! ## Specification -/

/-- The nodes have no noise. -/
def NoNoise (nodes : List (Demand X)) : Prop := ∀ n ∈ nodes, n.sigmaP = 0 ∧ n.sigmaQ = 0

/-- The equations for given demands, last time, new time, last state and controls have at most one solution, and the
solver reports success only for it. -/
def UniqueSolution (solve : List (ℝ × ℝ) → Attempt ℝ X C → Res (Bool × X)) : Prop :=
  ∃ solution : List (ℝ × ℝ) → ℝ → ℝ → X → C → X, ∀ d a x, solve d a = Res.ok (true, x) →
    x = solution d a.lastTime a.newTime a.lastState a.control

/-- The first attempt always succeeds, and finds the same solution with both kinds of Newton's method. -/
def NeverFails (solve : List (ℝ × ℝ) → Attempt ℝ X C → Res (Bool × X)) : Prop :=
  ∃ solution : List (ℝ × ℝ) → ℝ → ℝ → X → C → X, ∀ d a,
    solve d a = Res.ok (true, solution d a.lastTime a.newTime a.lastState a.control)

/-! ## Without noise the generators do not matter -/

theorem oupLoop_noiseless (normal : Generator State) (factor theta mu h : ℝ) (rounds : ℕ) :
    ∀ value, ∃ v, ∀ s, ∃ s', oupLoop (sampleNormal normal) factor theta mu h 0 rounds value s = Res.ok (v, s') := by
  induction rounds with
  | zero => exact fun value => ⟨value, fun s => ⟨s, rfl⟩⟩
  | succ k ih =>
    intro value
    obtain ⟨v, hv⟩ := ih (cutOff factor mu (value + theta * (mu - value) * h))
    refine ⟨v, fun s => ?_⟩
    obtain ⟨s', hs⟩ := hv (normal s 0 (Real.sqrt h)).2
    refine ⟨s', ?_⟩
    simp only [oupLoop, sampleNormal, Res.ok_bind, drift, zero_mul, add_zero]
    exact hs

/-- The outcome is the same for both states, apart from the state of the generator. -/
def SameValue {α : Type} (r r' : Res (α × State)) : Prop :=
  (∃ v s s', r = Res.ok (v, s) ∧ r' = Res.ok (v, s')) ∨ (r = Res.throws ∧ r' = Res.throws) ∨ (r = Res.ub ∧ r' = Res.ub)

theorem oup_noiseless (normal : Generator State) (a factor last theta mu dt : ℝ) (n : ℤ) (s s' : State) :
    SameValue (oup (sampleNormal normal) a factor last theta mu dt 0 n s)
      (oup (sampleNormal normal) a factor last theta mu dt 0 n s') := by
  unfold oup
  cases stableNumber a theta dt n with
  | throws => exact .inr (.inl ⟨rfl, rfl⟩)
  | ub => exact .inr (.inr ⟨rfl, rfl⟩)
  | ok m =>
    obtain ⟨v, hv⟩ := oupLoop_noiseless normal factor theta mu (dt / m) m.toNat last
    obtain ⟨t, ht⟩ := hv s
    obtain ⟨t', ht'⟩ := hv s'
    exact .inl ⟨v, t, t', ht, ht'⟩

theorem prepareTimestep_noiseless (normal : Generator State) {n : Demand X} (hn : n.sigmaP = 0 ∧ n.sigmaQ = 0)
    (lastTime newTime : ℝ) (last : X) (s s' : State) :
    SameValue (prepareTimestep normal n lastTime newTime last s) (prepareTimestep normal n lastTime newTime last s') := by
  unfold prepareTimestep
  rw [hn.1, hn.2]
  cases n.boundary newTime with
  | throws => exact .inr (.inl ⟨rfl, rfl⟩)
  | ub => exact .inr (.inr ⟨rfl, rfl⟩)
  | ok b =>
    simp only [Res.ok_bind]
    rcases oup_noiseless normal n.stability n.factor (n.P last) n.thetaP b.1 (newTime - lastTime) n.steps s s' with
      ⟨v, t, t', h, h'⟩ | ⟨h, h'⟩ | ⟨h, h'⟩
    · rw [h, h']
      simp only [Res.ok_bind]
      rcases oup_noiseless normal n.stability n.factor (n.Q last) n.thetaQ b.2 (newTime - lastTime) n.steps t t' with
        ⟨w, u, u', k, k'⟩ | ⟨k, k'⟩ | ⟨k, k'⟩
      · rw [k, k']
        exact .inl ⟨_, _, _, rfl, rfl⟩
      · rw [k, k']
        exact .inr (.inl ⟨rfl, rfl⟩)
      · rw [k, k']
        exact .inr (.inr ⟨rfl, rfl⟩)
    · rw [h, h']
      exact .inr (.inl ⟨rfl, rfl⟩)
    · rw [h, h']
      exact .inr (.inr ⟨rfl, rfl⟩)

/-- The demands are the same. -/
def SameDemands (r r' : Res (List ((ℝ × ℝ) × State))) : Prop :=
  (∃ x y, r = Res.ok x ∧ r' = Res.ok y ∧ x.map Prod.fst = y.map Prod.fst) ∨ (r = Res.throws ∧ r' = Res.throws) ∨
    (r = Res.ub ∧ r' = Res.ub)

theorem prepareAll_length {normal : Generator State} {lastTime newTime : ℝ} {last : X} {nodes : List (Demand X)} :
    ∀ {ss : List State} {r : List ((ℝ × ℝ) × State)}, prepareAll normal lastTime newTime last nodes ss = Res.ok r →
      r.length = nodes.length := by
  induction nodes with
  | nil =>
    intro ss r h
    simp only [prepareAll, Res.ok.injEq] at h
    subst h
    rfl
  | cons n ns ih =>
    intro ss r h
    cases ss with
    | nil => simp [prepareAll] at h
    | cons s ss =>
      simp only [prepareAll] at h
      obtain ⟨x, -, h⟩ := Res.bind_eq_ok.mp h
      obtain ⟨xs, hxs, h⟩ := Res.bind_eq_ok.mp h
      injection h with h
      subst h
      simp [ih hxs]

theorem prepareAll_noiseless (normal : Generator State) (lastTime newTime : ℝ) (last : X) (nodes : List (Demand X)) :
    ∀ (ss ss' : List State), NoNoise nodes → ss.length = ss'.length →
      SameDemands (prepareAll normal lastTime newTime last nodes ss) (prepareAll normal lastTime newTime last nodes ss') := by
  induction nodes with
  | nil => exact fun ss ss' _ _ => .inl ⟨[], [], rfl, rfl, rfl⟩
  | cons n ns ih =>
    intro ss ss' hn hl
    match ss, ss', hl with
    | [], [], _ => exact .inr (.inr ⟨rfl, rfl⟩)
    | s :: ss, s' :: ss', hl =>
      simp only [prepareAll]
      rcases prepareTimestep_noiseless normal (hn n (by simp)) lastTime newTime last s s' with
        ⟨v, t, t', h, h'⟩ | ⟨h, h'⟩ | ⟨h, h'⟩
      · rw [h, h']
        simp only [Res.ok_bind]
        rcases ih ss ss' (fun m hm => hn m (by simp [hm])) (by simpa using hl) with ⟨x, y, k, k', e⟩ | ⟨k, k'⟩ | ⟨k, k'⟩
        · rw [k, k']
          exact .inl ⟨_, _, rfl, rfl, by simp [e]⟩
        · rw [k, k']
          exact .inr (.inl ⟨rfl, rfl⟩)
        · rw [k, k']
          exact .inr (.inr ⟨rfl, rfl⟩)
      · rw [h, h']
        exact .inr (.inl ⟨rfl, rfl⟩)
      · rw [h, h']
        exact .inr (.inr ⟨rfl, rfl⟩)

/-- The states of the generators are possibly different, but as many. -/
def SameCount (r r' : Res (List State)) : Prop :=
  (∃ x y, r = Res.ok x ∧ r' = Res.ok y ∧ x.length = y.length) ∨ (r = Res.throws ∧ r' = Res.throws) ∨
    (r = Res.ub ∧ r' = Res.ub)

theorem replay_cons (normal : Generator State) (nodes : List (Demand X)) (a : Attempt ℝ X C) (hist : List (Attempt ℝ X C))
    (ss : List State) : replay normal nodes (a :: hist) ss =
      (prepareAll normal a.lastTime a.newTime a.lastState nodes ss).bind fun r =>
        replay normal nodes hist (r.map Prod.snd) := by
  unfold replay
  show ((prepareAll normal a.lastTime a.newTime a.lastState nodes ss).bind _).bind _ = _
  cases prepareAll normal a.lastTime a.newTime a.lastState nodes ss <;> rfl

theorem replay_noiseless (normal : Generator State) (nodes : List (Demand X)) (hn : NoNoise nodes)
    (hist : List (Attempt ℝ X C)) : ∀ (ss ss' : List State), ss.length = ss'.length →
      SameCount (replay normal nodes hist ss) (replay normal nodes hist ss') := by
  induction hist with
  | nil => exact fun ss ss' hl => .inl ⟨ss, ss', rfl, rfl, hl⟩
  | cons a hist ih =>
    intro ss ss' hl
    rw [replay_cons, replay_cons]
    rcases prepareAll_noiseless normal a.lastTime a.newTime a.lastState nodes ss ss' hn hl with
      ⟨x, y, k, k', e⟩ | ⟨k, k'⟩ | ⟨k, k'⟩
    · rw [k, k']
      exact ih _ _ (by simp [prepareAll_length k, prepareAll_length k'])
    · rw [k, k']
      exact .inr (.inl ⟨rfl, rfl⟩)
    · rw [k, k']
      exact .inr (.inr ⟨rfl, rfl⟩)

theorem solver_noiseless (normal : Generator State) (nodes : List (Demand X)) (hn : NoNoise nodes)
    (solve : List (ℝ × ℝ) → Attempt ℝ X C → Res (Bool × X)) (ss ss' : List State) (hl : ss.length = ss'.length) :
    stochasticSolver normal nodes solve ss = stochasticSolver normal nodes solve ss' := by
  funext hist a
  unfold stochasticSolver
  rcases replay_noiseless normal nodes hn hist ss ss' hl with ⟨x, y, k, k', e⟩ | ⟨k, k'⟩ | ⟨k, k'⟩
  · rw [k, k']
    simp only [Res.ok_bind]
    rcases prepareAll_noiseless normal a.lastTime a.newTime a.lastState nodes x y hn e with
      ⟨u, v, j, j', e⟩ | ⟨j, j'⟩ | ⟨j, j'⟩
    · rw [j, j']
      simp only [Res.ok_bind, e]
    · rw [j, j']
    · rw [j, j']
  · rw [k, k']
  · rw [k, k']

theorem replay_length (normal : Generator State) (nodes : List (Demand X)) (hist : List (Attempt ℝ X C)) :
    ∀ (ss ss' : List State), ss.length = nodes.length → replay normal nodes hist ss = Res.ok ss' →
      ss'.length = nodes.length := by
  induction hist with
  | nil =>
    intro ss ss' hl h
    injection h with h
    subst h
    exact hl
  | cons a hist ih =>
    intro ss ss' _ h
    rw [replay_cons] at h
    cases k : prepareAll normal a.lastTime a.newTime a.lastState nodes ss with
    | throws => rw [k] at h; cases h
    | ub => rw [k] at h; cases h
    | ok r =>
      rw [k] at h
      exact ih _ _ (by simp [prepareAll_length k]) h

/-! ## C97 -/

/-- **C97 (partial)**: without noise the states of the generators do not matter for a simulation. -/
theorem C97_seed_partial (w : Setting State X C) (hn : NoNoise w.nodes) (retries : ℤ) (simplified : Bool)
    (ss ss' : List State) (hl : ss.length = ss'.length) :
    (simulateFrom w retries simplified ss).1 = (simulateFrom w retries simplified ss').1 := by
  unfold simulateFrom
  rw [solver_noiseless w.normal w.nodes hn w.solve ss ss' hl]

/-- **C97 (partial)**: without noise, in particular if the network has no stochastic nodes, a second simulation with the
same controls gives the same states as the first one. -/
theorem C97_repeat_partial (w : Setting State X C) (hn : NoNoise w.nodes) (retries : ℤ) (simplified : Bool)
    (ss : List State) (hl : ss.length = w.nodes.length) (first second : List X)
    (h : twice w retries simplified ss = Res.ok (first, second)) : second = first := by
  unfold twice at h
  obtain ⟨x, hx, h⟩ := Res.bind_eq_ok.mp h
  obtain ⟨ss', hs, h⟩ := Res.bind_eq_ok.mp h
  obtain ⟨y, hy, h⟩ := Res.bind_eq_ok.mp h
  injection h with h
  injection h with h1 h2
  subst h1 h2
  have hl' : ss'.length = w.nodes.length := replay_length w.normal w.nodes _ ss ss' hl hs
  rw [C97_seed_partial w hn retries simplified ss ss' (by rw [hl, hl'])] at hx
  rw [hx] at hy
  injection hy with hy
  exact hy.symm

/-- A network with one node: the demand performs a random walk, and the state of the network is the demand. The simplified
method of Newton never converges. -/
noncomputable def walk (sigma : ℝ) : Setting ℕ ℝ Unit where
  normal := counting
  nodes := [{ stability := 1, factor := 100, sigmaP := sigma, thetaP := 0, sigmaQ := sigma, thetaQ := 0, steps := 1,
              boundary := fun _ => Res.ok (1, 1), P := fun x => x, Q := fun _ => 0 }]
  solve := fun d a => Res.ok (a.full, (d.map Prod.fst).headD 0)
  controls := fun _ => Res.ok ()
  times := [0, 1]
  initial := 5

theorem walk_oup (sigma last : ℝ) (s : ℕ) (h : -99 ≤ last + sigma * s) (h' : last + sigma * s ≤ 101) :
    oup (sampleNormal counting) 1 100 last 0 1 (1 - 0) sigma 1 s = Res.ok (last + sigma * s, s + 1) := by
  have hs : stableNumber 1 0 (1 - 0) 1 = Res.ok 1 := C58_kept (by norm_num) (by norm_num) le_rfl (by norm_num) (by norm_num)
  have hg : sgn 1 = 1 := by simp [sgn]
  unfold oup
  rw [hs]
  simp only [Res.ok_bind, Int.toNat_one, oupLoop, sampleNormal, counting, drift, cutOff, hg]
  rw [if_neg (by norm_num; linarith), if_neg (by norm_num; linarith)]
  norm_num

theorem walk_prepare (sigma last : ℝ) (s : ℕ) (h : -99 ≤ last + sigma * s) (h' : last + sigma * s ≤ 101)
    (k : -99 ≤ sigma * (s + 1)) (k' : sigma * (s + 1) ≤ 101) :
    prepareAll counting 0 1 last (walk sigma).nodes [s] = Res.ok [((last + sigma * s, sigma * (s + 1)), s + 2)] := by
  have h2 := walk_oup sigma 0 (s + 1) (by push_cast; linarith) (by push_cast; linarith)
  simp only [walk, prepareAll, prepareTimestep, Res.ok_bind]
  rw [walk_oup sigma last s h h']
  simp only [Res.ok_bind]
  rw [h2]
  simp [Nat.add_assoc]

/-- The states of a simulation with the full Newton method: the demand of the first attempt. -/
theorem walk_full (sigma : ℝ) (s : ℕ) (h : -99 ≤ 5 + sigma * s) (h' : 5 + sigma * s ≤ 101)
    (k : -99 ≤ sigma * (s + 1)) (k' : sigma * (s + 1) ≤ 101) :
    simulateFrom (walk sigma) 0 false [s] = (Res.ok [5, 5 + sigma * s], Res.ok [s + 2]) := by
  have hp := walk_prepare sigma 5 s h h' k k'
  have hc : (walk sigma).normal = counting := rfl
  have e : simulate 0 false (stochasticSolver (walk sigma).normal (walk sigma).nodes (walk sigma).solve [s])
      (walk sigma).controls (walk sigma).times (walk sigma).initial =
        (Res.ok [5, 5 + sigma * s], [⟨true, 0, 1, 5, 5, ()⟩]) := by
    have e1 : stochasticSolver (walk sigma).normal (walk sigma).nodes (walk sigma).solve [s] [] ⟨true, 0, 1, 5, 5, ()⟩ =
        Res.ok (true, 5 + sigma * s) := by
      show (prepareAll counting 0 1 5 (walk sigma).nodes [s]).bind _ = _
      rw [hp]
      rfl
    show simulate 0 false _ (fun _ => Res.ok ()) [0, 1] 5 = _
    simp only [simulate, loop, makeOneStep]
    unfold attempts
    simp only [Bool.not_false, e1, List.nil_append]
  unfold simulateFrom
  rw [e]
  simp only [replay_cons, hc, hp]
  rfl

/-- **C97 is false**: with noise a second simulation with the same controls gives other states than the first one, since
the nodes draw new random numbers. -/
theorem C97_false : ∃ (w : Setting ℕ ℝ Unit) (first second : List ℝ), twice w 0 false [0] = Res.ok (first, second) ∧
    second ≠ first := by
  refine ⟨walk 1, [5, 5], [5, 7], ?_, by norm_num⟩
  unfold twice
  rw [walk_full 1 0 (by norm_num) (by norm_num) (by norm_num) (by norm_num)]
  simp only [Res.ok_bind, Nat.zero_add]
  rw [walk_full 1 2 (by norm_num) (by norm_num) (by norm_num) (by norm_num)]
  simp only [Res.ok_bind]
  norm_num

example : twice (walk 0) 0 false [0] = Res.ok ([5, 5], [5, 5]) := by
  unfold twice
  rw [walk_full 0 0 (by norm_num) (by norm_num) (by norm_num) (by norm_num)]
  simp only [Res.ok_bind, Nat.zero_add]
  rw [walk_full 0 2 (by norm_num) (by norm_num) (by norm_num) (by norm_num)]
  simp only [Res.ok_bind]
  norm_num

example : NoNoise (walk 0).nodes := by
  intro n hn
  simp only [walk, List.mem_singleton] at hn
  subst hn
  exact ⟨rfl, rfl⟩

/-! ## C98 -/

theorem same_path {R R' : ℤ} {sm sm' : Bool} {solver solver' : Solver ℝ X C} {controls : ℝ → Res C} {times : List ℝ}
    {initial : X} {states states' : List X} {trace trace' : List (Attempt ℝ X C)}
    (h : simulate R sm solver controls times initial = (Res.ok states, trace))
    (h' : simulate R' sm' solver' controls times initial = (Res.ok states', trace'))
    (hs : ∀ hist hist' a a' x x', solver hist a = Res.ok (true, x) → solver' hist' a' = Res.ok (true, x') →
      a.lastTime = a'.lastTime → a.newTime = a'.newTime → a.lastState = a'.lastState → a.control = a'.control →
      x = x') : states = states' := by
  obtain ⟨l, hd, hall⟩ := C24_solved _ _ _ _ _ _ _ _ h
  obtain ⟨l', hd', hall'⟩ := C24_solved _ _ _ _ _ _ _ _ h'
  apply List.ext_getElem (by rw [l, l'])
  intro i
  induction i with
  | zero =>
    intro h1 h2
    rw [List.head?_eq_getElem?, List.getElem?_eq_getElem h1] at hd
    rw [List.head?_eq_getElem?, List.getElem?_eq_getElem h2] at hd'
    exact Option.some.inj (hd.trans hd'.symm)
  | succ i ih =>
    intro h1 h2
    obtain ⟨e, a, c, -, s1, s2, s3, s4, -, s5, s6⟩ := hall i (by omega) h1
    obtain ⟨e', a', c', -, t1, t2, t3, t4, -, t5, t6⟩ := hall' i (by omega) h2
    refine hs _ _ _ _ _ _ s1 t1 (s2.trans t2.symm) (s3.trans t3.symm) ?_ ?_
    · rw [s4, t4]
      exact ih (by omega) (by omega)
    · rw [s5] at t5
      injection t5 with t5
      rw [s6, t6, t5]

/-- **C98 (partial)**: without noise the settings of the solver (how many attempts, whether with the simplified Newton
method) do not matter for the states, if the equations have unique solutions. -/
theorem C98_without_noise_partial (w : Setting State X C) (hn : NoNoise w.nodes) (hu : UniqueSolution w.solve)
    (retries retries' : ℤ) (simplified simplified' : Bool) (ss : List State) (hl : ss.length = w.nodes.length)
    (states states' : List X) (h : (simulateFrom w retries simplified ss).1 = Res.ok states)
    (h' : (simulateFrom w retries' simplified' ss).1 = Res.ok states') : states = states' := by
  obtain ⟨solution, hu⟩ := hu
  refine same_path (Prod.ext_iff.mpr ⟨h, rfl⟩) (Prod.ext_iff.mpr ⟨h', rfl⟩) ?_
  intro hist hist' a a' x x' hx hx' e1 e2 e3 e4
  unfold stochasticSolver at hx hx'
  obtain ⟨s, hs, hx⟩ := Res.bind_eq_ok.mp hx
  obtain ⟨r, hr, hx⟩ := Res.bind_eq_ok.mp hx
  obtain ⟨s', hs', hx'⟩ := Res.bind_eq_ok.mp hx'
  obtain ⟨r', hr', hx'⟩ := Res.bind_eq_ok.mp hx'
  rw [hu _ _ _ hx, hu _ _ _ hx', e1, e2, e3, e4]
  have l1 := replay_length w.normal w.nodes _ _ _ hl hs
  have l2 := replay_length w.normal w.nodes _ _ _ hl hs'
  rw [e1, e2, e3] at hr
  rcases prepareAll_noiseless w.normal a'.lastTime a'.newTime a'.lastState w.nodes s s' hn (by rw [l1, l2]) with
    ⟨u, v, j, j', e⟩ | ⟨j, j'⟩ | ⟨j, j'⟩
  · rw [hr] at j
    rw [hr'] at j'
    injection j with j
    injection j' with j'
    rw [j, j', e]
  · rw [hr] at j
    cases j
  · rw [hr] at j
    cases j

/-- If no attempt fails, each step makes one attempt. -/
theorem loop_never_fails {solver : Solver ℝ X C} {controls : ℝ → Res C}
    (hs : ∀ hist a, ∀ x, solver hist a ≠ Res.ok (false, x)) (R : ℤ) (sm : Bool) (ts : List ℝ) :
    ∀ lastTime lastState newState (hist : List (Attempt ℝ X C)),
      loop R sm solver controls ts lastTime lastState newState hist =
      match ts with
      | [] => (Res.ok [], hist)
      | t :: ts =>
        match controls t with
        | Res.throws => (Res.throws, hist)
        | Res.ub => (Res.ub, hist)
        | Res.ok c =>
          match solver hist ⟨!sm, lastTime, t, lastState, newState, c⟩ with
          | Res.throws => (Res.throws, hist ++ [⟨!sm, lastTime, t, lastState, newState, c⟩])
          | Res.ub => (Res.ub, hist ++ [⟨!sm, lastTime, t, lastState, newState, c⟩])
          | Res.ok (_, x) =>
            match loop R sm solver controls ts t x x (hist ++ [⟨!sm, lastTime, t, lastState, newState, c⟩]) with
            | (Res.ok xs, hist) => (Res.ok (x :: xs), hist)
            | o => o := by
  intro lastTime lastState newState hist
  cases ts with
  | nil => rfl
  | cons t ts =>
    simp only [loop]
    cases controls t with
    | throws => rfl
    | ub => rfl
    | ok c =>
      simp only [makeOneStep]
      unfold attempts
      have := hs hist ⟨!sm, lastTime, t, lastState, newState, c⟩
      rcases hx : solver hist ⟨!sm, lastTime, t, lastState, newState, c⟩ with ⟨b, x⟩ | _ | _
      · cases b with
        | true =>
          simp only []
          generalize loop R sm solver controls ts t x x _ = l
          obtain ⟨o, h⟩ := l
          cases o <;> rfl
        | false => exact absurd hx (this x)
      · rfl
      · rfl

/-- Attempts that differ only in the kind of Newton's method. -/
def SameAttempts (hist hist' : List (Attempt ℝ X C)) : Prop :=
  List.Forall₂ (fun a a' => a.lastTime = a'.lastTime ∧ a.newTime = a'.newTime ∧ a.lastState = a'.lastState) hist hist'

theorem replay_same (normal : Generator State) (nodes : List (Demand X)) {hist hist' : List (Attempt ℝ X C)}
    (h : SameAttempts hist hist') : ∀ ss, replay normal nodes hist ss = replay normal nodes hist' ss := by
  induction h with
  | nil => exact fun _ => rfl
  | cons e _ ih =>
    intro ss
    rw [replay_cons, replay_cons, e.1, e.2.1, e.2.2]
    cases prepareAll normal _ _ _ nodes ss with
    | throws => rfl
    | ub => rfl
    | ok r => exact ih _

theorem loop_same (w : Setting State X C) (ss : List State) (hf : NeverFails w.solve) (R R' : ℤ) (sm sm' : Bool) (ts : List ℝ) :
    ∀ lastTime lastState newState (hist hist' : List (Attempt ℝ X C)), SameAttempts hist hist' →
      (loop R sm (stochasticSolver w.normal w.nodes w.solve ss) w.controls ts lastTime lastState newState hist).1 =
      (loop R' sm' (stochasticSolver w.normal w.nodes w.solve ss) w.controls ts lastTime lastState newState hist').1 ∧
      SameAttempts (loop R sm (stochasticSolver w.normal w.nodes w.solve ss) w.controls ts lastTime lastState newState hist).2
        (loop R' sm' (stochasticSolver w.normal w.nodes w.solve ss) w.controls ts lastTime lastState newState hist').2 := by
  obtain ⟨solution, hf⟩ := hf
  have hs : ∀ hist a x, stochasticSolver w.normal w.nodes w.solve ss hist a ≠ Res.ok (false, x) := by
    intro hist a x h
    unfold stochasticSolver at h
    obtain ⟨_, _, h⟩ := Res.bind_eq_ok.mp h
    obtain ⟨_, _, h⟩ := Res.bind_eq_ok.mp h
    rw [hf] at h
    injection h with h
    injection h with h
    cases h
  induction ts with
  | nil => exact fun _ _ _ hist hist' h => ⟨rfl, h⟩
  | cons t ts ih =>
    intro lastTime lastState newState hist hist' hh
    rw [loop_never_fails hs, loop_never_fails hs R']
    simp only []
    generalize w.controls t = oc
    cases oc with
    | throws => exact ⟨rfl, hh⟩
    | ub => exact ⟨rfl, hh⟩
    | ok c =>
      have he : stochasticSolver w.normal w.nodes w.solve ss hist ⟨!sm, lastTime, t, lastState, newState, c⟩ =
          stochasticSolver w.normal w.nodes w.solve ss hist' ⟨!sm', lastTime, t, lastState, newState, c⟩ := by
        unfold stochasticSolver
        simp only [hf, replay_same w.normal w.nodes hh ss]
      have hh' : SameAttempts (hist ++ [⟨!sm, lastTime, t, lastState, newState, c⟩])
          (hist' ++ [⟨!sm', lastTime, t, lastState, newState, c⟩]) :=
        List.rel_append (R := fun a a' : Attempt ℝ X C =>
          a.lastTime = a'.lastTime ∧ a.newTime = a'.newTime ∧ a.lastState = a'.lastState) hh (.cons ⟨rfl, rfl, rfl⟩ .nil)
      simp only [he]
      rcases stochasticSolver w.normal w.nodes w.solve ss hist' ⟨!sm', lastTime, t, lastState, newState, c⟩ with
        ⟨b, x⟩ | _ | _
      · have := ih t x x _ _ hh'
        simp only []
        generalize loop R sm _ _ ts t x x _ = l at this ⊢
        generalize loop R' sm' _ _ ts t x x _ = l' at this ⊢
        obtain ⟨o, h2⟩ := l
        obtain ⟨o', h4⟩ := l'
        obtain ⟨e1, e2⟩ := this
        simp only [] at e1 e2
        subst e1
        cases o with
        | ok xs => exact ⟨rfl, e2⟩
        | throws => exact ⟨rfl, e2⟩
        | ub => exact ⟨rfl, e2⟩
      · exact ⟨rfl, hh'⟩
      · exact ⟨rfl, hh'⟩

/-- **C98 (partial)**: if every first attempt succeeds, the settings of the solver do not matter for the states, with
noise or without. -/
theorem C98_no_retry_partial (w : Setting State X C) (hf : NeverFails w.solve) (retries retries' : ℤ)
    (simplified simplified' : Bool) (ss : List State) :
    simulateFrom w retries simplified ss = simulateFrom w retries' simplified' ss := by
  have key : ∀ times, (simulate retries simplified (stochasticSolver w.normal w.nodes w.solve ss) w.controls times w.initial).1 =
      (simulate retries' simplified' (stochasticSolver w.normal w.nodes w.solve ss) w.controls times w.initial).1 ∧
      SameAttempts (simulate retries simplified (stochasticSolver w.normal w.nodes w.solve ss) w.controls times w.initial).2
        (simulate retries' simplified' (stochasticSolver w.normal w.nodes w.solve ss) w.controls times w.initial).2 := by
    intro times
    match times with
    | [] => exact ⟨rfl, .nil⟩
    | [_] => exact ⟨rfl, .nil⟩
    | t0 :: t1 :: ts =>
      simp only [simulate]
      cases w.controls t1 with
      | throws => exact ⟨rfl, .nil⟩
      | ub => exact ⟨rfl, .nil⟩
      | ok c =>
        have := loop_same w ss hf retries retries' simplified simplified' (t1 :: ts) t0 w.initial w.initial [] [] .nil
        simp only []
        rcases h1 : loop retries simplified (stochasticSolver w.normal w.nodes w.solve ss) w.controls (t1 :: ts) t0
          w.initial w.initial [] with ⟨o, h2⟩
        rcases h3 : loop retries' simplified' (stochasticSolver w.normal w.nodes w.solve ss) w.controls (t1 :: ts) t0
          w.initial w.initial [] with ⟨o', h4⟩
        rw [h1, h3] at this
        obtain ⟨e1, e2⟩ := this
        simp only [] at e1 e2
        subst e1
        cases o with
        | ok xs => exact ⟨rfl, e2⟩
        | throws => exact ⟨rfl, e2⟩
        | ub => exact ⟨rfl, e2⟩
  obtain ⟨k1, k2⟩ := key w.times
  unfold simulateFrom
  simp only [k1, replay_same w.normal w.nodes k2]

/-- With the simplified method the first attempt fails, and the second one is for another demand. -/
theorem walk_simplified : (simulateFrom (walk 1) 0 true [0]).1 = Res.ok [5, 7] := by
  have hp := walk_prepare 1 5 0 (by norm_num) (by norm_num) (by norm_num) (by norm_num)
  have hp2 := walk_prepare 1 5 2 (by norm_num) (by norm_num) (by norm_num) (by norm_num)
  have e1 : stochasticSolver (walk 1).normal (walk 1).nodes (walk 1).solve [0] [] ⟨false, 0, 1, 5, 5, ()⟩ =
      Res.ok (false, (5 : ℝ) + 1 * (0 : ℕ)) := by
    show (prepareAll counting 0 1 5 (walk 1).nodes [0]).bind _ = _
    rw [hp]
    rfl
  have e2 : stochasticSolver (walk 1).normal (walk 1).nodes (walk 1).solve [0] [⟨false, 0, 1, 5, 5, ()⟩] ⟨true, 0, 1, 5, 5, ()⟩ =
      Res.ok (true, (5 : ℝ) + 1 * (2 : ℕ)) := by
    show (replay counting (walk 1).nodes [⟨false, 0, 1, 5, 5, ()⟩] [0]).bind _ = _
    rw [replay_cons]
    simp only [hp]
    show (prepareAll counting 0 1 5 (walk 1).nodes [2]).bind _ = _
    rw [hp2]
    rfl
  show (simulate 0 true _ (fun _ => Res.ok ()) [0, 1] 5).1 = _
  simp only [simulate, loop, makeOneStep]
  unfold attempts
  simp only [Bool.not_true, if_true, e1, decide_true, Bool.true_and, mul_zero, lt_irrefl, if_false, zero_add, List.nil_append]
  unfold attempts
  simp only [e2]
  norm_num

/-- **C98 is false**: although every demand has one solution and both kinds of Newton's method give this solution if
they succeed, the states depend on the settings of the solver: an attempt that fails is repeated for another demand. -/
theorem C98_false : ∃ w : Setting ℕ ℝ Unit, UniqueSolution w.solve ∧ ∃ states states' : List ℝ,
    (simulateFrom w 0 false [0]).1 = Res.ok states ∧ (simulateFrom w 0 true [0]).1 = Res.ok states' ∧ states ≠ states' := by
  refine ⟨walk 1, ⟨fun d _ _ _ _ => (d.map Prod.fst).headD 0, ?_⟩, [5, 5], [5, 7], ?_, walk_simplified, by norm_num⟩
  · intro d a x h
    injection h with h
    injection h with _ h
    exact h.symm
  · rw [walk_full 1 0 (by norm_num) (by norm_num) (by norm_num) (by norm_num)]
    norm_num

example : UniqueSolution (walk 0).solve := by
  refine ⟨fun d _ _ _ _ => (d.map Prod.fst).headD 0, ?_⟩
  intro d a x h
  injection h with h
  injection h with _ h
  exact h.symm

example : ∃ w : Setting ℕ ℝ Unit, NeverFails w.solve ∧ ¬ NoNoise w.nodes ∧ ∃ states, (simulateFrom w 0 false [3]).1 = Res.ok states := by
  refine ⟨{ walk 1 with solve := fun d _ => Res.ok (true, (d.map Prod.fst).headD 0) }, ⟨fun d _ _ _ _ => (d.map Prod.fst).headD 0,
    fun _ _ => rfl⟩, ?_, [5, 8], ?_⟩
  · intro h
    have := (h _ (List.mem_singleton.mpr rfl)).1
    exact one_ne_zero this
  · have hp := walk_prepare 1 5 3 (by norm_num) (by norm_num) (by norm_num) (by norm_num)
    have e1 : stochasticSolver counting (walk 1).nodes (fun d (_ : Attempt ℝ ℝ Unit) => Res.ok (true, (d.map Prod.fst).headD 0)) [3] []
        ⟨true, 0, 1, 5, 5, ()⟩ = Res.ok (true, (5 : ℝ) + 1 * (3 : ℕ)) := by
      show (prepareAll counting 0 1 5 (walk 1).nodes [3]).bind _ = _
      rw [hp]
      rfl
    show (simulate 0 false (stochasticSolver counting (walk 1).nodes _ [3]) (fun _ => Res.ok ()) [0, 1] 5).1 = _
    simp only [simulate, loop, makeOneStep]
    unfold attempts
    simp only [Bool.not_false, e1]
    norm_num

end Verif.Stochastic
