import Mathlib.Data.Nat.Notation

/-!
# Model of the state cache and of the evaluation state machine of the optimizer

Sources: `/repo/src/Optimization_helpers/ControlStateCache.cpp`,
`/repo/src/IpoptWrapper/ImplicitOptimizer.cpp`, `/repo/src/IpoptWrapper/Wrapper.cpp`.

The simulation is a parameter: `sim k = some s` if `Timeevolver::simulate` returns with states `s`
for the cache key `k` (controls, state time points, initial state) and `sim k = none` if it throws.
It is a function, i.e. the simulation is assumed to be deterministic (no stochastic nodes) and to
depend on the key only (one fixed problem).
-/

set_option autoImplicit false

namespace Verif.OptState

/-! ## The state cache -/

/-- `ControlStateCache` — `ControlStateCache.hpp` 44-67: the last successful entry with its states and
the last failed entry. -/
structure Cache (Key S : Type) where
  key : Key
  states : S
  failed : Key

/-- `ControlStateCache::ControlStateCache` — `ControlStateCache.cpp` 29-31: both entries are
default-constructed, i.e. they hold the key with no controls, no times, no states. -/
def Cache.init {Key S : Type} (emptyKey : Key) (emptyStates : S) : Cache Key S :=
  ⟨emptyKey, emptyStates, emptyKey⟩

variable {Key S : Type}

/-- `ControlStateCache::refresh_cache` — `ControlStateCache.cpp` 33-50. -/
def refresh (sim : Key → Option S) (c : Cache Key S) (k : Key) : Bool × Cache Key S :=
  match sim k with
  | none => (false, { c with failed := k })
  | some s => (true, { c with key := k, states := s })

/-- `ControlStateCache::check_and_supply_states` — `ControlStateCache.cpp` 56-85. The result `none`
is the null pointer, `some s` a pointer to the cached states `s`. -/
def checkAndSupply [DecidableEq Key] (sim : Key → Option S) (c : Cache Key S) (k : Key) :
    Option S × Cache Key S :=
  if c.failed = k then (none, c)
  else if k = c.key then (some c.states, c)
  else
    match sim k with
    | none => (none, { c with failed := k })
    | some s => (some s, { c with key := k, states := s })

/-- The operations a user of the cache can call. -/
inductive CacheOp (Key : Type) where
  | refresh (k : Key)
  | check (k : Key)

/-- One operation on the cache. -/
def Cache.step [DecidableEq Key] (sim : Key → Option S) (c : Cache Key S) : CacheOp Key → Cache Key S
  | .refresh k => (Verif.OptState.refresh sim c k).2
  | .check k => (checkAndSupply sim c k).2

/-! ## The optimizer -/

/-- What the optimizer gets from the problem: the simulation of a control vector, and for given
controls and states the cost, the penalty, the constraints and the derivatives.
`derivs x s = none` if a factorization in `compute_derivatives` fails. The functions themselves are
modelled in `Verif.Weights` (time integral) and `Verif.Adjoint` (derivatives). -/
structure Problem (X S V C G J : Type) where
  sim : X → Option S
  cost : X → S → V
  penalty : X → S → V
  add : V → V → V
  zero : V
  constraints : X → S → C
  derivs : X → S → Option (G × J)

/-- The mutable part of `ImplicitOptimizer` (`ImplicitOptimizer.hpp`, private members): the states in
the cache, the stored gradient and Jacobian, and the two flags. -/
structure Opt (S G J : Type) where
  states : S
  gradient : G
  jacobian : J
  statesUpToDate : Bool
  derivativesUpToDate : Bool

variable {X V C G J : Type}

/-- `ImplicitOptimizer::new_x` — `ImplicitOptimizer.cpp` 196-199. -/
def newX (o : Opt S G J) : Opt S G J :=
  { o with statesUpToDate := false, derivativesUpToDate := false }

/-- The common beginning of all evaluations, e.g. `ImplicitOptimizer.cpp` 229-244: refresh the cache
unless the states are up to date. Returns whether the states are available. -/
def ensureStates (p : Problem X S V C G J) (o : Opt S G J) (x : X) : Bool × Opt S G J :=
  if o.statesUpToDate then (true, o)
  else
    match p.sim x with
    | none => (false, o)
    | some s => (true, { o with states := s, statesUpToDate := true })

/-- `ImplicitOptimizer::evaluate_cost` — `ImplicitOptimizer.cpp` 220-257. -/
def evaluateCost (p : Problem X S V C G J) (o : Opt S G J) (x : X) : Option V × Opt S G J :=
  match ensureStates p o x with
  | (false, o') => (none, o')
  | (true, o') => (some (p.cost x o'.states), o')

/-- `ImplicitOptimizer::evaluate_penalty` — `ImplicitOptimizer.cpp` 259-296. -/
def evaluatePenalty (p : Problem X S V C G J) (o : Opt S G J) (x : X) : Option V × Opt S G J :=
  match ensureStates p o x with
  | (false, o') => (none, o')
  | (true, o') => (some (p.penalty x o'.states), o')

/-- `ImplicitOptimizer::evaluate_objective` — `ImplicitOptimizer.cpp` 207-219. -/
def evaluateObjective (p : Problem X S V C G J) (o : Opt S G J) (x : X) : Option V × Opt S G J :=
  match evaluateCost p o x with
  | (none, o') => (none, o')
  | (some c, o') =>
    match evaluatePenalty p o' x with
    | (none, o'') => (none, o'')
    | (some q, o'') => (some (p.add c q), o'')

/-- `ImplicitOptimizer::evaluate_constraints` — `ImplicitOptimizer.cpp` 298-344 (the two length checks
are left out: Ipopt passes the sizes it was told in `get_nlp_info`). -/
def evaluateConstraints (p : Problem X S V C G J) (o : Opt S G J) (x : X) : Option C × Opt S G J :=
  match ensureStates p o x with
  | (false, o') => (none, o')
  | (true, o') => (some (p.constraints x o'.states), o')

/-- `ImplicitOptimizer::compute_derivatives` — `ImplicitOptimizer.cpp` 487-656, as far as the flags and
stored results are concerned: on failure it returns before setting the flag, the stored derivatives
may have been overwritten partially (`junk`). -/
def computeDerivatives (p : Problem X S V C G J) (junk : G × J) (o : Opt S G J) (x : X) :
    Bool × Opt S G J :=
  match p.derivs x o.states with
  | none => (false, { o with gradient := junk.1, jacobian := junk.2 })
  | some (g, j) => (true, { o with gradient := g, jacobian := j, derivativesUpToDate := true })

/-- The common body of `evaluate_objective_gradient` and `evaluate_constraint_jacobian` —
`ImplicitOptimizer.cpp` 347-389, 390-429. -/
def ensureDerivatives (p : Problem X S V C G J) (junk : G × J) (o : Opt S G J) (x : X) :
    Bool × Opt S G J :=
  if o.derivativesUpToDate then (true, o)
  else
    match ensureStates p o x with
    | (false, o') => (false, o')
    | (true, o') => computeDerivatives p junk o' x

/-- `ImplicitOptimizer::evaluate_objective_gradient` — `ImplicitOptimizer.cpp` 346-388. -/
def evaluateGradient (p : Problem X S V C G J) (junk : G × J) (o : Opt S G J) (x : X) :
    Option G × Opt S G J :=
  match ensureDerivatives p junk o x with
  | (false, o') => (none, o')
  | (true, o') => (some o'.gradient, o')

/-- `ImplicitOptimizer::evaluate_constraint_jacobian` — `ImplicitOptimizer.cpp` 389-431. -/
def evaluateJacobian (p : Problem X S V C G J) (junk : G × J) (o : Opt S G J) (x : X) :
    Option J × Opt S G J :=
  match ensureDerivatives p junk o x with
  | (false, o') => (none, o')
  | (true, o') => (some o'.jacobian, o')

/-- The four evaluation callbacks Ipopt uses. -/
inductive Kind where
  | f | gradF | g | jacG
  deriving DecidableEq, Repr

/-- A callback with its control vector and its `new_x` argument. `junk` is what a failing derivative
computation leaves behind (arbitrary). -/
structure Call (X G J : Type) where
  kind : Kind
  x : X
  isNew : Bool
  junk : G × J

/-- What a callback returned: `none` inside means `false` was returned. -/
inductive Out (V C G J : Type) where
  | objective (v : Option V)
  | gradient (v : Option G)
  | constraints (v : Option C)
  | jacobian (v : Option J)
  deriving DecidableEq

/-- `IpoptWrapper::eval_f`, `eval_grad_f`, `eval_g`, `eval_jac_g` (with values) — `Wrapper.cpp`
100-154. The structure call of `eval_jac_g` does not touch the state and is left out. -/
def callback (p : Problem X S V C G J) (o : Opt S G J) (c : Call X G J) :
    Out V C G J × Opt S G J :=
  let o := if c.isNew then newX o else o
  match c.kind with
  | .f => let r := evaluateObjective p o c.x; (.objective r.1, r.2)
  | .gradF => let r := evaluateGradient p c.junk o c.x; (.gradient r.1, r.2)
  | .g => let r := evaluateConstraints p o c.x; (.constraints r.1, r.2)
  | .jacG => let r := evaluateJacobian p c.junk o c.x; (.jacobian r.1, r.2)

/-- The optimizer after a list of callbacks. -/
def run (p : Problem X S V C G J) (o : Opt S G J) : List (Call X G J) → Opt S G J
  | [] => o
  | c :: cs => run p (callback p o c).2 cs

/-- `IpoptWrapper::finalize_solution` — `Wrapper.cpp` 155-179: `best_cost_value` and
`best_penalty_value`. The return values of the two evaluations are ignored, so 0 remains if they
fail; `new_x` is not called. -/
def finalize (p : Problem X S V C G J) (o : Opt S G J) (x : X) : V × V :=
  let r := evaluateCost p o x
  let r' := evaluatePenalty p r.2 x
  (r.1.getD p.zero, r'.1.getD p.zero)

/-- A freshly constructed optimizer: both flags are `false` (`ImplicitOptimizer.hpp`), the stored
values are arbitrary. -/
def fresh (s : S) (g : G) (j : J) : Opt S G J := ⟨s, g, j, false, false⟩

end Verif.OptState
