import Verif.Basic.Res
import Mathlib.Data.Nat.Notation
import Mathlib.Data.Int.Notation

/-!
# Model of `Model::Timeevolver`

Source: `/repo/src/Model/Problemlayer/Timeevolver.cpp`.

The Newton solver is an arbitrary partner: a function of all earlier attempts and the current one that
may succeed, fail or throw (`Verif.Newton` models the actual one). Besides its outcome every
function returns the list of all attempts made so far. Output on the console is left out, and so are
`prepare_timestep`, the schema check and the first assembly of the Jacobian (lines 91-92), which do
not influence the course of the loop.
-/

set_option autoImplicit false

namespace Verif.Evolve

variable {T X C : Type}

/-- The arguments of one call of `solver.solve` — `Timeevolver.cpp` 147-149. `guess` is the value
`new_state` has at the call. -/
structure Attempt (T X C : Type) where
  full : Bool
  lastTime : T
  newTime : T
  lastState : X
  guess : X
  control : C

/-- Behaviour of the solver: for the attempts made before and the current one, the returned `success`
together with the value left in `new_state`. -/
abbrev Solver (T X C : Type) := List (Attempt T X C) → Attempt T X C → Res (Bool × X)

/-- The `while` loop of `make_one_step` — `Timeevolver.cpp` 144-180. `call full` is the call of the
solver with the flag `use_full_jacobian`; its `guess` is `new_state_backup` (line 145). -/
def attempts (retries : ℤ) (simplified : Bool) (solver : Solver T X C) (call : Bool → Attempt T X C)
    (retry : ℤ) (full : Bool) (hist : List (Attempt T X C)) : Res X × List (Attempt T X C) :=
  match solver hist (call full) with
  | Res.throws => (Res.throws, hist ++ [call full])
  | Res.ub => (Res.ub, hist ++ [call full])
  | Res.ok (true, x) => (Res.ok x, hist ++ [call full])
  | Res.ok (false, _) =>
    let full' := if simplified && decide (retry = retries) then true else full
    if 2 * retries < retry then (Res.throws, hist ++ [call full])
    else attempts retries simplified solver call (retry + 1) full' (hist ++ [call full])
  termination_by (2 * retries + 1 - retry).toNat

/-- `make_one_step` — `Timeevolver.cpp` 125-182. -/
def makeOneStep (retries : ℤ) (simplified : Bool) (solver : Solver T X C) (lastTime newTime : T)
    (lastState newState : X) (control : C) (hist : List (Attempt T X C)) :
    Res X × List (Attempt T X C) :=
  attempts retries simplified solver
    (fun full => ⟨full, lastTime, newTime, lastState, newState, control⟩)
    (if simplified then 0 else retries) (!simplified) hist

/-- The time loop — `Timeevolver.cpp` 102-121. The result lists the states stored from this index on. -/
def loop (retries : ℤ) (simplified : Bool) (solver : Solver T X C) (controls : T → Res C) :
    List T → T → X → X → List (Attempt T X C) → Res (List X) × List (Attempt T X C)
  | [], _, _, _, hist => (Res.ok [], hist)
  | t :: ts, lastTime, lastState, newState, hist =>
    match controls t with
    | Res.throws => (Res.throws, hist)
    | Res.ub => (Res.ub, hist)
    | Res.ok c =>
      match makeOneStep retries simplified solver lastTime t lastState newState c hist with
      | (Res.throws, hist) => (Res.throws, hist)
      | (Res.ub, hist) => (Res.ub, hist)
      | (Res.ok x, hist) =>
        match loop retries simplified solver controls ts t x x hist with
        | (Res.ok xs, hist) => (Res.ok (x :: xs), hist)
        | o => o

/-- `Timeevolver::simulate` — `Timeevolver.cpp` 66-123. The result lists the stored states. With fewer
than two times `interpolation_point_at_index(1)` is out of bounds. `controls` is the evaluation of
the interpolated controls; if there are none it is constant. -/
def simulate (retries : ℤ) (simplified : Bool) (solver : Solver T X C) (controls : T → Res C)
    (times : List T) (initial : X) : Res (List X) × List (Attempt T X C) :=
  match times with
  | [] => (Res.ub, [])
  | [_] => (Res.ub, [])
  | t0 :: t1 :: ts =>
    match controls t1 with
    | Res.throws => (Res.throws, [])
    | Res.ub => (Res.ub, [])
    | Res.ok _ =>
      match loop retries simplified solver controls (t1 :: ts) t0 initial initial [] with
      | (Res.ok xs, hist) => (Res.ok (initial :: xs), hist)
      | o => o

end Verif.Evolve
