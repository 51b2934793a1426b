import Verif.Basic.Res
import Mathlib.Order.Defs.LinearOrder
import Mathlib.Data.Nat.Notation
import Mathlib.Data.Int.Notation

/-!
# Model of the treatment of constraint times

Sources: `/repo/src/IpoptWrapper/ImplicitOptimizer.cpp` (constructor, derivative sweep) and
`/repo/src/Grazer/commands.cpp` (selection of the constraint times).
-/

set_option autoImplicit false

namespace Verif.OptTimes

variable {T : Type} [LinearOrder T]

/-- The loop over the state times in the constructor — `ImplicitOptimizer.cpp` 141-160. The first
argument holds the state times from index `i` on, the second one the constraint times from the
iterator on. The result holds the constraint times left over. -/
def scan : List T → List T → Res (List T)
  | [], cs => Res.ok cs
  | _ :: _, [] => Res.ok []
  | t :: ts, c :: cs =>
    if t < c then scan ts (c :: cs)
    else if t = c then scan ts cs
    else Res.throws

/-- The check of the constraint times in the constructor — `ImplicitOptimizer.cpp` 135-167. The
caller has made sure that there is a state time (`back(state_timepoints)` throws otherwise). -/
def checkConstraintTimes (states cons : List T) : Res Unit := do
  let rest ← scan states.tail cons
  if rest = [] then Res.ok () else Res.throws

/-- The time index walk of the derivative sweep — `ImplicitOptimizer.cpp` 570-580. The first argument
lists the state times in the order in which they are visited (from the last one down to index 1),
`ci` is `constraint_index`. Reading `constraint_timepoints[constraint_index - 1]` with
`constraint_index = 0` is an access at index -1, which is undefined behaviour. -/
def walk (cons : List T) : List T → ℕ → Res ℕ
  | [], ci => Res.ok ci
  | t :: ts, ci =>
    if ci = 0 then Res.ub
    else do
      let c ← Res.get cons (ci - 1)
      if c = t then walk cons ts (ci - 1) else walk cons ts ci

/-- All index accesses of one sweep: `ImplicitOptimizer.cpp` 532-535, 567-580, 650. (Only done if there
is at least one constraint per time point.) -/
def sweepAccesses (states cons : List T) : Res ℕ :=
  walk cons states.tail.reverse cons.length

/-- The first loop of the selection — `commands.cpp` 176-180. -/
def pick (states : List T) (n : ℕ) : List ℕ → Res (List T)
  | [] => Res.ok []
  | i :: is => do
    let t ← Res.get states (1 + n * i)
    let ts ← pick states n is
    Res.ok (t :: ts)

/-- Selection of the constraint times — `commands.cpp` 153-183. `n` is the setting
`evaluate_constraints_every_n`. For an empty list of state times the length -1 of a vector is
requested, which is undefined behaviour. `back` throws on an empty vector (`Misc.hpp`). -/
def selectConstraintTimes (states : List T) (n : ℤ) : Res (List T) :=
  if states.length = 0 then Res.ub
  else
    let n := if n ≤ 0 then 1 else n.toNat
    let number :=
      if (states.length - 1) % n = 0 then (states.length - 1) / n else (states.length - 1) / n + 1
    do
      let cons ← pick states n (List.range number)
      if states.length % n ≠ 0 then
        match cons.getLast?, states.getLast? with
        | some _, some b => Res.ok (cons.dropLast ++ [b])
        | _, _ => Res.throws
      else Res.ok cons

end Verif.OptTimes
