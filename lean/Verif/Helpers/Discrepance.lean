import Verif.Basic.Res
import Mathlib.Algebra.Order.Group.Abs
import Mathlib.Algebra.Order.Ring.Rat
import Mathlib.Data.List.Nodup
import Mathlib.Order.Bounds.Basic

/-!
# The helper program comparing runs with a reference

`helper_functions/compute_reference_discrepance.cpp`: results of several runs are compared with the results of a
reference run; for every quantity the largest discrepance is kept. Modelled here is what happens to the components of
one type; the loops over the classes and types of components are in `DiscrepanceFile`. Numbers are rational. The ids are compared by an arbitrary
linear order, the one of `std::string` in the code.
-/

set_option autoImplicit false

namespace Verif.Helpers.Discrepance

/-- The results of a component at one time: an object of `"time"` and named quantities. -/
structure Step (Q : Type) where
  time : ℚ
  values : List (String × Q)

/-- The results of a component: `"id"` and the array `"data"`. -/
structure Component (I Q : Type) where
  id : I
  data : List (Step Q)

/-- What is done with one quantity. For power components it is a number, for gas components an array of points. -/
structure Kind (Q : Type) where
  /-- Whether there is anything to do: not so for an empty array. -/
  present : Q → Bool
  /-- The first discrepance of a quantity, from the one of the reference and the one of the run. -/
  first : Q → Q → Res Q
  /-- The new discrepance, from the quantity of the reference, the discrepance up to now and the quantity of the run. -/
  again : Q → Q → Q → Res Q

/-- `std::lower_bound`: the first position whose entry is not less; undefined if the range isn't partitioned. -/
def lowerBound {A : Type} (less : A → Bool) (l : List A) : Res ℕ :=
  if (l.dropWhile less).all (fun a => !less a) then Res.ok (l.takeWhile less).length else Res.ub

/-! ## One quantity -/

/-- Numbers — `compute_reference_discrepance.cpp` 314-316 and 351-357. -/
def power : Kind ℚ where
  present := fun _ => true
  first := fun r q => Res.ok |q - r|
  again := fun r s q => Res.ok (if |q - r| > s then |q - r| else s)

/-- A point: `"x"` and `"value"`. -/
abbrev Point := ℚ × ℚ

/-- The points of a quantity the first time — `compute_reference_discrepance.cpp` 171-177: they are compared by their
number in the array, `"x"` is the one of the run. An access behind the end of the (constant) array of the reference is
undefined. -/
def firstPoints : List Point → List Point → Res (List Point)
  | _, [] => Res.ok []
  | [], _ :: _ => Res.ub
  | r :: rs, q :: qs => do
    let rest ← firstPoints rs qs
    Res.ok ((q.1, |q.2 - r.2|) :: rest)

/-- One point another time — `compute_reference_discrepance.cpp` 210-241: it is looked for by `"x"`. -/
def againPoint (r s : List Point) (q : Point) : Res (List Point) := do
  let i ← lowerBound (fun p : Point => decide (p.1 < q.1)) s
  let j ← lowerBound (fun p : Point => decide (p.1 < q.1)) r
  let saved ← Res.get s i
  if saved.1 ≠ q.1 then Res.throws
  else do
    let reference ← Res.get r j
    if reference.1 ≠ q.1 then Res.throws
    else if |q.2 - reference.2| > saved.2 then Res.ok (s.set i (saved.1, |q.2 - reference.2|))
    else Res.ok s

/-- All points another time — `compute_reference_discrepance.cpp` 210. -/
def againPoints (r : List Point) : List Point → List Point → Res (List Point)
  | s, [] => Res.ok s
  | s, q :: qs => do
    let s' ← againPoint r s q
    againPoints r s' qs

/-- Arrays of points. -/
def gas : Kind (List Point) where
  present := fun q => !q.isEmpty
  first := firstPoints
  again := againPoints

/-! ## One component -/

variable {I Q : Type} [LinearOrder I]

/-- The quantities of a time step the first time — `compute_reference_discrepance.cpp` 166-178 and 307-318. A quantity
missing in the (constant) reference is undefined behaviour. -/
def firstValues (K : Kind Q) (ref : List (String × Q)) : List (String × Q) → Res (List (String × Q))
  | [] => Res.ok []
  | (key, q) :: rest =>
    if K.present q then
      match ref.lookup key with
      | none => Res.ub
      | some r => do
        let d ← K.first r q
        let ds ← firstValues K ref rest
        Res.ok ((key, d) :: ds)
    else firstValues K ref rest

/-- The time steps the first time — `compute_reference_discrepance.cpp` 163-180 and 304-320. (A missing time step of the
reference is like one without quantities: an access is undefined.) -/
def firstData (K : Kind Q) : List (Step Q) → List (Step Q) → Res (List (Step Q))
  | _, [] => Res.ok []
  | refs, step :: steps => do
    let values ← firstValues K (refs.headD ⟨0, []⟩).values step.values
    let rest ← firstData K refs.tail steps
    Res.ok (⟨step.time, values⟩ :: rest)

/-- Replaces a quantity. -/
def setValue (key : String) (d : Q) (saved : List (String × Q)) : List (String × Q) :=
  saved.map fun e => if e.1 = key then (key, d) else e

/-- The quantities of a time step another time — `compute_reference_discrepance.cpp` 206-243 and 346-359. A quantity
missing in the (constant) reference is undefined behaviour, one missing in the saved results gives an exception. -/
def againValues (K : Kind Q) (ref : List (String × Q)) :
    List (String × Q) → List (String × Q) → Res (List (String × Q))
  | saved, [] => Res.ok saved
  | saved, (key, q) :: rest =>
    if K.present q then
      match ref.lookup key with
      | none => Res.ub
      | some r =>
        match saved.lookup key with
        | none => Res.throws
        | some s => do
          let d ← K.again r s q
          againValues K ref (setValue key d saved) rest
    else againValues K ref saved rest

/-- The time steps another time — `compute_reference_discrepance.cpp` 205-247 and 345-363. The iterators must not be
moved behind the end. -/
def againData (K : Kind Q) : List (Step Q) → List (Step Q) → List (Step Q) → Res (List (Step Q))
  | _, saved, [] => Res.ok saved
  | r :: refs, s :: saved, step :: steps => do
    let values ← againValues K r.values s.values step.values
    let rest ← againData K refs saved steps
    Res.ok (⟨s.time, values⟩ :: rest)
  | _, _, _ :: _ => Res.ub

/-- What is done for one component of a run — `compute_reference_discrepance.cpp` 136-249 and 277-365. -/
def addComponent (K : Kind Q) (ref out : List (Component I Q)) (c : Component I Q) :
    Res (List (Component I Q)) := do
  let i ← lowerBound (fun o : Component I Q => decide (o.id < c.id)) out
  let j ← lowerBound (fun r : Component I Q => decide (r.id < c.id)) ref
  match ref[j]? with
  | none => Res.throws
  | some r =>
    match out[i]? with
    | none => do
      let data ← firstData K r.data c.data
      Res.ok (out ++ [⟨c.id, data⟩])
    | some o =>
      if o.id ≠ c.id then Res.throws
      else if r.id ≠ c.id then Res.throws
      else do
        let data ← againData K r.data o.data c.data
        Res.ok (out.set i ⟨o.id, data⟩)

/-- The components of a run — `compute_reference_discrepance.cpp` 136 and 277. -/
def addRun (K : Kind Q) (ref : List (Component I Q)) :
    List (Component I Q) → List (Component I Q) → Res (List (Component I Q))
  | out, [] => Res.ok out
  | out, c :: cs => do
    let out' ← addComponent K ref out c
    addRun K ref out' cs

/-- The runs, in the order in which the files are found — `compute_reference_discrepance.cpp` 84-107. -/
def addRuns (K : Kind Q) (ref : List (Component I Q)) :
    List (Component I Q) → List (List (Component I Q)) → Res (List (Component I Q))
  | out, [] => Res.ok out
  | out, run :: runs => do
    let out' ← addRun K ref out run
    addRuns K ref out' runs

/-- The whole program, for one type of components: nothing is known before the first run —
`compute_reference_discrepance.cpp` 76. -/
def program (K : Kind Q) (ref : List (Component I Q)) (runs : List (List (Component I Q))) :
    Res (List (Component I Q)) := addRuns K ref [] runs

end Verif.Helpers.Discrepance
