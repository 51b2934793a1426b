import Verif.Basic.Res
import Mathlib.Algebra.Order.Field.Basic
import Mathlib.Algebra.Order.Floor.Ring

/-!
# Model of `Aux::InterpolatingVector_Base`

Source: `/repo/src/Auxillary/InterpolatingVector/InterpolatingVector.cpp` and
`/repo/src/Auxillary/InterpolatingVector/include/InterpolatingVector.hpp`.

`double` is an arbitrary linearly ordered field `K`.
-/

set_option autoImplicit false

namespace Verif.Interp

variable {K : Type*} [Field K] [LinearOrder K]

/-- `Aux::EPSILON` — `/repo/src/Auxillary/Mathfunctions/include/Mathfunctions.hpp` (1e-10). -/
def EPSILON : K := 1 / 10 ^ 10

/-- The data members of `InterpolatingVector_Base` and `InterpolatingVector`
(`InterpolatingVector.hpp` lines 98, 99, 145): interpolation points, inner length and the flat
value vector. -/
structure IV (K : Type*) where
  points : List K
  inner : ℕ
  values : List K
  deriving DecidableEq, Repr

/-- Class invariant established by the constructors (`InterpolatingVector.cpp` lines 383-403: the
values are allocated with length `inner_length * points.size()`). -/
def IV.WF (v : IV K) : Prop := v.values.length = v.points.length * v.inner

instance (v : IV K) : Decidable v.WF := by unfold IV.WF; infer_instance

/-- `Eigen::VectorXd::segment(start, len)` read; an out-of-range segment is undefined behaviour
(an assertion in debug builds). -/
def segment (l : List K) (start len : ℕ) : Res (List K) :=
  if start + len ≤ l.length then Res.ok ((l.drop start).take len) else Res.ub

/-- `std::lower_bound(points.begin(), points.end(), t)` as an index: the first element that is not
less than `t`, or the size.  (Contract of the standard library for sorted ranges.) -/
def lowerBound (points : List K) (t : K) : ℕ := points.findIdx (fun p => decide (¬ p < t))

/-- `InterpolatingVector_Base::operator()(double t) const` — `InterpolatingVector.cpp` 253-295.
`points.back()` and `points.front()` of an empty vector are undefined behaviour. -/
def eval (v : IV K) (t : K) : Res (List K) :=
  match v.points.getLast?, v.points.head? with
  | some back, some front =>
    if back ≤ t then
      if back + EPSILON < t then Res.throws
      else segment v.values ((v.points.length - 1) * v.inner) v.inner
    else if t ≤ front then
      if t < front - EPSILON then Res.throws
      else segment v.values 0 v.inner
    else do
      let it := lowerBound v.points t
      let tNext ← Res.get v.points it
      let tPrev ← (if it = 0 then Res.ub else Res.get v.points (it - 1))
      let nextIndex := it * v.inner
      let prevIndex := nextIndex - v.inner
      let valueNext ← segment v.values nextIndex v.inner
      let valuePrev ← segment v.values prevIndex v.inner
      let lam := (t - tPrev) / (tNext - tPrev)
      pure (List.zipWith (fun a b => (1 - lam) * a + lam * b) valuePrev valueNext)
  | _, _ => Res.ub

/-- `InterpolatingVector_Base::vector_at_index(Eigen::Index)` — `InterpolatingVector.cpp` 323-337. -/
def vectorAtIndex (v : IV K) (i : ℤ) : Res (List K) :=
  if i < 0 then Res.throws
  else
    let start := v.inner * i.toNat
    if v.values.length < start + v.inner then Res.throws
    else segment v.values start v.inner

/-- Overwriting `len` entries of a flat vector from `start` on (assignment to an
`Eigen::Ref` segment). -/
def writeSegment (l : List K) (start : ℕ) (w : List K) : List K :=
  l.take start ++ w ++ l.drop (start + w.length)

/-- `mut_timestep(i) = w` — `InterpolatingVector.cpp` 302-315; assigning a vector of another length
to the returned `Eigen::Ref` is an Eigen assertion failure, i.e. undefined behaviour. -/
def writeTimestep (v : IV K) (i : ℤ) (w : List K) : Res (IV K) :=
  if i < 0 then Res.throws
  else
    let start := v.inner * i.toNat
    if v.values.length < start + v.inner then Res.throws
    else if w.length = v.inner then
      Res.ok { v with values := writeSegment v.values start w }
    else Res.ub

/-- `set_values_in_bulk` — `InterpolatingVector.cpp` 213-219. -/
def setValuesInBulk (v : IV K) (w : List K) : Res (IV K) :=
  if w.length ≠ v.values.length then Res.throws else Res.ok { v with values := w }

/-- `setZero` — `InterpolatingVector.cpp` 221. -/
def setZero (v : IV K) : IV K := { v with values := v.values.map (fun _ => 0) }

/-- `interpolation_point_at_index` — `InterpolatingVector.cpp` 339-342 (unchecked access). -/
def interpolationPointAtIndex (v : IV K) (i : ℕ) : Res K := Res.get v.points i

/-- `push_to_index` — `InterpolatingVector.cpp` 317-321: writes the time step, then the point,
the latter unchecked. -/
def pushToIndex (v : IV K) (i : ℤ) (t : K) (w : List K) : Res (IV K) := do
  let v' ← writeTimestep v i w
  if i.toNat < v'.points.length then
    Res.ok { v' with points := v'.points.set i.toNat t }
  else Res.ub

/-- `interpolate_from` — `InterpolatingVector.cpp` 223-237 (asserts are off in release builds and
not modelled): loop over the own points from `index` on, `n` points left. -/
def interpolateFromLoop (v src : IV K) (index : ℕ) : ℕ → Res (IV K)
  | 0 => Res.ok v
  | n + 1 => do
    let p ← interpolationPointAtIndex v index
    let w ← eval src p
    let v' ← writeTimestep v (index : ℤ) w
    interpolateFromLoop v' src (index + 1) n

/-- `interpolate_from` — `InterpolatingVector.cpp` 223-237. -/
def interpolateFrom (v src : IV K) : Res (IV K) := interpolateFromLoop v src 0 v.points.length

/-- `have_same_structure` — `InterpolatingVector.cpp` 363-377. -/
def haveSameStructure (a b : IV K) : Bool :=
  if a.inner ≠ b.inner then false
  else if a.points.length ≠ b.points.length then false
  else if a.points ≠ b.points then false
  else true

/-- `operator==` — `InterpolatingVector.cpp` 348-355. Eigen's `==` compares coefficientwise and needs
equal sizes (an assertion otherwise, modelled as undefined behaviour). -/
def ivEq (a b : IV K) : Res Bool :=
  if !haveSameStructure a b then Res.ok false
  else if a.values.length = b.values.length then Res.ok (decide (a.values = b.values))
  else Res.ub

/-- `InterpolatingVector_Base::operator=(InterpolatingVector_Base const &)` —
`InterpolatingVector.cpp` 200-211; result: the new value of `*this`. -/
def assignBase (self other : IV K) : Res (IV K) :=
  if !haveSameStructure other self then Res.throws
  else Res.ok { points := other.points, inner := other.inner, values := other.values }

/-- `InterpolatingVector::operator=(InterpolatingVector_Base const &)` —
`InterpolatingVector.cpp` 405-410: adopts the structure of the other one. -/
def assignOwning (_self other : IV K) : IV K :=
  { points := other.points, inner := other.inner, values := other.values }

/-! ## Construction -/

/-- `struct Interpolation_data` — `InterpolatingVector.hpp` 25-29. -/
structure InterpolationData (K : Type*) where
  first : K
  delta : K
  number : ℕ
  deriving Repr

/-- `set_equidistant_interpolation_points` — `InterpolatingVector.cpp` 112-132: the loop pushes the
current point and adds `delta`. -/
def equidistantLoop (current delta : K) : ℕ → List K
  | 0 => []
  | n + 1 => current :: equidistantLoop (current + delta) delta n

/-- `set_equidistant_interpolation_points` — `InterpolatingVector.cpp` 112-132. -/
def equidistantPoints (d : InterpolationData K) : List K := equidistantLoop d.first d.delta d.number

/-- `make_from_start_number_end` — `InterpolatingVector.cpp` 33-58. With one entry the code divides
by zero (result inf or nan in the C++ code); that case is `Res.ub` here. -/
def makeFromStartNumberEnd (first last : K) (number : ℤ) : Res (InterpolationData K) :=
  if number ≤ 0 then Res.throws
  else if last ≤ first then Res.throws
  else if number = 1 then Res.ub
  else Res.ok ⟨first, (last - first) / ((number - 1 : ℤ) : K), number.toNat⟩

/-- `make_from_start_delta_number` — `InterpolatingVector.cpp` 60-75. -/
def makeFromStartDeltaNumber (first delta : K) (number : ℤ) : Res (InterpolationData K) :=
  if number ≤ 0 then Res.throws
  else if delta ≤ 0 then Res.throws
  else Res.ok ⟨first, delta, number.toNat⟩

/-- `make_from_start_delta_end` — `InterpolatingVector.cpp` 76-110. -/
def makeFromStartDeltaEnd [FloorRing K] (first desired last : K) : Res (InterpolationData K) :=
  if last ≤ first then Res.throws
  else if desired ≤ 0 then Res.throws
  else
    let number : ℕ := (⌈(last - first) / desired⌉ + 1).toNat
    Res.ok ⟨first, (last - first) / ((number - 1 : ℕ) : K), number⟩

/-- `std::is_sorted`. -/
def isSorted : List K → Bool
  | [] => true
  | [_] => true
  | a :: b :: l => decide (¬ b < a) && isSorted (b :: l)

/-- Values as allocated by the owning constructors (`InterpolatingVector.cpp` 383-403):
`Eigen::VectorXd values(n)` leaves the entries indeterminate; `mem` stands for whatever is in the
memory. -/
def uninit (mem : ℕ → K) (n : ℕ) : List K := (List.range n).map mem

/-- Constructor from `Interpolation_data` — `InterpolatingVector.cpp` 138-152 and 384-388. The
sortedness check is an `assert`: with `asserts = true` (debug build) a failure ends the program
(`Res.throws`), otherwise there is no check. -/
def constructFromData (asserts : Bool) (mem : ℕ → K) (d : InterpolationData K) (inner : ℕ) :
    Res (IV K) :=
  let pts := equidistantPoints d
  if asserts && !isSorted pts then Res.throws
  else Res.ok ⟨pts, inner, uninit mem (inner * d.number)⟩

/-- Constructor from an Eigen vector — `InterpolatingVector.cpp` 154-166 and 397-403; the check
is an `assert`, see `constructFromData`. -/
def constructFromEigen (asserts : Bool) (mem : ℕ → K) (pts : List K) (inner : ℕ) : Res (IV K) :=
  if asserts && !isSorted pts then Res.throws
  else Res.ok ⟨pts, inner, uninit mem (inner * pts.length)⟩

/-- Constructor from a `std::vector` — `InterpolatingVector.cpp` 168-176 and 390-395.  The base class
parameter is moved into the member before the check, so the check inspects the moved-from
parameter, which is empty (libstdc++, libc++ and MSVC leave a moved-from vector empty). -/
def constructFromStdVector (mem : ℕ → K) (pts : List K) (inner : ℕ) : Res (IV K) :=
  let member := pts
  let movedFrom : List K := []
  if !isSorted movedFrom then Res.throws
  else Res.ok ⟨member, inner, uninit mem (inner * pts.length)⟩

/-- `MappedInterpolatingVector` / `ConstMappedInterpolatingVector` constructors from an Eigen vector
— `InterpolatingVector.cpp` 502-514, 575-588; `array` is the foreign storage. -/
def constructMapped (asserts : Bool) (pts : List K) (inner : ℕ) (array : List K) : Res (IV K) :=
  if asserts && !isSorted pts then Res.throws
  else if inner * pts.length ≠ array.length then Res.throws
  else Res.ok ⟨pts, inner, array⟩

/-- `ConstMappedInterpolatingVector::reset_values` — `InterpolatingVector.cpp` 590-599. -/
def resetValues (v : IV K) (array : List K) : Res (IV K) :=
  if array.length ≠ v.values.length then Res.throws else Res.ok { v with values := array }

/-- The loop of `construct_from_json` that fills the time steps — `InterpolatingVector.cpp` 461-470;
`i` is the loop index, the list holds the `values` arrays still to be written. -/
def fillLoop (v : IV K) (i : ℕ) : List (List K) → Res (IV K)
  | [] => Res.ok v
  | w :: ws => do
    let v' ← writeTimestep v (i : ℤ) w
    fillLoop v' (i + 1) ws

/-- `InterpolatingVector::construct_from_json` — `InterpolatingVector.cpp` 443-474, after schema
validation: `data` lists the (time or x, values) entries. `front()` of an empty array is undefined
behaviour. -/
def constructFromJson (mem : ℕ → K) (data : List (K × List K)) : Res (IV K) :=
  match data with
  | [] => Res.ub
  | e :: _ => do
    let v ← constructFromStdVector mem (data.map Prod.fst) e.2.length
    fillLoop v 0 (data.map Prod.snd)

/-- `construct_and_interpolate_from` — `InterpolatingVector.cpp` 435-441. -/
def constructAndInterpolateFrom (asserts : Bool) (mem : ℕ → K) (pts : List K) (inner : ℕ)
    (src : IV K) : Res (IV K) := do
  let v ← constructFromEigen asserts mem pts inner
  interpolateFrom v src

end Verif.Interp
