import Verif.Interp.Props
import Verif.Times.Props

/-!
# Rounded arithmetic

The other modules compute with exact numbers. Here the same functions are modelled with a rounding after each operation:
`double` is the set of numbers that a rounding function leaves alone, and `+`, `-`, `*`, `/` are the exact operations followed
by rounding, as demanded by IEEE 754. What is assumed of the rounding function is stated in `Rounding`; `Verif.Float.Binary64`
shows that rounding to the nearest binary number with 53 digits (ties to even) is one. The range of exponents is unbounded:
overflow and underflow are not modelled.
-/

set_option autoImplicit false
set_option linter.unusedSectionVars false

namespace Verif.Float

open Verif.Interp

variable {K : Type} [Field K] [LinearOrder K]

/-- A way to round: monotone, does nothing to rounded numbers, relative error at most `unit`. -/
structure Rounding (K : Type) [Field K] [LinearOrder K] where
  rnd : K → K
  unit : K
  unit_nonneg : 0 ≤ unit
  unit_lt_one : unit < 1
  mono : ∀ x y, x ≤ y → rnd x ≤ rnd y
  idem : ∀ x, rnd (rnd x) = rnd x
  one : rnd 1 = 1
  error : ∀ x, |rnd x - x| ≤ unit * |x|

namespace Rounding

variable (R : Rounding K)

/-- The values of type `double`. -/
def Rep (x : K) : Prop := R.rnd x = x

/-- `x + y` for `double`. -/
def add (x y : K) : K := R.rnd (x + y)
/-- `x - y` for `double`. -/
def sub (x y : K) : K := R.rnd (x - y)
/-- `x * y` for `double`. -/
def mul (x y : K) : K := R.rnd (x * y)
/-- `x / y` for `double`. -/
def div (x y : K) : K := R.rnd (x / y)

/-- No rounding at all. -/
def exact (K : Type) [Field K] [LinearOrder K] [IsStrictOrderedRing K] : Rounding K where
  rnd := id
  unit := 0
  unit_nonneg := le_refl _
  unit_lt_one := zero_lt_one
  mono _ _ h := h
  idem _ := rfl
  one := rfl
  error x := by simp

end Rounding

/-! ## Rounded interpolation -/

/-- `operator()(double t) const` — `InterpolatingVector.cpp` 253-295 in rounded arithmetic, see `Verif.Interp.eval`. -/
def eval (R : Rounding K) (v : IV K) (t : K) : Res (List K) :=
  match v.points.getLast?, v.points.head? with
  | some back, some front =>
    if back ≤ t then
      if R.add back (R.rnd EPSILON) < t then Res.throws
      else segment v.values ((v.points.length - 1) * v.inner) v.inner
    else if t ≤ front then
      if t < R.sub front (R.rnd EPSILON) then Res.throws
      else segment v.values 0 v.inner
    else do
      let it := lowerBound v.points t
      let tNext ← Res.get v.points it
      let tPrev ← (if it = 0 then Res.ub else Res.get v.points (it - 1))
      let nextIndex := it * v.inner
      let prevIndex := nextIndex - v.inner
      let valueNext ← segment v.values nextIndex v.inner
      let valuePrev ← segment v.values prevIndex v.inner
      let lam := R.div (R.sub t tPrev) (R.sub tNext tPrev)
      pure (List.zipWith (fun a b => R.add (R.mul (R.sub 1 lam) a) (R.mul lam b)) valuePrev valueNext)
  | _, _ => Res.ub

/-! ## Rounded time grids -/

/-- `set_equidistant_interpolation_points` — `InterpolatingVector.cpp` 112-132 in rounded arithmetic. -/
def points (R : Rounding K) (current delta : K) : ℕ → List K
  | 0 => []
  | n + 1 => current :: points R (R.add current delta) delta n

section
variable [FloorRing K]

/-- `make_from_start_delta_end` — `InterpolatingVector.cpp` 76-110 in rounded arithmetic. The number of entries is
computed exactly (right below 2^53). -/
def makeFromStartDeltaEnd (R : Rounding K) (first desired last : K) : Res (InterpolationData K) :=
  if last ≤ first then Res.throws
  else if desired ≤ 0 then Res.throws
  else
    let number : ℕ := (⌈R.div (R.sub last first) desired⌉ + 1).toNat
    Res.ok ⟨first, R.div (R.sub last first) (R.rnd ((number - 1 : ℕ) : K)), number⟩

/-- `init_Number_of_timesteps` — `Timedata.cpp` 29-33 in rounded arithmetic. -/
def numberOfTimesteps (R : Rounding K) (start desired stop : K) : Res ℤ :=
  if desired = 0 then Res.ub else Res.ok (⌈R.div (R.sub stop start) desired⌉ + 1)

/-- `init_delta_t` — `Timedata.cpp` 43-45 in rounded arithmetic. -/
def deltaT (R : Rounding K) (start stop : K) (number : ℤ) : Times.Quot K :=
  if number = 1 then
    if 0 < R.sub stop start then .posInf else if R.sub stop start < 0 then .negInf else .nan
  else .finite (R.div (R.sub stop start) (R.rnd ((number - 1 : ℤ) : K)))

/-- `make_from_start_delta_end` with a step that need not be finite, see `Verif.Times.gridFromDelta`. -/
def gridFromDelta (R : Rounding K) (start : K) (delta : Times.Quot K) (stop : K) : Res (List K) :=
  match delta with
  | .finite d => do
    let data ← makeFromStartDeltaEnd R start d stop
    Res.ok (points R data.first data.delta data.number)
  | .posInf => if stop ≤ start then Res.throws else Res.ok [start]
  | .negInf => Res.throws
  | .nan => if stop ≤ start then Res.throws else Res.ub

/-- The time points of the simulation — `commands.cpp` 77, 93-98 in rounded arithmetic. -/
def stateGrid (R : Rounding K) (start desired stop : K) : Res (List K) := do
  let number ← numberOfTimesteps R start desired stop
  gridFromDelta R start (deltaT R start stop number) stop

end

/-! ## Basic facts -/

namespace Rounding

variable [IsStrictOrderedRing K] (R : Rounding K)

theorem zero : R.rnd 0 = 0 := by
  have := R.error 0
  simpa using this

theorem le_of_le_rep {x y : K} (h : x ≤ y) (hy : R.Rep y) : R.rnd x ≤ y := by
  have := R.mono x y h
  rwa [hy] at this

theorem ge_of_rep_le {x y : K} (h : x ≤ y) (hx : R.Rep x) : x ≤ R.rnd y := by
  have := R.mono x y h
  rwa [hx] at this

theorem nonneg {x : K} (h : 0 ≤ x) : 0 ≤ R.rnd x := R.ge_of_rep_le h R.zero

theorem abs_le (x : K) : |R.rnd x| ≤ (1 + R.unit) * |x| := by
  have h := abs_add_le (R.rnd x - x) x
  rw [sub_add_cancel] at h
  have := R.error x
  linarith

theorem pos {x : K} (h : 0 < x) : 0 < R.rnd x := by
  have h1 := R.error x
  rw [abs_of_pos h] at h1
  have h2 := neg_le_of_abs_le h1
  have h3 := R.unit_lt_one
  nlinarith

theorem rep_rnd (x : K) : R.Rep (R.rnd x) := R.idem x

end Rounding

end Verif.Float
