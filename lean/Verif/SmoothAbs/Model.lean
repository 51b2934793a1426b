import Verif.Basic.Res
import Mathlib.Data.Real.Basic

/-!
# Model of `smooth_abs`, its derivative and `dabs_dx`

Source: `/repo/src/Auxillary/Mathfunctions/Mathfunctions.cpp`. Floating point numbers are modelled by
real numbers, here and in all modules that import this one.
-/

set_option autoImplicit false

namespace Verif.SmoothAbs

/-- `epsilon` — `Mathfunctions.cpp` 23. (A global variable that nothing changes.) -/
noncomputable def eps : ℝ := 1 / 10000

/-- `Pi` — `Mathfunctions.cpp` 25. -/
noncomputable def Pi : ℝ := 3.141592653589793

/-- `EPSILON` — `Mathfunctions.cpp` 26. -/
noncomputable def EPSILON : ℝ := 1 / 10 ^ 10

/-- `circle_area` — `Mathfunctions.cpp` 28. -/
noncomputable def circleArea (radius : ℝ) : ℝ := Pi * radius * radius

/-- `smooth_abs` — `Mathfunctions.cpp` 30-40. -/
noncomputable def smoothAbs (x : ℝ) : ℝ :=
  if x ≤ -eps then -x
  else if eps ≤ x then x
  else
    let rel := x / eps
    x * rel / 2 * (-rel * rel + 3)

/-- `dsmooth_abs_dx` — `Mathfunctions.cpp` 42-52. -/
noncomputable def dsmoothAbs (x : ℝ) : ℝ :=
  if x ≤ -eps then -1
  else if eps ≤ x then 1
  else
    let rel := x / eps
    rel * (-2 * rel * rel + 3)

/-- `dabs_dx` — `Mathfunctions.cpp` 54-59. -/
noncomputable def dabs (v : ℝ) : Res ℝ :=
  if |v| < 1 / 10 ^ 13 then Res.throws
  else Res.ok ((if 0 < v then 1 else 0) - (if v < 0 then 1 else 0))

end Verif.SmoothAbs
