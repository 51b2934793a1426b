import Verif.SmoothAbs.Model
import Mathlib.Analysis.SpecialFunctions.Pow.Real
import Mathlib.Analysis.SpecialFunctions.Log.Base
import Mathlib.LinearAlgebra.Matrix.NonsingularInverse
import Mathlib.LinearAlgebra.Matrix.Notation
import Mathlib.Analysis.Normed.Operator.Basic
import Mathlib.Analysis.Normed.Group.Constructions

/-!
# Model of the isothermal Euler equations

Sources: `/repo/src/Model/Balancelaw/Isothermaleulerequation.cpp` and `.hpp`. Two-vectors are pairs.
Functions that may throw have results in `Res`. Division by zero is not guarded in the code; the
theorems about these functions assume non-zero densities and diameters where it matters.
-/

set_option autoImplicit false

namespace Verif.Euler

open Verif.SmoothAbs

/-! ## Constants — `Isothermaleulerequation.hpp` 75-97 -/

noncomputable section

/-- `bar` — `Isothermaleulerequation.hpp` 75. -/
def bar : ℝ := 100000
/-- `rho_0` — line 76. -/
def rho0 : ℝ := 0.785
/-- `T_0` — line 77. -/
def T0 : ℝ := 273.15
/-- `T_crit` — line 78. -/
def Tcrit : ℝ := 192.033
/-- `z_0` — line 79. -/
def z0 : ℝ := 1.005
/-- `p_0` — line 80. -/
def p0 : ℝ := 1.01325 * bar
/-- `p_crit` — line 81. -/
def pcrit : ℝ := 46.4512 * bar
/-- `T` — line 82. -/
def T : ℝ := 283.15
/-- `alpha` — lines 83-84. -/
def alpha : ℝ := 0.257 / pcrit - 0.533 * Tcrit / (pcrit * T)
/-- `eta` — line 86. -/
def eta : ℝ := 1 / 100000
/-- `c_vac_squared` — line 88. -/
def cVac : ℝ := p0 * T / (z0 * T0 * rho0)
/-- `laminar_border` — line 96. -/
def laminarBorder : ℝ := 2000
/-- `turbulent_border` — line 97. -/
def turbulentBorder : ℝ := 4000

/-! ## Pressure and density -/

/-- `p` — `Isothermaleulerequation.cpp` 216-220. -/
def p (rho : ℝ) : ℝ := cVac * rho / (1 - alpha * cVac * rho)

/-- `dp_drho` — `Isothermaleulerequation.cpp` 221-226. -/
def dp (rho : ℝ) : ℝ :=
  let D := 1 - alpha * cVac * rho
  cVac / (D * D)

/-- `rho` — `Isothermaleulerequation.cpp` 228-232. -/
def rho (p : ℝ) : ℝ := p / (cVac * (1 + alpha * p))

/-- `p_qvol` — `Isothermaleulerequation.cpp` 137-148. -/
def pQvol (state : ℝ × ℝ) : ℝ × ℝ := (p state.1, state.2)

/-- `state` — `Isothermaleulerequation.cpp` 162-171. -/
def state (pq : ℝ × ℝ) : ℝ × ℝ := (rho pq.1, pq.2)

/-- `p_pascal_from_p_bar` and `p_qvol_from_p_qvol_bar` — `Isothermaleulerequation.cpp` 173-186. -/
def fromBar (pq : ℝ × ℝ) : ℝ × ℝ := (pq.1 * bar, pq.2)

/-- `p_bar_from_p_pascal` and `p_qvol_bar_from_p_qvol` — `Isothermaleulerequation.cpp` 188-204. -/
def toBar (pq : ℝ × ℝ) : ℝ × ℝ := (pq.1 / bar, pq.2)

/-! ## Friction -/

/-- `Reynolds` — `Isothermaleulerequation.cpp` 268-273. -/
def reynolds (q diameter : ℝ) : ℝ :=
  let area := circleArea (0.5 * diameter)
  diameter / (area * eta) * rho0 * |q|

/-- `coeff_of_Reynolds` — `Isothermaleulerequation.cpp` 275-280. -/
def coeffReynolds (diameter : ℝ) : ℝ :=
  let area := circleArea (0.5 * diameter)
  diameter / (area * eta) * rho0

/-- `dReynolds_dq` — `Isothermaleulerequation.cpp` 282-294. -/
def dReynolds (q diameter : ℝ) : Res ℝ :=
  if reynolds q diameter < laminarBorder - EPSILON then Res.throws
  else do
    let area := circleArea (0.5 * diameter)
    let d ← dabs q
    Res.ok (diameter / (area * eta) * rho0 * d)

/-- `Swamee_Jain` — `Isothermaleulerequation.cpp` 296-307. -/
def swameeJain (Re diameter roughness : ℝ) : Res ℝ :=
  if Re < turbulentBorder - EPSILON then Res.throws
  else
    let aux := Real.logb 10 (roughness / (3.7 * diameter) + 5.74 / Re ^ (0.9 : ℝ))
    Res.ok (0.25 / (aux * aux))

/-- `dSwamee_Jain_dRe` — `Isothermaleulerequation.cpp` 309-322. -/
def dSwameeJain (Re diameter roughness : ℝ) : Res ℝ :=
  if Re < turbulentBorder - EPSILON then Res.throws
  else
    let x := Real.exp (Real.log Re * 0.9)
    let a := roughness / (3.7 * diameter) + 5.74 / x
    let aux := Real.logb 10 a
    let daux := 1 / Real.log 10 * a * (-5.74 / (x * x)) * 0.9 * x / Re
    Res.ok (-0.5 / (aux * aux * aux) * daux)

/-- `set_coeff_helper_matrix` — `Isothermaleulerequation.cpp` 28-39. -/
def coeffMatrix : Matrix (Fin 4) (Fin 4) ℝ :=
  let a := laminarBorder
  let b := turbulentBorder
  !![a * a * a, a * a, a, 1;
     3 * a * a, 2 * a, 1, 0;
     b * b * b, b * b, b, 1;
     3 * b * b, 2 * b, 1, 0]

/-- `get_coefficients` — `Isothermaleulerequation.cpp` 43-51. Solving by LU decomposition is modelled as
applying the inverse matrix. -/
def coefficients (diameter roughness : ℝ) : Res (Fin 4 → ℝ) := do
  let s ← swameeJain turbulentBorder diameter roughness
  let ds ← dSwameeJain turbulentBorder diameter roughness
  Res.ok (coeffMatrix⁻¹.mulVec
    ![64 / laminarBorder, -64 / (laminarBorder * laminarBorder), s, ds])

/-- `lambda_non_laminar` — `Isothermaleulerequation.cpp` 233-248. -/
def lambda (Re diameter roughness : ℝ) : Res ℝ :=
  if Re < laminarBorder - EPSILON then Res.throws
  else if turbulentBorder < Re then swameeJain Re diameter roughness
  else do
    let c ← coefficients diameter roughness
    Res.ok (c 0 * (Re * Re * Re) + c 1 * (Re * Re) + c 2 * Re + c 3 * 1)

/-- `dlambda_non_laminar_dRe` — `Isothermaleulerequation.cpp` 250-266. -/
def dlambda (Re diameter roughness : ℝ) : Res ℝ :=
  if Re < laminarBorder - EPSILON then Res.throws
  else if turbulentBorder < Re then dSwameeJain Re diameter roughness
  else do
    let c ← coefficients diameter roughness
    Res.ok (c 0 * (3 * Re * Re) + c 1 * (2 * Re) + c 2 * 1 + c 3 * 0)

/-! ## Flux and source. `d` is the diameter and `k` the roughness of the pipe. -/

/-- `flux` — `Isothermaleulerequation.cpp` 53-65. -/
def flux (d : ℝ) (st : ℝ × ℝ) : ℝ × ℝ :=
  let area := circleArea (0.5 * d)
  (rho0 / area * st.2, area / rho0 * p st.1 + rho0 / area * st.2 * st.2 / st.1)

/-- A 2×2 matrix by rows. -/
structure Mat2 where
  m00 : ℝ
  m01 : ℝ
  m10 : ℝ
  m11 : ℝ

/-- Specification: the linear map of a 2×2 matrix. -/
def Mat2.map (m : Mat2) : ℝ × ℝ →L[ℝ] ℝ × ℝ :=
  (m.m00 • ContinuousLinearMap.fst ℝ ℝ ℝ + m.m01 • ContinuousLinearMap.snd ℝ ℝ ℝ).prod
    (m.m10 • ContinuousLinearMap.fst ℝ ℝ ℝ + m.m11 • ContinuousLinearMap.snd ℝ ℝ ℝ)

/-- `dp_qvol_dstate` — `Isothermaleulerequation.cpp` 150-160. -/
def dPQvol (st : ℝ × ℝ) : Mat2 := ⟨dp st.1, 0, 0, 1⟩

/-- `dp_qvol_bar_from_p_qvold_p_qvol` — `Isothermaleulerequation.cpp` 191-193 and 205-214. -/
def dToBar (_pq : ℝ × ℝ) : Mat2 := ⟨1 / bar, 0, 0, 1⟩

/-- The product of two matrices (Eigen). -/
def Mat2.mul (a b : Mat2) : Mat2 :=
  ⟨a.m00 * b.m00 + a.m01 * b.m10, a.m00 * b.m01 + a.m01 * b.m11,
   a.m10 * b.m00 + a.m11 * b.m10, a.m10 * b.m01 + a.m11 * b.m11⟩

/-- The product of a row vector and a matrix (Eigen). -/
def rowMul (v : ℝ × ℝ) (m : Mat2) : ℝ × ℝ :=
  (v.1 * m.m00 + v.2 * m.m10, v.1 * m.m01 + v.2 * m.m11)

/-- `dflux_dstate` — `Isothermaleulerequation.cpp` 67-81. -/
def dflux (d : ℝ) (st : ℝ × ℝ) : Mat2 :=
  let area := circleArea (0.5 * d)
  ⟨0, rho0 / area,
   area / rho0 * dp st.1 - rho0 / area * st.2 * st.2 / (st.1 * st.1), 2 * rho0 / area * st.2 / st.1⟩

/-- `source` — `Isothermaleulerequation.cpp` 83-102. -/
def source (d k : ℝ) (st : ℝ × ℝ) : Res (ℝ × ℝ) :=
  let Re := reynolds st.2 d
  let area := circleArea (0.5 * d)
  if Re < laminarBorder then
    Res.ok (0, -rho0 / (2 * area * d) * 64 / coeffReynolds d * st.2 / st.1)
  else do
    let l ← lambda Re d k
    Res.ok (0, -rho0 / (2 * area * d) * l * |st.2| * st.2 / st.1)

/-- `dsource_dstate` — `Isothermaleulerequation.cpp` 104-135. -/
def dsource (d k : ℝ) (st : ℝ × ℝ) : Res Mat2 :=
  let Re := reynolds st.2 d
  let area := circleArea (0.5 * d)
  if Re < laminarBorder then
    Res.ok ⟨0, 0, rho0 / (2 * area * d) * 64 / coeffReynolds d * st.2 / (st.1 * st.1),
      -rho0 / (2 * area * d) * 64 / coeffReynolds d / st.1⟩
  else do
    let l ← lambda Re d k
    let dl ← dlambda Re d k
    let dRe ← dReynolds st.2 d
    let dab ← dabs st.2
    Res.ok ⟨0, 0, rho0 / (2 * area * d) * l * |st.2| * st.2 / (st.1 * st.1),
      -rho0 / (2 * area * d) / st.1 * (dl * dRe * |st.2| * st.2 + l * dab * st.2 + l * |st.2|)⟩

end

end Verif.Euler
