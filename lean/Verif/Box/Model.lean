import Verif.Basic.Res
import Verif.Euler.Model
import Mathlib.Analysis.Normed.Operator.Basic
import Mathlib.Topology.Algebra.Module.ContinuousLinearMap.Basic

/-!
# Model of the implicit box scheme

Source: `/repo/src/Model/Scheme/include/Implicitboxscheme.hpp`. The template argument `Dimension` is
modelled by an arbitrary normed space `V`, square matrices by continuous linear maps. The balance law
is arbitrary; its source may throw. The code divides by `Delta_x` without a check; the theorems assume
`Delta_x ≠ 0` (see C38: a pipe has a positive `Delta_x`).
-/

set_option autoImplicit false

namespace Verif.Box

variable {V : Type} [NormedAddCommGroup V] [NormedSpace ℝ V]

/-- `Balancelaw<Dimension>` — `/repo/src/Model/Balancelaw/include/Balancelaw.hpp`: flux, source and
their derivatives. -/
structure Law (V : Type) [NormedAddCommGroup V] [NormedSpace ℝ V] where
  flux : V → V
  dflux : V → V →L[ℝ] V
  source : V → Res V
  dsource : V → Res (V →L[ℝ] V)

noncomputable section

/-- `evaluate_point` — `Implicitboxscheme.hpp` 29-42. -/
def evaluatePoint (bl : Law V) (lastTime newTime dx : ℝ) (lastLeft lastRight newLeft newRight : V) :
    Res V := do
  let dt := newTime - lastTime
  let sr ← bl.source newRight
  let sl ← bl.source newLeft
  Res.ok ((0.5 : ℝ) • (newLeft + newRight) - (0.5 : ℝ) • (lastLeft + lastRight)
    - (dt / dx) • (bl.flux newLeft - bl.flux newRight) - (0.5 * dt) • (sr + sl))

/-- `devaluate_point_d_new_left` — `Implicitboxscheme.hpp` 44-58. -/
def dNewLeft (bl : Law V) (lastTime newTime dx : ℝ) (newLeft : V) : Res (V →L[ℝ] V) := do
  let dt := newTime - lastTime
  let ds ← bl.dsource newLeft
  Res.ok ((0.5 : ℝ) • ContinuousLinearMap.id ℝ V - (dt / dx) • bl.dflux newLeft - (0.5 * dt) • ds)

/-- `devaluate_point_d_new_right` — `Implicitboxscheme.hpp` 60-75. -/
def dNewRight (bl : Law V) (lastTime newTime dx : ℝ) (newRight : V) : Res (V →L[ℝ] V) := do
  let dt := newTime - lastTime
  let ds ← bl.dsource newRight
  Res.ok ((0.5 : ℝ) • ContinuousLinearMap.id ℝ V + (dt / dx) • bl.dflux newRight - (0.5 * dt) • ds)

/-- `devaluate_point_d_last_left` — `Implicitboxscheme.hpp` 77-90. -/
def dLastLeft : V →L[ℝ] V := (-0.5 : ℝ) • ContinuousLinearMap.id ℝ V

/-- `devaluate_point_d_last_right` — `Implicitboxscheme.hpp` 92-105. -/
def dLastRight : V →L[ℝ] V := (-0.5 : ℝ) • ContinuousLinearMap.id ℝ V

open Verif.Euler in
/-- `Isothermaleulerequation` as the balance law of a pipe with diameter `d` and roughness `k` —
`Isothermaleulerequation.cpp` 53-135. -/
def eulerLaw (d k : ℝ) : Law (ℝ × ℝ) where
  flux := Euler.flux d
  dflux := fun st => (Euler.dflux d st).map
  source := Euler.source d k
  dsource := fun st => do
    let M ← Euler.dsource d k st
    Res.ok M.map

end

end Verif.Box
