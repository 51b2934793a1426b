import Verif.Float.Rounding

/-! # Without rounding the models of `Verif.Float` are those of the other modules -/

set_option autoImplicit false

namespace Verif.Float

open Verif.Interp

variable {K : Type} [Field K] [LinearOrder K]

section
variable [IsStrictOrderedRing K]

theorem eval_exact (v : IV K) (t : K) : eval (.exact K) v t = Interp.eval v t := rfl

theorem points_exact (c d : K) (n : ℕ) : points (.exact K) c d n = equidistantLoop c d n := by
  induction n generalizing c with
  | zero => rfl
  | succ n ih =>
    simp only [points, equidistantLoop, ih]
    rfl

theorem stateGrid_exact [FloorRing K] (start desired stop : K) :
    stateGrid (.exact K) start desired stop = Times.stateGrid start desired stop := by
  unfold stateGrid Times.stateGrid
  congr 1
  funext number
  have hd : deltaT (.exact K) start stop number = Times.deltaT start stop number := rfl
  rw [hd]
  unfold gridFromDelta Times.gridFromDelta
  cases Times.deltaT start stop number with
  | finite d =>
    simp only
    have : makeFromStartDeltaEnd (.exact K) start d stop = Interp.makeFromStartDeltaEnd start d stop := rfl
    rw [this]
    congr 1
    funext data
    rw [points_exact]
    rfl
  | _ => rfl

end

end Verif.Float
