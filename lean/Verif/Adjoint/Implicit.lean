import Mathlib.Analysis.Calculus.FDeriv.Comp
import Mathlib.Analysis.Calculus.FDeriv.Prod
import Mathlib.Analysis.Calculus.FDeriv.Add
import Mathlib.Analysis.Calculus.FDeriv.Linear
import Mathlib.Analysis.Calculus.FDeriv.Equiv

/-! # Differentiability of an implicitly given function -/

set_option autoImplicit false

namespace Verif.Adjoint

open Filter Topology Asymptotics

variable {X Y Z : Type*} [NormedAddCommGroup X] [NormedSpace ℝ X] [NormedAddCommGroup Y]
  [NormedSpace ℝ Y] [NormedAddCommGroup Z] [NormedSpace ℝ Z]

/-- If `F(V, x(V)) = 0` near `a`, `x` is continuous at `a`, and `F` is differentiable at `(a, x a)`
with invertible partial derivative in the second argument, then `x` is differentiable at `a`. -/
theorem hasFDerivAt_of_implicit {F : X × Y → Z} {F' : X × Y →L[ℝ] Z} {A : Y ≃L[ℝ] Z} {x : X → Y}
    {a : X} (hx : ContinuousAt x a) (hF : HasFDerivAt F F' (a, x a))
    (hA : ∀ y, F' (0, y) = A y) (h0 : ∀ᶠ V in 𝓝 a, F (V, x V) = 0) :
    HasFDerivAt x (-((A.symm : Z →L[ℝ] Y).comp (F'.comp (ContinuousLinearMap.inl ℝ X Y)))) a := by
  set L : X →L[ℝ] Y := -((A.symm : Z →L[ℝ] Y).comp (F'.comp (ContinuousLinearMap.inl ℝ X Y))) with hL
  have hfa : F (a, x a) = 0 := h0.self_of_nhds
  have htend : Tendsto (fun V => (V, x V)) (𝓝 a) (𝓝 (a, x a)) :=
    (continuousAt_id.prodMk hx)
  have ho : (fun V => F (V, x V) - F (a, x a) - F' ((V, x V) - (a, x a))) =o[𝓝 a]
      fun V => ((V, x V) - (a, x a) : X × Y) := by
    have := (hasFDerivAt_iff_isLittleO.mp hF).comp_tendsto htend
    exact this
  -- the remainder of `x`
  have hrem : (fun V => x V - x a - L (V - a)) =o[𝓝 a] fun V => ((V, x V) - (a, x a) : X × Y) := by
    have h1 : (fun V => A.symm (F (V, x V) - F (a, x a) - F' ((V, x V) - (a, x a)))) =o[𝓝 a]
        fun V => ((V, x V) - (a, x a) : X × Y) :=
      ((A.symm : Z →L[ℝ] Y).isBigO_comp _ _).trans_isLittleO ho
    refine (h1.neg_left).congr' ?_ (EventuallyEq.refl _ _)
    filter_upwards [h0] with V hV
    rw [hV, hfa]
    have hsplit : F' ((V, x V) - (a, x a)) = F' (V - a, 0) + A (x V - x a) := by
      rw [← hA, ← map_add]; simp
    simp only [sub_self, zero_sub, map_neg, neg_neg, hsplit, map_add,
      ContinuousLinearEquiv.symm_apply_apply]
    simp [hL]
    abel
  -- `x V - x a` is `O(V - a)`
  have hbig : (fun V => x V - x a) =O[𝓝 a] fun V => V - a := by
    have hc := hrem.def (show (0 : ℝ) < 1 / 2 by norm_num)
    refine IsBigO.of_bound (2 * ‖L‖ + 1) ?_
    filter_upwards [hc] with V hV
    have hpr : ‖((V, x V) - (a, x a) : X × Y)‖ ≤ ‖V - a‖ + ‖x V - x a‖ := by
      rw [Prod.mk_sub_mk, Prod.norm_def]
      exact max_le (le_add_of_nonneg_right (norm_nonneg _)) (le_add_of_nonneg_left (norm_nonneg _))
    have h3 : ‖x V - x a‖ ≤ ‖x V - x a - L (V - a)‖ + ‖L‖ * ‖V - a‖ := by
      calc ‖x V - x a‖ = ‖(x V - x a - L (V - a)) + L (V - a)‖ := by congr 1; abel
        _ ≤ ‖x V - x a - L (V - a)‖ + ‖L (V - a)‖ := norm_add_le _ _
        _ ≤ _ := by gcongr; exact L.le_opNorm _
    nlinarith [norm_nonneg (V - a), norm_nonneg (x V - x a)]
  rw [hasFDerivAt_iff_isLittleO]
  refine hrem.trans_isBigO ?_
  have : (fun V => ((V, x V) - (a, x a) : X × Y)) =O[𝓝 a] fun V => V - a :=
    (isBigO_refl (fun V => V - a) _).prod_left hbig
  exact this

end Verif.Adjoint
