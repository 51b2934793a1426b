import Mathlib.Analysis.Calculus.Deriv.Basic
import Mathlib.Analysis.Calculus.FDeriv.Basic

/-! # Derivatives of functions defined piece by piece -/

set_option autoImplicit false

namespace Verif

open Set Filter Topology

/-- A function that agrees to the left of `a` with `f` and to the right with `g` is differentiable at `a`
if `f` and `g` have the same derivative there. -/
theorem hasDerivAt_glue {F f g : ℝ → ℝ} {d a : ℝ} (hf : HasDerivAt f d a) (hg : HasDerivAt g d a)
    (hl : ∀ᶠ x in 𝓝 a, x ≤ a → F x = f x) (hr : ∀ᶠ x in 𝓝 a, a ≤ x → F x = g x) :
    HasDerivAt F d a := by
  have h1 : HasDerivWithinAt F d (Iic a) a := by
    refine hf.hasDerivWithinAt.congr_of_eventuallyEq ?_ (hl.self_of_nhds le_rfl)
    exact (mem_nhdsWithin_of_mem_nhds hl : _ ∈ 𝓝[Iic a] a) |> fun h => by
      filter_upwards [h, self_mem_nhdsWithin] with x hx hxa
      exact hx hxa
  have h2 : HasDerivWithinAt F d (Ici a) a := by
    refine hg.hasDerivWithinAt.congr_of_eventuallyEq ?_ (hr.self_of_nhds le_rfl)
    exact (mem_nhdsWithin_of_mem_nhds hr : _ ∈ 𝓝[Ici a] a) |> fun h => by
      filter_upwards [h, self_mem_nhdsWithin] with x hx hxa
      exact hx hxa
  have := h1.union h2
  rwa [Iic_union_Ici, hasDerivWithinAt_univ] at this

end Verif
