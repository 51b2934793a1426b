import Verif.Basic.Res
import Mathlib.Analysis.Calculus.FDeriv.Comp
import Mathlib.Analysis.Calculus.FDeriv.Add
import Mathlib.Analysis.Calculus.FDeriv.Prod

/-! # Derivatives of computations that may throw -/

set_option autoImplicit false

namespace Verif

open Filter Topology

variable {E F G : Type} [NormedAddCommGroup E] [NormedSpace ℝ E] [NormedAddCommGroup F]
  [NormedSpace ℝ F] [NormedAddCommGroup G] [NormedSpace ℝ G]

/-- Near `x` the computation ends normally, and its value has the derivative `D` at `x`. -/
def Derives (f : E → Res F) (D : E →L[ℝ] F) (x : E) : Prop :=
  ∃ g : E → F, (∀ᶠ y in 𝓝 x, f y = Res.ok (g y)) ∧ HasFDerivAt g D x

/-- The same after a differentiable change of variables. -/
theorem Derives.comp {f : F → Res G} {D : F →L[ℝ] G} {c : E → F} {c' : E →L[ℝ] F} {y : E}
    (h : Derives f D (c y)) (hc : HasFDerivAt c c' y) : Derives (fun z => f (c z)) (D.comp c') y := by
  obtain ⟨g, hg, hd⟩ := h
  exact ⟨fun z => g (c z), hc.continuousAt.eventually hg, hd.comp y hc⟩

theorem Derives.of_eq {f : E → Res F} {g : E → F} {D : E →L[ℝ] F} {x : E}
    (hf : ∀ y, f y = Res.ok (g y)) (hg : HasFDerivAt g D x) : Derives f D x :=
  ⟨g, Eventually.of_forall hf, hg⟩

/-- At the point itself the computation ends normally. -/
theorem Derives.ok {f : E → Res F} {D : E →L[ℝ] F} {x : E} (h : Derives f D x) :
    ∃ v, f x = Res.ok v := by
  obtain ⟨g, hg, -⟩ := h
  exact ⟨g x, hg.self_of_nhds⟩

/-- Two computations one after the other, then a differentiable function of their values. -/
theorem Derives.map₂ {f₁ f₂ : E → Res F} {D₁ D₂ : E →L[ℝ] F} {x : E} (h₁ : Derives f₁ D₁ x)
    (h₂ : Derives f₂ D₂ x) :
    ∃ g₁ g₂ : E → F, (∀ᶠ y in 𝓝 x, f₁ y = Res.ok (g₁ y) ∧ f₂ y = Res.ok (g₂ y)) ∧
      HasFDerivAt g₁ D₁ x ∧ HasFDerivAt g₂ D₂ x := by
  obtain ⟨g₁, e₁, d₁⟩ := h₁
  obtain ⟨g₂, e₂, d₂⟩ := h₂
  exact ⟨g₁, g₂, e₁.and e₂, d₁, d₂⟩

end Verif
