import Verif.Network.Converge
import Mathlib.Analysis.Calculus.ImplicitFunction.ProdDomain

/-! # Property C119: the next state is a function of last state and control -/

set_option autoImplicit false

namespace Verif.Network

open Verif.Net Verif.Handler Filter Topology

/-- C119. Around a regular point of an admissible network at which the matrix of the components is invertible, the equations of a time step
determine the new state: for each last state and control close by there is one new state close by with the same residual (zero, if the
point solves the equations), and it depends on them differentiably. The derivative is the one obtained by solving linear equations with the matrices of the
components. -/
theorem C119_next (N : Net) (hN : Admissible N) (s t : ℝ) (z : N.Point) (hr : Regular N t (ext z.2.1)) (hdet : (N.newMatrix s t z).det ≠ 0) :
    ∃ (next : (Fin N.stateCount → ℝ) × (Fin N.controlCount → ℝ) → Fin N.stateCount → ℝ) (r : Fin N.stateCount → ℝ),
      N.residual s t z = Res.ok r ∧ next (z.1, z.2.2) = z.2.1 ∧
      (∀ᶠ w : N.Point in 𝓝 z, N.residual s t w = Res.ok r ↔ w.2.1 = next (w.1, w.2.2)) ∧
      (∀ᶠ p in 𝓝 (z.1, z.2.2), N.residual s t (p.1, next p, p.2) = Res.ok r) ∧
      ∃ (last control : List (Contribution ℝ)) (D : (Fin N.stateCount → ℝ) × (Fin N.controlCount → ℝ) →L[ℝ] (Fin N.stateCount → ℝ)), N.dLast = Res.ok last ∧ N.dControl = Res.ok control ∧ 
        HasStrictFDerivAt next D (z.1, z.2.2) ∧ ∀ u c, (N.newMatrix s t z).mulVec (D (u, c)) + (matrixOf _ _ last).mulVec u + (matrixOf _ _ control).mulVec c = 0 := by
  obtain ⟨g, last, control, hl, hc, hg, hD⟩ := hN.residual_strict s hr
  -- the arguments in another order
  let σ : ((Fin N.stateCount → ℝ) × (Fin N.controlCount → ℝ)) × (Fin N.stateCount → ℝ) →L[ℝ] N.Point :=
    ((ContinuousLinearMap.fst ℝ _ _).comp (ContinuousLinearMap.fst ℝ _ _)).prod
      ((ContinuousLinearMap.snd ℝ _ _).prod ((ContinuousLinearMap.snd ℝ _ _).comp (ContinuousLinearMap.fst ℝ _ _)))
  have hσ : ∀ p, σ p = (p.1.1, p.2, p.1.2) := fun p => rfl
  let u : ((Fin N.stateCount → ℝ) × (Fin N.controlCount → ℝ)) × (Fin N.stateCount → ℝ) := ((z.1, z.2.2), z.2.1)
  have hu : σ u = z := rfl
  have hD' : HasStrictFDerivAt g (derivativeOf (matrixOf _ _ last) (N.newMatrix s t z) (matrixOf _ _ control)) (σ u) := hu ▸ hD
  have hf := hD'.comp u σ.hasStrictFDerivAt
  set f' := (derivativeOf (matrixOf _ _ last) (N.newMatrix s t z) (matrixOf _ _ control)).comp σ with hf'
  have hunit := isUnit_iff_ne_zero.mpr hdet
  have hinv : (f' ∘L .inr ℝ _ _).IsInvertible := by
    refine ⟨ContinuousLinearEquiv.equivOfInverse (mulVecL _ _ (N.newMatrix s t z)) (mulVecL _ _ (N.newMatrix s t z)⁻¹) ?_ ?_, ?_⟩
    · intro v
      rw [mulVecL_apply, mulVecL_apply, Matrix.mulVec_mulVec, Matrix.nonsing_inv_mul _ hunit, Matrix.one_mulVec]
    · intro v
      rw [mulVecL_apply, mulVecL_apply, Matrix.mulVec_mulVec, Matrix.mul_nonsing_inv _ hunit, Matrix.one_mulVec]
    · refine ContinuousLinearMap.ext fun v => ?_
      show (N.newMatrix s t z).mulVec v = derivativeOf _ _ _ (σ (0, v))
      rw [hσ, derivativeOf_apply]
      simp
  set ψ := hf.implicitFunctionOfProdDomain hinv with hψ
  have hval := hf.eventually_apply_eq_iff_implicitFunctionOfProdDomain hinv
  have hψu : ψ u.1 = u.2 := hval.self_of_nhds.mp rfl
  have hres : N.residual s t z = Res.ok (g z) := hg.self_of_nhds
  have hτ : Continuous fun w : N.Point => ((w.1, w.2.2), w.2.1) := by fun_prop
  refine ⟨ψ, g z, hres, hψu, ?_, ?_, last, control, _, hl, hc, hf.hasStrictFDerivAt_implicitFunctionOfProdDomain hinv, fun a b => ?_⟩
  · have h1 : Tendsto (fun w : N.Point => ((w.1, w.2.2), w.2.1)) (𝓝 z) (𝓝 u) := hτ.continuousAt
    filter_upwards [hg, h1.eventually hval] with w hw hw'
    rw [hw]
    constructor
    · intro h
      injection h with h
      exact (hw'.mp h).symm
    · intro h
      exact congrArg Res.ok (hw'.mpr h.symm)
  · have h2 : ∀ᶠ p in 𝓝 u.1, g (σ (p, ψ p)) = g z := hf.eventually_apply_implicitFunctionOfProdDomain hinv
    have h3 : Tendsto (fun p => σ (p, ψ p)) (𝓝 u.1) (𝓝 z) := by
      have := (continuousAt_id (x := u.1)).prodMk (hf.hasStrictFDerivAt_implicitFunctionOfProdDomain hinv).continuousAt
      have := (σ.continuous.continuousAt.comp this).tendsto
      simp only [Function.comp, id] at this
      rw [← hψ, hψu] at this
      exact this
    filter_upwards [h2, h3.eventually hg] with p hp hp'
    exact hp'.trans (congrArg Res.ok hp)
  · set G := f' ∘L .inr ℝ _ _ with hG
    have hGv : ∀ v, G v = (N.newMatrix s t z).mulVec v := by
      intro v
      show derivativeOf _ _ _ (σ (0, v)) = _
      rw [hσ, derivativeOf_apply]
      simp
    have e : (N.newMatrix s t z).mulVec ((-(G.inverse) ∘L (f' ∘L .inl ℝ _ _)) (a, b)) =
        -((matrixOf _ _ last).mulVec a + (matrixOf _ _ control).mulVec b) := by
      rw [← hGv]
      have h1 : G (G.inverse ((f' ∘L .inl ℝ _ _) (a, b))) = (f' ∘L .inl ℝ _ _) (a, b) := by
        obtain ⟨E, hE⟩ := hinv
        rw [← hE, ContinuousLinearMap.inverse_equiv]
        exact E.apply_symm_apply _
      show G (-(G.inverse ((f' ∘L .inl ℝ _ _) (a, b)))) = _
      rw [map_neg, h1]
      show -(derivativeOf _ _ _ (σ ((a, b), 0))) = _
      rw [hσ, derivativeOf_apply]
      simp
    rw [e]
    abel

/-! ## A sequence of time steps -/

/-- The states that follow from the first one and the controls by the functions `next`. -/
def follow {V U W : Type} (next : ℕ → V × U → V) (c : W → ℕ → U) (first : V) : ℕ → W → V
  | 0 => fun _ => first
  | i + 1 => fun v => next i (follow next c first i v, c v (i + 1))

/-- C119. The states of a simulation continue to states for all nearby values of parameters on which the controls depend
continuously, in exactly one way such that the residuals do not change. -/
theorem C119_continuation (N : Net) (hN : Admissible N) {W : Type} [TopologicalSpace W] (time : ℕ → ℝ) (steps : ℕ)
    (Y : ℕ → Fin N.stateCount → ℝ) (c : W → ℕ → Fin N.controlCount → ℝ) (w : W)
    (hcont : ∀ i < steps, ContinuousAt (fun v => c v (i + 1)) w)
    (hr : ∀ i < steps, Regular N (time (i + 1)) (ext (Y (i + 1))))
    (hdet : ∀ i < steps, (N.newMatrix (time i) (time (i + 1)) (Y i, Y (i + 1), c w (i + 1))).det ≠ 0) :
    ∃ X : ℕ → W → Fin N.stateCount → ℝ, (∀ v, X 0 v = Y 0) ∧ (∀ i ≤ steps, X i w = Y i ∧ ContinuousAt (X i) w) ∧
      (∀ i < steps, ∃ r, ∀ᶠ v in 𝓝 w, N.residual (time i) (time (i + 1)) (X i v, X (i + 1) v, c v (i + 1)) = Res.ok r) ∧
      ∀ X' : ℕ → W → Fin N.stateCount → ℝ, (∀ᶠ v in 𝓝 w, X' 0 v = Y 0) → (∀ i ≤ steps, X' i w = Y i ∧ ContinuousAt (X' i) w) →
        (∀ i < steps, ∃ r, ∀ᶠ v in 𝓝 w, N.residual (time i) (time (i + 1)) (X' i v, X' (i + 1) v, c v (i + 1)) = Res.ok r) →
        ∀ i ≤ steps, ∀ᶠ v in 𝓝 w, X' i v = X i v := by
  have key : ∀ i, ∃ (next : (Fin N.stateCount → ℝ) × (Fin N.controlCount → ℝ) → Fin N.stateCount → ℝ) (r : Fin N.stateCount → ℝ), i < steps →
      N.residual (time i) (time (i + 1)) (Y i, Y (i + 1), c w (i + 1)) = Res.ok r ∧ next (Y i, c w (i + 1)) = Y (i + 1) ∧
      (∀ᶠ z : N.Point in 𝓝 (Y i, Y (i + 1), c w (i + 1)), N.residual (time i) (time (i + 1)) z = Res.ok r ↔ z.2.1 = next (z.1, z.2.2)) ∧
      (∀ᶠ p in 𝓝 (Y i, c w (i + 1)), N.residual (time i) (time (i + 1)) (p.1, next p, p.2) = Res.ok r) ∧
      ContinuousAt next (Y i, c w (i + 1)) := by
    intro i
    by_cases hi : i < steps
    · obtain ⟨next, r, h1, h2, h3, h4, -, -, D, -, -, h5, -⟩ := C119_next N hN (time i) (time (i + 1)) (Y i, Y (i + 1), c w (i + 1)) (hr i hi)
        (hdet i hi)
      exact ⟨next, r, fun _ => ⟨h1, h2, h3, h4, h5.continuousAt⟩⟩
    · exact ⟨fun _ => 0, 0, fun h => absurd h hi⟩
  choose next r hkey using key
  have hX : ∀ i ≤ steps, follow next c (Y 0) i w = Y i ∧ ContinuousAt (follow next c (Y 0) i) w := by
    intro i
    induction i with
    | zero => exact fun _ => ⟨rfl, continuousAt_const⟩
    | succ i ih =>
      intro hi
      obtain ⟨e1, e2⟩ := ih (by omega)
      obtain ⟨-, k2, -, -, k5⟩ := hkey i (by omega)
      refine ⟨by show next i (follow next c (Y 0) i w, c w (i + 1)) = _; rw [e1, k2], ?_⟩
      have h1 : ContinuousAt (fun v => (follow next c (Y 0) i v, c v (i + 1))) w := e2.prodMk (hcont i (by omega))
      exact ContinuousAt.comp (g := next i) (f := fun v => (follow next c (Y 0) i v, c v (i + 1))) (by simp only [e1]; exact k5) h1
  refine ⟨follow next c (Y 0), fun v => rfl, hX, fun i hi => ?_, fun X' x0 x1 x2 => ?_⟩
  · obtain ⟨-, -, -, k4, -⟩ := hkey i hi
    obtain ⟨e1, e2⟩ := hX i hi.le
    have h1 : Tendsto (fun v => (follow next c (Y 0) i v, c v (i + 1))) (𝓝 w) (𝓝 (Y i, c w (i + 1))) := by
      have := (e2.prodMk (hcont i hi)).tendsto
      rwa [e1] at this
    exact ⟨r i, h1.eventually k4⟩
  · intro i
    induction i with
    | zero => exact fun _ => x0
    | succ i ih =>
      intro hi
      obtain ⟨k1, -, k3, -, -⟩ := hkey i (by omega)
      obtain ⟨a1, a2⟩ := x1 i (by omega)
      obtain ⟨b1, b2⟩ := x1 (i + 1) hi
      obtain ⟨r', hr'⟩ := x2 i (by omega)
      have hrr : r' = r i := by
        have := hr'.self_of_nhds
        rw [a1, b1, k1] at this
        injection this with this
        exact this.symm
      subst hrr
      have h1 : Tendsto (fun v => (X' i v, X' (i + 1) v, c v (i + 1))) (𝓝 w) (𝓝 (Y i, Y (i + 1), c w (i + 1))) := by
        have := (a2.prodMk (b2.prodMk (hcont i (by omega)))).tendsto
        rwa [a1, b1] at this
      filter_upwards [ih (by omega), hr', h1.eventually k3] with v v1 v2 v3
      rw [v3.mp v2]
      show next i (X' i v, c v (i + 1)) = next i (follow next c (Y 0) i v, c v (i + 1))
      rw [v1]

end Verif.Network
