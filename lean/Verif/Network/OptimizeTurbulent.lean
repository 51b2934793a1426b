import Verif.Network.OptimizeExample
import Verif.Network.Turbulent
import Mathlib.Analysis.Calculus.ImplicitFunction.ProdDomain
import Mathlib.Analysis.SpecialFunctions.Pow.Deriv

/-!
# C73 is false for turbulent flow

A compressor between a node with prescribed pressure and a short pipe, at the end of which a sink takes one cubic meter per second. The
control of the compressor changes the density at the sink. The Jacobian the optimizer computes is not the derivative.
-/

set_option autoImplicit false

namespace Verif.Network

open Verif.Net Verif.Handler Verif.Adjoint Verif.Interp Verif.OptTimes Verif.IndexLambda Verif.Jacobian Filter Topology Matrix

/-- As `Simulated`, without the assumption that no flow is turbulent: densities are positive and nothing keeps the equations from being computed. -/
structure Followed (N : Net) (states : List ℝ) {r q : ℕ} (I : Input N.stateCount N.controlCount r ℝ)
    (x : ℕ → (Fin q → Fin N.controlCount → ℝ) → (Fin N.stateCount → ℝ)) (V₀ : Fin q → Fin N.controlCount → ℝ) : Prop where
  initial : ∀ V, x 0 V = x 0 V₀
  solved : ∀ i (_ : 1 ≤ i) (hi : i < states.length), ∀ᶠ V in 𝓝 V₀,
    N.residual states[i - 1] states[i] (x (i - 1) V, x i V, control I i V) = Res.ok 0
  continuous : ∀ i, 1 ≤ i → i < states.length → ContinuousAt (x i) V₀
  computable : ∀ i (hi : i < states.length), Computable N states[i]
  positive : ∀ i, 1 ≤ i → i < states.length → ∀ k dx d r n, N.edge k = .gas (.pipe dx d r) n → ∀ j : ℤ, (N.edgeRange k).1 ≤ j →
    j + 1 < (N.edgeRange k).2 → (j - (N.edgeRange k).1) % 2 = 0 → 0 < ext (x i V₀) j

/-- C73 for all flows: the sweep of the optimizer succeeds, its gradient is the derivative of the discretised objective and its Jacobian that of
all constraints, with respect to the values of the controls at all control times. -/
def C73Statement : Prop := ∀ (N : Net) (_ : Admissible N) (G : Goals N) (_ : G.netWeight = 1) (_ : G.Attached)
    (states controls cons : List ℝ) (I : Input N.stateCount N.controlCount G.count ℝ)
    (_ : FromOptimizer I states controls cons) (_ : states.Pairwise (· < ·))
    (_ : controls.Pairwise (· < ·)) (_ : 0 < states.length) (_ : 0 < controls.length)
    (_ : controls[0] ≤ states[0])
    (_ : states[states.length - 1] < controls[controls.length - 1] + EPSILON)
    (_ : checkConstraintTimes states cons = Res.ok ())
    (_ : 0 < G.count → (cons ≠ [] ∧ cons.head? = states.tail.head?) ∨ ∃ v, I.oob = some v ∧ v ∉ states.tail)
    (x : ℕ → (Fin controls.length → Fin N.controlCount → ℝ) → (Fin N.stateCount → ℝ))
    (V₀ : Fin controls.length → Fin N.controlCount → ℝ) (_ : Followed N states I x V₀)
    (_ : ∀ i (_ : 1 ≤ i) (hi : i < states.length),
      N.stepData G states[i - 1] states[i] (x (i - 1) V₀, x i V₀, control I i V₀) = Res.ok (I.data i))
    (_ : ∀ i, 1 ≤ i → i < states.length → (I.data i).dEdnew.det ≠ 0),
    ∃ s, computeDerivatives I (states.length - 1) = Res.ok (some s) ∧
      (∃ D : (Fin controls.length → Fin N.controlCount → ℝ) →L[ℝ] ℝ,
        HasFDerivAt (fun V => Verif.Weights.accumulate I.weight
          (fun i => G.objective (x i V, control I i V)) states.length) D V₀ ∧
        ∀ dV, D dV = ∑ j : Fin controls.length, s.gradient j ⬝ᵥ dV j) ∧
      ∀ (k : ℕ) (hk : k < cons.length), ∃ p, ∃ hp : p < states.length, states[p] = cons[k] ∧
        ∃ D : (Fin controls.length → Fin N.controlCount → ℝ) →L[ℝ] (Fin G.count → ℝ),
          Derives (fun V => G.constraintVector (x p V, control I p V)) D V₀ ∧
          ∀ dV, D dV = ∑ j : Fin controls.length, s.jacobian k j *ᵥ dV j

noncomputable section

namespace Fast

/-- The second component of the source. -/
def S (x : ℝ × ℝ) : ℝ := (Euler.valueOf (Euler.source 1 0 x)).2

/-- The second component of the flux. -/
def F (x : ℝ × ℝ) : ℝ := (Euler.flux 1 x).2

theorem contDiff_F : ContDiffAt ℝ 1 F (1, 1) := by
  have hD := (Euler.C31_density_round_trip 1).2 one_pos.le
  unfold F Euler.flux Euler.p
  refine ContDiffAt.add (ContDiffAt.mul contDiffAt_const (ContDiffAt.div (by fun_prop) (by fun_prop) ?_)) (ContDiffAt.div (by fun_prop) (by fun_prop) ?_)
  · simpa using hD
  · norm_num

theorem contDiff_S : ContDiffAt ℝ 1 S (1, 1) := by
  obtain ⟨hp, hRe⟩ := Euler.turbulent_example
  have hcR : ∀ q : ℝ, Euler.reynolds q 1 = Euler.coeffReynolds 1 * |q| := fun q => by
    unfold Euler.reynolds Euler.coeffReynolds; rfl
  have hc4 : 4000 < Euler.coeffReynolds 1 * 1 := by
    have := hcR 1; rw [abs_one] at this; rw [← this]; exact hRe
  obtain ⟨a0, a1⟩ := Euler.sjArg_range hc4.le one_pos le_rfl (zero_le_one)
  have hsj : ContDiffAt ℝ 1 (fun x : ℝ × ℝ => Euler.sj 1 0 (Euler.coeffReynolds 1 * x.2)) (1, 1) := by
    have hR : ContDiffAt ℝ 1 (fun x : ℝ × ℝ => Euler.coeffReynolds 1 * x.2) (1, 1) := by fun_prop
    have hR0 : Euler.coeffReynolds 1 * 1 ≠ 0 := by linarith
    have hpow : ContDiffAt ℝ 1 (fun x : ℝ × ℝ => (Euler.coeffReynolds 1 * x.2) ^ (0.9 : ℝ)) (1, 1) :=
      hR.rpow_const_of_ne hR0
    have hpow0 : (Euler.coeffReynolds 1 * 1) ^ (0.9 : ℝ) ≠ 0 := (Real.rpow_pos_of_pos (by linarith) _).ne'
    have harg : ContDiffAt ℝ 1 (fun x : ℝ × ℝ => Euler.sjArg (Euler.coeffReynolds 1 * x.2) 1 0) (1, 1) := by
      unfold Euler.sjArg
      exact contDiffAt_const.add (contDiffAt_const.div hpow hpow0)
    have hlog : ContDiffAt ℝ 1 (fun x : ℝ × ℝ => Real.logb 10 (Euler.sjArg (Euler.coeffReynolds 1 * x.2) 1 0)) (1, 1) := by
      unfold Real.logb
      exact (harg.log a0.ne').div_const _
    unfold Euler.sj
    refine contDiffAt_const.div (hlog.pow 2) ?_
    exact pow_ne_zero 2 (Euler.logb_ne_zero a0 a1.ne)
  have hg : ContDiffAt ℝ 1 (fun x : ℝ × ℝ => -Euler.rho0 / (2 * SmoothAbs.circleArea (0.5 * 1) * 1) *
      (Euler.sj 1 0 (Euler.coeffReynolds 1 * x.2) * x.2 * x.2) / x.1) (1, 1) := by
    refine ContDiffAt.div (contDiffAt_const.mul ((hsj.mul contDiffAt_snd).mul contDiffAt_snd)) contDiffAt_fst ?_
    norm_num
  refine hg.congr_of_eventuallyEq ?_
  have hcont : ContinuousAt (fun x : ℝ × ℝ => Euler.coeffReynolds 1 * x.2) (1, 1) := by fun_prop
  have hpos : ∀ᶠ x : ℝ × ℝ in 𝓝 (1, 1), 0 < x.2 := continuousAt_const.eventually_lt continuousAt_snd one_pos
  filter_upwards [continuousAt_const.eventually_lt hcont hc4, hpos] with x hx hx0
  unfold S
  rw [Euler.C34_source_defined hp]
  have hR : Euler.reynolds x.2 1 = Euler.coeffReynolds 1 * x.2 := by rw [hcR, abs_of_pos hx0]
  simp only [Euler.valueOf, Euler.force]
  rw [hR, if_neg (by linarith), Euler.lambda_turbulent hx]
  simp only [abs_of_pos hx0]

/-- A row of a matrix as a linear map. -/
def row (a b : ℝ) : ℝ × ℝ →L[ℝ] ℝ := a • ContinuousLinearMap.fst ℝ ℝ ℝ + b • ContinuousLinearMap.snd ℝ ℝ ℝ

theorem row_apply (a b : ℝ) (x : ℝ × ℝ) : row a b x = a * x.1 + b * x.2 := rfl

theorem strict_F : HasStrictFDerivAt F (row (Euler.dflux 1 (1, 1)).m10 (Euler.dflux 1 (1, 1)).m11) (1, 1) :=
  contDiff_F.hasStrictFDerivAt' (Euler.C34_flux 1 (1, 1) one_ne_zero ((Euler.C31_density_round_trip 1).2 one_pos.le)).snd one_ne_zero

/-- The matrix of the source has a wrong entry for the flow, and only there. -/
theorem source_data : ∃ t₀ t₁ m₁ : ℝ, Euler.dsource 1 0 (1, 1) = Res.ok ⟨0, 0, t₀, m₁⟩ ∧ HasStrictFDerivAt S (row t₀ t₁) (1, 1) ∧ m₁ ≠ t₁ := by
  obtain ⟨hp, hRe⟩ := Euler.turbulent_example
  obtain ⟨M, T, hM, hT, hne⟩ := Euler.C34_source_turbulent hp (1, 1) one_ne_zero hRe
  have hTs : HasFDerivAt S (row T.m10 T.m11) (1, 1) := hT.snd
  have hT0 : T.m10 = -S (1, 1) := by
    have hpath : HasDerivAt (fun t : ℝ => (t, (1 : ℝ))) (1, 0) 1 := (hasDerivAt_id' 1).prodMk (hasDerivAt_const _ _)
    have h1 : HasDerivAt (fun t : ℝ => S (t, 1)) (row T.m10 T.m11 (1, 0)) 1 :=
      HasFDerivAt.comp_hasDerivAt (f := fun t : ℝ => (t, (1 : ℝ))) (1 : ℝ) hTs hpath
    have h2 : HasDerivAt (fun t : ℝ => S (1, 1) * t⁻¹) (S (1, 1) * -(1 ^ 2)⁻¹) 1 := (hasDerivAt_inv one_ne_zero).const_mul _
    have he : (fun t : ℝ => S (t, 1)) = fun t => S (1, 1) * t⁻¹ := by
      funext t
      unfold S
      rw [Euler.C34_source_defined hp, Euler.C34_source_defined hp]
      simp only [Euler.valueOf]
      ring
    rw [he] at h1
    have := h1.unique h2
    rw [row_apply] at this
    simpa using this
  have hM' : M.m00 = 0 ∧ M.m01 = 0 ∧ M.m10 = -S (1, 1) := by
    have hl := Euler.lambda_turbulent (d := 1) (k := 0) hRe
    have hlam : ¬ Euler.reynolds 1 1 < Euler.laminarBorder := by unfold Euler.laminarBorder; linarith
    have hS : S (1, 1) = -Euler.rho0 / (2 * SmoothAbs.circleArea (0.5 * 1) * 1) * (Euler.sj 1 0 (Euler.reynolds 1 1) * |1| * 1) / 1 := by
      unfold S
      rw [Euler.C34_source_defined hp]
      simp only [Euler.valueOf, Euler.force]
      rw [if_neg (by linarith), hl]
    unfold Euler.dsource at hM
    simp only [if_neg hlam, hl, Res.ok_bind] at hM
    obtain ⟨dl, -, hM⟩ := Res.bind_eq_ok.mp hM
    obtain ⟨dR, -, hM⟩ := Res.bind_eq_ok.mp hM
    obtain ⟨da, -, hM⟩ := Res.bind_eq_ok.mp hM
    injection hM with hM
    rw [← hM, hS]
    refine ⟨rfl, rfl, ?_⟩
    simp only
    ring
  refine ⟨T.m10, T.m11, M.m11, ?_, contDiff_S.hasStrictFDerivAt' hTs one_ne_zero, hne⟩
  rw [hM, hT0, ← hM'.2.2]
  obtain ⟨a, b, c, d⟩ := M
  obtain ⟨h1, h2, -⟩ := hM'
  simp only at h1 h2
  rw [h1, h2]

/-- The derivative of the first component of the flux with respect to the flow. -/
def φ : ℝ := Euler.rho0 / SmoothAbs.circleArea (0.5 * 1)

theorem φ_pos : 0 < φ := div_pos (by unfold Euler.rho0; norm_num) (Euler.area_pos one_pos)

/-- The derivative of the second component of the flux with respect to the density. -/
theorem subsonic : 0 < (Euler.dflux 1 (1, 1)).m10 := by
  unfold Euler.dflux Euler.dp
  simp only [Euler.cVac, Euler.alpha, Euler.rho0, SmoothAbs.circleArea, SmoothAbs.Pi, Euler.p0, Euler.T, Euler.z0, Euler.T0, Euler.bar, Euler.pcrit,
    Euler.Tcrit]
  norm_num

/-- The flow at the start of the pipe, from the densities at both ends; `c` is the quotient of time step and cell width. -/
def Q (c : ℝ) (r : ℝ × ℝ) : ℝ := 1 + (0.5 * (r.1 + r.2) - 1) / (c * φ)

/-- The second equation of the pipe. -/
def Φ (c : ℝ) (r : ℝ × ℝ) : ℝ := 0.5 * (Q c r + 1) - (1 - S (1, 1)) - c * (F (r.1, Q c r) - F (r.2, 1)) - 0.5 * (S (r.2, 1) + S (r.1, Q c r))

theorem Φ_zero (c : ℝ) : Φ c (1, 1) = 0 := by
  have : Q c (1, 1) = 1 := by unfold Q; norm_num
  unfold Φ
  rw [this]
  ring

/-- The derivatives of `Φ`, for a derivative `w` of the source with respect to the flow. -/
def α (c t₀ w : ℝ) : ℝ := 0.5 / (c * φ) * (0.5 - c * (Euler.dflux 1 (1, 1)).m11 - 0.5 * w) - c * (Euler.dflux 1 (1, 1)).m10 - 0.5 * t₀
def β (c t₀ w : ℝ) : ℝ := 0.5 / (c * φ) * (0.5 - c * (Euler.dflux 1 (1, 1)).m11 - 0.5 * w) + c * (Euler.dflux 1 (1, 1)).m10 - 0.5 * t₀

theorem strict_Q (c : ℝ) (r : ℝ × ℝ) : HasStrictFDerivAt (Q c) (row (0.5 / (c * φ)) (0.5 / (c * φ))) r := by
  have h : HasStrictFDerivAt (fun r : ℝ × ℝ => (1 - 1 / (c * φ)) + row (0.5 / (c * φ)) (0.5 / (c * φ)) r) (row (0.5 / (c * φ)) (0.5 / (c * φ))) r :=
    (row (0.5 / (c * φ)) (0.5 / (c * φ))).hasStrictFDerivAt.const_add _
  refine h.congr_of_eventuallyEq (Eventually.of_forall fun x => ?_)
  unfold Q
  simp only [row_apply]
  ring

theorem strict_Φ (c : ℝ) {t₀ t₁ : ℝ} (hS : HasStrictFDerivAt S (row t₀ t₁) (1, 1)) : HasStrictFDerivAt (Φ c) (row (α c t₀ t₁) (β c t₀ t₁)) (1, 1) := by
  have hQ1 : Q c (1, 1) = 1 := by unfold Q; norm_num
  have hQ := strict_Q c (1, 1)
  have hl : HasStrictFDerivAt (fun r : ℝ × ℝ => (r.1, Q c r)) ((ContinuousLinearMap.fst ℝ ℝ ℝ).prod (row (0.5 / (c * φ)) (0.5 / (c * φ)))) (1, 1) :=
    hasStrictFDerivAt_fst.prodMk hQ
  have hr : HasStrictFDerivAt (fun r : ℝ × ℝ => (r.2, (1 : ℝ))) ((ContinuousLinearMap.snd ℝ ℝ ℝ).prod (0 : ℝ × ℝ →L[ℝ] ℝ)) (1, 1) :=
    hasStrictFDerivAt_snd.prodMk (hasStrictFDerivAt_const _ _)
  have e : ((((1 : ℝ), (1 : ℝ)) : ℝ × ℝ).1, Q c (1, 1)) = (1, 1) := by rw [hQ1]
  have hFl := HasStrictFDerivAt.comp ((1, 1) : ℝ × ℝ) (f := fun r : ℝ × ℝ => (r.1, Q c r)) (g := F) (by rw [e]; exact strict_F) hl
  have hSl := HasStrictFDerivAt.comp ((1, 1) : ℝ × ℝ) (f := fun r : ℝ × ℝ => (r.1, Q c r)) (g := S) (by rw [e]; exact hS) hl
  have hFr := HasStrictFDerivAt.comp ((1, 1) : ℝ × ℝ) (f := fun r : ℝ × ℝ => (r.2, (1 : ℝ))) (g := F) strict_F hr
  have hSr := HasStrictFDerivAt.comp ((1, 1) : ℝ × ℝ) (f := fun r : ℝ × ℝ => (r.2, (1 : ℝ))) (g := S) hS hr
  have h := ((((hQ.add_const 1).const_mul (0.5 : ℝ)).sub_const (1 - S (1, 1))).sub ((hFl.sub hFr).const_mul c)).sub ((hSr.add hSl).const_mul (0.5 : ℝ))
  refine h.congr_fderiv ?_
  refine ContinuousLinearMap.ext fun x => ?_
  simp only [_root_.sub_apply, _root_.add_apply, _root_.smul_apply, ContinuousLinearMap.comp_apply, ContinuousLinearMap.prod_apply, row_apply, smul_eq_mul,
    ContinuousLinearMap.coe_fst', ContinuousLinearMap.coe_snd', _root_.zero_apply, α, β]
  ring

/-- For short cells the equation determines the density at the end of the pipe. -/
theorem exists_c (t₀ t₁ m₁ : ℝ) : ∃ c : ℝ, 0 < c ∧ β c t₀ t₁ ≠ 0 ∧ β c t₀ m₁ ≠ 0 := by
  have hφ := φ_pos
  have hf := subsonic
  set f₀ := (Euler.dflux 1 (1, 1)).m10
  set f₁ := (Euler.dflux 1 (1, 1)).m11
  set A := 1 + |f₁| / φ + |t₀| + |t₁| / φ + |m₁| / φ with hA
  have p1 : 0 ≤ |f₁| / φ := by positivity
  have p2 : 0 ≤ |t₁| / φ := by positivity
  have p3 : 0 ≤ |m₁| / φ := by positivity
  have hA1 : 1 ≤ A := by rw [hA]; have := abs_nonneg t₀; linarith
  refine ⟨A / f₀ + 1, by positivity, ?_⟩
  set c := A / f₀ + 1
  have hc1 : 1 ≤ c := by have : 0 ≤ A / f₀ := by positivity
                         linarith
  have hcA : A ≤ c * f₀ := by
    show A ≤ (A / f₀ + 1) * f₀
    rw [add_mul, div_mul_cancel₀ _ hf.ne']
    linarith
  have key : ∀ w : ℝ, |w| / φ ≤ A - 1 - |f₁| / φ - |t₀| → β c t₀ w ≠ 0 := by
    intro w hw
    have hw0 : 0 ≤ |w| / φ := by positivity
    have e : β c t₀ w = (0.25 - 0.25 * w) / φ / c - 0.5 * (f₁ / φ) + c * f₀ - 0.5 * t₀ := by
      unfold β
      have : c ≠ 0 := by positivity
      field_simp
      ring
    have b1 : -(|w| / φ) ≤ (0.25 - 0.25 * w) / φ / c := by
      have h1 : -(|w| / φ) ≤ (0.25 - 0.25 * w) / φ := by
        rw [← neg_div]
        exact div_le_div_of_nonneg_right (by nlinarith [le_abs_self w, abs_nonneg w]) hφ.le
      rw [le_div_iff₀ (by linarith)]
      nlinarith
    have b2 : f₁ / φ ≤ |f₁| / φ := div_le_div_of_nonneg_right (le_abs_self _) hφ.le
    have b3 := le_abs_self t₀
    have b4 := abs_nonneg t₀
    have : 0 < β c t₀ w := by rw [e]; linarith
    exact this.ne'
  exact ⟨key t₁ (by rw [hA]; linarith), key m₁ (by rw [hA]; linarith)⟩

/-- The density at the end of the pipe as a function of that at its start. -/
theorem exists_ψ (c : ℝ) {t₀ t₁ : ℝ} (hS : HasStrictFDerivAt S (row t₀ t₁) (1, 1)) (hβ : β c t₀ t₁ ≠ 0) :
    ∃ (ψ : ℝ → ℝ) (ψ' : ℝ), ψ 1 = 1 ∧ (∀ᶠ r in 𝓝 1, Φ c (r, ψ r) = 0) ∧ HasDerivAt ψ ψ' 1 ∧ α c t₀ t₁ + β c t₀ t₁ * ψ' = 0 := by
  have hf := strict_Φ c hS
  set f' := row (α c t₀ t₁) (β c t₀ t₁) with hf'
  have hinv : (f' ∘L .inr ℝ ℝ ℝ).IsInvertible := by
    refine ⟨ContinuousLinearEquiv.unitsEquivAut ℝ (Units.mk0 _ hβ), ?_⟩
    refine ContinuousLinearMap.ext fun v => ?_
    show v * β c t₀ t₁ = row _ _ (0, v)
    rw [row_apply]
    ring
  set ψ := hf.implicitFunctionOfProdDomain hinv with hψ
  have hval := hf.eventually_apply_eq_iff_implicitFunctionOfProdDomain hinv
  have hψu : ψ 1 = 1 := hval.self_of_nhds.mp rfl
  have hd := hf.hasStrictFDerivAt_implicitFunctionOfProdDomain hinv
  have hz : ∀ᶠ r in 𝓝 (1 : ℝ), Φ c (r, ψ r) = 0 := by
    filter_upwards [hf.eventually_apply_implicitFunctionOfProdDomain hinv] with r hr
    rw [← Φ_zero c]
    exact hr
  have hdψ := hd.hasFDerivAt.hasDerivAt
  refine ⟨ψ, _, hψu, hz, hdψ, ?_⟩
  have hpath := (hasDerivAt_id' (1 : ℝ)).prodMk hdψ
  have h1 := HasFDerivAt.comp_hasDerivAt (f := fun r : ℝ => (r, ψ r)) (l := Φ c) (1 : ℝ) (by simp only [hψu]; exact hf.hasFDerivAt) hpath
  have h2 : HasDerivAt (Φ c ∘ fun r : ℝ => (r, ψ r)) 0 1 := (hasDerivAt_const (1 : ℝ) (0 : ℝ)).congr_of_eventuallyEq hz
  have := h1.unique h2
  rw [hf', row_apply] at this
  simpa using this

/-! ## The network -/

/-- A compressor and a pipe with one cell, from a node with prescribed pressure to a sink. -/
def fastNet (dx : ℝ) : Net where
  nodes := 3
  edges := 2
  node v := ⟨if v = 0 then .pressure else if v = 1 then .innode else .flow, fun _ => Res.ok (if v = 0 then Euler.p 1 / 100000 else -1, 0), 0, 0⟩
  edge k := if k = 0 then .gas .compressor 0 else .gas (.pipe dx 1 0) 2
  src k := if k = 0 then 0 else 1
  dst k := if k = 0 then 1 else 2
  starting v := if v = 0 then [0] else if v = 1 then [1] else []
  ending v := if v = 0 then [] else if v = 1 then [0] else [1]

/-- The sink is constrained. -/
def fastGoals (dx : ℝ) : Goals (fastNet dx) where
  weight _ := 1
  netWeight := 1
  netPenalty := 1
  constrained v := v == (2 : Fin 3)

theorem fast_admissible (dx : ℝ) : Admissible (fastNet dx) where
  starting := by
    show ∀ v : Fin 3, (if v = 0 then [(0 : Fin 2)] else if v = 1 then [1] else []).Nodup ∧
      ∀ k : Fin 2, k ∈ (if v = 0 then [(0 : Fin 2)] else if v = 1 then [1] else []) ↔ (if k = 0 then (0 : Fin 3) else 1) = v
    decide
  ending := by
    show ∀ v : Fin 3, (if v = 0 then [] else if v = 1 then [(0 : Fin 2)] else [1]).Nodup ∧
      ∀ k : Fin 2, k ∈ (if v = 0 then [] else if v = 1 then [(0 : Fin 2)] else [1]) ↔ (if k = 0 then (1 : Fin 3) else 2) = v
    decide
  noLoop := by show ∀ k : Fin 2, (if k = 0 then (0 : Fin 3) else 1) ≠ if k = 0 then (1 : Fin 3) else 2; decide
  points := by
    show ∀ k : Fin 2, _
    intro k dx' d r n h
    match k with
    | 0 => injection h with h; cases h
    | 1 => injection h with _ h; omega
  gasStart := by
    show ∀ k : Fin 2, _
    intro k kind n h
    match k with
    | 0 => rfl
    | 1 => rfl
  gasEnd := by
    show ∀ k : Fin 2, _
    intro k kind n h _
    match k with
    | 0 => rfl
    | 1 => rfl
  plantEnd := by
    show ∀ k : Fin 2, _
    intro k g p n h
    match k with
    | 0 => injection h with h; cases h
    | 1 => injection h with h; cases h
  lines := by
    show ∀ k : Fin 2, _
    intro k G B h
    match k with
    | 0 => cases h
    | 1 => cases h

theorem fast_attached (dx : ℝ) : (fastGoals dx).Attached := by
  show ∀ v : Fin 3, (v == (2 : Fin 3)) = true → _
  intro v hv
  have hv : v = 2 := by simpa using hv
  subst hv
  exact ⟨rfl, by show (_ :: _) ≠ []; simp⟩

theorem fast_computable {dx : ℝ} (h0 : dx ≠ 0) (t : ℝ) : Computable (fastNet dx) t where
  boundary v _ := ⟨_, rfl⟩
  pipes := by
    show ∀ k : Fin 2, _
    intro k dx' d r n h
    match k with
    | 0 => injection h with h; cases h
    | 1 =>
      injection h with h hn
      injection h with h1 h2 h3
      subst h1 h2 h3
      exact ⟨h0, Euler.turbulent_example.1⟩

theorem pipe_edge (dx : ℝ) : ∃ e : Gas.Edge, (fastNet dx).gasEdge (1 : Fin 2) = some e ∧ e.kind = .pipe dx 1 0 ∧ Gas.cells e = [5] := by
  have hg : ∃ e : Gas.Edge, (fastNet dx).gasEdge (1 : Fin 2) = some e ∧ e.kind = .pipe dx 1 0 ∧ e.first = 4 ∧ e.after = 8 :=
    ⟨_, rfl, rfl, rfl, rfl⟩
  obtain ⟨e, hg, e1, e2, e3⟩ := hg
  refine ⟨e, hg, e1, ?_⟩
  unfold Gas.cells Gas.equationStart Gas.equationAfter
  rw [e2, e3]
  rfl

theorem last_entries (dx : ℝ) : ∃ last, (fastNet dx).dLast = Res.ok last := by
  obtain ⟨e, hg, e1, hcells⟩ := pipe_edge dx
  have hk : (fastNet dx).edgeLast (1 : Fin 2) = Res.ok (Gas.cellEntries 5 Box.dLastLeft Box.dLastRight) := by
    unfold Net.edgeLast
    rw [hg]
    simp only [Gas.edgeLast, e1, hcells, forEach, Res.ok_bind, List.append_nil]
  have hy : forEach (fastNet dx).equationEdges (fun k => (fastNet dx).edgeLast k) = Res.ok (Gas.cellEntries 5 Box.dLastLeft Box.dLastRight) := by
    have he : (fastNet dx).equationEdges = [(1 : Fin 2)] := rfl
    rw [he]
    simp only [forEach, hk, Res.ok_bind, List.append_nil]
  unfold Net.dLast
  rw [hy]
  exact ⟨_, rfl⟩

theorem new_entries (dx s t : ℝ) (a : Args) (L R : ℝ × ℝ →L[ℝ] ℝ × ℝ)
    (hL : Box.dNewLeft (Box.eulerLaw 1 0) s t dx (a.new 4, a.new 5) = Res.ok L)
    (hR : Box.dNewRight (Box.eulerLaw 1 0) s t dx (a.new 6, a.new 7) = Res.ok R) :
    (fastNet dx).dNew s t a = Res.ok ([(0, 0, 1), (0, 1, 0), (3, 4, 0), (3, 5, 1), (4, 4, -(Euler.dp (a.new 4) / 100000)), (4, 5, 0),
      (4, 2, 1), (4, 3, 0), (3, 2, 0), (3, 3, -1), (7, 6, 0), (7, 7, -1)] ++ Gas.cellEntries 5 L R ++ [(1, 0, -1), (1, 2, 1), (2, 1, -1), (2, 3, 1)]) := by
  have hx : forEach (List.finRange (fastNet dx).nodes) (fun v => (fastNet dx).nodeNew v a) =
      Res.ok [(0, 0, (1, 0).1), (0, 1, (1, 0).2),
        (3, 4, (Euler.rowMul (0, 1) ((Euler.dToBar (Euler.pQvol (a.new 4, a.new 5))).mul (Euler.dPQvol (a.new 4, a.new 5)))).1),
        (3, 5, (Euler.rowMul (0, 1) ((Euler.dToBar (Euler.pQvol (a.new 4, a.new 5))).mul (Euler.dPQvol (a.new 4, a.new 5)))).2),
        (4, 4, (Euler.rowMul (-1, 0) ((Euler.dToBar (Euler.pQvol (a.new 4, a.new 5))).mul (Euler.dPQvol (a.new 4, a.new 5)))).1),
        (4, 5, (Euler.rowMul (-1, 0) ((Euler.dToBar (Euler.pQvol (a.new 4, a.new 5))).mul (Euler.dPQvol (a.new 4, a.new 5)))).2),
        (4, 2, (1, 0).1), (4, 3, (1, 0).2), (3, 2, (0, -1).1), (3, 3, (0, -1).2),
        (7, 6, (Euler.rowMul (0, -1) ((Euler.dToBar (Euler.pQvol (a.new 6, a.new 7))).mul (Euler.dPQvol (a.new 6, a.new 7)))).1),
        (7, 7, (Euler.rowMul (0, -1) ((Euler.dToBar (Euler.pQvol (a.new 6, a.new 7))).mul (Euler.dPQvol (a.new 6, a.new 7)))).2)] := rfl
  have hy : forEach (fastNet dx).equationEdges (fun k => (fastNet dx).edgeNew k s t a) = Res.ok (Gas.cellEntries 5 L R) := by
    have hc : Gas.cellNew dx 1 0 s t 5 a = Res.ok (Gas.cellEntries 5 L R) := by
      unfold Gas.cellNew
      have e1 : Box.dNewLeft (Box.eulerLaw 1 0) s t dx (segment a.new (5 - 1)) = Res.ok L := hL
      have e2 : Box.dNewRight (Box.eulerLaw 1 0) s t dx (segment a.new (5 + 1)) = Res.ok R := hR
      rw [e1, e2]; rfl
    obtain ⟨e, hg, e1, hcells⟩ := pipe_edge dx
    have hk : (fastNet dx).edgeNew (1 : Fin 2) s t a = forEach [5] fun i => Gas.cellNew dx 1 0 s t i a := by
      unfold Net.edgeNew
      rw [hg]
      simp only [e1]
      unfold Gas.edgeNew
      simp only [e1, hcells]
    have he : (fastNet dx).equationEdges = [(1 : Fin 2)] := rfl
    rw [he]
    simp only [forEach, hk, hc, Res.ok_bind, List.append_nil]
  have hz : forEach (fastNet dx).controlEdges (fun k => (fastNet dx).edgeNew k s t a) =
      Res.ok [(1, 0, -1), (1, 2, 1), (2, 1, -1), (2, 3, 1)] := rfl
  unfold Net.dNew
  rw [hx, hy, hz]
  simp only [Res.ok_bind, Euler.rowMul, Euler.dToBar, Euler.dPQvol, Euler.Mat2.mul, Euler.bar]
  congr 1
  simp only [List.cons_append, List.nil_append]
  norm_num
  ring

theorem constraint_value (dx : ℝ) (x : Fin (fastNet dx).stateCount → ℝ) (u : Fin (fastNet dx).controlCount → ℝ) :
    (fastGoals dx).constraintVector (x, u) = Res.ok fun _ => x (6 : Fin 8) := by
  unfold Goals.constraintVector
  show (do let ops ← Res.ok [Op.set 0 (ext x 6)]; Res.ok fun i : Fin 1 => run (fun _ => 0) ops i.val) = _
  rw [Res.ok_bind]
  congr 1
  funext i
  obtain rfl : i = 0 := Subsingleton.elim _ _
  rfl

/-! ## The equations for a variation -/

/-- The entries of the matrix with respect to the new state, at density 1 and flow 1. -/
def newList (c t₀ m₁ : ℝ) : List (Contribution ℝ) :=
  [(0, 0, 1), (0, 1, 0), (3, 4, 0), (3, 5, 1), (4, 4, -(Euler.dp 1 / 100000)), (4, 5, 0), (4, 2, 1), (4, 3, 0), (3, 2, 0), (3, 3, -1), (7, 6, 0), (7, 7, -1)] ++
    Gas.cellEntries 5 ((0.5 : ℝ) • ContinuousLinearMap.id ℝ (ℝ × ℝ) - c • (Euler.dflux 1 (1, 1)).map - (0.5 * 1 : ℝ) • (Euler.Mat2.mk 0 0 t₀ m₁).map)
      ((0.5 : ℝ) • ContinuousLinearMap.id ℝ (ℝ × ℝ) + c • (Euler.dflux 1 (1, 1)).map - (0.5 * 1 : ℝ) • (Euler.Mat2.mk 0 0 t₀ m₁).map) ++
    [(1, 0, -1), (1, 2, 1), (2, 1, -1), (2, 3, 1)]

theorem newList_inside (c t₀ m₁ : ℝ) : ∀ e ∈ newList c t₀ m₁, 0 ≤ e.2.1 ∧ e.2.1 < ((8 : ℕ) : ℤ) := by
  simp [newList, Gas.cellEntries]

theorem variation {c t₀ m₁ : ℝ} (hc : 0 < c) {v : Fin 8 → ℝ} {w : ℝ}
    (h : matrixOf 8 8 (newList c t₀ m₁) *ᵥ v + matrixOf 8 1 [(1, 0, -1)] *ᵥ (fun _ => w) = 0) :
    v 0 = 0 ∧ v 1 = v 5 ∧ v 2 = w ∧ v 3 = v 5 ∧ Euler.dp 1 / 100000 * v 4 = w ∧ v 5 = 0.5 / (c * φ) * (v 4 + v 6) ∧ v 7 = 0 ∧
      α c t₀ m₁ * v 4 + β c t₀ m₁ * v 6 = 0 := by
  have hφ := φ_pos
  have hrow : ∀ i : Fin 8, applyRow (newList c t₀ m₁) i.val (ext v) + applyRow [(1, 0, -1)] i.val (ext fun _ : Fin 1 => w) = 0 := by
    intro i
    rw [applyRow_ext (n := 8) (m := 8) _ (newList_inside c t₀ m₁) i v,
      applyRow_ext (n := 8) (m := 1) [(1, 0, -1)] (by simp) i (fun _ => w)]
    exact congrFun h i
  have x0 : ext v 0 = v 0 := rfl
  have x1 : ext v 1 = v 1 := rfl
  have x2 : ext v 2 = v 2 := rfl
  have x3 : ext v 3 = v 3 := rfl
  have x4 : ext v 4 = v 4 := rfl
  have x5 : ext v 5 = v 5 := rfl
  have x6 : ext v 6 = v 6 := rfl
  have x7 : ext v 7 = v 7 := rfl
  have y0 : ext (fun _ : Fin 1 => w) 0 = w := rfl
  have h0 := hrow 0
  have h1 := hrow 1
  have h2 := hrow 2
  have h3 := hrow 3
  have h4 := hrow 4
  have h5 := hrow 5
  have h6 := hrow 6
  have h7 := hrow 7
  simp [newList, Gas.cellEntries, applyRow_cons, x0, x1, x2, x3, x4, x5, x6, x7, y0, Euler.Mat2.map_apply] at h0 h1 h2 h3 h4 h5 h6 h7
  have e00 : (Euler.dflux 1 (1, 1)).m00 = 0 := rfl
  have e01 : (Euler.dflux 1 (1, 1)).m01 = φ := rfl
  rw [e00, e01, h7] at h5
  rw [h7] at h6
  have hv5 : v 5 = 0.5 / (c * φ) * (v 4 + v 6) := by
    field_simp
    linarith
  refine ⟨h0, by linarith, by linarith, by linarith, by linarith, hv5, h7, ?_⟩
  rw [hv5] at h6
  unfold α β
  linear_combination h6

/-! ## The simulation -/

/-- The density at the start of the pipe, for a control. -/
def start (u : ℝ) : ℝ := Euler.rho ((Euler.p 1 / 100000 + u) * 100000)

theorem pressure_one : 1 + Euler.alpha * Euler.p 1 ≠ 0 ∧ Euler.rho (Euler.p 1) = 1 := by
  have hD := (Euler.C31_density_round_trip 1).2 one_pos.le
  refine ⟨?_, (Euler.C31_density_round_trip 1).1 hD⟩
  have : 1 + Euler.alpha * Euler.p 1 = 1 / (1 - Euler.alpha * Euler.cVac * 1) := by
    unfold Euler.p
    rw [eq_div_iff hD, add_mul, one_mul, mul_one, mul_assoc Euler.alpha (_ / _), div_mul_cancel₀ _ (by simpa using hD)]
    ring
  rw [this]
  exact one_div_ne_zero hD

theorem start_zero : start 0 = 1 := by
  unfold start
  have : (Euler.p 1 / 100000 + 0) * 100000 = Euler.p 1 := by ring
  rw [this, pressure_one.2]

theorem start_pressure : ∀ᶠ u in 𝓝 (0 : ℝ), Euler.p (start u) / 100000 = Euler.p 1 / 100000 + u := by
  have hcont : ContinuousAt (fun u : ℝ => 1 + Euler.alpha * ((Euler.p 1 / 100000 + u) * 100000)) 0 := by fun_prop
  have h0 : 1 + Euler.alpha * ((Euler.p 1 / 100000 + 0) * 100000) ≠ 0 := by
    have : (Euler.p 1 / 100000 + 0) * 100000 = Euler.p 1 := by ring
    rw [this]; exact pressure_one.1
  filter_upwards [hcont.eventually_ne h0] with u hu
  unfold start
  rw [(Euler.C31_pressure_round_trip _).1 hu]
  ring

theorem start_deriv : ∃ r' : ℝ, HasDerivAt start r' 0 ∧ Euler.dp 1 / 100000 * r' = 1 := by
  have hd : DifferentiableAt ℝ start 0 := by
    have h0 : Euler.cVac * (1 + Euler.alpha * ((Euler.p 1 / 100000 + 0) * 100000)) ≠ 0 := by
      have : (Euler.p 1 / 100000 + 0) * 100000 = Euler.p 1 := by ring
      rw [this]; exact mul_ne_zero Euler.cVac_pos.ne' pressure_one.1
    unfold start Euler.rho
    exact DifferentiableAt.div (by fun_prop) (by fun_prop) h0
  refine ⟨_, hd.hasDerivAt, ?_⟩
  have hp := Euler.C31_derivative 1 ((Euler.C31_density_round_trip 1).2 one_pos.le)
  have h1 := (HasDerivAt.comp (h₂ := Euler.p) (h := start) (0 : ℝ) (by rw [start_zero]; exact hp) hd.hasDerivAt).div_const 100000
  have h2 : HasDerivAt (fun u : ℝ => Euler.p (start u) / 100000) 1 0 :=
    ((hasDerivAt_id' (0 : ℝ)).const_add (Euler.p 1 / 100000)).congr_of_eventuallyEq start_pressure
  have := h1.unique h2
  linarith

/-- The states: at first such that the next one has density and flow 1 in the pipe, then those belonging to the control. -/
def fastState (c : ℝ) (ψ : ℝ → ℝ) (i : ℕ) (V : Fin 2 → Fin 1 → ℝ) (j : Fin 8) : ℝ :=
  if i = 0 then (if j.val = 4 then 1 else if j.val = 6 then 1 else 1 - S (1, 1)) else
  if j.val = 0 then Euler.p 1 / 100000 else
  if j.val = 2 then Euler.p 1 / 100000 + V 1 0 else
  if j.val = 4 then start (V 1 0) else
  if j.val = 6 then ψ (start (V 1 0)) else
  if j.val = 7 then 1 else
  Q c (start (V 1 0), ψ (start (V 1 0)))

theorem fast_laws {c : ℝ} (hc : 0 < c) {ψ : ℝ → ℝ} {V : Fin 2 → Fin 1 → ℝ} (hu : Euler.p (start (V 1 0)) / 100000 = Euler.p 1 / 100000 + V 1 0)
    (hψ : Φ c (start (V 1 0), ψ (start (V 1 0))) = 0) :
    Laws (fastNet (1 / c)) 0 1 ((fastNet (1 / c)).args (fastState c ψ 0 V, fastState c ψ 1 V, fun _ => V 1 0)) := by
  set a := (fastNet (1 / c)).args (fastState c ψ 0 V, fastState c ψ 1 V, fun _ => V 1 0) with ha
  have n0 : a.new 0 = Euler.p 1 / 100000 := rfl
  have n1 : a.new 1 = Q c (start (V 1 0), ψ (start (V 1 0))) := rfl
  have n2 : a.new 2 = Euler.p 1 / 100000 + V 1 0 := rfl
  have n3 : a.new 3 = Q c (start (V 1 0), ψ (start (V 1 0))) := rfl
  have n4 : a.new 4 = start (V 1 0) := rfl
  have n5 : a.new 5 = Q c (start (V 1 0), ψ (start (V 1 0))) := rfl
  have n6 : a.new 6 = ψ (start (V 1 0)) := rfl
  have n7 : a.new 7 = 1 := rfl
  have l4 : a.last 4 = 1 := rfl
  have l5 : a.last 5 = 1 - S (1, 1) := rfl
  have l6 : a.last 6 = 1 := rfl
  have l7 : a.last 7 = 1 - S (1, 1) := rfl
  have c0 : a.control 0 = V 1 0 := rfl
  refine ⟨⟨fun v : Fin 3 => if v = 0 then Euler.p 1 / 100000 else if v = 1 then Euler.p 1 / 100000 + V 1 0 else
    Euler.p (ψ (start (V 1 0))) / 100000, ?_, ?_⟩, ?_, ?_, ?_, ?_, ?_⟩
  · show ∀ k : Fin 2, _
    intro k _
    match k with
    | 0 =>
      refine ⟨?_, fun _ => ?_⟩
      · show a.new 0 = _
        rw [n0]; rfl
      · show a.new 2 = _
        rw [n2]; rfl
    | 1 =>
      refine ⟨?_, fun _ => ?_⟩
      · show Euler.p (a.new 4) / 100000 = _
        rw [n4, hu]; rfl
      · show Euler.p (a.new 6) / 100000 = _
        rw [n6]; rfl
  · show ∀ v : Fin 3, _
    intro v b hv hb
    match v, hv with
    | 0, _ => injection hb with hb; subst hb; rfl
    | 1, h => cases h
    | 2, h => cases h
  · show ∀ v : Fin 3, _
    intro v _
    have hout : ∀ v, (fastNet (1 / c)).outflow v a.new = (∑ k : Fin 2, if (fastNet (1 / c)).src k = v then (if ((fastNet (1 / c)).edge k).isGas
        then (fastNet (1 / c)).startFlow k a.new else 0) else 0) - ∑ k : Fin 2, if (fastNet (1 / c)).dst k = v then (if ((fastNet (1 / c)).edge k).isGas
        then (fastNet (1 / c)).endFlow k a.new else 0) else 0 := fun v => rfl
    match v with
    | 0 => exact ⟨fun h => (by cases h), fun h => (by cases h)⟩
    | 1 =>
      refine ⟨fun _ => ?_, fun h => (by cases h)⟩
      have : (fastNet (1 / c)).outflow (1 : Fin 3) a.new = (0 + a.new 5) - (a.new 3 + 0) := by
        refine (hout (1 : Fin 3)).trans ?_
        rw [Fin.sum_univ_two, Fin.sum_univ_two]
        rfl
      rw [this, n5, n3]
      ring
    | 2 =>
      refine ⟨fun h => (by cases h), fun _ b hb => ?_⟩
      injection hb with hb
      subst hb
      have : (fastNet (1 / c)).outflow (2 : Fin 3) a.new = (0 + 0) - (0 + a.new 7) := by
        refine (hout (2 : Fin 3)).trans ?_
        rw [Fin.sum_univ_two, Fin.sum_univ_two]
        rfl
      rw [this, n7]
      show (0 + 0 : ℝ) - (0 + 1) = -1
      norm_num
  · show ∀ k : Fin 2, _
    intro k kind n h hs
    match k with
    | 0 =>
      injection h with h
      subst h
      refine ⟨?_, ?_⟩
      · show a.new 2 = a.new 0 + a.control 0
        rw [n2, n0, c0]
      · show a.new 1 = a.new 3
        rw [n1, n3]
    | 1 =>
      injection h with h
      subst h
      exact hs.elim
  · show ∀ k : Fin 2, _
    intro k dx d r n h j hj
    match k with
    | 0 => injection h with h; cases h
    | 1 =>
      injection h with h hn
      injection h with e1 e2 e3
      subst e1 e2 e3 hn
      obtain rfl : j = 0 := by omega
      have hp : Euler.RealPipe 1 0 := Euler.turbulent_example.1
      have hs : ∀ y, (Box.eulerLaw 1 0).source y = Res.ok (0, S y) := fun y => by
        show Euler.source 1 0 y = _
        unfold S
        rw [Euler.C34_source_defined hp y]; rfl
      have hf : ∀ y, (Box.eulerLaw 1 0).flux y = (φ * y.2, F y) := fun y => rfl
      show Box.evaluatePoint _ 0 1 (1 / c) (a.last 4, a.last 5) (a.last 6, a.last 7) (a.new 4, a.new 5) (a.new 6, a.new 7) = Res.ok 0
      rw [n4, n5, n6, n7, l4, l5, l6, l7]
      unfold Box.evaluatePoint
      simp only [hs, hf, Res.ok_bind]
      have hdt : (1 - 0 : ℝ) / (1 / c) = c := by field_simp; ring
      rw [hdt]
      congr 1
      refine Prod.ext ?_ ?_
      · have hφ := φ_pos
        simp only [Prod.fst_sub, Prod.fst_add, Prod.smul_fst, smul_eq_mul, Prod.fst_zero, Q]
        field_simp
        ring
      · simp only [Prod.snd_sub, Prod.snd_add, Prod.smul_snd, smul_eq_mul, Prod.snd_zero]
        unfold Φ at hψ
        linear_combination hψ
  · show ∀ v : Fin 3, _
    intro v b hb
    match v with
    | 0 => trivial
    | 1 => trivial
    | 2 => trivial
  · show ∀ k : Fin 2, _
    intro k g p n h
    match k with
    | 0 => injection h with h; cases h
    | 1 => injection h with h; cases h

/-- The data of the optimizer for the state times 0 and 1, the control times 0 and 1, and the constraint time 1. -/
def fastInput (d : StepData 8 1 1 ℝ) : Input 8 1 1 ℝ where
  data _ := d
  weight _ := 1 / 2
  pair i := (i, 1)
  time i := i
  cons := [1]
  controlSteps := 2
  rowstart _ := 0
  oob := none

theorem fast_optimizer (d : StepData 8 1 1 ℝ) : FromOptimizer (fastInput d) [0, 1] [0, 1] [1] := by
  refine ⟨?_, rfl, rfl, ?_, ?_, ?_⟩
  · intro i hi
    have : i = 0 ∨ i = 1 := by simp at hi; omega
    rcases this with rfl | rfl <;> simp [fastInput]
  · intro i hi
    have : i = 0 ∨ i = 1 := by simp at hi; omega
    have l0 : lowerBound [(0 : ℝ), 1] 0 = 0 := by simp [lowerBound, List.findIdx_cons]
    have l1 : lowerBound [(0 : ℝ), 1] 1 = 1 := by
      have : ¬ (1 : ℝ) ≤ 0 := by norm_num
      simp [lowerBound, List.findIdx_cons, this]
    rcases this with rfl | rfl
    · have : ¬ (1 : ℝ) < 0 := by norm_num
      simp [fastInput, computeIndexLambda, l0, Res.get, this]
    · simp [fastInput, computeIndexLambda, l1, Res.get]
  · refine ⟨[1 / 2, 1 / 2], by simp [Weights.weights], ?_⟩
    intro i hi
    have : i = 0 ∨ i = 1 := by simp at hi; omega
    rcases this with rfl | rfl <;> simp [fastInput]
  · refine ⟨⟨1, 1, [0, 1, 2]⟩, by simp [makeData, makeDataLoop], ?_⟩
    intro j hj
    have : j = 0 ∨ j = 1 := by simp at hj; omega
    rcases this with rfl | rfl <;> rfl

theorem fast_value (d : StepData 8 1 1 ℝ) (V : Fin 2 → Fin 1 → ℝ) : Adjoint.control (fastInput d) 1 V = fun _ => V 1 0 := by
  funext j
  obtain rfl : j = 0 := Subsingleton.elim _ _
  show (1 : ℝ) * V 1 0 + (1 - 1) * V 0 0 = V 1 0
  ring

/-- The data of the step at the control zero. -/
theorem fast_data {c : ℝ} (hc : 0 < c) {ψ : ℝ → ℝ} (hψ : ψ 1 = 1) {t₀ m₁ : ℝ} (hM : Euler.dsource 1 0 (1, 1) = Res.ok ⟨0, 0, t₀, m₁⟩) :
    ∃ d : StepData 8 1 1 ℝ, (fastNet (1 / c)).stepData (fastGoals (1 / c)) 0 1 (fastState c ψ 0 0, fastState c ψ 1 0, fun _ => 0) = Res.ok d ∧
      d.dEdnew = matrixOf 8 8 (newList c t₀ m₁) ∧ d.dEdcontrol = matrixOf 8 1 [(1, 0, -1)] ∧ d.dgdnew = matrixOf 1 8 [(0, 6, 1)] ∧
      d.dgdcontrol = matrixOf 1 1 [] := by
  set a := (fastNet (1 / c)).args (fastState c ψ 0 0, fastState c ψ 1 0, fun _ => 0) with ha
  have n4 : a.new 4 = 1 := by
    have : a.new 4 = start 0 := rfl
    rw [this, start_zero]
  have n6 : a.new 6 = 1 := by
    have : a.new 6 = ψ (start 0) := rfl
    rw [this, start_zero, hψ]
  have n5 : a.new 5 = 1 := by
    have : a.new 5 = Q c (start 0, ψ (start 0)) := rfl
    rw [this, start_zero, hψ]
    unfold Q; norm_num
  have n7 : a.new 7 = 1 := rfl
  have hdt : (1 - 0 : ℝ) / (1 / c) = c := by field_simp; ring
  have hds : (Box.eulerLaw 1 0).dsource (1, 1) = Res.ok (Euler.Mat2.mk 0 0 t₀ m₁).map := by
    show (Euler.dsource 1 0 (1, 1) >>= fun M => Res.ok M.map) = _
    rw [hM]; rfl
  have hnew : (fastNet (1 / c)).dNew 0 1 a = Res.ok (newList c t₀ m₁) := by
    rw [new_entries (1 / c) 0 1 a _ _ (by unfold Box.dNewLeft; rw [n4, n5, hds]; rfl) (by unfold Box.dNewRight; rw [n6, n7, hds]; rfl), n4, hdt, sub_zero]
    rfl
  obtain ⟨last, hlast⟩ := last_entries (1 / c)
  have hcontrol : (fastNet (1 / c)).dControl = Res.ok [(1, 0, -1)] := rfl
  unfold Net.stepData
  rw [← ha, hnew, hlast, hcontrol]
  exact ⟨_, rfl, rfl, rfl, rfl, rfl⟩

end Fast

end

open Fast in
/-- C73 as stated is false: with turbulent flow in a pipe the Jacobian the optimizer computes is not the derivative of the constraints (because
of `C33`). -/
theorem C73_false : ¬ C73Statement := by
  intro h
  obtain ⟨t₀, t₁, m₁, hM, hS, hne⟩ := source_data
  obtain ⟨c, hc, hβ, hβ'⟩ := exists_c t₀ t₁ m₁
  obtain ⟨ψ, ψ', hψ1, hψ, hdψ, hψ'⟩ := exists_ψ c hS hβ
  obtain ⟨d, hd, d1, d2, d3, d4⟩ := fast_data hc hψ1 hM
  obtain ⟨r', hr', hr1⟩ := start_deriv
  have hφ := φ_pos
  have hdp : Euler.dp 1 / 100000 ≠ 0 := fun h0 => by rw [h0, zero_mul] at hr1; exact zero_ne_one hr1
  have hdet : d.dEdnew.det ≠ 0 := by
    intro h0
    obtain ⟨v, hv, hz⟩ := Matrix.exists_mulVec_eq_zero_iff.mpr h0
    apply hv
    obtain ⟨v0, v1, v2, v3, v4, v5, v7, v46⟩ := variation hc (v := v) (w := 0) (by
      rw [← d1, hz, zero_add]
      exact Matrix.mulVec_zero _)
    have v4 := (mul_eq_zero.mp v4).resolve_left hdp
    rw [v4, mul_zero, zero_add] at v46
    have v6 := (mul_eq_zero.mp v46).resolve_left hβ'
    rw [v4, v6, add_zero, mul_zero] at v5
    rw [v5] at v1 v3
    funext i
    have : i = 0 ∨ i = 1 ∨ i = 2 ∨ i = 3 ∨ i = 4 ∨ i = 5 ∨ i = 6 ∨ i = 7 := by omega
    rcases this with rfl | rfl | rfl | rfl | rfl | rfl | rfl | rfl <;> assumption
  have hev : Continuous fun V : Fin 2 → Fin 1 → ℝ => V 1 0 := (continuous_apply 0).comp (continuous_apply 1)
  have hev0 : Tendsto (fun V : Fin 2 → Fin 1 → ℝ => V 1 0) (𝓝 0) (𝓝 0) := hev.tendsto' 0 0 rfl
  have hst : Tendsto (fun V : Fin 2 → Fin 1 → ℝ => start (V 1 0)) (𝓝 0) (𝓝 1) := by
    have := hr'.continuousAt.tendsto.comp hev0
    rwa [start_zero] at this
  have hfol : Followed (fastNet (1 / c)) [0, 1] (fastInput d) (fastState c ψ) (0 : Fin 2 → Fin 1 → ℝ) := by
    refine ⟨fun V => rfl, ?_, ?_, fun i hi => fast_computable (by positivity) _, ?_⟩
    · intro i h1 hi
      obtain rfl : i = 1 := by simp at hi; omega
      filter_upwards [hev0.eventually start_pressure, hst.eventually hψ] with V hV1 hV2
      change Fin 2 → Fin 1 → ℝ at V
      obtain ⟨r, hr, hiff⟩ := C72_residual_iff_laws (fastNet (1 / c)) (fast_admissible _) 0 1 (fast_computable (by positivity) 1)
        (fastState c ψ 0 V, fastState c ψ 1 V, fun _ => V 1 0)
      refine (congrArg (fun u : Fin 1 → ℝ => (fastNet (1 / c)).residual 0 1 (fastState c ψ 0 V, fastState c ψ 1 V, u)) (fast_value d V)).trans ?_
      exact hr.trans (congrArg Res.ok (hiff.mpr (fast_laws hc hV1 hV2)))
    · intro i h1 hi
      obtain rfl : i = 1 := by simp at hi; omega
      have k1 : ContinuousAt (fun V : Fin 2 → Fin 1 → ℝ => start (V 1 0)) 0 := by
        show Tendsto _ _ (𝓝 (start 0))
        rw [start_zero]; exact hst
      have k2 : ContinuousAt (fun V : Fin 2 → Fin 1 → ℝ => ψ (start (V 1 0))) 0 := by
        show Tendsto _ _ (𝓝 (ψ (start 0)))
        rw [start_zero]; exact hdψ.continuousAt.tendsto.comp hst
      have k3 : ContinuousAt (fun V : Fin 2 → Fin 1 → ℝ => Q c (start (V 1 0), ψ (start (V 1 0)))) 0 :=
        ContinuousAt.comp (g := Q c) (strict_Q c _).continuousAt (k1.prodMk k2)
      show ContinuousAt (fun (V : Fin 2 → Fin 1 → ℝ) (j : Fin 8) => fastState c ψ 1 V j) 0
      refine continuousAt_pi.mpr fun j => ?_
      unfold fastState
      simp only [one_ne_zero, if_false]
      split
      · exact continuousAt_const
      split
      · exact continuousAt_const.add hev.continuousAt
      split
      · exact k1
      split
      · exact k2
      split
      · exact continuousAt_const
      exact k3
    · intro i h1 hi
      obtain rfl : i = 1 := by simp at hi; omega
      show ∀ k : Fin 2, _
      intro k dx dd r n hk j hj1 hj2 hj3
      match k with
      | 0 => injection hk with hk; cases hk
      | 1 =>
        have hj1 : 4 ≤ j := hj1
        have hj2 : j + 1 < 8 := hj2
        have hj3 : (j - 4) % 2 = 0 := hj3
        have : j = 4 ∨ j = 6 := by omega
        rcases this with rfl | rfl
        · show 0 < start 0
          rw [start_zero]; exact one_pos
        · show 0 < ψ (start 0)
          rw [start_zero, hψ1]; exact one_pos
  obtain ⟨s, hs, -, hjac⟩ := h (fastNet (1 / c)) (fast_admissible _) (fastGoals (1 / c)) rfl (fast_attached _) [0, 1] [0, 1] [1] (fastInput d)
    (fast_optimizer d) (by simp) (by simp) (by simp) (by simp) (by simp) (by simp [EPSILON]) (by simp [checkConstraintTimes, scan])
    (fun _ => Or.inl (by simp)) (fastState c ψ) (0 : Fin 2 → Fin 1 → ℝ) hfol (by
      intro i h1 hi
      obtain rfl : i = 1 := by simp at hi; omega
      exact (congrArg (fun u : Fin 1 → ℝ => (fastNet (1 / c)).stepData (fastGoals (1 / c)) 0 1 (fastState c ψ 0 0, fastState c ψ 1 0, u))
        (fast_value d 0)).trans hd) (fun _ _ _ => hdet)
  obtain ⟨p, hp, hp1, D, ⟨g, hg, hD⟩, hDe⟩ := hjac 0 (by simp)
  obtain rfl : p = 1 := by
    have : p = 0 ∨ p = 1 := by simp at hp; omega
    rcases this with rfl | rfl
    · simp at hp1
    · rfl
  let dV : Fin 2 → Fin 1 → ℝ := fun _ _ => 1
  -- the derivative
  have htrue : D dV (0 : Fin 1) = ψ' * r' := by
    have hpath : HasDerivAt (fun τ : ℝ => τ • dV) dV 0 := by
      simpa using (hasDerivAt_id' (0 : ℝ)).smul_const dV
    have hz : (0 : ℝ) • dV = 0 := zero_smul _ _
    have h1 : HasDerivAt (fun τ : ℝ => g (τ • dV) (0 : Fin 1)) (D dV (0 : Fin 1)) 0 :=
      hasDerivAt_pi.mp (HasFDerivAt.comp_hasDerivAt (f := fun τ : ℝ => τ • dV) (0 : ℝ) (by rw [hz]; exact hD) hpath) (0 : Fin 1)
    have h2 : HasDerivAt (fun τ : ℝ => ψ (start τ)) (ψ' * r') 0 :=
      HasDerivAt.comp (h₂ := ψ) (h := start) (0 : ℝ) (by rw [start_zero]; exact hdψ) hr'
    refine h1.unique (h2.congr_of_eventuallyEq ?_)
    have hcont : Tendsto (fun τ : ℝ => τ • dV) (𝓝 0) (𝓝 0) := by
      have := hpath.continuousAt.tendsto
      rwa [hz] at this
    filter_upwards [hcont.eventually hg] with τ hτ
    have hτ := (constraint_value (1 / c) (fastState c ψ 1 (τ • dV)) (Adjoint.control (fastInput d) 1 (τ • dV))).symm.trans hτ
    injection hτ with hτ
    rw [← hτ]
    show ψ (start (τ * 1)) = _
    rw [mul_one]
  -- what is computed
  obtain ⟨hplaced, -⟩ := C16_index_data_in_bounds (fastInput d) [0, 1] [0, 1] [1] (fast_optimizer d) (by simp) (by simp) (by simp) (by simp) (by simp)
    (by simp [EPSILON]) (by simp [checkConstraintTimes, scan]) (fun _ => Or.inl (by simp))
  obtain ⟨⟨dx, ht⟩, -⟩ := tangent_exists_unique (fastInput d) 1 (fun _ _ _ => hdet) (extend dV)
  have hcode := (C16_jacobian_of_linearisation (fastInput d) 1 _ hplaced s hs (extend dV) dx ht 0 (by simp [fastInput])).1
  have hpos := hplaced.lower 0 (by simp [fastInput])
  have hpos' := hplaced.upper 0 (by simp [fastInput])
  have hctrl : controlAt ((fastInput d).pair 1) (extend dV) = fun _ => 1 := by
    funext j
    show (1 : ℝ) * 1 + (1 - 1) * 1 = 1
    ring
  have hpos1 : position [(0 : ℝ), 1] [1] 0 = 1 := le_antisymm hpos' hpos
  rw [hpos1] at hcode
  have hv := ht.equation 1 le_rfl le_rfl
  rw [ht.initial, hctrl, Matrix.mulVec_zero, add_zero] at hv
  change d.dEdnew *ᵥ dx 1 + d.dEdcontrol *ᵥ _ = 0 at hv
  rw [d1, d2] at hv
  obtain ⟨-, -, -, -, v4, v5, -, v46⟩ := variation hc (v := dx 1) (w := 1) hv
  have hsum : D dV (0 : Fin 1) = dx 1 (6 : Fin 8) := by
    have e1 : D dV = d.dgdnew *ᵥ dx 1 + d.dgdcontrol *ᵥ controlAt ((fastInput d).pair 1) (extend dV) := by
      have hx : ∀ j : Fin 2, extend dV j.val = dV j := fun j => by unfold extend; rw [dif_pos j.isLt]
      have hsum : ∑ j ∈ Finset.range 2, s.jacobian 0 j *ᵥ extend dV j = ∑ j : Fin 2, s.jacobian 0 j.val *ᵥ dV j := by
        rw [Finset.sum_range]
        exact Finset.sum_congr rfl fun j _ => congrArg (fun w => s.jacobian 0 j.val *ᵥ w) (hx j)
      exact (hDe dV).trans (hsum.symm.trans hcode)
    rw [e1, d3, d4]
    have e3 := applyRow_ext (n := 1) (m := 8) [(0, 6, 1)] (by simp) 0 (dx 1)
    have e4 := applyRow_ext (n := 1) (m := 1) [] (by simp) 0 (controlAt ((fastInput d).pair 1) (extend dV))
    show (matrixOf 1 8 [(0, 6, 1)] *ᵥ dx 1) 0 + (matrixOf 1 1 [] *ᵥ _) 0 = _
    rw [← e3, ← e4]
    have : ext (dx 1) 6 = dx 1 6 := rfl
    simp [applyRow_cons, this]
  have hv4 : dx 1 4 = r' := mul_left_cancel₀ hdp (v4.trans hr1.symm)
  have hv6 : dx 1 6 = ψ' * dx 1 4 := by rw [hv4, ← htrue, hsum]
  have hr0 : dx 1 4 ≠ 0 := fun h0 => by rw [h0, mul_zero] at v4; exact zero_ne_one v4
  have hT : α c t₀ t₁ * dx 1 4 + β c t₀ t₁ * dx 1 6 = 0 := by
    rw [hv6]
    linear_combination dx 1 4 * hψ'
  have hdiff : 0.5 / (c * φ) * (0.5 * (t₁ - m₁)) * (dx 1 4 + dx 1 6) = 0 := by
    unfold α β at hT v46
    linear_combination v46 - hT
  have hk : (0.5 : ℝ) / (c * φ) * (0.5 * (t₁ - m₁)) ≠ 0 :=
    mul_ne_zero (by positivity) (mul_ne_zero (by norm_num) (sub_ne_zero.mpr hne.symm))
  have hopp := (mul_eq_zero.mp hdiff).resolve_left hk
  have h6 : dx 1 6 = -dx 1 4 := by linarith
  rw [h6] at hT
  unfold α β at hT
  have : c * (Euler.dflux 1 (1, 1)).m10 * dx 1 4 = 0 := by linear_combination -0.5 * hT
  exact (mul_ne_zero (mul_ne_zero hc.ne' subsonic.ne') hr0) this

end Verif.Network
