import Verif.Network.Cost
import Verif.Adjoint.Props

/-!
# Property C73: the optimizer's derivatives for a network

The problem of the optimizer is a network. Its discretised objective and constraints are functions of the values of the controls
at the control times, through the simulation.
-/

set_option autoImplicit false

namespace Verif.Network

open Verif.Net Verif.Handler Verif.Adjoint Verif.Interp Verif.OptTimes Filter Topology Matrix

/-- The derivative matrices at one step — `update_equation_derivative_matrices`, `update_cost_derivative_matrices` and
`update_constraint_derivative_matrices`, `ImplicitOptimizer.cpp` 733-811. The entries a problem gives are filled into the
matrices by the handlers, which is what `matrixOf` does by C27 and C70; penalties go into the same matrix as costs. -/
noncomputable def Net.stepData (N : Net) (G : Goals N) (lastTime newTime : ℝ) (z : N.Point) :
    Res (StepData N.stateCount N.controlCount G.count ℝ) := do
  let new ← N.dNew lastTime newTime (N.args z)
  let last ← N.dLast
  let control ← N.dControl
  let gstate ← Net.dConstraintState G (ext z.2.1) (ext z.2.2)
  let gcontrol ← Net.dConstraintControl G (ext z.2.1) (ext z.2.2)
  Res.ok {
    dEdnew := matrixOf _ _ new
    dEdlast := matrixOf _ _ last
    dEdcontrol := matrixOf _ _ control
    dfdnew := rowOf (Net.dCostState G (ext z.2.1) (ext z.2.2) ++ Net.dPenalty G (ext z.2.1) (ext z.2.2))
    dfdcontrol := rowOf (Net.dCostControl G (ext z.2.1) (ext z.2.2) ++ Net.dPenalty G (ext z.2.1) (ext z.2.2))
    dgdnew := matrixOf _ _ gstate
    dgdcontrol := matrixOf _ _ gcontrol }

/-- The value of a computation, zero if it has none. -/
noncomputable def valueOr {n : ℕ} (r : Res (Fin n → ℝ)) : Fin n → ℝ :=
  match r with
  | Res.ok v => v
  | _ => 0

theorem derives_valueOr {E : Type} [NormedAddCommGroup E] [NormedSpace ℝ E] {n : ℕ} {f : E → Res (Fin n → ℝ)}
    {D : E →L[ℝ] (Fin n → ℝ)} {x : E} (h : Derives f D x) : HasFDerivAt (fun y => valueOr (f y)) D x := by
  obtain ⟨g, hg, hd⟩ := h
  refine hd.congr_of_eventuallyEq ?_
  filter_upwards [hg] with y hy
  simp only [valueOr, hy]

/-! ## Specification -/

/-- The states `x 0, x 1, …`, as functions of the values of the controls at the control times, are what a simulation of the network
yields near `V₀`: the initial state is fixed, every further state solves the equations of its step, depends
continuously on the controls, and is regular. -/
structure Simulated (N : Net) (states : List ℝ) {r q : ℕ} (I : Input N.stateCount N.controlCount r ℝ)
    (x : ℕ → (Fin q → Fin N.controlCount → ℝ) → (Fin N.stateCount → ℝ)) (V₀ : Fin q → Fin N.controlCount → ℝ) : Prop where
  initial : ∀ V, x 0 V = x 0 V₀
  solved : ∀ i (_ : 1 ≤ i) (hi : i < states.length), ∀ᶠ V in 𝓝 V₀,
    N.residual states[i - 1] states[i] (x (i - 1) V, x i V, control I i V) = Res.ok 0
  continuous : ∀ i, 1 ≤ i → i < states.length → ContinuousAt (x i) V₀
  regular : ∀ i (_ : 1 ≤ i) (hi : i < states.length), Regular N states[i] (ext (x i V₀))

/-- C73, apart from turbulent flow (`C33`), singular matrices, and constraint times for which the sweep reads out of bounds (`C18`):
for an admissible network with compressors and constrained sinks, any control times, state times and accepted constraint times,
the sweep of the optimizer succeeds, its gradient is the derivative of the discretised objective and its Jacobian that of all constraints,
with respect to the values of the controls at all control times. -/
theorem C73_network_gradient_partial (N : Net) (hN : Admissible N) (G : Goals N) (hw : G.netWeight = 1) (hG : G.Attached)
    {states controls cons : List ℝ} {I : Input N.stateCount N.controlCount G.count ℝ}
    (hI : FromOptimizer I states controls cons) (hs : states.Pairwise (· < ·))
    (hu : controls.Pairwise (· < ·)) (hs0 : 0 < states.length) (hu0 : 0 < controls.length)
    (hfront : controls[0] ≤ states[0])
    (hback : states[states.length - 1] < controls[controls.length - 1] + EPSILON)
    (hacc : checkConstraintTimes states cons = Res.ok ())
    (hread : 0 < G.count → (cons ≠ [] ∧ cons.head? = states.tail.head?) ∨
      ∃ v, I.oob = some v ∧ v ∉ states.tail)
    {x : ℕ → (Fin controls.length → Fin N.controlCount → ℝ) → (Fin N.stateCount → ℝ)}
    {V₀ : Fin controls.length → Fin N.controlCount → ℝ}
    (hx : Simulated N states I x V₀)
    (hdata : ∀ i (_ : 1 ≤ i) (hi : i < states.length),
      N.stepData G states[i - 1] states[i] (x (i - 1) V₀, x i V₀, control I i V₀) = Res.ok (I.data i))
    (hdet : ∀ i, 1 ≤ i → i < states.length → (I.data i).dEdnew.det ≠ 0) :
    ∃ s, computeDerivatives I (states.length - 1) = Res.ok (some s) ∧
      (∃ D : (Fin controls.length → Fin N.controlCount → ℝ) →L[ℝ] ℝ,
        HasFDerivAt (fun V => Verif.Weights.accumulate I.weight
          (fun i => G.objective (x i V, control I i V)) states.length) D V₀ ∧
        ∀ dV, D dV = ∑ j : Fin controls.length, s.gradient j ⬝ᵥ dV j) ∧
      ∀ (k : ℕ) (hk : k < cons.length), ∃ p, ∃ hp : p < states.length, states[p] = cons[k] ∧
        ∃ D : (Fin controls.length → Fin N.controlCount → ℝ) →L[ℝ] (Fin G.count → ℝ),
          Derives (fun V => G.constraintVector (x p V, control I p V)) D V₀ ∧
          ∀ dV, D dV = ∑ j : Fin controls.length, s.jacobian k j *ᵥ dV j := by
  have hconst : ∀ z : N.Now, ∃ v, G.constraintVector z = Res.ok v := fun z => by
    obtain ⟨_, _, -, -, _, h, -⟩ := C44_constraints N hN G hG z
    exact h.ok
  have hd : Discretised I (states.length - 1)
      (fun i p => if hi : i < states.length then valueOr (N.residual states[i - 1] states[i] p) else 0)
      (fun _ p => G.objective p) (fun _ p => valueOr (G.constraintVector p)) x V₀ := by
    refine ⟨hx.initial, ?_, ?_, ?_, ?_, ?_⟩
    · intro i h1 h2
      have hi : i < states.length := by omega
      filter_upwards [hx.solved i h1 hi] with V hV
      simp only [hi, dite_true, hV, valueOr]
    · intro i h1 h2; exact hx.continuous i h1 (by omega)
    · intro i h1 h2
      have hi : i < states.length := by omega
      obtain ⟨last, new, control', e1, e2, e3, D, hD, hDe⟩ := C69_network_derivative_partial N hN states[i - 1] states[i]
        (x (i - 1) V₀, x i V₀, control I i V₀) (hx.regular i h1 hi)
      have hda := hdata i h1 hi
      unfold Net.stepData at hda
      obtain ⟨_, f2, hda⟩ := Res.bind_eq_ok.mp hda
      obtain ⟨_, f1, hda⟩ := Res.bind_eq_ok.mp hda
      obtain ⟨_, f3, hda⟩ := Res.bind_eq_ok.mp hda
      obtain ⟨_, f4, hda⟩ := Res.bind_eq_ok.mp hda
      obtain ⟨_, f5, hda⟩ := Res.bind_eq_ok.mp hda
      rw [e1] at f1; rw [e2] at f2; rw [e3] at f3
      injection f1 with f1; injection f2 with f2; injection f3 with f3
      injection hda with hda
      subst f1 f2 f3
      refine ⟨D, ?_, fun a b c => ?_⟩
      · simp only [hi, dite_true]
        exact derives_valueOr hD
      · rw [hDe, ← hda]
    · intro i h1 h2
      have hi : i < states.length := by omega
      have hda := hdata i h1 hi
      unfold Net.stepData at hda
      obtain ⟨_, _, hda⟩ := Res.bind_eq_ok.mp hda
      obtain ⟨_, _, hda⟩ := Res.bind_eq_ok.mp hda
      obtain ⟨_, _, hda⟩ := Res.bind_eq_ok.mp hda
      obtain ⟨_, _, hda⟩ := Res.bind_eq_ok.mp hda
      obtain ⟨_, _, hda⟩ := Res.bind_eq_ok.mp hda
      injection hda with hda
      rw [← hda]
      exact C44_objective N G hw _
    · intro i h1 h2
      have hi : i < states.length := by omega
      obtain ⟨gs, gc, e1, e2, D, hD, hDe⟩ := C44_constraints N hN G hG (x i V₀, control I i V₀)
      have hda := hdata i h1 hi
      unfold Net.stepData at hda
      obtain ⟨_, f2, hda⟩ := Res.bind_eq_ok.mp hda
      obtain ⟨_, f1, hda⟩ := Res.bind_eq_ok.mp hda
      obtain ⟨_, f3, hda⟩ := Res.bind_eq_ok.mp hda
      obtain ⟨_, f4, hda⟩ := Res.bind_eq_ok.mp hda
      obtain ⟨_, f5, hda⟩ := Res.bind_eq_ok.mp hda
      rw [e1] at f4; rw [e2] at f5
      injection f4 with f4; injection f5 with f5
      injection hda with hda
      subst f4 f5
      refine ⟨D, derives_valueOr hD, fun a c => ?_⟩
      rw [hDe, ← hda]
  obtain ⟨s, hs', hgrad, hjac⟩ := C16_optimizer_exact_partial hI hs hu hs0 hu0 hfront hback hacc hread hd
    (fun i h1 h2 => hdet i h1 (by omega))
  refine ⟨s, hs', hgrad, fun k hk => ?_⟩
  obtain ⟨p, hp, he, D, hD, hDe⟩ := hjac k hk
  refine ⟨p, hp, he, D, ⟨_, Eventually.of_forall fun V => ?_, hD⟩, hDe⟩
  obtain ⟨v, hv⟩ := hconst (x p V, control I p V)
  simp only [hv, valueOr]

end Verif.Network
