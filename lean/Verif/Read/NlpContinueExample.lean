import Verif.Read.NlpContinue
import Verif.Read.NlpDerivExample
import Verif.Network.ConvergeExample

/-!
# Cases for C119
-/

set_option autoImplicit false

namespace Verif.Read

open Verif.Json Verif.Factory Verif.Interp Verif.Schema Verif.Initial Verif.Times Verif.Newton Verif.Evolve Verif.OptTimes
  Verif.IndexLambda Verif.Weights Verif.Jacobian Verif.Adjoint Network Net Filter Topology Matrix

/-- C119 applies to the problem of `filesK`: the pressure behind the compressor is 60 bar and the control, in every continuation of the
states. -/
example (draws : Json → Res (ℝ → Res (ℝ × ℝ))) (hdraw : ∀ data, draws data = Res.throws) (mem : ℕ → ℝ) (lu : Solve) (hc : Consistent graphK) :
    ∃ P states, optimization draws mem lu 10 settingsC 1 filesK boundsK = Res.ok P ∧ P.simulation [10, 10] = Res.ok states ∧
      ∃ X, Continues hc P [10, 10] states X ∧ ∀ᶠ v in 𝓝 (fun k : Fin (P.controls * P.controlTimes.length) => ([10, 10] : List ℝ).getD k 0),
        ext (X 1 v) 2 = 60 + (List.ofFn v).getD 1 0 := by
  obtain ⟨gradient, jacobian, hx⟩ := available_k hc draws hdraw mem lu none
  obtain ⟨hP, hsim, -, hval⟩ := optimization_k hc draws mem lu
  obtain ⟨X, h1, h2⟩ := C119_variables (f := filesK) (s := settingsC) rfl shaped_k.1.1 shaped_k.1.2
    shaped_k.2.1 shaped_k.2.2 fit_k (by norm_num [settingsC]) (by norm_num [settingsC]) (by norm_num [settingsC])
    (fun t h0 h1 => covers_k h0 (h1.trans (by norm_num [settingsC]))) (by intro data d hd; rw [hdraw] at hd; cases hd) hP
    (read_k draws mem) hc hx hsim (fun i h1 hi y _ => by
      have : i = 1 := by
        have : i < 2 := hi
        omega
      subst this
      exact regular_k hc _)
  refine ⟨_, _, hP, hsim, X, h1, ?_⟩
  filter_upwards [h2 (familyK hc) (family_k hc lu _ rfl) 1 (by show 1 < 2; omega)] with v hv
  change Fin 2 → ℝ at v
  rw [← hv]
  have := entry_family hc v 2 (by norm_num)
  exact this

end Verif.Read

namespace Verif.Network

open Verif.Net Filter Topology

/-- C119 applies to gas nearly at rest. -/
example : ∃ next : (Fin pipeNet.stateCount → ℝ) × (Fin pipeNet.controlCount → ℝ) → Fin pipeNet.stateCount → ℝ, next (calmState, 0) = calmState ∧
    ∀ᶠ p in 𝓝 (calmState, 0), pipeNet.residual 0 60 (p.1, next p, p.2) = Res.ok 0 := by
  obtain ⟨next, r, h1, h2, -, h4, -⟩ := C119_next pipeNet pipe_admissible 0 60 (calmState, calmState, 0) (calm_regular 60) (calm_det (by norm_num) _ _)
  rw [calm_residual] at h1
  injection h1 with h1
  subst h1
  exact ⟨next, h2, h4⟩

/-- With the controls as parameters, the states of a hundred steps of gas nearly at rest continue. -/
example : ∃ X : ℕ → (Fin pipeNet.controlCount → ℝ) → Fin pipeNet.stateCount → ℝ, ∀ i ≤ 100, X i 0 = calmState ∧ ContinuousAt (X i) 0 := by
  obtain ⟨X, -, h, -⟩ := C119_continuation pipeNet pipe_admissible (fun i => 60 * (i : ℝ)) 100 (fun _ => calmState) (fun v _ => v) 0
    (fun _ _ => continuousAt_id) (fun _ _ => calm_regular _) (fun i _ => calm_det (by push_cast; linarith) _ _)
  exact ⟨X, h⟩

end Verif.Network
