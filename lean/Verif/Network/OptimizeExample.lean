import Verif.Network.Optimize

/-!
# A compressor that is optimized

The hypotheses of C44 and C73 are met by a compressor between a node with prescribed pressure and a sink.
-/

set_option autoImplicit false

namespace Verif.Network

open Verif.Net Verif.Handler Verif.Adjoint Verif.Interp Verif.OptTimes Verif.IndexLambda Verif.Jacobian Filter Topology Matrix

/-- A compressor from a node with prescribed pressure to a sink. -/
noncomputable def chainNet : Net where
  nodes := 2
  edges := 1
  node v := ⟨if v = 0 then .pressure else .flow, fun _ => Res.ok (1, 0), 0, 0⟩
  edge _ := .gas .compressor 0
  src _ := 0
  dst _ := 1
  starting v := if v = 0 then [0] else []
  ending v := if v = 1 then [0] else []

/-- The sink is constrained. -/
noncomputable def chainGoals (netWeight : ℝ) : Goals chainNet where
  weight _ := 1
  netWeight := netWeight
  netPenalty := 1
  constrained v := v == (1 : Fin 2)

theorem chain_evaluate (s t : ℝ) (a : Args) : chainNet.evaluate s t a = Res.ok [.set 0 (a.new 0 - 1), .set 3 (-1 * 1),
    .inc 3 (-1 * a.new 3), .set 1 (a.new 2 - a.new 0 - a.control 0), .set 2 (a.new 3 - a.new 1 - 0)] := rfl

theorem chain_new (s t : ℝ) (a : Args) : chainNet.dNew s t a = Res.ok [(0, 0, 1), (0, 1, 0), (3, 2, 0), (3, 3, -1),
    (1, 0, -1), (1, 2, 1), (2, 1, -1), (2, 3, 1)] := rfl

theorem chain_gstate (s c : Vec) : Net.dConstraintState (chainGoals 1) s c = Res.ok [(0, 2, 1)] := rfl

theorem chain_admissible : Admissible chainNet where
  starting := by
    show ∀ v : Fin 2, (if v = 0 then [(0 : Fin 1)] else []).Nodup ∧
      ∀ k : Fin 1, k ∈ (if v = 0 then [(0 : Fin 1)] else []) ↔ (0 : Fin 2) = v
    decide
  ending := by
    show ∀ v : Fin 2, (if v = 1 then [(0 : Fin 1)] else []).Nodup ∧
      ∀ k : Fin 1, k ∈ (if v = 1 then [(0 : Fin 1)] else []) ↔ (1 : Fin 2) = v
    decide
  noLoop := by show ∀ _ : Fin 1, (0 : Fin 2) ≠ 1; decide
  points := by intro k dx d r n h; injection h with h; cases h
  gasStart := by intro k kind n h; rfl
  gasEnd := by intro k kind n h _; rfl
  plantEnd := by intro k g p n h; injection h with h; cases h
  lines := by intro k G B h; cases h

theorem chain_attached (w : ℝ) : (chainGoals w).Attached := by
  show ∀ v : Fin 2, (v == (1 : Fin 2)) = true → _
  intro v hv
  have hv : v = 1 := by simpa using hv
  subst hv
  exact ⟨rfl, by show (_ :: _) ≠ []; simp⟩

theorem chain_regular (t : ℝ) (x : Vec) : Regular chainNet t x where
  boundary v _ := ⟨_, rfl⟩
  pipes k dx d r n h := by injection h with h; cases h

/-- C44 holds for this network at every state and control. -/
example (z : chainNet.Now) : ∃ D : chainNet.Now →L[ℝ] ℝ, HasFDerivAt (chainGoals 1).objective D z :=
  let ⟨D, h, _⟩ := C44_objective chainNet (chainGoals 1) rfl z
  ⟨D, h⟩

example (z : chainNet.Now) : ∃ D : chainNet.Now →L[ℝ] (Fin (chainGoals 1).count → ℝ), Derives (chainGoals 1).constraintVector D z :=
  let ⟨_, _, _, _, D, h, _⟩ := C44_constraints chainNet chain_admissible (chainGoals 1) (chain_attached 1) z
  ⟨D, h⟩

/-- The hypothesis on the weight of the network in `C44_objective` is needed: for any other weight the entries are not the
derivative, for this network with control 1. -/
theorem C44_weight_needed (w : ℝ) (hw : w ≠ 1) (D : chainNet.Now →L[ℝ] ℝ)
    (hD : HasFDerivAt (chainGoals w).objective D (fun _ => 0, fun _ => 1)) :
    D (0, fun _ => 1) ≠ rowOf (m := chainNet.controlCount)
      (Net.dCostControl (chainGoals w) (ext (fun _ : Fin chainNet.stateCount => 0))
        (ext (fun _ : Fin chainNet.controlCount => 1)) ++ []) ⬝ᵥ fun _ => 1 := by
  obtain ⟨D₁, h1, h2⟩ := C44_objective chainNet (chainGoals 1) rfl (fun _ => 0, fun _ => 1)
  have he : (chainGoals w).objective = fun z => w * (chainGoals 1).objective z := by
    funext z
    simp only [Goals.objective, Net.cost, Net.penalty, foldl_add_sum]
    simp [chainGoals, Net.edgeCost]
  rw [he] at hD
  have hu := hD.unique (h1.const_mul w)
  have h3 := h2 0 (fun _ => 1)
  have e1 : rowOf (m := chainNet.controlCount)
      (Net.dCostControl (chainGoals w) (ext (fun _ : Fin chainNet.stateCount => 0))
        (ext (fun _ : Fin chainNet.controlCount => 1)) ++ []) ⬝ᵥ (fun _ => 1) = 2 := by
    have hcs : Net.dCostControl (chainGoals w) (ext (fun _ : Fin chainNet.stateCount => 0))
        (ext (fun _ : Fin chainNet.controlCount => 1)) ++ [] =
        [(0, 0, 2 * 1 * ext (fun _ : Fin chainNet.controlCount => (1 : ℝ)) 0)] := rfl
    rw [hcs, ← applyRow_rowOf _ (by intro c hc; simp only [List.mem_singleton] at hc; subst hc; exact ⟨le_rfl, by decide⟩),
      applyRow_cons, if_pos rfl, applyRow_nil]
    have : ext (fun _ : Fin chainNet.controlCount => (1 : ℝ)) 0 = 1 := rfl
    rw [this]; norm_num
  have e2 : D₁ (0, fun _ => 1) = 2 := by
    have hcs : Net.dCostControl (chainGoals 1) (ext (fun _ : Fin chainNet.stateCount => 0))
        (ext (fun _ : Fin chainNet.controlCount => 1)) ++ Net.dPenalty (chainGoals 1)
          (ext (fun _ : Fin chainNet.stateCount => 0)) (ext (fun _ : Fin chainNet.controlCount => 1)) =
        [(0, 0, 2 * 1 * ext (fun _ : Fin chainNet.controlCount => (1 : ℝ)) 0)] := rfl
    rw [h3]
    rw [dotProduct_zero, zero_add, hcs, ← applyRow_rowOf _ (by intro c hc; simp only [List.mem_singleton] at hc; subst hc; exact ⟨le_rfl, by decide⟩),
      applyRow_cons, if_pos rfl, applyRow_nil]
    have : ext (fun _ : Fin chainNet.controlCount => (1 : ℝ)) 0 = 1 := rfl
    rw [this]; norm_num
  rw [e1, hu]
  show w • D₁ (0, fun _ => 1) ≠ 2
  rw [e2, smul_eq_mul]
  intro h
  exact hw (by linarith)

/-- The data of the optimizer for the state times 0 and 1, the control times 0 and 1, and the constraint time 1. -/
noncomputable def chainInput : Input chainNet.stateCount chainNet.controlCount (chainGoals 1).count ℝ where
  data _ := {
    dEdnew := matrixOf _ _ [(0, 0, 1), (0, 1, 0), (3, 2, 0), (3, 3, -1), (1, 0, -1), (1, 2, 1), (2, 1, -1), (2, 3, 1)]
    dEdlast := matrixOf _ _ []
    dEdcontrol := matrixOf _ _ [(1, 0, -1)]
    dfdnew := rowOf []
    dfdcontrol := rowOf [(0, 0, 2 * 1 * 5)]
    dgdnew := matrixOf _ _ [(0, 2, 1)]
    dgdcontrol := matrixOf _ _ [] }
  weight _ := 1 / 2
  pair i := (i, 1)
  time i := i
  cons := [1]
  controlSteps := 2
  rowstart _ := 0
  oob := none

theorem chain_value (V : Fin 2 → Fin chainNet.controlCount → ℝ) : Adjoint.control chainInput 1 V = V 1 := by
  funext j
  show (1 : ℝ) * V 1 j + (1 - 1) * V 0 j = V 1 j
  ring

/-- The state for the controls: pressure 1 at the start, that plus the control at the end. -/
noncomputable def chainState (i : ℕ) (V : Fin 2 → Fin chainNet.controlCount → ℝ) (j : Fin chainNet.stateCount) : ℝ :=
  if i = 0 then 0 else if j.val = 0 then 1 else if j.val = 2 then 1 + V 1 ⟨0, by decide⟩ else -1

theorem chain_optimizer : FromOptimizer chainInput [0, 1] [0, 1] [1] := by
  refine ⟨?_, rfl, rfl, ?_, ?_, ?_⟩
  · intro i hi
    have : i = 0 ∨ i = 1 := by simp at hi; omega
    rcases this with rfl | rfl <;> simp [chainInput]
  · intro i hi
    have : i = 0 ∨ i = 1 := by simp at hi; omega
    have l0 : lowerBound [(0 : ℝ), 1] 0 = 0 := by simp [lowerBound, List.findIdx_cons]
    have l1 : lowerBound [(0 : ℝ), 1] 1 = 1 := by
      have : ¬ (1 : ℝ) ≤ 0 := by norm_num
      simp [lowerBound, List.findIdx_cons, this]
    rcases this with rfl | rfl
    · have : ¬ (1 : ℝ) < 0 := by norm_num
      simp [chainInput, computeIndexLambda, l0, Res.get, this]
    · simp [chainInput, computeIndexLambda, l1, Res.get]
  · refine ⟨[1 / 2, 1 / 2], by simp [Weights.weights], ?_⟩
    intro i hi
    have : i = 0 ∨ i = 1 := by simp at hi; omega
    rcases this with rfl | rfl <;> simp [chainInput]
  · refine ⟨⟨(chainGoals 1).count, chainNet.controlCount, [0, 1, 2]⟩, by simp [makeData, makeDataLoop], ?_⟩
    intro j hj
    have : j = 0 ∨ j = 1 := by simp at hj; omega
    rcases this with rfl | rfl <;> rfl

theorem chain_simulated : Simulated chainNet [0, 1] chainInput chainState (fun _ _ => 5) := by
  refine ⟨fun V => by funext j; simp [chainState], ?_, ?_, fun i _ _ => chain_regular _ _⟩
  · intro i h1 hi
    have : i = 1 := by simp at hi; omega
    subst this
    refine Eventually.of_forall fun V => ?_
    unfold Net.residual
    rw [chain_evaluate, Res.ok_bind]
    congr 1
    have e0 : (chainNet.args (chainState 0 V, chainState 1 V, Adjoint.control chainInput 1 V)).new 0 = 1 := rfl
    have e1 : (chainNet.args (chainState 0 V, chainState 1 V, Adjoint.control chainInput 1 V)).new 1 = -1 := rfl
    have e2 : (chainNet.args (chainState 0 V, chainState 1 V, Adjoint.control chainInput 1 V)).new 2 = 1 + V 1 ⟨0, by decide⟩ := rfl
    have e3 : (chainNet.args (chainState 0 V, chainState 1 V, Adjoint.control chainInput 1 V)).new 3 = -1 := rfl
    have e4 : (chainNet.args (chainState 0 V, chainState 1 V, Adjoint.control chainInput 1 V)).control 0 = V 1 ⟨0, by decide⟩ := by
      rw [chain_value]
      rfl
    show (fun i : Fin 4 => _) = fun _ => 0
    funext i
    rw [e0, e1, e2, e3, e4]
    have : i = 0 ∨ i = 1 ∨ i = 2 ∨ i = 3 := by omega
    rcases this with rfl | rfl | rfl | rfl <;> norm_num [run, Op.apply]
  · intro i h1 hi
    refine continuousAt_pi.mpr fun j => ?_
    unfold chainState
    split
    · exact continuousAt_const
    · split
      · exact continuousAt_const
      · split
        · exact continuousAt_const.add ((continuous_apply _).comp (continuous_apply 1)).continuousAt
        · exact continuousAt_const

theorem chain_det : (chainInput.data 1).dEdnew.det ≠ 0 := by
  intro h
  obtain ⟨v, hv, hz⟩ := Matrix.exists_mulVec_eq_zero_iff.mpr h
  apply hv
  have hrow : ∀ i : Fin 4, applyRow [(0, 0, (1 : ℝ)), (0, 1, 0), (3, 2, 0), (3, 3, -1), (1, 0, -1), (1, 2, 1), (2, 1, -1), (2, 3, 1)]
      i.val (ext v) = 0 := by
    intro i
    refine (applyRow_ext (n := 4) (m := chainNet.stateCount) _ ?_ i v).trans (congrFun hz i)
    have hc : (chainNet.stateCount : ℤ) = 4 := rfl
    rw [hc]
    simp
  have v0 : ext v 0 = v (0 : Fin 4) := rfl
  have v1 : ext v 1 = v (1 : Fin 4) := rfl
  have v2 : ext v 2 = v (2 : Fin 4) := rfl
  have v3 : ext v 3 = v (3 : Fin 4) := rfl
  have h0 := hrow 0
  have h1 := hrow 1
  have h2 := hrow 2
  have h3 := hrow 3
  simp [applyRow_cons, v0, v1, v2, v3] at h0 h1 h2 h3
  show (v : Fin 4 → ℝ) = 0
  funext i
  change Fin 4 at i
  have : i = 0 ∨ i = 1 ∨ i = 2 ∨ i = 3 := by omega
  rcases this with rfl | rfl | rfl | rfl
  · exact h0
  · show v (1 : Fin 4) = 0; linarith
  · show v (2 : Fin 4) = 0; linarith
  · exact h3

theorem chain_data (i : ℕ) (h1 : 1 ≤ i) (hi : i < [(0 : ℝ), 1].length) :
    chainNet.stepData (chainGoals 1) [(0 : ℝ), 1][i - 1] [(0 : ℝ), 1][i] (chainState (i - 1) (fun _ _ => 5),
      chainState i (fun _ _ => 5), Adjoint.control (q := 2) chainInput i (fun _ _ => 5)) = Res.ok (chainInput.data i) := by
  have : i = 1 := by simp at hi; omega
  subst this
  rw [chain_value (fun _ _ => 5)]
  rfl

/-- All hypotheses of C73 are met by this network. -/
example : ∃ s, computeDerivatives chainInput 1 = Res.ok (some s) := by
  have hdet : ∀ i, 1 ≤ i → i < [(0 : ℝ), 1].length → (chainInput.data i).dEdnew.det ≠ 0 := fun i _ _ => chain_det
  obtain ⟨s, hs, -⟩ := C73_network_gradient_partial chainNet chain_admissible (chainGoals 1) rfl (chain_attached 1)
    chain_optimizer (by simp) (by simp) (by simp) (by simp) (by simp) (by simp [EPSILON]) (by simp [checkConstraintTimes, scan])
    (fun _ => Or.inl (by simp)) chain_simulated chain_data hdet
  exact ⟨s, hs⟩

end Verif.Network
