import Verif.Network.Jacobian
import Mathlib.Analysis.Calculus.FDeriv.Mul

/-!
# Property C44: costs, penalties and constraints of a network and their derivatives

Sources: `/repo/src/Model/Networkproblem/Networkproblem.cpp`, `Gas/Compressorstation.cpp`, `Gas/ConstraintSink.cpp` and
`Componentclasses/Costcomponent.cpp`.
-/

set_option autoImplicit false

namespace Verif.Network

open Verif.Net Verif.Handler Filter Topology Matrix

/-- What a network needs for costs and constraints: `cost_weight` of the edges and `cost_weight` and `penalty_weight` of the
network itself — `Costcomponent.hpp` 73-74, all of which are 1 unless given to the constructor, which no constructor of a component
does — and which nodes are of type `ConstraintSink`. -/
structure Goals (N : Net) where
  weight : Fin N.edges → ℝ
  netWeight : ℝ
  netPenalty : ℝ
  constrained : Fin N.nodes → Bool

/-- Is the edge a `Compressorstation`? This is the only cost component — `Compressorstation.hpp` 27-30. -/
def EdgeKind.isCompressor : EdgeKind → Bool
  | .gas .compressor _ => true
  | _ => false

namespace Net

variable (N : Net)

/-- `costcomponents` — `Networkproblem.cpp` 131-167. -/
def costEdges : List (Fin N.edges) := (List.finRange N.edges).filter fun k => (N.edge k).isCompressor

variable {N}
variable (G : Goals N)

noncomputable section

/-- `Compressorstation::evaluate_cost` — `Compressorstation.cpp` 138-143. -/
def edgeCost (k : Fin N.edges) (control : Vec) : ℝ :=
  let current := control (N.controlRange k).1
  G.weight k * current * current

/-- `Networkproblem::evaluate_cost` — `Networkproblem.cpp` 405-413. -/
def cost (_state control : Vec) : ℝ :=
  G.netWeight * N.costEdges.foldl (fun cost k => cost + edgeCost G k control) 0

/-- `d_evaluate_cost_d_state` — `Networkproblem.cpp` 415-423, `Compressorstation.cpp` 145-148. -/
def dCostState (_G : Goals N) (_state _control : Vec) : List (Contribution ℝ) := N.costEdges.flatMap fun _ => []

/-- `Compressorstation::d_evaluate_cost_d_control` — `Compressorstation.cpp` 150-157. -/
def edgeCostControl (k : Fin N.edges) (control : Vec) : List (Contribution ℝ) :=
  let current := control (N.controlRange k).1
  [(0, (N.controlRange k).1, 2 * G.weight k * current)]

/-- `d_evaluate_cost_d_control` — `Networkproblem.cpp` 425-433. -/
def dCostControl (_state control : Vec) : List (Contribution ℝ) :=
  N.costEdges.flatMap fun k => edgeCostControl G k control

/-- `evaluate_penalty` — `Networkproblem.cpp` 435-443, `Compressorstation.cpp` 159-163. -/
def penalty (_state _control : Vec) : ℝ := G.netPenalty * N.costEdges.foldl (fun penalty _ => penalty + 0) 0

/-- `d_evaluate_penalty_d_state` and `d_evaluate_penalty_d_control` — `Networkproblem.cpp` 445-463,
`Compressorstation.cpp` 165-173. -/
def dPenalty (_G : Goals N) (_state _control : Vec) : List (Contribution ℝ) := N.costEdges.flatMap fun _ => []

/-- `constraintcomponents`; each needs one constraint — `ConstraintSink.cpp` 76-79. -/
def constraintNodes : List (Fin N.nodes) := (List.finRange N.nodes).filter fun v => G.constrained v

def constraintNeeds : List ℕ := List.ofFn fun v => if G.constrained v then 1 else 0

/-- `set_constraint_indices` — `Networkproblem.cpp` 499-508. -/
def constraintRange (v : Fin N.nodes) : ℤ × ℤ :=
  (setIndices 0 (constraintNeeds G)).1[v.val]'(by
    rw [setIndices_length]; simp only [constraintNeeds, List.length_ofFn]; omega)

/-- `get_number_of_constraints_per_timepoint()`. -/
def constraints : ℤ := (setIndices 0 (constraintNeeds G)).2

/-- `ConstraintSink::evaluate_constraint` — `ConstraintSink.cpp` 32-44. -/
def nodeConstraint (v : Fin N.nodes) (state : Vec) : Res (List Op) :=
  match N.ends v with
  | [] => Res.ub
  | x :: _ => do
    let i ← Gas.boundaryState x.2 x.1
    Res.ok [.set (constraintRange G v).1 (segment state i).1]

/-- `ConstraintSink::d_evaluate_constraint_d_state` — `ConstraintSink.cpp` 46-55. -/
def nodeConstraintState (v : Fin N.nodes) : Res (List (Contribution ℝ)) :=
  match N.ends v with
  | [] => Res.ub
  | x :: _ => do
    let i ← Gas.boundaryState x.2 x.1
    Res.ok [((constraintRange G v).1, i, 1)]

/-- `evaluate_constraint` — `Networkproblem.cpp` 469-477. -/
def constraint (state _control : Vec) : Res (List Op) := forEach (constraintNodes G) fun v => nodeConstraint G v state

/-- `d_evaluate_constraint_d_state` — `Networkproblem.cpp` 479-487. -/
def dConstraintState (_state _control : Vec) : Res (List (Contribution ℝ)) :=
  forEach (constraintNodes G) fun v => nodeConstraintState G v

/-- `d_evaluate_constraint_d_control` — `Networkproblem.cpp` 489-497, `ConstraintSink.cpp` 57-59. -/
def dConstraintControl (_state _control : Vec) : Res (List (Contribution ℝ)) :=
  forEach (constraintNodes G) fun _ => Res.ok []

end

end Net

/-! ## Specification -/

/-- The number of constraints at a time. -/
def Goals.count {N : Net} (G : Goals N) : ℕ := (Net.constraints G).toNat

/-- State and control at a time. -/
abbrev Net.Now (N : Net) := (Fin N.stateCount → ℝ) × (Fin N.controlCount → ℝ)

/-- The objective at a time: cost and penalty. -/
noncomputable def Goals.objective {N : Net} (G : Goals N) (z : N.Now) : ℝ :=
  Net.cost G (ext z.1) (ext z.2) + Net.penalty G (ext z.1) (ext z.2)

/-- The vector of constraints at a time, after `evaluate_constraint` was called on a zero vector. -/
noncomputable def Goals.constraintVector {N : Net} (G : Goals N) (z : N.Now) : Res (Fin G.count → ℝ) := do
  let ops ← Net.constraint G (ext z.1) (ext z.2)
  Res.ok fun i => run (fun _ => 0) ops i.val

/-- The constrained nodes are sinks with at least one gas edge. -/
def Goals.Attached {N : Net} (G : Goals N) : Prop :=
  ∀ v, G.constrained v = true → (N.node v).kind = .flow ∧ N.ends v ≠ []

/-- The one row of a matrix of one row. -/
noncomputable def rowOf {m : ℕ} (cs : List (Contribution ℝ)) : Fin m → ℝ := fun j => total cs 0 j.val

/-! ## Costs -/

theorem foldl_add_sum {α : Type} (l : List α) (c : α → ℝ) (s : ℝ) :
    l.foldl (fun acc k => acc + c k) s = s + (l.map c).sum := by
  induction l generalizing s with
  | nil => simp
  | cons a l ih => rw [List.foldl_cons, ih, List.map_cons, List.sum_cons, add_assoc]

theorem isCompressor_isControl {k : EdgeKind} (h : k.isCompressor) : k.isControl := by
  unfold EdgeKind.isCompressor at h
  split at h
  · rfl
  · cases h

/-- The derivative of the sum of the costs of some edges. -/
theorem costs_hasFDerivAt {N : Net} (G : Goals N) (z : N.Now) (l : List (Fin N.edges))
    (l' : N.Now →L[ℝ] (Fin N.controlCount → ℝ)) (hl' : l' = ContinuousLinearMap.snd ℝ _ _) :
    HasFDerivAt (fun z : N.Now => (l.map fun k => Net.edgeCost G k (ext z.2)).sum)
      (applyRow (l.flatMap fun k => Net.edgeCostControl G k (ext z.2)) 0 (dExt l')) z := by
  subst hl'
  induction l with
  | nil => simpa using hasFDerivAt_const (0 : ℝ) z
  | cons k l ih =>
    simp only [List.map_cons, List.sum_cons, List.flatMap_cons]
    rw [applyRow_append]
    refine HasFDerivAt.add ?_ ih
    have h := ext_hasFDerivAt (ContinuousLinearMap.snd ℝ (Fin N.stateCount → ℝ) (Fin N.controlCount → ℝ))
      (N.controlRange k).1 z
    have h2 := (h.const_mul (G.weight k)).mul h
    unfold Net.edgeCost Net.edgeCostControl
    rw [applyRow_cons, if_pos rfl, applyRow_nil, add_zero]
    refine h2.congr_fderiv ?_
    ext w <;> simp <;> ring

theorem applyRow_rowOf {m : ℕ} (cs : List (Contribution ℝ)) (h : ∀ c ∈ cs, 0 ≤ c.2.1 ∧ c.2.1 < m) (w : Fin m → ℝ) :
    applyRow cs 0 (ext w) = rowOf cs ⬝ᵥ w := by
  have := applyRow_ext (n := 1) cs h 0 w
  simpa [matrixOf, Matrix.mulVec, rowOf, dotProduct] using this

/-- The entries for the costs are inside of the matrices. -/
theorem cost_inside {N : Net} (G : Goals N) (state control : Vec) :
    ∀ c ∈ Net.dCostControl G state control ++ Net.dPenalty G state control,
      c.1 = 0 ∧ 0 ≤ c.2.1 ∧ c.2.1 < (N.controlCount : ℤ) := by
  intro c hc
  rcases List.mem_append.mp hc with hc | hc
  · obtain ⟨k, hk, hc⟩ := List.mem_flatMap.mp hc
    simp only [Net.edgeCostControl, List.mem_singleton] at hc
    subst hc
    have hk' := (List.mem_filter.mp hk).2
    have := Admissible.control_bounds (N := N) (isCompressor_isControl hk')
    unfold Net.controlCount
    refine ⟨rfl, ?_, ?_⟩ <;> simp only <;> omega
  · obtain ⟨k, _, hc⟩ := List.mem_flatMap.mp hc
    simp at hc

/-- C44. For a network whose own weight is 1, as it is for every network that is built, with any weights of its compressors: at every
state and control the entries for cost and penalty, put into the same matrices, are the derivatives of the sum of cost and
penalty with respect to state and control. -/
theorem C44_objective (N : Net) (G : Goals N) (hw : G.netWeight = 1) (z : N.Now) :
    ∃ D : N.Now →L[ℝ] ℝ, HasFDerivAt G.objective D z ∧
      ∀ a c, D (a, c) =
        rowOf (Net.dCostState G (ext z.1) (ext z.2) ++ Net.dPenalty G (ext z.1) (ext z.2)) ⬝ᵥ a +
        rowOf (Net.dCostControl G (ext z.1) (ext z.2) ++ Net.dPenalty G (ext z.1) (ext z.2)) ⬝ᵥ c := by
  have h := costs_hasFDerivAt G z N.costEdges _ rfl
  refine ⟨_, h.congr_of_eventuallyEq (Eventually.of_forall fun y => ?_), ?_⟩
  · simp only [Goals.objective, Net.cost, Net.penalty, hw, foldl_add_sum, one_mul, zero_add]
    simp
  · intro a c
    have hnil : Net.dCostState G (ext z.1) (ext z.2) ++ Net.dPenalty G (ext z.1) (ext z.2) = [] := by
      simp [Net.dCostState, Net.dPenalty]
    have hpen : Net.dPenalty G (ext z.1) (ext z.2) = [] := by simp [Net.dPenalty]
    have hin := cost_inside G (ext z.1) (ext z.2)
    rw [hnil, ← applyRow_rowOf _ (fun d hd => (hin d hd).2), applyRow_apply]
    have h0 : rowOf (m := N.stateCount) [] ⬝ᵥ a = 0 := by simp [rowOf, total, dotProduct]
    simp only [dExt_apply, hpen, List.append_nil]
    rw [h0, zero_add]
    rfl

/-- What the cost is: the weighted sum of the squares of the controls of the compressors. -/
theorem C44_cost (N : Net) (G : Goals N) (hw : G.netWeight = 1) (z : N.Now) :
    G.objective z = ∑ k : Fin N.edges, if (N.edge k).isCompressor then G.weight k * ext z.2 (N.controlRange k).1 ^ 2 else 0 := by
  simp only [Goals.objective, Net.cost, Net.penalty, hw, foldl_add_sum, one_mul, zero_add, Net.costEdges]
  have h1 : ∀ l : List (Fin N.edges), ((l.filter fun k => (N.edge k).isCompressor).map fun k =>
      Net.edgeCost G k (ext z.2)).sum = (l.map fun k => if (N.edge k).isCompressor then
        G.weight k * ext z.2 (N.controlRange k).1 ^ 2 else 0).sum := by
    intro l
    induction l with
    | nil => rfl
    | cons k l ih =>
      by_cases hk : (N.edge k).isCompressor
      · rw [List.filter_cons_of_pos (p := fun k => (N.edge k).isCompressor) hk]
        simp only [List.map_cons, List.sum_cons, hk, if_true, Net.edgeCost]
        congr 1
        ring
      · rw [List.filter_cons_of_neg (p := fun k => (N.edge k).isCompressor) hk]
        simp [ih, hk]
  rw [h1, ← List.sum_ofFn, List.ofFn_eq_map]
  simp

/-! ## Constraints -/

theorem constraint_bounds {N : Net} (G : Goals N) {v : Fin N.nodes} (hv : G.constrained v = true) :
    (0 ≤ (Net.constraintRange G v).1 ∧ (Net.constraintRange G v).1 < Net.constraints G) ∧
    (Net.constraintRange G v).2 = (Net.constraintRange G v).1 + 1 := by
  have hlt : v.val < (Net.constraintNeeds G).length := by simp [Net.constraintNeeds]
  have hlen := (C40_contiguous 0 (Net.constraintNeeds G)).2.1 v.val hlt (by rw [setIndices_length]; exact hlt)
  have hneed : (Net.constraintNeeds G)[v.val] = 1 := by simp [Net.constraintNeeds, hv]
  rw [hneed] at hlen
  have hb := (C40_partition 0 (Net.constraintNeeds G)).2 ⟨v.val, by rw [setIndices_length]; exact hlt⟩
    (Net.constraintRange G v).1 le_rfl (by
      show (Net.constraintRange G v).1 < (Net.constraintRange G v).2
      have : (Net.constraintRange G v).2 = (Net.constraintRange G v).1 + 1 := hlen
      omega)
  exact ⟨hb, hlen⟩

theorem constraint_unique {N : Net} (G : Goals N) {v w : Fin N.nodes} (hv : G.constrained v = true)
    (hw : G.constrained w = true) (h : (Net.constraintRange G v).1 = (Net.constraintRange G w).1) : v = w := by
  have hb := constraint_bounds G hv
  have hb' := constraint_bounds G hw
  have hlt : ∀ v : Fin N.nodes, v.val < (setIndices 0 (Net.constraintNeeds G)).1.length := by
    intro v; rw [setIndices_length]; simp [Net.constraintNeeds]
  have := ((C40_partition 0 (Net.constraintNeeds G)).1 _ hb.1.1 hb.1.2).unique
    (y₁ := ⟨v.val, hlt v⟩) (y₂ := ⟨w.val, hlt w⟩) ⟨le_rfl, by
      show (Net.constraintRange G v).1 < (Net.constraintRange G v).2
      omega⟩ ⟨by rw [h]; exact le_rfl, by
      show (Net.constraintRange G v).1 < (Net.constraintRange G w).2
      omega⟩
  exact Fin.ext (by simpa using congrArg Fin.val this)

/-- The index of the constrained state. -/
def constrainedIndex {N : Net} (v : Fin N.nodes) : ℤ := ((N.ends v).head?.map Gas.stateIndex).getD 0

theorem nodeConstraint_ok {N : Net} (hN : Admissible N) (G : Goals N) (hG : G.Attached) {v : Fin N.nodes}
    (hv : G.constrained v = true) (state : Vec) :
    Net.nodeConstraint G v state = Res.ok [.set (Net.constraintRange G v).1 (state (constrainedIndex v))] ∧
    Net.nodeConstraintState G v = Res.ok [((Net.constraintRange G v).1, constrainedIndex v, 1)] ∧
    0 ≤ constrainedIndex v ∧ constrainedIndex v < N.states := by
  obtain ⟨hk, hne⟩ := hG v hv
  obtain ⟨x, rest, hx⟩ := List.exists_cons_of_ne_nil hne
  have hmem : x ∈ N.ends v := by rw [hx]; simp
  have hu := hN.ends_usable (v := v) (by rw [hk]; rfl) x hmem
  obtain ⟨hE, hr⟩ := hN.end_in v x hmem
  have hi := (hE _ hr).1
  have hc : constrainedIndex v = Gas.stateIndex x := by simp [constrainedIndex, hx]
  refine ⟨?_, ?_, ?_⟩
  · unfold Net.nodeConstraint
    rw [hx, hc]
    simp only [Gas.boundaryState_ok hu, Res.ok_bind, Net.segment]
  · unfold Net.nodeConstraintState
    rw [hx, hc]
    simp only [Gas.boundaryState_ok hu, Res.ok_bind]
  · rw [hc]; exact hi.2

/-- The writes and the entries of the constraints. -/
theorem constraint_ok {N : Net} (hN : Admissible N) (G : Goals N) (hG : G.Attached) (state control : Vec) :
    Net.constraint G state control = Res.ok ((Net.constraintNodes G).flatMap fun v =>
      [.set (Net.constraintRange G v).1 (state (constrainedIndex v))]) ∧
    Net.dConstraintState G state control = Res.ok ((Net.constraintNodes G).flatMap fun v =>
      [((Net.constraintRange G v).1, constrainedIndex v, 1)]) ∧
    Net.dConstraintControl G state control = Res.ok [] := by
  refine ⟨forEach_ok fun v hv => ?_, forEach_ok fun v hv => ?_, ?_⟩
  · exact (nodeConstraint_ok hN G hG (List.mem_filter.mp hv).2 state).1
  · exact (nodeConstraint_ok hN G hG (List.mem_filter.mp hv).2 state).2.1
  · have := forEach_ok (l := Net.constraintNodes G) (body := fun _ => Res.ok ([] : List (Contribution ℝ)))
      (g := fun _ => []) fun _ _ => rfl
    unfold Net.dConstraintControl
    rw [this]
    simp

/-- The value of a row after the writes. -/
theorem run_constraints {N : Net} (G : Goals N) (l : List (Fin N.nodes)) (hl : ∀ v ∈ l, G.constrained v = true)
    (hn : l.Nodup) (state : Vec) (u : Vec) (r : ℤ) :
    run u (l.flatMap fun v => [.set (Net.constraintRange G v).1 (state (constrainedIndex v))]) r =
      (if ∃ v ∈ l, (Net.constraintRange G v).1 = r then
        applyRow (l.flatMap fun v => [((Net.constraintRange G v).1, constrainedIndex v, 1)]) r state else u r) := by
  induction l generalizing u with
  | nil => simp
  | cons v l ih =>
    have hn' := List.nodup_cons.mp hn
    rw [List.flatMap_cons, List.flatMap_cons, run_append, ih (fun w hw => hl w (by simp [hw])) hn'.2, applyRow_append]
    have hrest : (Net.constraintRange G v).1 = r → ¬ ∃ w ∈ l, (Net.constraintRange G w).1 = r := by
      rintro rfl ⟨w, hw, he⟩
      have := constraint_unique G (hl w (by simp [hw])) (hl v (by simp)) he
      subst this
      exact hn'.1 hw
    by_cases hv : (Net.constraintRange G v).1 = r
    · rw [if_neg (hrest hv), if_pos ⟨v, by simp, hv⟩, applyRow_cons, if_pos hv,
        applyRow_eq_zero (cs := l.flatMap _)]
      · subst hv; simp [run_cons, Op.apply]
      · intro c hc
        obtain ⟨w, hw, hc⟩ := List.mem_flatMap.mp hc
        simp only [List.mem_singleton] at hc
        subst hc
        intro he
        exact hrest hv ⟨w, hw, he⟩
    · have e : (∃ w ∈ v :: l, (Net.constraintRange G w).1 = r) ↔ ∃ w ∈ l, (Net.constraintRange G w).1 = r := by
        simp [hv]
      simp only [e]
      rw [applyRow_cons, if_neg hv, applyRow_nil, zero_add, zero_add]
      have hu : run u [Op.set (Net.constraintRange G v).1 (state (constrainedIndex v))] r = u r :=
        run_of_not_mem (fun o ho => by simp only [List.mem_singleton] at ho; subst ho; exact hv) u
      rw [hu]

/-- C44. If all constrained sinks have a gas edge, the constraints are computed at every state and control, and the entries are
their derivatives with respect to state and control. -/
theorem C44_constraints (N : Net) (hN : Admissible N) (G : Goals N) (hG : G.Attached) (z : N.Now) :
    ∃ state control, Net.dConstraintState G (ext z.1) (ext z.2) = Res.ok state ∧
      Net.dConstraintControl G (ext z.1) (ext z.2) = Res.ok control ∧
      ∃ D : N.Now →L[ℝ] (Fin G.count → ℝ), Derives G.constraintVector D z ∧
        ∀ a c, D (a, c) = matrixOf G.count N.stateCount state *ᵥ a + matrixOf G.count N.controlCount control *ᵥ c := by
  obtain ⟨-, h2, h3⟩ := constraint_ok hN G hG (ext z.1) (ext z.2)
  have hl : ∀ v ∈ Net.constraintNodes G, G.constrained v = true := fun v hv => (List.mem_filter.mp hv).2
  have hnd : (Net.constraintNodes G).Nodup := (List.nodup_finRange _).filter _
  refine ⟨_, _, h2, h3, ?_⟩
  generalize hcs : ((Net.constraintNodes G).flatMap fun v => [((Net.constraintRange G v).1, constrainedIndex v, (1 : ℝ))]) = cs at *
  have hin : ∀ c ∈ cs, 0 ≤ c.2.1 ∧ c.2.1 < (N.stateCount : ℤ) := by
    intro c hc
    rw [← hcs] at hc
    obtain ⟨v, hv, hc⟩ := List.mem_flatMap.mp hc
    simp only [List.mem_singleton] at hc
    subst hc
    have := (nodeConstraint_ok hN G hG (hl v hv) (ext z.1)).2.2
    simp only
    unfold Net.stateCount
    omega
  let L : N.Now →L[ℝ] (Fin N.stateCount → ℝ) := ContinuousLinearMap.fst ℝ _ _
  have hval : ∀ y : N.Now, G.constraintVector y = Res.ok fun i : Fin G.count => applyRow cs i.val (ext y.1) := by
    intro y
    unfold Goals.constraintVector
    rw [(constraint_ok hN G hG (ext y.1) (ext y.2)).1]
    simp only [Res.ok_bind]
    congr 1
    funext i
    rw [run_constraints G _ hl hnd, hcs]
    split
    · rfl
    · rename_i hno
      rw [applyRow_eq_zero]
      intro c hc
      rw [← hcs] at hc
      obtain ⟨v, hv, hc⟩ := List.mem_flatMap.mp hc
      simp only [List.mem_singleton] at hc
      subst hc
      exact fun he => hno ⟨v, hv, he⟩
  refine ⟨ContinuousLinearMap.pi fun i => applyRow cs i.val (dExt L), Derives.of_eq hval ?_, ?_⟩
  · refine hasFDerivAt_pi.mpr fun i => ?_
    have : (fun y : N.Now => applyRow cs i.val (ext y.1)) = fun y => (applyRow cs i.val (dExt L)) y := by
      funext y
      rw [applyRow_apply]
      simp only [dExt_apply]
      rfl
    rw [this]
    exact ContinuousLinearMap.hasFDerivAt _
  · intro a c
    funext i
    have e : (matrixOf G.count N.controlCount ([] : List (Contribution ℝ)) *ᵥ c) i = 0 := by
      simp [matrixOf, Matrix.mulVec, total, dotProduct]
    rw [Pi.add_apply, e, add_zero, ← applyRow_ext cs hin i a]
    show (applyRow cs i.val (dExt L)) (a, c) = _
    rw [applyRow_apply]
    simp only [dExt_apply]
    rfl

end Verif.Network
