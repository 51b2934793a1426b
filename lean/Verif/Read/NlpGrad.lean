import Verif.Read.NlpProps

/-!
# Property C105: the gradient Ipopt gets is the derivative of the objective it gets
-/

set_option autoImplicit false

namespace Verif.Read

open Verif.Json Verif.Factory Verif.Interp Verif.Schema Verif.Initial Verif.Times Verif.Newton Verif.Evolve Verif.OptTimes
  Verif.IndexLambda Verif.Weights Verif.Jacobian Verif.Adjoint Network Net Filter Topology Matrix

/-! ## Specification -/

/-- The value of the objective: the integral, by the trapezoidal rule, of the sum of the squares of the controls of the compressors, taken as
0 at the first time. -/
def Objective {g : Graph Network.Node EdgeKind} (hc : Consistent g) (P : Nlp) (x : List ℝ) (value : ℝ) : Prop :=
  ∃ c : ℕ → Vec, (∀ i, 1 ≤ i → ∀ hi : i < P.times.length, Controlled (toNet hc) P.controlTimes x P.times[i] (c i)) ∧
    value = trapezoid P.times.length (fun i => P.times.getD i 0) fun i => if i = 0 then 0 else
      ∑ k : Fin (toNet hc).edges, if ((toNet hc).edge k).isCompressor then c i ((toNet hc).controlRange k).1 ^ 2 else 0

/-! ## Variables by control time -/

section Blocks
variable {m q : ℕ}

/-- Variable `i` at control time `j` is number `j * m + i`. -/
theorem block_lt {i j : ℕ} (hi : i < m) (hj : j < q) : j * m + i < m * q := by
  have : (j + 1) * m ≤ q * m := Nat.mul_le_mul_right _ hj
  rw [mul_comm m q]
  linarith [Nat.succ_mul j m]

/-- The variables as vectors of the control times. -/
def blocks (v : Fin (m * q) → ℝ) (j : Fin q) (i : Fin m) : ℝ := v ⟨j.val * m + i.val, block_lt i.isLt j.isLt⟩

/-- The same as a linear map. -/
noncomputable def blocksL : (Fin (m * q) → ℝ) →L[ℝ] (Fin q → Fin m → ℝ) :=
  LinearMap.toContinuousLinearMap ⟨⟨blocks, fun _ _ => rfl⟩, fun _ _ => rfl⟩

theorem blocksL_apply (v : Fin (m * q) → ℝ) : blocksL v = blocks v := rfl

/-- A sum over control times and variables of a time is a sum over variables. -/
theorem blocks_single (p : Fin (m * q)) (hm : 0 < m) (c : ℕ → Fin m → ℝ) :
    ∑ j : Fin q, c j ⬝ᵥ blocks (Pi.single p 1 : Fin (m * q) → ℝ) j = c (p.val / m) ⟨p.val % m, Nat.mod_lt _ hm⟩ := by
  have hj : p.val / m < q := by
    rw [Nat.div_lt_iff_lt_mul hm]
    exact p.isLt.trans_eq (mul_comm m q)
  rw [Finset.sum_eq_single (⟨p.val / m, hj⟩ : Fin q)]
  · unfold dotProduct
    rw [Finset.sum_eq_single (⟨p.val % m, Nat.mod_lt _ hm⟩ : Fin m)]
    · have : (⟨p.val / m * m + p.val % m, block_lt (Nat.mod_lt _ hm) hj⟩ : Fin (m * q)) = p :=
        Fin.ext (Nat.div_add_mod' p.val m)
      simp only [blocks, this, Pi.single_eq_same, mul_one]
    · intro i _ hne
      have : (⟨p.val / m * m + i.val, block_lt i.isLt hj⟩ : Fin (m * q)) ≠ p := by
        intro he
        have he := congrArg Fin.val he
        simp only at he
        refine hne (Fin.ext ?_)
        have := Nat.div_add_mod' p.val m
        simp only
        omega
      simp only [blocks, Pi.single_eq_of_ne this, mul_zero]
    · intro h; exact absurd (Finset.mem_univ _) h
  · intro j _ hne
    unfold dotProduct
    refine Finset.sum_eq_zero fun i _ => ?_
    have : (⟨j.val * m + i.val, block_lt i.isLt j.isLt⟩ : Fin (m * q)) ≠ p := by
      intro he
      have he := congrArg Fin.val he
      simp only at he
      refine hne (Fin.ext ?_)
      simp only
      rw [← he, Nat.add_comm, Nat.add_mul_div_right _ _ hm, Nat.div_eq_of_lt i.isLt, zero_add]
    simp only [blocks, Pi.single_eq_of_ne this, mul_zero]
  · intro h; exact absurd (Finset.mem_univ _) h

theorem gradientValues_get {n r : ℕ} {s : Adjoint.State n m r ℝ} (p : ℕ) (hp : p < m * q) (hm : 0 < m) :
    (gradientValues q s)[p]? = some (s.gradient (p / m) ⟨p % m, Nat.mod_lt _ hm⟩) := by
  unfold gradientValues
  have hj : p / m < q := by
    rw [Nat.div_lt_iff_lt_mul hm, mul_comm]
    exact hp
  have hb : ∀ b ∈ (List.range q).map (fun j => List.ofFn (s.gradient j)), b.length = m := by
    intro b hb
    obtain ⟨j, -, rfl⟩ := List.mem_map.mp hb
    simp
  obtain ⟨-, h⟩ := flatten_block hb
  have := h (p / m) (by simpa using hj) (p % m) (Nat.mod_lt _ hm)
  rw [Nat.div_add_mod'] at this
  rw [List.flatMap_def, this]
  simp [Nat.mod_lt _ hm]

theorem gradientValues_length {n r : ℕ} {s : Adjoint.State n m r ℝ} : (gradientValues q s).length = m * q := by
  unfold gradientValues
  rw [List.length_flatMap]
  simp [mul_comm]

end Blocks

/-! ## The controls at a time -/

/-- The controls at a time are the combination the derivatives use. -/
theorem controlsAt_pair {N : Net} {cgrid : List ℝ} (hs : cgrid.Pairwise (· < ·)) (hn : 0 < cgrid.length) {t : ℝ}
    (h1 : cgrid[0] ≤ t) (h2 : t < cgrid[cgrid.length - 1] + EPSILON) {p : ℕ × ℝ} (hp : computeIndexLambda cgrid t = Res.ok p)
    (v : Fin (N.controlCount * cgrid.length) → ℝ) :
    controlsAt (N := N) cgrid (List.ofFn v) t = Res.ok (controlAt p (extend (blocks v))) := by
  have hwf : (⟨cgrid, N.controlCount, List.ofFn v⟩ : IV ℝ).WF := by
    show (List.ofFn v).length = _
    rw [List.length_ofFn]
    exact mul_comm _ _
  obtain ⟨i, lam, e1, e2, -, -, e3, r, e4, e5, e6⟩ := C08_agrees_with_interpolation ⟨cgrid, N.controlCount, List.ofFn v⟩ hwf hs hn t
    (by show cgrid[0] - EPSILON ≤ t; linarith [EPSILON_pos (K := ℝ)]) h2
  simp only at e1 e2
  rw [hp] at e1
  injection e1 with e1
  subst e1
  refine Res.bind_eq_ok.mpr ⟨r, e4, ?_⟩
  congr 1
  funext k
  have hk := e6 k.val k.isLt
  have hget : ∀ j (hj : j < cgrid.length), (List.ofFn v)[j * N.controlCount + k.val]? = some (extend (blocks v) j k) := by
    intro j hj
    have hlt := block_lt (m := N.controlCount) (q := cgrid.length) k.isLt hj
    rw [List.getElem?_ofFn, dif_pos hlt]
    simp only [extend, dif_pos hj, blocks]
  have hval : (List.getD r k.val 0) = lam * extend (blocks v) i k + (1 - lam) * extend (blocks v) (i - 1) k := by
    rw [List.getD_eq_getElem?_getD, hk]
    unfold combination
    simp only
    rw [hget i e2]
    split
    · next h => rw [h]; simp
    · next h =>
      rw [if_neg (fun h0 => h (e3 h0)), hget (i - 1) (by omega)]
      simp
  show List.getD r k.val 0 = _
  rw [hval]
  simp [Adjoint.controlAt]

theorem pairs_get {cgrid times : List ℝ} {ps : List (ℕ × ℝ)} (h : computeIndexLambdaVector cgrid times = Res.ok ps) :
    ∀ i (hi : i < times.length), computeIndexLambda cgrid times[i] = Res.ok (ps.getD i (0, 0)) := by
  induction times generalizing ps with
  | nil => intro i hi; simp at hi
  | cons t times ih =>
    unfold computeIndexLambdaVector at h
    obtain ⟨p, h1, h⟩ := Res.bind_eq_ok.mp h
    obtain ⟨qs, h2, h⟩ := Res.bind_eq_ok.mp h
    injection h with h
    subst h
    intro i hi
    cases i with
    | zero => simpa using h1
    | succ i => simpa using ih h2 i (by simpa using hi)

/-! ## The sweep -/

theorem sweep_det {n m r : ℕ} {I : Input n m r ℝ} : ∀ {M : ℕ} {s s' : Adjoint.State n m r ℝ}, sweep I M s = Res.ok (some s') →
    ∀ i, 1 ≤ i → i ≤ M → (I.data i).dEdnew.det ≠ 0 := by
  intro M
  induction M with
  | zero => intro s s' _ i h1 h2; omega
  | succ M ih =>
    intro s s' h i h1 h2
    unfold sweep at h
    obtain ⟨o, ho, h⟩ := Res.bind_eq_ok.mp h
    match o, h, ho with
    | some s1, h, ho =>
      rcases Nat.lt_or_ge i (M + 1) with hi | hi
      · exact ih h i h1 (by omega)
      · obtain rfl : i = M + 1 := by omega
        intro hdet
        unfold step at ho
        simp only at ho
        rw [if_pos (by rw [det_transpose]; exact hdet)] at ho
        cases ho

theorem objective_state {N : Net} (G : Goals N) (a b : Fin N.stateCount → ℝ) (c : Fin N.controlCount → ℝ) :
    G.objective (a, c) = G.objective (b, c) := rfl

/-- The sweep yields the derivative of the weighted sum of the objectives, whether or not the states solve the equations, as the
objective of a time depends on the controls only. -/
theorem sweep_objective {N : Net} (G : Goals N) (hw : G.netWeight = 1) {I : Input N.stateCount N.controlCount G.count ℝ} {M q : ℕ}
    (hq : I.controlSteps = q) {V₀ : Fin q → Fin N.controlCount → ℝ}
    (hnew : ∀ i, 1 ≤ i → i ≤ M → (I.data i).dfdnew = 0)
    (hcon : ∀ i, 1 ≤ i → i ≤ M → ∃ z : Vec, (I.data i).dfdcontrol = rowOf (Net.dCostControl G z (ext (control I i V₀)) ++
      Net.dPenalty G z (ext (control I i V₀))))
    {s : Adjoint.State N.stateCount N.controlCount G.count ℝ} (h : computeDerivatives I M = Res.ok (some s)) :
    ∃ D : (Fin q → Fin N.controlCount → ℝ) →L[ℝ] ℝ,
      HasFDerivAt (fun V => accumulate I.weight (fun i => G.objective (0, control I i V)) (M + 1)) D V₀ ∧
      ∀ dV, D dV = ∑ j : Fin q, s.gradient j ⬝ᵥ dV j := by
  have hdet := sweep_det h
  have hterm : ∀ i, i < M → ∃ T : (Fin q → Fin N.controlCount → ℝ) →L[ℝ] ℝ,
      HasFDerivAt (fun V => I.weight (i + 1) * G.objective (0, control I (i + 1) V)) T V₀ ∧
      ∀ dV, T dV = I.weight (i + 1) * ((I.data (i + 1)).dfdcontrol ⬝ᵥ control I (i + 1) dV) := by
    intro i hi
    obtain ⟨D, hD, hDe⟩ := C44_objective N G hw (0, control I (i + 1) V₀)
    obtain ⟨L, hL⟩ := control_linear (q := q) I (i + 1)
    have hL' : HasFDerivAt (fun V => ((0 : Fin N.stateCount → ℝ), control I (i + 1) V))
        ((0 : (Fin q → Fin N.controlCount → ℝ) →L[ℝ] (Fin N.stateCount → ℝ)).prod L) V₀ := by
      have := (hasFDerivAt_const (0 : Fin N.stateCount → ℝ) V₀).prodMk L.hasFDerivAt
      refine this.congr_of_eventuallyEq (Eventually.of_forall fun V => ?_)
      simp only [hL]
    refine ⟨I.weight (i + 1) • D.comp ((0 : (Fin q → Fin N.controlCount → ℝ) →L[ℝ] (Fin N.stateCount → ℝ)).prod L),
      (HasFDerivAt.comp V₀ hD hL').const_mul _, fun dV => ?_⟩
    obtain ⟨z, hz⟩ := hcon (i + 1) (by omega) (by omega)
    rw [hz, _root_.smul_apply, ContinuousLinearMap.comp_apply, ContinuousLinearMap.prod_apply, hDe, hL]
    simp only [_root_.zero_apply, dotProduct_zero, zero_add, smul_eq_mul]
    rfl
  choose! T hT hTe using hterm
  refine ⟨∑ i ∈ Finset.range M, T i, ?_, fun dV => ?_⟩
  · have := HasFDerivAt.fun_sum (u := Finset.range M) (fun i hi => hT i (Finset.mem_range.mp hi))
    refine this.congr_of_eventuallyEq (Eventually.of_forall fun V => ?_)
    exact accumulate_eq _ _ _
  · obtain ⟨dx, hdx⟩ := (tangent_exists_unique I M hdet (extend dV)).1
    have := C15_gradient_of_linearisation I M s h (extend dV) dx hdx
    rw [hq, sum_extend] at this
    rw [this, _root_.sum_apply]
    refine Finset.sum_congr rfl fun i hi => ?_
    have hi := Finset.mem_range.mp hi
    rw [hTe i hi, hnew (i + 1) (by omega) (by omega), zero_dotProduct, zero_add]
    rfl

/-! ## The objective -/

theorem objective_accumulate {N : Net} {G : Goals N} {times cgrid x w : List ℝ} (hw : w.length = times.length)
    {states : List (Option (Fin N.stateCount → ℝ))} (hst : states.length = times.length) {c : ℕ → Fin N.controlCount → ℝ}
    (hc : ∀ i, 1 ≤ i → ∀ hi : i < times.length, controlsAt cgrid x times[i] = Res.ok (c i)) :
    objectiveOf G times cgrid x w states =
      Res.ok (accumulate (fun i => w.getD i 0) (fun i => G.objective (0, c i)) times.length) := by
  unfold objectiveOf
  rw [weighted_eq hw hst hc, Res.ok_bind, weighted_eq hw hst hc, Res.ok_bind]
  congr 1
  unfold accumulate Goals.objective
  simp only [penalty_zero, mul_zero, add_zero]
  have : ∀ (l : List ℕ) (a : ℝ), l.foldl (fun acc _ => acc) a = a := by
    intro l
    induction l with
    | nil => intro a; rfl
    | cons _ l ih => intro a; exact ih a
  rw [this, add_zero]
  rfl

/-! ## The matrices -/

theorem steps_get {N : Net} {G : Goals N} {times cgrid x : List ℝ} {states : List (Option (Fin N.stateCount → ℝ))}
    {data : List (StepData N.stateCount N.controlCount G.count ℝ)} (h : stepsOf G times cgrid x states = Res.ok data) :
    data.length = times.length - 1 ∧ ∀ i, 1 ≤ i → ∀ hi : i < times.length, ∃ y z c, states[i - 1]? = some y ∧ states[i]? = some z ∧
      controlsAt (N := N) cgrid x times[i] = Res.ok c ∧
      N.stepData G times[i - 1] times[i] (y.getD 0, z.getD 0, c) = Res.ok (data.getD (i - 1) ⟨0, 0, 0, 0, 0, 0, 0⟩) := by
  unfold stepsOf at h
  have h := Res.each_eq_ok.mp h
  have hl : data.length = times.length - 1 := by
    have := h.length_eq
    simpa using this.symm
  refine ⟨hl, fun i h1 hi => ?_⟩
  have hd : i - 1 < data.length := by omega
  have := (List.forall₂_iff_get.mp h).2 (i - 1) (by simp; omega) hd
  simp only [List.get_eq_getElem, List.getElem_range', one_mul] at this
  rw [show 1 + (i - 1) = i by omega] at this
  obtain ⟨a, e1, this⟩ := Res.bind_eq_ok.mp this
  obtain ⟨b, e2, this⟩ := Res.bind_eq_ok.mp this
  obtain ⟨y, e3, this⟩ := Res.bind_eq_ok.mp this
  obtain ⟨z, e4, this⟩ := Res.bind_eq_ok.mp this
  obtain ⟨c, e5, this⟩ := Res.bind_eq_ok.mp this
  rw [Res.get_of_lt (by omega)] at e1 e2
  injection e1 with e1
  injection e2 with e2
  subst e1 e2
  refine ⟨y, z, c, Res.get_eq_ok.mp e3, Res.get_eq_ok.mp e4, e5, ?_⟩
  rw [this, List.getD_eq_getElem?_getD, List.getElem?_eq_getElem hd]
  rfl

theorem stepData_cost {N : Net} {G : Goals N} {a b : ℝ} {z : N.Point} {d : StepData N.stateCount N.controlCount G.count ℝ}
    (h : N.stepData G a b z = Res.ok d) : d.dfdnew = 0 ∧
      d.dfdcontrol = rowOf (Net.dCostControl G (ext z.2.1) (ext z.2.2) ++ Net.dPenalty G (ext z.2.1) (ext z.2.2)) := by
  unfold Net.stepData at h
  obtain ⟨_, -, h⟩ := Res.bind_eq_ok.mp h
  obtain ⟨_, -, h⟩ := Res.bind_eq_ok.mp h
  obtain ⟨_, -, h⟩ := Res.bind_eq_ok.mp h
  obtain ⟨_, -, h⟩ := Res.bind_eq_ok.mp h
  obtain ⟨_, -, h⟩ := Res.bind_eq_ok.mp h
  injection h with h
  subst h
  refine ⟨?_, rfl⟩
  have : Net.dCostState G (ext z.2.1) (ext z.2.2) ++ Net.dPenalty G (ext z.2.1) (ext z.2.2) = [] := by
    simp [Net.dCostState, Net.dPenalty]
  show rowOf (Net.dCostState G (ext z.2.1) (ext z.2.2) ++ Net.dPenalty G (ext z.2.1) (ext z.2.2)) = 0
  rw [this]
  funext j
  simp [rowOf, Handler.total]

/-! ## What an optimization consists of -/

/-- What is computed when an optimization is set up. -/
structure Parts (s : Settings) (every : ℤ) (f : Files) (lu : Solve) (fuel : ℕ) {g : Graph Network.Node EdgeKind} (hc : Consistent g)
    (initial : List ℝ) (w : List ℝ) (pairs : List (ℕ × ℝ)) (P : Nlp) : Prop where
  admissible : Admissible (toNet hc)
  good : GoodGrid P.times s.start s.stop s.desired
  controls : P.controls = (toNet hc).controlCount
  positive : 0 < P.controls
  constraints : P.constraints = (goals hc f.topology).count
  increasing : P.controlTimes.Pairwise (· < ·)
  first : ∃ hn : 0 < P.controlTimes.length, P.controlTimes[0] = s.start ∧
    ∀ t ∈ P.times, t < P.controlTimes[P.controlTimes.length - 1] + EPSILON
  selected : Selected every P.times P.constraintTimes
  checked : checkConstraintTimes P.times P.constraintTimes = Res.ok ()
  pairing : computeIndexLambdaVector P.controlTimes P.times = Res.ok pairs
  weights : weights P.times = Res.ok w
  jacobian : makeData P.constraints P.controls P.constraintTimes P.controlTimes = Res.ok P.jacobian
  flow : ∀ v : Fin g.nodes.length, (goals hc f.topology).constrained v = true → ((toNet hc).node v).kind = .flow
  objective : ∀ x, x.length = P.controls * P.controlTimes.length → P.objective x = (do
    let z ← (simulate s.retries s.simplified
      (newtonSolver (fun a b x c => (toNet hc).system (lu (toNet hc) a b x c) a b x c) s.tolerance s.iterations fuel)
      (controlsAt (N := toNet hc) P.controlTimes x) P.times (some (entriesOf initial))).1
    objectiveOf (goals hc f.topology) P.times P.controlTimes x w z)
  derivatives : ∀ oob x d, P.derivatives oob x = Res.ok d → x.length = P.controls * P.controlTimes.length ∧
    ∃ z, (simulate s.retries s.simplified
      (newtonSolver (fun a b x c => (toNet hc).system (lu (toNet hc) a b x c) a b x c) s.tolerance s.iterations fuel)
      (controlsAt (N := toNet hc) P.controlTimes x) P.times (some (entriesOf initial))).1 = Res.ok z ∧
      z.length = P.times.length ∧
      derivativesOf (goals hc f.topology) P.times P.controlTimes P.constraintTimes x w pairs P.jacobian oob z = Res.ok d
  simulation : ∀ x z, x.length = P.controls * P.controlTimes.length → (simulate s.retries s.simplified
      (newtonSolver (fun a b x c => (toNet hc).system (lu (toNet hc) a b x c) a b x c) s.tolerance s.iterations fuel)
      (controlsAt (N := toNet hc) P.controlTimes x) P.times (some (entriesOf initial))).1 = Res.ok z →
      z.length = P.times.length ∧ P.simulation x = Res.ok (z.map (Option.map ext))
  constraintValues : ∀ x values, P.constraintValues x = Res.ok values → x.length = P.controls * P.controlTimes.length ∧
    ∃ z, (simulate s.retries s.simplified
      (newtonSolver (fun a b x c => (toNet hc).system (lu (toNet hc) a b x c) a b x c) s.tolerance s.iterations fuel)
      (controlsAt (N := toNet hc) P.controlTimes x) P.times (some (entriesOf initial))).1 = Res.ok z ∧
      constraintsOf (goals hc f.topology) P.times P.controlTimes P.constraintTimes x z = Res.ok values
  simulated : ∀ x states, P.simulation x = Res.ok states → x.length = P.controls * P.controlTimes.length ∧
    ∃ z : List (Option (Fin (toNet hc).stateCount → ℝ)), states = z.map (Option.map ext) ∧ z.length = P.times.length ∧
      ∀ oob, P.derivatives oob x = derivativesOf (goals hc f.topology) P.times P.controlTimes P.constraintTimes x w pairs P.jacobian oob z
  evaluations : ∀ x, x.length = P.controls * P.controlTimes.length → ∃ z, z = (simulate s.retries s.simplified
      (newtonSolver (fun a b x c => (toNet hc).system (lu (toNet hc) a b x c) a b x c) s.tolerance s.iterations fuel)
      (controlsAt (N := toNet hc) P.controlTimes x) P.times (some (entriesOf initial))).1 ∧
    P.simulation x = (do let z ← z; Res.ok (z.map (Option.map ext))) ∧
    P.constraintValues x = (do let z ← z; constraintsOf (goals hc f.topology) P.times P.controlTimes P.constraintTimes x z) ∧
    ∀ oob, P.derivatives oob x =
      (do let z ← z; derivativesOf (goals hc f.topology) P.times P.controlTimes P.constraintTimes x w pairs P.jacobian oob z)

open Classical in
theorem parts_of {draws : Json → Res (ℝ → Res (ℝ × ℝ))} {mem : ℕ → ℝ} {lu : Solve} {fuel : ℕ} {s : Settings} {every : ℤ}
    {f : Files} {b : Bounds}
    (ho : f.topology.isObj = true) (hs : Shaped f.topology) (hd : DistinctTypes f.topology) (sb : Shaped f.boundary)
    (db : DistinctTypes f.boundary) (hf : Fit f.defaults f.topology) (hlt : s.start < s.stop) (hdes : 0 < s.desired)
    (hmax : 1 ≤ s.iterations) (hcov : ∀ t, s.start ≤ t → t ≤ s.stop → Covers f.defaults f.topology f.boundary t)
    (hdraw : ∀ data d, draws data = Res.ok d → ∀ t, s.start ≤ t → t ≤ s.stop → ∃ b, d t = Res.ok b)
    {P : Nlp} (h : optimization draws mem lu fuel s every f b = Res.ok P) :
    ∃ g, ∃ hc : Consistent g, readNet draws mem f.defaults f.topology f.boundary = Res.ok g ∧
      ∃ initial w pairs, Parts s every f lu fuel hc initial w pairs P := by
  unfold optimization at h
  obtain ⟨times, ht, h⟩ := Res.bind_eq_ok.mp h
  obtain ⟨g, hg, h⟩ := Res.bind_eq_ok.mp h
  split at h
  case isFalse => cases h
  next hc =>
  obtain ⟨_, hset, h⟩ := Res.bind_eq_ok.mp h
  obtain ⟨initial, hinit, h⟩ := Res.bind_eq_ok.mp h
  simp only at h
  split at h
  case isFalse => cases h
  next hn =>
  obtain ⟨cgrid, hcgrid, h⟩ := Res.bind_eq_ok.mp h
  obtain ⟨start, -, h⟩ := Res.bind_eq_ok.mp h
  obtain ⟨ktimes, hktimes, h⟩ := Res.bind_eq_ok.mp h
  obtain ⟨lower, -, h⟩ := Res.bind_eq_ok.mp h
  obtain ⟨upper, -, h⟩ := Res.bind_eq_ok.mp h
  obtain ⟨klower, -, h⟩ := Res.bind_eq_ok.mp h
  obtain ⟨kupper, -, h⟩ := Res.bind_eq_ok.mp h
  obtain ⟨ps, hps, h⟩ := Res.bind_eq_ok.mp h
  obtain ⟨w, hw, h⟩ := Res.bind_eq_ok.mp h
  obtain ⟨jac, hjac, h⟩ := Res.bind_eq_ok.mp h
  obtain ⟨_, -, h⟩ := Res.bind_eq_ok.mp h
  obtain ⟨_, -, h⟩ := Res.bind_eq_ok.mp h
  obtain ⟨_, -, h⟩ := Res.bind_eq_ok.mp h
  obtain ⟨_, -, h⟩ := Res.bind_eq_ok.mp h
  obtain ⟨_, -, h⟩ := Res.bind_eq_ok.mp h
  obtain ⟨_, -, h⟩ := Res.bind_eq_ok.mp h
  obtain ⟨_, -, h⟩ := Res.bind_eq_ok.mp h
  obtain ⟨_, hchk, h⟩ := Res.bind_eq_ok.mp h
  injection h with h
  obtain ⟨times'', e1, hgood, -⟩ := (C26_grid_partial s.start s.desired s.stop).1 hlt hdes
  rw [ht] at e1
  injection e1 with e1
  subst e1
  obtain ⟨nodes, edges, h1, h2, h3⟩ := readNet_ok hg
  obtain ⟨-, hids, ⟨ns, p1, f1⟩, -⟩ := buildNet_made (proper_of h1 h2 hs hd) h3
  have hin := hgood.bounds
  obtain ⟨hc', h101⟩ := C101_simulation ho hs hd sb db hg hf times (fun t ht => hcov t (hin t ht).1 (hin t ht).2)
    (fun data d hdd t ht => hdraw data d hdd t (hin t ht).1 (hin t ht).2)
  obtain ⟨_, hadm, -⟩ := C100_partial ho hs hd sb db hg hf
  have hnn : (g.nodes.map Node.id).Nodup := (List.nodup_append.mp hids).1
  have flow : ∀ v : Fin g.nodes.length, (goals hc f.topology).constrained v = true → ((toNet hc).node v).kind = .flow := by
    intro v hv
    obtain ⟨x, hx, hid⟩ := isConstraintSink_iff.mp hv
    obtain ⟨n, hmem, h5, h6⟩ := forall₂_mem_left f1 (p1.mem_iff.mpr hx)
    have : n = g.nodes[v.val] := node_of_id hnn hmem (List.getElem_mem _) (Option.some.inj (h5.symm.trans hid))
    subst this
    have := (node_matches h1 h6).kind
    exact (Option.some.inj this).symm
  obtain ⟨c1, c2, c3⟩ := controlGrid_times hlt hdes ht hcgrid
  have hcn : 0 < cgrid.length := by
    cases cgrid with
    | nil => simp at c3
    | cons => simp
  have hfirst : cgrid[0] = s.start := by
    rw [List.head?_eq_getElem?, List.getElem?_eq_getElem hcn] at c3
    exact Option.some.inj c3
  have hlast := last_of_vector c2 hcn hps
  have hsel := selected_of hgood.1 hgood.2.2.2.1 hktimes
  have lengths : ∀ {x z}, (simulate s.retries s.simplified
        (newtonSolver (fun a b x c => (toNet hc).system (lu (toNet hc) a b x c) a b x c) s.tolerance s.iterations fuel)
        (controlsAt (N := toNet hc) cgrid x) times (some (entriesOf initial))).1 = Res.ok z → z.length = times.length := by
    intro x z hz
    exact (h101 (lu (toNet hc)) s.tolerance s.iterations hmax fuel s.retries s.simplified (controlsAt (N := toNet hc) cgrid x)
      (entriesOf initial) z _ (Prod.ext hz rfl)).1
  refine ⟨g, hc, hg, initial, w, ps, ?_⟩
  subst h
  refine ⟨hadm, hgood, rfl, hn, rfl, c2, ⟨hcn, hfirst, hlast⟩, hsel, hchk, hps, hw, hjac, flow, ?_, ?_, ?_, ?_, ?_, ?_⟩
  · intro x hx
    exact if_pos hx
  · intro oob x d hx
    simp only at hx
    split at hx
    · next hxl =>
      obtain ⟨z, hz, hx⟩ := Res.bind_eq_ok.mp hx
      exact ⟨hxl, z, hz, lengths hz, hx⟩
    · cases hx
  · intro x z hxl hz
    refine ⟨lengths hz, ?_⟩
    simp only
    rw [if_pos hxl]
    exact Res.bind_eq_ok.mpr ⟨z, hz, rfl⟩
  · intro x values hx
    simp only at hx
    split at hx
    · next hxl =>
      obtain ⟨z, hz, hx⟩ := Res.bind_eq_ok.mp hx
      exact ⟨hxl, z, hz, hx⟩
    · cases hx
  · intro x states hx
    simp only at hx
    split at hx
    · next hxl =>
      obtain ⟨z, hz, hx⟩ := Res.bind_eq_ok.mp hx
      injection hx with hx
      refine ⟨hxl, z, hx.symm, lengths hz, fun oob => ?_⟩
      simp only
      rw [if_pos hxl, hz, Res.ok_bind]
    · cases hx
  · intro x hx
    exact ⟨_, rfl, if_pos hx, if_pos hx, fun _ => if_pos hx⟩

theorem ofFn_getD {n : ℕ} {x : List ℝ} (h : x.length = n) : List.ofFn (fun i : Fin n => x.getD i 0) = x := by
  subst h
  refine List.ext_getElem (by simp) fun i h1 h2 => ?_
  rw [List.getElem_ofFn, List.getD_eq_getElem?_getD, List.getElem?_eq_getElem h2]
  rfl

theorem gradient_core {s : Settings} {every : ℤ} {f : Files} {lu : Solve} {fuel : ℕ} {g : Graph Network.Node EdgeKind}
    {hc : Consistent g} {initial w : List ℝ} {pairs : List (ℕ × ℝ)} {P : Nlp} (p : Parts s every f lu fuel hc initial w pairs P)
    {oob : Option ℝ} {x gradient jacobian : List ℝ} (hx : P.derivatives oob x = Res.ok (some (gradient, jacobian))) :
    ∃ F : (Fin (P.controls * P.controlTimes.length) → ℝ) → ℝ,
      (∀ v, Objective hc P (List.ofFn v) (F v)) ∧ (∀ v value, P.objective (List.ofFn v) = Res.ok value → value = F v) ∧
      x.length = P.controls * P.controlTimes.length ∧ gradient.length = P.controls * P.controlTimes.length ∧
      ∃ D : (Fin (P.controls * P.controlTimes.length) → ℝ) →L[ℝ] ℝ, HasFDerivAt F D (fun i => x.getD i 0) ∧ ∀ i, gradient[i.val]? = some (D (Pi.single i 1)) := by
  obtain ⟨times, cgrid, ktimes, n, r, start, lower, upper, klower, kupper, jac, sim, obj, cons, der⟩ := P
  have e0 : n = (toNet hc).controlCount := p.controls
  subst e0
  obtain ⟨hxl, z, hz, hzl, hder⟩ := p.derivatives oob x _ hx
  obtain ⟨hcn, hfirst, hlast⟩ := p.first
  have hin := p.good.bounds
  have h2 := p.good.2.2.2.1
  have hm : 0 < (toNet hc).controlCount := p.positive
  have hps := p.pairing
  have hww := p.weights
  have hinc := p.increasing
  simp only at hxl hz hzl hder hcn hfirst hlast hin h2 hps hww hinc
  have hwl : w.length = times.length := by
    obtain ⟨w', e1, e2, -⟩ := weights_eq times h2
    rw [hww] at e1
    injection e1 with e1
    rw [e1, e2]
  unfold derivativesOf at hder
  split at hder
  · cases hder
  obtain ⟨data, hdata, hder⟩ := Res.bind_eq_ok.mp hder
  obtain ⟨st, hst, hder⟩ := Res.bind_eq_ok.mp hder
  match st, hst, hder with
  | some st, hst, hder =>
    injection hder with hder
    injection hder with hder
    injection hder with hgr hjac
    set I := inputOf (goals hc f.topology) times cgrid ktimes w pairs jac oob data with hI
    -- controls at the times
    have hcontrol : ∀ i, ∀ hi : i < times.length, ∀ v : Fin ((toNet hc).controlCount * cgrid.length) → ℝ,
        controlsAt (N := toNet hc) cgrid (List.ofFn v) times[i] = Res.ok (control I i (blocks v)) := by
      intro i hi v
      have hm := List.getElem_mem hi
      exact controlsAt_pair hinc hcn (by rw [hfirst]; exact (hin _ hm).1) (hlast _ hm) (pairs_get hps i hi) v
    have hx0 := ofFn_getD hxl
    obtain ⟨hdl, hdat⟩ := steps_get hdata
    obtain ⟨D, hD, hDe⟩ := sweep_objective (goals hc f.topology) rfl (I := I) (M := times.length - 1) (q := cgrid.length) rfl
      (V₀ := blocks fun i => x.getD i 0) (by
        intro i h1 hi
        obtain ⟨y, z, c, -, -, -, e⟩ := hdat i h1 (by omega)
        exact (stepData_cost e).1) (by
        intro i h1 hi
        obtain ⟨y, z, c, -, -, e3, e⟩ := hdat i h1 (by omega)
        have e4 := hcontrol i (by omega) fun i => x.getD i 0
        rw [hx0, e3] at e4
        injection e4 with e4
        subst e4
        exact ⟨_, (stepData_cost e).2⟩) hst
    rw [show times.length - 1 + 1 = times.length by omega] at hD
    refine ⟨fun v => accumulate I.weight (fun i => (goals hc f.topology).objective (0, control I i (blocks v))) times.length,
      fun v => ?_, fun v value hv => ?_, hxl, ?_, D.comp blocksL, HasFDerivAt.comp _ hD blocksL.hasFDerivAt, fun i => ?_⟩
    · refine ⟨fun i => ext (control I i (blocks v)), fun i h1 hi => controls_interpolate (by simp) hinc (hcontrol i hi v), ?_⟩
      have e1 := objective_accumulate (G := goals hc f.topology) hwl (states := List.replicate times.length none) (by simp)
        (fun i _ hi => hcontrol i hi v)
      have e2 := objective_eq (G := goals hc f.topology) ⟨fun _ => rfl, rfl⟩ h2 hww (states := List.replicate times.length none) (by simp)
        (fun i _ hi => hcontrol i hi v)
      rw [e1] at e2
      injection e2
    · have := p.objective (List.ofFn v) (by simp)
      simp only at this hv
      rw [this] at hv
      obtain ⟨z, hz, hv⟩ := Res.bind_eq_ok.mp hv
      have hzl := (p.simulation (List.ofFn v) z (by simp) hz).1
      rw [objective_accumulate (G := goals hc f.topology) hwl hzl (fun i _ hi => hcontrol i hi v)] at hv
      injection hv with hv
      exact hv.symm
    · rw [← hgr, gradientValues_length]
    · rw [← hgr, gradientValues_get i.val i.isLt hm]
      show _ = some (D (blocks (Pi.single i 1)))
      rw [hDe, blocks_single i hm]

/-! ## The property -/

open Classical in
/-- C105. Whenever Ipopt gets a gradient it consists of the partial derivatives of the objective with respect to the variables, at the point
it was asked for. `F` is the objective: it has the value that is evaluated wherever there is one. -/
theorem C105_gradient {draws : Json → Res (ℝ → Res (ℝ × ℝ))} {mem : ℕ → ℝ} {lu : Solve} {fuel : ℕ} {s : Settings} {every : ℤ}
    {f : Files} {b : Bounds}
    (ho : f.topology.isObj = true) (hs : Shaped f.topology) (hd : DistinctTypes f.topology) (sb : Shaped f.boundary)
    (db : DistinctTypes f.boundary) (hf : Fit f.defaults f.topology) (hlt : s.start < s.stop) (hdes : 0 < s.desired)
    (hmax : 1 ≤ s.iterations) (hcov : ∀ t, s.start ≤ t → t ≤ s.stop → Covers f.defaults f.topology f.boundary t)
    (hdraw : ∀ data d, draws data = Res.ok d → ∀ t, s.start ≤ t → t ≤ s.stop → ∃ b, d t = Res.ok b)
    {P : Nlp} (h : optimization draws mem lu fuel s every f b = Res.ok P)
    {oob : Option ℝ} {x gradient jacobian : List ℝ} (hx : P.derivatives oob x = Res.ok (some (gradient, jacobian))) :
    ∃ g, ∃ hc : Consistent g, readNet draws mem f.defaults f.topology f.boundary = Res.ok g ∧
      ∃ F : (Fin (P.controls * P.controlTimes.length) → ℝ) → ℝ,
        (∀ v, Objective hc P (List.ofFn v) (F v)) ∧ (∀ v value, P.objective (List.ofFn v) = Res.ok value → value = F v) ∧
        x.length = P.controls * P.controlTimes.length ∧ gradient.length = P.controls * P.controlTimes.length ∧
        ∃ D : (Fin (P.controls * P.controlTimes.length) → ℝ) →L[ℝ] ℝ, HasFDerivAt F D (fun i => x.getD i 0) ∧ ∀ i, gradient[i.val]? = some (D (Pi.single i 1)) := by
  obtain ⟨g, hc, hg, initial, w, pairs, p⟩ := parts_of ho hs hd sb db hf hlt hdes hmax hcov hdraw h
  exact ⟨g, hc, hg, gradient_core p hx⟩

end Verif.Read
