import Verif.Read.NlpGrad

/-!
# Property C106: the Jacobian Ipopt gets is the derivative of the constraints
-/

set_option autoImplicit false

namespace Verif.Read

open Verif.Json Verif.Factory Verif.Interp Verif.Schema Verif.Initial Verif.Times Verif.Newton Verif.Evolve Verif.OptTimes
  Verif.IndexLambda Verif.Weights Verif.Jacobian Verif.Adjoint Network Net Filter Topology Matrix

/-! ## Specification -/

/-- The states `X 0, X 1, …`, as functions of the variables, continue those that were simulated for the variables `x`: there they are the
simulated ones; the first one does not change; and the others depend continuously on the variables in such a way that the equations of every
step hold as well as they do for the simulated states. -/
structure Continues {g : Graph Network.Node EdgeKind} (hc : Consistent g) (P : Nlp) (x : List ℝ) (states : List (Option Vec))
    (X : ℕ → (Fin (P.controls * P.controlTimes.length) → ℝ) → Fin (toNet hc).stateCount → ℝ) : Prop where
  simulated : ∀ i < P.times.length, states[i]? = some (some (ext (X i fun k => x.getD k 0)))
  first : ∀ v, X 0 v = X 0 fun k => x.getD k 0
  continuous : ∀ i < P.times.length, ContinuousAt (X i) fun k => x.getD k 0
  equations : ∀ i, 1 ≤ i → ∀ hi : i < P.times.length, ∃ r, ∀ᶠ v in 𝓝 (fun k : Fin (P.controls * P.controlTimes.length) => x.getD k 0),
    ∃ c, controlsAt P.controlTimes (List.ofFn v) P.times[i] = Res.ok c ∧
      (toNet hc).residual P.times[i - 1] P.times[i] (X (i - 1) v, X i v, c) = Res.ok r

/-! ## Variables by control time -/

section Blocks
variable {m q : ℕ}

/-- The inverse of `blocks`. -/
def unblocks (hm : 0 < m) (V : Fin q → Fin m → ℝ) (p : Fin (m * q)) : ℝ :=
  V ⟨p.val / m, by rw [Nat.div_lt_iff_lt_mul hm]; exact p.isLt.trans_eq (mul_comm m q)⟩ ⟨p.val % m, Nat.mod_lt _ hm⟩

theorem unblocks_blocks (hm : 0 < m) (v : Fin (m * q) → ℝ) : unblocks hm (blocks v) = v := by
  funext p
  unfold unblocks blocks
  congr 1
  exact Fin.ext (Nat.div_add_mod' p.val m)

theorem blocks_unblocks (hm : 0 < m) (V : Fin q → Fin m → ℝ) : blocks (unblocks hm V) = V := by
  funext j i
  unfold unblocks blocks
  have e1 : (j.val * m + i.val) / m = j.val := by
    rw [Nat.add_comm, Nat.add_mul_div_right _ _ hm, Nat.div_eq_of_lt i.isLt, zero_add]
  have e2 : (j.val * m + i.val) % m = i.val := by
    rw [Nat.add_comm, Nat.add_mul_mod_self_right, Nat.mod_eq_of_lt i.isLt]
  simp only [e1, e2]

theorem continuous_unblocks (hm : 0 < m) : Continuous (unblocks (q := q) hm) := by
  refine continuous_pi fun p => ?_
  unfold unblocks
  fun_prop

/-- A row of blocks applied to the variation of one variable. -/
theorem blockRow_single {r : ℕ} (p : Fin (m * q)) (hm : 0 < m) (J : ℕ → Matrix (Fin r) (Fin m) ℝ) (a : Fin r) :
    (∑ j : Fin q, J j *ᵥ blocks (Pi.single p 1 : Fin (m * q) → ℝ) j) a = J (p.val / m) a ⟨p.val % m, Nat.mod_lt _ hm⟩ := by
  rw [Finset.sum_apply]
  exact blocks_single p hm fun j => J j a

end Blocks

/-! ## The pattern -/

theorem supply_mem {bh bw : ℕ} {cs us : List ℝ} (hc : cs.Pairwise (· ≤ ·)) (hu : us.Pairwise (· ≤ ·)) {J : Jac}
    (hJ : makeData bh bw cs us = Res.ok J) {row col : ℕ} (hb : 0 < bw) (hh : 0 < bh) (hr : row < cs.length * bh) (hcol : col < us.length * bw)
    (h : (row, col) ∉ J.supplyIndices) : row / bh < J.outerRowstart (col / bw) := by
  obtain ⟨hbh, hbw, hW, -, -, hH, -⟩ := C09_offsets bh bw cs us hc hu J hJ
  by_contra hlt
  refine h ?_
  unfold Jac.supplyIndices
  rw [List.mem_flatMap]
  refine ⟨col / bw, List.mem_range.mpr (by rw [hW, Nat.div_lt_iff_lt_mul hb]; exact hcol), ?_⟩
  rw [List.mem_flatMap]
  refine ⟨row, ?_, ?_⟩
  · rw [List.mem_range'_1]
    have h1 : J.innerRowstart (col / bw) ≤ row := by
      unfold Jac.innerRowstart
      rw [hbh]
      exact (Nat.le_div_iff_mul_le hh).mp (not_lt.mp hlt)
    have h2 : row < J.innerHeight := by
      unfold Jac.innerHeight
      rw [hH, hbh]
      exact hr
    omega
  · rw [List.mem_map]
    refine ⟨col, ?_, rfl⟩
    rw [List.mem_range'_1]
    unfold Jac.innerColstart
    rw [hbw]
    have := Nat.div_add_mod' col bw
    have := Nat.mod_lt col hb
    omega

theorem jacobianValues_get {n m r : ℕ} {jac : Jac} {s : Adjoint.State n m r ℝ} {k i a col : ℕ} (hm : 0 < m) (ha : a < r)
    (h : jac.supplyIndices[k]? = some (i * r + a, col)) :
    (jacobianValues jac s)[k]? = some (s.jacobian i (col / m) ⟨a, ha⟩ ⟨col % m, Nat.mod_lt _ hm⟩) := by
  have hr : 0 < r := by omega
  have e1 : (i * r + a) / r = i := by
    rw [Nat.add_comm, Nat.add_mul_div_right _ _ hr, Nat.div_eq_of_lt ha, zero_add]
  have e2 : (i * r + a) % r = a := by
    rw [Nat.add_comm, Nat.add_mul_mod_self_right, Nat.mod_eq_of_lt ha]
  unfold jacobianValues
  rw [List.getElem?_map, h, Option.map_some, dif_pos ⟨hr, hm⟩]
  simp only [e1, e2]

theorem stepData_inv {N : Net} {G : Goals N} {a b : ℝ} {z : N.Point} {d : StepData N.stateCount N.controlCount G.count ℝ}
    (h : N.stepData G a b z = Res.ok d) : ∃ new last con gs gc, N.dNew a b (N.args z) = Res.ok new ∧ N.dLast = Res.ok last ∧
      N.dControl = Res.ok con ∧ Net.dConstraintState G (ext z.2.1) (ext z.2.2) = Res.ok gs ∧
      Net.dConstraintControl G (ext z.2.1) (ext z.2.2) = Res.ok gc ∧ d.dEdnew = matrixOf _ _ new ∧ d.dEdlast = matrixOf _ _ last ∧
      d.dEdcontrol = matrixOf _ _ con ∧ d.dgdnew = matrixOf _ _ gs ∧ d.dgdcontrol = matrixOf _ _ gc ∧
      d.dfdnew = rowOf (Net.dCostState G (ext z.2.1) (ext z.2.2) ++ Net.dPenalty G (ext z.2.1) (ext z.2.2)) ∧
      d.dfdcontrol = rowOf (Net.dCostControl G (ext z.2.1) (ext z.2.2) ++ Net.dPenalty G (ext z.2.1) (ext z.2.2)) := by
  unfold Net.stepData at h
  obtain ⟨new, h1, h⟩ := Res.bind_eq_ok.mp h
  obtain ⟨last, h2, h⟩ := Res.bind_eq_ok.mp h
  obtain ⟨con, h3, h⟩ := Res.bind_eq_ok.mp h
  obtain ⟨gs, h4, h⟩ := Res.bind_eq_ok.mp h
  obtain ⟨gc, h5, h⟩ := Res.bind_eq_ok.mp h
  injection h with h
  subst h
  exact ⟨new, last, con, gs, gc, h1, h2, h3, h4, h5, rfl, rfl, rfl, rfl, rfl, rfl, rfl⟩

theorem ext_inj {n : ℕ} {a b : Fin n → ℝ} (h : ext a = ext b) : a = b := by
  funext i
  have := congrFun h (i.val : ℤ)
  simpa [Network.ext] using this

/-! ## The Jacobian -/

theorem jacobian_net {N : Net} (hadm : Admissible N) (G : Goals N) (hw : G.netWeight = 1) (hG : G.Attached)
    {times cgrid ktimes x w : List ℝ} {pairs : List (ℕ × ℝ)} {jac : Jac} {oob : Option ℝ}
    {z : List (Option (Fin N.stateCount → ℝ))} {gradient jacobian : List ℝ} (hm : 0 < N.controlCount)
    (hst : times.Pairwise (· < ·)) (hinc : cgrid.Pairwise (· < ·)) (hcn : 0 < cgrid.length) (hlow : ∀ t ∈ times, cgrid[0] ≤ t)
    (hlast : ∀ t ∈ times, t < cgrid[cgrid.length - 1] + EPSILON) (hps : computeIndexLambdaVector cgrid times = Res.ok pairs)
    (hww : weights times = Res.ok w) (hmake : makeData G.count N.controlCount ktimes cgrid = Res.ok jac)
    (hchk : checkConstraintTimes times ktimes = Res.ok ()) (hkt : ktimes.Pairwise (· < ·))
    (hxl : x.length = N.controlCount * cgrid.length)
    (hder : derivativesOf G times cgrid ktimes x w pairs jac oob z = Res.ok (some (gradient, jacobian)))
    {X : ℕ → (Fin (N.controlCount * cgrid.length) → ℝ) → Fin N.stateCount → ℝ}
    (x1 : ∀ i < times.length, z[i]? = some (some (X i fun k => x.getD k 0)))
    (x2 : ∀ v, X 0 v = X 0 fun k => x.getD k 0)
    (x3 : ∀ i < times.length, ContinuousAt (X i) fun k => x.getD k 0)
    (x4 : ∀ i, 1 ≤ i → ∀ hi : i < times.length, ∃ r, ∀ᶠ v in 𝓝 (fun k : Fin (N.controlCount * cgrid.length) => x.getD k 0),
      ∃ c, controlsAt cgrid (List.ofFn v) times[i] = Res.ok c ∧ N.residual times[i - 1] times[i] (X (i - 1) v, X i v, c) = Res.ok r)
    (hreg : ∀ i, 1 ≤ i → ∀ hi : i < times.length, Regular N times[i] (ext (X i fun k => x.getD k 0))) :
    jacobian.length = jac.supplyIndices.length ∧
    ∀ v, G.constrained v = true → ∀ i j : ℕ, i < ktimes.length → ktimes[i]? = times[j]? →
      ∃ D : (Fin (N.controlCount * cgrid.length) → ℝ) →L[ℝ] ℝ,
        HasFDerivAt (fun u => ext (X j u) (constrainedIndex v)) D (fun k => x.getD k 0) ∧ ∀ col,
          (∀ k : ℕ, jac.supplyIndices[k]? = some (i * G.count + (constraintRange G v).1.toNat, col.val) →
            jacobian[k]? = some (D (Pi.single col 1))) ∧
          ((i * G.count + (constraintRange G v).1.toNat, col.val) ∉ jac.supplyIndices → D (Pi.single col 1) = 0) := by
  unfold derivativesOf at hder
  split at hder
  · cases hder
  obtain ⟨data, hdata, hder⟩ := Res.bind_eq_ok.mp hder
  obtain ⟨st, hsw, hder⟩ := Res.bind_eq_ok.mp hder
  match st, hsw, hder with
  | some st, hsw, hder =>
    injection hder with hder
    injection hder with hder
    injection hder with hgr hjac
    set I := inputOf G times cgrid ktimes w pairs jac oob data with hI
    -- controls at the times
    have hcontrol : ∀ i, ∀ hi : i < times.length, ∀ v : Fin (N.controlCount * cgrid.length) → ℝ,
        controlsAt (N := N) cgrid (List.ofFn v) times[i] = Res.ok (control I i (blocks v)) := by
      intro i hi v
      have hm := List.getElem_mem hi
      exact controlsAt_pair hinc hcn (hlow _ hm) (hlast _ hm) (pairs_get hps i hi) v
    have hx0 := ofFn_getD hxl
    obtain ⟨hdl, hdat⟩ := steps_get hdata
    set x0 : Fin (N.controlCount * cgrid.length) → ℝ := fun k => x.getD k 0 with hx0def
    -- the input of the sweep
    have hfrom : FromOptimizer I times cgrid ktimes := by
      refine ⟨fun i hi => ?_, rfl, rfl, pairs_get hps, ⟨w, hww, fun i hi => ?_⟩, jac, hmake, fun j _ => rfl⟩
      · show times.getD i 0 = _
        rw [List.getD_eq_getElem?_getD, List.getElem?_eq_getElem hi]
        rfl
      · show w.getD i 0 = _
        rw [List.getD_eq_getElem?_getD, List.getElem?_eq_getElem hi]
        rfl
    have hplaced := placed_of_accepted I times cgrid ktimes hfrom hst hchk
    have hdet := sweep_det hsw
    -- the states of the steps are those of the family
    have hstate : ∀ i (_ : i < times.length) (y : Option (Fin N.stateCount → ℝ)), z[i]? = some y → y = some (X i x0) := by
      intro i hi y hy
      rw [x1 i hi] at hy
      exact (Option.some.inj hy).symm
    have hdata' : ∀ i, 1 ≤ i → ∀ hi : i < times.length,
        N.stepData G times[i - 1] times[i] (X (i - 1) x0, X i x0, control I i (blocks x0)) = Res.ok (I.data i) := by
      intro i h1 hi
      obtain ⟨y, z1, c, d1, d2, d3, d4⟩ := hdat i h1 hi
      rw [hstate (i - 1) (by omega) y d1, hstate i hi z1 d2] at d4
      have e4 := hcontrol i hi x0
      rw [hx0, d3] at e4
      injection e4 with e4
      rw [e4] at d4
      exact d4
    choose! res hres using x4
    have hdis : Discretised I (times.length - 1)
        (fun i p => if hi : i < times.length then Network.valueOr (N.residual times[i - 1] times[i] p) - res i else 0)
        (fun _ p => G.objective p) (fun _ p => Network.valueOr (G.constraintVector p))
        (fun i V => X i (unblocks hm V)) (blocks x0) := by
      have hcont : Tendsto (unblocks (q := cgrid.length) hm) (𝓝 (blocks x0)) (𝓝 x0) := by
        have := (continuous_unblocks (q := cgrid.length) hm).continuousAt (x := blocks x0)
        unfold ContinuousAt at this
        rwa [unblocks_blocks] at this
      refine ⟨fun V => ?_, fun i h1 hi => ?_, fun i h1 hi => ?_, fun i h1 hi => ?_, fun i h1 hi => ?_, fun i h1 hi => ?_⟩
      · rw [x2, x2 (unblocks hm (blocks x0))]
      · have hi : i < times.length := by omega
        filter_upwards [hcont.eventually (hres i h1 hi)] with V hV
        obtain ⟨c, hc1, hc2⟩ := hV
        have := hcontrol i hi (unblocks hm V)
        rw [hc1, blocks_unblocks] at this
        injection this with this
        subst this
        simp only [hi, dite_true, hc2, Network.valueOr, sub_self]
      · have := x3 i (by omega)
        unfold ContinuousAt at this ⊢
        simp only [unblocks_blocks]
        exact this.comp hcont
      · have hi : i < times.length := by omega
        obtain ⟨last, new, control', f1, f2, f3, D, hD, hDe⟩ := C69_network_derivative_partial N hadm times[i - 1] times[i]
          (X (i - 1) x0, X i x0, control I i (blocks x0)) (hreg i h1 hi)
        obtain ⟨new', last', con', gs, gc, g1, g2, g3, g4, g5, g6, g7, g8, -⟩ := stepData_inv (hdata' i h1 hi)
        rw [f1] at g2; rw [f2] at g1; rw [f3] at g3
        injection g1 with g1; injection g2 with g2; injection g3 with g3
        subst g1 g2 g3
        simp only [unblocks_blocks, hi, dite_true]
        refine ⟨D, (derives_valueOr hD).sub_const _, fun a b c => ?_⟩
        rw [hDe, g6, g7, g8]
      · have hi : i < times.length := by omega
        obtain ⟨_, _, _, _, _, -, -, -, -, -, -, -, -, -, -, g1, g2⟩ := stepData_inv (hdata' i h1 hi)
        simp only [unblocks_blocks]
        rw [g1, g2]
        exact C44_objective N G hw _
      · have hi : i < times.length := by omega
        obtain ⟨gs, gc, f1, f2, D, hD, hDe⟩ := C44_constraints N hadm G hG (X i x0, control I i (blocks x0))
        obtain ⟨new', last', con', gs', gc', -, -, -, g4, g5, -, -, -, g6, g7, -⟩ := stepData_inv (hdata' i h1 hi)
        simp only at g4 g5
        rw [f1] at g4; rw [f2] at g5
        injection g4 with g4; injection g5 with g5
        subst g4 g5
        simp only [unblocks_blocks]
        refine ⟨D, derives_valueOr hD, fun a c => ?_⟩
        rw [hDe, g6, g7]
    refine ⟨by rw [← hjac]; simp [jacobianValues], fun v hv i j hi hij => ?_⟩
    obtain ⟨⟨D, hD, hDe⟩, hzero⟩ := C16_jacobian_exact_partial (q := cgrid.length) rfl hdis hplaced hdet st hsw i hi
    -- the time of the constraint
    have hnd : times.Nodup := hst.imp fun h => h.ne
    have hki : ktimes[i]? = some ktimes[i] := List.getElem?_eq_getElem hi
    have hj : j < times.length ∧ times[j]? = some ktimes[i] := by
      rw [hki] at hij
      exact ⟨(List.getElem?_eq_some_iff.mp hij.symm).1, hij.symm⟩
    have hpos : position times ktimes i = j := by
      unfold position
      rw [List.getD_eq_getElem?_getD, hki]
      obtain ⟨h3, h4⟩ := List.getElem?_eq_some_iff.mp hj.2
      have hlt : times.idxOf ktimes[i] < times.length := List.idxOf_lt_length_iff.mpr (h4 ▸ List.getElem_mem h3)
      refine (List.Nodup.getElem_inj_iff hnd (hi := hlt) (hj := h3)).mp ?_
      rw [h4]
      exact List.getElem_idxOf hlt
    rw [hpos] at hD
    have hb := (constraint_bounds G hv).1
    have ha : (constraintRange G v).1.toNat < G.count := by unfold Goals.count; omega
    have hcomp := (hasFDerivAt_pi'.mp hD) ⟨_, ha⟩
    have hvalue : ∀ V, Network.valueOr (G.constraintVector (X j (unblocks hm V), control I j V)) ⟨(constraintRange G v).1.toNat, ha⟩ =
        ext (X j (unblocks hm V)) (constrainedIndex v) := by
      intro V
      obtain ⟨values, g1, g2⟩ := constraint_value hadm G hG (X j (unblocks hm V), control I j V)
      rw [g1]
      exact g2 v hv ⟨_, ha⟩ (Int.toNat_of_nonneg hb.1)
    simp only [hvalue] at hcomp
    have hblock : HasFDerivAt (fun u => ext (X j u) (constrainedIndex v))
        (((ContinuousLinearMap.proj (R := ℝ) (⟨_, ha⟩ : Fin G.count)).comp D).comp blocksL) x0 := by
      have := HasFDerivAt.comp x0 (f := fun u => blocks u) (g := fun V => ext (X j (unblocks hm V)) (constrainedIndex v)) hcomp blocksL.hasFDerivAt
      refine this.congr_of_eventuallyEq (Eventually.of_forall fun u => ?_)
      simp only [Function.comp, unblocks_blocks]
    refine ⟨_, hblock, fun col => ?_⟩
    have hval : (((ContinuousLinearMap.proj (R := ℝ) (⟨_, ha⟩ : Fin G.count)).comp D).comp blocksL) (Pi.single col 1) =
        st.jacobian i (col.val / N.controlCount) ⟨_, ha⟩ ⟨col.val % N.controlCount, Nat.mod_lt _ hm⟩ := by
      show (D (blocks (Pi.single col 1))) ⟨_, ha⟩ = _
      rw [hDe]
      exact blockRow_single col hm (fun j => st.jacobian i j) ⟨_, ha⟩
    refine ⟨fun k hk => ?_, fun hout => ?_⟩
    · rw [hval, ← hjac]
      exact jacobianValues_get hm ha hk
    · rw [hval]
      have hr : i * G.count + (constraintRange G v).1.toNat < ktimes.length * G.count := by
        have : (i + 1) * G.count ≤ ktimes.length * G.count := Nat.mul_le_mul_right _ hi
        rw [Nat.succ_mul] at this
        omega
      have := supply_mem (hkt.imp fun h => h.le) (hinc.imp fun h => h.le) hmake hm (by omega) hr
        (col.isLt.trans_eq (mul_comm _ _)) hout
      have e1 : (i * G.count + (constraintRange G v).1.toNat) / G.count = i := by
        rw [Nat.add_comm, Nat.add_mul_div_right _ _ (by omega), Nat.div_eq_of_lt ha, zero_add]
      rw [e1] at this
      rw [hzero _ this]
      rfl

/-! ## The property -/

open Classical in
/-- C106, apart from turbulent flow in pipes (`Regular`, see C33). Whenever Ipopt gets the values of the Jacobian, they are the partial
derivatives of the constraints with respect to the variables, at the places given by the pattern; the others are zero. Here the states
are any functions of the variables that continue the simulated ones; constraint `i * P.constraints + pos v` is entry `place v` of the
state at the `i`-th constraint time, whatever the variables and the states are. -/
theorem C106_jacobian_partial {draws : Json → Res (ℝ → Res (ℝ × ℝ))} {mem : ℕ → ℝ} {lu : Solve} {fuel : ℕ} {s : Settings} {every : ℤ}
    {f : Files} {b : Bounds}
    (ho : f.topology.isObj = true) (hs : Shaped f.topology) (hd : DistinctTypes f.topology) (sb : Shaped f.boundary)
    (db : DistinctTypes f.boundary) (hf : Fit f.defaults f.topology) (hlt : s.start < s.stop) (hdes : 0 < s.desired)
    (hmax : 1 ≤ s.iterations) (hcov : ∀ t, s.start ≤ t → t ≤ s.stop → Covers f.defaults f.topology f.boundary t)
    (hdraw : ∀ data d, draws data = Res.ok d → ∀ t, s.start ≤ t → t ≤ s.stop → ∃ b, d t = Res.ok b)
    {P : Nlp} (h : optimization draws mem lu fuel s every f b = Res.ok P)
    {g : Graph Network.Node EdgeKind} (hg : readNet draws mem f.defaults f.topology f.boundary = Res.ok g) (hc : Consistent g)
    (hatt : ∀ v : Fin g.nodes.length, ConstraintSink f.topology g.nodes[v].id →
      ∃ k, ((toNet hc).edge k).isGas ∧ ((toNet hc).src k = v ∨ (toNet hc).dst k = v)) :
    ∃ (pos : Fin g.nodes.length → ℕ) (place : Fin g.nodes.length → ℤ),
      (∀ x values states, P.constraintValues x = Res.ok values → P.simulation x = Res.ok states →
        ∀ v : Fin g.nodes.length, ConstraintSink f.topology g.nodes[v].id → pos v < P.constraints ∧
          ∀ i j : ℕ, i < P.constraintTimes.length → P.constraintTimes[i]? = P.times[j]? → ∀ z, states[j]? = some (some z) →
            values[i * P.constraints + pos v]? = some (some (z (place v)))) ∧
      (∀ x values z, z.length = P.times.length → x.length = P.controls * P.controlTimes.length →
        constraintsOf (goals hc f.topology) P.times P.controlTimes P.constraintTimes x z = Res.ok values →
        ∀ v : Fin g.nodes.length, ConstraintSink f.topology g.nodes[v].id →
          ∀ i j : ℕ, i < P.constraintTimes.length → P.constraintTimes[i]? = P.times[j]? → ∀ y, z[j]? = some (some y) →
            values[i * P.constraints + pos v]? = some (some (ext y (place v)))) ∧
      ∀ oob x gradient jacobian states, P.derivatives oob x = Res.ok (some (gradient, jacobian)) → P.simulation x = Res.ok states →
        jacobian.length = P.jacobian.supplyIndices.length ∧
        ∀ X, Continues hc P x states X →
        (∀ i, 1 ≤ i → ∀ hi : i < P.times.length, Regular (toNet hc) P.times[i] (ext (X i fun k => x.getD k 0))) →
        ∀ v : Fin g.nodes.length, ConstraintSink f.topology g.nodes[v].id →
        ∀ i j : ℕ, i < P.constraintTimes.length → P.constraintTimes[i]? = P.times[j]? →
        ∃ D : (Fin (P.controls * P.controlTimes.length) → ℝ) →L[ℝ] ℝ,
          HasFDerivAt (fun u => ext (X j u) (place v)) D (fun k => x.getD k 0) ∧ ∀ col,
            (∀ k : ℕ, P.jacobian.supplyIndices[k]? = some (i * P.constraints + pos v, col.val) →
              jacobian[k]? = some (D (Pi.single col 1))) ∧
            ((i * P.constraints + pos v, col.val) ∉ P.jacobian.supplyIndices → D (Pi.single col 1) = 0) := by
  obtain ⟨g', hc', hg', initial, w, pairs, p⟩ := parts_of ho hs hd sb db hf hlt hdes hmax hcov hdraw h
  rw [hg] at hg'
  injection hg' with hg'
  subst hg'
  change Parts s every f lu fuel hc initial w pairs P at p
  have hadm := p.admissible
  have sink : ∀ v : Fin g.nodes.length, ConstraintSink f.topology g.nodes[v].id → (goals hc f.topology).constrained v = true :=
    fun v hv => isConstraintSink_iff.mpr hv
  have hG : (goals hc f.topology).Attached := fun v hv =>
    ⟨p.flow v hv, (ends_ne_nil hadm).mpr (hatt v (isConstraintSink_iff.mp hv))⟩
  refine ⟨fun v => (constraintRange (goals hc f.topology) v).1.toNat, fun v => constrainedIndex (N := toNet hc) v, ?_, ?_, ?_⟩
  · intro x values states hv hsim
    obtain ⟨hxl, z, hz, hval⟩ := p.constraintValues x values hv
    obtain ⟨hzl, hz'⟩ := p.simulation x z hxl hz
    rw [hsim] at hz'
    injection hz' with hz'
    obtain ⟨hcn, hfirst, hlast⟩ := p.first
    have hin := p.good.bounds
    obtain ⟨values', q1, -, q3⟩ := constraints_eq hadm (goals hc f.topology) hG (x := x) p.good.1
      (fun t ht => List.mem_of_mem_tail (p.selected.2.2.1 t ht)) hzl fun t ht =>
      controls_ok (hxl.trans (congrArg (· * _) p.controls)) p.increasing hcn (by rw [hfirst]; exact (hin t ht).1) (hlast t ht)
    rw [hval] at q1
    injection q1 with q1
    subst q1
    intro v hv
    refine ⟨?_, fun i j hi hij y hy => ?_⟩
    · have hb := (constraint_bounds (goals hc f.topology) (sink v hv)).1
      rw [p.constraints]
      show (constraintRange (goals hc f.topology) v).1.toNat < (constraints (goals hc f.topology)).toNat
      omega
    · rw [hz', List.getElem?_map, Option.map_eq_some_iff] at hy
      obtain ⟨y', hy', hy⟩ := hy
      obtain ⟨y'', rfl, rfl⟩ := Option.map_eq_some_iff.mp hy
      rw [p.constraints]
      exact q3 v (sink v hv) i j hi hij y'' hy'
  · intro x values z hzl hxl hval v hv i j hi hij y hy
    obtain ⟨hcn, hfirst, hlast⟩ := p.first
    have hin := p.good.bounds
    obtain ⟨values', q1, -, q3⟩ := constraints_eq hadm (goals hc f.topology) hG (x := x) p.good.1
      (fun t ht => List.mem_of_mem_tail (p.selected.2.2.1 t ht)) hzl fun t ht =>
      controls_ok (hxl.trans (congrArg (· * _) p.controls)) p.increasing hcn (by rw [hfirst]; exact (hin t ht).1) (hlast t ht)
    rw [hval] at q1
    injection q1 with q1
    subst q1
    rw [p.constraints]
    exact q3 v (sink v hv) i j hi hij y hy
  · obtain ⟨times, cgrid, ktimes, n, r, start, lower, upper, klower, kupper, jac, sim, obj, cons, der⟩ := P
    have e0 : n = (toNet hc).controlCount := p.controls
    subst e0
    have e1 : r = (goals hc f.topology).count := p.constraints
    subst e1
    intro oob x gradient jacobian states hx hsim
    obtain ⟨hxl, z, hz, hzl, hder⟩ := p.derivatives oob x _ hx
    obtain ⟨hcn, hfirst, hlast⟩ := p.first
    have hz' := (p.simulation x z hxl hz).2
    rw [hsim] at hz'
    injection hz' with hz'
    have hin := p.good.bounds
    refine ⟨?_, fun X hX hreg v hv => ?_⟩
    · unfold derivativesOf at hder
      split at hder
      · cases hder
      obtain ⟨data, -, hder⟩ := Res.bind_eq_ok.mp hder
      obtain ⟨r, -, hder⟩ := Res.bind_eq_ok.mp hder
      cases r with
      | none => cases hder
      | some r =>
        injection hder with hder
        injection hder with hder
        injection hder with _ hder
        subst hder
        simp [jacobianValues]
    · have hfam : ∀ i < times.length, z[i]? = some (some (X i fun k => x.getD k 0)) := by
        intro i hi
        have := hX.simulated i hi
        rw [hz', List.getElem?_map, Option.map_eq_some_iff] at this
        obtain ⟨y, hy, this⟩ := this
        rw [hy]
        cases y with
        | none => cases this
        | some y => rw [ext_inj (Option.some.inj this)]
      exact (jacobian_net hadm (goals hc f.topology) rfl hG p.positive p.good.1 p.increasing hcn
        (fun t ht => hfirst.trans_le (hin t ht).1) hlast p.pairing p.weights p.jacobian p.checked p.selected.2.1 hxl hder hfam hX.first
        hX.continuous hX.equations hreg).2 v (sink v hv)

end Verif.Read
