import Verif.Read.DefinedRun
import Verif.Read.NlpAvail
import Verif.Read.Replay

/-!
# Property C125: an optimization has no undefined behaviour

Setting up an optimization, `optimization`, and what Ipopt evaluates. In addition to what is demanded in `Verif.Read.DefinedRun` there is something to be controlled, with more
than one control time, and bounds are listed at increasing times.
-/

set_option autoImplicit false

namespace Verif.Read

open Verif.Json Verif.Factory Verif.Interp Verif.Schema Verif.Initial Verif.Times Verif.Newton Verif.Evolve Verif.OptTimes
  Verif.IndexLambda Verif.Weights Verif.Jacobian Verif.Adjoint Network Net Matrix
open Verif.Output (Printed)

/-! ## Specification -/

/-- Bounds are listed at increasing times. -/
structure HarmlessBounds (b : Bounds) : Prop where
  lower : ∀ e ∈ components b.lower, ListsTimes e
  upper : ∀ e ∈ components b.upper, ListsTimes e
  constraintLower : ∀ e ∈ components b.constraintLower, ListsTimes e
  constraintUpper : ∀ e ∈ components b.constraintUpper, ListsTimes e

/-- More than one control time. -/
def ManySteps (s : Settings) : Prop := ∀ c, s.control = some c → c.numberOfSteps ≠ some 1

/-! ## Derivatives of networks -/

section Gas

theorem forEach_ne_ub {α β : Type} {l : List α} {f : α → Res (List β)} (h : ∀ x ∈ l, f x ≠ Res.ub) : forEach l f ≠ Res.ub := by
  induction l with
  | nil => simp [forEach]
  | cons a l ih =>
    unfold forEach
    exact res_bind_ne (h a (by simp)) fun b _ => res_bind_ne (ih fun x hx => h x (by simp [hx])) fun _ _ => by simp

theorem boundaryState_ne_ub (e : Gas.Edge) (dir : Gas.Dir) : Gas.boundaryState e dir ≠ Res.ub := by
  cases dir
  · simp [Gas.boundaryState]
  · simp only [Gas.boundaryState]
    split <;> simp

theorem dBoundaryPQ_ne_ub (e : Gas.Edge) (dir : Gas.Dir) (fd : ℝ × ℝ) (row : ℤ) (state : Vec) : Gas.dBoundaryPQ e dir fd row state ≠ Res.ub := by
  unfold Gas.dBoundaryPQ
  refine res_bind_ne (boundaryState_ne_ub _ _) fun i _ => ?_
  split <;> simp

theorem derivativeLoop_ne_ub (state : Vec) (lastRow oldRow : ℤ) (l : List Gas.End) : Gas.derivativeLoop state lastRow oldRow l ≠ Res.ub := by
  induction l generalizing oldRow with
  | nil => simp [Gas.derivativeLoop]
  | cons x l ih =>
    unfold Gas.derivativeLoop
    exact res_bind_ne (dBoundaryPQ_ne_ub _ _ _ _ _) fun _ _ => res_bind_ne (dBoundaryPQ_ne_ub _ _ _ _ _) fun _ _ =>
      res_bind_ne (dBoundaryPQ_ne_ub _ _ _ _ _) fun _ _ => res_bind_ne (ih _) fun _ _ => by simp

theorem flowDerivative_ne_ub (ends : List Gas.End) (state : Vec) : Gas.flowDerivative ends state ≠ Res.ub := by
  unfold Gas.flowDerivative
  split
  · simp
  · refine res_bind_ne (dBoundaryPQ_ne_ub _ _ _ _ _) fun _ _ => ?_
    split
    · simp
    · exact res_bind_ne (dBoundaryPQ_ne_ub _ _ _ _ _) fun _ _ => res_bind_ne (derivativeLoop_ne_ub _ _ _ _) fun _ _ =>
        res_bind_ne (dBoundaryPQ_ne_ub _ _ _ _ _) fun _ _ => res_bind_ne (dBoundaryPQ_ne_ub _ _ _ _ _) fun _ _ => by simp

theorem dsource_ne_ub (d k : ℝ) (st : ℝ × ℝ) : (Box.eulerLaw d k).dsource st ≠ Res.ub := by
  have e1 : ∀ Re, Euler.swameeJain Re d k ≠ Res.ub := by
    intro Re
    unfold Euler.swameeJain
    split <;> simp
  have e2 : ∀ Re, Euler.dSwameeJain Re d k ≠ Res.ub := by
    intro Re
    unfold Euler.dSwameeJain
    split <;> simp
  have e3 : Euler.coefficients d k ≠ Res.ub := by
    unfold Euler.coefficients
    exact res_bind_ne (e1 _) fun _ _ => res_bind_ne (e2 _) fun _ _ => by simp
  have h1 : ∀ Re, Euler.lambda Re d k ≠ Res.ub := by
    intro Re
    unfold Euler.lambda
    split
    · simp
    · split
      · exact e1 _
      · exact res_bind_ne e3 fun _ _ => by simp
  have h2 : ∀ Re, Euler.dlambda Re d k ≠ Res.ub := by
    intro Re
    unfold Euler.dlambda
    split
    · simp
    · split
      · exact e2 _
      · exact res_bind_ne e3 fun _ _ => by simp
  have h4 : ∀ q, SmoothAbs.dabs q ≠ Res.ub := by
    intro q
    unfold SmoothAbs.dabs
    repeat' split
    all_goals simp
  have h3 : ∀ q, Euler.dReynolds q d ≠ Res.ub := by
    intro q
    unfold Euler.dReynolds
    split
    · simp
    · exact res_bind_ne (h4 _) fun _ _ => by simp
  show (Euler.dsource d k st >>= fun M => Res.ok M.map) ≠ Res.ub
  refine res_bind_ne ?_ fun _ _ => by simp
  unfold Euler.dsource
  simp only
  split
  · simp
  · exact res_bind_ne (h1 _) fun _ _ => res_bind_ne (h2 _) fun _ _ => res_bind_ne (h3 _) fun _ _ => res_bind_ne (h4 _) fun _ _ => by simp

theorem gasEdgeNew_ne_ub (e : Gas.Edge) (lastTime newTime : ℝ) (a : Args) : Gas.edgeNew e lastTime newTime a ≠ Res.ub := by
  unfold Gas.edgeNew
  simp only
  split
  · refine forEach_ne_ub fun i _ => ?_
    unfold Gas.cellNew
    refine res_bind_ne ?_ fun _ _ => res_bind_ne ?_ fun _ _ => by simp
    · unfold Box.dNewLeft
      exact res_bind_ne (dsource_ne_ub _ _ _) fun _ _ => by simp
    · unfold Box.dNewRight
      exact res_bind_ne (dsource_ne_ub _ _ _) fun _ _ => by simp
  · exact res_bind_ne (boundaryState_ne_ub _ _) fun _ _ => res_bind_ne (boundaryState_ne_ub _ _) fun _ _ => by simp
  · exact res_bind_ne (boundaryState_ne_ub _ _) fun _ _ => res_bind_ne (boundaryState_ne_ub _ _) fun _ _ => by simp
  · exact res_bind_ne (boundaryState_ne_ub _ _) fun _ _ => res_bind_ne (boundaryState_ne_ub _ _) fun _ _ => by simp
  · simp

end Gas

theorem dNew_ne_ub {N : Net} (hN : Admissible N) (lastTime newTime : ℝ) (a : Args) : N.dNew lastTime newTime a ≠ Res.ub := by
  have hedge : ∀ k, N.edgeNew k lastTime newTime a ≠ Res.ub := by
    intro k
    unfold Net.edgeNew
    cases hg : N.gasEdge k with
    | none => simp
    | some e =>
      simp only
      split
      · next g p hk =>
        have hplant : (N.node (N.dst k)).kind.isPlant := by
          unfold Net.gasEdge at hg
          split at hg
          · next kind n hke =>
            injection hg with hg
            rw [← hg] at hk
            simp only at hk
            subst hk
            exact hN.plantEnd k g p n hke
          · cases hg
        rw [if_pos hplant]
        obtain ⟨b, hb⟩ := hN.bus_ok (N.dst k)
        rw [hb, Res.ok_bind]
        unfold Power.connectionNew
        refine res_bind_ne ?_ fun _ _ => by simp
        unfold Power.dGenerated Power.dSmoothing
        repeat' split
        all_goals simp
      · exact gasEdgeNew_ne_ub _ _ _ _
  unfold Net.dNew
  refine res_bind_ne (forEach_ne_ub fun v _ => ?_) fun _ _ => res_bind_ne (forEach_ne_ub fun k _ => hedge k) fun _ _ =>
    res_bind_ne (forEach_ne_ub fun k _ => hedge k) fun _ _ => by simp
  obtain ⟨b, hb⟩ := hN.bus_ok v
  unfold Net.nodeNew
  split
  · exact flowDerivative_ne_ub _ _
  · split
    · simp
    · exact flowDerivative_ne_ub _ _
  · split
    · simp
    · exact forEach_ne_ub fun _ _ => dBoundaryPQ_ne_ub _ _ _ _ _
  · rw [hb]; simp
  · rw [hb]; simp

/-! ## The sweep -/

section Sweep
variable {n m r : ℕ} {K : Type} [Field K] [DecidableEq K]

/-- As `C15_sweep_succeeds`, also for singular matrices. -/
theorem sweep_ne_ub {I : Input n m r K} {N : ℕ} {pos : ℕ → ℕ} (hp : Adjoint.Placed I N pos) (hb : InBounds I N pos) :
    computeDerivatives I N ≠ Res.ub := by
  have main : ∀ i ≤ N, ∀ s : Adjoint.State n m r K, (0 < r → CInv I pos i s) →
      (0 < r → s.active = true → s.constraintIndex < I.cons.length) → sweep I i s ≠ Res.ub := by
    intro i
    induction i with
    | zero => intro _ s _ _; simp [sweep]
    | succ i ih =>
      intro hi s inv hact
      unfold sweep
      by_cases hd : ((I.data (i + 1)).dEdnewᵀ).det = 0
      · have : step I (i + 1) s = Res.ok none := if_pos hd
        rw [this]
        simp
      · obtain ⟨s1, h1, h2⟩ := step_ok hp hb hi s inv hact hd
        have inv1 : 0 < r → CInv I pos i s1 := by
          intro hr
          have hz : (I.data (i + 1)).dEdnew *ᵥ (0 : Fin n → K) + (I.data (i + 1)).dEdlast *ᵥ 0 +
              (I.data (i + 1)).dEdcontrol *ᵥ controlAt (I.pair (i + 1)) (fun _ => 0) = 0 := by
            simp [Adjoint.controlAt]
          exact (step_constraints hp hi hr (inv hr) h1 (dU := fun _ => 0) (dx := fun _ => 0) hz).1
        rw [h1]
        exact ih (by omega) s1 inv1 h2
  refine main N le_rfl _ (fun _ => init_inv hp) (fun _ h => ?_)
  simp [State.init] at h

end Sweep

/-! ## Evaluations -/

theorem controlsAt_ne_ub {N : Net} {cgrid x : List ℝ} (hinc : cgrid.Pairwise (· < ·)) (hcn : 0 < cgrid.length)
    (hxl : x.length = N.controlCount * cgrid.length) (t : ℝ) : controlsAt (N := N) cgrid x t ≠ Res.ub := by
  unfold controlsAt
  exact res_bind_ne (C03_eval_range ⟨cgrid, N.controlCount, x⟩ (by show x.length = _; rw [hxl, mul_comm]) hinc hcn t).2.1 fun _ _ => by simp

theorem derivativesOf_ne_ub {N : Net} (hadm : Admissible N) (G : Goals N) (hG : G.Attached)
    {times cgrid ktimes x w : List ℝ} {pairs : List (ℕ × ℝ)} {jac : Jac} {oob : Option ℝ}
    {z : List (Option (Fin N.stateCount → ℝ))}
    (hst : times.Pairwise (· < ·)) (h0 : 0 < times.length) (hinc : cgrid.Pairwise (· < ·)) (hcn : 0 < cgrid.length)
    (hlow : ∀ t ∈ times, cgrid[0] ≤ t)
    (hlast : ∀ t ∈ times, t < cgrid[cgrid.length - 1] + EPSILON) (hps : computeIndexLambdaVector cgrid times = Res.ok pairs)
    (hww : weights times = Res.ok w) (hmake : makeData G.count N.controlCount ktimes cgrid = Res.ok jac)
    (hchk : checkConstraintTimes times ktimes = Res.ok ())
    (hxl : x.length = N.controlCount * cgrid.length) (hz : z.length = times.length)
    (hread : 0 < G.count → (ktimes ≠ [] ∧ ktimes.head? = times.tail.head?) ∨ ∃ v, oob = some v ∧ v ∉ times.tail) :
    derivativesOf G times cgrid ktimes x w pairs jac oob z ≠ Res.ub := by
  unfold derivativesOf
  split
  · simp
  refine res_bind_ne ?_ fun data hdata => ?_
  · unfold stepsOf
    refine each_ne_ub fun i hi => ?_
    rw [List.mem_range'_1] at hi
    rw [Res.get_of_lt (show i - 1 < times.length by omega), Res.ok_bind, Res.get_of_lt (show i < times.length by omega), Res.ok_bind,
      Res.get_of_lt (show i - 1 < z.length by omega), Res.ok_bind, Res.get_of_lt (show i < z.length by omega), Res.ok_bind]
    refine res_bind_ne (controlsAt_ne_ub hinc hcn hxl _) fun c _ => ?_
    unfold Net.stepData
    obtain ⟨last, hl⟩ := dLast_ok N
    obtain ⟨con, hcon⟩ := dControl_ok N
    obtain ⟨gs, gc, f1, f2, -⟩ := C44_constraints N hadm G hG (z[i].getD 0, c)
    simp only at f1 f2
    refine res_bind_ne (dNew_ne_ub hadm _ _ _) fun _ _ => ?_
    rw [hl, Res.ok_bind, hcon, Res.ok_bind, f1, Res.ok_bind, f2]
    simp
  · set I := inputOf G times cgrid ktimes w pairs jac oob data with hI
    have hfrom : FromOptimizer I times cgrid ktimes := by
      refine ⟨fun i hi => ?_, rfl, rfl, pairs_get hps, ⟨w, hww, fun i hi => ?_⟩, jac, hmake, fun j _ => rfl⟩
      · show times.getD i 0 = _
        rw [List.getD_eq_getElem?_getD, List.getElem?_eq_getElem hi]
        rfl
      · show w.getD i 0 = _
        rw [List.getD_eq_getElem?_getD, List.getElem?_eq_getElem hi]
        rfl
    obtain ⟨hp, hb⟩ := C16_index_data_in_bounds I times cgrid ktimes hfrom hst hinc h0 hcn (hlow _ (List.getElem_mem _))
      (hlast _ (List.getElem_mem _)) hchk hread
    refine res_bind_ne (sweep_ne_ub hp hb) fun o _ => ?_
    cases o <;> simp

/-! ## Setting up -/

theorem boundsOf_ne_ub {cs : List (ControlComponent ℝ)} {mem : ℕ → ℝ} (hids : (cs.map ControlComponent.id).Nodup) {n : ℕ}
    (hcs : ∀ c ∈ cs, c.read = Gas.readVector (accepts (boundaryOf 1)) mem ∧ c.start < n) (grid : List ℝ) {json : Json}
    (hi : ∀ e ∈ components json, ListsTimes e) : boundsOf cs mem grid n json ≠ Res.ub := by
  obtain ⟨h1, h2, -⟩ := C47_missing hids json
  unfold boundsOf setInitialControls
  refine res_bind_ne h1 fun w hw => ?_
  have hall : AllHaveIds json := by
    by_contra hn
    rw [h2.mpr (Or.inl hn)] at hw
    cases hw
  refine (fold_ne_ub (P := fun u : IV ℝ => u.WF ∧ u.inner = n) ⟨by simp [IV.WF, uninit, mul_comm], rfl⟩ ?_).1
  rintro u ⟨hwf, hinner⟩ e he
  obtain ⟨s, hs⟩ := hall e he
  constructor
  · unfold setControlEntry
    rw [find_id] at hs
    rw [index_of_find hs, Res.ok_bind]
    simp only [getStr, Res.ok_bind]
    split
    · next c hfind =>
      obtain ⟨c1, c2⟩ := hcs c (List.mem_of_find?_eq_some hfind)
      obtain ⟨r1, r2⟩ := readVector_defined (k := 1) (mem := mem) (hi e he)
      unfold setControl
      rw [c1]
      refine res_bind_ne r1 fun v hv => ?_
      obtain ⟨r3, r4⟩ := r2 v hv
      exact setTimes_ne_ub r3 hwf (by omega) (by omega)
    · simp
  · intro u' hu'
    obtain ⟨s, -, ⟨c, -, -, h3⟩ | ⟨-, rfl⟩⟩ := setControlEntry_ok hu'
    · refine ⟨setControl_wf hwf h3, ?_⟩
      obtain ⟨_, -, -, -, h4, -⟩ := C64_controls hwf h3
      exact h4.symm.trans hinner
    · exact ⟨hwf, hinner⟩

/-- With more than one control time the last one is the last time. -/
theorem controlGrid_last {s : Settings} (hlt : s.start < s.stop) (hdes : 0 < s.desired) (hmany : ManySteps s) {times grid : List ℝ}
    (ht : stateGrid s.start s.desired s.stop = Res.ok times) (hg : controlGrid s.start s.desired s.stop s.control = Res.ok grid) :
    grid.getLast? = some s.stop := by
  obtain ⟨times', e1, hgood, -⟩ := (C26_grid_partial s.start s.desired s.stop).1 hlt hdes
  rw [ht] at e1
  injection e1 with e1
  subst e1
  obtain ⟨c1, -, -⟩ := controlGrid_times hlt hdes ht hg
  unfold ControlTimes at c1
  match hcs : s.control with
  | none => rw [hcs] at c1; rw [c1]; exact hgood.2.2.1
  | some ⟨some d, none⟩ => rw [hcs] at c1; exact c1.2.2.1
  | some ⟨none, some n⟩ =>
    rw [hcs] at c1
    exact (c1 fun h => hmany _ hcs (by rw [h])).2.2.2.1
  | some ⟨some d, some n⟩ => rw [hcs] at c1; exact c1.elim
  | some ⟨none, none⟩ => rw [hcs] at c1; exact c1.elim

theorem ensure_ne_ub (b : Bool) : ensure b ≠ Res.ub := by
  cases b <;> simp [ensure]

open Classical in
/-- C125 for setting up an optimization. -/
theorem C125_optimization_partial {draws : Json → Res (ℝ → Res (ℝ × ℝ))} {mem : ℕ → ℝ} {lu : Solve} {fuel : ℕ} {s : Settings} {every : ℤ} {f : Files} {b : Bounds}
    (ho : f.topology.isObj = true) (hs : Shaped f.topology) (hd : DistinctTypes f.topology) (sb : Shaped f.boundary)
    (db : DistinctTypes f.boundary) (hf : Fit f.defaults f.topology) (hlt : s.start < s.stop) (hdes : 0 < s.desired)
    (hcov : ∀ t, s.start ≤ t → t ≤ s.stop → Covers f.defaults f.topology f.boundary t) (hdraws : ∀ data, draws data ≠ Res.ub) (hh : Harmless f)
    (hneed : ∀ g, ∀ hc : Consistent g, readNet draws mem f.defaults f.topology f.boundary = Res.ok g → 0 < (toNet hc).controlCount)
    (hb : HarmlessBounds b) (hmany : ManySteps s) : optimization draws mem lu fuel s every f b ≠ Res.ub := by
  obtain ⟨times, ht, hgood, -⟩ := (C26_grid_partial s.start s.desired s.stop).1 hlt hdes
  unfold optimization
  rw [ht, Res.ok_bind]
  refine res_bind_ne (readNet_ne_ub hdraws ho hs hd sb db hf (hcov s.start le_rfl hlt.le) hh.net) fun g hg => ?_
  obtain ⟨nodes, edges, h1, h2, h3⟩ := readNet_ok hg
  obtain ⟨hc, hids, -⟩ := buildNet_made (proper_of h1 h2 hs hd) h3
  rw [dif_pos hc]
  refine res_bind_ne ?_ fun _ _ => ?_
  · unfold Net.setup
    split <;> simp
  refine res_bind_ne (setInitialValues_ne_ub hc mem hids hh.initial) fun initial _ => ?_
  simp only
  rw [if_pos (hneed g hc hg)]
  refine res_bind_ne (controlGrid_ne_ub hlt hdes s.control).1 fun cgrid hcgrid => ?_
  have hcs : ∀ c ∈ controlComponents hc mem, c.read = Gas.readVector (accepts (boundaryOf 1)) mem ∧
      c.start < (toNet hc).controlCount := by
    intro c hcm
    obtain ⟨k, hk⟩ := (mem_controlComponents hc mem).mp hcm
    obtain ⟨-, b1, b2, b3⟩ := control_of hc mem hk
    have := Admissible.control_bounds (N := toNet hc) b2
    exact ⟨b3, by unfold Net.controlCount; omega⟩
  have hks : ∀ c ∈ constraintComponents hc f.topology mem, c.read = Gas.readVector (accepts (boundaryOf 1)) mem ∧
      c.start < (goals hc f.topology).count := by
    intro c hcm
    obtain ⟨k, hk⟩ := (mem_constraintComponents hc f.topology mem).mp hcm
    obtain ⟨-, b1, b2, b3, b4⟩ := constraint_of hc f.topology mem hk
    exact ⟨b4, b3⟩
  have cids := control_ids hc mem hids
  have kids := constraint_ids hc f.topology mem hids
  obtain ⟨c1, c2, c3⟩ := controlGrid_times hlt hdes ht hcgrid
  have hcn : 0 < cgrid.length := by
    cases cgrid with
    | nil => simp at c3
    | cons => simp
  have hfirst : cgrid[0] = s.start := by
    rw [List.head?_eq_getElem?, List.getElem?_eq_getElem hcn] at c3
    exact Option.some.inj c3
  have hlast : cgrid[cgrid.length - 1] = s.stop := by
    have := controlGrid_last hlt hdes hmany ht hcgrid
    rw [List.getLast?_eq_getElem?, List.getElem?_eq_getElem (by omega)] at this
    exact Option.some.inj this
  refine res_bind_ne (boundsOf_ne_ub cids hcs _ hh.control) fun start _ => ?_
  obtain ⟨ktimes, hk, -, -, -, hchk⟩ := C20_selection times every hgood.1 hgood.2.2.2.1
  rw [hk, Res.ok_bind]
  refine res_bind_ne (boundsOf_ne_ub cids hcs _ hb.lower) fun lower _ => ?_
  refine res_bind_ne (boundsOf_ne_ub cids hcs _ hb.upper) fun upper _ => ?_
  refine res_bind_ne (boundsOf_ne_ub kids hks _ hb.constraintLower) fun klower _ => ?_
  refine res_bind_ne (boundsOf_ne_ub kids hks _ hb.constraintUpper) fun kupper _ => ?_
  obtain ⟨ps, hps, -⟩ := C08_vector cgrid c2 hcn times fun t htm => by
    have := hgood.bounds t htm
    rw [hfirst, hlast]
    constructor <;> linarith [EPSILON_pos (K := ℝ), this.1, this.2]
  rw [hps, Res.ok_bind]
  obtain ⟨w, hw, -⟩ := weights_eq times hgood.2.2.2.1
  rw [hw, Res.ok_bind]
  refine res_bind_ne ?_ fun jac _ => ?_
  · cases cgrid with
    | nil => simp at hcn
    | cons u us => simp [makeData]
  refine res_bind_ne (ensure_ne_ub _) fun _ _ => ?_
  refine res_bind_ne (ensure_ne_ub _) fun _ _ => ?_
  refine res_bind_ne (ensure_ne_ub _) fun _ _ => ?_
  refine res_bind_ne (ensure_ne_ub _) fun _ _ => ?_
  refine res_bind_ne (ensure_ne_ub _) fun _ _ => ?_
  refine res_bind_ne (ensure_ne_ub _) fun _ _ => ?_
  refine res_bind_ne ?_ fun _ _ => ?_
  · unfold checkTimes
    repeat' split
    all_goals simp
  rw [hchk, Res.ok_bind]
  simp

open Classical in
/-- C125 for the evaluations of an optimization that is set up: no undefined behaviour for any vector that Ipopt may pass, but for damping loops without end. Constraint sinks must be
connected, and the sweep must not run into C18. -/
theorem C125_evaluations_partial {draws : Json → Res (ℝ → Res (ℝ × ℝ))} {mem : ℕ → ℝ} {lu : Solve} {fuel : ℕ} {s : Settings} {every : ℤ} {f : Files} {b : Bounds}
    (ho : f.topology.isObj = true) (hs : Shaped f.topology) (hd : DistinctTypes f.topology) (sb : Shaped f.boundary)
    (db : DistinctTypes f.boundary) (hf : Fit f.defaults f.topology) (hlt : s.start < s.stop) (hdes : 0 < s.desired)
    (hmax : 1 ≤ s.iterations) (hcov : ∀ t, s.start ≤ t → t ≤ s.stop → Covers f.defaults f.topology f.boundary t)
    (hdraw : ∀ data d, draws data = Res.ok d → ∀ t, s.start ≤ t → t ≤ s.stop → ∃ b, d t = Res.ok b)
    {P : Nlp} (h : optimization draws mem lu fuel s every f b = Res.ok P) {x : List ℝ} (hx : x.length = P.controls * P.controlTimes.length) :
    (P.simulation x = Res.ub → Endless draws mem lu fuel s f) ∧ (P.objective x = Res.ub → Endless draws mem lu fuel s f) ∧
    ((∀ g, ∀ hc : Consistent g, readNet draws mem f.defaults f.topology f.boundary = Res.ok g →
        ∀ v : Fin g.nodes.length, ConstraintSink f.topology g.nodes[v].id → ∃ k, ((toNet hc).edge k).isGas ∧ ((toNet hc).src k = v ∨ (toNet hc).dst k = v)) →
      (P.constraintValues x = Res.ub → Endless draws mem lu fuel s f) ∧
      ∀ oob, ReadsHarmless P oob → P.derivatives oob x = Res.ub → Endless draws mem lu fuel s f) := by
  obtain ⟨g, hc, hg, initial, w, pairs, p⟩ := parts_of ho hs hd sb db hf hlt hdes hmax hcov hdraw h
  by_cases hend : Endless draws mem lu fuel s f
  · exact ⟨fun _ => hend, fun _ => hend, fun _ => ⟨fun _ => hend, fun _ _ _ => hend⟩⟩
  obtain ⟨hcn, hfirst, hlast⟩ := p.first
  have hin := p.good.bounds
  have hadm := p.admissible
  have hxn : x.length = (toNet hc).controlCount * P.controlTimes.length := hx.trans (congrArg (· * _) p.controls)
  have ccount : ∀ t ∈ P.times, ∃ c : Fin (toNet hc).controlCount → ℝ, controlsAt P.controlTimes x t = Res.ok c := fun t htm =>
    controls_ok hxn p.increasing hcn (hfirst.trans_le (hin t htm).1) (hlast t htm)
  obtain ⟨S, hS, e1, e2, e3⟩ := p.evaluations x hx
  have hne : S ≠ Res.ub := by
    obtain ⟨h4, -⟩ := C24_throws s.retries s.simplified
      (newtonSolver (fun a b x c => (toNet hc).system (lu (toNet hc) a b x c) a b x c) s.tolerance s.iterations fuel)
      (controlsAt (N := toNet hc) P.controlTimes x) P.times (some (entriesOf initial)) p.good.2.2.2.1 (by
        intro hst a hn
        unfold newtonSolver at hn
        split at hn
        · next h => exact hend ⟨g, hc, hg, _, _, _, _, _, _, h⟩
        · cases hn
        · next h => exact solve_ne_ub _ _ _ _ _ _ h
        · cases hn) (controlsAt_ne_ub p.increasing hcn hxn)
    rw [hS]
    rcases h4 with ⟨states, h4⟩ | h4 <;> rw [h4] <;> simp
  have hsim : P.simulation x ≠ Res.ub := by
    rw [e1]
    exact res_bind_ne hne fun _ _ => by simp
  refine ⟨fun h => absurd h hsim, fun h => ?_, fun hatt => ?_⟩
  · refine absurd h ?_
    rw [p.objective x hx]
    refine res_bind_ne (by rw [← hS]; exact hne) fun z hz => ?_
    have hzl := (p.simulation x z hx hz).1
    have : ∀ value, weighted P.times P.controlTimes x value w z ≠ Res.ub := by
      intro value
      obtain ⟨w', hw', hwl, -⟩ := weights_eq P.times p.good.2.2.2.1
      rw [p.weights] at hw'
      injection hw' with hw'
      subst hw'
      unfold weighted
      refine (fold_ne_ub (P := fun _ => True) trivial fun acc _ i hi => ⟨?_, fun _ _ => trivial⟩).1
      rw [List.mem_range'_1] at hi
      rw [Res.get_of_lt (show i < P.times.length by omega), Res.ok_bind]
      refine res_bind_ne (controlsAt_ne_ub p.increasing hcn hxn _) fun c _ => ?_
      rw [Res.get_of_lt (show i < z.length by omega), Res.ok_bind, Res.get_of_lt (show i < w.length by omega), Res.ok_bind]
      simp
    unfold objectiveOf
    exact res_bind_ne (this _) fun _ _ => res_bind_ne (this _) fun _ _ => by simp
  · have hG : (goals hc f.topology).Attached := fun v hv =>
      ⟨p.flow v hv, (ends_ne_nil hadm).mpr (hatt g hc hg v (isConstraintSink_iff.mp hv))⟩
    refine ⟨fun h => ?_, fun oob hread h => ?_⟩
    · refine absurd h ?_
      rw [e2]
      refine res_bind_ne hne fun z hz => ?_
      have hzl := (p.simulation x z hx (hS.symm.trans hz)).1
      obtain ⟨values, q1, -⟩ := constraints_eq hadm (goals hc f.topology) hG p.good.1
        (fun t ht => List.mem_of_mem_tail (p.selected.2.2.1 t ht)) hzl ccount
      rw [q1]
      simp
    · refine absurd h ?_
      rw [e3]
      refine res_bind_ne hne fun z hz => ?_
      have hzl := (p.simulation x z hx (hS.symm.trans hz)).1
      have hmake := p.jacobian
      rw [p.constraints, p.controls] at hmake
      refine derivativesOf_ne_ub hadm (goals hc f.topology) hG p.good.1 (by have := p.good.2.2.2.1; omega) p.increasing hcn
        (fun t ht => hfirst.trans_le (hin t ht).1) hlast p.pairing p.weights hmake p.checked hxn hzl fun hpos => ?_
      rcases hread with hr | hr | ⟨v, hv, hr⟩
      · rw [p.constraints] at hr
        omega
      · exact .inl ⟨p.selected.1, hr⟩
      · exact .inr ⟨v, hv, fun hm => hr (List.mem_of_mem_tail hm)⟩

/-- The states of an optimization whose numbers are all there can be written. -/
theorem states_written [Printed ℝ] {draws : Json → Res (ℝ → Res (ℝ × ℝ))} {mem : ℕ → ℝ} {s : Settings} {f : Files}
    (ho : f.topology.isObj = true) (hs : Shaped f.topology) (hd : DistinctTypes f.topology) (sb : Shaped f.boundary)
    (db : DistinctTypes f.boundary) (hf : Fit f.defaults f.topology) (hlt : s.start < s.stop)
    (hcov : ∀ t, s.start ≤ t → t ≤ s.stop → Covers f.defaults f.topology f.boundary t)
    (hdraw : ∀ data d, draws data = Res.ok d → ∀ t, s.start ≤ t → t ≤ s.stop → ∃ b, d t = Res.ok b)
    {g : Graph Network.Node EdgeKind} (hg : readNet draws mem f.defaults f.topology f.boundary = Res.ok g) {hc : Consistent g}
    {times : List ℝ} (hin : ∀ t ∈ times, s.start ≤ t ∧ t ≤ s.stop) {states : List Vec} (hlen : states.length = times.length)
    (hst : ∀ x ∈ states, ∃ y : Fin (toNet hc).stateCount → ℝ, x = ext y) :
    ∃ out, Output.statesJson (outputComponents hc f.topology (times.getLastD s.start))
      (times.zip (states.map (listOf (toNet hc).stateCount))) = Res.ok out := by
  obtain ⟨nodes, edges, h1, h2, h3⟩ := readNet_ok hg
  obtain ⟨-, hids, -⟩ := buildNet_made (proper_of h1 h2 hs hd) h3
  obtain ⟨_, hadm, hcomp⟩ := C100_partial ho hs hd sb db hg hf
  obtain ⟨node, edge, S⟩ := sited_of hs hd hg hf hc
  set last := times.getLastD s.start with hlast
  have hlin : s.start ≤ last ∧ last ≤ s.stop := by
    rcases List.eq_nil_or_concat times with h | ⟨l, x, h⟩
    · rw [hlast, h]
      exact ⟨le_refl _, hlt.le⟩
    · have : last = x := by rw [hlast, h]; simp
      rw [this]
      exact hin x (by rw [h]; simp)
  have hclast := (hcomp last (hcov _ hlin.1 hlin.2) fun data d hdd => hdraw data d hdd _ hlin.1 hlin.2).1
  have getT : ∀ {i} (h : i < times.length), times.getD i 0 = times[i] := fun h => by simp [h]
  have getS : ∀ {i} (h : i < states.length), states.getD i 0 = states[i] := fun h => by simp [h]
  have hrep := fun i (hi : i < times.length) => reported_of ho hs hd sb db hg S hadm (last := last) (states := states) (getT hi)
    (hcov _ (hin _ (List.getElem_mem hi)).1 (hin _ (List.getElem_mem hi)).2) hclast (by
      have hi' : i < states.length := by omega
      obtain ⟨y, hy⟩ := hst states[i] (List.getElem_mem hi')
      rw [getS hi', hy]
      exact ext_listOf y)
  obtain ⟨out, ho1, -⟩ := S.shown_of last times states hf hids hlen (by
    intro v hv i ht hs'
    rw [← getS hs']
    exact (hrep i ht).1 v hv)
  exact ⟨out, ho1⟩

/-- C125 for the files that an optimization writes, whatever vector of the right length Ipopt returns. -/
theorem C125_optimized_partial [Printed ℝ] {draws : Json → Res (ℝ → Res (ℝ × ℝ))} {mem : ℕ → ℝ} {lu : Solve} {fuel : ℕ} {s : Settings} {every : ℤ} {f : Files} {b : Bounds}
    (ho : f.topology.isObj = true) (hs : Shaped f.topology) (hd : DistinctTypes f.topology) (sb : Shaped f.boundary)
    (db : DistinctTypes f.boundary) (hf : Fit f.defaults f.topology) (hlt : s.start < s.stop) (hdes : 0 < s.desired)
    (hmax : 1 ≤ s.iterations) (hcov : ∀ t, s.start ≤ t → t ≤ s.stop → Covers f.defaults f.topology f.boundary t)
    (hdraw : ∀ data d, draws data = Res.ok d → ∀ t, s.start ≤ t → t ≤ s.stop → ∃ b, d t = Res.ok b)
    (hdraws : ∀ data, draws data ≠ Res.ub) (hh : Harmless f)
    (hneed : ∀ g, ∀ hc : Consistent g, readNet draws mem f.defaults f.topology f.boundary = Res.ok g → 0 < (toNet hc).controlCount)
    (hb : HarmlessBounds b) (hmany : ManySteps s) {x : List ℝ}
    (hx : ∀ P, optimization draws mem lu fuel s every f b = Res.ok P → x.length = P.controls * P.controlTimes.length) :
    optimizedFiles draws mem lu fuel s every f b x = Res.ub → Endless draws mem lu fuel s f := by
  intro hub
  by_contra hend
  revert hub
  unfold optimizedFiles
  refine res_bind_ne (C125_optimization_partial ho hs hd sb db hf hlt hdes hcov hdraws hh hneed hb hmany) fun P hP => ?_
  have hxl := hx P hP
  refine res_bind_ne (by rw [Jacobian.density_eq _ _ _ _ List.length_replicate]; split <;> simp) fun _ _ => ?_
  refine res_bind_ne (fun h => hend ((C125_evaluations_partial ho hs hd sb db hf hlt hdes hmax hcov hdraw hP hxl).1 h)) fun z hz => ?_
  obtain ⟨g, hc, hg, initial, w, pairs, p⟩ := parts_of ho hs hd sb db hf hlt hdes hmax hcov hdraw hP
  rw [hg, Res.ok_bind, dif_pos hc]
  obtain ⟨g', hc', hg', -, -, -, -, controls, hcon, -⟩ := C116_controls hP hxl
  rw [hg] at hg'
  injection hg' with hg'
  subst hg'
  rw [hcon, Res.ok_bind]
  split
  · next states hst =>
    obtain ⟨-, z', hz', hlen, -⟩ := p.simulated x z hz
    have hall := allSome_eq hst
    obtain ⟨out, hout⟩ := states_written (hc := hc) ho hs hd sb db hf hlt hcov hdraw hg p.good.bounds (states := states) (by
      have := congrArg List.length hall
      rw [List.length_map] at this
      rw [← this, hz', List.length_map, hlen]) (by
      intro v hv
      have : some v ∈ z := by rw [hall]; exact List.mem_map.mpr ⟨v, hv, rfl⟩
      rw [hz'] at this
      obtain ⟨o, -, ho⟩ := List.mem_map.mp this
      rw [Option.map_eq_some_iff] at ho
      obtain ⟨y, -, rfl⟩ := ho
      exact ⟨y, rfl⟩)
    rw [hout]
    simp
  · simp

end Verif.Read
