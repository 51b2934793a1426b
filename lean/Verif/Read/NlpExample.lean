import Verif.Read.NlpProps
import Verif.Read.NlpMemory
import Verif.Read.RunExample

/-!
# C104: an optimization problem

As in `RunExample`, but the sink is a constrained one: at least 40 and at most 80 bar. The compressor may raise the pressure by 30 bar.
-/

set_option autoImplicit false

namespace Verif.Read

open Verif.Json Verif.Factory Verif.Interp Verif.Schema Verif.Initial Verif.Times

def topologyK : Json := obj [
  ("connections", obj [("Compressorstation", arr [edgeC])]),
  ("nodes", obj [("ConstraintSink", arr [obj [("id", str "b")]]), ("Pressureboundarynode", arr [obj [("id", str "a")]])])]

def boundaryK : Json := obj [("nodes", obj [("ConstraintSink", arr [boundarySB]), ("Pressureboundarynode", arr [boundarySA])])]

def nodesK : Json := obj [("ConstraintSink", arr [nodeSB]), ("Pressureboundarynode", arr [nodeSA])]

def filesK : Files := ⟨obj [], topologyK, boundaryK, initialC, controlC⟩

def entryK (q : ℚ) (id : String) : Json := obj [("data", arr [obj [("time", num 0), ("values", arr [num q])],
  obj [("time", num 3600), ("values", arr [num q])]]), ("id", str id)]

def edgeFile (q : ℚ) : Json := obj [("connections", obj [("Compressorstation", arr [entryK q "c"])])]

def nodeFile (q : ℚ) : Json := obj [("nodes", obj [("ConstraintSink", arr [entryK q "b"])])]

def boundsK : Bounds := ⟨edgeFile 0, edgeFile 30, nodeFile 40, nodeFile 80⟩

/-! ## Reading -/

theorem full_k : buildFull topologyK boundaryK = Res.ok (obj [("connections", edgesC), ("nodes", nodesK)]) :=
  is_ok (n := 20) (by decide +kernel)

/-- The network that is read. -/
noncomputable def graphK : Graph Network.Node Network.EdgeKind :=
  ⟨[⟨"b", ⟨.flow, one ⟨[0, 3600], 1, [-5, -5]⟩, 0, 0⟩, [], [0]⟩,
    ⟨"a", ⟨.pressure, one ⟨[0, 3600], 1, [60, 60]⟩, 0, 0⟩, [0], []⟩],
   [⟨"c", .gas .compressor 0, 1, 0⟩]⟩

theorem read_k (draws : Json → Res (ℝ → Res (ℝ × ℝ))) (mem : ℕ → ℝ) :
    readNet draws mem (obj []) topologyK boundaryK = Res.ok graphK := by
  let xa : Node Network.Node := ⟨"a", ⟨.pressure, one ⟨[0, 3600], 1, [60, 60]⟩, 0, 0⟩, [], []⟩
  let xb : Node Network.Node := ⟨"b", ⟨.flow, one ⟨[0, 3600], 1, [-5, -5]⟩, 0, 0⟩, [], []⟩
  let na : ComponentType Network.Node := ⟨idSchema, some (boundaryOf 1), obj [], pressureNode mem⟩
  let nb : ComponentType Network.Node := ⟨idSchema, some (boundaryOf 1), obj [], sink mem⟩
  let es : ComponentType Network.EdgeKind := ⟨edgeSchema, none, obj [], short .compressor⟩
  have ma : makeNode accepts na nodeSA = Res.ok xa := makeNode_of prepare_sa rfl (construct_sa mem)
  have mb : makeNode accepts nb nodeSB = Res.ok xb := makeNode_of prepare_sb rfl (construct_sb mem)
  have ms : makeEdge accepts es ⟨[xb, xa], []⟩ edgeC = Res.ok graphK :=
    makeEdge_of (u := 1) (v := 0) prepare_c rfl rfl rfl rfl rfl (by decide) rfl
  have na' : Res.each [nodeSA] (makeNode accepts na) = _ := Res.each_eq_ok.mpr (.cons ma .nil)
  have nb' : Res.each [nodeSB] (makeNode accepts nb) = _ := Res.each_eq_ok.mpr (.cons mb .nil)
  refine readNet_of (nodes := [("ConstraintSink", nb), _, _, _, _, ("Pressureboundarynode", na), _, _, _, _])
    (edges := [("Compressorstation", es), _, _, _, _, _]) (vs := [[xb], [], [], [], [], [xa], [], [], [], []])
    rfl rfl full_k (nj := nodesK) (ej := edgesC) rfl rfl rfl rfl ?_ ?_ rfl
  · exact .cons nb' (.cons rfl (.cons rfl (.cons rfl (.cons rfl (.cons na' (.cons rfl (.cons rfl (.cons rfl (.cons rfl
      .nil)))))))))
  · exact fold_cons_of (fold_cons_of ms rfl) (fold_cons_of rfl (fold_cons_of rfl (fold_cons_of rfl (fold_cons_of rfl
      (fold_cons_of rfl rfl)))))

theorem shaped_k : (Shaped topologyK ∧ DistinctTypes topologyK) ∧ Shaped boundaryK ∧ DistinctTypes boundaryK :=
  ⟨shaped_of (by decide +kernel), shaped_of (by decide +kernel)⟩

theorem fit_k : Fit (obj []) topologyK := by
  have one : ∀ {e}, e ∈ entries (types topologyK "connections") → e = ("Compressorstation", edgeC) :=
    fun h => List.mem_singleton.mp h
  have no : ∀ {j}, ("Pipe", j) ∉ entries (types topologyK "connections") := fun h => by
    have := (Prod.mk.inj (one h)).1
    revert this
    decide
  refine ⟨fun e he => ?_, fun j hj => absurd hj no, fun j hj => absurd hj no⟩
  rw [one he]
  exact ⟨"a", "b", "Pressureboundarynode", "ConstraintSink", rfl, rfl, ⟨_, List.mem_cons_of_mem _ (List.mem_singleton.mpr rfl), rfl⟩,
    ⟨_, List.mem_cons_self, rfl⟩, by unfold Allowed; decide⟩

theorem covers_k {t : ℝ} (h0 : 0 ≤ t) (h1 : t ≤ 3600) : Covers (obj []) topologyK boundaryK t := by
  have nodes : ∀ {x}, x ∈ entries (types topologyK "nodes") →
      x = ("ConstraintSink", obj [("id", str "b")]) ∨ x = ("Pressureboundarynode", obj [("id", str "a")]) :=
    fun h => (List.mem_cons.mp h).imp id List.mem_singleton.mp
  refine ⟨fun name x hx _ _ _ e he _ => ?_, fun name x hx => ?_⟩
  · have : (name, e) = ("ConstraintSink", boundarySB) ∨ (name, e) = ("Pressureboundarynode", boundarySA) :=
      (List.mem_cons.mp he).imp id List.mem_singleton.mp
    rcases this with h | h <;> obtain ⟨-, rfl⟩ := Prod.mk.inj h
    · exact ⟨[(0, [5]), (3600, [5])], ⟨_, rfl, .cons ⟨rfl, rfl, rfl⟩ (.cons ⟨rfl, rfl, rfl⟩ .nil)⟩, by simp,
        ⟨_, List.mem_cons_self, by simpa using h0⟩, ⟨(3600, [5]), by simp, by simpa using h1⟩⟩
    · exact ⟨[(0, [60]), (3600, [60])], ⟨_, rfl, lists_sa⟩, by simp, ⟨_, List.mem_cons_self, by simpa using h0⟩,
        ⟨(3600, [60]), by simp, by simpa using h1⟩⟩
  · rcases nodes hx with h | h <;> obtain ⟨rfl, rfl⟩ := Prod.mk.inj h <;> exact ⟨rfl, rfl⟩

open Network Net Newton Evolve OptTimes IndexLambda Weights Jacobian

variable (hc : Consistent graphK)

theorem setup_k : (toNet hc).setup = Res.ok () := by
  unfold Net.setup
  refine if_pos ⟨fun v hv => ?_, fun k a b n h => ?_⟩
  · exfalso
    revert v
    show ∀ v : Fin 2, _
    intro v hv
    fin_cases v <;> cases hv
  · exfalso
    revert k
    show ∀ k : Fin 1, _
    intro k h
    rw [Subsingleton.elim k 0] at h
    injection h with h
    cases h

theorem controls_k (mem : ℕ → ℝ) : controlComponents hc mem = [⟨"c", 0, Gas.readVector (accepts (boundaryOf 1)) mem⟩] := rfl

theorem count_k : (goals hc topologyK).count = 1 := rfl

theorem constraints_k (mem : ℕ → ℝ) :
    constraintComponents hc topologyK mem = [⟨"b", 0, Gas.readVector (accepts (boundaryOf 1)) mem⟩] := rfl

theorem consistent_c : Consistent graphC :=
  (C100_partial (draws := fun _ => Res.throws) (mem := fun _ => 0) rfl shaped_c.1 shaped_c.2 shaped_s.2.1 shaped_s.2.2
    (read_c _ _) fit_c).1

theorem initial_k (mem : ℕ → ℝ) :
    setInitialValues (stateComponents hc mem) (uninit mem (toNet hc).stateCount) initialC = Res.ok [60, 5, 70, 5] :=
  initial_c consistent_c mem

theorem constant_value (mem : ℕ → ℝ) (q : ℚ) {T : ℚ} (hT : 0 < T) {t : ℝ} (h0 : 0 ≤ t) (h1 : t ≤ T) :
    eval (⟨[0, (T : ℝ)], 1, [(q : ℝ), (q : ℝ)]⟩ : IV ℝ) t = Res.ok [(q : ℝ)] := by
  have hcon : constructFromJson mem (Gas.real [(0, [q]), (T, [q])]) = Res.ok ⟨[0, (T : ℝ)], 1, [(q : ℝ), (q : ℝ)]⟩ := by
    rw [Gas.construct_flat (n := 1) mem _ (by simp [Gas.real]) (by simp [Gas.real])]
    simp [Gas.real]
  obtain ⟨r, h1, h2, h3, -⟩ := eval_valueAt (k := 1) (by simp) (by simp) (by simpa using hT) hcon (t := t) (b := ((q : ℝ), 0))
    (.inr ⟨0, by simp, by simpa using h0, by simpa using h1, by simp [listed]⟩)
  rw [h1]
  match r, h2 with
  | [x], _ =>
    have := h3 (by decide)
    simp at this
    rw [this]

theorem read_entry (mem : ℕ → ℝ) {q : ℚ} {id : String} (h : acceptsN 20 (boundaryOf 1) (entryK q id) = true) :
    Gas.readVector (accepts (boundaryOf 1)) mem (entryK q id) = Res.ok ⟨[0, 3600], 1, [(q : ℝ), (q : ℝ)]⟩ := by
  rw [readVector_of (n := 20) (l := [(0, [q]), (3600, [q])]) mem (k := 1) (b := entryK q id) h rfl
    (.cons ⟨rfl, rfl, rfl⟩ (.cons ⟨rfl, rfl, rfl⟩ .nil)) (by simp) (by simp)]
  simp

theorem set_edge (mem : ℕ → ℝ) {q : ℚ} (h : acceptsN 20 (boundaryOf 1) (entryK q "c") = true)
    (hcheck : checkComponents ["c"] (edgeFile q) = Res.ok []) :
    boundsOf (controlComponents hc mem) mem [0, 60] (toNet hc).controlCount (edgeFile q) = Res.ok ⟨[0, 60], 1, [(q : ℝ), (q : ℝ)]⟩ := by
  unfold boundsOf
  rw [controls_k]
  have h0 := constant_value mem q (T := 3600) (t := 0) (by norm_num) le_rfl (by norm_num)
  have h1 := constant_value mem q (T := 3600) (t := 60) (by norm_num) (by norm_num) (by norm_num)
  push_cast at h0 h1
  have hset : setControl (⟨"c", 0, Gas.readVector (accepts (boundaryOf 1)) mem⟩ : ControlComponent ℝ)
      ⟨[0, 60], 1, [mem 0, mem 1]⟩ (entryK q "c") = Res.ok ⟨[0, 60], 1, [(q : ℝ), (q : ℝ)]⟩ := by
    unfold setControl
    simp only [read_entry mem h, Res.ok_bind, setTimes, h0, h1]
    rfl
  exact Res.bind_eq_ok.mpr ⟨[], hcheck, fold_cons_of hset rfl⟩

theorem set_node (mem : ℕ → ℝ) {q : ℚ} (h : acceptsN 20 (boundaryOf 1) (entryK q "b") = true)
    (hcheck : checkComponents ["b"] (nodeFile q) = Res.ok []) :
    boundsOf (constraintComponents hc topologyK mem) mem [60] (goals hc topologyK).count (nodeFile q) = Res.ok ⟨[60], 1, [(q : ℝ)]⟩ := by
  unfold boundsOf
  rw [constraints_k]
  have h1 := constant_value mem q (T := 3600) (t := 60) (by norm_num) (by norm_num) (by norm_num)
  push_cast at h1
  have hset : setControl (⟨"b", 0, Gas.readVector (accepts (boundaryOf 1)) mem⟩ : ControlComponent ℝ)
      ⟨[60], 1, [mem 0]⟩ (entryK q "b") = Res.ok ⟨[60], 1, [(q : ℝ)]⟩ := by
    unfold setControl
    simp only [read_entry mem h, Res.ok_bind, setTimes, h1]
    rfl
  exact Res.bind_eq_ok.mpr ⟨[], hcheck, fold_cons_of hset rfl⟩

/-- Pressure and flow at both ends. -/
noncomputable def stateK : Fin (toNet hc).stateCount → ℝ := (![60, 5, 70, 5] : Fin 4 → ℝ)

noncomputable def raiseK : Fin (toNet hc).controlCount → ℝ := (![10] : Fin 1 → ℝ)

theorem finite_k (new : Vec) : (toNet hc).Finite new := by
  intro k dx d r n h
  have : ∀ k : Fin 1, (toNet hc).edge k = .gas .compressor 0 := by
    intro k
    rw [Subsingleton.elim k 0]
    rfl
  rw [this k] at h
  injection h with h
  cases h

theorem residual_k (s : ℝ) (x y : Fin (toNet hc).stateCount → ℝ) (c : Fin (toNet hc).controlCount → ℝ)
    {t : ℝ} (h0 : 0 ≤ t) (h1 : t ≤ 3600) : (toNet hc).residual s t (x, y, c) =
      Res.ok (![ext y 0 - 60, ext y 2 - ext y 0 - ext c 0, ext y 3 - ext y 1, 5 - ext y 3] : Fin 4 → ℝ) := by
  have ha : one ⟨[0, 3600], 1, [60, 60]⟩ t = Res.ok (60, 0) := by have := boundary_at 60 h0 h1; push_cast at this; exact this
  have hb : one ⟨[0, 3600], 1, [-5, -5]⟩ t = Res.ok (-5, 0) := by have := boundary_at (-5) h0 h1; push_cast at this; exact this
  have h : (toNet hc).evaluate s t ((toNet hc).args (x, y, c)) = Res.ok [.set 3 (-1 * (-5)),
      .inc 3 (-1 * ext y 3), .set 0 (ext y 0 - 60), .set 1 (ext y 2 - ext y 0 - ext c 0), .set 2 (ext y 3 - ext y 1 - 0)] := by
    have h0 : (toNet hc).nodeEvaluate (1 : Fin 2) t ((toNet hc).args (x, y, c)) = Res.ok [.set 0 (ext y 0 - 60)] := by
      show (one ⟨[0, 3600], 1, [60, 60]⟩ t).bind _ = _
      rw [ha]
      rfl
    have h1 : (toNet hc).nodeEvaluate (0 : Fin 2) t ((toNet hc).args (x, y, c)) =
        Res.ok [.set 3 (-1 * (-5)), .inc 3 (-1 * ext y 3)] := by
      show (one ⟨[0, 3600], 1, [-5, -5]⟩ t).bind _ = _
      rw [hb]
      rfl
    have hn : forEach (List.finRange (toNet hc).nodes) (fun v => (toNet hc).nodeEvaluate v t ((toNet hc).args (x, y, c))) =
        Res.ok [.set 3 (-1 * (-5)), .inc 3 (-1 * ext y 3), .set 0 (ext y 0 - 60)] := by
      show ((toNet hc).nodeEvaluate (0 : Fin 2) t ((toNet hc).args (x, y, c))).bind (fun a =>
        (((toNet hc).nodeEvaluate (1 : Fin 2) t ((toNet hc).args (x, y, c))).bind fun b => Res.ok (b ++ [])).bind fun b =>
          Res.ok (a ++ b)) = _
      rw [h0, h1]
      rfl
    unfold Net.evaluate
    rw [hn]
    rfl
  unfold Net.residual
  rw [h, Res.ok_bind]
  congr 1
  show (fun i : Fin 4 => _) = _
  funext i
  fin_cases i <;> simp [Net.run, Op.apply]
  ring

theorem entry_k (j : ℕ) (h : j < 4) : ext (stateK hc) (j : ℤ) = (![60, 5, 70, 5] : Fin 4 → ℝ) ⟨j, h⟩ := by
  unfold ext
  rw [dif_pos ⟨by omega, by show _ < 4; omega⟩]
  rfl

theorem raise_k : ext (raiseK hc) 0 = 10 := by
  unfold ext
  rw [dif_pos ⟨by omega, by show (0 : ℕ) < 1; omega⟩]
  rfl

theorem norm_k (lu) (s : ℝ) {t : ℝ} (h0 : 0 ≤ t) (h1 : t ≤ 3600) :
    ((toNet hc).system lu s t (some (stateK hc)) (raiseK hc)).normY
      (((toNet hc).system lu s t (some (stateK hc)) (raiseK hc)).evaluate (some (stateK hc))) = some 0 := by
  have e0 := entry_k hc 0 (by norm_num)
  have e1 := entry_k hc 1 (by norm_num)
  have e2 := entry_k hc 2 (by norm_num)
  have e3 := entry_k hc 3 (by norm_num)
  have e4 := raise_k hc
  simp only [Nat.cast_ofNat, Nat.cast_zero, Nat.cast_one] at e0 e1 e2 e3
  have hev : ((toNet hc).system lu s t (some (stateK hc)) (raiseK hc)).evaluate (some (stateK hc)) =
      some (fun _ : Fin 4 => (0 : ℝ)) := by
    simp only [Net.system, if_pos (finite_k hc _), residual_k _ _ _ _ _ h0 h1, e0, e1, e2, e3, e4]
    congr 1
    funext i
    revert i
    show ∀ i : Fin 4, _
    intro i
    fin_cases i <;> norm_num
  rw [hev]
  show some (Real.sqrt (∑ i : Fin 4, (0 : ℝ) ^ 2)) = _
  simp

theorem solve_k (lu) (s : ℝ) {t : ℝ} (h0 : 0 ≤ t) (h1 : t ≤ 3600) (full : Bool) :
    solve ((toNet hc).system lu s t (some (stateK hc)) (raiseK hc)) 0.001 5 full 10 (some (stateK hc)) =
      some (Res.ok (some (stateK hc), ⟨true, some 0, 0⟩)) := by
  unfold solve
  simp only [norm_k hc lu s h0 h1]
  rw [if_pos (by simp [le]; norm_num)]

theorem initial_state_k : (entriesOf [60, 5, 70, 5] : Fin (toNet hc).stateCount → ℝ) = stateK hc := by
  show (fun i : Fin 4 => _) = _
  funext i
  fin_cases i <;> rfl

theorem controlsAt_k {t : ℝ} (h0 : 0 ≤ t) (h1 : t ≤ 60) : controlsAt (N := toNet hc) [0, 60] [10, 10] t = Res.ok (raiseK hc) := by
  refine Res.bind_eq_ok.mpr ⟨[10], ?_, ?_⟩
  · have := constant_value (fun _ => 0) 10 (T := 60) (t := t) (by norm_num) h0 (by simpa using h1)
    push_cast at this
    exact this
  · congr 1
    show (fun i : Fin 1 => _) = _
    funext i
    rw [Subsingleton.elim i 0]
    rfl

theorem simulate_k (lu : Solve) : (simulate settingsC.retries settingsC.simplified
    (newtonSolver (fun a b x c => (toNet hc).system (lu (toNet hc) a b x c) a b x c) settingsC.tolerance settingsC.iterations 10)
    (controlsAt (N := toNet hc) [0, 60] [10, 10]) [0, 60] (some (entriesOf [60, 5, 70, 5]))).1 =
      Res.ok [some (stateK hc), some (stateK hc)] := by
  have h1 := controlsAt_k hc (t := 60) (by norm_num) le_rfl
  have h2 := fun u s => solve_k hc u s (t := 60) (by norm_num) (by norm_num)
  rw [initial_state_k]
  simp [simulate, loop, makeOneStep, attempts, newtonSolver, h2, h1, settingsC]

theorem weights_k : weights [(0 : ℝ), 60] = Res.ok [30, 30] := by
  obtain ⟨w, h1, h2, h3⟩ := weights_eq [(0 : ℝ), 60] (by simp)
  match w, h2 with
  | [a, b], _ =>
    have e1 := h3 0 (by simp) (by simp)
    have e2 := h3 1 (by simp) (by simp)
    simp at e1 e2
    rw [h1, e1, e2]
    norm_num

theorem pairs_k : computeIndexLambdaVector [(0 : ℝ), 60] [0, 60] = Res.ok [(0, 1), (1, 1)] := by
  have h1 : computeIndexLambda [(0 : ℝ), 60] 0 = Res.ok (0, 1) := by
    have hl : lowerBound [(0 : ℝ), 60] 0 = 0 := by simp [lowerBound, List.findIdx_cons]
    unfold computeIndexLambda
    simp only [List.getLast?_cons_cons, List.getLast?_singleton, hl]
    rw [if_neg (by norm_num)]
    rfl
  have h2 : computeIndexLambda [(0 : ℝ), 60] 60 = Res.ok (1, 1) := by
    have hl : lowerBound [(0 : ℝ), 60] 60 = 1 := by norm_num [lowerBound, List.findIdx_cons]
    unfold computeIndexLambda
    simp only [List.getLast?_cons_cons, List.getLast?_singleton, hl]
    rw [if_neg (by norm_num)]
    simp [Res.get]
  simp [computeIndexLambdaVector, h1, h2]

noncomputable def statesK (lu : Solve) (x : List ℝ) : Res (List (Option (Fin (toNet hc).stateCount → ℝ))) :=
  (simulate settingsC.retries settingsC.simplified
    (newtonSolver (fun a b x c => (toNet hc).system (lu (toNet hc) a b x c) a b x c) settingsC.tolerance settingsC.iterations 10)
    (controlsAt (N := toNet hc) [0, 60] x) [0, 60] (some (entriesOf [60, 5, 70, 5]))).1

noncomputable def problemK (lu : Solve) : Nlp where
  times := [0, 60]
  controlTimes := [0, 60]
  constraintTimes := [60]
  controls := (toNet hc).controlCount
  constraints := (goals hc topologyK).count
  start := [10, 10]
  lower := [0, 0]
  upper := [30, 30]
  constraintLower := [40]
  constraintUpper := [80]
  jacobian := ⟨(goals hc topologyK).count, (toNet hc).controlCount, 0 :: makeDataLoop [(60 : ℝ)] [60] 0 1 0⟩
  simulation x := if x.length = (toNet hc).controlCount * [(0 : ℝ), 60].length then do
      let z ← statesK hc lu x
      Res.ok (z.map (Option.map ext))
    else Res.ub
  objective x := if x.length = (toNet hc).controlCount * [(0 : ℝ), 60].length then do
      let z ← statesK hc lu x
      objectiveOf (goals hc topologyK) [0, 60] [0, 60] x [30, 30] z
    else Res.ub
  constraintValues x := if x.length = (toNet hc).controlCount * [(0 : ℝ), 60].length then do
      let z ← statesK hc lu x
      constraintsOf (goals hc topologyK) [0, 60] [0, 60] [60] x z
    else Res.throws
  derivatives oob x := if x.length = (toNet hc).controlCount * [(0 : ℝ), 60].length then do
      let z ← statesK hc lu x
      derivativesOf (goals hc topologyK) [0, 60] [0, 60] [60] x [30, 30] [(0, 1), (1, 1)]
        ⟨(goals hc topologyK).count, (toNet hc).controlCount, 0 :: makeDataLoop [(60 : ℝ)] [60] 0 1 0⟩ oob z
    else Res.ub

/-- The problem, and its functions where the compressor always raises the pressure by 10 bar. -/
theorem optimization_k (draws : Json → Res (ℝ → Res (ℝ × ℝ))) (mem : ℕ → ℝ) (lu : Solve) :
    optimization draws mem lu 10 settingsC 1 filesK boundsK = Res.ok (problemK hc lu) ∧
      (problemK hc lu).simulation [10, 10] = Res.ok [some (ext (stateK hc)), some (ext (stateK hc))] ∧
      (problemK hc lu).objective [10, 10] = Res.ok 3000 ∧ (problemK hc lu).constraintValues [10, 10] = Res.ok [some 70] := by
  have hstart := set_edge hc mem (q := 10) (by decide +kernel) (by decide +kernel)
  have hlower := set_edge hc mem (q := 0) (by decide +kernel) (by decide +kernel)
  have hupper := set_edge hc mem (q := 30) (by decide +kernel) (by decide +kernel)
  have hklower := set_node hc mem (q := 40) (by decide +kernel) (by decide +kernel)
  have hkupper := set_node hc mem (q := 80) (by decide +kernel) (by decide +kernel)
  push_cast at hstart hlower hupper hklower hkupper
  have hsel : selectConstraintTimes [(0 : ℝ), 60] 1 = Res.ok [60] := rfl
  have hcheck : checkConstraintTimes [(0 : ℝ), 60] [60] = Res.ok () := by
    obtain ⟨cons, h1, -, -, -, h2⟩ := C20_selection [(0 : ℝ), 60] 1 (by simp) (by simp)
    rw [hsel] at h1
    injection h1 with h1
    subst h1
    exact h2
  have htimes : checkTimes [0, 60] [0, 60] [60] = Res.ok () := by
    have := EPSILON_pos (K := ℝ)
    unfold checkTimes
    simp [this.le]
  obtain ⟨_, hadm, -⟩ := C100_partial rfl shaped_k.1.1 shaped_k.1.2 shaped_k.2.1 shaped_k.2.2 (read_k draws mem) fit_k
  refine ⟨?_, ?_⟩
  · unfold optimization
    refine Res.bind_eq_ok.mpr ⟨_, grid_c, Res.bind_eq_ok.mpr ⟨_, read_k draws mem, ?_⟩⟩
    rw [dif_pos hc]
    refine Res.bind_eq_ok.mpr ⟨_, setup_k hc, Res.bind_eq_ok.mpr ⟨_, initial_k hc mem, ?_⟩⟩
    simp only
    rw [if_pos (show 0 < (toNet hc).controlCount from Nat.zero_lt_one)]
    refine Res.bind_eq_ok.mpr ⟨_, grid_c, Res.bind_eq_ok.mpr ⟨_, hstart, Res.bind_eq_ok.mpr ⟨_, hsel, Res.bind_eq_ok.mpr ⟨_, hlower,
      Res.bind_eq_ok.mpr ⟨_, hupper, Res.bind_eq_ok.mpr ⟨_, hklower, Res.bind_eq_ok.mpr ⟨_, hkupper, Res.bind_eq_ok.mpr ⟨_, pairs_k,
      Res.bind_eq_ok.mpr ⟨_, weights_k, Res.bind_eq_ok.mpr ⟨_, rfl, Res.bind_eq_ok.mpr ⟨(), rfl, Res.bind_eq_ok.mpr ⟨(), ?_,
      Res.bind_eq_ok.mpr ⟨(), ?_, Res.bind_eq_ok.mpr ⟨(), ?_, Res.bind_eq_ok.mpr ⟨(), rfl, Res.bind_eq_ok.mpr ⟨(), rfl,
      Res.bind_eq_ok.mpr ⟨(), htimes, Res.bind_eq_ok.mpr ⟨(), hcheck, rfl⟩⟩⟩⟩⟩⟩⟩⟩⟩⟩⟩⟩⟩⟩⟩⟩⟩⟩
    all_goals simp [Read.ensure, haveSameStructure]
  · have hs : statesK hc lu [10, 10] = Res.ok [some (stateK hc), some (stateK hc)] := simulate_k hc lu
    have hl : [(10 : ℝ), 10].length = (toNet hc).controlCount * [(0 : ℝ), 60].length := rfl
    unfold problemK
    refine ⟨?_, ?_, ?_⟩ <;> simp only <;> rw [if_pos hl, hs, Res.ok_bind]
    · rfl
    · rw [objective_eq (c := fun _ => raiseK hc) ⟨fun _ => rfl, rfl⟩ (by simp) weights_k rfl (by
        intro i h1 h2
        have : i = 1 := by simp at h2; omega
        subst this
        exact controlsAt_k hc (by norm_num) le_rfl)]
      have hsum : (∑ k : Fin (toNet hc).edges, if ((toNet hc).edge k).isCompressor then
          ext (raiseK hc) ((toNet hc).controlRange k).1 ^ 2 else 0) = 100 := by
        show (∑ k : Fin 1, _) = _
        rw [Fin.sum_univ_one]
        show (if true = true then ext (raiseK hc) 0 ^ 2 else 0) = _
        rw [raise_k]
        norm_num
      simp only [hsum]
      unfold trapezoid
      norm_num
    · have hG : (goals hc topologyK).Attached := by
        show ∀ v : Fin 2, _
        intro v hv
        fin_cases v
        · exact ⟨rfl, by show [_] ≠ []; simp⟩
        · cases hv
      obtain ⟨values, h1, h2, h3⟩ := constraints_eq hadm (goals hc topologyK) hG (times := [0, 60]) (cgrid := [0, 60]) (ktimes := [60])
        (x := [10, 10]) (states := [some (stateK hc), some (stateK hc)]) (by simp) (by simp) rfl (by
          intro t ht
          exact controls_ok rfl (by simp) (by simp) (by simp at ht ⊢; rcases ht with rfl | rfl <;> norm_num)
            (by have := EPSILON_pos (K := ℝ); simp at ht ⊢; rcases ht with rfl | rfl <;> linarith))
      rw [h1]
      congr 1
      rw [count_k] at h2
      match values, h2 with
      | [a], _ =>
        have := h3 (0 : Fin 2) rfl 0 1 (by simp) rfl (stateK hc) rfl
        have e : [a][0]? = some (some (ext (stateK hc) 2)) := this
        have e2 := entry_k hc 2 (by norm_num)
        simp only [Nat.cast_ofNat] at e2
        rw [e2] at e
        simpa using e

/-- C104 applies to the files: bounds, objective and constraint of the problem. -/
example (draws : Json → Res (ℝ → Res (ℝ × ℝ))) (hdraw : ∀ data, draws data = Res.throws) (mem : ℕ → ℝ) (lu : Solve) :
    ∃ P, optimization draws mem lu 10 settingsC 1 filesK boundsK = Res.ok P ∧ P.upper = [30, 30] ∧ P.constraintUpper = [80] ∧
      P.objective [10, 10] = Res.ok 3000 ∧ P.constraintValues [10, 10] = Res.ok [some 70] ∧
      ∃ hc : Consistent graphK, ∃ pos, Poses hc settingsC 1 filesK boundsK pos P := by
  obtain ⟨hc, -⟩ := C100_partial rfl shaped_k.1.1 shaped_k.1.2 shaped_k.2.1 shaped_k.2.2 (read_k draws mem) fit_k
  obtain ⟨hP, -, h3, h4⟩ := optimization_k hc draws mem lu
  obtain ⟨g, hc', hg, -, pos, h⟩ := C104_problem (f := filesK) (s := settingsC) rfl shaped_k.1.1 shaped_k.1.2 shaped_k.2.1 shaped_k.2.2
    fit_k (by norm_num [settingsC]) (by norm_num [settingsC]) (by norm_num [settingsC])
    (fun t h0 h1 => covers_k h0 (h1.trans (by norm_num [settingsC]))) (by intro data d hd; rw [hdraw] at hd; cases hd) hP
  have hg' : readNet draws mem filesK.defaults filesK.topology filesK.boundary = Res.ok graphK := read_k draws mem
  rw [hg'] at hg
  injection hg with hg
  subst hg
  exact ⟨_, hP, rfl, rfl, h3, h4, hc', pos, h⟩

/-- C103 for optimizations applies to the files: with any other contents of memory, the same problem is set up. -/
example (draws : Json → Res (ℝ → Res (ℝ × ℝ))) (mem mem' : ℕ → ℝ) (lu : Solve) :
    ∃ P, optimization draws mem lu 10 settingsC 1 filesK boundsK = Res.ok P ∧
      optimization draws mem' lu 10 settingsC 1 filesK boundsK = Res.ok P := by
  obtain ⟨hc, -⟩ := C100_partial rfl shaped_k.1.1 shaped_k.1.2 shaped_k.2.1 shaped_k.2.2 (read_k draws mem) fit_k
  obtain ⟨hP, -⟩ := optimization_k hc draws mem lu
  exact ⟨_, hP, (C103_optimization draws mem' mem lu 10 settingsC 1 filesK boundsK shaped_k.1.1 shaped_k.1.2).trans hP⟩

end Verif.Read
