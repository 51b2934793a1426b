import Verif.Read.Memory
import Verif.Read.EndToEndExample

/-!
# C102: a run of the program

A compressor between a node with pressure 60 bar and a sink of 5 raises the pressure by 10 bar.
-/

set_option autoImplicit false

namespace Verif.Read

open Verif.Json Verif.Factory Verif.Interp Verif.Schema Verif.Initial Verif.Times

def edgeC : Json := obj [("from", str "a"), ("id", str "c"), ("to", str "b")]

def topologyC : Json := obj [
  ("connections", obj [("Compressorstation", arr [edgeC])]),
  ("nodes", obj [("Pressureboundarynode", arr [obj [("id", str "a")]]), ("Sink", arr [obj [("id", str "b")]])])]

def edgesC : Json := obj [("Compressorstation", arr [edgeC])]

def initialEntry : Json := obj [("data", arr [obj [("values", arr [num 60, num 5]), ("x", num 0)],
  obj [("values", arr [num 70, num 5]), ("x", num 1)]]), ("id", str "c")]

def initialC : Json := obj [("connections", obj [("Compressorstation", arr [initialEntry])])]

def controlEntry : Json := obj [("data", arr [obj [("time", num 0), ("values", arr [num 10])],
  obj [("time", num 3600), ("values", arr [num 10])]]), ("id", str "c")]

def controlC : Json := obj [("connections", obj [("Compressorstation", arr [controlEntry])])]

def filesC : Files := ⟨obj [], topologyC, boundaryS, initialC, controlC⟩

noncomputable def settingsC : Settings := ⟨0, 60, 60, none, 0.001, 5, 1, true⟩

/-! ## Reading -/

theorem full_c : buildFull topologyC boundaryS = Res.ok (obj [("connections", edgesC), ("nodes", nodesS)]) :=
  is_ok (n := 20) (by decide +kernel)

theorem prepare_c : prepareN 20 edgeSchema none (obj []) edgeC = Res.ok edgeC :=
  is_ok (n := 20) (by decide +kernel)

/-- The network that is read. -/
noncomputable def graphC : Graph Network.Node Network.EdgeKind :=
  ⟨[⟨"a", ⟨.pressure, one ⟨[0, 3600], 1, [60, 60]⟩, 0, 0⟩, [0], []⟩,
    ⟨"b", ⟨.flow, one ⟨[0, 3600], 1, [-5, -5]⟩, 0, 0⟩, [], [0]⟩],
   [⟨"c", .gas .compressor 0, 0, 1⟩]⟩

theorem read_c (draws : Json → Res (ℝ → Res (ℝ × ℝ))) (mem : ℕ → ℝ) :
    readNet draws mem (obj []) topologyC boundaryS = Res.ok graphC := by
  let xa : Node Network.Node := ⟨"a", ⟨.pressure, one ⟨[0, 3600], 1, [60, 60]⟩, 0, 0⟩, [], []⟩
  let xb : Node Network.Node := ⟨"b", ⟨.flow, one ⟨[0, 3600], 1, [-5, -5]⟩, 0, 0⟩, [], []⟩
  let na : ComponentType Network.Node := ⟨idSchema, some (boundaryOf 1), obj [], pressureNode mem⟩
  let nb : ComponentType Network.Node := ⟨idSchema, some (boundaryOf 1), obj [], sink mem⟩
  let es : ComponentType Network.EdgeKind := ⟨edgeSchema, none, obj [], short .compressor⟩
  have ma : makeNode accepts na nodeSA = Res.ok xa := makeNode_of prepare_sa rfl (construct_sa mem)
  have mb : makeNode accepts nb nodeSB = Res.ok xb := makeNode_of prepare_sb rfl (construct_sb mem)
  have ms : makeEdge accepts es ⟨[xa, xb], []⟩ edgeC = Res.ok graphC :=
    makeEdge_of (u := 0) (v := 1) prepare_c rfl rfl rfl rfl rfl (by decide) rfl
  have na' : Res.each [nodeSA] (makeNode accepts na) = _ := Res.each_eq_ok.mpr (.cons ma .nil)
  have nb' : Res.each [nodeSB] (makeNode accepts nb) = _ := Res.each_eq_ok.mpr (.cons mb .nil)
  refine readNet_of (nodes := [_, _, _, _, _, ("Pressureboundarynode", na), ("Sink", nb), _, _, _])
    (edges := [("Compressorstation", es), _, _, _, _, _]) (vs := [[], [], [], [], [], [xa], [xb], [], [], []])
    rfl rfl full_c (nj := nodesS) (ej := edgesC) rfl rfl rfl rfl ?_ ?_ rfl
  · exact .cons rfl (.cons rfl (.cons rfl (.cons rfl (.cons rfl (.cons na' (.cons nb' (.cons rfl (.cons rfl (.cons rfl
      .nil)))))))))
  · exact fold_cons_of (fold_cons_of ms rfl) (fold_cons_of rfl (fold_cons_of rfl (fold_cons_of rfl (fold_cons_of rfl
      (fold_cons_of rfl rfl)))))

theorem shaped_c : Shaped topologyC ∧ DistinctTypes topologyC := shaped_of (by decide +kernel)

theorem fit_c : Fit (obj []) topologyC := by
  have one : ∀ {e}, e ∈ entries (types topologyC "connections") → e = ("Compressorstation", edgeC) :=
    fun h => List.mem_singleton.mp h
  have no : ∀ {j}, ("Pipe", j) ∉ entries (types topologyC "connections") := fun h => by
    have := (Prod.mk.inj (one h)).1
    revert this
    decide
  refine ⟨fun e he => ?_, fun j hj => absurd hj no, fun j hj => absurd hj no⟩
  rw [one he]
  exact ⟨"a", "b", "Pressureboundarynode", "Sink", rfl, rfl, ⟨_, List.mem_cons_self, rfl⟩,
    ⟨_, List.mem_cons_of_mem _ (List.mem_singleton.mpr rfl), rfl⟩, by unfold Allowed; decide⟩

theorem covers_c {t : ℝ} (h0 : 0 ≤ t) (h1 : t ≤ 3600) : Covers (obj []) topologyC boundaryS t :=
  ⟨(covers_s h0 h1).listed, (covers_s h0 h1).only⟩

theorem grid_c : stateGrid (0 : ℝ) 60 60 = Res.ok [0, 60] := by
  obtain ⟨grid, h1, h2, h3⟩ := (C26_grid_partial (0 : ℝ) 60 60).1 (by norm_num) (by norm_num)
  rw [h1]
  have hn : numberOfTimesteps (0 : ℝ) 60 60 = Res.ok 2 := by
    unfold numberOfTimesteps
    rw [if_neg (by norm_num)]
    norm_num
  rw [hn] at h3
  injection h3 with h3
  have hl : grid.length = 2 := by omega
  match grid, hl with
  | [a, b], _ =>
    obtain ⟨-, h4, h5, -⟩ := h2
    simp at h4 h5
    subst h4 h5
    rfl

theorem described_c : Describes "x" initialEntry [(0, [60, 5]), (1, [70, 5])] :=
  ⟨_, _, rfl, rfl, .cons ⟨rfl, rfl⟩ (.cons ⟨rfl, rfl⟩ .nil)⟩

theorem flat_initial (mem : ℕ → ℝ) : constructFromJson mem (Gas.real [(0, [60, 5]), (1, [70, 5])]) =
    Res.ok ⟨[0, 1], 2, [60, 5, 70, 5]⟩ := by
  rw [Gas.construct_flat (n := 2) mem _ (by simp [Gas.real]) (by simp [Gas.real])]
  simp [Gas.real]

theorem read_initial (mem : ℕ → ℝ) : readInitial mem shortSchema initialEntry = Res.ok ⟨[0, 1], 2, [60, 5, 70, 5]⟩ := by
  obtain ⟨s, hs⟩ := shortSchema_ok
  unfold readInitial Gas.readVector
  rw [hs, Res.ok_bind, if_pos ((C77_short hs _).mpr ⟨60, 5, 70, 5, .inl described_c⟩)]
  obtain ⟨_, es, -, hd, he⟩ := described_c
  rw [index_of_find hd, Res.ok_bind]
  match es, he with
  | _ :: _, .cons h3 h4 =>
    have e1 := each_point (.cons h3 h4)
    simp only [contains, h3.1, Option.isSome_some, if_true, e1, Res.ok_bind]
    exact flat_initial mem

theorem read_control (mem : ℕ → ℝ) : Gas.readVector (accepts (boundaryOf 1)) mem controlEntry =
    Res.ok ⟨[0, 3600], 1, [10, 10]⟩ := by
  rw [readVector_of (n := 20) (l := [(0, [10]), (3600, [10])]) mem (k := 1) (b := controlEntry) (by decide +kernel) rfl
    (.cons ⟨rfl, rfl, rfl⟩ (.cons ⟨rfl, rfl, rfl⟩ .nil)) (by simp) (by simp)]
  simp

open Network Net Newton Evolve

variable (hc : Consistent graphC)

theorem setup_c : (toNet hc).setup = Res.ok () := by
  unfold Net.setup
  refine if_pos ⟨fun v hv => ?_, fun k a b n h => ?_⟩
  · exfalso
    revert v
    show ∀ v : Fin 2, _
    intro v hv
    fin_cases v <;> cases hv
  · exfalso
    revert k
    show ∀ k : Fin 1, _
    intro k h
    rw [Subsingleton.elim k 0] at h
    injection h with h
    cases h

theorem components_c (mem : ℕ → ℝ) : stateComponents hc mem = [⟨"c", 0, 4, 2, 1, Res.ok, readInitial mem shortSchema⟩] := rfl

theorem controls_c (mem : ℕ → ℝ) : controlComponents hc mem = [⟨"c", 0, Gas.readVector (accepts (boundaryOf 1)) mem⟩] := rfl

theorem point_c (mem : ℕ → ℝ) {x a b : ℚ} (h : (x, [a, b]) ∈ [((0 : ℚ), [(60 : ℚ), 5]), (1, [70, 5])]) :
    eval (⟨[0, 1], 2, [60, 5, 70, 5]⟩ : IV ℝ) x = Res.ok [(a : ℝ), (b : ℝ)] := by
  obtain ⟨r, h1, h2, h3, h4⟩ := eval_valueAt (k := 2) (by simp) (by simp) (by simp) (flat_initial mem) (valueAt_listed h)
  rw [h1, two_of h2 h3 h4]

theorem initial_c (mem : ℕ → ℝ) :
    setInitialValues (stateComponents hc mem) (uninit mem (toNet hc).stateCount) initialC = Res.ok [60, 5, 70, 5] := by
  rw [components_c]
  have h0 := point_c mem (x := 0) (a := 60) (b := 5) (by simp)
  have h1 := point_c mem (x := 1) (a := 70) (b := 5) (by simp)
  push_cast at h0 h1
  have hset : setInitial (⟨"c", 0, 4, 2, 1, Res.ok, readInitial mem shortSchema⟩ : StateComponent ℝ)
      [mem 0, mem 1, mem 2, mem 3] initialEntry = Res.ok [60, 5, 70, 5] := by
    unfold setInitial
    simp only [read_initial, Res.ok_bind]
    rw [if_neg (by decide)]
    simp only [setPoints, Nat.cast_zero, zero_mul, h0, Res.ok_bind, zero_add, Nat.cast_one, one_mul, h1]
    rfl
  have hcheck : checkComponents ["c"] initialC = Res.ok [] := by decide +kernel
  refine Res.bind_eq_ok.mpr ⟨[], hcheck, fold_cons_of ?_ rfl⟩
  exact hset

theorem control_value (mem : ℕ → ℝ) {T : ℚ} (hT : 0 < T) {t : ℝ} (h0 : 0 ≤ t) (h1 : t ≤ T) :
    eval (⟨[0, (T : ℝ)], 1, [10, 10]⟩ : IV ℝ) t = Res.ok [10] := by
  have hcon : constructFromJson mem (Gas.real [(0, [10]), (T, [10])]) = Res.ok ⟨[0, (T : ℝ)], 1, [10, 10]⟩ := by
    rw [Gas.construct_flat (n := 1) mem _ (by simp [Gas.real]) (by simp [Gas.real])]
    simp [Gas.real]
  obtain ⟨r, h1, h2, h3, -⟩ := eval_valueAt (k := 1) (by simp) (by simp) (by simpa using hT) hcon (t := t) (b := (10, 0))
    (.inr ⟨0, by simp, by simpa using h0, by simpa using h1, by simp [listed]⟩)
  rw [h1]
  match r, h2 with
  | [x], _ =>
    have := h3 (by decide)
    simp at this
    rw [this]

theorem set_controls (mem : ℕ → ℝ) : setInitialControls (controlComponents hc mem)
    ⟨[0, 60], (toNet hc).controlCount, uninit mem ((toNet hc).controlCount * [(0 : ℝ), 60].length)⟩ controlC =
    Res.ok ⟨[0, 60], 1, [10, 10]⟩ := by
  rw [controls_c]
  have h0 := control_value mem (T := 3600) (t := 0) (by norm_num) le_rfl (by norm_num)
  have h1 := control_value mem (T := 3600) (t := 60) (by norm_num) (by norm_num) (by norm_num)
  push_cast at h0 h1
  have hset : setControl (⟨"c", 0, Gas.readVector (accepts (boundaryOf 1)) mem⟩ : ControlComponent ℝ)
      ⟨[0, 60], 1, [mem 0, mem 1]⟩ controlEntry = Res.ok ⟨[0, 60], 1, [10, 10]⟩ := by
    unfold setControl
    simp only [read_control, Res.ok_bind, setTimes, h0, h1]
    rfl
  have hcheck : checkComponents ["c"] controlC = Res.ok [] := by decide +kernel
  exact Res.bind_eq_ok.mpr ⟨[], hcheck, fold_cons_of hset rfl⟩

/-- Pressure and flow at both ends. -/
noncomputable def stateC : Fin (toNet hc).stateCount → ℝ := (![60, 5, 70, 5] : Fin 4 → ℝ)

noncomputable def raiseC : Fin (toNet hc).controlCount → ℝ := (![10] : Fin 1 → ℝ)

theorem setup_controls (mem : ℕ → ℝ) : ∃ controls, setupControls hc mem settingsC [0, 60] controlC = Res.ok ([0, 60], controls) ∧
    controls 60 = Res.ok (raiseC hc) := by
  unfold setupControls
  rw [if_pos (show 0 < (toNet hc).controlCount from Nat.zero_lt_one)]
  refine ⟨_, Res.bind_eq_ok.mpr ⟨[0, 60], grid_c, Res.bind_eq_ok.mpr ⟨_, set_controls hc mem, rfl⟩⟩, ?_⟩
  refine Res.bind_eq_ok.mpr ⟨[10], ?_, ?_⟩
  · have := control_value mem (T := 60) (t := 60) (by norm_num) (by norm_num) (by norm_num)
    push_cast at this
    exact this
  · congr 1
    show (fun i : Fin 1 => _) = _
    funext i
    rw [Subsingleton.elim i 0]
    rfl

theorem finite_c (new : Vec) : (toNet hc).Finite new := by
  intro k dx d r n h
  have : ∀ k : Fin 1, (toNet hc).edge k = .gas .compressor 0 := by
    intro k
    rw [Subsingleton.elim k 0]
    rfl
  rw [this k] at h
  injection h with h
  cases h

theorem residual_c (s : ℝ) (x y : Fin (toNet hc).stateCount → ℝ) (c : Fin (toNet hc).controlCount → ℝ) :
    (toNet hc).residual s 60 (x, y, c) =
      Res.ok (![ext y 0 - 60, ext y 2 - ext y 0 - ext c 0, ext y 3 - ext y 1, 5 - ext y 3] : Fin 4 → ℝ) := by
  have ha : one ⟨[0, 3600], 1, [60, 60]⟩ 60 = Res.ok (60, 0) := by have := boundary_s 60; push_cast at this; exact this
  have hb : one ⟨[0, 3600], 1, [-5, -5]⟩ 60 = Res.ok (-5, 0) := by have := boundary_s (-5); push_cast at this; exact this
  have h : (toNet hc).evaluate s 60 ((toNet hc).args (x, y, c)) = Res.ok [.set 0 (ext y 0 - 60), .set 3 (-1 * (-5)),
      .inc 3 (-1 * ext y 3), .set 1 (ext y 2 - ext y 0 - ext c 0), .set 2 (ext y 3 - ext y 1 - 0)] := by
    have h0 : (toNet hc).nodeEvaluate (0 : Fin 2) 60 ((toNet hc).args (x, y, c)) = Res.ok [.set 0 (ext y 0 - 60)] := by
      show (one ⟨[0, 3600], 1, [60, 60]⟩ 60).bind _ = _
      rw [ha]
      rfl
    have h1 : (toNet hc).nodeEvaluate (1 : Fin 2) 60 ((toNet hc).args (x, y, c)) =
        Res.ok [.set 3 (-1 * (-5)), .inc 3 (-1 * ext y 3)] := by
      show (one ⟨[0, 3600], 1, [-5, -5]⟩ 60).bind _ = _
      rw [hb]
      rfl
    have hn : forEach (List.finRange (toNet hc).nodes) (fun v => (toNet hc).nodeEvaluate v 60 ((toNet hc).args (x, y, c))) =
        Res.ok [.set 0 (ext y 0 - 60), .set 3 (-1 * (-5)), .inc 3 (-1 * ext y 3)] := by
      show ((toNet hc).nodeEvaluate (0 : Fin 2) 60 ((toNet hc).args (x, y, c))).bind (fun a =>
        (((toNet hc).nodeEvaluate (1 : Fin 2) 60 ((toNet hc).args (x, y, c))).bind fun b => Res.ok (b ++ [])).bind fun b =>
          Res.ok (a ++ b)) = _
      rw [h0, h1]
      rfl
    unfold Net.evaluate
    rw [hn]
    rfl
  unfold Net.residual
  rw [h, Res.ok_bind]
  congr 1
  show (fun i : Fin 4 => _) = _
  funext i
  fin_cases i <;> simp [Net.run, Op.apply]
  ring

theorem entry_c (j : ℕ) (h : j < 4) : ext (stateC hc) (j : ℤ) = (![60, 5, 70, 5] : Fin 4 → ℝ) ⟨j, h⟩ := by
  unfold ext
  rw [dif_pos ⟨by omega, by show _ < 4; omega⟩]
  rfl

theorem norm_c (lu) (s : ℝ) :
    ((toNet hc).system lu s 60 (some (stateC hc)) (raiseC hc)).normY
      (((toNet hc).system lu s 60 (some (stateC hc)) (raiseC hc)).evaluate (some (stateC hc))) = some 0 := by
  have e0 := entry_c hc 0 (by norm_num)
  have e1 := entry_c hc 1 (by norm_num)
  have e2 := entry_c hc 2 (by norm_num)
  have e3 := entry_c hc 3 (by norm_num)
  have e4 : ext (raiseC hc) 0 = 10 := by
    unfold ext
    rw [dif_pos ⟨by omega, by show (0 : ℕ) < 1; omega⟩]
    rfl
  simp only [Nat.cast_ofNat, Nat.cast_zero, Nat.cast_one] at e0 e1 e2 e3
  have hev : ((toNet hc).system lu s 60 (some (stateC hc)) (raiseC hc)).evaluate (some (stateC hc)) =
      some (fun _ : Fin 4 => (0 : ℝ)) := by
    simp only [Net.system, if_pos (finite_c hc _), residual_c, e0, e1, e2, e3, e4]
    congr 1
    funext i
    revert i
    show ∀ i : Fin 4, _
    intro i
    fin_cases i <;> norm_num
  rw [hev]
  show some (Real.sqrt (∑ i : Fin 4, (0 : ℝ) ^ 2)) = _
  simp

theorem solve_c (lu) (s : ℝ) (full : Bool) :
    solve ((toNet hc).system lu s 60 (some (stateC hc)) (raiseC hc)) 0.001 5 full 10 (some (stateC hc)) =
      some (Res.ok (some (stateC hc), ⟨true, some 0, 0⟩)) := by
  unfold solve
  simp only [norm_c]
  rw [if_pos (by simp [le]; norm_num)]

theorem initial_state : (entriesOf [60, 5, 70, 5] : Fin (toNet hc).stateCount → ℝ) = stateC hc := by
  show (fun i : Fin 4 => _) = _
  funext i
  fin_cases i <;> rfl

omit hc in
/-- The run succeeds. -/
theorem run_c (draws : Json → Res (ℝ → Res (ℝ × ℝ))) (mem : ℕ → ℝ) (lu : Solve) (hc : Consistent graphC) :
    run draws mem lu 10 settingsC filesC = Res.ok ([0, 60], [some (ext (stateC hc)), some (ext (stateC hc))]) := by
  obtain ⟨controls, h1, h2⟩ := setup_controls hc mem
  unfold run
  refine Res.bind_eq_ok.mpr ⟨_, grid_c, Res.bind_eq_ok.mpr ⟨_, read_c draws mem, ?_⟩⟩
  rw [dif_pos hc]
  refine Res.bind_eq_ok.mpr ⟨_, setup_c hc, Res.bind_eq_ok.mpr ⟨_, initial_c hc mem, Res.bind_eq_ok.mpr ⟨_, h1, ?_⟩⟩⟩
  rw [initial_state]
  refine Res.bind_eq_ok.mpr ⟨[some (stateC hc), some (stateC hc)], ?_, rfl⟩
  simp [simulate, loop, makeOneStep, attempts, newtonSolver, solve_c, h2, settingsC]

/-- C102 applies to the files: the run begins with the given state and after a minute the compressor raises the pressure by 10 bar. -/
example (draws : Json → Res (ℝ → Res (ℝ × ℝ))) (hdraw : ∀ data, draws data = Res.throws) (mem : ℕ → ℝ) (lu : Solve) :
    ∃ hc : Consistent graphC, Begins hc initialC (ext (stateC hc)) ∧
    ∃ c, ControlledBy hc controlC [0, 60] 60 c ∧ c 0 = 10 ∧
      Respects hc (obj []) topologyC boundaryS 0.001 0 60 ⟨ext (stateC hc), ext (stateC hc), c⟩ := by
  obtain ⟨hc, -⟩ := C100_partial rfl shaped_c.1 shaped_c.2 shaped_s.2.1 shaped_s.2.2 (read_c draws mem) fit_c
  have h := C102_run (f := filesC) (s := settingsC) rfl shaped_c.1 shaped_c.2 shaped_s.2.1 shaped_s.2.2 fit_c (by norm_num [settingsC])
    (by norm_num [settingsC]) (by norm_num [settingsC])
    (fun t h0 h1 => covers_c h0 (h1.trans (by norm_num [settingsC])))
    (by intro data d hd; rw [hdraw] at hd; cases hd) (run_c draws mem lu hc)
  obtain ⟨-, -, g, hc', hg, -, ⟨x, hx, hb⟩, cgrid, h1, h2⟩ := h
  have hg' : readNet draws mem filesC.defaults filesC.topology filesC.boundary = Res.ok graphC := read_c draws mem
  rw [hg'] at hg
  injection hg with hg
  subst hg
  obtain ⟨c, hcc, hr⟩ := h2 0 (by simp) (by simp) _ _ rfl rfl (finite_c hc _)
  have hgrid : cgrid = [0, 60] := h1 ⟨(0 : Fin 1), rfl⟩
  rw [hgrid] at hcc
  simp at hx
  subst hx
  refine ⟨hc, hb, c, hcc, ?_, hr⟩
  obtain ⟨e, ⟨before, after, he, -⟩, h⟩ := hcc (0 : Fin 1) rfl
  have hee : e = controlEntry := by
    have : e ∈ components controlC := by rw [show components controlC = _ from he]; simp
    exact List.mem_singleton.mp this
  subst hee
  have := h [(0, [10]), (3600, [10])] ⟨_, rfl, .cons ⟨rfl, rfl, rfl⟩ (.cons ⟨rfl, rfl, rfl⟩ .nil)⟩ (by simp) 0 (by simp)
    (by norm_num) (by norm_num) (10, 0) (10, 0) (.inl ⟨(0, [10]), by simp, by simp, by simp [listed]⟩)
    (.inr ⟨0, by simp, by simp, by norm_num, by simp [listed]⟩)
  rw [show ((toNet hc).controlRange (0 : Fin 1)).1 = 0 from rfl] at this
  rw [this]
  simp

/-- C103 applies to these files: the run of `run_c` does not depend on the memory. -/
example (draws : Json → Res (ℝ → Res (ℝ × ℝ))) (mem mem' : ℕ → ℝ) (lu : Solve) :
    run draws mem lu 10 settingsC filesC = run draws mem' lu 10 settingsC filesC ∧
      ∃ r, run draws mem lu 10 settingsC filesC = Res.ok r := by
  obtain ⟨hc, -⟩ := C100_partial rfl shaped_c.1 shaped_c.2 shaped_s.2.1 shaped_s.2.2 (read_c draws mem) fit_c
  exact ⟨C103_memory draws mem mem' lu 10 settingsC filesC shaped_c.1 shaped_c.2, _, run_c draws mem lu hc⟩

end Verif.Read
