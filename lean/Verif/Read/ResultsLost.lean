import Verif.Read.ResultsMain
import Verif.Read.RunExample

/-!
# C108 is false of the code, and examples for C108 and C109

A single node that takes the active power 1. Its boundary values begin after one minute, just when the first step of the simulation
ends.
-/

set_option autoImplicit false

namespace Verif.Read

open Verif.Json Verif.Factory Verif.Interp Verif.Schema Verif.Initial Verif.Times
open Verif.Output (Printed)

def topologyL : Json := obj [("connections", obj []),
  ("nodes", obj [("PQnode", arr [obj [("B", num 0), ("G", num 1), ("id", str "n")]])])]

def boundaryNL : Json := obj [("data", arr [obj [("time", num 60), ("values", arr [num 1, num 0])],
  obj [("time", num 3600), ("values", arr [num 1, num 0])]]), ("id", str "n")]

def boundaryL : Json := obj [("nodes", obj [("PQnode", arr [boundaryNL])])]

def initialNL : Json := obj [("data", arr [obj [("values", arr [num 1, num 0]), ("x", num 0)]]), ("id", str "n")]

def initialL : Json := obj [("nodes", obj [("PQnode", arr [initialNL])])]

def nodeL : Json := obj [("B", num 0), ("G", num 1), ("boundary_values", boundaryNL), ("id", str "n")]

def nodesL : Json := obj [("PQnode", arr [nodeL])]

def filesL : Files := ⟨obj [], topologyL, boundaryL, initialL, obj []⟩

/-! ## Reading -/

theorem full_l : buildFull topologyL boundaryL = Res.ok (obj [("connections", obj []), ("nodes", nodesL)]) :=
  is_ok (n := 20) (by decide +kernel)

theorem prepare_nl : prepareN 20 powerTopology (some (boundaryOf 2)) (obj []) nodeL = Res.ok nodeL :=
  is_ok (n := 20) (by decide +kernel)

theorem construct_nl (mem : ℕ → ℝ) :
    powerNode (.power .pq) mem nodeL = Res.ok ⟨.power .pq, two ⟨[60, 3600], 2, [1, 0, 1, 0]⟩, 1, 0⟩ := by
  have h := readVector_of (n := 20) (l := [(60, [1, 0]), (3600, [1, 0])]) mem (k := 2) (b := boundaryNL) (by decide +kernel) rfl
    (.cons ⟨rfl, rfl, rfl⟩ (.cons ⟨rfl, rfl, rfl⟩ .nil)) (by simp) (by simp)
  show ((Gas.readVector (accepts (boundaryOf 2)) mem boundaryNL).bind _) = _
  rw [h]
  show Res.ok _ = _
  simp

/-- The network that is read. -/
noncomputable def graphL : Graph Network.Node Network.EdgeKind :=
  ⟨[⟨"n", ⟨.power .pq, two ⟨[60, 3600], 2, [1, 0, 1, 0]⟩, 1, 0⟩, [], []⟩], []⟩

theorem read_l (draws : Json → Res (ℝ → Res (ℝ × ℝ))) (mem : ℕ → ℝ) :
    readNet draws mem (obj []) topologyL boundaryL = Res.ok graphL := by
  let xn : Node Network.Node := ⟨"n", ⟨.power .pq, two ⟨[60, 3600], 2, [1, 0, 1, 0]⟩, 1, 0⟩, [], []⟩
  let nn : ComponentType Network.Node := ⟨powerTopology, some (boundaryOf 2), obj [], powerNode (.power .pq) mem⟩
  have mn : makeNode accepts nn nodeL = Res.ok xn := makeNode_of prepare_nl rfl (construct_nl mem)
  have mn' : Res.each [nodeL] (makeNode accepts nn) = _ := Res.each_eq_ok.mpr (.cons mn .nil)
  refine readNet_of (nodes := [_, _, _, ("PQnode", nn), _, _, _, _, _, _])
    (edges := [_, _, _, _, _, _]) (vs := [[], [], [], [xn], [], [], [], [], [], []])
    rfl rfl full_l (nj := nodesL) (ej := obj []) rfl rfl rfl rfl ?_ ?_ rfl
  · exact .cons rfl (.cons rfl (.cons rfl (.cons mn' (.cons rfl (.cons rfl (.cons rfl (.cons rfl (.cons rfl (.cons rfl
      .nil)))))))))
  · exact fold_cons_of rfl (fold_cons_of rfl (fold_cons_of rfl (fold_cons_of rfl
      (fold_cons_of rfl (fold_cons_of rfl rfl)))))

theorem shaped_l : (Shaped topologyL ∧ DistinctTypes topologyL) ∧ Shaped boundaryL ∧ DistinctTypes boundaryL :=
  ⟨shaped_of (by decide +kernel), shaped_of (by decide +kernel)⟩

theorem consistent_l : Consistent graphL := by
  obtain ⟨nodes, edges, h1, h2, h3⟩ := readNet_ok (read_l (fun _ => Res.throws) fun _ => 0)
  exact C48_graph (proper_of h1 h2 shaped_l.1.1 shaped_l.1.2) h3

theorem fit_l : Fit (obj []) topologyL := by
  have no : ∀ {e}, e ∉ entries (types topologyL "connections") := List.not_mem_nil
  exact ⟨fun e he => absurd he no, fun j hj => absurd hj no, fun j hj => absurd hj no⟩

theorem covers_l {t : ℝ} (h0 : 60 ≤ t) (h1 : t ≤ 3600) : Covers (obj []) topologyL boundaryL t := by
  have one : ∀ {e}, e ∈ entries (types topologyL "nodes") → e = ("PQnode", obj [("B", num 0), ("G", num 1), ("id", str "n")]) :=
    fun h => List.mem_singleton.mp h
  have two : ∀ {e}, e ∈ entries (types boundaryL "nodes") → e = ("PQnode", boundaryNL) := fun h => List.mem_singleton.mp h
  refine ⟨fun name x hx _ _ _ e he _ => ?_, fun name x hx => ?_⟩
  · obtain ⟨-, rfl⟩ := Prod.mk.inj (two he)
    exact ⟨[(60, [1, 0]), (3600, [1, 0])], ⟨_, rfl, .cons ⟨rfl, rfl, rfl⟩ (.cons ⟨rfl, rfl, rfl⟩ .nil)⟩, by norm_num,
      ⟨_, List.mem_cons_self, by push_cast; exact h0⟩, _, List.mem_cons_of_mem _ List.mem_cons_self, by push_cast; exact h1⟩
  · obtain ⟨rfl, rfl⟩ := Prod.mk.inj (one hx)
    exact ⟨rfl, rfl⟩

theorem described_l : Describes "x" initialNL [(0, [1, 0])] := ⟨_, _, rfl, rfl, .cons ⟨rfl, rfl⟩ .nil⟩

theorem flat_l (mem : ℕ → ℝ) : constructFromJson mem (Gas.real [(0, [1, 0])]) = Res.ok ⟨[0], 2, [1, 0]⟩ := by
  rw [Gas.construct_flat (n := 2) mem _ (by simp [Gas.real]) (by simp [Gas.real])]
  simp [Gas.real]

theorem read_initial_l (mem : ℕ → ℝ) : readInitial mem singleSchema initialNL = Res.ok ⟨[0], 2, [1, 0]⟩ := by
  obtain ⟨s, hs⟩ := singleSchema_ok
  unfold readInitial Gas.readVector
  rw [hs, Res.ok_bind, if_pos ((C77_single hs _).mpr ⟨1, 0, described_l⟩)]
  obtain ⟨_, es, -, hd, he⟩ := described_l
  rw [index_of_find hd, Res.ok_bind]
  match es, he with
  | _ :: _, .cons h3 h4 =>
    have e1 := each_point (.cons h3 h4)
    simp only [contains, h3.1, Option.isSome_some, if_true, e1, Res.ok_bind]
    exact flat_l mem

open Network Net Newton Evolve

variable (hc : Consistent graphL)

theorem setup_l : (toNet hc).setup = Res.ok () := by
  unfold Net.setup
  refine if_pos ⟨fun v hv => ?_, fun k => k.elim0⟩
  exfalso
  revert v
  show ∀ v : Fin 1, _
  intro v hv
  rw [Subsingleton.elim v 0] at hv
  cases hv

theorem components_l (mem : ℕ → ℝ) : stateComponents hc mem = [⟨"n", 0, 2, 1, 1, Res.ok, readInitial mem singleSchema⟩] := rfl

theorem initial_l (mem : ℕ → ℝ) :
    setInitialValues (stateComponents hc mem) (uninit mem (toNet hc).stateCount) initialL = Res.ok [1, 0] := by
  rw [components_l]
  have h0 : eval (⟨[0], 2, [1, 0]⟩ : IV ℝ) 0 = Res.ok [1, 0] := by
    obtain ⟨r, h1, h2, h3, h4⟩ := eval_valueAt (k := 2) (by simp) (by simp) (by simp) (flat_l mem)
      (valueAt_listed (x := 0) (a := 1) (b := 0) (by simp))
    push_cast at h1 h3 h4
    rw [h1, two_of (b := (1, 0)) h2 (fun _ => h3 trivial) (fun _ => h4 trivial)]
  have hset : setInitial (⟨"n", 0, 2, 1, 1, Res.ok, readInitial mem singleSchema⟩ : StateComponent ℝ)
      [mem 0, mem 1] initialNL = Res.ok [1, 0] := by
    unfold setInitial
    simp only [read_initial_l, Res.ok_bind]
    rw [if_neg (by decide)]
    simp only [setPoints, Nat.cast_zero, zero_mul, h0, Res.ok_bind]
    rfl
  have hcheck : checkComponents ["n"] initialL = Res.ok [] := by decide +kernel
  refine Res.bind_eq_ok.mpr ⟨[], hcheck, fold_cons_of ?_ rfl⟩
  exact hset

/-! ## The run -/

/-- Voltage and angle. -/
noncomputable def stateL : Fin (toNet hc).stateCount → ℝ := (![1, 0] : Fin 2 → ℝ)

theorem boundary_l : two ⟨[60, 3600], 2, [1, 0, 1, 0]⟩ 60 = Res.ok (1, 0) := by
  unfold two eval
  norm_num [Interp.segment, Res.get, EPSILON]

theorem boundary_lost : two ⟨[60, 3600], 2, [1, 0, 1, 0]⟩ 0 = Res.throws := by
  unfold two eval
  norm_num [EPSILON]

theorem finite_l (new : Vec) : (toNet hc).Finite new := fun k => k.elim0

theorem residual_l (s : ℝ) (x : Fin (toNet hc).stateCount → ℝ) (c : Fin (toNet hc).controlCount → ℝ) :
    (toNet hc).residual s 60 (x, stateL hc, c) = Res.ok (0 : Fin 2 → ℝ) := by
  have e0 : ext (stateL hc) 0 = 1 := by
    unfold ext
    rw [dif_pos ⟨by omega, by show (0 : ℕ) < 2; omega⟩]
    rfl
  have h : (toNet hc).evaluate s 60 ((toNet hc).args (x, stateL hc, c)) = Res.ok [.set 0 0, .set 1 0] := by
    have h0 : (toNet hc).nodeEvaluate (0 : Fin 1) 60 ((toNet hc).args (x, stateL hc, c)) = Res.ok [.set 0 0, .set 1 0] := by
      show (two ⟨[60, 3600], 2, [1, 0, 1, 0]⟩ 60).bind _ = _
      rw [boundary_l]
      show Res.ok [Op.set 0 (0 + 1 * ext (stateL hc) 0 * ext (stateL hc) 0 - 1),
        Op.set 1 (0 - 0 * ext (stateL hc) 0 * ext (stateL hc) 0 - 0)] = _
      rw [e0]
      norm_num
    have hn : forEach (List.finRange (toNet hc).nodes) (fun v => (toNet hc).nodeEvaluate v 60 ((toNet hc).args (x, stateL hc, c))) =
        Res.ok [.set 0 0, .set 1 0] := by
      show ((toNet hc).nodeEvaluate (0 : Fin 1) 60 ((toNet hc).args (x, stateL hc, c))).bind (fun a => Res.ok (a ++ [])) = _
      rw [h0]
      rfl
    unfold Net.evaluate
    rw [hn]
    rfl
  unfold Net.residual
  rw [h, Res.ok_bind]
  congr 1
  show (fun i : Fin 2 => _) = _
  funext i
  fin_cases i <;> simp [Net.run, Op.apply]

theorem norm_l (lu) (s : ℝ) (c) :
    ((toNet hc).system lu s 60 (some (stateL hc)) c).normY
      (((toNet hc).system lu s 60 (some (stateL hc)) c).evaluate (some (stateL hc))) = some 0 := by
  have hev : ((toNet hc).system lu s 60 (some (stateL hc)) c).evaluate (some (stateL hc)) = some (0 : Fin 2 → ℝ) := by
    simp only [Net.system, if_pos (finite_l hc _), residual_l]
    rfl
  rw [hev]
  show some (Real.sqrt (∑ i : Fin 2, (0 : ℝ) ^ 2)) = _
  simp

theorem solve_l (lu) (s : ℝ) (c) (full : Bool) :
    solve ((toNet hc).system lu s 60 (some (stateL hc)) c) 0.001 5 full 10 (some (stateL hc)) =
      some (Res.ok (some (stateL hc), ⟨true, some 0, 0⟩)) := by
  unfold solve
  simp only [norm_l]
  rw [if_pos (by simp [le]; norm_num)]

theorem initial_state_l : (entriesOf [1, 0] : Fin (toNet hc).stateCount → ℝ) = stateL hc := by
  show (fun i : Fin 2 => _) = _
  funext i
  fin_cases i <;> rfl

/-- The run succeeds. -/
theorem run_l (draws : Json → Res (ℝ → Res (ℝ × ℝ))) (mem : ℕ → ℝ) (lu : Solve) :
    run draws mem lu 10 settingsC filesL = Res.ok ([0, 60], [ext (stateL hc), ext (stateL hc)].map some) := by
  unfold run
  refine Res.bind_eq_ok.mpr ⟨_, grid_c, Res.bind_eq_ok.mpr ⟨_, read_l draws mem, ?_⟩⟩
  rw [dif_pos hc]
  refine Res.bind_eq_ok.mpr ⟨_, setup_l hc, Res.bind_eq_ok.mpr ⟨_, initial_l hc mem,
    Res.bind_eq_ok.mpr ⟨([0, 60], fun _ => Res.ok 0), if_neg (by show ¬ (0 < 0); omega), ?_⟩⟩⟩
  rw [initial_state_l]
  refine Res.bind_eq_ok.mpr ⟨[some (stateL hc), some (stateL hc)], ?_, rfl⟩
  simp [simulate, loop, makeOneStep, attempts, newtonSolver, solve_l, settingsC]

/-- If the powers of a node cannot be reported for the first time, there is no file. -/
theorem statesJson_throws [Printed ℝ] {id cls type : String} {report : ℝ → List ℝ → Res (List (String × ℝ))} {time V phi : ℝ}
    (l : List ℝ) (rest : List (ℝ × List ℝ)) (h : report time (V :: phi :: l) = Res.throws) :
    Output.statesJson [⟨id, cls, type, 0, .power report⟩] ((time, V :: phi :: l) :: rest) = Res.throws := by
  have hsave : ∀ j, Output.saveAll [((⟨id, cls, type, 0, .power report⟩ : Output.Component ℝ), j)] (time, V :: phi :: l) =
      Res.throws := by
    intro j
    unfold Output.saveAll Output.saveEntry
    simp only [Res.each, Res.get, List.getElem?_cons_zero, List.getElem?_cons_succ, Res.ok_bind, h, zero_add]
    rfl
  unfold Output.statesJson
  rw [show Res.each [(⟨id, cls, type, 0, .power report⟩ : Output.Component ℝ)] _ = Res.ok [(_, _)] from rfl, Res.ok_bind]
  unfold Res.fold
  rw [hsave]
  rfl

include hc in
/-- Nothing is written. -/
theorem lost_l [Printed ℝ] (draws : Json → Res (ℝ → Res (ℝ × ℝ))) (mem : ℕ → ℝ) (lu : Solve) :
    runFile draws mem lu 10 settingsC filesL = Res.throws := by
  unfold runFile
  have hg : readNet draws mem filesL.defaults filesL.topology filesL.boundary = Res.ok graphL := read_l draws mem
  rw [run_l hc, Res.ok_bind, hg, Res.ok_bind, dif_pos hc]
  simp only [allSome_some]
  have := statesJson_throws (id := "n") (cls := "nodes") (type := "PQnode") (report := reported hc "PQnode" 60 (0 : Fin 1))
    (time := 0) (V := ext (stateL hc) 0) (phi := ext (stateL hc) 1) [] [(60, [ext (stateL hc) 0, ext (stateL hc) 1])] (by
      show (two ⟨[60, 3600], 2, [1, 0, 1, 0]⟩ 0).bind _ = _
      rw [boundary_lost]
      rfl)
  show (Output.statesJson [⟨"n", "nodes", "PQnode", 0, .power (reported hc "PQnode" 60 (0 : Fin 1))⟩]
    [(0, [ext (stateL hc) 0, ext (stateL hc) 1]), (60, [ext (stateL hc) 0, ext (stateL hc) 1])]).bind _ = _
  rw [this]
  rfl

/-- C108 is false of the code. The files fit, the boundary values cover all times of the simulation but the first, which it does not
need, and the run succeeds, but then no results are written: there is an exception. -/
theorem C108_false : ∃ (s : Settings) (f : Files), f.topology.isObj = true ∧ (Shaped f.topology ∧ DistinctTypes f.topology) ∧
    (Shaped f.boundary ∧ DistinctTypes f.boundary) ∧ Fit f.defaults f.topology ∧ s.start < s.stop ∧ 0 < s.desired ∧
    1 ≤ s.iterations ∧ ∃ (times : List ℝ) (states : List Vec), (∀ t ∈ times.tail, Covers f.defaults f.topology f.boundary t) ∧
      ∀ [Printed ℝ] (draws : Json → Res (ℝ → Res (ℝ × ℝ))) (mem : ℕ → ℝ) (lu : Solve),
        run draws mem lu 10 s f = Res.ok (times, states.map some) ∧ runFile draws mem lu 10 s f = Res.throws := by
  have hc := consistent_l
  refine ⟨settingsC, filesL, rfl, shaped_l.1, shaped_l.2, fit_l, by norm_num [settingsC], by norm_num [settingsC],
    by norm_num [settingsC], [0, 60], [ext (stateL hc), ext (stateL hc)], fun t ht => ?_,
    fun draws mem lu => ⟨run_l hc draws mem lu, lost_l hc draws mem lu⟩⟩
  obtain rfl : t = 60 := List.mem_singleton.mp ht
  exact covers_l le_rfl (by norm_num)

/-! ## Examples -/

theorem nums_inj {a b : List ℚ} (h : (some (arr (a.map num)) : Option Json) = some (arr (b.map num))) : a = b := by
  injection h with h
  injection h with h
  exact List.map_injective_iff.mpr (fun x y h => by injection h) h

theorem Describes.unique {name : String} {j : Json} {l m : List (ℚ × List ℚ)} (h : Describes name j l) (h' : Describes name j m) :
    l = m := by
  obtain ⟨-, es, -, h1, h2⟩ := h
  obtain ⟨-, es', -, h3, h4⟩ := h'
  rw [h1] at h3
  injection h3 with h3
  injection h3 with h3
  subst h3
  clear h1
  induction h2 generalizing m with
  | nil => cases h4; rfl
  | cons a _ ih =>
    cases h4 with
    | cons b c =>
      rw [ih c]
      congr 1
      refine Prod.ext ?_ (nums_inj (a.2.symm.trans b.2))
      have := a.1.symm.trans b.1
      injection this with this
      injection this

theorem Lists.unique {j : Json} {l m : List (ℚ × List ℚ)} (h : Lists j l) (h' : Lists j m) : l = m := by
  obtain ⟨es, h1, h2⟩ := h
  obtain ⟨es', h3, h4⟩ := h'
  rw [h1] at h3
  injection h3 with h3
  injection h3 with h3
  subst h3
  clear h1
  induction h2 generalizing m with
  | nil => cases h4; rfl
  | cons a _ ih =>
    cases h4 with
    | cons b c =>
      rw [ih c]
      congr 1
      refine Prod.ext ?_ (nums_inj (a.2.2.symm.trans b.2.2))
      have := a.2.1.symm.trans b.2.1
      injection this with this
      injection this

/-- C108 and C109 apply to the files of `Verif.Read.RunExample`: after a minute the file shows pressures of 60 and 70 bar, up to the
tolerance, at the ends of the compressor. -/
example [Printed ℝ] (draws : Json → Res (ℝ → Res (ℝ × ℝ))) (hdraw : ∀ data, draws data = Res.throws) (mem : ℕ → ℝ) (lu : Solve) :
    ∃ out r, runFile draws mem lu 10 settingsC filesC = Res.ok (some out) ∧ ShownIn out topologyC [0, 60] r ∧
      InFile out "connections" "Compressorstation" "c" [0, 60] (ShowsGas r "c") ∧ r.points "c" = 2 ∧
      r.pressure "c" 0 0 = 60 ∧ |r.pressure "c" 1 0 - 60| ≤ 0.001 := by
  obtain ⟨hc, -⟩ := C100_partial rfl shaped_c.1 shaped_c.2 shaped_s.2.1 shaped_s.2.2 (read_c draws mem) fit_c
  have hrun := run_c draws mem lu hc
  rw [show [some (ext (stateC hc)), some (ext (stateC hc))] = [ext (stateC hc), ext (stateC hc)].map some from rfl] at hrun
  obtain ⟨r, cgrid, hfaith, hall⟩ := C108_partial (f := filesC) (s := settingsC) rfl shaped_c.1 shaped_c.2 shaped_s.2.1 shaped_s.2.2
    fit_c (by norm_num [settingsC]) (by norm_num [settingsC]) (by norm_num [settingsC])
    (fun t h0 h1 => covers_c h0 (h1.trans (by norm_num [settingsC])))
    (by intro data d hd; rw [hdraw] at hd; cases hd) hrun
  obtain ⟨out, h1, h2⟩ := hall
  have hmem : ("Compressorstation", edgeC) ∈ entries (types filesC.topology "connections") := List.mem_singleton.mpr rfl
  have nopipe : ∀ i, PipesFilled r filesC.topology i := by
    intro i x hx
    have := (Prod.mk.inj (List.mem_singleton.mp (show ("Pipe", x) ∈ [("Compressorstation", edgeC)] from hx))).1
    exact absurd this (by decide)
  refine ⟨out, r, h1, h2, h2.gas _ _ _ hmem (by decide) rfl, ((hfaith.placed _ _ hmem).2.1 (by decide)).1, ?_, ?_⟩
  · obtain ⟨e, p, q, p', q', ⟨before, after, he, -⟩, h4, h5, -⟩ := hfaith.starts.short _ _ hmem (by decide)
    have hee : e = initialEntry := by
      have : e ∈ components initialC := by rw [show components initialC = _ from he]; simp
      exact List.mem_singleton.mp this
    subst hee
    have := Describes.unique described_c h4
    simp only [List.cons.injEq, Prod.mk.injEq, and_true, true_and] at this
    rw [show r.pressure "c" 0 0 = p from h5, ← this.1.1]
    norm_num
  · obtain ⟨b, hb, hn⟩ := (hfaith.obeys 0 (by simp) (nopipe 0) (nopipe 1)).nodes "Pressureboundarynode" (obj [("id", str "a")])
      List.mem_cons_self (by decide) (by decide)
    have h3 := (hn.2.1 rfl _ hmem (by decide)).1 rfl
    have : b.1 = 60 := by
      obtain ⟨e, l, he, -, hl, hv⟩ := hb
      have he' : e = boundarySA := by
        rcases List.mem_cons.mp (show ("Pressureboundarynode", e) ∈ [("Pressureboundarynode", boundarySA), ("Sink", boundarySB)]
          from he) with h | h
        · exact (Prod.mk.inj h).2
        · exact absurd (Prod.mk.inj (List.mem_singleton.mp h)).1 (by decide)
      subst he'
      rw [if_neg (by decide)] at hv
      obtain rfl : l = [(0, [60]), (3600, [60])] :=
        Lists.unique hl ⟨_, rfl, .cons ⟨rfl, rfl, rfl⟩ (.cons ⟨rfl, rfl, rfl⟩ .nil)⟩
      rcases hv with ⟨p, hp, -, rfl⟩ | ⟨i, hi, -, -, rfl⟩
      · simp only [List.mem_cons, List.not_mem_nil, or_false] at hp
        rcases hp with rfl | rfl <;> norm_num [listed]
      · obtain rfl : i = 0 := by simpa using hi
        norm_num [listed]
    rw [this] at h3
    exact h3

end Verif.Read
