import Verif.Read.EndToEnd
import Verif.Read.SimulateExample

/-!
# C101: files that are read and simulated

A short pipe from a node with pressure 60 bar to a sink of 5.
-/

set_option autoImplicit false

namespace Verif.Read

open Verif.Json Verif.Factory Verif.Interp Verif.Schema

def edgeS : Json := obj [("from", str "a"), ("id", str "s"), ("to", str "b")]

def topologyS : Json := obj [
  ("connections", obj [("Shortpipe", arr [edgeS])]),
  ("nodes", obj [("Pressureboundarynode", arr [obj [("id", str "a")]]), ("Sink", arr [obj [("id", str "b")]])])]

def boundarySA : Json := obj [("data", arr [obj [("time", num 0), ("values", arr [num 60])],
  obj [("time", num 3600), ("values", arr [num 60])]]), ("id", str "a")]

def boundarySB : Json := obj [("data", arr [obj [("time", num 0), ("values", arr [num 5])],
  obj [("time", num 3600), ("values", arr [num 5])]]), ("id", str "b")]

def boundaryS : Json := obj [("nodes", obj [("Pressureboundarynode", arr [boundarySA]), ("Sink", arr [boundarySB])])]

def nodeSA : Json := obj [("boundary_values", boundarySA), ("id", str "a")]

def nodeSB : Json := obj [("boundary_values", boundarySB), ("id", str "b")]

def nodesS : Json := obj [("Pressureboundarynode", arr [nodeSA]), ("Sink", arr [nodeSB])]

def edgesS : Json := obj [("Shortpipe", arr [edgeS])]

theorem full_s : buildFull topologyS boundaryS = Res.ok (obj [("connections", edgesS), ("nodes", nodesS)]) :=
  is_ok (n := 20) (by decide +kernel)

theorem prepare_sa : prepareN 20 idSchema (some (boundaryOf 1)) (obj []) nodeSA = Res.ok nodeSA :=
  is_ok (n := 20) (by decide +kernel)

theorem prepare_sb : prepareN 20 idSchema (some (boundaryOf 1)) (obj []) nodeSB = Res.ok nodeSB :=
  is_ok (n := 20) (by decide +kernel)

theorem prepare_s : prepareN 20 edgeSchema none (obj []) edgeS = Res.ok edgeS :=
  is_ok (n := 20) (by decide +kernel)

theorem lists_sa : List.Forall₂ Gas.Entry [obj [("time", num 0), ("values", arr [num 60])],
    obj [("time", num 3600), ("values", arr [num 60])]] [(0, [60]), (3600, [60])] :=
  .cons ⟨rfl, rfl, rfl⟩ (.cons ⟨rfl, rfl, rfl⟩ .nil)

theorem construct_sa (mem : ℕ → ℝ) : pressureNode mem nodeSA = Res.ok ⟨.pressure, one ⟨[0, 3600], 1, [60, 60]⟩, 0, 0⟩ := by
  have h := readVector_of (n := 20) mem (k := 1) (b := boundarySA) (by decide +kernel) rfl lists_sa (by simp) (by simp)
  show ((Gas.readVector (accepts (boundaryOf 1)) mem boundarySA).bind _) = _
  rw [h]
  show Res.ok _ = _
  simp

theorem lists_sb : List.Forall₂ Gas.Entry [obj [("time", num 0), ("values", arr [num (-5)])],
    obj [("time", num 3600), ("values", arr [num (-5)])]] [(0, [-5]), (3600, [-5])] :=
  .cons ⟨rfl, rfl, rfl⟩ (.cons ⟨rfl, rfl, rfl⟩ .nil)

def revertedSB : Json := obj [("data", arr [obj [("time", num 0), ("values", arr [num (-5)])],
  obj [("time", num 3600), ("values", arr [num (-5)])]]), ("id", str "b")]

theorem revert_sb : Gas.revert nodeSB = Res.ok (obj [("boundary_values", revertedSB), ("id", str "b")]) :=
  is_ok (n := 20) (by decide +kernel)

theorem construct_sb (mem : ℕ → ℝ) : sink mem nodeSB = Res.ok ⟨.flow, one ⟨[0, 3600], 1, [-5, -5]⟩, 0, 0⟩ := by
  have h := readVector_of (n := 20) mem (k := 1) (b := revertedSB) (by decide +kernel) rfl lists_sb (by simp) (by simp)
  unfold sink Gas.sink
  rw [revert_sb]
  show ((Gas.readVector (accepts (boundaryOf 1)) mem revertedSB).bind _) = _
  rw [h]
  show Res.ok _ = _
  simp

/-- The network that is read. -/
noncomputable def graphS : Graph Network.Node Network.EdgeKind :=
  ⟨[⟨"a", ⟨.pressure, one ⟨[0, 3600], 1, [60, 60]⟩, 0, 0⟩, [0], []⟩,
    ⟨"b", ⟨.flow, one ⟨[0, 3600], 1, [-5, -5]⟩, 0, 0⟩, [], [0]⟩],
   [⟨"s", .gas .shortpipe 0, 0, 1⟩]⟩

theorem read_s (draws : Json → Res (ℝ → Res (ℝ × ℝ))) (mem : ℕ → ℝ) :
    readNet draws mem (obj []) topologyS boundaryS = Res.ok graphS := by
  let xa : Node Network.Node := ⟨"a", ⟨.pressure, one ⟨[0, 3600], 1, [60, 60]⟩, 0, 0⟩, [], []⟩
  let xb : Node Network.Node := ⟨"b", ⟨.flow, one ⟨[0, 3600], 1, [-5, -5]⟩, 0, 0⟩, [], []⟩
  let na : ComponentType Network.Node := ⟨idSchema, some (boundaryOf 1), obj [], pressureNode mem⟩
  let nb : ComponentType Network.Node := ⟨idSchema, some (boundaryOf 1), obj [], sink mem⟩
  let es : ComponentType Network.EdgeKind := ⟨edgeSchema, none, obj [], short .shortpipe⟩
  have ma : makeNode accepts na nodeSA = Res.ok xa := makeNode_of prepare_sa rfl (construct_sa mem)
  have mb : makeNode accepts nb nodeSB = Res.ok xb := makeNode_of prepare_sb rfl (construct_sb mem)
  have ms : makeEdge accepts es ⟨[xa, xb], []⟩ edgeS = Res.ok graphS :=
    makeEdge_of (u := 0) (v := 1) prepare_s rfl rfl rfl rfl rfl (by decide) rfl
  have na' : Res.each [nodeSA] (makeNode accepts na) = _ := Res.each_eq_ok.mpr (.cons ma .nil)
  have nb' : Res.each [nodeSB] (makeNode accepts nb) = _ := Res.each_eq_ok.mpr (.cons mb .nil)
  refine readNet_of (nodes := [_, _, _, _, _, ("Pressureboundarynode", na), ("Sink", nb), _, _, _])
    (edges := [_, _, _, _, ("Shortpipe", es), _]) (vs := [[], [], [], [], [], [xa], [xb], [], [], []])
    rfl rfl full_s (nj := nodesS) (ej := edgesS) rfl rfl rfl rfl ?_ ?_ rfl
  · exact .cons rfl (.cons rfl (.cons rfl (.cons rfl (.cons rfl (.cons na' (.cons nb' (.cons rfl (.cons rfl (.cons rfl
      .nil)))))))))
  · exact fold_cons_of rfl (fold_cons_of rfl (fold_cons_of rfl (fold_cons_of rfl (fold_cons_of (fold_cons_of ms rfl)
      (fold_cons_of rfl rfl)))))

theorem shaped_s : (Shaped topologyS ∧ DistinctTypes topologyS) ∧ Shaped boundaryS ∧ DistinctTypes boundaryS :=
  ⟨shaped_of (by decide +kernel), shaped_of (by decide +kernel)⟩

theorem fit_s : Fit (obj []) topologyS := by
  have one : ∀ {e}, e ∈ entries (types topologyS "connections") → e = ("Shortpipe", edgeS) := fun h => List.mem_singleton.mp h
  have no : ∀ {j}, ("Pipe", j) ∉ entries (types topologyS "connections") := fun h => by
    have := (Prod.mk.inj (one h)).1
    revert this
    decide
  refine ⟨fun e he => ?_, fun j hj => absurd hj no, fun j hj => absurd hj no⟩
  rw [one he]
  exact ⟨"a", "b", "Pressureboundarynode", "Sink", rfl, rfl, ⟨_, List.mem_cons_self, rfl⟩,
    ⟨_, List.mem_cons_of_mem _ (List.mem_singleton.mpr rfl), rfl⟩, by unfold Allowed; decide⟩

theorem covers_s {t : ℝ} (h0 : 0 ≤ t) (h1 : t ≤ 3600) : Covers (obj []) topologyS boundaryS t := by
  have nodes : ∀ {x}, x ∈ entries (types topologyS "nodes") →
      x = ("Pressureboundarynode", obj [("id", str "a")]) ∨ x = ("Sink", obj [("id", str "b")]) :=
    fun h => (List.mem_cons.mp h).imp id List.mem_singleton.mp
  refine ⟨fun name x hx _ _ _ e he _ => ?_, fun name x hx => ?_⟩
  · have : (name, e) = ("Pressureboundarynode", boundarySA) ∨ (name, e) = ("Sink", boundarySB) :=
      (List.mem_cons.mp he).imp id List.mem_singleton.mp
    rcases this with h | h <;> obtain ⟨-, rfl⟩ := Prod.mk.inj h
    · exact ⟨[(0, [60]), (3600, [60])], ⟨_, rfl, lists_sa⟩, by simp, ⟨_, List.mem_cons_self, by simpa using h0⟩,
        ⟨(3600, [60]), by simp, by simpa using h1⟩⟩
    · exact ⟨[(0, [5]), (3600, [5])], ⟨_, rfl, .cons ⟨rfl, rfl, rfl⟩ (.cons ⟨rfl, rfl, rfl⟩ .nil)⟩, by simp,
        ⟨_, List.mem_cons_self, by simpa using h0⟩, ⟨(3600, [5]), by simp, by simpa using h1⟩⟩
  · rcases nodes hx with h | h <;> obtain ⟨rfl, rfl⟩ := Prod.mk.inj h <;> exact ⟨rfl, rfl⟩

/-! ## The simulation -/

/-- The boundary conditions after a minute. -/
theorem boundary_at (c : ℚ) {t : ℝ} (h0 : 0 ≤ t) (h1 : t ≤ 3600) : one ⟨[0, 3600], 1, [(c : ℝ), (c : ℝ)]⟩ t = Res.ok ((c : ℝ), 0) := by
  have h := Gas.construct_flat (n := 1) (fun _ => 0) (Gas.real [(0, [c]), (3600, [c])]) (by simp [Gas.real]) (by
    intro x hx
    simp [Gas.real] at hx
    rcases hx with rfl | rfl <;> rfl)
  have := (interpolates_one (l := [(0, [c]), (3600, [c])]) (by simp) (by simp) (by simp) h).between 0 (by simp) t
    (by simpa using h0) (by simpa using h1)
  have e : (⟨(Gas.real [(0, [c]), (3600, [c])]).map Prod.fst, 1, ((Gas.real [(0, [c]), (3600, [c])]).map Prod.snd).flatten⟩ : IV ℝ) =
    ⟨[0, 3600], 1, [(c : ℝ), (c : ℝ)]⟩ := by simp [Gas.real]
  rw [e] at this
  rw [this]
  simp [listed]

theorem boundary_s (c : ℚ) : one ⟨[0, 3600], 1, [(c : ℝ), (c : ℝ)]⟩ 60 = Res.ok ((c : ℝ), 0) :=
  boundary_at c (by norm_num) (by norm_num)

open Network Net Newton Evolve

variable (hc : Consistent graphS)

/-- Pressure and flow at both ends. -/
noncomputable def stateS : Fin (toNet hc).stateCount → ℝ := (![60, 5, 60, 5] : Fin 4 → ℝ)

def controlS : Fin (toNet hc).controlCount → ℝ := fun _ => 0

theorem finite_s (new : Vec) : (toNet hc).Finite new := by
  intro k dx d r n h
  have : ∀ k : Fin 1, (toNet hc).edge k = .gas .shortpipe 0 := by
    intro k
    rw [Subsingleton.elim k 0]
    rfl
  rw [this k] at h
  injection h with h
  cases h

theorem residual_s (s : ℝ) (x y : Fin (toNet hc).stateCount → ℝ) (c : Fin (toNet hc).controlCount → ℝ) :
    (toNet hc).residual s 60 (x, y, c) = Res.ok (![ext y 0 - 60, ext y 0 - ext y 2, ext y 1 - ext y 3, 5 - ext y 3] : Fin 4 → ℝ) := by
  have ha : one ⟨[0, 3600], 1, [60, 60]⟩ 60 = Res.ok (60, 0) := by have := boundary_s 60; push_cast at this; exact this
  have hb : one ⟨[0, 3600], 1, [-5, -5]⟩ 60 = Res.ok (-5, 0) := by have := boundary_s (-5); push_cast at this; exact this
  have h : (toNet hc).evaluate s 60 ((toNet hc).args (x, y, c)) = Res.ok [.set 0 (ext y 0 - 60), .set 3 (-1 * (-5)),
      .inc 3 (-1 * ext y 3), .set 1 (ext y 0 - ext y 2), .set 2 (ext y 1 - ext y 3)] := by
    have h0 : (toNet hc).nodeEvaluate (0 : Fin 2) 60 ((toNet hc).args (x, y, c)) = Res.ok [.set 0 (ext y 0 - 60)] := by
      show (one ⟨[0, 3600], 1, [60, 60]⟩ 60).bind _ = _
      rw [ha]
      rfl
    have h1 : (toNet hc).nodeEvaluate (1 : Fin 2) 60 ((toNet hc).args (x, y, c)) =
        Res.ok [.set 3 (-1 * (-5)), .inc 3 (-1 * ext y 3)] := by
      show (one ⟨[0, 3600], 1, [-5, -5]⟩ 60).bind _ = _
      rw [hb]
      rfl
    have hn : forEach (List.finRange (toNet hc).nodes) (fun v => (toNet hc).nodeEvaluate v 60 ((toNet hc).args (x, y, c))) =
        Res.ok [.set 0 (ext y 0 - 60), .set 3 (-1 * (-5)), .inc 3 (-1 * ext y 3)] := by
      show ((toNet hc).nodeEvaluate (0 : Fin 2) 60 ((toNet hc).args (x, y, c))).bind (fun a =>
        (((toNet hc).nodeEvaluate (1 : Fin 2) 60 ((toNet hc).args (x, y, c))).bind fun b => Res.ok (b ++ [])).bind fun b =>
          Res.ok (a ++ b)) = _
      rw [h0, h1]
      rfl
    unfold Net.evaluate
    rw [hn]
    rfl
  unfold Net.residual
  rw [h, Res.ok_bind]
  congr 1
  show (fun i : Fin 4 => _) = _
  funext i
  fin_cases i <;> simp [run, Op.apply]
  ring

theorem entry_s (j : ℕ) (h : j < 4) : ext (stateS hc) (j : ℤ) = (![60, 5, 60, 5] : Fin 4 → ℝ) ⟨j, h⟩ := by
  unfold ext
  rw [dif_pos ⟨by omega, by show _ < 4; omega⟩]
  rfl

theorem norm_s (lu) (s : ℝ) :
    ((toNet hc).system lu s 60 (some (stateS hc)) (controlS hc)).normY
      (((toNet hc).system lu s 60 (some (stateS hc)) (controlS hc)).evaluate (some (stateS hc))) = some 0 := by
  have e0 := entry_s hc 0 (by norm_num)
  have e1 := entry_s hc 1 (by norm_num)
  have e2 := entry_s hc 2 (by norm_num)
  have e3 := entry_s hc 3 (by norm_num)
  simp only [Nat.cast_ofNat, Nat.cast_zero, Nat.cast_one] at e0 e1 e2 e3
  have hev : ((toNet hc).system lu s 60 (some (stateS hc)) (controlS hc)).evaluate (some (stateS hc)) =
      some (fun _ : Fin 4 => (0 : ℝ)) := by
    simp only [Net.system, if_pos (finite_s hc _), residual_s, e0, e1, e2, e3]
    congr 1
    funext i
    revert i
    show ∀ i : Fin 4, _
    intro i
    fin_cases i <;> norm_num
  rw [hev]
  show some (Real.sqrt (∑ i : Fin 4, (0 : ℝ) ^ 2)) = _
  simp

theorem solve_s (lu) (s : ℝ) (full : Bool) :
    solve ((toNet hc).system lu s 60 (some (stateS hc)) (controlS hc)) 0.001 5 full 10 (some (stateS hc)) =
      some (Res.ok (some (stateS hc), ⟨true, some 0, 0⟩)) := by
  unfold solve
  simp only [norm_s]
  rw [if_pos (by simp [le]; norm_num)]

/-- The simulation returns. -/
theorem simulation_s (lu : ℝ → ℝ → Option (Fin (toNet hc).stateCount → ℝ) → (Fin (toNet hc).controlCount → ℝ) →
      Option (Fin (toNet hc).stateCount → ℝ) →
      Option (Option (Fin (toNet hc).stateCount → ℝ) → Option (Fin (toNet hc).stateCount → ℝ))) : ∃ trace, simulate 1 true
      (newtonSolver (fun s t x c => (toNet hc).system (lu s t x c) s t x c) 0.001 5 10)
      (fun _ => Res.ok (controlS hc)) [0, 60] (some (stateS hc)) =
      (Res.ok [some (stateS hc), some (stateS hc)], trace) := by
  simp [simulate, loop, makeOneStep, attempts, newtonSolver, solve_s]

/-- C101 applies to the files: after a minute the sink gets the five of the file. -/
example : ∃ hc : Consistent graphS, Respects hc (obj []) topologyS boundaryS 0.001 0 60
    ⟨ext (stateS hc), ext (stateS hc), ext (controlS hc)⟩ := by
  obtain ⟨hc, h⟩ := C101_simulation (draws := fun _ => Res.throws) (mem := fun _ => 0) rfl shaped_s.1.1 shaped_s.1.2
    shaped_s.2.1 shaped_s.2.2 (read_s _ _) fit_s [0, 60] (by
      intro t ht
      simp at ht
      rcases ht with rfl | rfl <;> exact covers_s (by norm_num) (by norm_num)) (by intro data d hd; cases hd)
  obtain ⟨trace, hsim⟩ := simulation_s hc fun _ _ _ _ _ => none
  obtain ⟨-, -, h3⟩ := h (fun _ _ _ _ _ => none) 0.001 5 (by norm_num) 10 1 true (fun _ => Res.ok (controlS hc)) (stateS hc) _
    trace hsim
  obtain ⟨c, hcc, hr⟩ := h3 0 (by simp) (by simp) (stateS hc) (stateS hc) rfl rfl (finite_s hc _)
  injection hcc with hcc
  subst hcc
  exact ⟨hc, hr⟩

end Verif.Read
