import Verif.Read.Compute

/-!
# A network that is read

The hypotheses of C99 are met by the jsons of a pipe between a node with given pressure and a sink. The roughness of the pipe is
given partly, and the scheme completely, by defaults.
-/

set_option autoImplicit false

namespace Verif.Read

open Verif.Json Verif.Factory Verif.Interp Verif.Schema

/-! ## Jsons -/

def defaultsEx : Json := obj [("Pipe", obj [("balancelaw", str "Isothermaleulerequation"),
  ("roughness", obj [("unit", str "mm"), ("value", num 1)]), ("scheme", str "Implicitboxscheme")])]

def pipeEx : Json := obj [("desired_delta_x", num 1000), ("diameter", obj [("unit", str "m"), ("value", num (1 / 2))]),
  ("from", str "a"), ("id", str "p"), ("length", obj [("unit", str "km"), ("value", num 5)]),
  ("roughness", obj [("value", num (1 / 10))]), ("to", str "b")]

def topologyEx : Json := obj [
  ("connections", obj [("Pipe", arr [pipeEx])]),
  ("nodes", obj [("Pressureboundarynode", arr [obj [("id", str "a")]]), ("Sink", arr [obj [("id", str "b")]])])]

def boundaryA : Json := obj [("data", arr [obj [("time", num 0), ("values", arr [num 60])],
  obj [("time", num 3600), ("values", arr [num 50])]]), ("id", str "a")]

def boundaryB : Json := obj [("data", arr [obj [("time", num 0), ("values", arr [num 100])],
  obj [("time", num 3600), ("values", arr [num 120])]]), ("id", str "b")]

def boundaryEx : Json := obj [("nodes", obj [("Pressureboundarynode", arr [boundaryA]), ("Sink", arr [boundaryB])])]

def nodeA : Json := obj [("boundary_values", boundaryA), ("id", str "a")]

def nodeB : Json := obj [("boundary_values", boundaryB), ("id", str "b")]

def nodesEx : Json := obj [("Pressureboundarynode", arr [nodeA]), ("Sink", arr [nodeB])]

def edgesEx : Json := obj [("Pipe", arr [pipeEx])]

def pipeData : Json := obj [("balancelaw", str "Isothermaleulerequation"), ("desired_delta_x", num 1000),
  ("diameter", obj [("unit", str "m"), ("value", num (1 / 2))]), ("from", str "a"), ("id", str "p"),
  ("length", obj [("unit", str "km"), ("value", num 5)]),
  ("roughness", obj [("unit", str "mm"), ("value", num (1 / 10))]), ("scheme", str "Implicitboxscheme"), ("to", str "b")]

theorem full_ex : buildFull topologyEx boundaryEx = Res.ok (obj [("connections", edgesEx), ("nodes", nodesEx)]) :=
  is_ok (n := 20) (by decide +kernel)

def dEx : Json := obj [("balancelaw", str "Isothermaleulerequation"),
  ("roughness", obj [("unit", str "mm"), ("value", num 1)]), ("scheme", str "Implicitboxscheme")]

theorem prepare_a : prepareN 20 idSchema (some (boundaryOf 1)) (obj []) nodeA = Res.ok nodeA :=
  is_ok (n := 20) (by decide +kernel)

theorem prepare_b : prepareN 20 idSchema (some (boundaryOf 1)) (obj []) nodeB = Res.ok nodeB :=
  is_ok (n := 20) (by decide +kernel)

theorem prepare_p : prepareN 20 pipeTopology none dEx pipeEx = Res.ok pipeData :=
  is_ok (n := 20) (by decide +kernel)

theorem lists_a : List.Forall₂ Gas.Entry [obj [("time", num 0), ("values", arr [num 60])],
    obj [("time", num 3600), ("values", arr [num 50])]] [(0, [60]), (3600, [50])] :=
  .cons ⟨rfl, rfl, rfl⟩ (.cons ⟨rfl, rfl, rfl⟩ .nil)

theorem construct_a (mem : ℕ → ℝ) : pressureNode mem nodeA = Res.ok ⟨.pressure, one ⟨[0, 3600], 1, [60, 50]⟩, 0, 0⟩ := by
  have h := readVector_of (n := 20) mem (k := 1) (b := boundaryA) (by decide +kernel) rfl lists_a (by simp) (by simp)
  show ((Gas.readVector (accepts (boundaryOf 1)) mem boundaryA).bind _) = _
  rw [h]
  show Res.ok _ = _
  simp

theorem lists_b : List.Forall₂ Gas.Entry [obj [("time", num 0), ("values", arr [num (-100)])],
    obj [("time", num 3600), ("values", arr [num (-120)])]] [(0, [-100]), (3600, [-120])] :=
  .cons ⟨rfl, rfl, rfl⟩ (.cons ⟨rfl, rfl, rfl⟩ .nil)

def revertedB : Json := obj [("data", arr [obj [("time", num 0), ("values", arr [num (-100)])],
  obj [("time", num 3600), ("values", arr [num (-120)])]]), ("id", str "b")]

theorem revert_b : Gas.revert nodeB = Res.ok (obj [("boundary_values", revertedB), ("id", str "b")]) :=
  is_ok (n := 20) (by decide +kernel)

theorem construct_b (mem : ℕ → ℝ) : sink mem nodeB = Res.ok ⟨.flow, one ⟨[0, 3600], 1, [-100, -120]⟩, 0, 0⟩ := by
  have h := readVector_of (n := 20) mem (k := 1) (b := revertedB) (by decide +kernel) rfl lists_b (by simp) (by simp)
  unfold sink Gas.sink
  rw [revert_b]
  show ((Gas.readVector (accepts (boundaryOf 1)) mem revertedB).bind _) = _
  rw [h]
  show Res.ok _ = _
  simp

theorem metres_of {n : ℕ} {data m : Json} {key : String} (hm : data.find? key = some m)
    (ha : acceptsN n measureSchema m = true) {unit : String} {value : ℚ} (hu : m.find? "unit" = some (str unit))
    (hv : m.find? "value" = some (num value)) {x : ℚ} {c : Unit.Conversion}
    (h : Unit.Means Unit.length unit.toList x c) : metres data key = Res.ok (c.factor * (value * x) + c.offset) := by
  unfold metres
  rw [index_of_find hm, Res.ok_bind, if_pos (acceptsN_ok ha), index_of_find hu]
  simp only [Res.ok_bind, getStr]
  rw [number_ok.mpr hv, Res.ok_bind, Unit.C52_meaning _ length_mem _ x c h]

theorem means_m : Unit.Means Unit.length "m".toList 1 ⟨1, 0⟩ :=
  .plain [] "m".toList ⟨1, 0⟩ ⟨1, 0⟩ (by decide +kernel) (by decide +kernel) (by decide)

theorem means_km : Unit.Means Unit.length "km".toList 1000 ⟨1, 0⟩ :=
  .plain "k".toList "m".toList ⟨1000, 0⟩ ⟨1, 0⟩ (by decide +kernel) (by decide +kernel) (by decide)

theorem means_mm : Unit.Means Unit.length "mm".toList (1 / 1000) ⟨1, 0⟩ :=
  .plain "m".toList "m".toList ⟨1 / 1000, 0⟩ ⟨1, 0⟩ (by decide +kernel) (by decide +kernel) (by decide)

/-- The pipe is 5 km long, has a diameter of 50 cm and a roughness of 0.1 mm. There are five cells. -/
theorem construct_p : pipe pipeData = Res.ok (.gas (.pipe 1000 (1 / 2) (1 / 10000)) 6) := by
  have h1 : metres pipeData "length" = Res.ok 5000 := by
    rw [metres_of (n := 20) rfl (by decide +kernel) rfl rfl means_km]; norm_num
  have h2 : metres pipeData "diameter" = Res.ok (1 / 2) := by
    rw [metres_of (n := 20) rfl (by decide +kernel) rfl rfl means_m]; norm_num
  have h3 : metres pipeData "roughness" = Res.ok (1 / 10000) := by
    rw [metres_of (n := 20) rfl (by decide +kernel) rfl rfl means_mm]; norm_num
  have h4 : number pipeData "desired_delta_x" = Res.ok 1000 := number_ok.mpr rfl
  have h5 : Gas.numberOfPoints ((5000 : ℚ) : ℝ) ((1000 : ℚ) : ℝ) = Res.ok 6 := by
    have e : (((5000 : ℚ) : ℝ) / ((1000 : ℚ) : ℝ)) = ((5 : ℤ) : ℝ) := by norm_num
    unfold Gas.numberOfPoints
    rw [if_neg (by norm_num), e, Int.ceil_intCast]
    rfl
  have h6 : scheme pipeData = Res.ok () := rfl
  unfold pipe
  rw [h1, Res.ok_bind, h4, Res.ok_bind, h5, Res.ok_bind, h2, Res.ok_bind, h3, Res.ok_bind, h6, Res.ok_bind, if_neg (by decide)]
  have e : Gas.cellWidth ((5000 : ℚ) : ℝ) 6 = 1000 := by unfold Gas.cellWidth; norm_num
  rw [e]
  have e' : Int.toNat 6 = 6 := rfl
  norm_num [e']

/-- The network that is read. -/
noncomputable def graphEx : Graph Network.Node Network.EdgeKind :=
  ⟨[⟨"a", ⟨.pressure, one ⟨[0, 3600], 1, [60, 50]⟩, 0, 0⟩, [0], []⟩,
    ⟨"b", ⟨.flow, one ⟨[0, 3600], 1, [-100, -120]⟩, 0, 0⟩, [], [0]⟩],
   [⟨"p", .gas (.pipe 1000 (1 / 2) (1 / 10000)) 6, 0, 1⟩]⟩

theorem read_ex (draws : Json → Res (ℝ → Res (ℝ × ℝ))) (mem : ℕ → ℝ) :
    readNet draws mem defaultsEx topologyEx boundaryEx = Res.ok graphEx := by
  let xa : Node Network.Node := ⟨"a", ⟨.pressure, one ⟨[0, 3600], 1, [60, 50]⟩, 0, 0⟩, [], []⟩
  let xb : Node Network.Node := ⟨"b", ⟨.flow, one ⟨[0, 3600], 1, [-100, -120]⟩, 0, 0⟩, [], []⟩
  let na : ComponentType Network.Node := ⟨idSchema, some (boundaryOf 1), obj [], pressureNode mem⟩
  let nb : ComponentType Network.Node := ⟨idSchema, some (boundaryOf 1), obj [], sink mem⟩
  let ep : ComponentType Network.EdgeKind := ⟨pipeTopology, none, dEx, pipe⟩
  have ma : makeNode accepts na nodeA = Res.ok xa :=
    makeNode_of prepare_a rfl (construct_a mem)
  have mb : makeNode accepts nb nodeB = Res.ok xb :=
    makeNode_of prepare_b rfl (construct_b mem)
  have mp : makeEdge accepts ep ⟨[xa, xb], []⟩ pipeEx = Res.ok graphEx :=
    makeEdge_of (u := 0) (v := 1) prepare_p rfl rfl rfl rfl rfl (by decide) construct_p
  have na' : Res.each [nodeA] (makeNode accepts na) = _ := Res.each_eq_ok.mpr (.cons ma .nil)
  have nb' : Res.each [nodeB] (makeNode accepts nb) = _ := Res.each_eq_ok.mpr (.cons mb .nil)
  refine readNet_of (nodes := [_, _, _, _, _, ("Pressureboundarynode", na), ("Sink", nb), _, _, _])
    (edges := [_, _, _, ("Pipe", ep), _, _]) (vs := [[], [], [], [], [], [xa], [xb], [], [], []])
    rfl rfl full_ex (nj := nodesEx) (ej := edgesEx) rfl rfl rfl rfl ?_ ?_ rfl
  · exact .cons rfl (.cons rfl (.cons rfl (.cons rfl (.cons rfl (.cons na' (.cons nb' (.cons rfl (.cons rfl (.cons rfl
      .nil)))))))))
  · exact fold_cons_of rfl (fold_cons_of rfl (fold_cons_of rfl (fold_cons_of (fold_cons_of mp rfl)
      (fold_cons_of rfl (fold_cons_of rfl rfl)))))

theorem shaped_ex : (Shaped topologyEx ∧ DistinctTypes topologyEx) ∧ Shaped boundaryEx ∧ DistinctTypes boundaryEx :=
  ⟨shaped_of (by decide +kernel), shaped_of (by decide +kernel)⟩

/-! ## The hypotheses of C99 are met -/

/-- C99 for the example: the edge that is read is the pipe of the topology. -/
example (draws : Json → Res (ℝ → Res (ℝ × ℝ))) (mem : ℕ → ℝ) :
    ∃ x ∈ graphEx.edges, EdgeMatches (defaultsFor defaultsEx "Pipe") pipeEx "Pipe" x.data := by
  obtain ⟨-, es, p, f⟩ := C99_components shaped_ex.1.1 shaped_ex.1.2 (read_ex draws mem)
  obtain ⟨x, hx, h⟩ := forall₂_mem_left f (p.mem_iff.mpr (show ("Pipe", pipeEx) ∈ _ from List.mem_singleton.mpr rfl))
  exact ⟨x, hx, h.2.1⟩

/-- Half an hour after the start, the sink takes 110 kg per second. -/
example (draws : Json → Res (ℝ → Res (ℝ × ℝ))) (mem : ℕ → ℝ) :
    ∃ n ∈ graphEx.nodes, n.id = "b" ∧ n.data.boundary 1800 = Res.ok (-110, 0) := by
  obtain ⟨n, hn, h1, e, h2, h3, h4⟩ := C99_boundary (name := "Sink") (x := obj [("id", str "b")]) rfl shaped_ex.1.1
    shaped_ex.1.2 shaped_ex.2.1 shaped_ex.2.2 (read_ex draws mem) (List.mem_cons_of_mem _ (List.mem_singleton.mpr rfl)) rfl rfl rfl
  have hid : n.id = "b" := (Option.some.inj h1).symm
  have he : e = boundaryB := by
    rcases List.mem_cons.mp (show _ ∈ [("Pressureboundarynode", boundaryA), ("Sink", boundaryB)] from h2) with h | h
    · simp at h
    · exact (Prod.mk.inj (List.mem_singleton.mp h)).2
  subst he
  have := (h4 [(0, [100]), (3600, [120])] ⟨_, rfl, .cons ⟨rfl, rfl, rfl⟩ (.cons ⟨rfl, rfl, rfl⟩ .nil)⟩ (by simp)).2.between 0
    (by simp) 1800 (by simp) (by norm_num)
  refine ⟨n, hn, hid, this.trans ?_⟩
  norm_num [listed]

end Verif.Read
