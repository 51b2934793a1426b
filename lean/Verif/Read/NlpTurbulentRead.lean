import Verif.Read.NlpDerivExample
import Verif.Read.NlpUnavail
import Verif.Network.OptimizeTurbulent

/-!
# A compressor and a pipe with turbulent flow

The network of `Network.OptimizeTurbulent`, as it is read from files: a compressor between a node with prescribed pressure and a pipe, at the
end of which a constrained sink takes one cubic meter per second. The pipe has one cell; its length is 1, 1/2, …, 1/5 metre.
-/

set_option autoImplicit false

namespace Verif.Read

open Verif.Json Verif.Factory Verif.Interp Verif.Schema Verif.Initial Verif.Times

/-! ## Jsons -/

/-- The pressure that belongs to the density 1, in bar. -/
def barT : ℚ := 17769239985280 / 13386628056721

theorem barT_eq : ((barT : ℚ) : ℝ) = Euler.p 1 / 100000 := by
  simp only [barT, Euler.p, Euler.cVac, Euler.alpha, Euler.rho0, Euler.p0, Euler.T, Euler.z0, Euler.T0, Euler.bar, Euler.pcrit, Euler.Tcrit]
  norm_num

/-- The length of the pipe. -/
def lengthT (i : Fin 5) : ℚ := 1 / ((i.val : ℚ) + 1)

def compressorT : Json := obj [("from", str "a"), ("id", str "c"), ("to", str "i")]

def pipeT (i : Fin 5) : Json := obj [("balancelaw", str "Isothermaleulerequation"), ("desired_delta_x", num 1),
  ("diameter", obj [("unit", str "m"), ("value", num 1)]), ("from", str "i"), ("id", str "p"),
  ("length", obj [("unit", str "m"), ("value", num (lengthT i))]), ("roughness", obj [("unit", str "m"), ("value", num 0)]),
  ("scheme", str "Implicitboxscheme"), ("to", str "b")]

def edgesT (i : Fin 5) : Json := obj [("Compressorstation", arr [compressorT]), ("Pipe", arr [pipeT i])]

def topologyT (i : Fin 5) : Json := obj [("connections", edgesT i),
  ("nodes", obj [("ConstraintSink", arr [obj [("id", str "b")]]), ("Innode", arr [obj [("id", str "i")]]),
    ("Pressureboundarynode", arr [obj [("id", str "a")]])])]

def boundaryT : Json := obj [("nodes", obj [("ConstraintSink", arr [entryK 1 "b"]), ("Pressureboundarynode", arr [entryK barT "a"])])]

def nodeTA : Json := obj [("boundary_values", entryK barT "a"), ("id", str "a")]

def nodeTB : Json := obj [("boundary_values", entryK 1 "b"), ("id", str "b")]

def nodesT : Json := obj [("ConstraintSink", arr [nodeTB]), ("Innode", arr [obj [("id", str "i")]]), ("Pressureboundarynode", arr [nodeTA])]

/-- The pressure of density 1 and the flow 1, at the points 0 and 1. -/
def initialT (id : String) : Json := obj [("data", arr [obj [("values", arr [num barT, num 1]), ("x", num 0)],
  obj [("values", arr [num barT, num 1]), ("x", num 1)]]), ("id", str id)]

def initialsT : Json := obj [("connections", obj [("Compressorstation", arr [initialT "c"]), ("Pipe", arr [initialT "p"])])]

def filesT (i : Fin 5) : Files := ⟨obj [], topologyT i, boundaryT, initialsT, edgeFile 0⟩

def boundsT : Bounds := ⟨edgeFile (-1), edgeFile 1, nodeFile 0, nodeFile 2⟩

/-! ## Reading -/

theorem full_t (i : Fin 5) : buildFull (topologyT i) boundaryT = Res.ok (obj [("connections", edgesT i), ("nodes", nodesT)]) := by
  refine is_ok (n := 20) ?_
  revert i
  decide +kernel

theorem prepare_ta : prepareN 20 idSchema (some (boundaryOf 1)) (obj []) nodeTA = Res.ok nodeTA := is_ok (n := 20) (by decide +kernel)

theorem prepare_tb : prepareN 20 idSchema (some (boundaryOf 1)) (obj []) nodeTB = Res.ok nodeTB := is_ok (n := 20) (by decide +kernel)

theorem prepare_tc : prepareN 20 edgeSchema none (obj []) compressorT = Res.ok compressorT := is_ok (n := 20) (by decide +kernel)

theorem prepare_tp (i : Fin 5) : prepareN 20 pipeTopology none (obj []) (pipeT i) = Res.ok (pipeT i) := by
  refine is_ok (n := 20) ?_
  revert i
  decide +kernel

theorem lists_t (q : ℚ) : List.Forall₂ Gas.Entry [obj [("time", num 0), ("values", arr [num q])],
    obj [("time", num 3600), ("values", arr [num q])]] [(0, [q]), (3600, [q])] :=
  .cons ⟨rfl, rfl, rfl⟩ (.cons ⟨rfl, rfl, rfl⟩ .nil)

theorem construct_ta (mem : ℕ → ℝ) : pressureNode mem nodeTA = Res.ok ⟨.pressure, one ⟨[0, 3600], 1, [(barT : ℝ), (barT : ℝ)]⟩, 0, 0⟩ := by
  show ((Gas.readVector (accepts (boundaryOf 1)) mem (entryK barT "a")).bind _) = _
  rw [read_entry mem (by decide +kernel)]
  rfl

theorem revert_tb : Gas.revert nodeTB = Res.ok (obj [("boundary_values", entryK (-1) "b"), ("id", str "b")]) :=
  is_ok (n := 20) (by decide +kernel)

theorem construct_tb (mem : ℕ → ℝ) : sink mem nodeTB = Res.ok ⟨.flow, one ⟨[0, 3600], 1, [-1, -1]⟩, 0, 0⟩ := by
  unfold sink Gas.sink
  rw [revert_tb]
  show ((Gas.readVector (accepts (boundaryOf 1)) mem (entryK (-1) "b")).bind _) = _
  rw [read_entry mem (by decide +kernel)]
  show Res.ok _ = _
  norm_num

theorem accept_length (i : Fin 5) : acceptsN 20 measureSchema (obj [("unit", str "m"), ("value", num (lengthT i))]) = true := by
  revert i
  decide +kernel

/-- The pipe has one cell. -/
theorem construct_tp (i : Fin 5) : pipe (pipeT i) = Res.ok (.gas (.pipe (1 / ((i.val : ℝ) + 1)) 1 0) 2) := by
  have h1 : metres (pipeT i) "length" = Res.ok (lengthT i) := by
    rw [metres_of (n := 20) rfl (accept_length i) rfl rfl means_m]; norm_num
  have h2 : metres (pipeT i) "diameter" = Res.ok 1 := by
    rw [metres_of (n := 20) (m := obj [("unit", str "m"), ("value", num 1)]) rfl (by decide +kernel) rfl rfl means_m]; norm_num
  have h3 : metres (pipeT i) "roughness" = Res.ok 0 := by
    rw [metres_of (n := 20) (m := obj [("unit", str "m"), ("value", num 0)]) rfl (by decide +kernel) rfl rfl means_m]; norm_num
  have h4 : number (pipeT i) "desired_delta_x" = Res.ok 1 := number_ok.mpr rfl
  have h5 : Gas.numberOfPoints ((lengthT i : ℚ) : ℝ) ((1 : ℚ) : ℝ) = Res.ok 2 := by
    have e : ⌈((lengthT i : ℚ) : ℝ) / ((1 : ℚ) : ℝ)⌉ = 1 := by
      rw [Int.ceil_eq_iff]
      unfold lengthT
      push_cast
      have : (0 : ℝ) ≤ i.val := by positivity
      constructor
      · have : (0 : ℝ) < 1 / (i.val + 1) / 1 := by positivity
        linarith
      · rw [div_one, div_le_one (by positivity)]
        linarith
    unfold Gas.numberOfPoints
    rw [if_neg (by norm_num), e]
    rfl
  have h6 : scheme (pipeT i) = Res.ok () := rfl
  unfold pipe
  rw [h1, Res.ok_bind, h4, Res.ok_bind, h5, Res.ok_bind, h2, Res.ok_bind, h3, Res.ok_bind, h6, Res.ok_bind, if_neg (by decide)]
  have e : Gas.cellWidth ((lengthT i : ℚ) : ℝ) 2 = 1 / ((i.val : ℝ) + 1) := by unfold Gas.cellWidth lengthT; push_cast; norm_num
  rw [e]
  have e' : Int.toNat 2 = 2 := rfl
  norm_num [e']

/-- The network that is read. -/
noncomputable def graphT (i : Fin 5) : Graph Network.Node Network.EdgeKind :=
  ⟨[⟨"b", ⟨.flow, one ⟨[0, 3600], 1, [-1, -1]⟩, 0, 0⟩, [], [1]⟩,
    ⟨"i", ⟨.innode, fun _ => Res.ok (0, 0), 0, 0⟩, [1], [0]⟩,
    ⟨"a", ⟨.pressure, one ⟨[0, 3600], 1, [(barT : ℝ), (barT : ℝ)]⟩, 0, 0⟩, [0], []⟩],
   [⟨"c", .gas .compressor 0, 2, 1⟩, ⟨"p", .gas (.pipe (1 / ((i.val : ℝ) + 1)) 1 0) 2, 1, 0⟩]⟩

theorem read_t (i : Fin 5) (draws : Json → Res (ℝ → Res (ℝ × ℝ))) (mem : ℕ → ℝ) :
    readNet draws mem (obj []) (topologyT i) boundaryT = Res.ok (graphT i) := by
  let xa : Node Network.Node := ⟨"a", ⟨.pressure, one ⟨[0, 3600], 1, [(barT : ℝ), (barT : ℝ)]⟩, 0, 0⟩, [], []⟩
  let xi : Node Network.Node := ⟨"i", ⟨.innode, fun _ => Res.ok (0, 0), 0, 0⟩, [], []⟩
  let xb : Node Network.Node := ⟨"b", ⟨.flow, one ⟨[0, 3600], 1, [-1, -1]⟩, 0, 0⟩, [], []⟩
  let na : ComponentType Network.Node := ⟨idSchema, some (boundaryOf 1), obj [], pressureNode mem⟩
  let ni : ComponentType Network.Node := ⟨idSchema, none, obj [], innode⟩
  let nb : ComponentType Network.Node := ⟨idSchema, some (boundaryOf 1), obj [], sink mem⟩
  let es : ComponentType Network.EdgeKind := ⟨edgeSchema, none, obj [], short .compressor⟩
  let ep : ComponentType Network.EdgeKind := ⟨pipeTopology, none, obj [], pipe⟩
  have ma : makeNode accepts na nodeTA = Res.ok xa := makeNode_of prepare_ta rfl (construct_ta mem)
  have mi : makeNode accepts ni (obj [("id", str "i")]) = Res.ok xi := makeNode_of prepare_i rfl rfl
  have mb : makeNode accepts nb nodeTB = Res.ok xb := makeNode_of prepare_tb rfl (construct_tb mem)
  have ms : makeEdge accepts es ⟨[xb, xi, xa], []⟩ compressorT =
      Res.ok ⟨[xb, { xi with ending := [0] }, { xa with starting := [0] }], [⟨"c", .gas .compressor 0, 2, 1⟩]⟩ :=
    makeEdge_of (u := 2) (v := 1) prepare_tc rfl rfl rfl rfl rfl (by decide) rfl
  have mp : makeEdge accepts ep ⟨[xb, { xi with ending := [0] }, { xa with starting := [0] }], [⟨"c", .gas .compressor 0, 2, 1⟩]⟩ (pipeT i) =
      Res.ok (graphT i) :=
    makeEdge_of (u := 1) (v := 0) (prepare_tp i) rfl rfl rfl rfl rfl (by decide) (construct_tp i)
  have na' : Res.each [nodeTA] (makeNode accepts na) = _ := Res.each_eq_ok.mpr (.cons ma .nil)
  have ni' : Res.each [obj [("id", str "i")]] (makeNode accepts ni) = _ := Res.each_eq_ok.mpr (.cons mi .nil)
  have nb' : Res.each [nodeTB] (makeNode accepts nb) = _ := Res.each_eq_ok.mpr (.cons mb .nil)
  refine readNet_of (nodes := [("ConstraintSink", nb), _, ("Innode", ni), _, _, ("Pressureboundarynode", na), _, _, _, _])
    (edges := [("Compressorstation", es), _, _, ("Pipe", ep), _, _]) (vs := [[xb], [], [xi], [], [], [xa], [], [], [], []])
    rfl rfl (full_t i) (nj := nodesT) (ej := edgesT i) rfl rfl rfl rfl ?_ ?_ rfl
  · exact .cons nb' (.cons rfl (.cons ni' (.cons rfl (.cons rfl (.cons na' (.cons rfl (.cons rfl (.cons rfl (.cons rfl
      .nil)))))))))
  · exact fold_cons_of (fold_cons_of ms rfl) (fold_cons_of rfl (fold_cons_of rfl (fold_cons_of (fold_cons_of mp rfl) (fold_cons_of rfl
      (fold_cons_of rfl rfl)))))

theorem shaped_t (i : Fin 5) : (Shaped (topologyT i) ∧ DistinctTypes (topologyT i)) ∧ Shaped boundaryT ∧ DistinctTypes boundaryT := by
  refine ⟨shaped_of ?_, shaped_of (by decide +kernel)⟩
  revert i
  decide +kernel

theorem metres_t (i : Fin 5) : Metres (obj []) (pipeT i) "length" (lengthT i) ∧ Metres (obj []) (pipeT i) "diameter" 1 ∧
    Metres (obj []) (pipeT i) "roughness" 0 :=
  ⟨⟨lengthT i, "m", _, _, Or.inl ⟨_, rfl, rfl⟩, Or.inl ⟨_, rfl, rfl⟩, means_m, by norm_num⟩,
    ⟨1, "m", _, _, Or.inl ⟨_, rfl, rfl⟩, Or.inl ⟨_, rfl, rfl⟩, means_m, by norm_num⟩,
    ⟨0, "m", _, _, Or.inl ⟨_, rfl, rfl⟩, Or.inl ⟨_, rfl, rfl⟩, means_m, by norm_num⟩⟩

theorem fit_t (i : Fin 5) : Fit (obj []) (topologyT i) := by
  have one : ∀ {e}, e ∈ entries (types (topologyT i) "connections") → e = ("Compressorstation", compressorT) ∨ e = ("Pipe", pipeT i) :=
    fun h => (List.mem_cons.mp h).imp id List.mem_singleton.mp
  have two : ∀ {j}, ("Pipe", j) ∈ entries (types (topologyT i) "connections") → j = pipeT i := fun h => by
    rcases one h with h | h
    · exact absurd (Prod.mk.inj h).1 (by decide)
    · exact (Prod.mk.inj h).2
  have hd : defaultsFor (obj []) "Pipe" = obj [] := rfl
  have hb : HasNode (topologyT i) "b" "ConstraintSink" := ⟨_, List.mem_cons_self, rfl⟩
  have hi : HasNode (topologyT i) "i" "Innode" := ⟨_, List.mem_cons_of_mem _ List.mem_cons_self, rfl⟩
  have ha : HasNode (topologyT i) "a" "Pressureboundarynode" :=
    ⟨_, List.mem_cons_of_mem _ (List.mem_cons_of_mem _ (List.mem_singleton.mpr rfl)), rfl⟩
  refine ⟨fun e he => ?_, fun j hj => ?_, fun j hj D r hD hr => ?_⟩
  · rcases one he with rfl | rfl
    · exact ⟨"a", "i", "Pressureboundarynode", "Innode", rfl, rfl, ha, hi, by unfold Allowed; decide⟩
    · exact ⟨"i", "b", "Innode", "ConstraintSink", rfl, rfl, hi, hb, by show Allowed "Pipe" _ _; unfold Allowed; decide⟩
  · rw [two hj, hd]
    refine ⟨fun L hL => ?_, fun w hw => ?_⟩
    · rw [hL.unique (metres_t i).1]; unfold lengthT; positivity
    · rw [hw.unique (show Number _ _ _ 1 from Or.inl rfl)]; norm_num
  · rw [two hj, hd] at hD hr
    rw [hD.unique (metres_t i).2.1, hr.unique (metres_t i).2.2]
    norm_num

theorem covers_t (i : Fin 5) {t : ℝ} (h0 : 0 ≤ t) (h1 : t ≤ 3600) : Covers (obj []) (topologyT i) boundaryT t := by
  have nodes : ∀ {x}, x ∈ entries (types (topologyT i) "nodes") →
      x = ("ConstraintSink", obj [("id", str "b")]) ∨ x = ("Innode", obj [("id", str "i")]) ∨ x = ("Pressureboundarynode", obj [("id", str "a")]) :=
    fun h => (List.mem_cons.mp h).imp id fun h => (List.mem_cons.mp h).imp id List.mem_singleton.mp
  have key : ∀ q id, ∃ l, Lists (entryK q id) l ∧ (l.map Prod.fst).Pairwise (· < ·) ∧ (∃ p ∈ l, (p.1 : ℝ) ≤ t) ∧ ∃ q ∈ l, t ≤ (q.1 : ℝ) :=
    fun q id => ⟨[(0, [q]), (3600, [q])], ⟨_, rfl, lists_t q⟩, by simp, ⟨_, List.mem_cons_self, by simpa using h0⟩,
      ⟨(3600, [q]), by simp, by simpa using h1⟩⟩
  refine ⟨fun name x hx _ _ _ e he _ => ?_, fun name x hx => ?_⟩
  · have : (name, e) = ("ConstraintSink", entryK 1 "b") ∨ (name, e) = ("Pressureboundarynode", entryK barT "a") :=
      (List.mem_cons.mp he).imp id List.mem_singleton.mp
    rcases this with h | h <;> obtain ⟨-, rfl⟩ := Prod.mk.inj h
    · exact key _ _
    · exact key _ _
  · rcases nodes hx with h | h | h <;> obtain ⟨rfl, rfl⟩ := Prod.mk.inj h <;> exact ⟨rfl, rfl⟩

theorem grid_t : stateGrid (0 : ℝ) 1 1 = Res.ok [0, 1] := by
  obtain ⟨grid, h1, h2, h3⟩ := (C26_grid_partial (0 : ℝ) 1 1).1 (by norm_num) (by norm_num)
  rw [h1]
  have hn : numberOfTimesteps (0 : ℝ) 1 1 = Res.ok 2 := by
    unfold numberOfTimesteps
    rw [if_neg (by norm_num)]
    norm_num
  rw [hn] at h3
  injection h3 with h3
  have hl : grid.length = 2 := by omega
  match grid, hl with
  | [a, b], _ =>
    obtain ⟨-, h4, h5, -⟩ := h2
    simp at h4 h5
    subst h4 h5
    rfl

/-! ## The initial state -/

theorem described_t (id : String) : Describes "x" (initialT id) [(0, [barT, 1]), (1, [barT, 1])] :=
  ⟨_, _, rfl, rfl, .cons ⟨rfl, rfl⟩ (.cons ⟨rfl, rfl⟩ .nil)⟩

theorem flat_t (mem : ℕ → ℝ) : constructFromJson mem (Gas.real [(0, [barT, 1]), (1, [barT, 1])]) =
    Res.ok ⟨[0, 1], 2, [(barT : ℝ), 1, barT, 1]⟩ := by
  rw [Gas.construct_flat (n := 2) mem _ (by simp [Gas.real]) (by simp [Gas.real])]
  simp [Gas.real]

theorem read_initial_t (mem : ℕ → ℝ) (id : String) {schema : Res Json} {s : Json} (hs : schema = Res.ok s) (ha : accepts s (initialT id) = true) :
    readInitial mem schema (initialT id) = Res.ok ⟨[0, 1], 2, [(barT : ℝ), 1, barT, 1]⟩ := by
  unfold readInitial Gas.readVector
  rw [hs, Res.ok_bind, if_pos ha]
  obtain ⟨_, es, -, hd, he⟩ := described_t id
  rw [index_of_find hd, Res.ok_bind]
  match es, he with
  | _ :: _, .cons h3 h4 =>
    have e1 := each_point (.cons h3 h4)
    simp only [contains, h3.1, Option.isSome_some, if_true, e1, Res.ok_bind]
    exact flat_t mem

theorem read_short_t (mem : ℕ → ℝ) : readInitial mem shortSchema (initialT "c") = Res.ok ⟨[0, 1], 2, [(barT : ℝ), 1, barT, 1]⟩ := by
  obtain ⟨s, hs⟩ := shortSchema_ok
  exact read_initial_t mem "c" hs ((C77_short hs _).mpr ⟨_, _, _, _, .inl (described_t "c")⟩)

theorem read_pipe_t (mem : ℕ → ℝ) : readInitial mem pipeSchema (initialT "p") = Res.ok ⟨[0, 1], 2, [(barT : ℝ), 1, barT, 1]⟩ := by
  obtain ⟨s, hs⟩ := pipeSchema_ok
  exact read_initial_t mem "p" hs ((C77_pipe hs _).mpr ⟨_, described_t "p", by simp, _, List.mem_cons_self, rfl⟩)

theorem value_t (mem : ℕ → ℝ) {x : ℝ} (h0 : 0 ≤ x) (h1 : x ≤ 1) :
    eval (⟨[0, 1], 2, [(barT : ℝ), 1, barT, 1]⟩ : IV ℝ) x = Res.ok [(barT : ℝ), 1] := by
  obtain ⟨r, h1, h2, h3, h4⟩ := eval_valueAt (k := 2) (by simp) (by simp) (by simp) (flat_t mem) (t := x) (b := ((barT : ℝ), 1))
    (.inr ⟨0, by simp, by simpa using h0, by simpa using h1, by simp [listed]⟩)
  rw [h1, two_of h2 h3 h4]

theorem pipeState_t : pipeState [(barT : ℝ), 1] = Res.ok [1, 1] := by
  have : (barT : ℝ) * 100000 = Euler.p 1 := by rw [barT_eq]; ring
  simp only [pipeState, Euler.fromBar, Euler.state, Euler.bar, this, Network.Fast.pressure_one.2]

open Network Net Newton Evolve OptTimes IndexLambda Weights Jacobian

variable {i : Fin 5} (hc : Consistent (graphT i))

theorem components_t (mem : ℕ → ℝ) : stateComponents hc mem = [⟨"c", 0, 4, 2, 1, Res.ok, readInitial mem shortSchema⟩,
    ⟨"p", 4, 4, 2, 1 / ((i.val : ℝ) + 1), pipeState, readInitial mem pipeSchema⟩] := rfl

theorem initial_t (mem : ℕ → ℝ) :
    setInitialValues (stateComponents hc mem) (uninit mem (toNet hc).stateCount) initialsT = Res.ok [(barT : ℝ), 1, barT, 1, 1, 1, 1, 1] := by
  rw [components_t]
  have h0 := value_t mem (x := 0) le_rfl zero_le_one
  have h1 := value_t mem (x := 1) zero_le_one le_rfl
  have h2 := value_t mem (x := 1 / ((i.val : ℝ) + 1)) (by positivity) (by rw [div_le_one (by positivity)]; have : (0 : ℝ) ≤ i.val := by positivity
                                                                          linarith)
  have hset : setInitial (⟨"c", 0, 4, 2, 1, Res.ok, readInitial mem shortSchema⟩ : StateComponent ℝ)
      [mem 0, mem 1, mem 2, mem 3, mem 4, mem 5, mem 6, mem 7] (initialT "c") =
      Res.ok [(barT : ℝ), 1, barT, 1, mem 4, mem 5, mem 6, mem 7] := by
    unfold setInitial
    simp only [read_short_t, Res.ok_bind]
    rw [if_neg (by decide)]
    simp only [setPoints, Nat.cast_zero, zero_mul, h0, Res.ok_bind, zero_add, Nat.cast_one, one_mul, h1]
    rfl
  have hset' : setInitial (⟨"p", 4, 4, 2, 1 / ((i.val : ℝ) + 1), pipeState, readInitial mem pipeSchema⟩ : StateComponent ℝ)
      [(barT : ℝ), 1, barT, 1, mem 4, mem 5, mem 6, mem 7] (initialT "p") = Res.ok [(barT : ℝ), 1, barT, 1, 1, 1, 1, 1] := by
    unfold setInitial
    simp only [read_pipe_t, Res.ok_bind]
    rw [if_neg (by decide)]
    simp only [setPoints, Nat.cast_zero, zero_mul, h0, Res.ok_bind, zero_add, Nat.cast_one, one_mul, h2, pipeState_t]
    rfl
  have hcheck : checkComponents ["c", "p"] initialsT = Res.ok [] := by decide +kernel
  exact Res.bind_eq_ok.mpr ⟨[], hcheck, fold_cons_of hset (fold_cons_of hset' rfl)⟩

theorem setup_t : (toNet hc).setup = Res.ok () := by
  unfold Net.setup
  refine if_pos ⟨fun v hv => ?_, fun k a b n h => ?_⟩
  · exfalso
    revert v
    show ∀ v : Fin 3, _
    intro v hv
    fin_cases v <;> cases hv
  · exfalso
    revert k
    show ∀ k : Fin 2, _
    intro k h
    match k with
    | 0 => injection h with h; cases h
    | 1 => injection h with h; cases h

/-! ## Controls and bounds -/

theorem controls_t (mem : ℕ → ℝ) : controlComponents hc mem = [⟨"c", 0, Gas.readVector (accepts (boundaryOf 1)) mem⟩] := rfl

theorem count_t : (goals hc (topologyT i)).count = 1 := rfl

theorem constraints_t (mem : ℕ → ℝ) :
    constraintComponents hc (topologyT i) mem = [⟨"b", 0, Gas.readVector (accepts (boundaryOf 1)) mem⟩] := rfl

theorem set_edge_t (mem : ℕ → ℝ) {q : ℚ} (h : acceptsN 20 (boundaryOf 1) (entryK q "c") = true)
    (hcheck : checkComponents ["c"] (edgeFile q) = Res.ok []) :
    boundsOf (controlComponents hc mem) mem [0, 1] (toNet hc).controlCount (edgeFile q) = Res.ok ⟨[0, 1], 1, [(q : ℝ), (q : ℝ)]⟩ := by
  unfold boundsOf
  rw [controls_t]
  have h0 := constant_value mem q (T := 3600) (t := 0) (by norm_num) le_rfl (by norm_num)
  have h1 := constant_value mem q (T := 3600) (t := 1) (by norm_num) (by norm_num) (by norm_num)
  push_cast at h0 h1
  have hset : setControl (⟨"c", 0, Gas.readVector (accepts (boundaryOf 1)) mem⟩ : ControlComponent ℝ)
      ⟨[0, 1], 1, [mem 0, mem 1]⟩ (entryK q "c") = Res.ok ⟨[0, 1], 1, [(q : ℝ), (q : ℝ)]⟩ := by
    unfold setControl
    simp only [read_entry mem h, Res.ok_bind, setTimes, h0, h1]
    rfl
  exact Res.bind_eq_ok.mpr ⟨[], hcheck, fold_cons_of hset rfl⟩

theorem set_node_t (mem : ℕ → ℝ) {q : ℚ} (h : acceptsN 20 (boundaryOf 1) (entryK q "b") = true)
    (hcheck : checkComponents ["b"] (nodeFile q) = Res.ok []) :
    boundsOf (constraintComponents hc (topologyT i) mem) mem [1] (goals hc (topologyT i)).count (nodeFile q) = Res.ok ⟨[1], 1, [(q : ℝ)]⟩ := by
  unfold boundsOf
  rw [constraints_t]
  have h1 := constant_value mem q (T := 3600) (t := 1) (by norm_num) (by norm_num) (by norm_num)
  push_cast at h1
  have hset : setControl (⟨"b", 0, Gas.readVector (accepts (boundaryOf 1)) mem⟩ : ControlComponent ℝ)
      ⟨[1], 1, [mem 0]⟩ (entryK q "b") = Res.ok ⟨[1], 1, [(q : ℝ)]⟩ := by
    unfold setControl
    simp only [read_entry mem h, Res.ok_bind, setTimes, h1]
    rfl
  exact Res.bind_eq_ok.mpr ⟨[], hcheck, fold_cons_of hset rfl⟩

end Verif.Read
