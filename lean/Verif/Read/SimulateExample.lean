import Verif.Read.Simulate

/-!
# C100: an example that fits and one that is accepted but cannot be simulated
-/

set_option autoImplicit false

namespace Verif.Read

open Verif.Json Verif.Factory Verif.Interp Verif.Schema

/-! ## The pipe of `Read.Example` fits -/

/-- There is only one length in metres under a key. -/
theorem Metres.unique {d j : Json} {key : String} {L L' : ℚ} (h : Metres d j key L) (h' : Metres d j key L') : L = L' := by
  obtain ⟨v, u, x, c, h1, h2, h3, rfl⟩ := h
  obtain ⟨v', u', x', c', h1', h2', h3', rfl⟩ := h'
  have e1 := h1.unique h1'
  injection e1 with e1
  have e2 := h2.unique h2'
  injection e2 with e2
  subst e1 e2
  have e := Unit.C52_meaning _ length_mem _ x c h3 v
  rw [Unit.C52_meaning _ length_mem _ x' c' h3' v] at e
  injection e with e
  exact e.symm

theorem Number.unique {d j : Json} {key : String} {q q' : ℚ} (h : Number d j key q) (h' : Number d j key q') : q = q' := by
  have := Given.unique h h'
  injection this

theorem metres_ex : Metres dEx pipeEx "length" 5000 ∧ Metres dEx pipeEx "diameter" (1 / 2) ∧
    Metres dEx pipeEx "roughness" (1 / 10000) := by
  refine ⟨⟨5, "km", _, _, Or.inl ⟨_, rfl, rfl⟩, Or.inl ⟨_, rfl, rfl⟩, means_km, by norm_num⟩,
    ⟨1 / 2, "m", _, _, Or.inl ⟨_, rfl, rfl⟩, Or.inl ⟨_, rfl, rfl⟩, means_m, by norm_num⟩,
    ⟨1 / 10, "mm", _, _, Or.inl ⟨_, rfl, rfl⟩, Or.inr ⟨?_, _, rfl, rfl⟩, means_mm, by norm_num⟩⟩
  intro m hm
  injection hm with hm
  subst hm
  rfl

theorem fit_ex : Fit defaultsEx topologyEx := by
  have one : ∀ {e}, e ∈ entries (types topologyEx "connections") → e = ("Pipe", pipeEx) := fun h => List.mem_singleton.mp h
  have two : ∀ {j}, ("Pipe", j) ∈ entries (types topologyEx "connections") → j = pipeEx := fun h => (Prod.mk.inj (one h)).2
  have hd : defaultsFor defaultsEx "Pipe" = dEx := rfl
  refine ⟨fun e he => ?_, fun j hj => ?_, fun j hj D r hD hr => ?_⟩
  · rw [one he]
    exact ⟨"a", "b", "Pressureboundarynode", "Sink", rfl, rfl, ⟨_, List.mem_cons_self, rfl⟩,
      ⟨_, List.mem_cons_of_mem _ (List.mem_singleton.mpr rfl), rfl⟩, by unfold Allowed; decide⟩
  · rw [two hj, hd]
    refine ⟨fun L hL => ?_, fun w hw => ?_⟩
    · rw [hL.unique metres_ex.1]; norm_num
    · rw [hw.unique (show Number _ _ _ 1000 from Or.inl rfl)]; norm_num
  · rw [two hj, hd] at hD hr
    rw [hD.unique metres_ex.2.1, hr.unique metres_ex.2.2]
    norm_num

theorem covers_ex {t : ℝ} (h0 : 0 ≤ t) (h1 : t ≤ 3600) : Covers defaultsEx topologyEx boundaryEx t := by
  have nodes : ∀ {x}, x ∈ entries (types topologyEx "nodes") →
      x = ("Pressureboundarynode", obj [("id", str "a")]) ∨ x = ("Sink", obj [("id", str "b")]) :=
    fun h => (List.mem_cons.mp h).imp id List.mem_singleton.mp
  refine ⟨fun name x hx _ _ _ e he _ => ?_, fun name x hx => ?_⟩
  · have : (name, e) = ("Pressureboundarynode", boundaryA) ∨ (name, e) = ("Sink", boundaryB) :=
      (List.mem_cons.mp he).imp id List.mem_singleton.mp
    rcases this with h | h <;> obtain ⟨-, rfl⟩ := Prod.mk.inj h
    · exact ⟨[(0, [60]), (3600, [50])], ⟨_, rfl, lists_a⟩, by simp, ⟨_, List.mem_cons_self, by simpa using h0⟩,
        ⟨(3600, [50]), by simp, by simpa using h1⟩⟩
    · exact ⟨[(0, [100]), (3600, [120])], ⟨_, rfl, .cons ⟨rfl, rfl, rfl⟩ (.cons ⟨rfl, rfl, rfl⟩ .nil)⟩, by simp,
        ⟨_, List.mem_cons_self, by simpa using h0⟩, ⟨(3600, [120]), by simp, by simpa using h1⟩⟩
  · rcases nodes hx with h | h <;> obtain ⟨rfl, rfl⟩ := Prod.mk.inj h <;> exact ⟨rfl, rfl⟩

/-- C100 applies: the residual of the pipe is computed for all states, at all times of the hour. -/
example (draws : Json → Res (ℝ → Res (ℝ × ℝ))) (hdraws : ∀ data d, draws data = Res.ok d → ∀ t, ∃ b, d t = Res.ok b)
    (mem : ℕ → ℝ) : ∃ hc : Consistent graphEx, ∀ t, 0 ≤ t → t ≤ 3600 →
      ∀ s z, ∃ r, (toNet hc).residual s t z = Res.ok r := by
  obtain ⟨hc, -, h⟩ := C100_partial rfl shaped_ex.1.1 shaped_ex.1.2 shaped_ex.2.1 shaped_ex.2.2 (read_ex draws mem) fit_ex
  exact ⟨hc, fun t h0 h1 => (h t (covers_ex h0 h1) fun data d hd => hdraws data d hd t).2⟩

/-! ## A transmission line to a gas node -/

def lineBad : Json := obj [("B", num 1), ("G", num 1), ("from", str "n"), ("id", str "l"), ("to", str "i")]

def nodeBad : Json := obj [("B", num 0), ("G", num 0), ("id", str "n")]

def topologyBad : Json := obj [
  ("connections", obj [("Transmissionline", arr [lineBad])]),
  ("nodes", obj [("Innode", arr [obj [("id", str "i")]]), ("PQnode", arr [nodeBad])])]

def boundaryN : Json := obj [("data", arr [obj [("time", num 0), ("values", arr [num 1, num 2])],
  obj [("time", num 3600), ("values", arr [num 1, num 2])]]), ("id", str "n")]

def boundaryBad : Json := obj [("nodes", obj [("PQnode", arr [boundaryN])])]

def nodeN : Json := obj [("B", num 0), ("G", num 0), ("boundary_values", boundaryN), ("id", str "n")]

def nodesBad : Json := obj [("Innode", arr [obj [("id", str "i")]]), ("PQnode", arr [nodeN])]

def edgesBad : Json := obj [("Transmissionline", arr [lineBad])]

theorem full_bad : buildFull topologyBad boundaryBad = Res.ok (obj [("connections", edgesBad), ("nodes", nodesBad)]) :=
  is_ok (n := 20) (by decide +kernel)

theorem prepare_i : prepareN 20 idSchema none (obj []) (obj [("id", str "i")]) = Res.ok (obj [("id", str "i")]) :=
  is_ok (n := 20) (by decide +kernel)

theorem prepare_n : prepareN 20 powerTopology (some (boundaryOf 2)) (obj []) nodeN = Res.ok nodeN :=
  is_ok (n := 20) (by decide +kernel)

theorem prepare_l : prepareN 20 lineTopology none (obj []) lineBad = Res.ok lineBad :=
  is_ok (n := 20) (by decide +kernel)

theorem lists_n : List.Forall₂ Gas.Entry [obj [("time", num 0), ("values", arr [num 1, num 2])],
    obj [("time", num 3600), ("values", arr [num 1, num 2])]] [(0, [1, 2]), (3600, [1, 2])] :=
  .cons ⟨rfl, rfl, rfl⟩ (.cons ⟨rfl, rfl, rfl⟩ .nil)

theorem construct_n (mem : ℕ → ℝ) :
    powerNode (.power .pq) mem nodeN = Res.ok ⟨.power .pq, two ⟨[0, 3600], 2, [1, 2, 1, 2]⟩, 0, 0⟩ := by
  have h := readVector_of (n := 20) mem (k := 2) (b := boundaryN) (by decide +kernel) rfl lists_n (by simp) (by simp)
  show ((Gas.readVector (accepts (boundaryOf 2)) mem boundaryN).bind _) = _
  rw [h]
  show Res.ok _ = _
  simp

theorem construct_l : line lineBad = Res.ok (.line 1 1) := by
  show Res.ok _ = _
  simp

/-- The network that is read. -/
noncomputable def graphBad : Graph Network.Node Network.EdgeKind :=
  ⟨[⟨"i", ⟨.innode, fun _ => Res.ok (0, 0), 0, 0⟩, [], [0]⟩,
    ⟨"n", ⟨.power .pq, two ⟨[0, 3600], 2, [1, 2, 1, 2]⟩, 0, 0⟩, [0], []⟩],
   [⟨"l", .line 1 1, 1, 0⟩]⟩

theorem read_bad (draws : Json → Res (ℝ → Res (ℝ × ℝ))) (mem : ℕ → ℝ) :
    readNet draws mem (obj []) topologyBad boundaryBad = Res.ok graphBad := by
  let xi : Node Network.Node := ⟨"i", ⟨.innode, fun _ => Res.ok (0, 0), 0, 0⟩, [], []⟩
  let xn : Node Network.Node := ⟨"n", ⟨.power .pq, two ⟨[0, 3600], 2, [1, 2, 1, 2]⟩, 0, 0⟩, [], []⟩
  let ni : ComponentType Network.Node := ⟨idSchema, none, obj [], innode⟩
  let nn : ComponentType Network.Node := ⟨powerTopology, some (boundaryOf 2), obj [], powerNode (.power .pq) mem⟩
  let el : ComponentType Network.EdgeKind := ⟨lineTopology, none, obj [], line⟩
  have mi : makeNode accepts ni (obj [("id", str "i")]) = Res.ok xi := makeNode_of prepare_i rfl rfl
  have mn : makeNode accepts nn nodeN = Res.ok xn := makeNode_of prepare_n rfl (construct_n mem)
  have ml : makeEdge accepts el ⟨[xi, xn], []⟩ lineBad = Res.ok graphBad :=
    makeEdge_of (u := 1) (v := 0) prepare_l rfl rfl rfl rfl rfl (by decide) construct_l
  have mi' : Res.each [obj [("id", str "i")]] (makeNode accepts ni) = _ := Res.each_eq_ok.mpr (.cons mi .nil)
  have mn' : Res.each [nodeN] (makeNode accepts nn) = _ := Res.each_eq_ok.mpr (.cons mn .nil)
  refine readNet_of (nodes := [_, _, ("Innode", ni), ("PQnode", nn), _, _, _, _, _, _])
    (edges := [_, _, _, _, _, ("Transmissionline", el)]) (vs := [[], [], [xi], [xn], [], [], [], [], [], []])
    rfl rfl full_bad (nj := nodesBad) (ej := edgesBad) rfl rfl rfl rfl ?_ ?_ rfl
  · exact .cons rfl (.cons rfl (.cons mi' (.cons mn' (.cons rfl (.cons rfl (.cons rfl (.cons rfl (.cons rfl (.cons rfl
      .nil)))))))))
  · exact fold_cons_of rfl (fold_cons_of rfl (fold_cons_of rfl (fold_cons_of rfl
      (fold_cons_of rfl (fold_cons_of (fold_cons_of ml rfl) rfl)))))

/-- C100 is false of the code. A power node that is joined to a gas node by a transmission line is read and set up without an
exception, but evaluating the equations of the network is undefined, whatever the state is. -/
theorem C100_false : ∃ topology boundary, (Shaped topology ∧ DistinctTypes topology) ∧
    (Shaped boundary ∧ DistinctTypes boundary) ∧ ∃ g, ∃ hc : Consistent g,
      (∀ draws mem, readNet draws mem (obj []) topology boundary = Res.ok g) ∧ (toNet hc).setup = Res.ok () ∧
      ∀ s t a, (toNet hc).evaluate s t a = Res.ub := by
  have hs : Shaped topologyBad ∧ DistinctTypes topologyBad := shaped_of (by decide +kernel)
  have hb : Shaped boundaryBad ∧ DistinctTypes boundaryBad := shaped_of (by decide +kernel)
  have hc : Consistent graphBad := by
    obtain ⟨nodes, edges, h1, h2, h3⟩ := readNet_ok (read_bad (fun _ => Res.throws) fun _ => 0)
    exact C48_graph (proper_of h1 h2 hs.1 hs.2) h3
  refine ⟨topologyBad, boundaryBad, hs, hb, graphBad, hc, read_bad, ?_, fun s t a => ?_⟩
  · unfold Network.Net.setup
    rw [if_pos]
    constructor
    · intro v
      have : ∀ v : Fin 2, ((toNet hc).node v).kind.isPlant = false := by
        intro v
        match v with
        | 0 => rfl
        | 1 => rfl
      intro h
      rw [this v] at h
      cases h
    · intro k g p n h
      have : ∀ k : Fin 1, (toNet hc).edge k = .line 1 1 := by
        intro k
        rw [Subsingleton.elim k 0]
        rfl
      rw [this k] at h
      cases h
  · rfl

end Verif.Read
