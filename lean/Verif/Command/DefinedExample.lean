import Verif.Command.Defined
import Verif.Command.ProgramExample

/-!
# C125: clean files, and files that are not
-/

set_option autoImplicit false

namespace Verif.Read

open Verif.Json Verif.Schema Verif.Factory Verif.Times Verif.Initial Verif.Interp Network Newton
open Verif.Output (Printed)

/-! ## Clean files -/

/-- The files of `Read.RunExample` are harmless. -/
theorem harmless_c : Harmless filesC := by
  have no : ∀ {j}, ("Pipe", j) ∉ entries (types topologyC "connections") := fun h => by
    have := (Prod.mk.inj (List.mem_singleton.mp h)).1
    revert this
    decide
  refine ⟨⟨fun x hx => ?_, fun j hj => absurd hj no⟩, fun e he l hl => ?_, fun e he => ?_⟩
  · have : ("StochasticPQnode", x) = ("Pressureboundarynode", obj [("id", str "a")]) ∨ ("StochasticPQnode", x) = ("Sink", obj [("id", str "b")]) :=
      (List.mem_cons.mp hx).imp id List.mem_singleton.mp
    rcases this with h | h <;> exact absurd (Prod.mk.inj h).1 (by decide)
  · have : e = initialEntry := List.mem_singleton.mp he
    subst this
    obtain ⟨_, es, -, h1, h2⟩ := hl
    obtain ⟨_, es', -, h1', h2'⟩ := described_c
    rw [h1] at h1'
    cases h1'
    match es, l, h2, h2' with
    | [_, _], [a, b], .cons p1 (.cons p2 .nil), .cons q1 (.cons q2 .nil) =>
      have e1 := Option.some.inj (p1.1.symm.trans q1.1)
      have e2 := Option.some.inj (p2.1.symm.trans q2.1)
      injection e1 with e1
      injection e2 with e2
      simp [e1, e2]
  · have : e = controlEntry := List.mem_singleton.mp he
    subst this
    exact ⟨[(0, [10]), (3600, [10])], ⟨_, rfl, .cons ⟨rfl, rfl, rfl⟩ (.cons ⟨rfl, rfl, rfl⟩ .nil)⟩, by simp, by simp⟩

/-- A factorization that always fails. -/
def failing : Solve := fun _ _ _ _ _ _ => none

theorem not_endless {draws : Json → Res (ℝ → Res (ℝ × ℝ))} {mem : ℕ → ℝ} {fuel : ℕ} {s : Settings} {f : Files} : ¬ Endless draws mem failing fuel s f := by
  rintro ⟨g, hc, -, last, new, x, c, full, y, h⟩
  have hi : ∀ n x' vals sol, iterate ((toNet hc).system (failing (toNet hc) last new x c) last new x c) s.tolerance full fuel
      (if full then none else ((toNet hc).system (failing (toNet hc) last new x c) last new x c).jac y) n x' vals sol ≠ none := by
    intro n x' vals sol
    cases n with
    | zero => simp [iterate]
    | succ n =>
      unfold iterate
      split
      · cases full <;> simp [failing, Net.system]
      · simp
  unfold solve at h
  cases full
  · simp only at h
    split at h
    · cases h
    · simp [failing, Net.system] at h
  · simp only at h
    split at h
    · cases h
    · simp only [Bool.not_true, Bool.false_and, Bool.false_eq_true, if_false, if_true] at h
      split at h
      · cases h
      · exact hi _ _ _ _ h

/-- C125 applies to the files: the run is defined, even if the matrices cannot be factorized. -/
example (mem : ℕ → ℝ) : run (fun _ => Res.throws) mem failing 10 settingsC filesC ≠ Res.ub := fun h =>
  not_endless ((C125_run_partial (f := filesC) (s := settingsC) rfl shaped_c.1 shaped_c.2 shaped_s.2.1 shaped_s.2.2 fit_c (by norm_num [settingsC])
    (by norm_num [settingsC]) (fun t h0 h1 => covers_c h0 (h1.trans (by norm_num [settingsC]))) (fun data d hd => by cases hd) (fun _ h => by cases h)
    harmless_c).1 h)

/-! ## Files that are not clean -/

/-- A wished time step of zero. -/
theorem C125_step_false (draws : Json → Res (ℝ → Res (ℝ × ℝ))) (mem : ℕ → ℝ) (lu : Solve) (fuel : ℕ) :
    run draws mem lu fuel { settingsC with desired := 0 } filesC = Res.ub := by
  unfold run stateGrid numberOfTimesteps
  rw [if_pos rfl]
  rfl

/-- A node with an empty list of boundary values. -/
def boundaryEmpty : Json := obj [("nodes", obj [("Pressureboundarynode", arr [obj [("data", arr []), ("id", str "a")]])])]

def nodeEmpty : Json := obj [("boundary_values", obj [("data", arr []), ("id", str "a")]), ("id", str "a")]

def topologyEmpty : Json := obj [("connections", obj []), ("nodes", obj [("Pressureboundarynode", arr [obj [("id", str "a")]])])]

theorem full_empty : buildFull topologyEmpty boundaryEmpty = Res.ok (obj [("connections", obj []), ("nodes", obj [("Pressureboundarynode", arr [nodeEmpty])])]) :=
  is_ok (n := 20) (by decide +kernel)

theorem prepare_empty : prepareN 20 idSchema (some (boundaryOf 1)) (obj []) nodeEmpty = Res.ok nodeEmpty :=
  is_ok (n := 20) (by decide +kernel)

theorem each_ub {α β : Type} {l1 l2 : List α} {x : α} {f : α → Res β} (h1 : ∀ y ∈ l1, ∃ z, f y = Res.ok z) (h2 : f x = Res.ub) :
    Res.each (l1 ++ x :: l2) f = Res.ub := by
  induction l1 with
  | nil =>
    show Res.each (x :: l2) f = _
    unfold Res.each
    rw [h2]
    rfl
  | cons a l ih =>
    obtain ⟨z, hz⟩ := h1 a List.mem_cons_self
    show Res.each (a :: (l ++ x :: l2)) f = _
    unfold Res.each
    rw [hz, Res.ok_bind, ih fun y hy => h1 y (List.mem_cons_of_mem _ hy)]
    rfl

theorem read_empty (draws : Json → Res (ℝ → Res (ℝ × ℝ))) (mem : ℕ → ℝ) : readNet draws mem (obj []) topologyEmpty boundaryEmpty = Res.ub := by
  let na : ComponentType Network.Node := ⟨idSchema, some (boundaryOf 1), obj [], pressureNode mem⟩
  have ma : makeNode accepts na nodeEmpty = Res.ub := by
    have hv : Gas.readVector (accepts (boundaryOf 1)) mem (obj [("data", arr []), ("id", str "a")]) = Res.ub := by
      unfold Gas.readVector
      rw [if_pos (acceptsN_ok (n := 20) (by decide +kernel))]
      rfl
    have hs : na.construct nodeEmpty = Res.ub := by
      show pressureNode mem nodeEmpty = _
      unfold pressureNode Gas.source
      rw [index_of_find (show nodeEmpty.find? "boundary_values" = some (obj [("data", arr []), ("id", str "a")]) from rfl), Res.ok_bind, hv]
      rfl
    unfold makeNode
    rw [prepareN_ok prepare_empty, Res.ok_bind, rawId_of (s := "a") (find_id.mpr rfl), Res.ok_bind, hs]
    rfl
  have h1 : ∃ nodes, Res.each (nodeList draws mem) (withDefaults (obj [])) = Res.ok nodes ∧ ∃ l1 l2, nodes = l1 ++ ("Pressureboundarynode", na) :: l2 ∧
      (∀ t ∈ l1, t.1 ≠ "Pressureboundarynode") ∧ unknownType nodes (obj [("Pressureboundarynode", arr [nodeEmpty])]) = false :=
    ⟨_, rfl, [_, _, _, _, _], _, rfl, by simp, rfl⟩
  obtain ⟨nodes, h1, l1, l2, hl, hne, hu⟩ := h1
  obtain ⟨edges, h2⟩ : ∃ edges, Res.each edgeList (withDefaults (obj [])) = Res.ok edges := ⟨_, rfl⟩
  unfold readNet buildNet
  rw [h1, Res.ok_bind, h2, Res.ok_bind, full_empty, Res.ok_bind]
  unfold buildGraph
  show ((buildNodes accepts nodes (obj [("Pressureboundarynode", arr [nodeEmpty])])).bind _) = _
  unfold buildNodes
  rw [if_neg (by simp [hu]), hl, each_ub (x := ("Pressureboundarynode", na))]
  · rfl
  · intro t ht
    rw [show (obj [("Pressureboundarynode", arr [nodeEmpty])]).find? t.1 = none from ?_]
    · exact ⟨_, rfl⟩
    · have := hne t ht
      simp only [find?, List.lookup, beq_eq_false_iff_ne.mpr this]
  · show (Res.each [nodeEmpty] (makeNode accepts na)) = _
    unfold Res.each
    rw [ma]
    rfl

/-- An empty list of boundary values, which the schema allows. -/
theorem C125_empty_false (draws : Json → Res (ℝ → Res (ℝ × ℝ))) (mem : ℕ → ℝ) (lu : Solve) (fuel : ℕ) :
    run draws mem lu fuel settingsC { filesC with topology := topologyEmpty, boundary := boundaryEmpty } = Res.ub := by
  unfold run
  simp only [settingsC, grid_c]
  show ((readNet draws mem (obj []) topologyEmpty boundaryEmpty).bind _) = _
  rw [read_empty]
  rfl

/-! ## Optimizations -/

theorem lists_entry (q : ℚ) (id : String) : ListsTimes (entryK q id) :=
  ⟨[(0, [q]), (3600, [q])], ⟨_, rfl, .cons ⟨rfl, rfl, rfl⟩ (.cons ⟨rfl, rfl, rfl⟩ .nil)⟩, by simp, by simp⟩

/-- The files of `Read.NlpExample` are harmless. -/
theorem harmless_k : Harmless filesK := by
  have no : ∀ {j}, ("Pipe", j) ∉ entries (types topologyK "connections") := fun h => by
    have := (Prod.mk.inj (List.mem_singleton.mp h)).1
    revert this
    decide
  refine ⟨⟨fun x hx => ?_, fun j hj => absurd hj no⟩, harmless_c.initial, harmless_c.control⟩
  have : ("StochasticPQnode", x) = ("ConstraintSink", obj [("id", str "b")]) ∨ ("StochasticPQnode", x) = ("Pressureboundarynode", obj [("id", str "a")]) :=
    (List.mem_cons.mp hx).imp id List.mem_singleton.mp
  rcases this with h | h <;> exact absurd (Prod.mk.inj h).1 (by decide)

theorem lists_edge (q : ℚ) : ∀ e ∈ components (edgeFile q), ListsTimes e := by
  intro e he
  have : e = entryK q "c" := List.mem_singleton.mp he
  subst this
  exact lists_entry q "c"

theorem lists_node (q : ℚ) : ∀ e ∈ components (nodeFile q), ListsTimes e := by
  intro e he
  have : e = entryK q "b" := List.mem_singleton.mp he
  subst this
  exact lists_entry q "b"

theorem harmless_bounds : HarmlessBounds boundsK := ⟨lists_edge 0, lists_edge 30, lists_node 40, lists_node 80⟩

theorem controlled_k {draws : Json → Res (ℝ → Res (ℝ × ℝ))} {mem : ℕ → ℝ} :
    ∀ g, ∀ hc : Consistent g, readNet draws mem filesK.defaults filesK.topology filesK.boundary = Res.ok g → 0 < (toNet hc).controlCount := by
  intro g hc hg
  have : readNet draws mem filesK.defaults filesK.topology filesK.boundary = Res.ok graphK := read_k draws mem
  rw [this] at hg
  cases hg
  exact Nat.zero_lt_one

/-- C125 applies to an optimization: with any vector of the right length that Ipopt may return, files are written or an exception is thrown. -/
example [Printed ℝ] (mem : ℕ → ℝ) {x : List ℝ} (hx : x.length = 2) : optimizedFiles (fun _ => Res.throws) mem failing 10 settingsC 1 filesK boundsK x ≠ Res.ub := fun h =>
  not_endless (C125_optimized_partial (f := filesK) (s := settingsC) rfl shaped_k.1.1 shaped_k.1.2 shaped_k.2.1 shaped_k.2.2 fit_k (by norm_num [settingsC])
    (by norm_num [settingsC]) (by norm_num [settingsC]) (fun t h0 h1 => covers_k h0 (h1.trans (by norm_num [settingsC]))) (fun data d hd => by cases hd)
    (fun _ h => by cases h) harmless_k controlled_k harmless_bounds (fun c hc => by cases hc) (fun P hP => by
      obtain ⟨hc, -⟩ := C100_partial rfl shaped_k.1.1 shaped_k.1.2 shaped_k.2.1 shaped_k.2.2 (read_k (fun _ => Res.throws) mem) fit_k
      rw [(optimization_k hc _ mem failing).1] at hP
      cases hP
      exact hx) h)

/-- C125 applies to what Ipopt evaluates: also with the value that happens to be in front of an array. -/
example (mem : ℕ → ℝ) : ∃ P, optimization (fun _ => Res.throws) mem failing 10 settingsC 1 filesK boundsK = Res.ok P ∧ ∀ x, x.length = 2 →
    P.simulation x ≠ Res.ub ∧ P.objective x ≠ Res.ub ∧ P.constraintValues x ≠ Res.ub ∧ ∀ oob, P.derivatives oob x ≠ Res.ub := by
  obtain ⟨hc, -⟩ := C100_partial rfl shaped_k.1.1 shaped_k.1.2 shaped_k.2.1 shaped_k.2.2 (read_k (fun _ => Res.throws) mem) fit_k
  have hP := (optimization_k hc (fun _ => Res.throws) mem failing).1
  refine ⟨_, hP, fun x hx => ?_⟩
  obtain ⟨h1, h2, h3⟩ := C125_evaluations_partial (f := filesK) (s := settingsC) rfl shaped_k.1.1 shaped_k.1.2 shaped_k.2.1 shaped_k.2.2 fit_k (by norm_num [settingsC])
    (by norm_num [settingsC]) (by norm_num [settingsC]) (fun t h0 h1 => covers_k h0 (h1.trans (by norm_num [settingsC]))) (fun data d hd => by cases hd) hP (x := x) hx
  obtain ⟨h4, h5⟩ := h3 (by
    intro g hc' hg v _
    have : readNet (fun _ => Res.throws) mem filesK.defaults filesK.topology filesK.boundary = Res.ok graphK := read_k _ mem
    rw [this] at hg
    cases hg
    change Fin 2 at v
    refine ⟨(0 : Fin 1), rfl, ?_⟩
    fin_cases v
    · exact Or.inr rfl
    · exact Or.inl rfl)
  exact ⟨fun h => not_endless (h1 h), fun h => not_endless (h2 h), fun h => not_endless (h4 h), fun oob h => not_endless (h5 oob (Or.inr (Or.inl rfl)) h)⟩

theorem set_single {g : Consistent graphK} (mem : ℕ → ℝ) {q : ℚ} (h : acceptsN 20 (boundaryOf 1) (entryK q "c") = true)
    (hcheck : checkComponents ["c"] (edgeFile q) = Res.ok []) :
    boundsOf (controlComponents g mem) mem [0] (toNet g).controlCount (edgeFile q) = Res.ok ⟨[0], 1, [(q : ℝ)]⟩ := by
  unfold boundsOf
  rw [controls_k]
  have h0 := constant_value mem q (T := 3600) (t := 0) (by norm_num) le_rfl (by norm_num)
  push_cast at h0
  have hset : setControl (⟨"c", 0, Gas.readVector (accepts (boundaryOf 1)) mem⟩ : ControlComponent ℝ)
      ⟨[0], 1, [mem 0]⟩ (entryK q "c") = Res.ok ⟨[0], 1, [(q : ℝ)]⟩ := by
    unfold setControl
    simp only [read_entry mem h, Res.ok_bind, setTimes, h0]
    rfl
  exact Res.bind_eq_ok.mpr ⟨[], hcheck, fold_cons_of hset rfl⟩

open IndexLambda OptTimes in
/-- An optimization with a single control time: the pairs of state times and control times are computed before the times are checked. -/
theorem C125_single_false (draws : Json → Res (ℝ → Res (ℝ × ℝ))) (mem : ℕ → ℝ) (lu : Solve) (fuel : ℕ) :
    optimization draws mem lu fuel { settingsC with control := some ⟨none, some 1⟩ } 1 filesK boundsK = Res.ub := by
  obtain ⟨hc, -⟩ := C100_partial rfl shaped_k.1.1 shaped_k.1.2 shaped_k.2.1 shaped_k.2.2 (read_k draws mem) fit_k
  have hstart := set_single (g := hc) mem (q := 10) (by decide +kernel) (by decide +kernel)
  have hlower := set_single (g := hc) mem (q := 0) (by decide +kernel) (by decide +kernel)
  have hupper := set_single (g := hc) mem (q := 30) (by decide +kernel) (by decide +kernel)
  have hklower := set_node hc mem (q := 40) (by decide +kernel) (by decide +kernel)
  have hkupper := set_node hc mem (q := 80) (by decide +kernel) (by decide +kernel)
  have hgrid : controlGrid settingsC.start settingsC.desired settingsC.stop (some ⟨none, some 1⟩) = Res.ok [0] := by
    norm_num [controlGrid, settingsC]
  have hsel : selectConstraintTimes [(0 : ℝ), 60] 1 = Res.ok [60] := rfl
  have hpairs : computeIndexLambdaVector [(0 : ℝ)] [0, 60] = Res.ub := by
    have h1 : computeIndexLambda [(0 : ℝ)] 0 = Res.ok (0, 1) := by
      have hl : lowerBound [(0 : ℝ)] 0 = 0 := by simp [lowerBound, List.findIdx_cons]
      unfold computeIndexLambda
      simp only [List.getLast?_singleton, hl]
      rw [if_neg (by norm_num)]
      rfl
    have h2 : computeIndexLambda [(0 : ℝ)] 60 = Res.ub := C08_end_iterator _ (by simp) (by simp) _ (by norm_num [EPSILON])
    simp [computeIndexLambdaVector, h1, h2]
  unfold optimization
  show ((stateGrid settingsC.start settingsC.desired settingsC.stop).bind _) = _
  rw [show stateGrid settingsC.start settingsC.desired settingsC.stop = _ from grid_c, Res.bind]
  show ((readNet draws mem (obj []) topologyK boundaryK).bind _) = _
  rw [read_k, Res.bind]
  simp only
  rw [dif_pos hc, setup_k hc, Res.ok_bind, show setInitialValues _ _ filesK.initial = _ from initial_k hc mem, Res.ok_bind,
    if_pos (show 0 < (toNet hc).controlCount from Nat.zero_lt_one), hgrid, Res.ok_bind,
    show boundsOf _ _ _ _ filesK.control = _ from hstart, Res.ok_bind, hsel, Res.ok_bind,
    show boundsOf _ _ _ _ boundsK.lower = _ from hlower, Res.ok_bind, show boundsOf _ _ _ _ boundsK.upper = _ from hupper, Res.ok_bind,
    show boundsOf (constraintComponents hc filesK.topology mem) _ _ (goals hc filesK.topology).count boundsK.constraintLower = _ from hklower, Res.ok_bind, 
    show boundsOf (constraintComponents hc filesK.topology mem) _ _ (goals hc filesK.topology).count boundsK.constraintUpper = _ from hkupper, Res.ok_bind, hpairs]
  rfl

end Verif.Read

namespace Verif.Command

open Verif.Json Verif.Schema Verif.Factory Verif.Times Verif.Read Verif.Initial Verif.Interp Network
open Verif.Output (Printed)

/-- The libraries of `Command.ProgramExample`, but Ipopt returns as many numbers as it was told. -/
noncomputable def librariesOf (lu : Solve) : Libraries := { lettersOf lu with ipopt := fun P => (false, List.replicate (P.controls * P.controlTimes.length) 10) }

theorem json_in {lu : Solve} {optimize : Bool} {name : String} {j j' : Json} (h : name ∈ fileNames) (hj : ((directory optimize).lookup name).bind parseLetters = some j)
    (hin : JsonIn (librariesOf lu).parse (texts (resolve []) (diskOf optimize)) name j') : j' = j := by
  obtain ⟨t, h1, h2⟩ := hin
  rw [load_name optimize h] at h1
  rw [h1] at hj
  exact Option.some.inj (h2.symm.trans hj)

theorem number_is {j : Json} {ks : List String} {x : ℝ} {q : ℚ} (h : NumberAt j ks x) (hq : valueAt j ks = some (num q)) : x = q := by
  obtain ⟨q', h1, rfl⟩ := h
  rw [hq] at h1
  cases h1
  rfl

theorem clean_of (lu : Solve) {optimize : Bool} {topology boundary : Json}
    (hparse : parseLetters (if optimize then ['p'] else ['q']) = some (allOf optimize boundary topology))
    (ht : topology.isObj = true ∧ Shaped topology ∧ DistinctTypes topology) (hb : Shaped boundary ∧ DistinctTypes boundary) (hf : Fit (obj []) topology)
    (hcov : ∀ t : ℝ, 0 ≤ t → t ≤ 60 → Covers (obj []) topology boundary t) (hn : HarmlessNet (obj []) topology boundary)
    (hneed : optimize = true → NeedsControls topology) : Clean (librariesOf lu) (texts (resolve []) (diskOf optimize)) := by
  have hall : ∀ all, JsonIn (librariesOf lu).parse (texts (resolve []) (diskOf optimize)) "problem_data.json" all → all = allOf optimize boundary topology :=
    fun all h => json_in (optimize := optimize) (name := "problem_data.json") (by decide) hparse h
  have htop : ∀ f : Files, Given (librariesOf lu).parse (texts (resolve []) (diskOf optimize)) (allOf optimize boundary topology) "topology_json" f.topology →
      f.topology = topology := by
    intro f h
    rcases h with ⟨h, -⟩ | ⟨name, h, -⟩
    · exact (Option.some.inj h).symm
    · have : topology = str name := Option.some.inj h
      rw [this] at ht
      cases ht.1
  refine ⟨fun all h => ?_, fun all s f hin hw => ?_, fun j hj => ?_, fun all h hopt => ?_⟩
  · rw [hall all h]
    refine ⟨by simp [allOf, valueAt, settingsJson, find?, List.lookup], by simp [allOf, valueAt, settingsJson, find?, List.lookup],
      by simp [allOf, valueAt, settingsJson, find?, List.lookup], ?_, ?_, ?_, ?_⟩
    · intro h
      have : (num 60 : Json) = num 0 := Option.some.inj h
      injection this with this
      revert this
      norm_num
    · intro v hv
      exact ⟨5, (Option.some.inj hv).symm, by norm_num, by norm_num⟩
    · intro v hv
      exact ⟨1, (Option.some.inj hv).symm, by norm_num, by norm_num⟩
    · intro v hv
      cases hv
  · have hp := hall all hin.problem
    subst hp
    have hi : f.initial = initialC := json_in (by decide) (by cases optimize <;> rfl) hin.initial
    have ht' := htop f hin.topology
    have hb' : f.boundary = boundary := by
      rcases hin.boundary with ⟨h, -⟩ | ⟨name, h, -⟩
      · exact (Option.some.inj h).symm
      · have : boundary = str name := Option.some.inj h
        rw [this] at hparse
        cases optimize
        · have := Option.some.inj hparse
          injection this with this
          exact absurd this (by simp [boundaryS])
        · have := Option.some.inj hparse
          injection this with this
          exact absurd this (by simp [boundaryK])
    have hd : f.defaults = obj [] := by
      rcases hin.defaults with h | ⟨-, h⟩
      · cases h
      · exact h
    have e1 : s.start = 0 := by simpa using number_is hw.start (q := 0) rfl
    have e2 : s.stop = 60 := by simpa using number_is hw.stop (q := 60) rfl
    have e3 : s.desired = 60 := by simpa using number_is hw.desired (q := 60) rfl
    have e4 : (s.iterations : ℝ) = 5 := by simpa using number_is hw.iterations (q := 5) rfl
    refine ⟨⟨?_, ?_, ?_, ?_, ?_, fun data d hd => by cases hd⟩, ?_, ?_⟩
    · rw [ht']; exact ht
    · rw [hb']; exact hb
    · rw [hd, ht']; exact hf
    · rw [e1, e2, e3]
      refine ⟨by norm_num, by norm_num, ?_⟩
      have : s.iterations = 5 := by exact_mod_cast e4
      omega
    · rw [e1, e2, hd, ht', hb']
      exact hcov
    · rw [hd, ht', hb']; exact hn
    · rw [hi]; exact harmless_c.initial
  · have : j = controlC := json_in (by decide) (by cases optimize <;> rfl) hj
    rw [this]
    exact harmless_c.control
  · have hopt' : optimize = true := by
      rw [hall all h] at hopt
      have := Option.some.inj hopt
      injection this
    refine ⟨fun all f hin => ?_, fun all h => ?_, fun name hname j hj => ?_, fun P => by simp [librariesOf]⟩
    · have hp := hall all hin.problem
      subst hp
      rw [htop f hin.topology]
      exact hneed hopt'
    · rw [hall all h]
      intro h
      cases h
    · rcases List.mem_cons.mp hname with rfl | hname
      · have : j = edgeFile 0 := json_in (by decide) (by cases optimize <;> rfl) hj
        rw [this]
        exact lists_edge 0
      rcases List.mem_cons.mp hname with rfl | hname
      · have : j = edgeFile 30 := json_in (by decide) (by cases optimize <;> rfl) hj
        rw [this]
        exact lists_edge 30
      rcases List.mem_cons.mp hname with rfl | hname
      · have : j = nodeFile 40 := json_in (by decide) (by cases optimize <;> rfl) hj
        rw [this]
        exact lists_node 40
      · have := List.mem_singleton.mp hname
        subst this
        have : j = nodeFile 80 := json_in (by decide) (by cases optimize <;> rfl) hj
        rw [this]
        exact lists_node 80

/-- The files of `Command.ProgramExample` are clean, those of the simulation and those of the optimization. -/
theorem clean_letters (lu : Solve) (optimize : Bool) : Clean (librariesOf lu) (texts (resolve []) (diskOf optimize)) := by
  cases optimize
  · exact clean_of lu (topology := topologyC) (boundary := boundaryS) rfl ⟨rfl, shaped_c.1, shaped_c.2⟩ ⟨shaped_s.2.1, shaped_s.2.2⟩ fit_c
      (fun t h0 h1 => covers_c h0 (h1.trans (by norm_num))) harmless_c.net (fun h => by cases h)
  · exact clean_of lu (topology := topologyK) (boundary := boundaryK) rfl ⟨rfl, shaped_k.1.1, shaped_k.1.2⟩ ⟨shaped_k.2.1, shaped_k.2.2⟩ fit_k
      (fun t h0 h1 => covers_k h0 (h1.trans (by norm_num))) harmless_k.net
      (fun _ => ⟨_, "Compressorstation", List.mem_singleton.mpr rfl, by decide⟩)

/-- C125 applies: the program throws or computes something from these files, even if matrices cannot be factorized. -/
example [Printed ℝ] (optimize : Bool) : (program (librariesOf failing)).eval (texts (resolve []) (diskOf optimize)) ≠ Res.ub := by
  intro h
  obtain ⟨controls, all, s, f, -, -, h2⟩ := C125_program_partial (L := librariesOf failing) (fun _ h => by cases h) (clean_letters failing optimize) h
  exact not_endless h2

end Verif.Command
