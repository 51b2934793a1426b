import Verif.Command.ProgramExample
import Verif.Read.DefinedOpt

/-!
# Property C144: does an optimization that ends write its results?

Source: `/repo/src/Grazer/commands.cpp` 226-310.

After Ipopt has returned, the density of the Jacobian of the constraints is printed on the console. For this the Jacobian is assigned to a view of a vector with as many
entries. If there are no constraints, the vector is empty, its pointer is null, and a view of a null pointer throws. So the results of an optimization without constraints
are lost.
-/

set_option autoImplicit false

namespace Verif.Command

open Verif.Json Verif.Schema Verif.Factory Verif.Times Verif.Read Verif.Initial Verif.Interp Verif.OptTimes Verif.Newton Verif.Evolve Network Net
open Verif.Output (Printed)

/-! ## Specification -/

/-- C144: if an optimization problem is set up and the states for the controls that Ipopt returns can be computed, both files of results are written. -/
def C144Statement [Printed ℝ] : Prop :=
  ∀ (draws : Json → Res (ℝ → Res (ℝ × ℝ))) (mem : ℕ → ℝ) (lu : Solve) (fuel : ℕ) (s : Settings) (every : ℤ) (f : Files) (b : Bounds), Sound draws s f →
    ∀ P, optimization draws mem lu fuel s every f b = Res.ok P → ∀ (x : List ℝ) (z : List Vec), P.simulation x = Res.ok (z.map some) →
      ∃ controls states, optimizedFiles draws mem lu fuel s every f b x = Res.ok (controls, some states)

/-! ## Proofs -/

variable {draws : Json → Res (ℝ → Res (ℝ × ℝ))} {mem : ℕ → ℝ} {lu : Solve} {fuel : ℕ} {s : Settings} {every : ℤ} {f : Files} {b : Bounds}

/-- Without constrained sinks there are no constraints and the Jacobian is empty. -/
theorem unconstrained {P : Nlp} (h : optimization draws mem lu fuel s every f b = Res.ok P) (hk : ¬ ∃ id, ConstraintSink f.topology id) :
    P.jacobian.nonZeros = 0 := by
  unfold optimization at h
  obtain ⟨times, ht, h⟩ := Res.bind_eq_ok.mp h
  obtain ⟨g, hg, h⟩ := Res.bind_eq_ok.mp h
  split at h
  · next hc =>
    obtain ⟨_, hset, h⟩ := Res.bind_eq_ok.mp h
    obtain ⟨initial, hinit, h⟩ := Res.bind_eq_ok.mp h
    simp only at h
    split at h
    · next hpos =>
      iterate 9 obtain ⟨_, -, h⟩ := Res.bind_eq_ok.mp h
      obtain ⟨jac, hjac, h⟩ := Res.bind_eq_ok.mp h
      iterate 8 obtain ⟨_, -, h⟩ := Res.bind_eq_ok.mp h
      injection h with h
      subst h
      simp only
      have hcount : (goals hc f.topology).count = 0 := by
        rw [constraintCount_card, Finset.card_eq_zero, Finset.filter_eq_empty_iff]
        exact fun v _ hv => hk ⟨_, isConstraintSink_iff.mp hv⟩
      have hb : jac.blockHeight = 0 := by
        unfold Jacobian.makeData at hjac
        split at hjac
        · cases hjac
        · injection hjac with hjac
          rw [← hjac]
          exact hcount
      simp [Jacobian.Jac.nonZeros, Jacobian.Jac.blockSize, hb]
    · cases h
  · cases h

/-- C144. Without constrained sinks nothing is ever written: whatever Ipopt returns, there is an exception. -/
theorem C144_without [Printed ℝ] {P : Nlp} (h : optimization draws mem lu fuel s every f b = Res.ok P) (hk : ¬ ∃ id, ConstraintSink f.topology id) (x : List ℝ) :
    optimizedFiles draws mem lu fuel s every f b x = Res.throws := by
  have hd : Jacobian.density mem 0 ⟨P.jacobian, .own (List.replicate P.jacobian.nonZeros (0 : ℝ))⟩ = Res.throws := by
    rw [Jacobian.density_eq _ _ _ _ List.length_replicate]
    exact if_pos (unconstrained h hk)
  unfold optimizedFiles
  rw [h, Res.ok_bind, hd]
  rfl

open Classical in
/-- C144, part: with a constrained sink both files are written.
Missing: problems without constraints. For them it is false, see `C144_false`. -/
theorem C144_partial [Printed ℝ] (hs : Sound draws s f) {P : Nlp} (h : optimization draws mem lu fuel s every f b = Res.ok P) {x : List ℝ} {z : List Vec}
    (hz : P.simulation x = Res.ok (z.map some)) {id : String} (hk : ConstraintSink f.topology id) :
    ∃ controls states, optimizedFiles draws mem lu fuel s every f b x = Res.ok (controls, some states) := by
  obtain ⟨g, hc, hg, -, pos, p⟩ := C104_problem hs.topology.1 hs.topology.2.1 hs.topology.2.2 hs.boundary.1 hs.boundary.2 hs.fit hs.settings.1 hs.settings.2.1
    hs.settings.2.2 hs.covers hs.draws h
  obtain ⟨hxl, -⟩ := p.simulation x _ hz
  have hpos : 0 < P.constraints := by
    obtain ⟨node, edge, S⟩ := sited_of hs.topology.2.1 hs.topology.2.2 hg hs.fit hc
    obtain ⟨e, he, hid⟩ := hk
    obtain ⟨v, hv⟩ := List.mem_ofFn.mp (S.nodes.mem_iff.mpr he)
    have hn := S.nodeId v
    rw [hv] at hn
    rw [p.constraints]
    exact Finset.card_pos.mpr ⟨v, Finset.mem_filter.mpr ⟨Finset.mem_univ _, e, he, hn⟩⟩
  obtain ⟨d, hdensity⟩ := (density_optimized hs.settings.1 hs.settings.2.1 h).1 hpos
  obtain ⟨g', hc', hg', -, -, -, -, controls, hcon, -⟩ := C116_controls h hxl
  rw [hg] at hg'
  injection hg' with hg'
  subst hg'
  obtain ⟨g', hc', hg', initial, w, pairs, q⟩ := parts_of hs.topology.1 hs.topology.2.1 hs.topology.2.2 hs.boundary.1 hs.boundary.2 hs.fit hs.settings.1 hs.settings.2.1
    hs.settings.2.2 hs.covers hs.draws h
  rw [hg] at hg'
  injection hg' with hg'
  subst hg'
  obtain ⟨-, z', hz', hlen, -⟩ := q.simulated x _ hz
  obtain ⟨out, hout⟩ := states_written (hc := hc) hs.topology.1 hs.topology.2.1 hs.topology.2.2 hs.boundary.1 hs.boundary.2 hs.fit hs.settings.1 hs.covers hs.draws hg
    q.good.bounds (states := z) (by
      have := congrArg List.length hz'
      simp only [List.length_map] at this
      omega) (by
      intro v hv
      have : some v ∈ z.map some := List.mem_map.mpr ⟨v, hv, rfl⟩
      rw [hz'] at this
      obtain ⟨o, -, ho⟩ := List.mem_map.mp this
      rw [Option.map_eq_some_iff] at ho
      obtain ⟨y, -, rfl⟩ := ho
      exact ⟨y, rfl⟩)
  refine ⟨controls, out, ?_⟩
  unfold optimizedFiles
  simp only [h, hdensity, hz, hg, Res.ok_bind]
  rw [dif_pos hc]
  simp only [hcon, Res.ok_bind, allSome_some, hout]

section
variable {Proc : Type} [DecidableEq Proc] {base d : Path} {prog : Proc → Prog Outputs} {other : Disk → Disk → Prop} {fs₀ fs : Disk}
  {stage : Proc → Stage} {i : Proc} {L : Libraries}

open Classical in
/-- C144. A run with optimization that returns 0 is one of a problem with a constrained sink. There may be other runs at the same time and other programs, but they are not to change
the problem. -/
theorem C144_program [Printed ℝ] (h : Reach false (resolve base) base prog other fs₀ fs stage) (hprog : prog i = program L)
    (hself : SelfContained base (program L) fs₀)
    (hother : ∀ r ∈ (program L).references (texts (resolve base) fs₀), ∀ fs fs', other fs fs' → fs' (resolve base r) = fs (resolve base r))
    (hexit : stage i = .exited (some d) 0) :
    ∃ controls all s f, IsProblem L.parse (texts (resolve base) fs₀) L.draws controls all s f ∧
      (valueAt all ["optimize"] = some (.bool true) → ∃ id, ConstraintSink f.topology id) := by
  rw [← hprog] at hself hother
  obtain ⟨out, h1, h2⟩ := (C121_result_partial h (self_contained_not_output hself) hother
    (fun reads out hy => by rw [hprog] at hy; exact (program_apart reads out hy).2.2) hexit).1 rfl
  rw [hprog] at h1
  unfold program at h1
  rw [Prog.eval_bind] at h1
  obtain ⟨⟨all, s, f⟩, hall, h1⟩ := Res.bind_eq_ok.mp h1
  simp only at h1
  split at h1
  · rename_i hopt
    rw [Prog.eval_bind] at h1
    obtain ⟨b1, hb1, h1⟩ := Res.bind_eq_ok.mp h1
    rw [Prog.eval_bind] at h1
    obtain ⟨b2, hb2, h1⟩ := Res.bind_eq_ok.mp h1
    rw [Prog.eval_bind] at h1
    obtain ⟨b3, hb3, h1⟩ := Res.bind_eq_ok.mp h1
    rw [Prog.eval_bind] at h1
    obtain ⟨b4, hb4, h1⟩ := Res.bind_eq_ok.mp h1
    rw [Prog.eval_done] at h1
    unfold optimizationOutputs at h1
    obtain ⟨P, hP, h1⟩ := Res.bind_eq_ok.mp h1
    obtain ⟨⟨c, j⟩, hj, h1⟩ := Res.bind_eq_ok.mp h1
    obtain ⟨g, hc, hg, hcf⟩ := optimized_controls hj hP
    refine ⟨decide (HasControls L f), all, s, f, isProblem_of hall ⟨g, hc, hg⟩, fun _ => ?_⟩
    by_contra hk
    rw [C144_without hP hk] at hj
    cases hj
  · rename_i hopt
    rw [Prog.eval_done] at h1
    unfold simulationOutputs at h1
    obtain ⟨j, hj, h1⟩ := Res.bind_eq_ok.mp h1
    have hnet : ∃ g, ∃ _ : Consistent g, readNet L.draws L.mem f.defaults f.topology f.boundary = Res.ok g := by
      have hj' := hj
      unfold runFile at hj'
      obtain ⟨r, hr, -⟩ := Res.bind_eq_ok.mp hj'
      exact run_net hr
    exact ⟨decide (HasControls L f), all, s, f, isProblem_of hall hnet, fun hv => absurd (readOptimize_iff.mpr hv) hopt⟩

end

/-! ## Examples -/

/-- The bounds of a problem without constraints. -/
def boundsC : Bounds := ⟨edgeFile 0, edgeFile 30, obj [], obj []⟩

theorem set_edge_c (hc : Consistent graphC) (mem : ℕ → ℝ) {q : ℚ} (h : acceptsN 20 (boundaryOf 1) (entryK q "c") = true)
    (hcheck : checkComponents ["c"] (edgeFile q) = Res.ok []) :
    boundsOf (controlComponents hc mem) mem [0, 60] (toNet hc).controlCount (edgeFile q) = Res.ok ⟨[0, 60], 1, [(q : ℝ), (q : ℝ)]⟩ := by
  unfold boundsOf
  rw [controls_c]
  have h0 := constant_value mem q (T := 3600) (t := 0) (by norm_num) le_rfl (by norm_num)
  have h1 := constant_value mem q (T := 3600) (t := 60) (by norm_num) (by norm_num) (by norm_num)
  push_cast at h0 h1
  have hset : setControl (⟨"c", 0, Gas.readVector (accepts (boundaryOf 1)) mem⟩ : ControlComponent ℝ)
      ⟨[0, 60], 1, [mem 0, mem 1]⟩ (entryK q "c") = Res.ok ⟨[0, 60], 1, [(q : ℝ), (q : ℝ)]⟩ := by
    unfold setControl
    simp only [read_entry mem h, Res.ok_bind, setTimes, h0, h1]
    rfl
  exact Res.bind_eq_ok.mpr ⟨[], hcheck, fold_cons_of hset rfl⟩

theorem simulate_c (hc : Consistent graphC) (lu : Solve) : (Evolve.simulate settingsC.retries settingsC.simplified
    (newtonSolver (fun a b x c => (toNet hc).system (lu (toNet hc) a b x c) a b x c) settingsC.tolerance settingsC.iterations 10)
    (controlsAt (N := toNet hc) [0, 60] [10, 10]) [0, 60] (some (entriesOf [60, 5, 70, 5]))).1 =
      Res.ok [some (stateC hc), some (stateC hc)] := by
  have h1 : controlsAt (N := toNet hc) [0, 60] [10, 10] 60 = Res.ok (raiseC hc) := by
    refine Res.bind_eq_ok.mpr ⟨[10], ?_, ?_⟩
    · have := constant_value (fun _ => 0) 10 (T := 60) (t := 60) (by norm_num) (by norm_num) (by norm_num)
      push_cast at this
      exact this
    · congr 1
      show (fun i : Fin 1 => _) = _
      funext i
      rw [Subsingleton.elim i 0]
      rfl
  have h2 := fun u s => solve_c hc u s
  rw [initial_state]
  simp [Evolve.simulate, Evolve.loop, Evolve.makeOneStep, Evolve.attempts, newtonSolver, h2, h1, settingsC]

theorem then_ok {α β : Type} {r : Res α} {k : α → Res β} {a : α} {Q : β → Prop} (h : r = Res.ok a) (hk : ∃ y, k a = Res.ok y ∧ Q y) :
    ∃ y, (r >>= k) = Res.ok y ∧ Q y := by
  subst h
  exact hk

/-- The problem without constraints is set up, and the states can be computed. -/
theorem optimization_c (hc : Consistent graphC) (draws : Json → Res (ℝ → Res (ℝ × ℝ))) (mem : ℕ → ℝ) (lu : Solve) :
    ∃ P, optimization draws mem lu 10 settingsC 1 filesC boundsC = Res.ok P ∧
      P.simulation [10, 10] = Res.ok ([ext (stateC hc), ext (stateC hc)].map some) := by
  have hstart : boundsOf (controlComponents hc mem) mem [0, 60] (toNet hc).controlCount controlC = Res.ok ⟨[0, 60], 1, [10, 10]⟩ := set_controls hc mem
  have hlower := set_edge_c hc mem (q := 0) (by decide +kernel) (by decide +kernel)
  have hupper := set_edge_c hc mem (q := 30) (by decide +kernel) (by decide +kernel)
  push_cast at hlower hupper
  have hk : boundsOf (constraintComponents hc topologyC mem) mem [60] (goals hc topologyC).count (obj []) = Res.ok ⟨[60], 0, []⟩ :=
    Res.bind_eq_ok.mpr ⟨[], (show checkComponents [] (obj []) = Res.ok [] by decide +kernel), rfl⟩
  have hsel : selectConstraintTimes [(0 : ℝ), 60] 1 = Res.ok [60] := rfl
  have hcheck : checkConstraintTimes [(0 : ℝ), 60] [60] = Res.ok () := by
    obtain ⟨cons, h1, -, -, -, h2⟩ := C20_selection [(0 : ℝ), 60] 1 (by simp) (by simp)
    rw [hsel] at h1
    injection h1 with h1
    subst h1
    exact h2
  have htimes : checkTimes [0, 60] [0, 60] [60] = Res.ok () := by
    have := EPSILON_pos (K := ℝ)
    unfold checkTimes
    simp [this.le]
  have : ∃ P, optimization draws mem lu 10 settingsC 1 filesC boundsC = Res.ok P ∧ P.simulation = fun x =>
      if x.length = (toNet hc).controlCount * [(0 : ℝ), 60].length then do
        let z ← (Evolve.simulate settingsC.retries settingsC.simplified
          (newtonSolver (fun a b x c => (toNet hc).system (lu (toNet hc) a b x c) a b x c) settingsC.tolerance settingsC.iterations 10)
          (controlsAt (N := toNet hc) [0, 60] x) [0, 60] (some (entriesOf [60, 5, 70, 5]))).1
        Res.ok (z.map (Option.map ext))
      else Res.ub := by
    unfold optimization
    refine then_ok grid_c (then_ok (read_c draws mem) ?_)
    rw [dif_pos hc]
    refine then_ok (setup_c hc) (then_ok (initial_c hc mem) ?_)
    simp only
    rw [if_pos (show 0 < (toNet hc).controlCount from Nat.zero_lt_one)]
    refine then_ok grid_c (then_ok hstart (then_ok hsel (then_ok hlower (then_ok hupper (then_ok hk (then_ok hk (then_ok pairs_k (then_ok weights_k (then_ok rfl
      (then_ok (a := ()) rfl (then_ok (a := ()) ?_ (then_ok (a := ()) ?_ (then_ok (a := ()) ?_ (then_ok (a := ()) rfl (then_ok (a := ()) rfl (then_ok htimes (then_ok hcheck
      ⟨_, rfl, rfl⟩)))))))))))))))))
    all_goals simp [Read.ensure, haveSameStructure]
  obtain ⟨P, hP, hsim⟩ := this
  refine ⟨P, hP, ?_⟩
  have hl : [(10 : ℝ), 10].length = (toNet hc).controlCount * [(0 : ℝ), 60].length := rfl
  rw [hsim]
  simp only
  rw [if_pos hl, simulate_c hc lu, Res.ok_bind]
  rfl

theorem sound_c : Sound (fun _ => Res.throws) settingsC filesC :=
  ⟨⟨rfl, shaped_c.1, shaped_c.2⟩, shaped_s.2, fit_c, by norm_num [settingsC], fun t h0 h1 => covers_c h0 (h1.trans (by norm_num [settingsC])),
    fun data d hd => by cases hd⟩

theorem no_sink_c : ¬ ∃ id, ConstraintSink filesC.topology id := by
  rintro ⟨id, x, hx, -⟩
  have : (("ConstraintSink", x) : String × Json) = ("Pressureboundarynode", obj [("id", str "a")]) ∨ ("ConstraintSink", x) = ("Sink", obj [("id", str "b")]) :=
    (List.mem_cons.mp hx).imp (fun h => h) List.mem_singleton.mp
  rcases this with h | h <;> exact absurd (Prod.mk.inj h).1 (by decide)

/-- C144 is false: the compressor may be controlled and the sink is not constrained. The problem is set up, the states can be computed, and nothing is written. -/
theorem C144_false [Printed ℝ] : ¬ C144Statement := by
  intro h
  obtain ⟨P, hP, hz⟩ := optimization_c consistent_c (fun _ => Res.throws) (fun _ => 0) (fun _ _ _ _ _ _ => none)
  obtain ⟨controls, states, h⟩ := h _ _ _ _ _ _ _ _ sound_c P hP _ _ hz
  rw [C144_without hP no_sink_c] at h
  cases h

/-- C144 applies to the optimization of C104. -/
example [Printed ℝ] (mem : ℕ → ℝ) (lu : Solve) : ∃ controls states, optimizedFiles (fun _ => Res.throws) mem lu 10 settingsC 1 filesK boundsK [10, 10] = Res.ok (controls, some states) := by
  obtain ⟨hc, -⟩ := C100_partial rfl shaped_k.1.1 shaped_k.1.2 shaped_k.2.1 shaped_k.2.2 (read_k (fun _ => Res.throws) mem) fit_k
  obtain ⟨hP, hz, -⟩ := optimization_k hc (fun _ => Res.throws) mem lu
  exact C144_partial (z := [ext (stateK hc), ext (stateK hc)]) (id := "b")
    ⟨⟨rfl, shaped_k.1.1, shaped_k.1.2⟩, shaped_k.2, fit_k, by norm_num [settingsC], fun t h0 h1 => covers_k h0 (h1.trans (by norm_num [settingsC])),
      fun data d hd => by cases hd⟩ hP hz ⟨_, List.mem_cons_self, rfl⟩

/-- C144 applies to a run: the optimization in the directory of C124 returns 0. -/
example (lu : Solve) : let _ : Printed ℝ := whole
    ∃ controls all s f, IsProblem (lettersOf lu).parse (texts (resolve []) (diskOf true)) (lettersOf lu).draws controls all s f ∧
      (valueAt all ["optimize"] = some (.bool true) → ∃ id, ConstraintSink f.topology id) := by
  intro _
  obtain ⟨fs, stage, h1, h2⟩ := optimization_letters lu
  exact C144_program (prog := fun _ : Unit => program (lettersOf lu)) (i := ()) h1 rfl (contained lu true) (by simp) h2

end Verif.Command
