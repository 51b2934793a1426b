import Verif.Command.Program
import Verif.Read.DefinedOpt

/-!
# Property C125: the program has no undefined behaviour

`grazer::run` — `/repo/src/Grazer/commands.cpp` 44-361 — from the texts of the files on: whatever is in them, the program throws or gives a result. This is false (`C125_false`), as is to be
expected from `operator[]` on constant jsons and `front` of lists that may be empty. It holds, but for damping loops that do not end, for files that are clean.
-/

set_option autoImplicit false

namespace Verif.Command

open Verif.Json Verif.Schema Verif.Factory Verif.Times Verif.Read Verif.Initial Verif.Interp Network
open Verif.Output (Printed)

/-! ## Specification -/

/-- C125: whatever is in the files, there is no undefined behaviour. -/
def C125Statement [Printed ℝ] : Prop := ∀ (L : Libraries) (load : String → Option Text), (∀ data, L.draws data ≠ Res.ub) → (program L).eval load ≠ Res.ub

/-- The times are there, the time step is not zero, whole numbers are whole. -/
structure SettingsThere (all : Json) : Prop where
  start : valueAt all ["simulation_settings", "start_time"] ≠ none
  stop : valueAt all ["simulation_settings", "end_time"] ≠ none
  desired : valueAt all ["simulation_settings", "desired_delta_t"] ≠ none
  step : valueAt all ["simulation_settings", "desired_delta_t"] ≠ some (num 0)
  iterations : WholeOrMissing all ["simulation_settings", "maximal_number_of_newton_iterations"]
  retries : WholeOrMissing all ["simulation_settings", "retries"]
  steps : WholeOrMissing all ["control_settings", "number_of_steps"]

/-- What an optimization needs in addition: something to control, more than one control time, bounds that are lists of increasing times; and Ipopt returns a vector of the
length it was told. -/
structure CleanOptimization (L : Libraries) (load : String → Option Text) : Prop where
  needed : ∀ all f, InFiles L.parse load false all f → NeedsControls f.topology
  many : ∀ all, JsonIn L.parse load "problem_data.json" all → valueAt all ["control_settings", "number_of_steps"] ≠ some (num 1)
  bounds : ∀ name ∈ ["lower_bounds.json", "upper_bounds.json", "constraint_lower_bounds.json", "constraint_upper_bounds.json"],
    ∀ j, JsonIn L.parse load name j → ∀ e ∈ components j, ListsTimes e
  ipopt : ∀ P, (L.ipopt P).2.length = P.controls * P.controlTimes.length

/-- Files without the pitfalls: the settings are there; topology, boundary and initial values belong to a sound and harmless problem, with the times as written; the controls
are lists of increasing times; and if it is an optimization, also its files are clean. -/
structure Clean (L : Libraries) (load : String → Option Text) : Prop where
  settings : ∀ all, JsonIn L.parse load "problem_data.json" all → SettingsThere all
  files : ∀ all s f, InFiles L.parse load false all f → AsWritten false all s → Sound L.draws s f ∧ HarmlessNet f.defaults f.topology f.boundary ∧
    ∀ e ∈ components f.initial, ∀ l, Describes "x" e l → (l.map Prod.fst).Pairwise (· < ·)
  control : ∀ j, JsonIn L.parse load "control.json" j → ∀ e ∈ components j, ListsTimes e
  optimization : ∀ all, JsonIn L.parse load "problem_data.json" all → valueAt all ["optimize"] = some (.bool true) → CleanOptimization L load

/-! ## Proofs -/

section
variable {L : Libraries} {load : String → Option Text}

theorem readJson_ne_ub (name : String) : (readJson L name).eval load ≠ Res.ub := by
  unfold readJson Prog.eval
  rw [Prog.eval_done]
  split <;> simp

theorem entry_ne_ub (problem : Json) (key : String) : (entryOrFile L problem key).eval load ≠ Res.ub := by
  unfold entryOrFile
  split
  · rw [Prog.eval_done]; simp
  · exact readJson_ne_ub _
  · rw [Prog.eval_done]; simp

theorem indexMut_ne_ub (j : Json) (key : String) : indexMut j key ≠ Res.ub := by
  cases j <;> simp [indexMut]

theorem set_ne_ub (j : Json) (key : String) (v : Json) : j.set key v ≠ Res.ub := by
  cases j <;> simp [Json.set]

/-- The settings that do not concern controls. -/
theorem written_times {all settings : Json} (h : SettingsThere all) (h1 : indexMut all "simulation_settings" = Res.ok settings) :
    readTimes settings ≠ Res.ub ∧ ∀ t, readTimes settings = Res.ok t → readSolver settings ≠ Res.ub ∧ ∀ v, readSolver settings = Res.ok v →
      AsWritten false all ⟨t.1, t.2.2, t.2.1, none, v.1, v.2.1, v.2.2.1, v.2.2.2⟩ ∧ readControlSettings all ≠ Res.ub := by
  have hf := readSettings_ne_ub false all h.start h.stop h.desired h.step h.iterations h.retries (fun h => by cases h)
  have ht := readSettings_ne_ub true all h.start h.stop h.desired h.step h.iterations h.retries (fun _ => h.steps)
  unfold readSettings at hf ht
  rw [h1, Res.ok_bind] at hf ht
  refine ⟨fun e => hf (by rw [e]; rfl), fun t e1 => ?_⟩
  rw [e1, Res.ok_bind] at hf ht
  refine ⟨fun e => hf (by rw [e]; rfl), fun v e2 => ?_⟩
  rw [e2, Res.ok_bind] at hf ht
  refine ⟨C123_used_partial (optimize := readOptimize all) (every := readEvery all) h.iterations h.retries (fun h => by cases h) ?_, fun e => ht ?_⟩
  · unfold readSettings
    rw [h1, Res.ok_bind, e1, Res.ok_bind, e2, Res.ok_bind]
    rfl
  · show ((readControlSettings all).bind _) = _
    rw [e]
    rfl

/-- Building the network, with its initial state and times. -/
theorem prepare_ne_ub {s : Settings} {f : Files} {t : ℚ × ℚ × ℚ} (hdraws : ∀ data, L.draws data ≠ Res.ub) (hs : Sound L.draws s f)
    (hn : HarmlessNet f.defaults f.topology f.boundary) (hi : ∀ e ∈ components f.initial, ∀ l, Describes "x" e l → (l.map Prod.fst).Pairwise (· < ·))
    (h1 : s.start = t.1) (h2 : s.stop = t.2.1) (h3 : s.desired = t.2.2) : prepare L t f.defaults f.topology f.boundary f.initial ≠ Res.ub := by
  unfold prepare
  refine res_bind_ne (readNet_ne_ub hdraws hs.topology.1 hs.topology.2.1 hs.topology.2.2 hs.boundary.1 hs.boundary.2 hs.fit
    (hs.covers s.start le_rfl hs.settings.1.le) hn) fun g hg => ?_
  obtain ⟨nodes, edges, k1, k2, k3⟩ := readNet_ok hg
  obtain ⟨hc, hids, -⟩ := buildNet_made (proper_of k1 k2 hs.topology.2.1 hs.topology.2.2) k3
  rw [dif_pos hc]
  refine res_bind_ne ?_ fun _ _ => ?_
  · unfold Net.setup
    split <;> simp
  refine res_bind_ne (setInitialValues_ne_ub hc L.mem hids hi) fun initial _ => ?_
  obtain ⟨times, ht, -⟩ := (C26_grid_partial s.start s.desired s.stop).1 hs.settings.1 hs.settings.2.1
  rw [h1, h2, h3] at ht
  rw [ht]
  simp

/-- What is read before the computation. -/
theorem readAll_ne_ub (hdraws : ∀ data, L.draws data ≠ Res.ub) (h : Clean L load) : (readAll L).eval load ≠ Res.ub := by
  unfold readAll
  rw [Prog.eval_bind]
  refine res_bind_ne (readJson_ne_ub _) fun all h0 => ?_
  have hset := h.settings all (eval_readJson h0)
  rw [Prog.eval_bind]
  refine res_bind_ne (indexMut_ne_ub _ _) fun settings h1 => ?_
  rw [Prog.eval_bind]
  refine res_bind_ne (indexMut_ne_ub _ _) fun p h2 => ?_
  rw [Prog.eval_bind]
  refine res_bind_ne (set_ne_ub _ _ _) fun problem h3 => ?_
  rw [Prog.eval_bind]
  refine res_bind_ne (readJson_ne_ub _) fun initial h4 => ?_
  obtain ⟨w1, w2⟩ := written_times hset h1
  rw [Prog.eval_bind]
  refine res_bind_ne w1 fun t h5 => ?_
  obtain ⟨w3, w4⟩ := w2 t h5
  rw [Prog.eval_bind]
  refine res_bind_ne w3 fun v h6 => ?_
  obtain ⟨w5, w6⟩ := w4 v h6
  rw [Prog.eval_bind]
  refine res_bind_ne (by rw [Prog.eval_done]; unfold Factory.valueOr; split <;> simp) fun defaults h7 => ?_
  rw [Prog.eval_bind]
  refine res_bind_ne (entry_ne_ub _ _) fun topology h8 => ?_
  rw [Prog.eval_bind]
  refine res_bind_ne (entry_ne_ub _ _) fun boundary h9 => ?_
  rw [Prog.eval_done] at h2 h3 h7
  have hin : InFiles L.parse load false all ⟨defaults, topology, boundary, initial, null⟩ := by
    refine ⟨eval_readJson h0, eval_readJson h4, eval_entry h2 h3 (by decide) h8, eval_entry h2 h3 (by decide) h9, ?_, fun h => by cases h⟩
    rw [valueAt_problem h2, ← find_set_ne (k' := "defaults") h3 (by decide)]
    unfold Factory.valueOr at h7
    split at h7
    · have h7 := Res.ok.inj h7
      simp only
      rw [← h7]
      cases problem.find? "defaults" with
      | none => exact Or.inr ⟨rfl, rfl⟩
      | some v => exact Or.inl rfl
    · cases h7
  obtain ⟨hs, hn, hi⟩ := h.files all _ _ hin w5
  rw [Prog.eval_bind]
  refine res_bind_ne (prepare_ne_ub (t := t) hdraws hs hn hi rfl rfl rfl) fun count h10 => ?_
  rw [Prog.eval_bind]
  refine res_bind_ne ?_ fun _ _ => by rw [Prog.eval_pure]; simp
  split
  · rw [Prog.eval_bind]
    refine res_bind_ne w6 fun c _ => ?_
    rw [Prog.eval_bind]
    refine res_bind_ne (readJson_ne_ub _) fun j _ => ?_
    rw [Prog.eval_pure]
    simp
  · rw [Prog.eval_pure]
    simp

/-- The controls are read from the file, if there are any. -/
theorem control_read {all : Json} {s : Settings} {f : Files} (h : (readAll L).eval load = Res.ok (all, s, f)) :
    f.control = null ∨ JsonIn L.parse load "control.json" f.control := by
  unfold readAll at h
  rw [Prog.eval_bind] at h
  obtain ⟨_, -, h⟩ := Res.bind_eq_ok.mp h
  rw [Prog.eval_bind] at h
  obtain ⟨_, -, h⟩ := Res.bind_eq_ok.mp h
  rw [Prog.eval_bind] at h
  obtain ⟨_, -, h⟩ := Res.bind_eq_ok.mp h
  rw [Prog.eval_bind] at h
  obtain ⟨_, -, h⟩ := Res.bind_eq_ok.mp h
  rw [Prog.eval_bind] at h
  obtain ⟨_, -, h⟩ := Res.bind_eq_ok.mp h
  rw [Prog.eval_bind] at h
  obtain ⟨_, -, h⟩ := Res.bind_eq_ok.mp h
  rw [Prog.eval_bind] at h
  obtain ⟨_, -, h⟩ := Res.bind_eq_ok.mp h
  rw [Prog.eval_bind] at h
  obtain ⟨_, -, h⟩ := Res.bind_eq_ok.mp h
  rw [Prog.eval_bind] at h
  obtain ⟨_, -, h⟩ := Res.bind_eq_ok.mp h
  rw [Prog.eval_bind] at h
  obtain ⟨_, -, h⟩ := Res.bind_eq_ok.mp h
  rw [Prog.eval_bind] at h
  obtain ⟨_, -, h⟩ := Res.bind_eq_ok.mp h
  rw [Prog.eval_bind] at h
  obtain ⟨⟨c, cj⟩, h11, h⟩ := Res.bind_eq_ok.mp h
  rw [Prog.eval_pure] at h
  have h := Res.ok.inj h
  simp only [Prod.mk.injEq] at h
  obtain ⟨-, -, rfl⟩ := h
  split at h11
  · rw [Prog.eval_bind] at h11
    obtain ⟨_, -, h11⟩ := Res.bind_eq_ok.mp h11
    rw [Prog.eval_bind] at h11
    obtain ⟨j, hj, h11⟩ := Res.bind_eq_ok.mp h11
    rw [Prog.eval_pure] at h11
    have h11 := Res.ok.inj h11
    simp only [Prod.mk.injEq] at h11
    rw [← h11.2]
    exact Or.inr (eval_readJson hj)
  · rw [Prog.eval_pure] at h11
    have h11 := Res.ok.inj h11
    simp only [Prod.mk.injEq] at h11
    rw [← h11.2]
    exact Or.inl rfl

open Classical in
/-- C125, the part that holds: a run with clean files throws or gives a result, except that a damping loop may be endless. -/
theorem C125_program_partial [Printed ℝ] (hdraws : ∀ data, L.draws data ≠ Res.ub) (h : Clean L load) (hub : (program L).eval load = Res.ub) :
    ∃ controls all s f, InFiles L.parse load controls all f ∧ AsWritten controls all s ∧
      Endless L.draws L.mem L.lu L.fuel s f := by
  unfold program at hub
  rw [Prog.eval_bind] at hub
  cases hall : (readAll L).eval load with
  | ub => exact absurd hall (readAll_ne_ub hdraws h)
  | throws => rw [hall] at hub; cases hub
  | ok x =>
    obtain ⟨all, s, f⟩ := x
    rw [hall, Res.ok_bind] at hub
    obtain ⟨hin, hset⟩ := eval_readAll hall
    have hthere := h.settings all hin.problem
    have hw := C123_used_partial hthere.iterations hthere.retries (fun _ => hthere.steps) hset
    refine ⟨_, all, s, f, hin, hw, ?_⟩
    have hin0 : InFiles L.parse load false all f := ⟨hin.problem, hin.initial, hin.topology, hin.boundary, hin.defaults, fun h => by cases h⟩
    obtain ⟨hs, hn, hi⟩ := h.files all s f hin0
      ⟨hw.start, hw.stop, hw.desired, hw.tolerance, hw.iterations, hw.retries, hw.simplified, fun h => by cases h⟩
    have hcontrol : ∀ e ∈ components f.control, ListsTimes e := by
      rcases control_read hall with hnull | hj
      · rw [hnull]
        intro e he
        cases he
      · exact h.control _ hj
    by_cases hopt : readOptimize all = true
    · simp only [hopt, if_true] at hub
      obtain ⟨hneed, hmany, hbounds, hipopt⟩ := h.optimization all hin.problem (readOptimize_iff.mp hopt)
      have hneed' : ∀ g, ∀ hc : Consistent g, readNet L.draws L.mem f.defaults f.topology f.boundary = Res.ok g → 0 < (toNet hc).controlCount :=
        fun g hc hg => (needs_controls hs hc hg).mpr (hneed all f hin0)
      have hsteps : ManySteps s := by
        intro c hc h1
        by_cases hcon : HasControls L f
        · have hw' := hw.control (by simpa using hcon)
          rw [hc] at hw'
          obtain ⟨d, n⟩ := c
          simp only at h1
          subst h1
          cases d with
          | some d => exact hw'
          | none =>
            obtain ⟨⟨q, hq, hq1⟩, -⟩ := hw'
            refine hmany all hin.problem ?_
            rw [hq]
            have : q = 1 := by exact_mod_cast hq1.symm
            rw [this]
        · unfold readSettings at hset
          obtain ⟨_, -, hset⟩ := Res.bind_eq_ok.mp hset
          obtain ⟨_, -, hset⟩ := Res.bind_eq_ok.mp hset
          obtain ⟨_, -, hset⟩ := Res.bind_eq_ok.mp hset
          simp only [hcon] at hset
          have := Res.ok.inj hset
          simp only [Prod.mk.injEq] at this
          rw [← this.1] at hc
          cases hc
      by_contra hend
      revert hub
      rw [Prog.eval_bind]
      refine res_bind_ne (readJson_ne_ub _) fun b1 h1 => ?_
      rw [Prog.eval_bind]
      refine res_bind_ne (readJson_ne_ub _) fun b2 h2 => ?_
      rw [Prog.eval_bind]
      refine res_bind_ne (readJson_ne_ub _) fun b3 h3 => ?_
      rw [Prog.eval_bind]
      refine res_bind_ne (readJson_ne_ub _) fun b4 h4 => ?_
      rw [Prog.eval_done]
      have hb : HarmlessBounds ⟨b1, b2, b3, b4⟩ :=
        ⟨hbounds _ (by simp) _ (eval_readJson h1), hbounds _ (by simp) _ (eval_readJson h2), hbounds _ (by simp) _ (eval_readJson h3),
          hbounds _ (by simp) _ (eval_readJson h4)⟩
      unfold optimizationOutputs
      refine res_bind_ne (C125_optimization_partial hs.topology.1 hs.topology.2.1 hs.topology.2.2 hs.boundary.1 hs.boundary.2 hs.fit hs.settings.1 hs.settings.2.1
        hs.covers hdraws ⟨hn, hi, hcontrol⟩ hneed' hb hsteps) fun P hP => ?_
      refine res_bind_ne (fun h => hend (C125_optimized_partial hs.topology.1 hs.topology.2.1 hs.topology.2.2 hs.boundary.1 hs.boundary.2 hs.fit hs.settings.1
        hs.settings.2.1 hs.settings.2.2 hs.covers hs.draws hdraws ⟨hn, hi, hcontrol⟩ hneed' hb hsteps (fun P' hP' => ?_) h)) fun _ _ => by simp
      rw [hP] at hP'
      cases hP'
      exact hipopt P
    simp only [hopt] at hub
    refine C125_file_partial hs.topology.1 hs.topology.2.1 hs.topology.2.2 hs.boundary.1 hs.boundary.2 hs.fit hs.settings.1 hs.settings.2.1 hs.settings.2.2
      hs.covers hs.draws hdraws ⟨hn, hi, hcontrol⟩ ?_
    by_contra hne
    refine res_bind_ne hne (fun j _ => ?_) hub
    simp

end

section
variable {Proc : Type} [DecidableEq Proc] {silent : Bool} {base d : Path} {prog : Proc → Prog Outputs} {other : Disk → Disk → Prop} {fs₀ fs : Disk} {stage : Proc → Stage}
  {L : Libraries} {i : Proc}

/-- C125 for a process, whatever other processes and programs do to other files. -/
theorem C125_process_partial [Printed ℝ] (h : Reach silent (resolve base) base prog other fs₀ fs stage) (hprog : prog i = program L)
    (hself : SelfContained base (program L) fs₀)
    (hother : ∀ r ∈ (program L).references (texts (resolve base) fs₀), ∀ fs fs', other fs fs' → fs' (resolve base r) = fs (resolve base r))
    (hdraws : ∀ data, L.draws data ≠ Res.ub) (hclean : Clean L (texts (resolve base) fs₀)) (hu : stage i = .undefined d) :
    ∃ controls all s f, InFiles L.parse (texts (resolve base) fs₀) controls all f ∧ AsWritten controls all s ∧
      Endless L.draws L.mem L.lu L.fuel s f := by
  rw [← hprog] at hself hother
  have := C121_undefined h (self_contained_not_output hself) hother hu
  rw [hprog] at this
  exact C125_program_partial hdraws hclean this

end

/-! ## Cases -/

/-- A problem without start time. -/
def withoutStart : Libraries :=
  ⟨fun t => if t = ['p'] then some (obj [("problem_data", obj []), ("simulation_settings", obj [])]) else some (obj []), fun _ => [], fun _ => Res.throws, fun _ => 0,
    fun _ _ _ _ _ _ => none, 0, fun _ => (false, []), []⟩

theorem program_withoutStart [Printed ℝ] : (program withoutStart).eval (fun name => if name = "problem_data.json" then some ['p'] else some ['i']) = Res.ub := by
  rfl

/-- C125 is false: a missing start time is no exception. -/
theorem C125_false [Printed ℝ] : ¬ C125Statement :=
  fun h => h withoutStart _ (fun _ => by simp [withoutStart]) program_withoutStart

end Verif.Command
