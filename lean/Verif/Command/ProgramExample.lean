import Verif.Command.Program
import Verif.Command.Succeeds
import Verif.Read.ReplayExample

/-!
# C124: runs of the program

A simulation (the files of `Verif.Read.RunExample`) and an optimization (`Verif.Read.NlpExample`), each in a directory, with Ipopt saying that it did not find an optimum.
-/

set_option autoImplicit false

namespace Verif.Command

open Verif.Json Verif.Schema Verif.Factory Verif.Times Verif.Read Verif.Initial Verif.Interp Network
open Verif.Output (Printed)

/-! ## A directory -/

def settingsJson : Json := obj [("desired_delta_t", num 60), ("end_time", num 60), ("maximal_number_of_newton_iterations", num 5), ("retries", num 1),
  ("start_time", num 0), ("tolerance", num (1 / 1000)), ("use_simplified_newton", .bool true)]

def allOf (optimize : Bool) (boundary topology : Json) : Json := obj [("optimize", .bool optimize),
  ("problem_data", obj [("boundary_json", boundary), ("topology_json", topology)]), ("simulation_settings", settingsJson)]

/-- The names of the files and their texts, which are only letters here, as the library that reads json is not modelled. -/
def directory (optimize : Bool) : List (String × Text) := [("problem_data.json", if optimize then ['p'] else ['q']), ("initial.json", ['i']), ("control.json", ['c']),
  ("lower_bounds.json", ['l']), ("upper_bounds.json", ['u']), ("constraint_lower_bounds.json", ['m']), ("constraint_upper_bounds.json", ['n'])]

def parseLetters (t : Text) : Option Json :=
  [(['p'], allOf true boundaryK topologyK), (['q'], allOf false boundaryS topologyC), (['i'], initialC), (['c'], controlC), (['l'], edgeFile 0), (['u'], edgeFile 30),
    (['m'], nodeFile 40), (['n'], nodeFile 80)].lookup t

/-- Ipopt says that what it returns is no optimum. -/
noncomputable def lettersOf (lu : Solve) : Libraries :=
  ⟨parseLetters, fun _ => ['j'], fun _ => Res.throws, fun _ => 0, lu, 10, fun _ => (false, [10, 10]), ['x']⟩

def diskOf (optimize : Bool) : Disk
  | ["problem"] => some .directory
  | ["problem", name] => ((directory optimize).lookup name).map .file
  | _ => none

theorem resolve_name {name : String} (h : name ∈ fileNames) : resolve [] name = ["problem", name] := by
  revert name
  decide +kernel

theorem load_name (optimize : Bool) {name : String} (h : name ∈ fileNames) :
    texts (resolve []) (diskOf optimize) name = (directory optimize).lookup name := by
  unfold texts textAt
  rw [resolve_name h]
  show (match ((directory optimize).lookup name).map Verif.Files.Unique.Entry.file with | some (.file t) => some t | _ => none) = _
  cases (directory optimize).lookup name <;> rfl

theorem read_name {lu : Solve} (optimize : Bool) {name : String} {j : Json} (h : name ∈ fileNames)
    (hj : ((directory optimize).lookup name).bind parseLetters = some j) :
    (readJson (lettersOf lu) name).eval (texts (resolve []) (diskOf optimize)) = Res.ok j := by
  unfold readJson Prog.eval
  rw [Prog.eval_done, load_name optimize h]
  show (match ((directory optimize).lookup name).bind parseLetters with | some j => Res.ok j | none => Res.throws) = _
  rw [hj]

theorem entries_disk (optimize : Bool) (q : Path) : diskOf optimize ([] ++ "problem" :: q) ≠ none ↔
    q ∈ [] :: ((directory optimize).map fun x => [x.1]) := by
  match q with
  | [] => simp [diskOf]
  | [name] =>
    show ((directory optimize).lookup name).map Verif.Files.Unique.Entry.file ≠ none ↔ _
    rw [ne_eq, Option.map_eq_none_iff, List.lookup_eq_none_iff]
    simp [directory]
    tauto
  | _ :: _ :: _ => simp [diskOf]

theorem settings_c : (⟨((0 : ℚ) : ℝ), ((60 : ℚ) : ℝ), ((60 : ℚ) : ℝ), none, ((1 / 1000 : ℚ) : ℝ), 5, 1, true⟩ : Settings) = settingsC := by
  unfold settingsC
  norm_num

theorem readTimes_letters : readTimes settingsJson = Res.ok (0, 60, 60) := by
  decide +kernel

theorem readSolver_letters : readSolver settingsJson = Res.ok (1 / 1000, 5, 1, true) := by
  decide +kernel

theorem prepare_letters {boundary topology : Json} {g : Graph Network.Node EdgeKind} (lu : Solve) (hc : Consistent g)
    (hg : readNet (lettersOf lu).draws (lettersOf lu).mem (obj []) topology boundary = Res.ok g) (hsetup : (toNet hc).setup = Res.ok ())
    {x : List ℝ} (hx : setInitialValues (stateComponents hc (lettersOf lu).mem) (uninit (lettersOf lu).mem (toNet hc).stateCount) initialC = Res.ok x) :
    prepare (lettersOf lu) (0, 60, 60) (obj []) topology boundary initialC = Res.ok (toNet hc).controlCount := by
  unfold prepare
  rw [hg, Res.ok_bind, dif_pos hc, hsetup, Res.ok_bind, hx, Res.ok_bind]
  have := grid_c
  have e : stateGrid (((0 : ℚ) : ℝ)) ((60 : ℚ) : ℝ) ((60 : ℚ) : ℝ) = Res.ok [0, 60] := by
    norm_num
    exact this
  simp only
  rw [e]
  rfl

theorem readAll_letters {boundary topology : Json} {g : Graph Network.Node EdgeKind} (lu : Solve) (optimize : Bool)
    (hparse : parseLetters (if optimize then ['p'] else ['q']) = some (allOf optimize boundary topology))
    (hb : boundary.isObj = true) (ht : topology.isObj = true) (hc : Consistent g)
    (hg : readNet (lettersOf lu).draws (lettersOf lu).mem (obj []) topology boundary = Res.ok g) (hsetup : (toNet hc).setup = Res.ok ())
    {x : List ℝ} (hx : setInitialValues (stateComponents hc (lettersOf lu).mem) (uninit (lettersOf lu).mem (toNet hc).stateCount) initialC = Res.ok x)
    (hpos : 0 < (toNet hc).controlCount) :
    (readAll (lettersOf lu)).eval (texts (resolve []) (diskOf optimize)) =
      Res.ok (allOf optimize boundary topology, settingsC, ⟨obj [], topology, boundary, initialC, controlC⟩) := by
  have hentry : ∀ (problem : Json) (key : String) (j : Json), problem.find? key = some j → j.isObj = true →
      (entryOrFile (lettersOf lu) problem key).eval (texts (resolve []) (diskOf optimize)) = Res.ok j := by
    intro problem key j h1 h2
    unfold entryOrFile
    rw [h1]
    cases j <;> first
      | rfl
      | cases h2
  have hname : ∀ {name : String} {j : Json}, name ∈ fileNames → ((directory optimize).lookup name).bind parseLetters = some j →
      (readJson (lettersOf lu) name).eval (texts (resolve []) (diskOf optimize)) = Res.ok j := fun h hj => read_name optimize h hj
  unfold readAll
  rw [Prog.eval_bind, hname (name := "problem_data.json") (j := allOf optimize boundary topology) (by decide) hparse, Res.ok_bind,
    Prog.eval_bind, Prog.eval_done, show indexMut (allOf optimize boundary topology) "simulation_settings" = Res.ok settingsJson from rfl, Res.ok_bind,
    Prog.eval_bind, Prog.eval_done, show indexMut (allOf optimize boundary topology) "problem_data" =
      Res.ok (obj [("boundary_json", boundary), ("topology_json", topology)]) from rfl, Res.ok_bind,
    Prog.eval_bind, Prog.eval_done, show (obj [("boundary_json", boundary), ("topology_json", topology)]).set "GRAZER_file_directory" (str "problem") =
      Res.ok (obj [("GRAZER_file_directory", str "problem"), ("boundary_json", boundary), ("topology_json", topology)]) from rfl, Res.ok_bind,
    Prog.eval_bind, hname (name := "initial.json") (j := initialC) (by decide) (by cases optimize <;> rfl), Res.ok_bind,
    Prog.eval_bind, Prog.eval_done, readTimes_letters, Res.ok_bind, Prog.eval_bind, Prog.eval_done, readSolver_letters, Res.ok_bind,
    Prog.eval_bind, Prog.eval_done, show Factory.valueOr (obj [("GRAZER_file_directory", str "problem"), ("boundary_json", boundary), ("topology_json", topology)])
      "defaults" = Res.ok (obj []) from rfl, Res.ok_bind,
    Prog.eval_bind, hentry _ "topology_json" topology rfl ht, Res.ok_bind, Prog.eval_bind, hentry _ "boundary_json" boundary rfl hb, Res.ok_bind,
    Prog.eval_bind, Prog.eval_done, prepare_letters lu hc hg hsetup hx, Res.ok_bind, if_pos hpos, Prog.eval_bind, Prog.eval_bind, Prog.eval_done,
    show readControlSettings (allOf optimize boundary topology) = Res.ok none from rfl, Res.ok_bind, Prog.eval_bind,
    hname (name := "control.json") (j := controlC) (by decide) (by cases optimize <;> rfl), Res.ok_bind, Prog.eval_pure, Res.ok_bind, Prog.eval_pure]
  simp only
  rw [settings_c]

theorem contained (lu : Solve) (optimize : Bool) [Printed ℝ] : SelfContained [] (program (lettersOf lu)) (diskOf optimize) := by
  intro r hr
  left
  rcases C124_references hr with h | ⟨all, ⟨t, ht, hall⟩, h⟩
  · exact inside_fileNames r h
  · exfalso
    rw [load_name optimize (by decide)] at ht
    cases optimize
    · have e : ['q'] = t := Option.some.inj ht
      subst e
      have e : allOf false boundaryS topologyC = all := Option.some.inj hall
      subst e
      rcases h with h | h
      · cases Option.some.inj h
      · cases Option.some.inj h
    · have e : ['p'] = t := Option.some.inj ht
      subst e
      have e : allOf true boundaryK topologyK = all := Option.some.inj hall
      subst e
      rcases h with h | h
      · cases Option.some.inj h
      · cases Option.some.inj h

/-- If the program computes something from the directory, it can return 0. -/
theorem succeeds (lu : Solve) (optimize : Bool) [Printed ℝ] {out : Outputs}
    (h : (program (lettersOf lu)).eval (texts (resolve []) (diskOf optimize)) = .ok out) :
    ∃ fs stage, Reach false (resolve []) [] (fun _ : Unit => program (lettersOf lu)) (fun _ _ => False) (diskOf optimize) fs stage ∧
      stage () = .exited (some ["output", "7"]) 0 := by
  obtain ⟨reads, hy⟩ := Prog.yields_eval (texts (resolve []) (diskOf optimize)) (program (lettersOf lu))
  rw [h] at hy
  have hcreate : out.create.Nodup ∧ "problem" ∉ out.create := by
    rcases program_create hy with ⟨h1, -⟩ | ⟨h1, -⟩ <;> rw [h1] <;> decide
  exact C121_succeeds (base := []) (entries := [] :: ((directory optimize).map fun x => [x.1])) (name := "7") (Or.inl rfl) (fun q => rfl)
    (self_contained_not_output (prog := fun _ : Unit => program (lettersOf lu)) (i := ()) (contained lu optimize)) (entries_disk optimize)
    (by cases optimize <;> decide) (by simp) h hcreate.1 hcreate.2

/-! ## A simulation -/

/-- A simulation that returns 0, and its results, which obey the laws: C124 is about something. -/
example (lu : Solve) :
    let _ : Printed ℝ := whole
    ∃ fs stage, Reach false (resolve []) [] (fun _ : Unit => program (lettersOf lu)) (fun _ _ => False) (diskOf false) fs stage ∧
      stage () = .exited (some ["output", "7"]) 0 ∧ Sound (lettersOf lu).draws settingsC filesC ∧
      ∃ out, Contains fs ["output", "7"] "states.json" ((lettersOf lu).dump out) ∧
        ∃ times r cgrid, ShownIn out topologyC times r ∧ Faithful settingsC filesC times r cgrid := by
  intro _
  obtain ⟨hc, -⟩ := C100_partial rfl shaped_c.1 shaped_c.2 shaped_s.2.1 shaped_s.2.2 (read_c (lettersOf lu).draws (lettersOf lu).mem) fit_c
  have hs : Sound (lettersOf lu).draws settingsC filesC := ⟨⟨rfl, shaped_c.1, shaped_c.2⟩, ⟨shaped_s.2.1, shaped_s.2.2⟩, fit_c, by norm_num [settingsC],
    fun t h0 h1 => covers_c h0 (h1.trans (by norm_num [settingsC])), fun data d hd => by cases hd⟩
  have hrun : Read.run (lettersOf lu).draws (lettersOf lu).mem (lettersOf lu).lu (lettersOf lu).fuel settingsC filesC =
    Res.ok ([0, 60], [ext (stateC hc), ext (stateC hc)].map some) := run_c _ _ _ hc
  obtain ⟨r, cgrid, hfaith, hall⟩ := C108_partial hs.topology.1 hs.topology.2.1 hs.topology.2.2 hs.boundary.1 hs.boundary.2 hs.fit hs.settings.1
      hs.settings.2.1 hs.settings.2.2 hs.covers hs.draws hrun
  obtain ⟨out, hout, hshown⟩ := hall
  have heval : (program (lettersOf lu)).eval (texts (resolve []) (diskOf false)) =
      Res.ok ⟨["states.json"], [("states.json", (lettersOf lu).dump out)]⟩ := by
    unfold program
    rw [Prog.eval_bind, readAll_letters lu false rfl rfl rfl hc (read_c _ _) (setup_c hc) (initial_c hc _) (show 0 < 1 by decide), Res.ok_bind]
    show (simulationOutputs (lettersOf lu) settingsC filesC) = _
    unfold simulationOutputs
    rw [hout]
    rfl
  obtain ⟨fs, stage, h1, h2⟩ := succeeds lu false heval
  refine ⟨fs, stage, h1, h2, hs, out, ?_, [0, 60], r, cgrid, hshown, hfaith⟩
  obtain ⟨out', h3, h4⟩ := (C121_result_partial h1 (self_contained_not_output (prog := fun _ : Unit => program (lettersOf lu)) (i := ()) (contained lu false))
    (by simp) (fun reads out hy => (program_apart reads out hy).2.2) h2).1 rfl
  rw [heval] at h3
  cases h3
  exact h4 ("states.json", (lettersOf lu).dump out) (by simp)

/-! ## An optimization -/

theorem optimization_letters (lu : Solve) :
    let _ : Printed ℝ := whole
    ∃ fs stage, Reach false (resolve []) [] (fun _ : Unit => program (lettersOf lu)) (fun _ _ => False) (diskOf true) fs stage ∧
      stage () = .exited (some ["output", "7"]) 0 := by
  intro _
  obtain ⟨hc, -⟩ := C100_partial rfl shaped_k.1.1 shaped_k.1.2 shaped_k.2.1 shaped_k.2.2 (read_k (lettersOf lu).draws (lettersOf lu).mem) fit_k
  obtain ⟨hP, hz, -⟩ := optimization_k hc (lettersOf lu).draws (lettersOf lu).mem lu
  have exact_nat : ∀ n : ℕ, Exactly (n : ℝ) := by
    intro n
    show (((⌊(n : ℝ)⌋ : ℤ) : ℚ) : ℝ) = n
    simp
  obtain ⟨controls, states, h⟩ := C116_written (f := filesK) (s := settingsC) (z := [ext (stateK hc), ext (stateK hc)]) rfl shaped_k.1.1
    shaped_k.1.2 shaped_k.2.1 shaped_k.2.2 fit_k (by norm_num [settingsC]) (by norm_num [settingsC]) (by norm_num [settingsC])
    (fun t h0 h1 => covers_k h0 (h1.trans (by norm_num [settingsC]))) (fun data d hd => by cases hd) hP (show 0 < 1 by decide) hz (by
      show ∀ v ∈ [(0 : ℝ), 60], Exactly v
      simp only [List.mem_cons, List.not_mem_nil, or_false, forall_eq_or_imp, forall_eq]
      exact ⟨by simpa using exact_nat 0, by simpa using exact_nat 60⟩) (by
      simp only [List.mem_cons, List.not_mem_nil, or_false, forall_eq_or_imp, forall_eq]
      exact ⟨by simpa using exact_nat 10, by simpa using exact_nat 10⟩)
  refine succeeds lu true (out := ⟨["states.json", "controls.json"], [("controls.json", (lettersOf lu).dump controls), ("states.json", (lettersOf lu).dump states)]⟩) ?_
  unfold program
  rw [Prog.eval_bind, readAll_letters lu true rfl rfl rfl hc (read_k _ _) (setup_k hc) (initial_k hc _) (show 0 < 1 by decide), Res.ok_bind,
    if_pos (show readOptimize (allOf true boundaryK topologyK) = true from rfl), Prog.eval_bind,
    read_name true (name := "lower_bounds.json") (j := edgeFile 0) (by decide) rfl, Res.ok_bind, Prog.eval_bind,
    read_name true (name := "upper_bounds.json") (j := edgeFile 30) (by decide) rfl, Res.ok_bind, Prog.eval_bind,
    read_name true (name := "constraint_lower_bounds.json") (j := nodeFile 40) (by decide) rfl, Res.ok_bind, Prog.eval_bind,
    read_name true (name := "constraint_upper_bounds.json") (j := nodeFile 80) (by decide) rfl, Res.ok_bind, Prog.eval_done]
  show optimizationOutputs (lettersOf lu) settingsC 1 filesK boundsK = _
  unfold optimizationOutputs
  rw [show optimization (lettersOf lu).draws (lettersOf lu).mem (lettersOf lu).lu (lettersOf lu).fuel settingsC 1 filesK boundsK = _ from hP, Res.ok_bind,
    show optimizedFiles (lettersOf lu).draws (lettersOf lu).mem (lettersOf lu).lu (lettersOf lu).fuel settingsC 1 filesK boundsK ((lettersOf lu).ipopt _).2 = _ from h]
  rfl

/-- C124 is false: an optimization returns 0 although Ipopt says that it did not find an optimum. -/
theorem C124_false : ¬ @C124Statement whole := by
  intro h
  let lu : Solve := fun _ _ _ _ _ _ => none
  let _ : Printed ℝ := whole
  obtain ⟨fs, stage, h1, h2⟩ := optimization_letters lu
  obtain ⟨controls, all, s, f, hp, h3⟩ := h (lettersOf lu) [] ["output", "7"] (diskOf true) fs stage (contained lu true) h1 h2
  obtain ⟨t, ht, hall⟩ := hp.files.problem
  rw [load_name true (by decide)] at ht
  have e : ['p'] = t := Option.some.inj ht
  subst e
  have e : allOf true boundaryK topologyK = all := Option.some.inj hall
  subst e
  rw [if_pos (show valueAt (allOf true boundaryK topologyK) ["optimize"] = some (.bool true) from rfl)] at h3
  obtain ⟨every, b, P, x, c, -, -, hi, -⟩ := h3
  cases congrArg Prod.fst hi

end Verif.Command
