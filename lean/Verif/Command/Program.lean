import Verif.Command.Repeat
import Verif.Command.Settings
import Verif.Read.Replay

/-!
# Property C124: a run that reports success leaves the results of the problem in its directory

`grazer::run` — `/repo/src/Grazer/commands.cpp` 44-361 — as a whole: the computation of `Verif.Command.Machine` is now the program, from the texts of the
files to the texts that are written. Together with C109, C116, C120, C121, C122 and C123 this says what a user gets who runs the program on a directory.
-/

set_option autoImplicit false

namespace Verif.Command

open Verif.Json Verif.Schema Verif.Factory Verif.Times Verif.Read Verif.Initial Verif.Interp Network
open Verif.Output (Printed)

/-! ## Model -/

/-- What the program gets from libraries: how json is read and written (`nlohmann::json`), random numbers, memory that is not initialized, the factorization of matrices (Eigen),
the vector Ipopt returns for a problem and whether it says that this is an optimum, and what is written for states with NaN. -/
structure Libraries where
  parse : Text → Option Json
  dump : Json → Text
  draws : Json → Res (ℝ → Res (ℝ × ℝ))
  mem : ℕ → ℝ
  lu : Solve
  fuel : ℕ
  ipopt : Nlp → Bool × List ℝ
  withNaN : Text

section
variable (L : Libraries)

/-- `get_json_from_file_path` — `Aux_json.cpp` 67-84. A text that is no json is an exception, as is a missing file. -/
def readJson (reference : String) : Prog Json :=
  .read reference fun t => .done (match t.bind L.parse with
    | some j => Res.ok j
    | none => Res.throws)

/-- `replace_entry_with_json_from_file` — `Aux_json.cpp` 25-65, for the json of the problem, which is an object then. -/
def entryOrFile (problem : Json) (key : String) : Prog Json :=
  match problem.find? key with
  | some (obj m) => .done (Res.ok (obj m))
  | some (str reference) => readJson L reference
  | _ => .done Res.throws

open Classical in
/-- Building the network, its initial state and the times of the simulation — `commands.cpp` 82-98. The result is the number of controls per time. -/
noncomputable def prepare (t : ℚ × ℚ × ℚ) (defaults topology boundary initial : Json) : Res ℕ := do
  let g ← readNet L.draws L.mem defaults topology boundary
  if hc : Consistent g then do
    (toNet hc).setup
    let _ ← setInitialValues (stateComponents hc L.mem) (uninit L.mem (toNet hc).stateCount) initial
    let _ ← stateGrid (t.1 : ℝ) (t.2.2 : ℝ) (t.2.1 : ℝ)
    Res.ok (toNet hc).controlCount
  else Res.ub

/-- Everything that is read before the computation: the whole json of the problem, the settings and the contents of the files — `commands.cpp` 70-102,
`helpers.cpp` 24-71. -/
noncomputable def readAll : Prog (Json × Settings × Files) := do
  let all ← readJson L "problem_data.json"
  let settings ← .done (indexMut all "simulation_settings")
  let problem ← .done (indexMut all "problem_data")
  let problem ← .done (problem.set "GRAZER_file_directory" (str "problem"))
  let initial ← readJson L "initial.json"
  let t ← .done (readTimes settings)
  let v ← .done (readSolver settings)
  let defaults ← .done (valueOr problem "defaults")
  let topology ← entryOrFile L problem "topology_json"
  let boundary ← entryOrFile L problem "boundary_json"
  let count ← .done (prepare L t defaults topology boundary initial)
  let control ← (if 0 < count then do
      let c ← .done (readControlSettings all)
      let j ← readJson L "control.json"
      return (c, j)
    else return (none, null) : Prog (Option (ControlSettings ℝ) × Json))
  return (all, ⟨t.1, t.2.2, t.2.1, control.1, v.1, v.2.1, v.2.2.1, v.2.2.2⟩, ⟨defaults, topology, boundary, initial, control.2⟩)

/-- The text of a file of states. -/
def statesText : Option Json → Text
  | some j => L.dump j
  | none => L.withNaN

/-- A run without optimization — `commands.cpp` 116-141. -/
noncomputable def simulationOutputs [Printed ℝ] (s : Settings) (f : Files) : Res Outputs := do
  let j ← runFile L.draws L.mem L.lu L.fuel s f
  Res.ok ⟨["states.json"], [("states.json", statesText L j)]⟩

/-- An optimization — `commands.cpp` 151-313. The status that Ipopt returns is not looked at. (For the case that the simulation fails with the controls Ipopt returns, see C86.) -/
noncomputable def optimizationOutputs [Printed ℝ] (s : Settings) (every : ℤ) (f : Files) (b : Bounds) : Res Outputs := do
  let P ← optimization L.draws L.mem L.lu L.fuel s every f b
  let j ← optimizedFiles L.draws L.mem L.lu L.fuel s every f b (L.ipopt P).2
  Res.ok ⟨["states.json", "controls.json"], [("controls.json", L.dump j.1), ("states.json", statesText L j.2)]⟩

/-- `grazer::run` — `commands.cpp` 70-313. -/
noncomputable def program [Printed ℝ] : Prog Outputs := do
  let x ← readAll L
  if readOptimize x.1 then do
    let lower ← readJson L "lower_bounds.json"
    let upper ← readJson L "upper_bounds.json"
    let klower ← readJson L "constraint_lower_bounds.json"
    let kupper ← readJson L "constraint_upper_bounds.json"
    .done (optimizationOutputs L x.2.1 (readEvery x.1) x.2.2 ⟨lower, upper, klower, kupper⟩)
  else .done (simulationOutputs L x.2.1 x.2.2)

end

/-! ## Specification -/

section
variable (parse : Text → Option Json) (load : String → Option Text)

/-- The json in a file. -/
def JsonIn (name : String) (j : Json) : Prop := ∃ t, load name = some t ∧ parse t = some j

/-- The json at a key of the problem: it is there or in the file whose name is there. -/
def Given (all : Json) (key : String) (j : Json) : Prop :=
  (valueAt all ["problem_data", key] = some j ∧ j.isObj = true) ∨
    ∃ name, valueAt all ["problem_data", key] = some (str name) ∧ JsonIn parse load name j

/-- The contents of the files of a problem. The file of controls is there only if it is needed. -/
structure InFiles (controls : Bool) (all : Json) (f : Files) : Prop where
  problem : JsonIn parse load "problem_data.json" all
  initial : JsonIn parse load "initial.json" f.initial
  topology : Given parse load all "topology_json" f.topology
  boundary : Given parse load all "boundary_json" f.boundary
  defaults : valueAt all ["problem_data", "defaults"] = some f.defaults ∨ valueAt all ["problem_data", "defaults"] = none ∧ f.defaults = obj []
  control : controls = true → JsonIn parse load "control.json" f.control

end

/-- Are there components that are controlled? -/
def NeedsControls (topology : Json) : Prop :=
  ∃ x type, (type, x) ∈ entries (types topology "connections") ∧ type ∈ ["Compressorstation", "Controlvalve"]

/-- Problems for which the laws are known to hold (C109): the files are lists of components, connections are between nodes of suitable types, the times and steps
are positive and the boundary values cover the times. -/
structure Sound (draws : Json → Res (ℝ → Res (ℝ × ℝ))) (s : Settings) (f : Files) : Prop where
  topology : f.topology.isObj = true ∧ Shaped f.topology ∧ DistinctTypes f.topology
  boundary : Shaped f.boundary ∧ DistinctTypes f.boundary
  fit : Fit f.defaults f.topology
  settings : s.start < s.stop ∧ 0 < s.desired ∧ 1 ≤ s.iterations
  covers : ∀ t, s.start ≤ t → t ≤ s.stop → Covers f.defaults f.topology f.boundary t
  draws : ∀ data d, draws data = Res.ok d → ∀ t, s.start ≤ t → t ≤ s.stop → ∃ b, d t = Res.ok b

/-- The problem in the files, as the program is to take it. -/
structure IsProblem (parse : Text → Option Json) (load : String → Option Text) (draws : Json → Res (ℝ → Res (ℝ × ℝ))) (controls : Bool) (all : Json)
    (s : Settings) (f : Files) : Prop where
  files : InFiles parse load controls all f
  needed : Sound draws s f → (controls = true ↔ NeedsControls f.topology)
  settings : WholeOrMissing all ["simulation_settings", "maximal_number_of_newton_iterations"] → WholeOrMissing all ["simulation_settings", "retries"] →
    (controls = true → WholeOrMissing all ["control_settings", "number_of_steps"]) → AsWritten controls all s

/-- A file of a directory has this text. -/
def Contains (fs : Disk) (d : Path) (name : String) (t : Text) : Prop := fs (d ++ [name]) = some (.file t)

/-- The results of a simulation are in a directory: the states, and they obey the laws. (If there are NaNs among the states, the text is not modelled.) -/
def SimulationIn [Printed ℝ] (L : Libraries) (fs : Disk) (d : Path) (s : Settings) (f : Files) : Prop :=
  Contains fs d "states.json" L.withNaN ∨
    ∃ out, Contains fs d "states.json" (L.dump out) ∧
      (Sound L.draws s f → ∃ times r cgrid, ShownIn out f.topology times r ∧ Faithful s f times r cgrid)

/-- The settings and bounds of an optimization are those of the files. -/
structure IsGoal (parse : Text → Option Json) (load : String → Option Text) (all : Json) (every : ℤ) (b : Bounds) : Prop where
  every : WholeOrMissing all ["constraint_settings", "evaluate_constraints_every_n"] →
    valueAt all ["constraint_settings", "evaluate_constraints_every_n"] = none ∧ every = 1 ∨
      NumberAt all ["constraint_settings", "evaluate_constraints_every_n"] every
  lower : JsonIn parse load "lower_bounds.json" b.lower
  upper : JsonIn parse load "upper_bounds.json" b.upper
  constraintLower : JsonIn parse load "constraint_lower_bounds.json" b.constraintLower
  constraintUpper : JsonIn parse load "constraint_upper_bounds.json" b.constraintUpper

/-- The results of an optimization are in a directory: the controls Ipopt found and the states that belong to them. -/
def OptimizationIn [Printed ℝ] (L : Libraries) (load : String → Option Text) (fs : Disk) (d : Path) (all : Json) (s : Settings) (f : Files) (optimum : Bool) : Prop :=
  ∃ every b P x controls, IsGoal L.parse load all every b ∧ optimization L.draws L.mem L.lu L.fuel s every f b = Res.ok P ∧
    L.ipopt P = (optimum, x) ∧ Contains fs d "controls.json" (L.dump controls) ∧
    (∃ g, ∃ hc : Consistent g, readNet L.draws L.mem f.defaults f.topology f.boundary = Res.ok g ∧ controlsFile hc P.controlTimes x = Res.ok controls) ∧
    ((∀ v ∈ P.controlTimes, Exactly v) → (∀ v ∈ x, Exactly v) → Sound L.draws s f → SimulationIn L fs d s { f with control := controls })

open Classical in
/-- C124: a run that returns 0 has left the results of the problem in its directory; those of an optimization are an optimum. -/
def C124Statement [Printed ℝ] : Prop :=
  ∀ (L : Libraries) (base d : Path) (fs₀ fs : Disk) (stage : Unit → Stage), SelfContained base (program L) fs₀ →
    Reach false (resolve base) base (fun _ => program L) (fun _ _ => False) fs₀ fs stage → stage () = .exited (some d) 0 →
    ∃ controls all s f, IsProblem L.parse (texts (resolve base) fs₀) L.draws controls all s f ∧
      if valueAt all ["optimize"] = some (.bool true) then OptimizationIn L (texts (resolve base) fs₀) fs d all s f true else SimulationIn L fs d s f

/-! ## Proofs -/

namespace Prog
variable {α β : Type}

theorem eval_bind (load : String → Option Text) (p : Prog α) (f : α → Prog β) :
    (p >>= f).eval load = p.eval load >>= fun a => (f a).eval load := by
  show (p.bind f).eval load = _
  induction p with
  | done r => cases r <;> rfl
  | read r k ih => exact ih _

theorem eval_done (load : String → Option Text) (r : Res α) : (Prog.done r).eval load = r := rfl

theorem eval_pure (load : String → Option Text) (a : α) : (pure a : Prog α).eval load = Res.ok a := rfl

theorem yields_bind {p : Prog α} {f : α → Prog β} {reads : List (String × Option Text)} {b : β} (h : Yields (p >>= f) reads (Res.ok b)) :
    ∃ a reads', Yields (f a) reads' (Res.ok b) := by
  change Yields (p.bind f) reads (Res.ok b) at h
  induction p generalizing reads with
  | done r =>
    cases r with
    | ok a => exact ⟨a, reads, h⟩
    | throws => cases h
    | ub => cases h
  | read r k ih =>
    cases h with
    | read _ _ t reads _ h => exact ih t h

theorem references_bind (load : String → Option Text) (p : Prog α) (f : α → Prog β) :
    (p >>= f).references load = p.references load ++ match p.eval load with
      | Res.ok a => (f a).references load
      | _ => [] := by
  show (p.bind f).references load = _
  induction p with
  | done r => cases r <;> rfl
  | read r k ih =>
    show r :: ((k (load r)).bind f).references load = r :: ((k (load r)).references load ++ _)
    rw [ih]
    rfl

theorem mem_references_bind {load : String → Option Text} {p : Prog α} {f : α → Prog β} {r : String} (h : r ∈ (p >>= f).references load) :
    r ∈ p.references load ∨ ∃ a, p.eval load = Res.ok a ∧ r ∈ (f a).references load := by
  rw [references_bind, List.mem_append] at h
  rcases h with h | h
  · exact Or.inl h
  · split at h
    · exact Or.inr ⟨_, by assumption, h⟩
    · cases h

theorem references_done (load : String → Option Text) (r : Res α) : (Prog.done r).references load = [] := rfl

theorem yields_done {r : Res α} {reads : List (String × Option Text)} {a : α} (h : Yields (.done r) reads (Res.ok a)) : r = Res.ok a := by
  generalize hp : (Prog.done r) = p at h
  generalize hq : Res.ok a = q at h
  cases h with
  | done r' => injection hp
  | read => cases hp

end Prog

section
variable {L : Libraries}

theorem simulation_create [Printed ℝ] {s : Settings} {f : Files} {out : Outputs} (h : simulationOutputs L s f = Res.ok out) :
    out.create = ["states.json"] ∧ out.write.map Prod.fst = ["states.json"] := by
  unfold simulationOutputs at h
  obtain ⟨j, -, h⟩ := Res.bind_eq_ok.mp h
  cases h
  exact ⟨rfl, rfl⟩

theorem optimization_create [Printed ℝ] {s : Settings} {every : ℤ} {f : Files} {b : Bounds} {out : Outputs}
    (h : optimizationOutputs L s every f b = Res.ok out) :
    out.create = ["states.json", "controls.json"] ∧ out.write.map Prod.fst = ["controls.json", "states.json"] := by
  unfold optimizationOutputs at h
  obtain ⟨P, -, h⟩ := Res.bind_eq_ok.mp h
  obtain ⟨j, -, h⟩ := Res.bind_eq_ok.mp h
  cases h
  exact ⟨rfl, rfl⟩

/-- The names of the files the program writes. -/
theorem program_create [Printed ℝ] {reads : List (String × Option Text)} {out : Outputs} (h : Prog.Yields (program L) reads (Res.ok out)) :
    (out.create = ["states.json"] ∧ out.write.map Prod.fst = ["states.json"]) ∨
    (out.create = ["states.json", "controls.json"] ∧ out.write.map Prod.fst = ["controls.json", "states.json"]) := by
  unfold program at h
  obtain ⟨x, reads', h⟩ := Prog.yields_bind h
  split at h
  · obtain ⟨_, _, h⟩ := Prog.yields_bind h
    obtain ⟨_, _, h⟩ := Prog.yields_bind h
    obtain ⟨_, _, h⟩ := Prog.yields_bind h
    obtain ⟨_, _, h⟩ := Prog.yields_bind h
    exact Or.inr (optimization_create (Prog.yields_done h))
  · exact Or.inl (simulation_create (Prog.yields_done h))

theorem program_apart [Printed ℝ] : NamesApart (program L) := by
  intro reads out h
  rcases program_create h with ⟨h1, h2⟩ | ⟨h1, h2⟩
  · rw [h1, h2]
    decide
  · rw [h1, h2]
    decide

variable {load : String → Option Text}

theorem eval_readJson {name : String} {j : Json} (h : (readJson L name).eval load = Res.ok j) : JsonIn L.parse load name j := by
  unfold readJson Prog.eval at h
  rw [Prog.eval_done] at h
  unfold JsonIn
  cases ht : load name with
  | none => rw [ht] at h; cases h
  | some t =>
    rw [ht, Option.bind_some] at h
    cases hp : L.parse t with
    | none => rw [hp] at h; cases h
    | some j' =>
      rw [hp] at h
      exact ⟨t, rfl, by rw [hp, Res.ok.inj h]⟩

theorem find_set_ne {j j' : Json} {k k' : String} {v : Json} (h : j.set k v = Res.ok j') (hk : k' ≠ k) : j'.find? k' = j.find? k' := by
  rw [find_set h, if_neg hk]

theorem valueAt_problem {all problem : Json} {key : String} (h : indexMut all "problem_data" = Res.ok problem) :
    valueAt all ["problem_data", key] = problem.find? key := by
  rw [indexMut_eq h]
  unfold valueAt
  cases all.find? "problem_data" with
  | none => rfl
  | some v =>
    simp only [Option.bind_some, valueAt, Option.getD_some]
    cases v.find? key <;> rfl

theorem eval_entry {all problem p : Json} {key : String} {j : Json} (hp : indexMut all "problem_data" = Res.ok p)
    (hset : p.set "GRAZER_file_directory" (str "problem") = Res.ok problem) (hk : key ≠ "GRAZER_file_directory")
    (h : (entryOrFile L problem key).eval load = Res.ok j) : Given L.parse load all key j := by
  unfold entryOrFile at h
  rw [find_set_ne hset hk] at h
  unfold Given
  rw [valueAt_problem hp]
  split at h
  · rename_i m hm
    cases h
    exact Or.inl ⟨hm, rfl⟩
  · rename_i r hm
    exact Or.inr ⟨r, hm, eval_readJson h⟩
  · cases h

/-- Does the network have controls? -/
def HasControls (L : Libraries) (f : Files) : Prop :=
  ∃ g, ∃ hc : Consistent g, readNet L.draws L.mem f.defaults f.topology f.boundary = Res.ok g ∧ 0 < (toNet hc).controlCount

open Classical in
/-- What has been read is what is in the files. -/
theorem eval_readAll {all : Json} {s : Settings} {f : Files} (h : (readAll L).eval load = Res.ok (all, s, f)) :
    InFiles L.parse load (decide (HasControls L f)) all f ∧
    readSettings (decide (HasControls L f)) all = Res.ok (s, readOptimize all, readEvery all) := by
  unfold readAll at h
  rw [Prog.eval_bind] at h
  obtain ⟨all', h0, h⟩ := Res.bind_eq_ok.mp h
  rw [Prog.eval_bind] at h
  obtain ⟨settings, h1, h⟩ := Res.bind_eq_ok.mp h
  rw [Prog.eval_bind] at h
  obtain ⟨p, h2, h⟩ := Res.bind_eq_ok.mp h
  rw [Prog.eval_bind] at h
  obtain ⟨problem, h3, h⟩ := Res.bind_eq_ok.mp h
  rw [Prog.eval_bind] at h
  obtain ⟨initial, h4, h⟩ := Res.bind_eq_ok.mp h
  rw [Prog.eval_bind] at h
  obtain ⟨t, h5, h⟩ := Res.bind_eq_ok.mp h
  rw [Prog.eval_bind] at h
  obtain ⟨v, h6, h⟩ := Res.bind_eq_ok.mp h
  rw [Prog.eval_bind] at h
  obtain ⟨defaults, h7, h⟩ := Res.bind_eq_ok.mp h
  rw [Prog.eval_bind] at h
  obtain ⟨topology, h8, h⟩ := Res.bind_eq_ok.mp h
  rw [Prog.eval_bind] at h
  obtain ⟨boundary, h9, h⟩ := Res.bind_eq_ok.mp h
  rw [Prog.eval_bind] at h
  obtain ⟨count, h10, h⟩ := Res.bind_eq_ok.mp h
  rw [Prog.eval_bind] at h
  obtain ⟨⟨c, cj⟩, h11, h⟩ := Res.bind_eq_ok.mp h
  rw [Prog.eval_pure] at h
  have h := Res.ok.inj h
  simp only [Prod.mk.injEq] at h
  obtain ⟨e1, e2, e3⟩ := h
  subst e1
  rw [Prog.eval_done] at h1 h2 h3 h5 h6 h7 h10
  have hcount : HasControls L f ↔ 0 < count := by
    unfold prepare at h10
    obtain ⟨g, hg, h10⟩ := Res.bind_eq_ok.mp h10
    split at h10
    · rename_i hc
      obtain ⟨_, -, h10⟩ := Res.bind_eq_ok.mp h10
      obtain ⟨_, -, h10⟩ := Res.bind_eq_ok.mp h10
      obtain ⟨_, -, h10⟩ := Res.bind_eq_ok.mp h10
      have h10 := Res.ok.inj h10
      rw [← h10, ← e3]
      constructor
      · rintro ⟨g', hc', hg', hpos⟩
        simp only at hg'
        rw [hg] at hg'
        cases hg'
        exact hpos
      · intro hpos
        exact ⟨g, hc, hg, hpos⟩
    · cases h10
  refine ⟨⟨eval_readJson h0, ?_, ?_, ?_, ?_, fun hcon => ?_⟩, ?_⟩
  · rw [← e3]; exact eval_readJson h4
  · rw [← e3]; exact eval_entry h2 h3 (by decide) h8
  · rw [← e3]; exact eval_entry h2 h3 (by decide) h9
  · rw [valueAt_problem h2, ← find_set_ne (k' := "defaults") h3 (by decide), ← e3]
    unfold Factory.valueOr at h7
    split at h7
    · have h7 := Res.ok.inj h7
      simp only
      rw [← h7]
      cases problem.find? "defaults" with
      | none => exact Or.inr ⟨rfl, rfl⟩
      | some v => exact Or.inl rfl
    · cases h7
  · have hpos := hcount.mp (of_decide_eq_true hcon)
    rw [if_pos hpos, Prog.eval_bind] at h11
    obtain ⟨c', -, h11⟩ := Res.bind_eq_ok.mp h11
    rw [Prog.eval_bind] at h11
    obtain ⟨j, hj, h11⟩ := Res.bind_eq_ok.mp h11
    rw [Prog.eval_pure] at h11
    have h11 := Res.ok.inj h11
    simp only [Prod.mk.injEq] at h11
    rw [← e3]
    simp only
    rw [← h11.2]
    exact eval_readJson hj
  · unfold readSettings
    rw [h1, Res.ok_bind, h5, Res.ok_bind, h6, Res.ok_bind]
    have hcs : controlSettingsFor (decide (HasControls L f)) all' = Res.ok c := by
      unfold controlSettingsFor
      by_cases hpos : 0 < count
      · rw [if_pos (decide_eq_true (hcount.mpr hpos))]
        rw [if_pos hpos, Prog.eval_bind] at h11
        obtain ⟨c', hc', h11⟩ := Res.bind_eq_ok.mp h11
        rw [Prog.eval_bind] at h11
        obtain ⟨j, hj, h11⟩ := Res.bind_eq_ok.mp h11
        rw [Prog.eval_pure] at h11
        have h11 := Res.ok.inj h11
        simp only [Prod.mk.injEq] at h11
        rw [← h11.1]
        exact hc'
      · rw [if_neg (by rw [decide_eq_true_eq, hcount]; exact hpos)]
        rw [if_neg hpos, Prog.eval_pure] at h11
        have h11 := Res.ok.inj h11
        simp only [Prod.mk.injEq] at h11
        rw [← h11.1]
    rw [hcs, Res.ok_bind, ← e2]

/-- The files that are always named the same. -/
def fileNames : List String := ["problem_data.json", "initial.json", "control.json", "lower_bounds.json", "upper_bounds.json",
  "constraint_lower_bounds.json", "constraint_upper_bounds.json"]

theorem references_readJson {name r : String} (h : r ∈ (readJson L name).references load) : r = name := by
  simpa [readJson, Prog.references] using h

theorem references_entry {all p problem : Json} {key r : String} (hp : indexMut all "problem_data" = Res.ok p)
    (hset : p.set "GRAZER_file_directory" (str "problem") = Res.ok problem) (hk : key ≠ "GRAZER_file_directory")
    (h : r ∈ (entryOrFile L problem key).references load) : valueAt all ["problem_data", key] = some (str r) := by
  unfold entryOrFile at h
  rw [find_set_ne hset hk] at h
  rw [valueAt_problem hp]
  split at h
  · cases h
  · rename_i r' hm
    rw [references_readJson h, hm]
  · cases h

theorem references_readAll {r : String} (h : r ∈ (readAll L).references load) :
    r ∈ fileNames ∨ ∃ all, JsonIn L.parse load "problem_data.json" all ∧
      (valueAt all ["problem_data", "topology_json"] = some (str r) ∨ valueAt all ["problem_data", "boundary_json"] = some (str r)) := by
  unfold readAll at h
  rcases Prog.mem_references_bind h with h | ⟨all, hall, h⟩
  · exact Or.inl (by rw [references_readJson h]; decide)
  rcases Prog.mem_references_bind h with h | ⟨_, -, h⟩
  · cases h
  rcases Prog.mem_references_bind h with h | ⟨p, hp, h⟩
  · cases h
  rcases Prog.mem_references_bind h with h | ⟨problem, hset, h⟩
  · cases h
  rcases Prog.mem_references_bind h with h | ⟨_, -, h⟩
  · exact Or.inl (by rw [references_readJson h]; decide)
  rcases Prog.mem_references_bind h with h | ⟨_, -, h⟩
  · cases h
  rcases Prog.mem_references_bind h with h | ⟨_, -, h⟩
  · cases h
  rcases Prog.mem_references_bind h with h | ⟨_, -, h⟩
  · cases h
  rcases Prog.mem_references_bind h with h | ⟨_, -, h⟩
  · exact Or.inr ⟨all, eval_readJson hall, Or.inl (references_entry hp hset (by decide) h)⟩
  rcases Prog.mem_references_bind h with h | ⟨_, -, h⟩
  · exact Or.inr ⟨all, eval_readJson hall, Or.inr (references_entry hp hset (by decide) h)⟩
  rcases Prog.mem_references_bind h with h | ⟨count, -, h⟩
  · cases h
  rcases Prog.mem_references_bind h with h | ⟨_, -, h⟩
  · split at h
    · rcases Prog.mem_references_bind h with h | ⟨_, -, h⟩
      · cases h
      rcases Prog.mem_references_bind h with h | ⟨_, -, h⟩
      · exact Or.inl (by rw [references_readJson h]; decide)
      · cases h
    · cases h
  · cases h

/-- The files that are read: those with fixed names, and those that are named in the problem file for topology and boundary values. -/
theorem C124_references [Printed ℝ] {r : String} (h : r ∈ (program L).references load) :
    r ∈ fileNames ∨ ∃ all, JsonIn L.parse load "problem_data.json" all ∧
      (valueAt all ["problem_data", "topology_json"] = some (str r) ∨ valueAt all ["problem_data", "boundary_json"] = some (str r)) := by
  unfold program at h
  rcases Prog.mem_references_bind h with h | ⟨x, -, h⟩
  · exact references_readAll h
  split at h
  · rcases Prog.mem_references_bind h with h | ⟨_, -, h⟩
    · exact Or.inl (by rw [references_readJson h]; decide)
    rcases Prog.mem_references_bind h with h | ⟨_, -, h⟩
    · exact Or.inl (by rw [references_readJson h]; decide)
    rcases Prog.mem_references_bind h with h | ⟨_, -, h⟩
    · exact Or.inl (by rw [references_readJson h]; decide)
    rcases Prog.mem_references_bind h with h | ⟨_, -, h⟩
    · exact Or.inl (by rw [references_readJson h]; decide)
    · cases h
  · cases h

theorem inside_fileNames : ∀ r ∈ fileNames, Inside r := by
  show ∀ r ∈ fileNames, (parts r).head? ≠ some "" ∧ ".." ∉ parts r
  decide +kernel

theorem needs_controls {s : Settings} {f : Files} (hs : Sound L.draws s f) {g : Graph Network.Node EdgeKind} (hc : Consistent g)
    (hg : readNet L.draws L.mem f.defaults f.topology f.boundary = Res.ok g) : 0 < (toNet hc).controlCount ↔ NeedsControls f.topology := by
  obtain ⟨node, edge, S⟩ := sited_of hs.topology.2.1 hs.topology.2.2 hg hs.fit hc
  constructor
  · intro h
    obtain ⟨k, hk, -⟩ := control_cover h
    have hm := S.edgeMatch k
    refine ⟨(edge k).2, (edge k).1, S.edges.mem_iff.mp (List.mem_ofFn.mpr ⟨k, rfl⟩), ?_⟩
    revert hk hm
    generalize (toNet hc).edge k = y
    generalize (edge k).1 = t
    intro hk hm
    cases hm <;> first
      | decide
      | cases hk
  · rintro ⟨x, type, hmem, hty⟩
    obtain ⟨k, hk⟩ := S.of_edge hmem
    have hcon : ((toNet hc).edge k).isControl := by
      have hm := S.edgeMatch k
      rw [hk] at hm
      generalize (toNet hc).edge k = y at hm
      simp only at hm
      cases hm <;> first
        | rfl
        | exact absurd hty (by decide)
    obtain ⟨h0, h1⟩ := Admissible.control_bounds (N := toNet hc) hcon
    unfold Net.controlCount
    omega

theorem readOptimize_iff {all : Json} : readOptimize all = true ↔ valueAt all ["optimize"] = some (.bool true) := by
  rw [valueAt_one]
  unfold readOptimize
  split
  · rename_i b hb
    rw [hb]
    simp
  · rename_i hb
    exact ⟨fun h => (by cases h), fun h => absurd h (hb _)⟩

open Classical in
theorem isProblem_of {all : Json} {s : Settings} {f : Files} (h : (readAll L).eval load = Res.ok (all, s, f))
    (hnet : ∃ g, ∃ _ : Consistent g, readNet L.draws L.mem f.defaults f.topology f.boundary = Res.ok g) :
    IsProblem L.parse load L.draws (decide (HasControls L f)) all s f := by
  obtain ⟨h1, h2⟩ := eval_readAll h
  refine ⟨h1, fun hs => ?_, fun hi hr hn => C123_used_partial hi hr hn h2⟩
  rw [decide_eq_true_eq]
  obtain ⟨g, hc, hg⟩ := hnet
  rw [← needs_controls hs hc hg]
  constructor
  · rintro ⟨g', hc', hg', hpos⟩
    rw [hg] at hg'
    cases hg'
    exact hpos
  · intro hpos
    exact ⟨g, hc, hg, hpos⟩

theorem every_as_written {all : Json} (he : WholeOrMissing all ["constraint_settings", "evaluate_constraints_every_n"]) :
    valueAt all ["constraint_settings", "evaluate_constraints_every_n"] = none ∧ readEvery all = 1 ∨
      NumberAt all ["constraint_settings", "evaluate_constraints_every_n"] (readEvery all) := by
  unfold readEvery
  have e : valueAt all ["constraint_settings", "evaluate_constraints_every_n"] =
      (all.find? "constraint_settings").bind fun c => c.find? "evaluate_constraints_every_n" := by
    cases hf : all.find? "constraint_settings" with
    | none => unfold valueAt; rw [hf]; rfl
    | some v => rw [valueAt_two hf]; rfl
  rw [← e]
  cases hf : valueAt all ["constraint_settings", "evaluate_constraints_every_n"] with
  | none => exact Or.inl ⟨rfl, rfl⟩
  | some v =>
    obtain ⟨n, rfl, -, -⟩ := he v hf
    refine Or.inr ⟨n, hf, ?_⟩
    simp

theorem run_net {s : Settings} {f : Files} {r : List ℝ × List (Option (ℤ → ℝ))} (h : Read.run L.draws L.mem L.lu L.fuel s f = Res.ok r) :
    ∃ g, ∃ _ : Consistent g, readNet L.draws L.mem f.defaults f.topology f.boundary = Res.ok g := by
  unfold Read.run at h
  obtain ⟨_, -, h⟩ := Res.bind_eq_ok.mp h
  obtain ⟨g, hg, h⟩ := Res.bind_eq_ok.mp h
  split at h
  · rename_i hc
    exact ⟨g, hc, hg⟩
  · cases h

theorem simulation_in [Printed ℝ] {s : Settings} {f : Files} {j : Option Json} {fs : Disk} {d : Path}
    (h : runFile L.draws L.mem L.lu L.fuel s f = Res.ok j) (hw : Contains fs d "states.json" (statesText L j)) : SimulationIn L fs d s f := by
  cases j with
  | none => exact Or.inl hw
  | some out =>
    exact Or.inr ⟨out, hw, fun hs => C109_results hs.topology.1 hs.topology.2.1 hs.topology.2.2 hs.boundary.1 hs.boundary.2 hs.fit hs.settings.1
      hs.settings.2.1 hs.settings.2.2 hs.covers hs.draws h⟩

theorem optimized_controls [Printed ℝ] {s : Settings} {every : ℤ} {f : Files} {b : Bounds} {x : List ℝ} {j : Json × Option Json}
    (h : optimizedFiles L.draws L.mem L.lu L.fuel s every f b x = Res.ok j) {P : Nlp}
    (hP : optimization L.draws L.mem L.lu L.fuel s every f b = Res.ok P) :
    ∃ g, ∃ hc : Consistent g, readNet L.draws L.mem f.defaults f.topology f.boundary = Res.ok g ∧ controlsFile hc P.controlTimes x = Res.ok j.1 := by
  unfold optimizedFiles at h
  rw [hP, Res.ok_bind] at h
  obtain ⟨-, -, h⟩ := Res.bind_eq_ok.mp h
  obtain ⟨z, hz, h⟩ := Res.bind_eq_ok.mp h
  obtain ⟨g, hg, h⟩ := Res.bind_eq_ok.mp h
  split at h
  · rename_i hc
    obtain ⟨c, hcf, h⟩ := Res.bind_eq_ok.mp h
    refine ⟨g, hc, hg, ?_⟩
    rw [hcf]
    split at h
    · obtain ⟨_, -, h⟩ := Res.bind_eq_ok.mp h
      cases h
      rfl
    · cases h
      rfl
  · cases h

section
variable {Proc : Type} [DecidableEq Proc] {base d : Path} {prog : Proc → Prog Outputs} {other : Disk → Disk → Prop} {fs₀ fs : Disk}
  {stage : Proc → Stage} {i : Proc}

open Classical in
/-- C124, but for the optimum: a run that returns 0 has left the results of the problem in its directory. For a simulation these are states that obey the laws; for an optimization
the controls that Ipopt returned, and the states that belong to these controls. There may be other runs on the same directory and other programs at the same time, but they are not to change the problem. -/
theorem C124_results_partial [Printed ℝ] (h : Reach false (resolve base) base prog other fs₀ fs stage) (hprog : prog i = program L)
    (hself : SelfContained base (program L) fs₀)
    (hother : ∀ r ∈ (program L).references (texts (resolve base) fs₀), ∀ fs fs', other fs fs' → fs' (resolve base r) = fs (resolve base r))
    (hexit : stage i = .exited (some d) 0) :
    ∃ controls all s f, IsProblem L.parse (texts (resolve base) fs₀) L.draws controls all s f ∧
      if valueAt all ["optimize"] = some (.bool true) then ∃ optimum, OptimizationIn L (texts (resolve base) fs₀) fs d all s f optimum
      else SimulationIn L fs d s f := by
  rw [← hprog] at hself hother
  obtain ⟨out, h1, h2⟩ := (C121_result_partial h (self_contained_not_output hself) hother
    (fun reads out hy => by rw [hprog] at hy; exact (program_apart reads out hy).2.2) hexit).1 rfl
  rw [hprog] at h1
  unfold program at h1
  rw [Prog.eval_bind] at h1
  obtain ⟨⟨all, s, f⟩, hall, h1⟩ := Res.bind_eq_ok.mp h1
  simp only at h1
  split at h1
  · rename_i hopt
    rw [Prog.eval_bind] at h1
    obtain ⟨b1, hb1, h1⟩ := Res.bind_eq_ok.mp h1
    rw [Prog.eval_bind] at h1
    obtain ⟨b2, hb2, h1⟩ := Res.bind_eq_ok.mp h1
    rw [Prog.eval_bind] at h1
    obtain ⟨b3, hb3, h1⟩ := Res.bind_eq_ok.mp h1
    rw [Prog.eval_bind] at h1
    obtain ⟨b4, hb4, h1⟩ := Res.bind_eq_ok.mp h1
    rw [Prog.eval_done] at h1
    unfold optimizationOutputs at h1
    obtain ⟨P, hP, h1⟩ := Res.bind_eq_ok.mp h1
    obtain ⟨⟨c, j⟩, hj, h1⟩ := Res.bind_eq_ok.mp h1
    have h1 := Res.ok.inj h1
    subst h1
    obtain ⟨g, hc, hg, hcf⟩ := optimized_controls hj hP
    refine ⟨decide (HasControls L f), all, s, f, isProblem_of hall ⟨g, hc, hg⟩, ?_⟩
    rw [if_pos (readOptimize_iff.mp hopt)]
    refine ⟨(L.ipopt P).1, readEvery all, ⟨b1, b2, b3, b4⟩, P, (L.ipopt P).2, c,
      ⟨every_as_written, eval_readJson hb1, eval_readJson hb2, eval_readJson hb3, eval_readJson hb4⟩, hP, rfl,
      h2 ("controls.json", L.dump c) (by simp), ⟨g, hc, hg, hcf⟩, fun e1 e2 hs => ?_⟩
    refine simulation_in (C116_files hs.topology.2.1 hs.topology.2.2 hs.settings.1 hs.settings.2.1 hj (fun P' hP' => ?_) e2)
      (h2 ("states.json", statesText L j) (by simp))
    rw [hP] at hP'
    cases hP'
    exact e1
  · rename_i hopt
    rw [Prog.eval_done] at h1
    unfold simulationOutputs at h1
    obtain ⟨j, hj, h1⟩ := Res.bind_eq_ok.mp h1
    have h1 := Res.ok.inj h1
    subst h1
    have hnet : ∃ g, ∃ _ : Consistent g, readNet L.draws L.mem f.defaults f.topology f.boundary = Res.ok g := by
      have hj' := hj
      unfold runFile at hj'
      obtain ⟨r, hr, -⟩ := Res.bind_eq_ok.mp hj'
      exact run_net hr
    refine ⟨decide (HasControls L f), all, s, f, isProblem_of hall hnet, ?_⟩
    rw [if_neg (fun hv => hopt (readOptimize_iff.mpr hv))]
    exact simulation_in hj (h2 ("states.json", statesText L j) (by simp))

end

end

end Verif.Command
