import Verif.Read.Run

/-!
# Property C123: settings are read as they are written, or rejected

Sources: `/repo/src/Grazer/commands.cpp` 70-80, 110-115 and 153-161, `/repo/src/Auxillary/Timedata/Timedata.cpp`,
`/repo/src/Model/Problemlayer/Timeevolver.cpp` 33-64, `/repo/src/Grazer/helpers.cpp` 24-63, and the conversions of nlohmann's json library.
-/

set_option autoImplicit false

namespace Verif.Command

open Verif.Json Verif.Schema Verif.Factory Verif.Times

/-! ## Model -/

/-- `operator[]` of an object that may be changed: a missing key is inserted with the value null. -/
def indexMut (j : Json) (key : String) : Res Json :=
  match j with
  | null => Res.ok null
  | obj m => Res.ok ((m.lookup key).getD null)
  | _ => Res.throws

/-- The conversion of a floating point number to an integer: digits after the point are dropped. -/
def truncate (q : ℚ) : ℤ := if 0 ≤ q then ⌊q⌋ else ⌈q⌉

/-- `get<int>()`: numbers are converted, which is undefined behaviour out of range (for numbers that are written as integers it is not, but something else comes out; this
is not modelled), and booleans are numbers. -/
def getInt : Json → Res ℤ
  | num q => if -2147483648 ≤ truncate q ∧ truncate q < 2147483648 then Res.ok (truncate q) else Res.ub
  | .bool b => Res.ok (if b then 1 else 0)
  | _ => Res.throws

/-- `get<bool>()`. -/
def getBool : Json → Res Bool
  | .bool b => Res.ok b
  | _ => Res.throws

/-- `Aux::schema::type::boolean()` — `make_schema.cpp`. -/
def booleanType : Json := obj [("type", str "boolean")]

/-- The constructor of `Timedata` — `Timedata.cpp` 22-27: start, end and wished time step. The number of steps is computed, too. -/
def readTimes (settings : Json) : Res (ℚ × ℚ × ℚ) := do
  let j ← settings.index "start_time"
  let start ← getNum j
  let j ← settings.index "end_time"
  let stop ← getNum j
  let j ← settings.index "desired_delta_t"
  let desired ← getNum j
  let _ ← numberOfTimesteps start desired stop
  Res.ok (start, stop, desired)

/-- `Timeevolver::get_schema` — `Timeevolver.cpp` 33-45. -/
def solverSchema : Res Json := do
  let s ← (null).set "type" (str "object")
  let s ← addRequired s "tolerance" numberType
  let s ← addRequired s "maximal_number_of_newton_iterations" numberType
  let s ← addRequired s "retries" numberType
  addRequired s "use_simplified_newton" booleanType

/-- `Timeevolver::make_pointer_instance` and the constructor — `Timeevolver.cpp` 53-64. -/
def readSolver (settings : Json) : Res (ℚ × ℤ × ℤ × Bool) := do
  let schema ← solverSchema
  if accepts schema settings then do
    let j ← settings.index "tolerance"
    let tolerance ← getNum j
    let j ← settings.index "maximal_number_of_newton_iterations"
    let iterations ← getInt j
    let j ← settings.index "retries"
    let retries ← getInt j
    let j ← settings.index "use_simplified_newton"
    let simplified ← getBool j
    Res.ok (tolerance, iterations, retries, simplified)
  else Res.throws

/-- `setup_controls` — `helpers.cpp` 30-63: the settings of control times. -/
noncomputable def readControlSettings (all : Json) : Res (Option (ControlSettings ℝ)) :=
  if all.contains "control_settings" then do
    let c ← all.index "control_settings"
    if c.contains "desired_delta_t" && c.contains "number_of_steps" then Res.throws
    else if c.contains "desired_delta_t" then do
      let j ← c.index "desired_delta_t"
      let d ← getNum j
      Res.ok (some ⟨some (d : ℝ), none⟩)
    else if c.contains "number_of_steps" then do
      let j ← c.index "number_of_steps"
      let n ← getInt j
      Res.ok (some ⟨none, some n⟩)
    else Res.throws
  else Res.ok none

/-- They are read only if there are controls — `helpers.cpp` 28. -/
noncomputable def controlSettingsFor (controls : Bool) (all : Json) : Res (Option (ControlSettings ℝ)) :=
  if controls then readControlSettings all else Res.ok none

/-- Is it an optimization? — `commands.cpp` 110-115. -/
def readOptimize (all : Json) : Bool :=
  match all.find? "optimize" with
  | some (.bool b) => b
  | _ => false

/-- `evaluate_constraints_every_n` — `commands.cpp` 153-161. (A number that is written with a decimal point is no integer there, here it is one if it is whole.) -/
def readEvery (all : Json) : ℤ :=
  match (all.find? "constraint_settings").bind fun c => c.find? "evaluate_constraints_every_n" with
  | some (num q) => if q.den = 1 then q.num else 1
  | _ => 1

/-- All settings of a run on a network with or without controls, and whether it is an optimization. In the program other files are read in between, see `Verif.Command.Program`. -/
noncomputable def readSettings (controls : Bool) (all : Json) : Res (Read.Settings × Bool × ℤ) := do
  let settings ← indexMut all "simulation_settings"
  let t ← readTimes settings
  let v ← readSolver settings
  let c ← controlSettingsFor controls all
  Res.ok (⟨t.1, t.2.2, t.2.1, c, v.1, v.2.1, v.2.2.1, v.2.2.2⟩, readOptimize all, readEvery all)

/-! ## Specification -/

/-- The value at a path of keys. -/
def valueAt (j : Json) : List String → Option Json
  | [] => some j
  | k :: ks => (j.find? k).bind fun v => valueAt v ks

/-- A number at a path of keys. -/
def NumberAt (j : Json) (ks : List String) (x : ℝ) : Prop := ∃ q : ℚ, valueAt j ks = some (num q) ∧ x = q

/-- At most one of the two settings of control times is written, and it is the one that is used. -/
def ControlAsWritten (all : Json) : Option (ControlSettings ℝ) → Prop
  | none => valueAt all ["control_settings"] = none
  | some ⟨some d, none⟩ => NumberAt all ["control_settings", "desired_delta_t"] d ∧ valueAt all ["control_settings", "number_of_steps"] = none
  | some ⟨none, some n⟩ => NumberAt all ["control_settings", "number_of_steps"] n ∧ valueAt all ["control_settings", "desired_delta_t"] = none
  | some _ => False

/-- The settings are those that are written in the problem file. -/
structure AsWritten (controls : Bool) (all : Json) (s : Read.Settings) : Prop where
  start : NumberAt all ["simulation_settings", "start_time"] s.start
  stop : NumberAt all ["simulation_settings", "end_time"] s.stop
  desired : NumberAt all ["simulation_settings", "desired_delta_t"] s.desired
  tolerance : NumberAt all ["simulation_settings", "tolerance"] s.tolerance
  iterations : NumberAt all ["simulation_settings", "maximal_number_of_newton_iterations"] s.iterations
  retries : NumberAt all ["simulation_settings", "retries"] s.retries
  simplified : valueAt all ["simulation_settings", "use_simplified_newton"] = some (.bool s.simplified)
  control : controls = true → ControlAsWritten all s.control

/-- Whether it is an optimization, and the constraint times, are as written: either not mentioned or mentioned with a value of the right kind. -/
structure GoalAsWritten (all : Json) (optimize : Bool) (every : ℤ) : Prop where
  optimize : valueAt all ["optimize"] = none ∧ optimize = false ∨ valueAt all ["optimize"] = some (.bool optimize)
  every : valueAt all ["constraint_settings", "evaluate_constraints_every_n"] = none ∧ every = 1 ∨
    NumberAt all ["constraint_settings", "evaluate_constraints_every_n"] every

/-- C123: a run uses the settings as they are written in the file, or the file is rejected. -/
def C123Statement : Prop :=
  ∀ controls all, readSettings controls all = Res.throws ∨
    ∃ s optimize every, readSettings controls all = Res.ok (s, optimize, every) ∧ AsWritten controls all s ∧ GoalAsWritten all optimize every

/-- A setting is missing or it is a whole number (that is not too large for a machine). -/
def WholeOrMissing (all : Json) (ks : List String) : Prop :=
  ∀ v, valueAt all ks = some v → ∃ n : ℤ, v = num n ∧ -2147483648 ≤ n ∧ n < 2147483648

/-! ## Proofs -/

theorem truncate_int (n : ℤ) : truncate (n : ℚ) = n := by
  unfold truncate
  split <;> simp

theorem getInt_whole {n : ℤ} (h1 : -2147483648 ≤ n) (h2 : n < 2147483648) : getInt (num (n : ℚ)) = Res.ok n := by
  show (if -2147483648 ≤ truncate (n : ℚ) ∧ truncate (n : ℚ) < 2147483648 then Res.ok (truncate (n : ℚ)) else Res.ub) = _
  rw [truncate_int, if_pos ⟨h1, h2⟩]

theorem getNum_eq {j : Json} {q : ℚ} : getNum j = Res.ok q ↔ j = num q := by
  cases j <;> simp [getNum]

theorem getNum_ub {j : Json} : getNum j ≠ Res.ub := by
  cases j <;> simp [getNum]

theorem getBool_eq {j : Json} {b : Bool} : getBool j = Res.ok b ↔ j = .bool b := by
  cases j <;> simp [getBool]

theorem solverSchema_eq : solverSchema = Res.ok (obj [
    ("properties", obj [("maximal_number_of_newton_iterations", numberType), ("retries", numberType), ("tolerance", numberType), ("use_simplified_newton", booleanType)]),
    ("required", arr [str "tolerance", str "maximal_number_of_newton_iterations", str "retries", str "use_simplified_newton"]),
    ("type", str "object")]) := by
  rfl

theorem accepts_boolean {j : Json} : accepts booleanType j = true ↔ ∃ b, j = .bool b := by
  unfold booleanType
  rw [accepts_obj]
  cases j <;> simp [keyword, simpleKeyword, hasType]

/-- What the schema of the solver accepts. -/
theorem accepts_solver {schema j : Json} (h : solverSchema = Res.ok schema) : accepts schema j = true ↔
    (∃ q, j.find? "tolerance" = some (num q)) ∧ (∃ q, j.find? "maximal_number_of_newton_iterations" = some (num q)) ∧
    (∃ q, j.find? "retries" = some (num q)) ∧ ∃ b, j.find? "use_simplified_newton" = some (.bool b) := by
  rw [solverSchema_eq] at h
  injection h with h
  subst h
  rw [accepts_obj]
  cases j with
  | obj m =>
    simp only [keyword, simpleKeyword, hasType, List.all_cons, List.all_nil, Bool.and_true, find?, Json.contains]
    cases h1 : m.lookup "tolerance" with
    | none => simp
    | some a =>
      cases h2 : m.lookup "maximal_number_of_newton_iterations" with
      | none => simp
      | some b =>
        cases h3 : m.lookup "retries" with
        | none => simp
        | some c =>
          cases h4 : m.lookup "use_simplified_newton" with
          | none => simp
          | some d =>
            simp [accepts_number, accepts_boolean]
            tauto
  | _ => simp [keyword, simpleKeyword, hasType, find?]

theorem indexMut_eq {all settings : Json} {key : String} (h : indexMut all key = Res.ok settings) : settings = (all.find? key).getD null := by
  cases all <;> simp_all [indexMut, find?]

theorem valueAt_settings {all settings : Json} {key : String} (h : indexMut all "simulation_settings" = Res.ok settings) :
    valueAt all ["simulation_settings", key] = settings.find? key := by
  rw [indexMut_eq h]
  unfold valueAt
  cases all.find? "simulation_settings" with
  | none => rfl
  | some v =>
    simp only [Option.bind_some, valueAt, Option.getD_some]
    cases v.find? key <;> rfl

theorem readTimes_eq {j : Json} {start stop desired : ℚ} (h : readTimes j = Res.ok (start, stop, desired)) :
    j.find? "start_time" = some (num start) ∧ j.find? "end_time" = some (num stop) ∧ j.find? "desired_delta_t" = some (num desired) := by
  unfold readTimes at h
  obtain ⟨a, ha, h⟩ := Res.bind_eq_ok.mp h
  obtain ⟨x, hx, h⟩ := Res.bind_eq_ok.mp h
  obtain ⟨b, hb, h⟩ := Res.bind_eq_ok.mp h
  obtain ⟨y, hy, h⟩ := Res.bind_eq_ok.mp h
  obtain ⟨c, hc, h⟩ := Res.bind_eq_ok.mp h
  obtain ⟨z, hz, h⟩ := Res.bind_eq_ok.mp h
  obtain ⟨n, hn, h⟩ := Res.bind_eq_ok.mp h
  have h := Res.ok.inj h
  simp only [Prod.mk.injEq] at h
  rw [getNum_eq] at hx hy hz
  rw [index_eq_ok, hx] at ha
  rw [index_eq_ok, hy] at hb
  rw [index_eq_ok, hz] at hc
  rw [← h.1, ← h.2.1, ← h.2.2]
  exact ⟨ha, hb, hc⟩

theorem readSolver_eq {j : Json} {tolerance : ℚ} {iterations retries : ℤ} {simplified : Bool}
    (h : readSolver j = Res.ok (tolerance, iterations, retries, simplified)) :
    j.find? "tolerance" = some (num tolerance) ∧
    (∃ v, j.find? "maximal_number_of_newton_iterations" = some v ∧ getInt v = Res.ok iterations) ∧
    (∃ v, j.find? "retries" = some v ∧ getInt v = Res.ok retries) ∧ j.find? "use_simplified_newton" = some (.bool simplified) := by
  unfold readSolver at h
  obtain ⟨schema, hs, h⟩ := Res.bind_eq_ok.mp h
  split at h
  · obtain ⟨a, ha, h⟩ := Res.bind_eq_ok.mp h
    obtain ⟨x, hx, h⟩ := Res.bind_eq_ok.mp h
    obtain ⟨b, hb, h⟩ := Res.bind_eq_ok.mp h
    obtain ⟨y, hy, h⟩ := Res.bind_eq_ok.mp h
    obtain ⟨c, hc, h⟩ := Res.bind_eq_ok.mp h
    obtain ⟨z, hz, h⟩ := Res.bind_eq_ok.mp h
    obtain ⟨d, hd, h⟩ := Res.bind_eq_ok.mp h
    obtain ⟨w, hw, h⟩ := Res.bind_eq_ok.mp h
    rw [getNum_eq] at hx
    rw [getBool_eq] at hw
    rw [index_eq_ok] at ha hb hc hd
    subst hx hw
    cases h
    exact ⟨ha, ⟨b, hb, hy⟩, ⟨c, hc, hz⟩, hd⟩
  · cases h

theorem whole_getInt {all : Json} {ks : List String} (hw : WholeOrMissing all ks) {v : Json} {n : ℤ} (h1 : valueAt all ks = some v)
    (h2 : getInt v = Res.ok n) : NumberAt all ks n := by
  obtain ⟨m, rfl, a, b⟩ := hw v h1
  rw [getInt_whole a b] at h2
  injection h2 with h2
  subst h2
  exact ⟨m, h1, by simp⟩

theorem valueAt_one (all : Json) (k : String) : valueAt all [k] = all.find? k := by
  unfold valueAt
  cases all.find? k <;> rfl

theorem valueAt_two {all v : Json} {k k' : String} (h : all.find? k = some v) : valueAt all [k, k'] = v.find? k' := by
  unfold valueAt
  rw [h, Option.bind_some, valueAt_one]

/-- C123, what is used: if a run goes on with settings at all, they are those that are written in the file — provided that the numbers that are to be whole are
whole numbers. -/
theorem C123_used_partial {controls : Bool} {all : Json} {s : Read.Settings} {optimize : Bool} {every : ℤ}
    (hi : WholeOrMissing all ["simulation_settings", "maximal_number_of_newton_iterations"])
    (hr : WholeOrMissing all ["simulation_settings", "retries"])
    (hn : controls = true → WholeOrMissing all ["control_settings", "number_of_steps"])
    (h : readSettings controls all = Res.ok (s, optimize, every)) : AsWritten controls all s := by
  unfold readSettings at h
  obtain ⟨settings, hset, h⟩ := Res.bind_eq_ok.mp h
  obtain ⟨⟨start, stop, desired⟩, ht, h⟩ := Res.bind_eq_ok.mp h
  obtain ⟨⟨tolerance, iterations, retries, simplified⟩, hv, h⟩ := Res.bind_eq_ok.mp h
  obtain ⟨c, hc, h⟩ := Res.bind_eq_ok.mp h
  cases h
  obtain ⟨t1, t2, t3⟩ := readTimes_eq ht
  obtain ⟨v1, ⟨a, v2, v2'⟩, ⟨b, v3, v3'⟩, v4⟩ := readSolver_eq hv
  have key : ∀ k, valueAt all ["simulation_settings", k] = settings.find? k := fun k => valueAt_settings hset
  refine ⟨⟨start, by rw [key, t1], rfl⟩, ⟨stop, by rw [key, t2], rfl⟩, ⟨desired, by rw [key, t3], rfl⟩, ⟨tolerance, by rw [key, v1], rfl⟩,
    whole_getInt hi (by rw [key, v2]) v2', whole_getInt hr (by rw [key, v3]) v3', by rw [key, v4], fun hcon => ?_⟩
  rw [controlSettingsFor, if_pos hcon] at hc
  show ControlAsWritten all c
  unfold readControlSettings at hc
  split at hc
  · obtain ⟨j, hj, hc⟩ := Res.bind_eq_ok.mp hc
    rw [index_eq_ok] at hj
    split at hc
    · cases hc
    · rename_i hboth
      split at hc
      · rename_i hd
        obtain ⟨x, hx, hc⟩ := Res.bind_eq_ok.mp hc
        obtain ⟨d, hd', hc⟩ := Res.bind_eq_ok.mp hc
        injection hc with hc
        subst hc
        rw [index_eq_ok] at hx
        rw [getNum_eq] at hd'
        subst hd'
        refine ⟨⟨d, by rw [valueAt_two hj, hx], rfl⟩, ?_⟩
        rw [valueAt_two hj]
        rw [hd, Bool.true_and] at hboth
        unfold Json.contains at hboth
        simpa using hboth
      · rename_i hd
        split at hc
        · obtain ⟨x, hx, hc⟩ := Res.bind_eq_ok.mp hc
          obtain ⟨n, hn', hc⟩ := Res.bind_eq_ok.mp hc
          injection hc with hc
          subst hc
          rw [index_eq_ok] at hx
          refine ⟨whole_getInt (hn hcon) (by rw [valueAt_two hj, hx]) hn', ?_⟩
          rw [valueAt_two hj]
          unfold Json.contains at hd
          simpa using hd
        · cases hc
  · rename_i hnone
    injection hc with hc
    subst hc
    show valueAt all ["control_settings"] = none
    rw [valueAt_one]
    unfold Json.contains at hnone
    simpa using hnone

theorem bind_ne_ub {α β : Type} {x : Res α} {f : α → Res β} (h1 : x ≠ Res.ub) (h2 : ∀ a, x = Res.ok a → f a ≠ Res.ub) : (x >>= f) ≠ Res.ub := by
  cases x with
  | ok a => exact h2 a rfl
  | throws => exact fun h => by cases h
  | ub => exact absurd rfl h1

theorem getInt_ne_ub {all : Json} {ks : List String} (hw : WholeOrMissing all ks) {v : Json} (h1 : valueAt all ks = some v) :
    getInt v ≠ Res.ub := by
  obtain ⟨m, rfl, a, b⟩ := hw v h1
  rw [getInt_whole a b]
  exact fun h => by cases h

theorem index_ne_ub {j : Json} {key : String} (h : j.find? key ≠ none) : j.index key ≠ Res.ub := by
  obtain ⟨v, hv⟩ := Option.ne_none_iff_exists'.mp h
  rw [index_of_find hv]
  exact fun h => by cases h

/-- Reading the settings is defined. -/
theorem readSettings_ne_ub (controls : Bool) (all : Json)
    (hstart : valueAt all ["simulation_settings", "start_time"] ≠ none) (hstop : valueAt all ["simulation_settings", "end_time"] ≠ none)
    (hdesired : valueAt all ["simulation_settings", "desired_delta_t"] ≠ none)
    (hzero : valueAt all ["simulation_settings", "desired_delta_t"] ≠ some (num 0))
    (hi : WholeOrMissing all ["simulation_settings", "maximal_number_of_newton_iterations"])
    (hr : WholeOrMissing all ["simulation_settings", "retries"])
    (hn : controls = true → WholeOrMissing all ["control_settings", "number_of_steps"]) : readSettings controls all ≠ Res.ub := by
  unfold readSettings
  refine bind_ne_ub (by cases all <;> simp [indexMut]) fun settings hset => ?_
  have key : ∀ k, valueAt all ["simulation_settings", k] = settings.find? k := fun k => valueAt_settings hset
  rw [key] at hstart hstop hdesired hzero
  refine bind_ne_ub ?_ fun t ht => bind_ne_ub ?_ fun v hv => bind_ne_ub ?_ fun c hc => fun h => by cases h
  · unfold readTimes
    refine bind_ne_ub (index_ne_ub hstart) fun a ha => bind_ne_ub getNum_ub fun x hx => bind_ne_ub (index_ne_ub hstop) fun b hb =>
      bind_ne_ub getNum_ub fun y hy => bind_ne_ub (index_ne_ub hdesired) fun c hc => bind_ne_ub getNum_ub fun z hz =>
      bind_ne_ub ?_ fun n hn => fun h => by cases h
    unfold numberOfTimesteps
    rw [getNum_eq] at hz
    rw [index_eq_ok, hz] at hc
    rw [if_neg]
    · exact fun h => by cases h
    · rintro rfl
      exact hzero hc
  · unfold readSolver
    refine bind_ne_ub (by rw [solverSchema_eq]; exact fun h => by cases h) fun schema hs => ?_
    split
    · rename_i hacc
      rw [accepts_solver hs] at hacc
      obtain ⟨⟨a, h1⟩, ⟨b, h2⟩, ⟨c, h3⟩, ⟨d, h4⟩⟩ := hacc
      rw [index_of_find h1, index_of_find h2, index_of_find h3, index_of_find h4]
      refine bind_ne_ub (fun h => by cases h) fun _ k => bind_ne_ub getNum_ub fun x hx => bind_ne_ub (fun h => by cases h) fun _ k1 =>
        bind_ne_ub ?_ fun y hy => bind_ne_ub (fun h => by cases h) fun _ k2 => bind_ne_ub ?_ fun z hz => bind_ne_ub (fun h => by cases h) fun _ k3 =>
        bind_ne_ub ?_ fun z hz => fun h => by cases h
      · cases k1
        exact getInt_ne_ub hi (by rw [key, h2])
      · cases k2
        exact getInt_ne_ub hr (by rw [key, h3])
      · cases k3
        exact fun h => by cases h
    · exact fun h => by cases h
  · unfold controlSettingsFor
    split
    · rename_i hcon
      unfold readControlSettings
      split
      · rename_i hcs
        obtain ⟨j, hj⟩ := contains_iff.mp hcs
        rw [index_of_find hj]
        refine bind_ne_ub (fun h => by cases h) fun j' hj' => ?_
        cases hj'
        split
        · exact fun h => by cases h
        · split
          · rename_i h
            obtain ⟨x, hx⟩ := contains_iff.mp h
            rw [index_of_find hx]
            exact bind_ne_ub (fun h => by cases h) fun _ _ => bind_ne_ub getNum_ub fun _ _ => fun h => by cases h
          · split
            · rename_i h
              obtain ⟨x, hx⟩ := contains_iff.mp h
              rw [index_of_find hx]
              refine bind_ne_ub (fun h => by cases h) fun x' hx' => bind_ne_ub ?_ fun _ _ => fun h => by cases h
              cases hx'
              exact getInt_ne_ub (hn hcon) (by rw [valueAt_two hj, hx])
            · exact fun h => by cases h
      · exact fun h => by cases h
    · exact fun h => by cases h

/-- C123: a run uses the settings as they are written in the file, or the file is rejected, provided that the times are in the file and the wished time step is not
zero, that numbers that are to be whole are whole, and that "optimize" is true or false if it is there. -/
theorem C123_partial (controls : Bool) (all : Json)
    (hstart : valueAt all ["simulation_settings", "start_time"] ≠ none) (hstop : valueAt all ["simulation_settings", "end_time"] ≠ none)
    (hdesired : valueAt all ["simulation_settings", "desired_delta_t"] ≠ none)
    (hzero : valueAt all ["simulation_settings", "desired_delta_t"] ≠ some (num 0))
    (hi : WholeOrMissing all ["simulation_settings", "maximal_number_of_newton_iterations"])
    (hr : WholeOrMissing all ["simulation_settings", "retries"])
    (hn : controls = true → WholeOrMissing all ["control_settings", "number_of_steps"])
    (ho : ∀ v, valueAt all ["optimize"] = some v → ∃ b, v = .bool b)
    (he : WholeOrMissing all ["constraint_settings", "evaluate_constraints_every_n"]) :
    readSettings controls all = Res.throws ∨
    ∃ s optimize every, readSettings controls all = Res.ok (s, optimize, every) ∧ AsWritten controls all s ∧ GoalAsWritten all optimize every := by
  have hub := readSettings_ne_ub controls all hstart hstop hdesired hzero hi hr hn
  cases h : readSettings controls all with
  | ub => exact absurd h hub
  | throws => exact Or.inl rfl
  | ok x =>
    obtain ⟨s, optimize, every⟩ := x
    refine Or.inr ⟨s, optimize, every, rfl, C123_used_partial hi hr hn h, ?_⟩
    have h' := h
    unfold readSettings at h'
    obtain ⟨settings, -, h'⟩ := Res.bind_eq_ok.mp h'
    obtain ⟨t, -, h'⟩ := Res.bind_eq_ok.mp h'
    obtain ⟨v, -, h'⟩ := Res.bind_eq_ok.mp h'
    obtain ⟨c, -, h'⟩ := Res.bind_eq_ok.mp h'
    have h' := Res.ok.inj h'
    simp only [Prod.mk.injEq] at h'
    refine ⟨?_, ?_⟩
    · rw [← h'.2.1]
      unfold readOptimize
      cases hf : all.find? "optimize" with
      | none => exact Or.inl ⟨by rw [valueAt_one, hf], rfl⟩
      | some v =>
        obtain ⟨b, rfl⟩ := ho v (by rw [valueAt_one, hf])
        exact Or.inr (by rw [valueAt_one, hf])
    · rw [← h'.2.2]
      unfold readEvery
      have e : valueAt all ["constraint_settings", "evaluate_constraints_every_n"] =
          (all.find? "constraint_settings").bind fun c => c.find? "evaluate_constraints_every_n" := by
        cases hf : all.find? "constraint_settings" with
        | none => unfold valueAt; rw [hf]; rfl
        | some v => rw [valueAt_two hf]; rfl
      rw [← e]
      cases hf : valueAt all ["constraint_settings", "evaluate_constraints_every_n"] with
      | none => exact Or.inl ⟨rfl, rfl⟩
      | some v =>
        obtain ⟨n, rfl, -, -⟩ := he v hf
        refine Or.inr ⟨n, hf, ?_⟩
        simp

/-! ## Cases -/

/-- The settings of one of the examples in /repo/data, with some values left open. -/
def exampleSettings (start : List (String × Json)) (retries optimize : Json) : Json := obj [
  ("control_settings", obj [("number_of_steps", num 3)]),
  ("optimize", optimize),
  ("simulation_settings", obj ([("desired_delta_t", num 1800), ("end_time", num 86400), ("maximal_number_of_newton_iterations", num 20),
    ("retries", retries)] ++ start ++ [("tolerance", num (1 / 1000)), ("use_simplified_newton", .bool true)]))]

theorem readSettings_example (retries optimize : Json) (q : ℚ) (hq : retries = num q) (h1 : -2147483648 ≤ truncate q) (h2 : truncate q < 2147483648) :
    readSettings true (exampleSettings [("start_time", num 0)] retries optimize) =
      Res.ok (⟨0, 1800, 86400, some ⟨none, some 3⟩, (1 / 1000 : ℚ), 20, truncate q, true⟩, readOptimize (exampleSettings [("start_time", num 0)] retries optimize), 1) := by
  subst hq
  have e3 : getInt (num 3) = Res.ok 3 := getInt_whole (n := 3) (by norm_num) (by norm_num)
  have e20 : getInt (num 20) = Res.ok 20 := getInt_whole (n := 20) (by norm_num) (by norm_num)
  have eq : getInt (num q) = Res.ok (truncate q) := if_pos ⟨h1, h2⟩
  have et : readTimes (((exampleSettings [("start_time", num 0)] (num q) optimize).find? "simulation_settings").getD null) = Res.ok (0, 86400, 1800) := by
    show (numberOfTimesteps (0 : ℚ) 1800 86400 >>= fun _ => Res.ok ((0 : ℚ), (86400 : ℚ), (1800 : ℚ))) = _
    unfold numberOfTimesteps
    rw [if_neg (by norm_num)]
    rfl
  have ev : readSolver (((exampleSettings [("start_time", num 0)] (num q) optimize).find? "simulation_settings").getD null) =
      Res.ok (1 / 1000, 20, truncate q, true) := by
    unfold readSolver
    rw [solverSchema_eq, Res.ok_bind, if_pos]
    · show (getInt (num 20) >>= fun iterations => getInt (num q) >>= fun retries => Res.ok ((1 / 1000 : ℚ), iterations, retries, true)) = _
      rw [e20, eq]
      rfl
    · rw [accepts_solver solverSchema_eq]
      exact ⟨⟨_, rfl⟩, ⟨_, rfl⟩, ⟨_, rfl⟩, ⟨_, rfl⟩⟩
  have ec : controlSettingsFor true (exampleSettings [("start_time", num 0)] (num q) optimize) = Res.ok (some ⟨none, some 3⟩) := by
    show (getInt (num 3) >>= fun n => Res.ok (some (⟨none, some n⟩ : ControlSettings ℝ))) = _
    rw [e3]
    rfl
  have ei : indexMut (exampleSettings [("start_time", num 0)] (num q) optimize) "simulation_settings" =
      Res.ok (((exampleSettings [("start_time", num 0)] (num q) optimize).find? "simulation_settings").getD null) := rfl
  unfold readSettings
  rw [ei, Res.ok_bind, et, Res.ok_bind, ev, Res.ok_bind, ec, Res.ok_bind]
  have hn : readEvery (exampleSettings [("start_time", num 0)] (num q) optimize) = 1 := rfl
  rw [hn]
  simp

/-- C123 is false: digits after the point are dropped silently. -/
theorem C123_false : ¬ C123Statement := by
  intro h
  have e := readSettings_example (num (27 / 10)) (.bool false) (27 / 10) rfl (by norm_num [truncate]) (by norm_num [truncate])
  have ht : truncate (27 / 10) = 2 := by norm_num [truncate]
  rcases h true (exampleSettings [("start_time", num 0)] (num (27 / 10)) (.bool false)) with h | ⟨s, o, n, h, hw, -⟩
  · rw [e] at h
    cases h
  · rw [e] at h
    have h := Res.ok.inj h
    simp only [Prod.mk.injEq] at h
    obtain ⟨q, h1, h2⟩ := hw.retries
    rw [← h.1, ht] at h2
    have h1 : (num (27 / 10)) = num q := Option.some.inj h1
    injection h1 with h1
    rw [← h1] at h2
    norm_num at h2

/-- Undefined behaviour if the start time is missing: the times are read before the settings are checked, and the check does not ask for them. -/
theorem C123_missing_false : readSettings true (exampleSettings [] (num 0) (.bool false)) = Res.ub := rfl

/-- A problem that is not optimized, although something else is written. -/
theorem C123_optimize_false : ∃ s, readSettings true (exampleSettings [("start_time", num 0)] (num 0) (num 1)) = Res.ok (s, false, 1) :=
  ⟨_, readSettings_example (num 0) (num 1) 0 rfl (by norm_num [truncate]) (by norm_num [truncate])⟩

/-- `C123_partial` applies to proper settings, and they are not rejected. -/
example : ∃ s, readSettings true (exampleSettings [("start_time", num 0)] (num 2) (.bool true)) = Res.ok (s, true, 1) ∧
    AsWritten true (exampleSettings [("start_time", num 0)] (num 2) (.bool true)) s ∧
    GoalAsWritten (exampleSettings [("start_time", num 0)] (num 2) (.bool true)) true 1 := by
  have e := readSettings_example (num 2) (.bool true) 2 rfl (by norm_num [truncate]) (by norm_num [truncate])
  have w : ∀ (n : ℤ) (v : Json), -2147483648 ≤ n → n < 2147483648 → some (num (n : ℚ)) = some v →
      ∃ n : ℤ, v = num n ∧ -2147483648 ≤ n ∧ n < 2147483648 := fun n v a b h => ⟨n, (Option.some.inj h).symm, a, b⟩
  rcases C123_partial true (exampleSettings [("start_time", num 0)] (num 2) (.bool true)) (fun h => by cases h) (fun h => by cases h) (fun h => by cases h)
    (fun h => by
      have h : num 1800 = num 0 := Option.some.inj h
      injection h with h
      norm_num at h)
    (fun v hv => w 20 v (by norm_num) (by norm_num) hv) (fun v hv => w 2 v (by norm_num) (by norm_num) hv) (fun _ v hv => w 3 v (by norm_num) (by norm_num) hv)
    (fun v hv => ⟨true, (Option.some.inj hv).symm⟩) (fun v hv => by cases hv) with h | ⟨s, o, n, h, hw, hg⟩
  · rw [e] at h
    cases h
  · rw [e] at h
    have h := Res.ok.inj h
    simp only [Prod.mk.injEq] at h
    obtain ⟨rfl, rfl, rfl⟩ := h
    exact ⟨_, e, hw, hg⟩

end Verif.Command
