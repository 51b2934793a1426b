import Verif.Command.ProgramExample

/-!
# Property C170: the schema for the problem file fits the program

`get_problem_data_schema` — `/repo/src/Auxillary/json_schema/schema_generation.cpp` 121-218 — is the schema that editors use for `problem_data.json`.
-/

set_option autoImplicit false

namespace Verif.Command

open Verif.Json Verif.Schema Verif.Factory Verif.Times Verif.Read Verif.Initial Verif.Interp Network
open Verif.Output (Printed)

/-! ## Model -/

/-- A name of a file, 164-168 and 194-208. (The keyword `format` is not modelled, and descriptions are left out.) -/
def nameType : Json := obj [("type", str "string"), ("format", str "iri-reference")]

/-- The part on settings, 130-151. -/
def settingsSchema : Json := obj [("type", str "object"),
  ("required", arr [str "use_simplified_newton", str "maximal_number_of_newton_iterations", str "tolerance", str "retries", str "start_time", str "end_time",
    str "desired_delta_t"]),
  ("properties", obj [("use_simplified_newton", obj [("type", str "boolean")]),
    ("maximal_number_of_newton_iterations", obj [("type", str "integer"), ("minimum", num 0)]),
    ("tolerance", obj [("type", str "number")]), ("retries", obj [("type", str "integer"), ("minimum", num 0)]),
    ("start_time", obj [("type", str "number")]), ("end_time", obj [("type", str "number")]), ("desired_delta_t", obj [("type", str "number")])])]

/-- An object that must have the key, with a value of the given schema, 152-163 and 176-188. -/
def wrapped (key : String) (schema : Json) : Json :=
  obj [("type", str "object"), ("required", arr [str key]), ("properties", obj [(key, schema)])]

/-- The part on initial values, 161-172. -/
def initialPart : Json := wrapped "initial_json" nameType

/-- The part on the network, 185-212. (The keyword `patternProperties` is not modelled.) -/
def networkPart : Json := obj [("type", str "object"),
  ("required", arr [str "defaults", str "topology_json", str "boundary_json", str "control_json"]),
  ("properties", obj [("defaults", obj [("type", str "object"), ("patternProperties", obj [("^.*$", obj [("type", str "object")])])]),
    ("topology_json", nameType), ("boundary_json", nameType), ("control", nameType)])]

/-- `get_problem_data_schema` — `schema_generation.cpp` 121-218. -/
def problemSchema : Json := obj [("$schema", str "http://json-schema.org/draft-07/schema"), ("type", str "object"),
  ("required", arr [str "simulation_settings", str "initial_values", str "problem_data"]),
  ("properties", obj [("simulation_settings", settingsSchema),
    ("initial_values", wrapped "subproblems" (wrapped "Network_problem" initialPart)),
    ("problem_data", wrapped "subproblems" (wrapped "Network_problem" networkPart))])]

/-! ## Specification -/

/-- The schema accepts every problem file with which the program gets through reading. -/
def C170Working : Prop :=
  ∀ (L : Libraries) (load : String → Option Text) (all : Json) (s : Settings) (f : Files),
    (readAll L).eval load = Res.ok (all, s, f) → accepts problemSchema all = true

/-- For every problem file that the schema accepts there are other files with which the program gets through reading. -/
def C170Accepted : Prop :=
  ∀ all, accepts problemSchema all = true →
    ∃ (L : Libraries) (load : String → Option Text) (s : Settings) (f : Files), (readAll L).eval load = Res.ok (all, s, f)

/-- A text at a path of keys. -/
def TextAt (j : Json) (ks : List String) : Prop := ∃ t, valueAt j ks = some (str t)

/-- A whole number that is not negative at a path of keys. -/
def CountAt (j : Json) (ks : List String) : Prop := ∃ n : ℕ, valueAt j ks = some (num n)

/-- What the schema asks for. -/
structure Described (all : Json) : Prop where
  simplified : ∃ b, valueAt all ["simulation_settings", "use_simplified_newton"] = some (.bool b)
  iterations : CountAt all ["simulation_settings", "maximal_number_of_newton_iterations"]
  retries : CountAt all ["simulation_settings", "retries"]
  tolerance : ∃ q, valueAt all ["simulation_settings", "tolerance"] = some (num q)
  start : ∃ q, valueAt all ["simulation_settings", "start_time"] = some (num q)
  stop : ∃ q, valueAt all ["simulation_settings", "end_time"] = some (num q)
  desired : ∃ q, valueAt all ["simulation_settings", "desired_delta_t"] = some (num q)
  initial : TextAt all ["initial_values", "subproblems", "Network_problem", "initial_json"]
  defaults : ∃ m, valueAt all ["problem_data", "subproblems", "Network_problem", "defaults"] = some (obj m)
  topology : TextAt all ["problem_data", "subproblems", "Network_problem", "topology_json"]
  boundary : TextAt all ["problem_data", "subproblems", "Network_problem", "boundary_json"]
  controlThere : valueAt all ["problem_data", "subproblems", "Network_problem", "control_json"] ≠ none
  control : ∀ v, valueAt all ["problem_data", "subproblems", "Network_problem", "control"] = some v → ∃ t, v = str t

/-! ## Proofs -/

theorem accepts_wrapped {key : String} {schema j : Json} :
    accepts (wrapped key schema) j = true ↔ ∃ v, j.find? key = some v ∧ accepts schema v = true := by
  unfold wrapped
  rw [accepts_obj]
  cases j with
  | obj m =>
    simp only [keyword, simpleKeyword, hasType, List.all_cons, List.all_nil, Bool.and_true, find?, Json.contains]
    cases m.lookup key <;> simp
  | _ => simp [keyword, simpleKeyword, hasType, find?]

theorem accepts_name {j : Json} : accepts nameType j = true ↔ ∃ t, j = str t := by
  unfold nameType
  rw [accepts_obj]
  cases j <;> simp [keyword, simpleKeyword, hasType]

theorem accepts_num {j : Json} : accepts (obj [("type", str "number")]) j = true ↔ ∃ q, j = num q := by
  rw [accepts_obj]
  cases j <;> simp [keyword, simpleKeyword, hasType]

theorem accepts_count {j : Json} : accepts (obj [("type", str "integer"), ("minimum", num 0)]) j = true ↔ ∃ n : ℕ, j = num n := by
  rw [accepts_obj]
  cases j with
  | num q =>
    simp only [keyword, simpleKeyword, hasType, List.all_cons, List.all_nil, Bool.and_true]
    simp only [Bool.and_eq_true, num.injEq]
    constructor
    · intro h
      have h1 : q.den = 1 := by simpa using h.1
      have h2 : 0 ≤ q := by simpa using h.2
      have h3 : 0 ≤ q.num := Rat.num_nonneg.mpr h2
      refine ⟨q.num.toNat, ?_⟩
      have e : ((q.num.toNat : ℕ) : ℤ) = q.num := Int.toNat_of_nonneg h3
      have e' : ((q.num.toNat : ℕ) : ℚ) = (q.num : ℚ) := by exact_mod_cast congrArg (fun z : ℤ => (z : ℚ)) e
      rw [e']
      exact (Rat.coe_int_num_of_den_eq_one h1).symm
    · rintro ⟨n, rfl⟩
      simp
  | _ => simp [keyword, simpleKeyword, hasType]

theorem accepts_settings {j : Json} : accepts settingsSchema j = true ↔
    (∃ b, j.find? "use_simplified_newton" = some (.bool b)) ∧ (∃ n : ℕ, j.find? "maximal_number_of_newton_iterations" = some (num n)) ∧
    (∃ q, j.find? "tolerance" = some (num q)) ∧ (∃ n : ℕ, j.find? "retries" = some (num n)) ∧ (∃ q, j.find? "start_time" = some (num q)) ∧
    (∃ q, j.find? "end_time" = some (num q)) ∧ ∃ q, j.find? "desired_delta_t" = some (num q) := by
  unfold settingsSchema
  rw [accepts_obj]
  cases j with
  | obj m =>
    simp only [keyword, simpleKeyword, hasType, List.all_cons, List.all_nil, Bool.and_true, find?, Json.contains]
    have hb : ∀ v, accepts (obj [("type", str "boolean")]) v = true ↔ ∃ b, v = .bool b := fun v => accepts_boolean
    cases m.lookup "use_simplified_newton" <;> cases m.lookup "maximal_number_of_newton_iterations" <;> cases m.lookup "tolerance" <;>
      cases m.lookup "retries" <;> cases m.lookup "start_time" <;> cases m.lookup "end_time" <;> cases m.lookup "desired_delta_t" <;>
      simp [hb, accepts_num, accepts_count]
  | _ => simp [keyword, simpleKeyword, hasType, find?]

theorem accepts_network {j : Json} : accepts networkPart j = true ↔
    (∃ m, j.find? "defaults" = some (obj m)) ∧ (∃ t, j.find? "topology_json" = some (str t)) ∧ (∃ t, j.find? "boundary_json" = some (str t)) ∧
    j.find? "control_json" ≠ none ∧ ∀ v, j.find? "control" = some v → ∃ t, v = str t := by
  unfold networkPart
  rw [accepts_obj]
  cases j with
  | obj m =>
    simp only [keyword, simpleKeyword, hasType, List.all_cons, List.all_nil, Bool.and_true, find?, Json.contains]
    have hd : ∀ v, accepts (obj [("type", str "object"), ("patternProperties", obj [("^.*$", obj [("type", str "object")])])]) v = true ↔ ∃ m, v = obj m := by
      intro v
      rw [accepts_obj]
      cases v <;> simp [keyword, simpleKeyword, hasType]
    cases m.lookup "defaults" <;> cases m.lookup "topology_json" <;> cases m.lookup "boundary_json" <;> cases m.lookup "control_json" <;>
      cases m.lookup "control" <;> simp [hd, accepts_name]
  | _ => simp [keyword, simpleKeyword, hasType, find?]

theorem valueAt_cons (j : Json) (k : String) (ks : List String) : valueAt j (k :: ks) = (j.find? k).bind fun v => valueAt v ks := rfl

theorem accepts_problem {j : Json} : accepts problemSchema j = true ↔ ∃ a b c, j.find? "simulation_settings" = some a ∧ j.find? "initial_values" = some b ∧
    j.find? "problem_data" = some c ∧ accepts settingsSchema a = true ∧ accepts (wrapped "subproblems" (wrapped "Network_problem" initialPart)) b = true ∧
    accepts (wrapped "subproblems" (wrapped "Network_problem" networkPart)) c = true := by
  unfold problemSchema
  rw [accepts_obj]
  cases j with
  | obj m =>
    simp only [keyword, simpleKeyword, hasType, List.all_cons, List.all_nil, Bool.and_true, find?, Json.contains]
    cases m.lookup "simulation_settings" <;> cases m.lookup "initial_values" <;> cases m.lookup "problem_data" <;> simp
  | _ => simp [keyword, simpleKeyword, hasType, find?]

/-- **C170**, the schema: what it accepts is exactly this. -/
theorem C170_schema (all : Json) : accepts problemSchema all = true ↔ Described all := by
  rw [accepts_problem]
  constructor
  · rintro ⟨a, b, c, ha, hb, hc, h1, h2, h3⟩
    obtain ⟨s1, s2, s3, s4, s5, s6, s7⟩ := accepts_settings.mp h1
    obtain ⟨b1, e1, h2⟩ := accepts_wrapped.mp h2
    obtain ⟨b2, e2, h2⟩ := accepts_wrapped.mp h2
    obtain ⟨b3, e3, h2⟩ := accepts_wrapped.mp h2
    obtain ⟨t, rfl⟩ := accepts_name.mp h2
    obtain ⟨c1, f1, h3⟩ := accepts_wrapped.mp h3
    obtain ⟨c2, f2, h3⟩ := accepts_wrapped.mp h3
    obtain ⟨n1, n2, n3, n4, n5⟩ := accepts_network.mp h3
    have hs : ∀ k, valueAt all ["simulation_settings", k] = a.find? k := fun k => valueAt_two ha
    have hn : ∀ k, valueAt all ["problem_data", "subproblems", "Network_problem", k] = c2.find? k := by
      intro k
      rw [valueAt_cons, hc, Option.bind_some, valueAt_cons, f1, Option.bind_some, valueAt_two f2]
    refine ⟨by simpa [hs] using s1, by simpa [CountAt, hs] using s2, by simpa [CountAt, hs] using s4, by simpa [hs] using s3, by simpa [hs] using s5,
      by simpa [hs] using s6, by simpa [hs] using s7, ⟨t, ?_⟩, by simpa [hn] using n1, by simpa [TextAt, hn] using n2, by simpa [TextAt, hn] using n3,
      by rw [hn]; exact n4, by rw [hn]; exact n5⟩
    rw [valueAt_cons, hb, Option.bind_some, valueAt_cons, e1, Option.bind_some, valueAt_two e2, e3]
  · intro h
    have find : ∀ {j v : Json} {k : String} {ks : List String}, valueAt j (k :: ks) = some v → ∃ u, j.find? k = some u ∧ valueAt u ks = some v := by
      intro j v k ks h
      rw [valueAt_cons] at h
      exact Option.bind_eq_some_iff.mp h
    obtain ⟨b, hb⟩ := h.simplified
    obtain ⟨a, ha, -⟩ := find hb
    obtain ⟨t, ht⟩ := h.initial
    obtain ⟨b0, hb0, ht⟩ := find ht
    obtain ⟨b1, hb1, ht⟩ := find ht
    obtain ⟨b2, hb2, ht⟩ := find ht
    obtain ⟨m, hm⟩ := h.defaults
    obtain ⟨c0, hc0, hm⟩ := find hm
    obtain ⟨c1, hc1, hm⟩ := find hm
    obtain ⟨c2, hc2, hm⟩ := find hm
    have hs : ∀ k, valueAt all ["simulation_settings", k] = a.find? k := fun k => valueAt_two ha
    have hn : ∀ k, valueAt all ["problem_data", "subproblems", "Network_problem", k] = c2.find? k := by
      intro k
      rw [valueAt_cons, hc0, Option.bind_some, valueAt_cons, hc1, Option.bind_some, valueAt_two hc2]
    refine ⟨a, b0, c0, ha, hb0, hc0, accepts_settings.mpr ⟨?_, ?_, ?_, ?_, ?_, ?_, ?_⟩,
      accepts_wrapped.mpr ⟨b1, hb1, accepts_wrapped.mpr ⟨b2, hb2, accepts_wrapped.mpr ⟨str t, ?_, accepts_name.mpr ⟨t, rfl⟩⟩⟩⟩,
      accepts_wrapped.mpr ⟨c1, hc1, accepts_wrapped.mpr ⟨c2, hc2, accepts_network.mpr ⟨?_, ?_, ?_, ?_, ?_⟩⟩⟩⟩
    · simpa [hs] using h.simplified
    · simpa [CountAt, hs] using h.iterations
    · simpa [hs] using h.tolerance
    · simpa [CountAt, hs] using h.retries
    · simpa [hs] using h.start
    · simpa [hs] using h.stop
    · simpa [hs] using h.desired
    · rw [← ht, valueAt_one]
    · simpa [hn] using h.defaults
    · simpa [TextAt, hn] using h.topology
    · simpa [TextAt, hn] using h.boundary
    · rw [← hn]
      exact h.controlThere
    · rw [← hn]
      exact h.control

/-- **C170**, the part that holds: if the schema accepts the problem file, then its settings are read and are used as they are written, provided that the wished time step
is not zero and whole numbers are not too large. (The settings of controls, which are only read if there are controls, are not mentioned in the schema.) What is missing: the rest of the
file, see `C170_false` and `C170_accepted_false`. -/
theorem C170_partial {all : Json} (h : accepts problemSchema all = true)
    (hzero : valueAt all ["simulation_settings", "desired_delta_t"] ≠ some (num 0))
    (hi : ∀ n : ℕ, valueAt all ["simulation_settings", "maximal_number_of_newton_iterations"] = some (num n) → n < 2147483648)
    (hr : ∀ n : ℕ, valueAt all ["simulation_settings", "retries"] = some (num n) → n < 2147483648) :
    ∃ s optimize every, readSettings false all = Res.ok (s, optimize, every) ∧ AsWritten false all s := by
  have hd := (C170_schema all).mp h
  obtain ⟨a, b, c, ha, -, -, h1, -⟩ := accepts_problem.mp h
  obtain ⟨⟨s1, e1⟩, ⟨s2, e2⟩, ⟨s3, e3⟩, ⟨s4, e4⟩, ⟨s5, e5⟩, ⟨s6, e6⟩, ⟨s7, e7⟩⟩ := accepts_settings.mp h1
  have hs : ∀ k, valueAt all ["simulation_settings", k] = a.find? k := fun k => valueAt_two ha
  have i2 : getInt (num (s2 : ℚ)) = Res.ok (s2 : ℤ) := by
    have := hi s2 (by rw [hs, e2])
    have e := getInt_whole (n := (s2 : ℤ)) (by omega) (by omega)
    simpa using e
  have i4 : getInt (num (s4 : ℚ)) = Res.ok (s4 : ℤ) := by
    have := hr s4 (by rw [hs, e4])
    have e := getInt_whole (n := (s4 : ℤ)) (by omega) (by omega)
    simpa using e
  have h7 : s7 ≠ 0 := by
    rintro rfl
    exact hzero (by rw [hs, e7])
  have ix : ∀ {k : String} {v : Json}, a.find? k = some v → a.index k = Res.ok v := fun h => index_eq_ok.mpr h
  have et : readTimes a = Res.ok (s5, s6, s7) := by
    unfold readTimes
    rw [ix e5, Res.ok_bind, show getNum (num s5) = Res.ok s5 from rfl, Res.ok_bind, ix e6, Res.ok_bind, show getNum (num s6) = Res.ok s6 from rfl, Res.ok_bind,
      ix e7, Res.ok_bind, show getNum (num s7) = Res.ok s7 from rfl, Res.ok_bind]
    unfold numberOfTimesteps
    rw [if_neg h7, Res.ok_bind]
  have ev : readSolver a = Res.ok (s3, (s2 : ℤ), (s4 : ℤ), s1) := by
    unfold readSolver
    rw [solverSchema_eq, Res.ok_bind, if_pos ((accepts_solver solverSchema_eq).mpr ⟨⟨_, e3⟩, ⟨_, e2⟩, ⟨_, e4⟩, ⟨_, e1⟩⟩), ix e3, Res.ok_bind,
      show getNum (num s3) = Res.ok s3 from rfl, Res.ok_bind, ix e2, Res.ok_bind, i2, Res.ok_bind, ix e4, Res.ok_bind, i4, Res.ok_bind, ix e1, Res.ok_bind]
    rfl
  have em : indexMut all "simulation_settings" = Res.ok a := by
    cases all <;> simp_all [find?, indexMut]
  have e : readSettings false all = Res.ok (⟨s5, s7, s6, none, s3, s2, s4, s1⟩, readOptimize all, readEvery all) := by
    unfold readSettings
    rw [em, Res.ok_bind, et, Res.ok_bind, ev, Res.ok_bind]
    rfl
  refine ⟨_, _, _, e, C123_used_partial ?_ ?_ (fun h => by cases h) e⟩
  · intro v hv
    rw [hs, e2] at hv
    refine ⟨s2, by simpa using (Option.some.inj hv).symm, by omega, ?_⟩
    exact_mod_cast hi s2 (by rw [hs, e2])
  · intro v hv
    rw [hs, e4] at hv
    refine ⟨s4, by simpa using (Option.some.inj hv).symm, by omega, ?_⟩
    exact_mod_cast hr s4 (by rw [hs, e4])

/-- **C170**, the layout: the program does not get through reading if the topology and the boundary values are only given in the place where the schema has them. -/
theorem C170_layout {L : Libraries} {load : String → Option Text} {all : Json} {s : Settings} {f : Files} (h : (readAll L).eval load = Res.ok (all, s, f)) :
    valueAt all ["problem_data", "topology_json"] ≠ none ∧ valueAt all ["problem_data", "boundary_json"] ≠ none := by
  obtain ⟨hf, -⟩ := eval_readAll h
  constructor
  · rcases hf.topology with ⟨h, -⟩ | ⟨_, h, -⟩ <;> rw [h] <;> exact Option.some_ne_none _
  · rcases hf.boundary with ⟨h, -⟩ | ⟨_, h, -⟩ <;> rw [h] <;> exact Option.some_ne_none _

/-! ## Cases -/

/-- A problem file as the schema wants it. -/
def describedProblem : Json := obj [
  ("initial_values", obj [("subproblems", obj [("Network_problem", obj [("initial_json", str "initial.json")])])]),
  ("problem_data", obj [("subproblems", obj [("Network_problem", obj [("boundary_json", str "boundary.json"), ("control_json", str "control.json"),
    ("defaults", obj []), ("topology_json", str "topology.json")])])]),
  ("simulation_settings", settingsJson)]

theorem described_accepted : accepts problemSchema describedProblem = true := by
  rw [C170_schema]
  exact ⟨⟨_, rfl⟩, ⟨5, rfl⟩, ⟨1, rfl⟩, ⟨_, rfl⟩, ⟨_, rfl⟩, ⟨_, rfl⟩, ⟨_, rfl⟩, ⟨_, rfl⟩, ⟨_, rfl⟩, ⟨_, rfl⟩, ⟨_, rfl⟩, (fun h => by cases h), (fun v h => by cases h)⟩

/-- **C170** is false: the schema rejects a problem file with which a simulation runs (`Verif.Command.ProgramExample`). -/
theorem C170_false : ¬ C170Working := by
  intro h
  let lu : Solve := fun _ _ _ _ _ _ => none
  obtain ⟨hc, -⟩ := C100_partial rfl shaped_c.1 shaped_c.2 shaped_s.2.1 shaped_s.2.2 (read_c (lettersOf lu).draws (lettersOf lu).mem) fit_c
  have := h _ _ _ _ _ (readAll_letters lu false rfl rfl rfl hc (read_c _ _) (setup_c hc) (initial_c hc _) (show 0 < 1 by decide))
  obtain ⟨t, ht⟩ := ((C170_schema _).mp this).initial
  cases ht

/-- **C170** is false the other way, too: there is a problem file that the schema accepts and with which no run gets through reading, whatever the other files are. -/
theorem C170_accepted_false : ¬ C170Accepted := by
  intro h
  obtain ⟨L, load, s, f, h⟩ := h describedProblem described_accepted
  exact (C170_layout h).1 rfl

/-- `C170_partial` applies to this file. -/
example : ∃ s optimize every, readSettings false describedProblem = Res.ok (s, optimize, every) ∧ AsWritten false describedProblem s := by
  refine C170_partial described_accepted ?_ ?_ ?_
  · intro h
    have h : num 60 = num 0 := Option.some.inj h
    injection h with h
    norm_num at h
  · intro n h
    have h : num 5 = num (n : ℚ) := Option.some.inj h
    injection h with h
    have : n = 5 := by exact_mod_cast h.symm
    omega
  · intro n h
    have h : num 1 = num (n : ℚ) := Option.some.inj h
    injection h with h
    have : n = 1 := by exact_mod_cast h.symm
    omega

end Verif.Command
