import Verif.Files.Overwrite

/-!
# Writing the generated schemas

`make_schemas` and `assert_only_known_schemas` — `src/Auxillary/json_schema/schema_generation.cpp` 65-121, as a machine whose
steps are the single operations on the file system, between which the program may be killed. As in `Verif.Files.Overwrite`, output
streams don't throw. Failures of streams are not modelled here. The directory of the problem exists.
-/

set_option autoImplicit false

namespace Verif.Files

/-- The files that are written, in the order of `std::map` — 67-80, 88-89. -/
def schemaNames : List String := ["boundary", "control", "initial", "problem_data", "topology"]

/-- `grazer_dir / "schemas" / (name + "_schema.json")` — 60, 89. -/
def schemaPath (name : String) : Path := ⟨"schemas", name ++ "_schema.json"⟩

/-- `key_from_map_is_prefix` — 113-121. -/
def knownName (name : String) : Bool := schemaNames.any fun k => k.toList.isPrefixOf name.toList

/-- Where the function is. -/
inductive MakeStage
  /-- 82 -/
  | start
  /-- 88, the names that are left -/
  | next (rest : List String)
  /-- 91-92, this many characters have arrived in the file of the first name -/
  | write (name : String) (n : ℕ) (rest : List String)
  | finished
  | failed

/-- The operations, when `text` are the printed schemas and `directories` the names of directories in the directory of
schemas. -/
inductive MakeStep (text : String → List Char) (directories : List String) : FileSystem × MakeStage → FileSystem × MakeStage → Prop
  | directory (fs) : directories ≠ [] → MakeStep text directories (fs, .start) (fs, .failed)
  | unknown (fs name) : (fs ⟨"schemas", name⟩).isSome → knownName name = false →
      MakeStep text directories (fs, .start) (fs, .failed)
  | known (fs) : directories = [] → (∀ name, (fs ⟨"schemas", name⟩).isSome → knownName name = true) →
      MakeStep text directories (fs, .start) (fs, .next schemaNames)
  | truncate (fs name rest) : MakeStep text directories (fs, .next (name :: rest))
      (Function.update fs (schemaPath name) (some []), .write name 0 rest)
  | put (fs name n rest) : n < (text name).length → MakeStep text directories (fs, .write name n rest)
      (Function.update fs (schemaPath name) (some ((text name).take (n + 1))), .write name (n + 1) rest)
  | close (fs name rest) : MakeStep text directories (fs, .write name (text name).length rest) (fs, .next rest)
  | finish (fs) : MakeStep text directories (fs, .next []) (fs, .finished)

/-- The points where a run may be killed. -/
def MakeReaches (text : String → List Char) (directories : List String) (fs : FileSystem) : FileSystem × MakeStage → Prop :=
  Relation.ReflTransGen (MakeStep text directories) (fs, .start)

/-! ## Specification -/

/-- The five files and which schema is to be in each of them. -/
def schemaFiles : List (Path × String) :=
  [(⟨"schemas", "topology_schema.json"⟩, "topology"), (⟨"schemas", "initial_schema.json"⟩, "initial"),
    (⟨"schemas", "boundary_schema.json"⟩, "boundary"), (⟨"schemas", "control_schema.json"⟩, "control"),
    (⟨"schemas", "problem_data_schema.json"⟩, "problem_data")]

/-- Something is in the directory of schemas that is not a schema: a directory, or a file whose name begins like none of the schemas. -/
def Foreign (directories : List String) (fs : FileSystem) : Prop :=
  directories ≠ [] ∨ ∃ name, (fs ⟨"schemas", name⟩).isSome ∧
    ∀ k ∈ ["topology", "initial", "boundary", "control", "problem_data"], ¬ k.toList <+: name.toList

/-! ## Proofs -/

theorem mem_schemaNames {k : String} : k ∈ schemaNames ↔ k ∈ ["topology", "initial", "boundary", "control", "problem_data"] :=
  (show schemaNames.Perm ["topology", "initial", "boundary", "control", "problem_data"] by decide).mem_iff

theorem mem_schemaFiles {x : Path} {k : String} : (x, k) ∈ schemaFiles ↔ k ∈ schemaNames ∧ x = schemaPath k := by
  have h : schemaFiles.Perm (schemaNames.map fun k => (schemaPath k, k)) := by decide
  rw [h.mem_iff, List.mem_map]
  constructor
  · rintro ⟨k', hk, h⟩
    injection h with h1 h2
    subst h1 h2
    exact ⟨hk, rfl⟩
  · rintro ⟨hk, rfl⟩
    exact ⟨k, hk, rfl⟩

theorem knownName_iff {name : String} : knownName name = true ↔ ∃ k ∈ schemaNames, k.toList <+: name.toList := by
  simp [knownName, List.any_eq_true]

theorem schemaPath_inj : ∀ a ∈ schemaNames, ∀ b ∈ schemaNames, a ≠ b → schemaPath a ≠ schemaPath b := by decide

theorem schemaNames_nodup : schemaNames.Nodup := by decide

/-- What holds at each point. -/
def MakeInvariant (text : String → List Char) (directories : List String) (fs : FileSystem) (s : FileSystem × MakeStage) : Prop :=
  (∀ x, (∀ name ∈ schemaNames, x ≠ schemaPath name) → s.1 x = fs x) ∧
  match s.2 with
  | .start | .failed => s.1 = fs
  | .next rest => ¬ Foreign directories fs ∧ ∃ before, schemaNames = before ++ rest ∧
      ∀ name ∈ before, s.1 (schemaPath name) = some (text name)
  | .write name n rest => ¬ Foreign directories fs ∧ n ≤ (text name).length ∧ s.1 (schemaPath name) = some ((text name).take n) ∧
      ∃ before, schemaNames = before ++ name :: rest ∧ ∀ name ∈ before, s.1 (schemaPath name) = some (text name)
  | .finished => ¬ Foreign directories fs ∧ ∀ name ∈ schemaNames, s.1 (schemaPath name) = some (text name)

theorem split_names {before rest : List String} {name : String} (h : schemaNames = before ++ name :: rest) :
    name ∈ schemaNames ∧ ∀ k ∈ before, k ∈ schemaNames ∧ k ≠ name := by
  have hn := schemaNames_nodup
  rw [h, List.nodup_append] at hn
  rw [h]
  exact ⟨by simp, fun k hk => ⟨by simp [hk], fun e => hn.2.2 k hk name (by simp) e⟩⟩

theorem make_invariant {text : String → List Char} {directories : List String} {fs : FileSystem} {s : FileSystem × MakeStage}
    (h : MakeReaches text directories fs s) : MakeInvariant text directories fs s := by
  induction h with
  | refl => exact ⟨fun _ _ => rfl, rfl⟩
  | tail _ hstep ih =>
    obtain ⟨i1, i2⟩ := ih
    cases hstep with
    | directory fs' h => exact ⟨i1, i2⟩
    | unknown fs' name h1 h2 => exact ⟨i1, i2⟩
    | known fs' h1 h2 =>
      simp only at i2
      subst i2
      refine ⟨i1, ?_, [], rfl, by simp⟩
      rintro (h | ⟨name, h3, h4⟩)
      · exact h h1
      · obtain ⟨k, hk, hp⟩ := knownName_iff.mp (h2 name h3)
        exact h4 k (mem_schemaNames.mp hk) hp
    | truncate fs' name rest =>
      obtain ⟨h0, before, h1, h2⟩ := i2
      obtain ⟨m1, m2⟩ := split_names h1
      refine ⟨fun x hx => ?_, h0, Nat.zero_le _, by simp, before, h1, fun k hk => ?_⟩
      · simp only
        rw [Function.update_of_ne (hx name m1)]
        exact i1 x hx
      · simp only
        rw [Function.update_of_ne (schemaPath_inj k (m2 k hk).1 name m1 (m2 k hk).2)]
        exact h2 k hk
    | put fs' name n rest hn =>
      obtain ⟨h0, -, -, before, h1, h2⟩ := i2
      obtain ⟨m1, m2⟩ := split_names h1
      refine ⟨fun x hx => ?_, h0, hn, by simp, before, h1, fun k hk => ?_⟩
      · simp only
        rw [Function.update_of_ne (hx name m1)]
        exact i1 x hx
      · simp only
        rw [Function.update_of_ne (schemaPath_inj k (m2 k hk).1 name m1 (m2 k hk).2)]
        exact h2 k hk
    | close fs' name rest =>
      obtain ⟨h0, -, h3, before, h1, h2⟩ := i2
      refine ⟨i1, h0, before ++ [name], by simp [h1], fun k hk => ?_⟩
      rcases List.mem_append.mp hk with hk | hk
      · exact h2 k hk
      · rw [List.mem_singleton] at hk
        subst hk
        rw [List.take_length] at h3
        exact h3
    | finish fs' =>
      obtain ⟨h0, before, h1, h2⟩ := i2
      rw [List.append_nil] at h1
      exact ⟨i1, h0, h1 ▸ h2⟩

/-- **C115**: wherever it is killed, the generation of schemas has changed no file but the five schema files. -/
theorem C115_others {text : String → List Char} {directories : List String} {fs fs' : FileSystem} {stage : MakeStage}
    (h : MakeReaches text directories fs (fs', stage)) {x : Path} (hx : ∀ k, (x, k) ∉ schemaFiles) :
    fs' x = fs x := (make_invariant h).1 x fun k hk e => hx k (mem_schemaFiles.mpr ⟨hk, e⟩)

/-- **C115**: if there is something else in the directory, nothing is changed at all. -/
theorem C115_foreign {text : String → List Char} {directories : List String} {fs fs' : FileSystem} {stage : MakeStage}
    (h : MakeReaches text directories fs (fs', stage)) (hf : Foreign directories fs) : fs' = fs := by
  have hi := make_invariant h
  cases stage with
  | start => exact hi.2
  | failed => exact hi.2
  | next rest => exact absurd hf hi.2.1
  | write name n rest => exact absurd hf hi.2.1
  | finished => exact absurd hf hi.2.1

/-- **C115**: at the end the five files have the generated schemas. -/
theorem C115_written {text : String → List Char} {directories : List String} {fs fs' : FileSystem}
    (h : MakeReaches text directories fs (fs', .finished)) {x : Path} {k : String} (hx : (x, k) ∈ schemaFiles) :
    fs' x = some (text k) := by
  obtain ⟨hk, rfl⟩ := mem_schemaFiles.mp hx
  exact (make_invariant h).2.2 k hk

theorem make_exists (text : String → List Char) : ∀ (rest : List String) (fs : FileSystem),
    ∃ fs', Relation.ReflTransGen (MakeStep text []) (fs, .next rest) (fs', .finished) := by
  intro rest
  induction rest with
  | nil => exact fun fs => ⟨fs, .single (.finish fs)⟩
  | cons name rest ih =>
    intro fs
    have writing : ∀ n, n ≤ (text name).length → ∃ g, Relation.ReflTransGen (MakeStep text []) (fs, .next (name :: rest))
        (g, .write name n rest) := by
      intro n
      induction n with
      | zero => exact fun _ => ⟨_, .single (.truncate fs name rest)⟩
      | succ n ihn =>
        intro hn
        obtain ⟨g, hg⟩ := ihn (by omega)
        exact ⟨_, hg.tail (.put g name n rest hn)⟩
    obtain ⟨g, hg⟩ := writing _ (Nat.le_refl _)
    obtain ⟨fs', h⟩ := ih g
    exact ⟨fs', (hg.tail (.close g name rest)).trans h⟩

/-- The hypotheses are met: where there is an old schema, all schemas are written, and other files stay. -/
example (text : String → List Char) : ∃ fs', MakeReaches text [] (Function.update (single ⟨"problem", "topology.json"⟩ "{}".toList)
    ⟨"schemas", "topology_schema.json"⟩ (some [])) (fs', .finished) ∧ fs' ⟨"problem", "topology.json"⟩ = some "{}".toList ∧
    fs' ⟨"schemas", "control_schema.json"⟩ = some (text "control") := by
  obtain ⟨fs', h⟩ := make_exists text schemaNames (Function.update (single ⟨"problem", "topology.json"⟩ "{}".toList)
    ⟨"schemas", "topology_schema.json"⟩ (some []))
  have h' : MakeReaches text [] _ (fs', .finished) := .head (.known _ rfl fun name hn => ?_) h
  · exact ⟨fs', h', (C115_others h' (by simp [schemaFiles])).trans (by decide), C115_written h' (by decide)⟩
  · by_cases e : name = "topology_schema.json"
    · subst e
      decide
    · exfalso
      revert hn
      simp [single, e]

/-- … and with a foreign file. -/
example : Foreign [] (single ⟨"schemas", "thesis.tex"⟩ "x".toList) :=
  Or.inr ⟨"thesis.tex", by decide, by decide⟩

end Verif.Files
