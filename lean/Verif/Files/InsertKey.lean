import Verif.Files.Overwrite
import Mathlib.Data.List.Nodup

/-!
# Inserting the key "$schema" into the files of a problem

`insert_schema_key_into_data_jsons` — `src/Auxillary/json_schema/schema_key_insertion.cpp` 23-61, the command
`grazer schema insert-key`, as a machine on top of `overwrite_json` (`Verif.Files.Overwrite`): the program may be killed
between any two operations on the file system. Parsing and printing of jsons are arbitrary functions. Directories are not
modelled: both directories exist.
-/

set_option autoImplicit false

namespace Verif.Files

/-! ## Ordered jsons -/

/-- `nlohmann::ordered_json`: objects keep the order of their keys. Numbers and booleans are texts. -/
inductive OJson
  | null
  | scalar (text : String)
  | str (s : String)
  | arr (l : List OJson)
  | obj (m : List (String × OJson))

/-- `items()`: for arrays the keys are the indices, for numbers, booleans and strings there is one item with empty key. -/
def OJson.items : OJson → List (String × OJson)
  | .null => []
  | .obj m => m
  | .arr l => l.zipIdx.map fun x => (toString x.2, x.1)
  | j => [("", j)]

/-- `result[key] = value` for ordered objects: an existing key keeps its place. -/
def setKey (m : List (String × OJson)) (x : String × OJson) : List (String × OJson) :=
  if m.any fun y => y.1 == x.1 then m.map fun y => if y.1 = x.1 then x else y
  else m ++ [x]

/-- The path that is inserted — 49. -/
def schemaOf (type : String) : OJson := .str ("../schemas/" ++ type ++ "_schema.json")

/-- The new content — 48-52: first the new key, then all old items. -/
def insertKey (type : String) (old : OJson) : OJson := .obj (old.items.foldl setKey [("$schema", schemaOf type)])

/-! ## The command -/

/-- Parsing (`none`: throws) and printing of jsons. -/
structure Printer where
  parse : List Char → Option OJson
  dump : OJson → List Char

/-- The files of a problem — 37-38, 41. -/
def dataTypes : List String := ["boundary", "control", "initial", "topology", "problem_data"]

def dataFile (type : String) : Path := ⟨"problem", type ++ ".json"⟩

def schemaFile (type : String) : Path := ⟨"schemas", type ++ "_schema.json"⟩

/-- Where the command is. -/
inductive Stage
  /-- 39, the types that are left -/
  | next (rest : List String)
  /-- 53, inside of `overwrite_json` -/
  | writing (type : String) (text : List Char) (phase : Phase) (rest : List String)
  /-- the command has succeeded -/
  | finished
  /-- an exception has ended the command -/
  | failed

/-- What is read from a file, if there is one — 42-47. -/
def oldJson (P : Printer) (fs : FileSystem) (type : String) : Option OJson :=
  match fs (dataFile type) with
  | none => some .null
  | some text => P.parse text

/-- The operations of the command. -/
inductive KeyStep (P : Printer) : FileSystem × Stage → FileSystem × Stage → Prop
  | skip (fs type rest) : fs (schemaFile type) = none → KeyStep P (fs, .next (type :: rest)) (fs, .next rest)
  | read (fs type rest old) : (fs (schemaFile type)).isSome → oldJson P fs type = some old →
      KeyStep P (fs, .next (type :: rest)) (fs, .writing type (P.dump (insertKey type old)) .start rest)
  | readFails (fs type rest) : (fs (schemaFile type)).isSome → oldJson P fs type = none →
      KeyStep P (fs, .next (type :: rest)) (fs, .failed)
  | write (fs fs' type text p p' rest) : Step false (dataFile type) text (fs, p) (fs', p') →
      KeyStep P (fs, .writing type text p rest) (fs', .writing type text p' rest)
  | written (fs type text rest) : KeyStep P (fs, .writing type text .done rest) (fs, .next rest)
  | threw (fs type text rest) : KeyStep P (fs, .writing type text .thrown rest) (fs, .failed)
  | finish (fs) : KeyStep P (fs, .next []) (fs, .finished)

/-- The states that a run can reach: the points where it may be killed. -/
def RunReaches (P : Printer) (fs : FileSystem) : FileSystem × Stage → Prop :=
  Relation.ReflTransGen (KeyStep P) (fs, .next dataTypes)

/-- The file systems after one or more runs, each of which may have been killed. -/
inductive RunsReach (P : Printer) (fs : FileSystem) : FileSystem → Prop
  | none : RunsReach P fs fs
  | again {fs' fs'' : FileSystem} {stage : Stage} : RunsReach P fs fs' → RunReaches P fs' (fs'', stage) → RunsReach P fs fs''

/-! ## Inserting -/

theorem foldl_setKey (m : List (String × OJson)) : ∀ (a : List (String × OJson)), (m.map Prod.fst).Nodup →
    (∀ x ∈ m, ∀ y ∈ a, y.1 ≠ x.1) → m.foldl setKey a = a ++ m := by
  induction m with
  | nil => intro a _ _; simp
  | cons x m ih =>
    intro a hn hd
    have h1 : setKey a x = a ++ [x] := by
      unfold setKey
      rw [if_neg]
      intro h
      obtain ⟨y, hy, e⟩ := List.any_eq_true.mp h
      exact hd x List.mem_cons_self y hy (by simpa using e)
    rw [List.foldl_cons, h1, ih]
    · simp
    · exact (List.nodup_cons.mp hn).2
    · intro z hz y hy
      rcases List.mem_append.mp hy with hy | hy
      · exact hd z (List.mem_cons_of_mem _ hz) y hy
      · rw [List.mem_singleton] at hy
        subst hy
        intro e
        exact (List.nodup_cons.mp hn).1 (e ▸ List.mem_map_of_mem hz)

/-- The key comes first, then everything else as before. -/
theorem insertKey_new {type : String} {m : List (String × OJson)} (hn : (m.map Prod.fst).Nodup)
    (hk : "$schema" ∉ m.map Prod.fst) : insertKey type (.obj m) = .obj (("$schema", schemaOf type) :: m) := by
  unfold insertKey
  rw [show (OJson.obj m).items = m from rfl, foldl_setKey m _ hn]
  · rfl
  · intro x hx y hy
    rw [List.mem_singleton] at hy
    subst hy
    intro e
    exact hk (by rw [show "$schema" = x.1 from e]; exact List.mem_map_of_mem hx)

/-- An existing key keeps its value. -/
theorem insertKey_old {type : String} {a b : List (String × OJson)} {v : OJson}
    (hn : ((a ++ ("$schema", v) :: b).map Prod.fst).Nodup) :
    insertKey type (.obj (a ++ ("$schema", v) :: b)) = .obj (("$schema", v) :: (a ++ b)) := by
  rw [List.map_append, List.map_cons, List.nodup_middle, List.nodup_cons] at hn
  obtain ⟨hk, hn⟩ := hn
  rw [← List.map_append] at hk hn
  have hna : (a.map Prod.fst).Nodup := (List.nodup_append.mp (by simpa using hn)).1
  have key : ∀ x ∈ a ++ b, x.1 ≠ "$schema" := fun x hx e => hk (by
    rw [show ("$schema", v).1 = x.1 from e.symm]; exact List.mem_map_of_mem hx)
  unfold insertKey
  rw [show (OJson.obj (a ++ ("$schema", v) :: b)).items = a ++ ("$schema", v) :: b from rfl, List.foldl_append,
    foldl_setKey a _ hna, List.foldl_cons]
  · have h1 : setKey ([("$schema", schemaOf type)] ++ a) ("$schema", v) = ("$schema", v) :: a := by
      unfold setKey
      rw [if_pos (by simp)]
      simp only [List.singleton_append, List.map_cons, if_true]
      congr 1
      conv_rhs => rw [← List.map_id a]
      refine List.map_congr_left fun x hx => ?_
      rw [if_neg (key x (List.mem_append_left _ hx)), id]
    rw [h1, foldl_setKey b _ (List.nodup_append.mp (by simpa using hn)).2.1]
    · simp
    · intro x hx y hy
      rcases List.mem_cons.mp hy with rfl | hy
      · exact fun e => key x (List.mem_append_right _ hx) e.symm
      · intro e
        rw [List.map_append] at hn
        exact (List.nodup_append.mp hn).2.2 y.1 (List.mem_map_of_mem hy) x.1 (List.mem_map_of_mem hx) e
  · intro x hx y hy
    rw [List.mem_singleton] at hy
    subst hy
    exact fun e => key x (List.mem_append_left _ hx) e.symm

/-! ## The run -/

theorem dataFile_ne : ∀ t ∈ dataTypes, dataFile t ≠ backupPath (dataFile t) := by decide

theorem dataFile_ne_backup : ∀ t ∈ dataTypes, ∀ t' ∈ dataTypes, dataFile t ≠ backupPath (dataFile t') := by decide

theorem dataFile_inj : ∀ t ∈ dataTypes, ∀ t' ∈ dataTypes, t ≠ t' → dataFile t ≠ dataFile t' := by decide

theorem schemaFile_ne : ∀ t ∈ dataTypes, ∀ t' ∈ dataTypes, schemaFile t ≠ dataFile t' := by decide

theorem dataTypes_nodup : dataTypes.Nodup := by decide

/-- The file has its old content or that with the key. -/
def Kept (P : Printer) (fs fs' : FileSystem) (type : String) : Prop :=
  ∀ old, fs (dataFile type) = some old → fs' (dataFile type) = some old ∨
    ∃ j, P.parse old = some j ∧ fs' (dataFile type) = some (P.dump (insertKey type j))

/-- What holds at each point of a run. -/
def RunInvariant (P : Printer) (fs : FileSystem) (s : FileSystem × Stage) : Prop :=
  match s.2 with
  | .next rest => ∃ before, dataTypes = before ++ rest ∧ (∀ t ∈ before, Kept P fs s.1 t) ∧
      ∀ t ∈ rest, s.1 (dataFile t) = fs (dataFile t)
  | .writing type text p rest => ∃ before, dataTypes = before ++ type :: rest ∧ (∀ t ∈ before, Kept P fs s.1 t) ∧
      (∀ t ∈ rest, s.1 (dataFile t) = fs (dataFile t)) ∧
      ∀ old, fs (dataFile type) = some old → ∃ j, P.parse old = some j ∧ text = P.dump (insertKey type j) ∧
        Invariant (dataFile type) old text (s.1, p)
  | .finished => ∀ t ∈ dataTypes, Kept P fs s.1 t
  | .failed => ∀ t ∈ dataTypes, ∀ old, fs (dataFile t) = some old → s.1 (dataFile t) = some old ∨
      s.1 (backupPath (dataFile t)) = some old ∨ ∃ j, P.parse old = some j ∧ s.1 (dataFile t) = some (P.dump (insertKey t j))

theorem Kept.of_eq {P : Printer} {fs a b : FileSystem} {t : String} (h : Kept P fs a t) (e : b (dataFile t) = a (dataFile t)) :
    Kept P fs b t := by
  unfold Kept
  rw [e]
  exact h

theorem Kept.refl {P : Printer} {fs a : FileSystem} {t : String} (e : a (dataFile t) = fs (dataFile t)) : Kept P fs a t :=
  fun old h => Or.inl (by rw [e, h])

theorem Kept.safe {P : Printer} {fs a : FileSystem} {t : String} (h : Kept P fs a t) : ∀ old, fs (dataFile t) = some old →
    a (dataFile t) = some old ∨ a (backupPath (dataFile t)) = some old ∨
      ∃ j, P.parse old = some j ∧ a (dataFile t) = some (P.dump (insertKey t j)) :=
  fun old ho => (h old ho).imp id Or.inr

/-- A step of `overwrite_json` leaves all other files as they are. -/
theorem step_others {type : String} {text : List Char} {s t : FileSystem × Phase}
    (h : Step false (dataFile type) text s t) {x : Path} (hx : x ≠ dataFile type) (hb : x ≠ backupPath (dataFile type)) :
    t.1 x = s.1 x := by
  cases h <;> first
    | rfl
    | exact rename_other (by assumption) (by assumption)
    | exact Function.update_of_ne (by assumption) _ _

theorem mem_middle {before rest : List String} {type : String} (h : dataTypes = before ++ type :: rest) :
    type ∈ dataTypes ∧ (∀ t ∈ before, t ∈ dataTypes ∧ t ≠ type) ∧ ∀ t ∈ rest, t ∈ dataTypes ∧ t ≠ type := by
  have hn := dataTypes_nodup
  rw [h, List.nodup_append, List.nodup_cons] at hn
  obtain ⟨-, ⟨h1, -⟩, h2⟩ := hn
  rw [h]
  refine ⟨by simp, fun t ht => ⟨by simp [ht], fun e => h2 t ht type (by simp) e⟩, fun t ht => ⟨by simp [ht], fun e => ?_⟩⟩
  exact h1 (e ▸ ht)

theorem run_invariant {P : Printer} {fs : FileSystem} {s : FileSystem × Stage} (h : RunReaches P fs s) :
    RunInvariant P fs s := by
  induction h with
  | refl => exact ⟨[], rfl, by simp, fun _ _ => rfl⟩
  | tail _ hstep ih =>
    cases hstep with
    | skip fs' type rest h =>
      obtain ⟨before, h1, h2, h3⟩ := ih
      refine ⟨before ++ [type], by simp [h1], fun t ht => ?_, fun t ht => h3 t (List.mem_cons_of_mem _ ht)⟩
      rcases List.mem_append.mp ht with ht | ht
      · exact h2 t ht
      · rw [List.mem_singleton] at ht
        subst ht
        exact Kept.refl (h3 t List.mem_cons_self)
    | read fs' type rest old h ho =>
      obtain ⟨before, h1, h2, h3⟩ := ih
      refine ⟨before, h1, h2, fun t ht => h3 t (List.mem_cons_of_mem _ ht), fun o hfo => ?_⟩
      have e : fs' (dataFile type) = some o := (h3 type List.mem_cons_self).trans hfo
      unfold oldJson at ho
      rw [e] at ho
      exact ⟨old, ho, rfl, e⟩
    | readFails fs' type rest h ho =>
      obtain ⟨before, h1, h2, h3⟩ := ih
      intro t ht
      rw [h1] at ht
      rcases List.mem_append.mp ht with ht | ht
      · exact (h2 t ht).safe
      · exact (Kept.refl (h3 t ht)).safe
    | write fs' fs'' type text p p' rest h =>
      obtain ⟨before, h1, h2, h3, h4⟩ := ih
      obtain ⟨m1, m2, m3⟩ := mem_middle h1
      have other : ∀ t ∈ dataTypes, t ≠ type → fs'' (dataFile t) = fs' (dataFile t) := fun t ht hne =>
        step_others h (dataFile_inj t ht type m1 hne) (dataFile_ne_backup t ht type m1)
      refine ⟨before, h1, fun t ht => (h2 t ht).of_eq (other t (m2 t ht).1 (m2 t ht).2), fun t ht => ?_, fun old hold => ?_⟩
      · exact (other t (m3 t ht).1 (m3 t ht).2).trans (h3 t ht)
      · obtain ⟨j, hj, ht, hi⟩ := h4 old hold
        exact ⟨j, hj, ht, step_invariant (dataFile_ne type m1) hi h⟩
    | written fs' type text rest =>
      obtain ⟨before, h1, h2, h3, h4⟩ := ih
      refine ⟨before ++ [type], by simp [h1], fun t ht => ?_, h3⟩
      rcases List.mem_append.mp ht with ht | ht
      · exact h2 t ht
      · rw [List.mem_singleton] at ht
        subst ht
        intro old hold
        obtain ⟨j, hj, ht, hi⟩ := h4 old hold
        subst ht
        exact hi.1.imp id fun h => ⟨j, hj, h⟩
    | threw fs' type text rest =>
      obtain ⟨before, h1, h2, h3, h4⟩ := ih
      intro t ht
      rw [h1] at ht
      rcases List.mem_append.mp ht with ht | ht
      · exact (h2 t ht).safe
      · rcases List.mem_cons.mp ht with rfl | ht
        · intro old hold
          obtain ⟨j, hj, ht, hi⟩ := h4 old hold
          exact hi.imp id Or.inl
        · exact (Kept.refl (h3 t ht)).safe
    | finish fs' =>
      obtain ⟨before, h1, h2, -⟩ := ih
      intro t ht
      rw [h1, List.append_nil] at ht
      exact h2 t ht

theorem lift_write {P : Printer} {type : String} {text : List Char} {rest : List String} {a b : FileSystem × Phase}
    (h : Relation.ReflTransGen (Step false (dataFile type) text) a b) :
    Relation.ReflTransGen (KeyStep P) (a.1, .writing type text a.2 rest) (b.1, .writing type text b.2 rest) := by
  induction h with
  | refl => exact .refl
  | tail _ h ih => exact ih.tail (.write _ _ _ _ _ _ _ h)

/-- A run can succeed: then each file with a schema has its content with the key. -/
theorem run_exists (P : Printer) : ∀ (rest : List String) (fs : FileSystem), rest.Nodup → (∀ t ∈ rest, t ∈ dataTypes) →
    (∀ t ∈ rest, (fs (schemaFile t)).isSome → (oldJson P fs t).isSome) →
    ∃ fs', Relation.ReflTransGen (KeyStep P) (fs, .next rest) (fs', .finished) ∧
      (∀ t ∈ rest, (fs (schemaFile t)).isSome → ∃ j, oldJson P fs t = some j ∧
        fs' (dataFile t) = some (P.dump (insertKey t j))) ∧
      ∀ x, (∀ t ∈ rest, x ≠ dataFile t ∧ x ≠ backupPath (dataFile t)) → fs' x = fs x := by
  intro rest
  induction rest with
  | nil => exact fun fs _ _ _ => ⟨fs, .single (.finish fs), by simp, fun _ _ => rfl⟩
  | cons t rest ih =>
    intro fs hn hm hr
    obtain ⟨hn1, hn2⟩ := List.nodup_cons.mp hn
    have ht := hm t List.mem_cons_self
    have hm' := fun u hu => hm u (List.mem_cons_of_mem _ hu)
    cases hs : fs (schemaFile t) with
    | none =>
      obtain ⟨fs', h1, h2, h3⟩ := ih fs hn2 hm' (fun u hu => hr u (List.mem_cons_of_mem _ hu))
      refine ⟨fs', .head (.skip fs t rest hs) h1, fun u hu => ?_, fun x hx => h3 x fun u hu => hx u (List.mem_cons_of_mem _ hu)⟩
      rcases List.mem_cons.mp hu with rfl | hu
      · intro h; rw [hs] at h; cases h
      · exact h2 u hu
    | some sc =>
      have hsome : (fs (schemaFile t)).isSome := by rw [hs]; rfl
      obtain ⟨j, hj⟩ := Option.isSome_iff_exists.mp (hr t List.mem_cons_self hsome)
      have hname : (dataFile t).name ≠ "tmp_backup" := fun e => dataFile_ne t ht (by
        unfold backupPath
        rw [← e])
      obtain ⟨g, h1, h2⟩ := exists_success (dataFile t) (P.dump (insertKey t j)) fs hname
      have others : ∀ x, x ≠ dataFile t → x ≠ backupPath (dataFile t) → g x = fs x :=
        fun x hx hb => C53_others_untouched h1 hx hb
      have hdata : ∀ u ∈ rest, g (dataFile u) = fs (dataFile u) := fun u hu =>
        others _ (dataFile_inj u (hm' u hu) t ht fun e => hn1 (e ▸ hu)) (dataFile_ne_backup u (hm' u hu) t ht)
      have hschema : ∀ u ∈ rest, g (schemaFile u) = fs (schemaFile u) := fun u hu =>
        others _ (schemaFile_ne u (hm' u hu) t ht) fun e => by
          have := congrArg Path.dir e
          simp [schemaFile, backupPath, dataFile] at this
      have hold : ∀ u ∈ rest, oldJson P g u = oldJson P fs u := fun u hu => by
        unfold oldJson
        rw [hdata u hu]
      obtain ⟨fs', h3, h4, h5⟩ := ih g hn2 hm' (fun u hu => by
        rw [hschema u hu, hold u hu]
        exact hr u (List.mem_cons_of_mem _ hu))
      have lift : Relation.ReflTransGen (KeyStep P) (fs, .writing t (P.dump (insertKey t j)) .start rest)
          (g, .writing t (P.dump (insertKey t j)) .done rest) :=
        lift_write h1
      refine ⟨fs', .head (.read fs t rest j hsome hj) (lift.trans (.head (.written g t _ rest) h3)), fun u hu hus => ?_,
        fun x hx => ?_⟩
      · rcases List.mem_cons.mp hu with rfl | hu
        · refine ⟨j, hj, ?_⟩
          rw [h5, h2]
          exact fun v hv => ⟨dataFile_inj u ht v (hm' v hv) fun e => hn1 (e ▸ hv), dataFile_ne_backup u ht v (hm' v hv)⟩
        · rw [← hold u hu]
          exact h4 u hu (by rw [hschema u hu]; exact hus)
      · rw [h5 x fun u hu => hx u (List.mem_cons_of_mem _ hu)]
        exact others x (hx t List.mem_cons_self).1 (hx t List.mem_cons_self).2

/-! ## C113 -/

/-- C113, for files without the key. Full statement: all files refer to their schemas afterwards, which is not so, see
`C113_false`. When the command ends without exception, each file has its old content (if printing failed) or the old keys and
values in the old order after the new key. -/
theorem C113_partial {P : Printer} {fs fs' : FileSystem} (h : RunReaches P fs (fs', .finished)) {type : String}
    (ht : type ∈ dataTypes) {old : List Char} (hold : fs (dataFile type) = some old) {m : List (String × OJson)}
    (hp : P.parse old = some (.obj m)) (hm : (m.map Prod.fst).Nodup) (hk : "$schema" ∉ m.map Prod.fst) :
    fs' (dataFile type) = some old ∨
      fs' (dataFile type) = some (P.dump (.obj (("$schema", schemaOf type) :: m))) := by
  refine (run_invariant h type ht old hold).imp id ?_
  rintro ⟨j, hj, e⟩
  rw [hp] at hj
  injection hj with hj
  subst hj
  rw [insertKey_new hm hk] at e
  exact e

/-- … and if there is already a key, it stays as it is and is moved to the front. -/
theorem C113_existing {P : Printer} {fs fs' : FileSystem} (h : RunReaches P fs (fs', .finished)) {type : String}
    (ht : type ∈ dataTypes) {old : List Char} (hold : fs (dataFile type) = some old) {a b : List (String × OJson)} {v : OJson}
    (hp : P.parse old = some (.obj (a ++ ("$schema", v) :: b))) (hm : ((a ++ ("$schema", v) :: b).map Prod.fst).Nodup) :
    fs' (dataFile type) = some old ∨ fs' (dataFile type) = some (P.dump (.obj (("$schema", v) :: (a ++ b)))) := by
  refine (run_invariant h type ht old hold).imp id ?_
  rintro ⟨j, hj, e⟩
  rw [hp] at hj
  injection hj with hj
  subst hj
  rw [insertKey_old hm] at e
  exact e

/-- Doing it twice changes nothing more. -/
theorem C113_twice {type : String} {m : List (String × OJson)} (hm : (m.map Prod.fst).Nodup) :
    insertKey type (insertKey type (.obj m)) = insertKey type (.obj m) := by
  by_cases hk : "$schema" ∈ m.map Prod.fst
  · obtain ⟨⟨k, v⟩, hx, e⟩ := List.mem_map.mp hk
    simp only at e
    subst e
    obtain ⟨a, b, rfl⟩ := List.append_of_mem hx
    rw [insertKey_old hm]
    refine insertKey_old (a := []) (b := a ++ b) ?_
    rw [List.map_append, List.map_cons, List.nodup_middle] at hm
    simpa using hm
  · rw [insertKey_new hm hk]
    refine insertKey_old (a := []) (b := m) ?_
    simp only [List.nil_append, List.map_cons, List.nodup_cons]
    exact ⟨hk, hm⟩

/-- Other files are not touched, except for the backup in the directory of the problem, wherever the command is killed. -/
theorem C113_others {P : Printer} {fs fs' : FileSystem} {stage : Stage} (h : RunReaches P fs (fs', stage)) {x : Path}
    (hx : ∀ t ∈ dataTypes, x ≠ dataFile t) (hb : x ≠ ⟨"problem", "tmp_backup"⟩) : fs' x = fs x := by
  have main : ∀ s, RunReaches P fs s → s.1 x = fs x ∧ (match s.2 with
      | .next rest => ∀ t ∈ rest, t ∈ dataTypes
      | .writing type _ _ rest => type ∈ dataTypes ∧ ∀ t ∈ rest, t ∈ dataTypes
      | _ => True) := by
    intro s hs
    induction hs with
    | refl => exact ⟨rfl, fun t ht => ht⟩
    | tail _ hstep ih =>
      cases hstep with
      | skip fs' type rest h => exact ⟨ih.1, fun t ht => ih.2 t (List.mem_cons_of_mem _ ht)⟩
      | read fs' type rest old h ho => exact ⟨ih.1, ih.2 type List.mem_cons_self, fun t ht => ih.2 t (List.mem_cons_of_mem _ ht)⟩
      | readFails fs' type rest h ho => exact ⟨ih.1, trivial⟩
      | write fs' fs'' type text p p' rest h => exact ⟨(step_others h (hx type ih.2.1) hb).trans ih.1, ih.2⟩
      | written fs' type text rest => exact ⟨ih.1, ih.2.2⟩
      | threw fs' type text rest => exact ⟨ih.1, trivial⟩
      | finish fs' => exact ⟨ih.1, trivial⟩
  exact (main _ h).1

/-- A printer that only knows one text. -/
def onlyKey : Printer where
  parse := fun text => if text = "old".toList then some (.obj [("$schema", .str "elsewhere.json")])
    else if text = "new".toList then some (.obj [("nodes", .null)]) else none
  dump := fun j => match j with
    | .obj [("$schema", .str s)] => s.toList
    | .obj [("$schema", .str s), ("nodes", .null)] => s.toList ++ "nodes".toList
    | _ => []

/-- A topology and its schema. -/
def twoFiles (text : String) : FileSystem := Function.update (single (dataFile "topology") text.toList) (schemaFile "topology")
  (some [])

theorem two_readable {text : String} (h : (onlyKey.parse text.toList).isSome) : ∀ t ∈ dataTypes,
    (twoFiles text (schemaFile t)).isSome → (oldJson onlyKey (twoFiles text) t).isSome := by
  intro t ht
  simp only [dataTypes, List.mem_cons, List.not_mem_nil, or_false] at ht
  rcases ht with rfl | rfl | rfl | rfl | rfl
  · intro h; revert h; simp [twoFiles, single, schemaFile, dataFile]
  · intro h; revert h; simp [twoFiles, single, schemaFile, dataFile]
  · intro h; revert h; simp [twoFiles, single, schemaFile, dataFile]
  · intro _
    have e : twoFiles text (dataFile "topology") = some text.toList := by simp [twoFiles, single, schemaFile, dataFile]
    unfold oldJson
    rw [e]
    exact h
  · intro h; revert h; simp [twoFiles, single, schemaFile, dataFile]

/-- C113 is false: a topology that refers to some other schema still does so afterwards. -/
theorem C113_false : ∃ (P : Printer) (fs fs' : FileSystem) (old : List Char) (m : List (String × OJson)) (v : OJson),
    RunReaches P fs (fs', .finished) ∧ (fs (schemaFile "topology")).isSome ∧ fs (dataFile "topology") = some old ∧
      P.parse old = some (.obj m) ∧ v ≠ schemaOf "topology" ∧ fs' (dataFile "topology") = some (P.dump (.obj [("$schema", v)])) := by
  obtain ⟨fs', h1, h2, -⟩ := run_exists onlyKey dataTypes (twoFiles "old") dataTypes_nodup (fun t ht => ht)
    (two_readable rfl)
  have hs : (twoFiles "old" (schemaFile "topology")).isSome := by simp [twoFiles]
  have ho : twoFiles "old" (dataFile "topology") = some "old".toList := by simp [twoFiles, single, schemaFile, dataFile]
  obtain ⟨j, h3, h4⟩ := h2 "topology" (by decide) hs
  refine ⟨onlyKey, _, fs', _, [("$schema", .str "elsewhere.json")], .str "elsewhere.json", h1, hs, ho, rfl, ?_, ?_⟩
  · unfold schemaOf
    intro h
    injection h with h
    revert h
    decide
  · unfold oldJson at h3
    rw [ho] at h3
    have : j = .obj [("$schema", .str "elsewhere.json")] := (Option.some.inj h3).symm
    subst this
    rw [h4]
    rfl

/-- The hypotheses of `C113_partial` are met. -/
example : ∃ fs', RunReaches onlyKey (twoFiles "new") (fs', .finished) ∧
    fs' (dataFile "topology") = some "../schemas/topology_schema.jsonnodes".toList := by
  obtain ⟨fs', h1, h2, -⟩ := run_exists onlyKey dataTypes (twoFiles "new") dataTypes_nodup (fun t ht => ht)
    (two_readable rfl)
  have hs : (twoFiles "new" (schemaFile "topology")).isSome := by simp [twoFiles]
  have ho : twoFiles "new" (dataFile "topology") = some "new".toList := by simp [twoFiles, single, schemaFile, dataFile]
  refine ⟨fs', h1, ?_⟩
  rcases C113_partial h1 (type := "topology") (by decide) ho (m := [("nodes", .null)]) rfl (by decide) (by decide) with h | h
  · exfalso
    obtain ⟨j, h3, h4⟩ := h2 "topology" (by decide) hs
    unfold oldJson at h3
    rw [ho] at h3
    have : j = .obj [("nodes", .null)] := (Option.some.inj h3).symm
    subst this
    rw [h] at h4
    injection h4 with h4
    revert h4
    decide
  · rw [h]
    decide

/-! ## C114 -/

/-- C114, for one run. Full statement: also for several runs one after the other, which is not so, see `C114_false`. Wherever a run
is killed, the content of each file of the problem is in the file or in the backup, or the file has its content with
the key. -/
theorem C114_partial {P : Printer} {fs fs' : FileSystem} {stage : Stage} (h : RunReaches P fs (fs', stage)) {type : String}
    (ht : type ∈ dataTypes) {old : List Char} (hold : fs (dataFile type) = some old) :
    fs' (dataFile type) = some old ∨ fs' ⟨"problem", "tmp_backup"⟩ = some old ∨
      ∃ j, P.parse old = some j ∧ fs' (dataFile type) = some (P.dump (insertKey type j)) := by
  have hi := run_invariant h
  cases stage with
  | next rest =>
    obtain ⟨before, h1, h2, h3⟩ := hi
    rw [h1] at ht
    rcases List.mem_append.mp ht with ht | ht
    · exact (h2 type ht).safe old hold
    · exact (Kept.refl (h3 type ht)).safe old hold
  | writing t text p rest =>
    obtain ⟨before, h1, h2, h3, h4⟩ := hi
    rw [h1] at ht
    rcases List.mem_append.mp ht with ht | ht
    · exact (h2 type ht).safe old hold
    · rcases List.mem_cons.mp ht with rfl | ht
      · obtain ⟨j, hj, e, hi⟩ := h4 old hold
        subst e
        rcases hi.safe with h | h | h
        · exact Or.inl h
        · exact Or.inr (Or.inl h)
        · exact Or.inr (Or.inr ⟨j, hj, h⟩)
      · exact (Kept.refl (h3 type ht)).safe old hold
  | finished => exact (hi type ht).safe old hold
  | failed => exact hi type ht old hold

/-- A printer for the witness: everything is the empty object. -/
def always : Printer := ⟨fun _ => some (.obj []), fun _ => "{new}".toList⟩

/-- Boundary values and a topology, both with schemas. -/
def fourFiles : FileSystem :=
  Function.update (Function.update (Function.update (single (dataFile "topology") "{t}".toList) (schemaFile "topology") (some []))
    (dataFile "boundary") (some "{b}".toList)) (schemaFile "boundary") (some [])

/-- The first run is killed when the topology has been moved to the backup. -/
theorem first_run : ∃ fs' stage, RunReaches always fourFiles (fs', stage) ∧ fs' (dataFile "topology") = none ∧
    fs' (dataFile "boundary") = some "{new}".toList ∧ fs' (schemaFile "boundary") = some [] ∧
    ∀ x, x ≠ backupPath (dataFile "topology") → fs' x ≠ some "{t}".toList := by
  obtain ⟨g, h1, h2⟩ := exists_success (dataFile "boundary") "{new}".toList fourFiles (by decide)
  have others : ∀ x, x ≠ dataFile "boundary" → x ≠ backupPath (dataFile "boundary") → g x = fourFiles x :=
    fun x hx hb => C53_others_untouched h1 hx hb
  have g1 : g (dataFile "topology") = some "{t}".toList := (others _ (by decide) (by decide)).trans (by decide)
  have g2 : g (schemaFile "topology") = some [] := (others _ (by decide) (by decide)).trans (by decide)
  have g3 : g (schemaFile "control") = none := (others _ (by decide) (by decide)).trans (by decide)
  have g4 : g (schemaFile "initial") = none := (others _ (by decide) (by decide)).trans (by decide)
  have g5 : g (schemaFile "boundary") = some [] := (others _ (by decide) (by decide)).trans (by decide)
  have lift : Relation.ReflTransGen (KeyStep always)
      (fourFiles, .writing "boundary" "{new}".toList .start ["control", "initial", "topology", "problem_data"])
      (g, .writing "boundary" "{new}".toList .done ["control", "initial", "topology", "problem_data"]) :=
    lift_write h1
  refine ⟨rename g (dataFile "topology") (backupPath (dataFile "topology")), .writing "topology" "{new}".toList .checkBackup
    ["problem_data"], ?_, rename_source (by decide), ?_, ?_, fun x hx => ?_⟩
  · refine .head (.read _ "boundary" _ (.obj []) (by decide) rfl) (lift.trans ?_)
    refine .head (.written _ _ _ _) (.head (.skip _ _ _ g3) (.head (.skip _ _ _ g4) ?_))
    refine .head (.read _ "topology" _ (.obj []) (by rw [g2]; rfl) (by unfold oldJson; rw [g1]; rfl)) ?_
    exact .head (.write _ _ _ _ _ _ _ (.isThere _ (by rw [g1]; rfl)))
      (.head (.write _ _ _ _ _ _ _ (.move _ (by rw [g1]; rfl))) .refl)
  · rw [rename_other (by decide) (by decide), h2]
  · rw [rename_other (by decide) (by decide), g5]
  · by_cases ht : x = dataFile "topology"
    · subst ht
      rw [rename_source (by decide)]
      simp
    · rw [rename_other ht hx]
      by_cases hb : x = dataFile "boundary"
      · subst hb
        rw [h2]
        decide
      · rw [others x hb hx]
        unfold fourFiles single
        simp only [Function.update_apply, if_neg hb, if_neg ht]
        split_ifs <;> simp

/-- The hypotheses of `C114_partial` are met when a run is killed: the topology is in the backup. -/
example : ∃ fs' stage, RunReaches always fourFiles (fs', stage) ∧ fs' (dataFile "topology") = none ∧
    fs' ⟨"problem", "tmp_backup"⟩ = some "{t}".toList := by
  obtain ⟨g, stage, h1, h2, -⟩ := first_run
  refine ⟨g, stage, h1, h2, ?_⟩
  rcases C114_partial h1 (type := "topology") (by decide) (old := "{t}".toList) (by decide) with h | h | ⟨j, -, h⟩
  · rw [h2] at h; cases h
  · exact h
  · rw [h2] at h; cases h

/-- C114 is false: a run is killed while it writes the topology. The next run moves another file to the same backup, and then the
topology is lost. -/
theorem C114_false : ∃ (P : Printer) (fs fs' : FileSystem) (old : List Char), fs (dataFile "topology") = some old ∧
    RunsReach P fs fs' ∧ fs' (dataFile "topology") = none ∧ ∀ x, fs' x ≠ some old := by
  obtain ⟨g, stage, h1, h2, h3, h4, hall⟩ := first_run
  refine ⟨always, fourFiles, rename g (dataFile "boundary") (backupPath (dataFile "boundary")), "{t}".toList, by decide,
    .again (.again .none h1) (stage := .writing "boundary" "{new}".toList .checkBackup
      ["control", "initial", "topology", "problem_data"]) ?_, ?_, ?_⟩
  · refine .head (.read _ "boundary" _ (.obj []) (by rw [h4]; rfl) (by unfold oldJson; rw [h3]; rfl)) ?_
    exact .head (.write _ _ _ _ _ _ _ (.isThere _ (by rw [h3]; rfl)))
      (.head (.write _ _ _ _ _ _ _ (.move _ (by rw [h3]; rfl))) .refl)
  · rw [rename_other (by decide) (by decide), h2]
  · intro x
    by_cases hb : x = backupPath (dataFile "boundary")
    · subst hb
      rw [rename_target (by decide), h3]
      decide
    · by_cases hf : x = dataFile "boundary"
      · subst hf
        rw [rename_source (by decide)]
        simp
      · rw [rename_other hf hb]
        exact hall x hb

end Verif.Files
