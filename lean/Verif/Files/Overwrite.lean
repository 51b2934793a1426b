import Mathlib.Data.List.Basic
import Mathlib.Logic.Relation
import Mathlib.Logic.Function.Basic

/-!
# Overwriting a json file

`overwrite_json` — `src/Auxillary/aux_json/Aux_json.cpp` 105-142, as a machine whose steps are the single operations on
the file system. The program may be killed between any two of them. A state that can be reached is thus a possible
crash point. What is written to the file arrives there character by character, so that any part of it may be there
when the program is killed. Not modelled: a crash of the whole computer, after which operations may be lost that had
already succeeded.

Operations that report an error by throwing (`rename`, `remove`, `dump`) may throw at any time. Output streams don't
throw: a failure of opening or writing goes unnoticed (the code never looks at the state of the stream). Such *silent*
failures are steps of the machine only if its parameter `silent` says so.
-/

set_option autoImplicit false

namespace Verif.Files

/-- A path: directory and name in this directory. -/
structure Path where
  dir : String
  name : String
  deriving DecidableEq

/-- The contents of all files. -/
abbrev FileSystem := Path → Option (List Char)

/-- `std::filesystem::rename`: replaces an existing target; nothing happens if both paths are the same. -/
def rename (fs : FileSystem) (source target : Path) : FileSystem :=
  if source = target then fs
  else Function.update (Function.update fs target (fs source)) source none

/-- `backup_path` — `Aux_json.cpp` 111: every file in a directory has the same backup. -/
def backupPath (file : Path) : Path := ⟨file.dir, "tmp_backup"⟩

/-- Where in the function the program is. The boolean is `had_existed`. -/
inductive Phase
  /-- 112 -/
  | start
  /-- 114 -/
  | moveAway
  /-- 115 -/
  | checkBackup
  /-- 123 -/
  | openFile (had : Bool)
  /-- 124, the file is open -/
  | dump (had : Bool)
  /-- 124, opening has failed -/
  | dumpClosed (had : Bool)
  /-- 124-125, this many characters have arrived -/
  | write (had : Bool) (n : ℕ)
  /-- 129-130 -/
  | caught (had : Bool)
  /-- 132 -/
  | rollback
  /-- 139-141 -/
  | cleanup (had : Bool)
  /-- the function has returned -/
  | done
  /-- the function has thrown -/
  | thrown
  deriving DecidableEq

/-- The single operations of `overwrite_json` — `Aux_json.cpp` 105-142 — when writing `text` to `file`. -/
inductive Step (silent : Bool) (file : Path) (text : List Char) : FileSystem × Phase → FileSystem × Phase → Prop
  | isThere (fs) : (fs file).isSome → Step silent file text (fs, .start) (fs, .moveAway)
  | isNotThere (fs) : fs file = none → Step silent file text (fs, .start) (fs, .openFile false)
  | move (fs) : (fs file).isSome → Step silent file text (fs, .moveAway) (rename fs file (backupPath file), .checkBackup)
  | moveFails (fs) : Step silent file text (fs, .moveAway) (fs, .thrown)
  | backupThere (fs) : (fs (backupPath file)).isSome → Step silent file text (fs, .checkBackup) (fs, .openFile true)
  | backupMissing (fs) : fs (backupPath file) = none → Step silent file text (fs, .checkBackup) (fs, .thrown)
  | truncate (fs had) : Step silent file text (fs, .openFile had) (Function.update fs file (some []), .dump had)
  | openFails (fs had) : silent = true → Step silent file text (fs, .openFile had) (fs, .dumpClosed had)
  | dumped (fs had) : Step silent file text (fs, .dump had) (fs, .write had 0)
  | dumpThrows (fs had) : Step silent file text (fs, .dump had) (fs, .caught had)
  | dumpedClosed (fs had) : Step silent file text (fs, .dumpClosed had) (fs, .cleanup had)
  | dumpClosedThrows (fs had) : Step silent file text (fs, .dumpClosed had) (fs, .caught had)
  | put (fs had n) : n < text.length →
      Step silent file text (fs, .write had n) (Function.update fs file (some (text.take (n + 1))), .write had (n + 1))
  | close (fs had) : Step silent file text (fs, .write had text.length) (fs, .cleanup had)
  | writeFails (fs had n) : silent = true → Step silent file text (fs, .write had n) (fs, .cleanup had)
  | rollBack (fs) : (fs (backupPath file)).isSome → Step silent file text (fs, .caught true) (fs, .rollback)
  | noBackup (fs) : fs (backupPath file) = none → Step silent file text (fs, .caught true) (fs, .cleanup true)
  | noRollback (fs) : Step silent file text (fs, .caught false) (fs, .cleanup false)
  | moveBack (fs) : (fs (backupPath file)).isSome →
      Step silent file text (fs, .rollback) (rename fs (backupPath file) file, .cleanup true)
  | moveBackFails (fs) : Step silent file text (fs, .rollback) (fs, .thrown)
  | removeBackup (fs) : Step silent file text (fs, .cleanup true) (Function.update fs (backupPath file) none, .done)
  | removeFails (fs) : Step silent file text (fs, .cleanup true) (fs, .thrown)
  | nothingToRemove (fs) : Step silent file text (fs, .cleanup false) (fs, .done)

/-- The states that can be reached: the possible crash points. -/
def Reachable (silent : Bool) (file : Path) (text : List Char) (fs : FileSystem) : FileSystem × Phase → Prop :=
  Relation.ReflTransGen (Step silent file text) (fs, .start)

theorem rename_source {fs : FileSystem} {a b : Path} (h : a ≠ b) : rename fs a b a = none := by
  simp [rename, h]

theorem rename_target {fs : FileSystem} {a b : Path} (h : a ≠ b) : rename fs a b b = fs a := by
  simp [rename, h, Function.update_of_ne h.symm]

theorem rename_other {fs : FileSystem} {a b x : Path} (ha : x ≠ a) (hb : x ≠ b) : rename fs a b x = fs x := by
  unfold rename
  split_ifs <;> simp [Function.update_of_ne, ha, hb]

/-- What holds at each point when the file existed with content `old`. -/
def Invariant (file : Path) (old text : List Char) (s : FileSystem × Phase) : Prop :=
  match s.2 with
  | .start | .moveAway => s.1 file = some old
  | .checkBackup | .openFile true => s.1 file = none ∧ s.1 (backupPath file) = some old
  | .dump true => s.1 file = some [] ∧ s.1 (backupPath file) = some old
  | .write true n => s.1 file = some (text.take n) ∧ n ≤ text.length ∧ s.1 (backupPath file) = some old
  | .caught true | .rollback => s.1 (backupPath file) = some old
  | .cleanup true =>
    s.1 file = some old ∧ s.1 (backupPath file) = none ∨ s.1 file = some text ∧ s.1 (backupPath file) = some old
  | .done => (s.1 file = some old ∨ s.1 file = some text) ∧ s.1 (backupPath file) = none
  | .thrown => s.1 file = some old ∨ s.1 (backupPath file) = some old
  | _ => False

theorem step_invariant {file : Path} {old text : List Char} (hname : file ≠ backupPath file)
    {s t : FileSystem × Phase} (ih : Invariant file old text s) (hstep : Step false file text s t) :
    Invariant file old text t := by
  cases hstep with
  | isThere fs h => simpa [Invariant] using ih
  | isNotThere fs h => simp [Invariant, h] at ih
  | move fs h =>
    simp only [Invariant] at ih ⊢
    exact ⟨rename_source hname, by rw [rename_target hname, ih]⟩
  | moveFails fs => exact Or.inl ih
  | backupThere fs h => simpa [Invariant] using ih
  | backupMissing fs h => exact Or.inr ih.2
  | truncate fs had =>
    cases had
    · simp [Invariant] at ih
    · simp only [Invariant] at ih ⊢
      exact ⟨by simp, by rw [Function.update_of_ne hname.symm, ih.2]⟩
  | openFails fs had h => cases h
  | dumped fs had =>
    cases had
    · simp [Invariant] at ih
    · simpa [Invariant] using ih
  | dumpThrows fs had =>
    cases had
    · simp [Invariant] at ih
    · exact ih.2
  | dumpedClosed fs had => simp [Invariant] at ih
  | dumpClosedThrows fs had => simp [Invariant] at ih
  | put fs had n h =>
    cases had
    · simp [Invariant] at ih
    · simp only [Invariant] at ih ⊢
      exact ⟨by simp, h, by rw [Function.update_of_ne hname.symm, ih.2.2]⟩
  | close fs had =>
    cases had
    · simp [Invariant] at ih
    · simp only [Invariant] at ih ⊢
      exact Or.inr ⟨by rw [ih.1, List.take_length], ih.2.2⟩
  | writeFails fs had n h => cases h
  | rollBack fs h => exact ih
  | noBackup fs h => simp [Invariant, h] at ih
  | noRollback fs => simp [Invariant] at ih
  | moveBack fs h =>
    simp only [Invariant] at ih ⊢
    exact Or.inl ⟨by rw [rename_target hname.symm, ih], rename_source hname.symm⟩
  | moveBackFails fs => exact Or.inr ih
  | removeBackup fs =>
    simp only [Invariant] at ih ⊢
    refine ⟨?_, by simp⟩
    rw [Function.update_of_ne hname]
    exact ih.imp (·.1) (·.1)
  | removeFails fs => exact ih.imp (·.1) (·.2)
  | nothingToRemove fs => simp [Invariant] at ih

theorem invariant {file : Path} {old text : List Char} {fs : FileSystem} (hname : file ≠ backupPath file)
    (hold : fs file = some old) {s : FileSystem × Phase} (h : Reachable false file text fs s) :
    Invariant file old text s := by
  induction h with
  | refl => simpa [Invariant] using hold
  | tail _ hstep ih => exact step_invariant hname ih hstep

/-- The invariant says that no content is lost. -/
theorem Invariant.safe {file : Path} {old text : List Char} {fs : FileSystem} {p : Phase}
    (this : Invariant file old text (fs, p)) :
    fs file = some old ∨ fs (backupPath file) = some old ∨ fs file = some text := by
  unfold Invariant at this
  split at this <;> simp_all
  · rcases this with h | h <;> simp [h]
  · exact this.imp id Or.inl

/-- **C53 (partial)**: overwrite a file with any content, where no failure of writing goes unnoticed. Then wherever the
program is killed, the complete old content is in the file or in its backup, or the complete new content is in the
file. Missing is the case of silent failures, see `C53_silent_false`. The file must not have the name of the backup,
see `C53_name_false`. -/
theorem C53_crash_safe_partial {file : Path} {old text : List Char} {fs : FileSystem} (hname : file.name ≠ "tmp_backup")
    (hold : fs file = some old) {fs' : FileSystem} {p : Phase} (h : Reachable false file text fs (fs', p)) :
    fs' file = some old ∨ fs' (backupPath file) = some old ∨ fs' file = some text := by
  have hne : file ≠ backupPath file := fun h => hname (by rw [h]; rfl)
  exact (invariant hne hold h).safe

/-- **C53 (partial)**: … and if the function returns, the file has either its complete old or its complete new content,
and the backup is gone. -/
theorem C53_returns_partial {file : Path} {old text : List Char} {fs : FileSystem} (hname : file.name ≠ "tmp_backup")
    (hold : fs file = some old) {fs' : FileSystem} (h : Reachable false file text fs (fs', .done)) :
    (fs' file = some old ∨ fs' file = some text) ∧ fs' (backupPath file) = none :=
  invariant (fun h => hname (by rw [h]; rfl)) hold h

/-- Nothing but the file and its backup is touched, whatever fails. -/
theorem C53_others_untouched {silent : Bool} {file : Path} {text : List Char} {fs fs' : FileSystem} {p : Phase}
    (h : Reachable silent file text fs (fs', p)) {x : Path} (hx : x ≠ file) (hb : x ≠ backupPath file) :
    fs' x = fs x := by
  have main : ∀ s, Reachable silent file text fs s → s.1 x = fs x := by
    intro s hs
    induction hs with
    | refl => rfl
    | tail _ hstep ih =>
      cases hstep <;> first
        | exact ih
        | (simp only at ih ⊢; rw [rename_other (by assumption) (by assumption), ih])
        | (simp only at ih ⊢; rw [Function.update_of_ne (by assumption), ih])
  exact main _ h

/-- What holds at each point when no error occurs at all; `had` is whether the file existed. -/
theorem exists_success (file : Path) (text : List Char) (fs : FileSystem) (hname : file.name ≠ "tmp_backup") :
    ∃ fs', Reachable false file text fs (fs', .done) ∧ fs' file = some text := by
  have hne : file ≠ backupPath file := fun h => hname (by rw [h]; rfl)
  -- writing
  have writing : ∀ (had : Bool) (g : FileSystem) (n : ℕ), n ≤ text.length → ∃ g',
      Relation.ReflTransGen (Step false file text) (Function.update g file (some []), .write had 0) (g', .write had n) ∧
        g' file = some (text.take n) := by
    intro had g n
    induction n with
    | zero => exact fun _ => ⟨_, .refl, by simp⟩
    | succ n ih =>
      intro hn
      obtain ⟨g', hg, -⟩ := ih (by omega)
      exact ⟨_, hg.tail (Step.put g' had n (by omega)), by simp⟩
  have rest : ∀ (had : Bool) (g : FileSystem), ∃ g',
      Relation.ReflTransGen (Step false file text) (g, .openFile had) (g', .done) ∧ g' file = some text := by
    intro had g
    obtain ⟨g', hg, hfile⟩ := writing had g text.length (Nat.le_refl _)
    rw [List.take_length] at hfile
    have := ((Relation.ReflTransGen.single (Step.truncate (silent := false) (file := file) (text := text) g had)).tail
      (Step.dumped _ had)).trans (hg.tail (Step.close g' had))
    cases had
    · exact ⟨_, this.tail (Step.nothingToRemove g'), hfile⟩
    · exact ⟨_, this.tail (Step.removeBackup g'), by rw [Function.update_of_ne hne, hfile]⟩
  by_cases h : (fs file).isSome
  · obtain ⟨g, hg, hfile⟩ := rest true (rename fs file (backupPath file))
    refine ⟨g, ?_, hfile⟩
    refine Relation.ReflTransGen.head (Step.isThere fs h) (Relation.ReflTransGen.head (Step.move fs h)
      (Relation.ReflTransGen.head (Step.backupThere _ ?_) hg))
    rw [rename_target hne]
    exact h
  · obtain ⟨g, hg, hfile⟩ := rest false fs
    exact ⟨g, Relation.ReflTransGen.head (Step.isNotThere fs (by simpa using h)) hg, hfile⟩

/-- Overwriting can succeed: the hypotheses of the theorems above are met by complete runs, for every file system. -/
theorem C53_can_succeed (file : Path) (text : List Char) (fs : FileSystem) (hname : file.name ≠ "tmp_backup") :
    ∃ fs', Reachable false file text fs (fs', .done) ∧ fs' file = some text := exists_success file text fs hname

/-- A file system with one file. -/
def single (file : Path) (content : List Char) : FileSystem := Function.update (fun _ => none) file (some content)

/-- The example file. -/
def topology : Path := ⟨"problem", "topology.json"⟩

/-- A non-trivial case: a run is killed in the middle of writing; the backup has the old content. -/
example : ∃ fs', Reachable false topology "{1}".toList (single topology "{}".toList) (fs', .write true 1) ∧
    fs' topology = some "{".toList ∧ fs' ⟨"problem", "tmp_backup"⟩ = some "{}".toList := by
  refine ⟨_, ((((((Relation.ReflTransGen.refl.tail (Step.isThere _ ?_)).tail (Step.move _ ?_)).tail
    (Step.backupThere _ ?_)).tail (Step.truncate _ true)).tail (Step.dumped _ true)).tail (Step.put _ true 0 ?_)), ?_, ?_⟩
    <;> decide +kernel

/-- **C53 is false for silent failures**: the disk is full. Then the function returns as if it had succeeded, and
neither the old nor the new content exists any more, in no file. -/
theorem C53_silent_false : ¬ ∀ (file : Path) (old text : List Char) (fs : FileSystem), file.name ≠ "tmp_backup" →
    fs file = some old → ∀ (fs' : FileSystem) (p : Phase), Reachable true file text fs (fs', p) →
      fs' file = some old ∨ fs' (backupPath file) = some old ∨ fs' file = some text := by
  intro h
  have := h topology "{}".toList "{1}".toList (single topology "{}".toList) (by decide) (by decide +kernel) _ _
    (((((((Relation.ReflTransGen.refl.tail (Step.isThere _ (by decide +kernel))).tail
      (Step.move _ (by decide +kernel))).tail (Step.backupThere _ (by decide +kernel))).tail (Step.truncate _ true)).tail
      (Step.dumped _ true)).tail (Step.writeFails _ true 0 rfl)).tail (Step.removeBackup _))
  revert this
  decide +kernel

/-- **C53 is false for the file `tmp_backup`**: it is its own backup. If the program is killed right after opening the
file, its content is lost. -/
theorem C53_name_false : ¬ ∀ (file : Path) (old text : List Char) (fs : FileSystem), fs file = some old →
    ∀ (fs' : FileSystem) (p : Phase), Reachable false file text fs (fs', p) →
      fs' file = some old ∨ fs' (backupPath file) = some old ∨ fs' file = some text := by
  intro h
  have := h ⟨"problem", "tmp_backup"⟩ "{}".toList "{1}".toList (single ⟨"problem", "tmp_backup"⟩ "{}".toList)
    (by decide +kernel) _ _
    ((((Relation.ReflTransGen.refl.tail (Step.isThere _ (by decide +kernel))).tail
      (Step.move _ (by decide +kernel))).tail (Step.backupThere _ (by decide +kernel))).tail (Step.truncate _ true))
  revert this
  decide +kernel

/-! ## Two programs at the same time -/

/-- Two programs overwrite two files; each step is a step of one of them. -/
inductive Step2 (file₁ file₂ : Path) (text₁ text₂ : List Char) :
    FileSystem × Phase × Phase → FileSystem × Phase × Phase → Prop
  | first {fs p fs' p'} (q) : Step false file₁ text₁ (fs, p) (fs', p') →
      Step2 file₁ file₂ text₁ text₂ (fs, p, q) (fs', p', q)
  | second {fs q fs' q'} (p) : Step false file₂ text₂ (fs, q) (fs', q') →
      Step2 file₁ file₂ text₁ text₂ (fs, p, q) (fs', p, q')

/-- **C53 is false for two programs that work in the same directory**, even if they overwrite different files and
nothing fails: both use the same backup, so that the second destroys the backup of the first. -/
theorem C53_concurrent_false : ¬ ∀ (file₁ file₂ : Path) (old₁ old₂ text₁ text₂ : List Char) (fs : FileSystem),
    file₁ ≠ file₂ → file₁.name ≠ "tmp_backup" → file₂.name ≠ "tmp_backup" → fs file₁ = some old₁ → fs file₂ = some old₂ →
    ∀ (fs' : FileSystem) (p q : Phase),
      Relation.ReflTransGen (Step2 file₁ file₂ text₁ text₂) (fs, .start, .start) (fs', p, q) →
      fs' file₁ = some old₁ ∨ fs' (backupPath file₁) = some old₁ ∨ fs' file₁ = some text₁ := by
  intro h
  have := h topology ⟨"problem", "control.json"⟩ "{}".toList "[]".toList "{1}".toList "[1]".toList
    (Function.update (single topology "{}".toList) ⟨"problem", "control.json"⟩ (some "[]".toList))
    (by decide) (by decide) (by decide) (by decide +kernel) (by decide +kernel) _ _ _
    ((((Relation.ReflTransGen.refl.tail (Step2.first _ (Step.isThere _ (by decide +kernel)))).tail
      (Step2.first _ (Step.move _ (by decide +kernel)))).tail
      (Step2.second _ (Step.isThere _ (by decide +kernel)))).tail (Step2.second _ (Step.move _ (by decide +kernel))))
  revert this
  decide +kernel

/-- Steps in another directory don't touch the file and its backup. -/
theorem step_other_dir {silent : Bool} {file : Path} {text : List Char} {s t : FileSystem × Phase}
    (h : Step silent file text s t) {x : Path} (hx : x.dir ≠ file.dir) : t.1 x = s.1 x := by
  have h1 : x ≠ file := fun e => hx (by rw [e])
  have h2 : x ≠ backupPath file := fun e => hx (by rw [e]; rfl)
  cases h <;> first
    | rfl
    | exact rename_other (by assumption) (by assumption)
    | exact Function.update_of_ne (by assumption) _ _

/-- The invariant is about the file and its backup only. -/
theorem Invariant.congr {file : Path} {old text : List Char} {fs fs' : FileSystem} {p : Phase}
    (h : Invariant file old text (fs, p)) (h1 : fs' file = fs file)
    (h2 : fs' (backupPath file) = fs (backupPath file)) : Invariant file old text (fs', p) := by
  unfold Invariant at h ⊢
  simp only [h1, h2] at h ⊢
  exact h

/-- **C53 (partial)**: any program that works in another directory at the same time does no harm. -/
theorem C53_concurrent_partial {file₁ file₂ : Path} {old text₁ text₂ : List Char} {fs : FileSystem}
    (hdir : file₁.dir ≠ file₂.dir) (hname : file₁.name ≠ "tmp_backup") (hold : fs file₁ = some old)
    {fs' : FileSystem} {p q : Phase}
    (h : Relation.ReflTransGen (Step2 file₁ file₂ text₁ text₂) (fs, .start, .start) (fs', p, q)) :
    fs' file₁ = some old ∨ fs' (backupPath file₁) = some old ∨ fs' file₁ = some text₁ := by
  have hne : file₁ ≠ backupPath file₁ := fun h => hname (by rw [h]; rfl)
  have main : ∀ s, Relation.ReflTransGen (Step2 file₁ file₂ text₁ text₂) (fs, .start, .start) s →
      Invariant file₁ old text₁ (s.1, s.2.1) := by
    intro s hs
    induction hs with
    | refl => exact hold
    | tail _ hstep ih =>
      cases hstep with
      | first q h => exact step_invariant hne ih h
      | second p h =>
        exact ih.congr (step_other_dir h hdir) (step_other_dir h (x := backupPath file₁) hdir)
  exact (main _ h).safe

end Verif.Files
