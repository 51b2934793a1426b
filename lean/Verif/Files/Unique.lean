import Verif.Basic.Res
import Mathlib.Data.List.Basic
import Mathlib.Logic.Function.Basic
import Mathlib.Tactic.Common

/-!
# Output directories and output files

`unique_output_directory`, `create_new_output_file` and the creation of files in `prepare_output_directory` —
`src/Auxillary/Input_Output/Input_output.cpp` — run by any number of processes at the same time, in any interleaving,
while other programs change the file system, too. A process may stop at any point. What the operating system does in one
step: `mkdir` and `open` with `O_EXCL`, which create something exactly if nothing has that name.

The names that are generated (from the clock) are arbitrary: different processes may get the same names, and one process
may get the same name again and again.
-/

set_option autoImplicit false

namespace Verif.Files.Unique

/-- What can have a name in the file system. -/
inductive Entry
  | directory
  | file (content : List Char)
  deriving DecidableEq

/-- Which names exist. -/
abbrev FileSystem (Name : Type) := Name → Option Entry

section
variable {Name : Type} [DecidableEq Name]

/-- `mkdir`: fails if something has this name. -/
def mkdir (fs : FileSystem Name) (name : Name) : Option (FileSystem Name) :=
  match fs name with
  | none => some (Function.update fs name (some .directory))
  | some _ => none

/-- `fopen` with mode `"wx"`: fails if something has this name, creates an empty file otherwise. -/
def fopenExclusive (fs : FileSystem Name) (name : Name) : Option (FileSystem Name) :=
  match fs name with
  | none => some (Function.update fs name (some (.file [])))
  | some _ => none

/-- Where a process is in one of the two functions. -/
inductive Phase (Name : Type)
  /-- at the head of the loop, after this many failures -/
  | trying (counter : ℕ)
  /-- has returned this name -/
  | got (name : Name)
  /-- has thrown an exception -/
  | thrown
  deriving DecidableEq

/-- `number_of_tries` — `Input_output.cpp` 134. -/
def directoryTries : ℕ := 20

/-- `number_of_tries` — `Input_output.cpp` 65. -/
def fileTries : ℕ := 10

/-- One round of the loop of `unique_output_directory` — `Input_output.cpp` 131-148. `std::filesystem::create_directory`
returns false if the directory is there already and throws if there is another kind of file or on other errors. -/
inductive DirectoryStep : FileSystem Name → Phase Name → FileSystem Name → Phase Name → Prop
  | created (fs fs' counter name) : counter ≠ directoryTries → mkdir fs name = some fs' →
      DirectoryStep fs (.trying counter) fs' (.got name)
  | isThere (fs counter name) : counter ≠ directoryTries → fs name = some .directory →
      DirectoryStep fs (.trying counter) fs (.trying (counter + 1))
  | error (fs counter) : counter ≠ directoryTries → DirectoryStep fs (.trying counter) fs .thrown
  | giveUp (fs) : DirectoryStep fs (.trying directoryTries) fs .thrown

/-- One round of the loop of `create_new_output_file` — `Input_output.cpp` 61-84. `std::fopen` may fail for other
reasons than that the file is there. The loop has its condition at the end: after a failure, the counter is compared
with the number of tries (and then again after the loop). -/
inductive FileStep : FileSystem Name → Phase Name → FileSystem Name → Phase Name → Prop
  | created (fs fs' counter name) : fopenExclusive fs name = some fs' → FileStep fs (.trying counter) fs' (.got name)
  | again (fs counter) : counter + 1 < fileTries → FileStep fs (.trying counter) fs (.trying (counter + 1))
  | giveUp (fs counter) : fileTries ≤ counter + 1 → FileStep fs (.trying counter) fs .thrown

/-- What other programs do to the file system: anything, as long as they don't remove what is there. -/
def OnlyAdds (fs fs' : FileSystem Name) : Prop := ∀ name, (fs name).isSome → (fs' name).isSome

/-- Runs of processes that execute `step`, and of other programs, that act as allowed by `other`. The list says who made
the steps, latest first; `none` is another program. -/
inductive Run {Proc : Type} [DecidableEq Proc]
    (step : FileSystem Name → Phase Name → FileSystem Name → Phase Name → Prop)
    (other : FileSystem Name → FileSystem Name → Prop) (fs₀ : FileSystem Name) :
    List (Option Proc) → FileSystem Name → (Proc → Phase Name) → Prop
  | start : Run step other fs₀ [] fs₀ fun _ => .trying 0
  | process {who fs phase} (i : Proc) {fs' p} : Run step other fs₀ who fs phase → step fs (phase i) fs' p →
      Run step other fs₀ (some i :: who) fs' (Function.update phase i p)
  | environment {who fs phase fs'} : Run step other fs₀ who fs phase → other fs fs' →
      Run step other fs₀ (none :: who) fs' phase

theorem mkdir_eq {fs fs' : FileSystem Name} {name : Name} (h : mkdir fs name = some fs') :
    fs name = none ∧ fs' = Function.update fs name (some .directory) := by
  unfold mkdir at h
  split at h
  · simp_all
  · simp at h

theorem fopen_eq {fs fs' : FileSystem Name} {name : Name} (h : fopenExclusive fs name = some fs') :
    fs name = none ∧ fs' = Function.update fs name (some (.file [])) := by
  unfold fopenExclusive at h
  split at h
  · simp_all
  · simp at h

/-- A step that only creates, and returns only what it created. -/
def Creates (step : FileSystem Name → Phase Name → FileSystem Name → Phase Name → Prop) : Prop :=
  ∀ fs p fs' p', step fs p fs' p' → (∃ counter, p = .trying counter) ∧
    ((∃ name e, p' = .got name ∧ fs name = none ∧ fs' = Function.update fs name (some e)) ∨
      (fs' = fs ∧ ∀ name, p' ≠ .got name))

theorem directory_creates : Creates (DirectoryStep (Name := Name)) := by
  intro fs p fs' p' h
  cases h with
  | created _ _ _ _ h => exact ⟨⟨_, rfl⟩, Or.inl ⟨_, _, rfl, mkdir_eq h⟩⟩
  | isThere => exact ⟨⟨_, rfl⟩, Or.inr ⟨rfl, by simp⟩⟩
  | error => exact ⟨⟨_, rfl⟩, Or.inr ⟨rfl, by simp⟩⟩
  | giveUp => exact ⟨⟨_, rfl⟩, Or.inr ⟨rfl, by simp⟩⟩

theorem file_creates : Creates (FileStep (Name := Name)) := by
  intro fs p fs' p' h
  cases h with
  | created _ _ _ h => exact ⟨⟨_, rfl⟩, Or.inl ⟨_, _, rfl, fopen_eq h⟩⟩
  | again => exact ⟨⟨_, rfl⟩, Or.inr ⟨rfl, by simp⟩⟩
  | giveUp => exact ⟨⟨_, rfl⟩, Or.inr ⟨rfl, by simp⟩⟩

variable {Proc : Type} [DecidableEq Proc]

/-- What has been returned exists, is new and belongs to one process. -/
theorem run_unique {step : FileSystem Name → Phase Name → FileSystem Name → Phase Name → Prop} (hstep : Creates step)
    {fs₀ fs : FileSystem Name} {who : List (Option Proc)} {phase : Proc → Phase Name}
    (h : Run step OnlyAdds fs₀ who fs phase) :
    OnlyAdds fs₀ fs ∧ (∀ i name, phase i = .got name → fs₀ name = none ∧ (fs name).isSome) ∧
      ∀ i j name, phase i = .got name → phase j = .got name → i = j := by
  induction h with
  | start => exact ⟨fun _ h => h, by simp, by simp⟩
  | @process who fs phase k fs' p _ h ih =>
    obtain ⟨hadd, hgot, huniq⟩ := ih
    obtain ⟨⟨c, hc⟩, ⟨name, e, rfl, hnew, rfl⟩ | ⟨rfl, hno⟩⟩ := hstep _ _ _ _ h
    · have hadd' : OnlyAdds fs (Function.update fs name (some e)) := by
        intro x hx
        by_cases hxn : x = name
        · subst hxn; simp
        · rwa [Function.update_of_ne hxn]
      have hnew₀ : fs₀ name = none := by
        cases h0 : fs₀ name with
        | none => rfl
        | some _ =>
          have := hadd name (by rw [h0]; rfl)
          rw [hnew] at this
          cases this
      refine ⟨fun x hx => hadd' x (hadd x hx), fun i x hi => ?_, fun i j x hi hj => ?_⟩
      · by_cases hik : i = k
        · subst hik
          simp only [Function.update_self, Phase.got.injEq] at hi
          subst hi
          exact ⟨hnew₀, by simp⟩
        · rw [Function.update_of_ne hik] at hi
          exact ⟨(hgot i x hi).1, hadd' x (hgot i x hi).2⟩
      · by_cases hik : i = k <;> by_cases hjk : j = k
        · rw [hik, hjk]
        · subst hik
          rw [Function.update_of_ne hjk] at hj
          simp only [Function.update_self, Phase.got.injEq] at hi
          subst hi
          have := (hgot j name hj).2
          rw [hnew] at this
          cases this
        · subst hjk
          rw [Function.update_of_ne hik] at hi
          simp only [Function.update_self, Phase.got.injEq] at hj
          subst hj
          have := (hgot i name hi).2
          rw [hnew] at this
          cases this
        · rw [Function.update_of_ne hik] at hi
          rw [Function.update_of_ne hjk] at hj
          exact huniq i j x hi hj
    · have hold : ∀ i name, Function.update phase k p i = .got name → phase i = .got name := by
        intro i name hi
        by_cases hik : i = k
        · subst hik
          rw [Function.update_self] at hi
          exact absurd hi (hno name)
        · rwa [Function.update_of_ne hik] at hi
      exact ⟨hadd, fun i x hi => hgot i x (hold i x hi), fun i j x hi hj => huniq i j x (hold i x hi) (hold j x hj)⟩
  | environment _ h ih =>
    obtain ⟨hadd, hgot, huniq⟩ := ih
    exact ⟨fun x hx => h x (hadd x hx), fun i x hi => ⟨(hgot i x hi).1, h x (hgot i x hi).2⟩, huniq⟩

/-- **C54**: in every interleaving of any number of processes, with other programs that add and change files at the same
time, whatever names the processes generate and wherever they are stopped: different processes are given different
output directories, and none of them existed before. -/
theorem C54_distinct {fs₀ fs : FileSystem Name} {who : List (Option Proc)} {phase : Proc → Phase Name}
    (h : Run DirectoryStep OnlyAdds fs₀ who fs phase) :
    (∀ i j d d', i ≠ j → phase i = .got d → phase j = .got d' → d ≠ d') ∧
      ∀ i d, phase i = .got d → fs₀ d = none ∧ (fs d).isSome := by
  obtain ⟨-, hgot, huniq⟩ := run_unique directory_creates h
  refine ⟨fun i j d d' hij hi hj hd => ?_, hgot⟩
  subst hd
  exact hij (huniq i j d hi hj)

/-- If the other programs do nothing, what was created stays as it was. -/
theorem run_kept {step : FileSystem Name → Phase Name → FileSystem Name → Phase Name → Prop} (hstep : Creates step)
    {fs₀ fs : FileSystem Name} {who : List (Option Proc)} {phase : Proc → Phase Name}
    (h : Run step (fun a b => a = b) fs₀ who fs phase) : ∀ name e, fs₀ name = some e → fs name = some e := by
  induction h with
  | start => exact fun _ _ h => h
  | process i _ h ih =>
    intro x e hx
    obtain ⟨-, ⟨name, e', rfl, hnew, rfl⟩ | ⟨rfl, -⟩⟩ := hstep _ _ _ _ h
    · by_cases hxn : x = name
      · subst hxn
        rw [ih _ _ hx] at hnew
        cases hnew
      · rw [Function.update_of_ne hxn]
        exact ih _ _ hx
    · exact ih _ _ hx
  | environment _ h ih => exact h ▸ ih

/-- **C54**: … they are directories, and nothing that existed is changed by the processes. -/
theorem C54_directory {fs₀ fs : FileSystem Name} {who : List (Option Proc)} {phase : Proc → Phase Name}
    (h : Run DirectoryStep (fun a b => a = b) fs₀ who fs phase) :
    (∀ i d, phase i = .got d → fs d = some .directory) ∧ ∀ name e, fs₀ name = some e → fs name = some e := by
  refine ⟨?_, run_kept directory_creates h⟩
  induction h with
  | start => simp
  | @process who fs phase k fs' p hrun h ih =>
    intro i d hi
    have hkeep : ∀ d, fs d = some .directory → fs' d = some .directory := by
      intro d hd
      obtain ⟨-, ⟨name, e', rfl, hnew, rfl⟩ | ⟨rfl, -⟩⟩ := directory_creates _ _ _ _ h
      · rw [Function.update_of_ne, hd]
        rintro rfl
        rw [hd] at hnew
        cases hnew
      · exact hd
    by_cases hik : i = k
    · subst hik
      rw [Function.update_self] at hi
      subst hi
      generalize phase i = q at h
      cases h with
      | created _ _ _ _ hm => rw [(mkdir_eq hm).2]; simp
    · rw [Function.update_of_ne hik] at hi
      exact hkeep d (ih i d hi)
  | environment _ h ih => exact h ▸ ih

/-- How many rounds a process may still make. -/
def Phase.rounds (tries : ℕ) : Phase Name → ℕ
  | .trying counter => tries - counter
  | _ => 0

theorem run_bound {other : FileSystem Name → FileSystem Name → Prop}
    {fs₀ fs : FileSystem Name} {who : List (Option Proc)} {phase : Proc → Phase Name}
    (h : Run DirectoryStep other fs₀ who fs phase) (i : Proc) (c : ℕ) (hc : phase i = .trying c) :
    c ≤ directoryTries := by
  induction h generalizing c with
  | start => injection hc with hc; omega
  | @process who fs phase k fs' p _ h ih =>
    by_cases hik : i = k
    · subst hik
      rw [Function.update_self] at hc
      subst hc
      generalize hq : phase i = q at h
      cases h with
      | isThere counter _ hne _ => have := ih counter hq; omega
    · rw [Function.update_of_ne hik] at hc
      exact ih c hc
  | environment _ _ ih => exact ih c hc

/-- **C54**: no process makes more than 20 attempts (the 21st step is the exception), whatever the others do. -/
theorem C54_bounded {other : FileSystem Name → FileSystem Name → Prop}
    {fs₀ fs : FileSystem Name} {who : List (Option Proc)} {phase : Proc → Phase Name}
    (h : Run DirectoryStep other fs₀ who fs phase) (i : Proc) : who.count (some i) ≤ 21 := by
  have main : who.count (some i) + (phase i).rounds (directoryTries + 1) ≤ directoryTries + 1 := by
    induction h with
    | start => simp [Phase.rounds]
    | @process who fs phase k fs' p hrun h ih =>
      by_cases hik : i = k
      · subst hik
        rw [Function.update_self, List.count_cons_self]
        have hb := run_bound hrun i
        generalize phase i = q at h ih hb
        cases h <;> simp only [Phase.rounds] at ih ⊢ <;>
          first
            | (have := hb _ rfl; omega)
      · rw [Function.update_of_ne hik, List.count_cons_of_ne (fun e => hik (Option.some.inj e).symm)]
        exact ih
    | environment _ _ ih =>
      rw [List.count_cons_of_ne (by simp)]
      exact ih
  simp only [directoryTries] at main
  omega

/-- **C55**: creating an output file never changes or truncates anything that exists, however many processes create
output files at the same time, in whatever interleaving. -/
theorem C55_nothing_overwritten {fs₀ fs : FileSystem Name} {who : List (Option Proc)} {phase : Proc → Phase Name}
    (h : Run FileStep (fun a b => a = b) fs₀ who fs phase) : ∀ name e, fs₀ name = some e → fs name = some e :=
  run_kept file_creates h

/-- **C55**: the files are new, and each process gets its own file, also if other programs change and add files at the
same time. -/
theorem C55_distinct {fs₀ fs : FileSystem Name} {who : List (Option Proc)} {phase : Proc → Phase Name}
    (h : Run FileStep OnlyAdds fs₀ who fs phase) :
    (∀ i j f f', i ≠ j → phase i = .got f → phase j = .got f' → f ≠ f') ∧
      ∀ i f, phase i = .got f → fs₀ f = none ∧ (fs f).isSome := by
  obtain ⟨-, hgot, huniq⟩ := run_unique file_creates h
  refine ⟨fun i j d d' hij hi hj hd => ?_, hgot⟩
  subst hd
  exact hij (huniq i j d hi hj)

/-- **C55**: no process makes more than 10 attempts, and it fails — by throwing — exactly after the tenth. -/
theorem C55_gives_up {other : FileSystem Name → FileSystem Name → Prop}
    {fs₀ fs : FileSystem Name} {who : List (Option Proc)} {phase : Proc → Phase Name}
    (h : Run FileStep other fs₀ who fs phase) (i : Proc) :
    who.count (some i) ≤ 10 ∧ (phase i = .thrown → who.count (some i) = 10) := by
  have main : (∀ c, phase i = .trying c → who.count (some i) = c ∧ c < 10) ∧
      (∀ f, phase i = .got f → who.count (some i) ≤ 10) ∧ (phase i = .thrown → who.count (some i) = 10) := by
    induction h with
    | start =>
      refine ⟨fun c hc => ?_, by simp, by simp⟩
      injection hc with hc
      subst hc
      simp
    | @process who fs phase k fs' p hrun h ih =>
      by_cases hik : i = k
      · subst hik
        rw [Function.update_self, List.count_cons_self]
        generalize phase i = q at h ih
        cases h with
        | created counter name h =>
          have := ih.1 _ rfl
          exact ⟨by simp, fun _ _ => by omega, by simp⟩
        | again counter h =>
          have := ih.1 _ rfl
          refine ⟨fun c hc => ?_, by simp, by simp⟩
          injection hc with hc
          unfold fileTries at h
          omega
        | giveUp counter h =>
          have := ih.1 _ rfl
          unfold fileTries at h
          exact ⟨by simp, by simp, fun _ => by omega⟩
      · rw [Function.update_of_ne hik, List.count_cons_of_ne (fun e => hik (Option.some.inj e).symm)]
        exact ih
    | environment _ _ ih =>
      rw [List.count_cons_of_ne (by simp)]
      exact ih
  refine ⟨?_, main.2.2⟩
  cases hp : phase i with
  | trying c => have := main.1 c hp; omega
  | got f => exact main.2.1 f hp
  | thrown => exact (main.2.2 hp).symm ▸ Nat.le_refl _

/-! ## The files of an output directory -/

/-- The loop of `prepare_output_directory` — `Input_output.cpp` 159-167. (That the problem directory is copied before is
not modelled.) The paths are those in the output directory. -/
def createFiles (fs : FileSystem Name) : List Name → Res (FileSystem Name)
  | [] => Res.ok fs
  | name :: names =>
    match fopenExclusive fs name with
    | none => Res.throws
    | some fs' => createFiles fs' names

/-- **C55**: this loop never overwrites anything, either: it succeeds exactly if the names are new and different, and
then they are empty files, and everything else is as before. -/
theorem C55_prepare {fs fs' : FileSystem Name} {names : List Name} :
    createFiles fs names = Res.ok fs' ↔ (∀ x ∈ names, fs x = none) ∧ names.Nodup ∧
      fs' = fun x => if x ∈ names then some (.file []) else fs x := by
  induction names generalizing fs with
  | nil =>
    simp only [createFiles, Res.ok.injEq, List.not_mem_nil, if_false, List.nodup_nil, true_and]
    constructor
    · rintro rfl; exact ⟨by simp, rfl⟩
    · rintro ⟨-, h⟩; exact h.symm
  | cons name names ih =>
    cases h : fs name with
    | some e =>
      simp only [createFiles, fopenExclusive, h]
      constructor
      · intro h'; cases h'
      · rintro ⟨h', -⟩
        have := h' name (by simp)
        rw [h] at this
        cases this
    | none =>
      have : fopenExclusive fs name = some (Function.update fs name (some (.file []))) := by
        simp [fopenExclusive, h]
      simp only [createFiles, this, ih, List.nodup_cons, List.mem_cons, forall_eq_or_imp, h, true_and]
      constructor
      · rintro ⟨h1, h2, rfl⟩
        have hmem : name ∉ names := fun hm => by simpa using h1 name hm
        refine ⟨fun x hx => ?_, ⟨hmem, h2⟩, ?_⟩
        · have hxn : x ≠ name := fun e => hmem (e ▸ hx)
          rw [← h1 x hx, Function.update_of_ne hxn]
        · funext x
          by_cases hxn : x = name
          · subst hxn; simp
          · simp [hxn]
      · rintro ⟨h1, ⟨hmem, h2⟩, rfl⟩
        refine ⟨fun x hx => ?_, h2, ?_⟩
        · have hxn : x ≠ name := fun e => hmem (e ▸ hx)
          rw [Function.update_of_ne hxn, h1 x hx]
        · funext x
          by_cases hxn : x = name
          · subst hxn; simp
          · simp [hxn]

end

/-! ## Examples -/

/-- Two processes that generate the same name: the second one has to try again. -/
example : ∃ fs : FileSystem ℕ, Run (Proc := Bool) DirectoryStep OnlyAdds (fun _ => none)
    [some true, some true, some false] fs (Function.update (Function.update (Function.update (fun _ => .trying 0) false
      (.got 7)) true (.trying 1)) true (.got 8)) :=
  ⟨_, Run.process true (Run.process true (Run.process false Run.start
    (DirectoryStep.created _ _ 0 7 (by decide) rfl)) (DirectoryStep.isThere _ 0 7 (by decide) rfl))
    (DirectoryStep.created _ _ 1 8 (by decide) rfl)⟩

/-- The same for files; another program writes into the first file at the same time. -/
example : ∃ fs : FileSystem ℕ, Run (Proc := Bool) FileStep OnlyAdds (fun _ => none)
    [some true, some true, none, some false] fs (Function.update (Function.update (Function.update (fun _ => .trying 0)
      false (.got 7)) true (.trying 1)) true (.got 8)) :=
  ⟨_, Run.process true (Run.process true (Run.environment
      (fs' := Function.update (fun _ => none) 7 (some (.file "x".toList))) (Run.process false Run.start
    (FileStep.created _ _ 0 7 rfl)) (by
      intro x hx
      by_cases h : x = 7
      · subst h; rfl
      · rw [Function.update_of_ne h] at hx; cases hx)) (FileStep.again _ 0 (by decide)))
    (FileStep.created _ _ 1 8 rfl)⟩

example : createFiles (fun n : ℕ => if n = 3 then some .directory else none) [1, 2]
    = Res.ok fun n => if n ∈ [1, 2] then some (.file []) else if n = 3 then some .directory else none :=
  C55_prepare.mpr ⟨by decide, by decide, rfl⟩

end Verif.Files.Unique
