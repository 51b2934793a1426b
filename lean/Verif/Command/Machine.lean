import Verif.Files.Unique

/-!
# The command `grazer run` on a file system

`grazer::run` — `src/Grazer/commands.cpp` 44-361 — and `main` — `src/Grazer/grazer.cpp` 31-94: the output directory, the files that are
read and written and the exit code. What is computed from the texts of the files is a parameter, `Prog`; it is the subject of
`Verif.Command.Program`.

Several runs on the same directory may be under way, in any interleaving, while other programs change files, too. A run may stop at any point. Each operation of the
operating system may fail at any time, which makes it throw an exception (`std::filesystem`, `std::fopen`) or is ignored
(`std::ofstream`). Running out of memory is not modelled, nor the printing of a json object that is not valid UTF-8, which cannot be read
in the first place.
-/

set_option autoImplicit false

namespace Verif.Command

open Verif.Files.Unique (Entry FileSystem mkdir fopenExclusive directoryTries)

/-- The names on the way from the root of the file system to a file or directory. -/
abbrev Path := List String

abbrev Text := List Char

abbrev Disk := FileSystem Path

/-- The text of a file. -/
def textAt (fs : Disk) (p : Path) : Option Text :=
  match fs p with
  | some (.file t) => some t
  | _ => none

/-- A computation that reads files one after the other. A file is named relative to the directory `problem` (or by an absolute path). What comes next may depend
on the text; `none` stands for a file that is missing or a directory. -/
inductive Prog (α : Type)
  | done (r : Res α)
  | read (reference : String) (next : Option Text → Prog α)

namespace Prog
variable {α β : Type}

/-- One computation after the other. -/
def bind : Prog α → (α → Prog β) → Prog β
  | .done (.ok a), f => f a
  | .done .throws, _ => .done .throws
  | .done .ub, _ => .done .ub
  | .read r k, f => .read r fun t => (k t).bind f

instance : Monad Prog where
  pure a := .done (.ok a)
  bind := bind

/-- The result if the files have certain texts and nobody changes them. -/
def eval (load : String → Option Text) : Prog α → Res α
  | .done r => r
  | .read r k => (k (load r)).eval load

/-- A result that the computation can have, and the texts it read, if files may change in between. -/
inductive Yields : Prog α → List (String × Option Text) → Res α → Prop
  | done (r : Res α) : Yields (.done r) [] r
  | read (reference : String) (next : Option Text → Prog α) (t : Option Text) (reads : List (String × Option Text)) (r : Res α) :
      Yields (next t) reads r → Yields (.read reference next) ((reference, t) :: reads) r

end Prog

/-- What is to be written in the end: the names of the files that are created first (`prepare_output_directory`), and their texts, in the
order in which they are written. -/
structure Outputs where
  create : List String
  write : List (String × Text)

/-- Where a run is. -/
inductive Stage
  | start
  /-- in the loop of `unique_output_directory`, after this many failures -/
  | naming (counter : ℕ)
  /-- reading files and computing -/
  | computing (dir : Path) (rest : Prog Outputs)
  /-- in `std::filesystem::copy`; these (relative to the directory `problem`) have been copied -/
  | copying (dir : Path) (done : List Path) (out : Outputs)
  /-- in the loop of `prepare_output_directory` -/
  | creating (dir : Path) (todo : List String) (out : Outputs)
  | writing (dir : Path) (todo : List (String × Text))
  | exited (dir : Option Path) (code : ℕ)
  /-- undefined behaviour: nothing is said about what comes next -/
  | undefined (dir : Path)

/-- The output directory of the run, as soon as there is one. -/
def Stage.dir : Stage → Option Path
  | .start => none
  | .naming _ => none
  | .computing d _ => some d
  | .copying d _ _ => some d
  | .creating d _ _ => some d
  | .writing d _ => some d
  | .exited d _ => d
  | .undefined d => some d

/-- `directory_path / "output"` — `commands.cpp` 55. -/
def outer (base : Path) : Path := base ++ ["output"]

/-- A directory in it. -/
def own (base : Path) (name : String) : Path := base ++ ["output", name]

/-- What is in the directory `problem` — `commands.cpp` 53. -/
def inProblem (base q : Path) : Path := base ++ "problem" :: q

/-- One step of `grazer run`. `base` is the directory the user gives, `place` says where a file is that is named relative to
`base/problem` (the operating system knows). With `silent`, the operating system may fail to write to a file and the program does not
notice, since it does not look at the state of `std::ofstream`. -/
inductive Step (silent : Bool) (place : String → Path) (base : Path) (prog : Prog Outputs) : Disk → Stage → Disk → Stage → Prop
  /-- `commands.cpp` 55-56 -/
  | makeOuter (fs fs' : Disk) : mkdir fs (outer base) = some fs' → Step silent place base prog fs .start fs' (.naming 0)
  | outerThere (fs : Disk) : fs (outer base) = some .directory → Step silent place base prog fs .start fs (.naming 0)
  /-- an exception, also `commands.cpp` 57-62 -/
  | outerFails (fs : Disk) : Step silent place base prog fs .start fs (.exited none 1)
  /-- `Input_output.cpp` 135-143; the names are arbitrary; a new directory is empty -/
  | named (fs fs' : Disk) (counter : ℕ) (name : String) : counter ≠ directoryTries → mkdir fs (own base name) = some fs' →
      (∀ q, q ≠ [] → fs (own base name ++ q) = none) →
      Step silent place base prog fs (.naming counter) fs' (.computing (own base name) prog)
  | nameTaken (fs : Disk) (counter : ℕ) (name : String) : counter ≠ directoryTries → fs (own base name) = some .directory →
      Step silent place base prog fs (.naming counter) fs (.naming (counter + 1))
  | namingFails (fs : Disk) (counter : ℕ) : Step silent place base prog fs (.naming counter) fs (.exited none 1)
  /-- `get_json_from_file_path` — `Aux_json.cpp` 67-84, up to parsing -/
  | reads (fs : Disk) (dir : Path) (reference : String) (next : Option Text → Prog Outputs) :
      Step silent place base prog fs (.computing dir (.read reference next)) fs (.computing dir (next (textAt fs (place reference))))
  | computed (fs : Disk) (dir : Path) (out : Outputs) :
      Step silent place base prog fs (.computing dir (.done (.ok out))) fs (.copying dir [] out)
  /-- `grazer.cpp` 86-93 -/
  | thrown (fs : Disk) (dir : Path) : Step silent place base prog fs (.computing dir (.done .throws)) fs (.exited (some dir) 1)
  | goesWrong (fs : Disk) (dir : Path) : Step silent place base prog fs (.computing dir (.done .ub)) fs (.undefined dir)
  /-- `std::filesystem::copy` (`Input_output.cpp` 155-157) has copied a part of a file -/
  | copyPart (fs : Disk) (dir : Path) (done : List Path) (out : Outputs) (q : Path) (text part : Text) : q ∉ done →
      fs (inProblem base q) = some (.file text) → part <+: text → fs (inProblem dir q) ≠ some .directory →
      Step silent place base prog fs (.copying dir done out) (Function.update fs (inProblem dir q) (some (.file part))) (.copying dir done out)
  | copyFile (fs : Disk) (dir : Path) (done : List Path) (out : Outputs) (q : Path) (text : Text) : q ∉ done →
      fs (inProblem base q) = some (.file text) → fs (inProblem dir q) ≠ some .directory →
      Step silent place base prog fs (.copying dir done out) (Function.update fs (inProblem dir q) (some (.file text)))
        (.copying dir (q :: done) out)
  | copyDirectory (fs : Disk) (dir : Path) (done : List Path) (out : Outputs) (q : Path) : q ∉ done →
      fs (inProblem base q) = some .directory → fs (inProblem dir q) = none →
      Step silent place base prog fs (.copying dir done out) (Function.update fs (inProblem dir q) (some .directory))
        (.copying dir (q :: done) out)
  | copied (fs : Disk) (dir : Path) (done : List Path) (out : Outputs) : [] ∈ done → (∀ q, fs (inProblem base q) ≠ none → q ∈ done) →
      Step silent place base prog fs (.copying dir done out) fs (.creating dir out.create out)
  | copyFails (fs : Disk) (dir : Path) (done : List Path) (out : Outputs) :
      Step silent place base prog fs (.copying dir done out) fs (.exited (some dir) 1)
  /-- `Input_output.cpp` 159-167 -/
  | created (fs fs' : Disk) (dir : Path) (name : String) (todo : List String) (out : Outputs) : fopenExclusive fs (dir ++ [name]) = some fs' →
      Step silent place base prog fs (.creating dir (name :: todo) out) fs' (.creating dir todo out)
  | creationFails (fs : Disk) (dir : Path) (name : String) (todo : List String) (out : Outputs) :
      Step silent place base prog fs (.creating dir (name :: todo) out) fs (.exited (some dir) 1)
  | ready (fs : Disk) (dir : Path) (out : Outputs) : Step silent place base prog fs (.creating dir [] out) fs (.writing dir out.write)
  /-- `std::ofstream` (`commands.cpp` 140-141, 293-294, 312-313) has written a part -/
  | writePart (fs : Disk) (dir : Path) (name : String) (text part : Text) (todo : List (String × Text)) : part <+: text →
      Step silent place base prog fs (.writing dir ((name, text) :: todo)) (Function.update fs (dir ++ [name]) (some (.file part)))
        (.writing dir ((name, text) :: todo))
  | written (fs : Disk) (dir : Path) (name : String) (text : Text) (todo : List (String × Text)) :
      Step silent place base prog fs (.writing dir ((name, text) :: todo)) (Function.update fs (dir ++ [name]) (some (.file text)))
        (.writing dir todo)
  /-- the file cannot be opened, or not be written completely, which is not noticed -/
  | writeFails (fs : Disk) (dir : Path) (name : String) (text : Text) (todo : List (String × Text)) : silent = true →
      Step silent place base prog fs (.writing dir ((name, text) :: todo)) fs (.writing dir todo)
  /-- `commands.cpp` 360, `grazer.cpp` 83-84 -/
  | finished (fs : Disk) (dir : Path) : Step silent place base prog fs (.writing dir []) fs (.exited (some dir) 0)

/-- What can happen when several runs on the same directory and other programs are at work. Other programs may do what `other` allows, but they leave the output
directories of these runs alone. -/
inductive Reach {Proc : Type} [DecidableEq Proc] (silent : Bool) (place : String → Path) (base : Path) (prog : Proc → Prog Outputs)
    (other : Disk → Disk → Prop) (fs₀ : Disk) : Disk → (Proc → Stage) → Prop
  | start : Reach silent place base prog other fs₀ fs₀ fun _ => .start
  | run {fs : Disk} {stage : Proc → Stage} (i : Proc) {fs' : Disk} {s : Stage} : Reach silent place base prog other fs₀ fs stage →
      Step silent place base (prog i) fs (stage i) fs' s → Reach silent place base prog other fs₀ fs' (Function.update stage i s)
  | other {fs fs' : Disk} {stage : Proc → Stage} : Reach silent place base prog other fs₀ fs stage → other fs fs' →
      (∀ i d, (stage i).dir = some d → ∀ p, d <+: p → fs' p = fs p) → Reach silent place base prog other fs₀ fs' stage

end Verif.Command
