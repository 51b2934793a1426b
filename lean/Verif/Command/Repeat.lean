import Verif.Command.Exit

/-!
# Property C122: a run can be repeated from its output directory
-/

set_option autoImplicit false

namespace Verif.Command

open Verif.Files.Unique (Entry FileSystem mkdir fopenExclusive directoryTries mkdir_eq fopen_eq)

/-- Going from a directory to one of its entries, or up. Symbolic links are not modelled. -/
def enter (p : Path) (name : String) : Path := if name = ".." then p.dropLast else if name = "." ∨ name = "" then p else p ++ [name]

/-- The parts of a text between slashes. -/
def splitSlash : List Char → List (List Char)
  | [] => [[]]
  | c :: cs => if c = '/' then [] :: splitSlash cs else match splitSlash cs with
    | [] => [[c]]
    | w :: ws => (c :: w) :: ws

def parts (reference : String) : List String := (splitSlash reference.toList).map String.ofList

/-- The file a name in a problem stands for: absolute, or relative to the directory `problem` — `replace_entry_with_json_from_file`, `Aux_json.cpp` 39-56,
and `commands.cpp` 54, 76, 186-194. -/
def resolve (base : Path) (reference : String) : Path :=
  match parts reference with
  | "" :: names => names.foldl enter []
  | names => names.foldl enter (base ++ ["problem"])

/-- A relative name that does not go up. -/
def Inside (reference : String) : Prop := (parts reference).head? ≠ some "" ∧ ".." ∉ parts reference

/-- An absolute name. -/
def Absolute (reference : String) : Prop := (parts reference).head? = some ""

theorem foldl_enter (names : List String) (h : ".." ∉ names) : ∃ q, ∀ p, names.foldl enter p = p ++ q := by
  induction names with
  | nil => exact ⟨[], fun p => by simp⟩
  | cons n names ih =>
    obtain ⟨q, hq⟩ := ih fun h' => h (List.mem_cons_of_mem _ h')
    have hn : n ≠ ".." := fun e => h (e ▸ List.mem_cons_self)
    by_cases h' : n = "." ∨ n = ""
    · refine ⟨q, fun p => ?_⟩
      rw [List.foldl_cons, hq, enter, if_neg hn, if_pos h']
    · refine ⟨n :: q, fun p => ?_⟩
      rw [List.foldl_cons, hq, enter, if_neg hn, if_neg h', List.append_assoc, List.singleton_append]

theorem resolve_inside {r : String} (h : Inside r) : ∃ q, ∀ base, resolve base r = inProblem base q := by
  obtain ⟨h1, h2⟩ := h
  obtain ⟨q, hq⟩ := foldl_enter _ h2
  refine ⟨q, fun base => ?_⟩
  unfold resolve
  split
  · rename_i names he
    rw [he] at h1
    exact absurd rfl h1
  · rw [hq]
    simp [inProblem]

theorem resolve_absolute {r : String} (h : Absolute r) (base base' : Path) : resolve base r = resolve base' r := by
  unfold Absolute at h
  unfold resolve
  split
  · rfl
  · rename_i hn
    cases he : parts r with
    | nil => rw [he] at h; cases h
    | cons a l =>
      rw [he] at h
      injection h with h
      exact absurd (h ▸ he) (hn l)

theorem Prog.eval_congr {α : Type} {load load' : String → Option Text} (p : Prog α) (h : ∀ r ∈ p.references load, load' r = load r) :
    p.eval load' = p.eval load ∧ p.references load' = p.references load := by
  induction p with
  | done => exact ⟨rfl, rfl⟩
  | read r k ih =>
    have hr : load' r = load r := h r List.mem_cons_self
    have := ih (load r) fun x hx => h x (List.mem_cons_of_mem _ hx)
    unfold Prog.eval Prog.references
    rw [hr]
    exact ⟨this.1, by rw [this.2]⟩

/-- What is known of the copy of the problem at each stage of a run. -/
def Copying (prog : Prog Outputs) (base : Path) (fs₀ fs : Disk) : Stage → Prop
  | .start => True
  | .naming _ => True
  | .computing d rest => (∃ before, ∀ reads r, Prog.Yields rest reads r → Prog.Yields prog (before ++ reads) r) ∧
      ∀ q, fs (inProblem d q) = none
  | .copying d done out => (∃ reads, Prog.Yields prog reads (.ok out)) ∧ (∀ q ∈ done, fs (inProblem d q) = fs₀ (inProblem base q)) ∧
      ∀ q, fs₀ (inProblem base q) = none → fs (inProblem d q) = none
  | .creating d todo out => (∃ reads, Prog.Yields prog reads (.ok out)) ∧ "problem" ∉ todo ∧ ∀ q, fs (inProblem d q) = fs₀ (inProblem base q)
  | .writing d todo => "problem" ∉ todo.map Prod.fst ∧ ∀ q, fs (inProblem d q) = fs₀ (inProblem base q)
  | .exited (some d) code => code = 0 → ∀ q, fs (inProblem d q) = fs₀ (inProblem base q)
  | .exited none code => code ≠ 0
  | .undefined _ => True

section
variable {silent : Bool} {place : String → Path} {base : Path} {prog : Prog Outputs} {fs₀ fs fs' : Disk} {s s' : Stage}

theorem Copying.frame (h : Copying prog base fs₀ fs s) (hfs : ∀ d, s.dir = some d → ∀ p, d <+: p → fs' p = fs p) :
    Copying prog base fs₀ fs' s := by
  have key : ∀ d, s.dir = some d → ∀ q, fs' (inProblem d q) = fs (inProblem d q) := fun d hd q => hfs d hd _ (prefix_inProblem q)
  cases s with
  | start => exact trivial
  | naming => exact trivial
  | computing d rest => exact ⟨h.1, fun q => (key d rfl q).trans (h.2 q)⟩
  | copying d done out => exact ⟨h.1, fun q hq => (key d rfl q).trans (h.2.1 q hq), fun q hq => (key d rfl q).trans (h.2.2 q hq)⟩
  | creating d todo out => exact ⟨h.1, h.2.1, fun q => (key d rfl q).trans (h.2.2 q)⟩
  | writing d todo => exact ⟨h.1, fun q => (key d rfl q).trans (h.2 q)⟩
  | exited d code =>
    cases d with
    | none => exact h
    | some d => exact fun hc q => (key d rfl q).trans (h hc q)
  | undefined d => exact trivial

theorem Copying.step (h : Copying prog base fs₀ fs s) (hprob : ∀ q, fs (inProblem base q) = fs₀ (inProblem base q))
    (hnames : ∀ reads out, Prog.Yields prog reads (.ok out) → "problem" ∉ out.create ∧ "problem" ∉ out.write.map Prod.fst)
    (hs : Step silent place base prog fs s fs' s') : Copying prog base fs₀ fs' s' := by
  cases hs with
  | makeOuter => exact trivial
  | outerThere => exact trivial
  | outerFails => exact Nat.one_ne_zero
  | named _ _ n _ hm hq =>
    obtain ⟨-, rfl⟩ := mkdir_eq hm
    refine ⟨⟨[], fun reads r hr => hr⟩, fun q => ?_⟩
    rw [Function.update_of_ne (inProblem_ne q)]
    exact hq ("problem" :: q) (by simp)
  | nameTaken => exact trivial
  | namingFails => exact Nat.one_ne_zero
  | reads d r next =>
    obtain ⟨⟨before, h2⟩, h3⟩ := h
    refine ⟨⟨before ++ [(r, textAt fs (place r))], fun reads res hr => ?_⟩, h3⟩
    rw [List.append_assoc]
    exact h2 _ _ (.read r next _ reads res hr)
  | computed d out =>
    obtain ⟨⟨before, h2⟩, h3⟩ := h
    have := h2 [] _ (.done _)
    exact ⟨⟨_, this⟩, by simp, fun q _ => h3 q⟩
  | thrown d => exact fun hc => absurd hc Nat.one_ne_zero
  | goesWrong d => exact trivial
  | copyPart d done out q text part hq ht =>
    obtain ⟨h1, h2, h3⟩ := h
    refine ⟨h1, fun q' hq' => ?_, fun q' hn => ?_⟩
    · rw [Function.update_of_ne fun e => hq (by rw [← inProblem_inj e]; exact hq')]
      exact h2 q' hq'
    · rw [Function.update_of_ne]
      · exact h3 q' hn
      · intro e
        rw [inProblem_inj e, ← hprob, ht] at hn
        cases hn
  | copyFile d done out q text hq ht =>
    obtain ⟨h1, h2, h3⟩ := h
    refine ⟨h1, fun q' hq' => ?_, fun q' hn => ?_⟩
    · rcases List.mem_cons.mp hq' with rfl | hq'
      · rw [Function.update_self, ← hprob, ht]
      · rw [Function.update_of_ne fun e => hq (by rw [← inProblem_inj e]; exact hq')]
        exact h2 q' hq'
    · rw [Function.update_of_ne]
      · exact h3 q' hn
      · intro e
        rw [inProblem_inj e, ← hprob, ht] at hn
        cases hn
  | copyDirectory d done out q hq ht =>
    obtain ⟨h1, h2, h3⟩ := h
    refine ⟨h1, fun q' hq' => ?_, fun q' hn => ?_⟩
    · rcases List.mem_cons.mp hq' with rfl | hq'
      · rw [Function.update_self, ← hprob, ht]
      · rw [Function.update_of_ne fun e => hq (by rw [← inProblem_inj e]; exact hq')]
        exact h2 q' hq'
    · rw [Function.update_of_ne]
      · exact h3 q' hn
      · intro e
        rw [inProblem_inj e, ← hprob, ht] at hn
        cases hn
  | copied d done out _ hall =>
    obtain ⟨⟨reads, h1⟩, h2, h3⟩ := h
    refine ⟨⟨reads, h1⟩, (hnames _ _ h1).1, fun q => ?_⟩
    by_cases hn : fs₀ (inProblem base q) = none
    · rw [hn]
      exact h3 q hn
    · exact h2 q (hall q (hprob q ▸ hn))
  | copyFails d done out => exact fun hc => absurd hc Nat.one_ne_zero
  | created _ d name todo out hf =>
    obtain ⟨-, rfl⟩ := fopen_eq hf
    obtain ⟨h1, h2, h3⟩ := h
    refine ⟨h1, fun h' => h2 (List.mem_cons_of_mem _ h'), fun q => ?_⟩
    rw [Function.update_of_ne]
    · exact h3 q
    · exact fun e => file_ne_problem (fun e' => h2 (by simp [e'])) e.symm
  | creationFails d name todo out => exact fun hc => absurd hc Nat.one_ne_zero
  | ready d out =>
    obtain ⟨⟨reads, h1⟩, -, h3⟩ := h
    exact ⟨(hnames _ _ h1).2, h3⟩
  | writePart d name text part todo =>
    obtain ⟨h2, h3⟩ := h
    refine ⟨h2, fun q => ?_⟩
    rw [Function.update_of_ne]
    · exact h3 q
    · exact fun e => file_ne_problem (fun e' => h2 (by simp [e'])) e.symm
  | written d name text todo =>
    obtain ⟨h2, h3⟩ := h
    refine ⟨fun h' => h2 (List.mem_cons_of_mem _ h'), fun q => ?_⟩
    rw [Function.update_of_ne]
    · exact h3 q
    · exact fun e => file_ne_problem (fun e' => h2 (by simp [e'])) e.symm
  | writeFails d name text todo =>
    obtain ⟨h2, h3⟩ := h
    exact ⟨fun h' => h2 (List.mem_cons_of_mem _ h'), h3⟩
  | finished d => exact fun _ => h.2

end

section
variable {Proc : Type} [DecidableEq Proc] {silent : Bool} {place : String → Path} {base : Path} {prog : Proc → Prog Outputs}
  {other : Disk → Disk → Prop} {fs₀ fs : Disk} {stage : Proc → Stage}

/-- The results of a run are called otherwise than the copy of the problem. -/
def NamesApart (prog : Prog Outputs) : Prop :=
  ∀ reads out, Prog.Yields prog reads (.ok out) → "problem" ∉ out.create ∧ "problem" ∉ out.write.map Prod.fst ∧ (out.write.map Prod.fst).Nodup

/-- C122, the copy: when a run has returned 0, the output directory has an exact copy of the problem (if no other program changes it during the run). -/
theorem C122_copy (h : Reach silent place base prog other fs₀ fs stage) (hnames : ∀ i, NamesApart (prog i))
    (hother : ∀ fs fs', other fs fs' → ∀ q, fs' (base ++ "problem" :: q) = fs (base ++ "problem" :: q)) {i : Proc} {d : Path}
    (hexit : stage i = .exited (some d) 0) (q : Path) : fs (d ++ "problem" :: q) = fs₀ (base ++ "problem" :: q) := by
  have key : ∀ i, Copying (prog i) base fs₀ fs (stage i) := by
    clear hexit
    induction h with
    | start => exact fun i => trivial
    | @run fs stage i fs' s hr hs ih =>
      intro j
      by_cases hji : j = i
      · subst hji
        rw [Function.update_self]
        refine (ih j).step (fun q => ?_) (fun reads out hy => ⟨(hnames j reads out hy).1, (hnames j reads out hy).2.1⟩) hs
        exact reach_quiet problem_outside (fun fs fs' ho => hother fs fs' ho q) hr
      · rw [Function.update_of_ne hji]
        exact (ih j).frame fun d hd => ((C120_own_directory hr hs).2.2 j hji d hd).2
    | other hr _ hl ih => exact fun i => (ih i).frame fun d hd => hl i d hd
  have := key i
  rw [hexit] at this
  exact this rfl q

end

/-- C122: a run on the output directory of a run that returned 0 computes the same results. -/
def C122Statement : Prop :=
  ∀ (base : Path) (prog : Prog Outputs) (fs₀ fs : Disk) (stage : Unit → Stage) (d : Path), NamesApart prog →
    Reach false (resolve base) base (fun _ => prog) (fun _ _ => False) fs₀ fs stage → stage () = .exited (some d) 0 →
    prog.eval (texts (resolve d) fs) = prog.eval (texts (resolve base) fs₀)

section
variable {Proc Proc' : Type} [DecidableEq Proc] [DecidableEq Proc'] {silent : Bool} {base : Path} {prog : Proc → Prog Outputs}
  {other other' : Disk → Disk → Prop} {fs₀ fs fs' : Disk} {stage : Proc → Stage} {stage' : Proc' → Stage}

/-- The files a problem consists of are in its directory, or are named by absolute paths outside of the output. -/
def SelfContained (base : Path) (prog : Prog Outputs) (fs : Disk) : Prop :=
  ∀ r ∈ prog.references (texts (resolve base) fs), Inside r ∨ (Absolute r ∧ ¬ base ++ ["output"] <+: resolve base r)

omit [DecidableEq Proc] in
theorem self_contained_not_output {i : Proc} (hself : SelfContained base (prog i) fs₀) (r : String)
    (hr : r ∈ (prog i).references (texts (resolve base) fs₀)) : ¬ base ++ ["output"] <+: resolve base r := by
  rcases hself r hr with hi | ⟨-, hn⟩
  · obtain ⟨q, hq⟩ := resolve_inside hi
    rw [hq]
    exact problem_outside
  · exact hn

/-- C122, for problems that name files in their own directory only, or by absolute paths, and that no other program changes during the run:
a run on the output directory of a run that returned 0 computes the same results from the same files. -/
theorem C122_same_partial (h : Reach silent (resolve base) base prog other fs₀ fs stage) (hnames : ∀ i, NamesApart (prog i))
    {i : Proc} {d : Path} (hself : SelfContained base (prog i) fs₀)
    (hother : ∀ fs fs', other fs fs' → (∀ q, fs' (base ++ "problem" :: q) = fs (base ++ "problem" :: q)) ∧
      ∀ r, Absolute r → fs' (resolve base r) = fs (resolve base r))
    (hexit : stage i = .exited (some d) 0) :
    (prog i).eval (texts (resolve d) fs) = (prog i).eval (texts (resolve base) fs₀) ∧
    (prog i).references (texts (resolve d) fs) = (prog i).references (texts (resolve base) fs₀) := by
  refine Prog.eval_congr _ fun r hr => ?_
  unfold texts textAt
  rcases hself r hr with hi | ⟨ha, hn⟩
  · obtain ⟨q, hq⟩ := resolve_inside hi
    rw [hq, hq]
    unfold inProblem
    rw [C122_copy h hnames (fun fs fs' ho => (hother fs fs' ho).1) hexit q]
  · rw [resolve_absolute ha d base, reach_quiet hn (fun fs fs' ho => (hother fs fs' ho).2 r ha) h]

/-- C122: two runs, one after the other. The second is on the output directory of the first. If both return 0 (and all is written), the second writes the same
results as the first. -/
theorem C122_repeat_partial (h : Reach false (resolve base) base prog other fs₀ fs stage) (hnames : ∀ i, NamesApart (prog i))
    {i : Proc} {d d' : Path} (hself : SelfContained base (prog i) fs₀)
    (hother : ∀ fs fs', other fs fs' → (∀ q, fs' (base ++ "problem" :: q) = fs (base ++ "problem" :: q)) ∧
      ∀ r, Absolute r → fs' (resolve base r) = fs (resolve base r))
    (hexit : stage i = .exited (some d) 0) {i' : Proc'}
    (h' : Reach false (resolve d) d (fun _ : Proc' => prog i) other' fs fs' stage')
    (hself' : SelfContained d (prog i) fs)
    (hother' : ∀ fs fs', other' fs fs' → (∀ q, fs' (d ++ "problem" :: q) = fs (d ++ "problem" :: q)) ∧
      ∀ r, Absolute r → fs' (resolve d r) = fs (resolve d r))
    (hexit' : stage' i' = .exited (some d') 0) :
    ∃ out, (prog i).eval (texts (resolve base) fs₀) = .ok out ∧ Written fs d out ∧ Written fs' d' out := by
  have ho : ∀ r ∈ (prog i).references (texts (resolve base) fs₀), ∀ fs fs', other fs fs' → fs' (resolve base r) = fs (resolve base r) := by
    intro r hr fs fs' ho
    rcases hself r hr with hi | ⟨ha, -⟩
    · obtain ⟨q, hq⟩ := resolve_inside hi
      rw [hq]
      exact (hother fs fs' ho).1 q
    · exact (hother fs fs' ho).2 r ha
  have ho' : ∀ r ∈ (prog i).references (texts (resolve d) fs), ∀ fs fs', other' fs fs' → fs' (resolve d r) = fs (resolve d r) := by
    intro r hr fs fs' ho
    rcases hself' r hr with hi | ⟨ha, -⟩
    · obtain ⟨q, hq⟩ := resolve_inside hi
      rw [hq]
      exact (hother' fs fs' ho).1 q
    · exact (hother' fs fs' ho).2 r ha
  obtain ⟨out, h1, h2⟩ := (C121_result_partial h (self_contained_not_output hself) ho (fun reads out hy => (hnames i reads out hy).2.2) hexit).1 rfl
  obtain ⟨out', h1', h2'⟩ := (C121_result_partial h' (self_contained_not_output (prog := fun _ : Proc' => prog i) (i := i') hself') ho'
    (fun reads out hy => (hnames i reads out hy).2.2) hexit').1 rfl
  rw [(C122_same_partial h hnames hself hother hexit).1, h1] at h1'
  injection h1' with e
  subst e
  exact ⟨out, h1, h2, h2'⟩

end

/-! ## Cases -/

theorem split_up : parts "../x" = ["..", "x"] := by decide +kernel
theorem split_in : parts "in" = ["in"] := by decide +kernel

theorem copyText_apart (r : String) : NamesApart (copyText r) := by
  intro reads out hy
  obtain ⟨h1, h2⟩ := copyText_names r reads out hy
  refine ⟨?_, ?_, ?_⟩
  · rw [h1]; simp
  · rw [h2]; decide
  · rw [h2]; simp

/-- C122 is false: a problem may name a file outside of its directory, relative to it; that file is not copied. -/
theorem C122_false : ¬ C122Statement := by
  intro h
  have hx : ∀ base, resolve base "../x" = base ++ ["x"] := by
    intro base
    unfold resolve
    rw [split_up]
    simp [enter]
  obtain ⟨fs, -, hfs, -, stage, hr, he⟩ := copyText_run false (resolve []) "../x" (Or.inr (hx [])) (fun _ _ => False) ['x'] (Or.inl rfl)
    (fun fs => Function.update fs ["output", "1", "states.json"] (some (.file ['x']))) fun fs => .written fs _ _ _ _
  have := h [] (copyText "../x") oneProblem _ stage _ (copyText_apart _) hr he
  unfold copyText Prog.eval texts at this
  rw [hx, hx] at this
  have h1 : textAt (Function.update fs ["output", "1", "states.json"] (some (.file ['x']))) (["output", "1"] ++ ["x"]) = none := by
    unfold textAt
    rw [Function.update_of_ne (by decide)]
    show (match fs ["output", "1", "x"] with | some (.file t) => some t | _ => none) = none
    rw [hfs]
  have h2 : textAt oneProblem ([] ++ ["x"]) = some ['x'] := rfl
  rw [h1, h2] at this
  cases this

/-- C122 needs the problem to be left alone during the run: it is copied after the computation, so the copy need not be what the results were computed from. -/
theorem C122_changed_false : ¬ ∀ (base : Path) (prog : Prog Outputs) (other : Disk → Disk → Prop) (fs₀ fs : Disk) (stage : Unit → Stage) (d : Path)
    (out : Outputs), NamesApart prog → SelfContained base prog fs₀ → Reach false (resolve base) base (fun _ => prog) other fs₀ fs stage →
    stage () = .exited (some d) 0 → Written fs d out → prog.eval (texts (resolve d) fs) = .ok out := by
  intro h
  have hx : ∀ base, resolve base "in" = base ++ ["problem", "in"] := by
    intro base
    unfold resolve
    rw [split_in]
    simp [enter]
  obtain ⟨fs, -, -, hfs, stage, hr, he⟩ := copyText_run false (resolve []) "in" (Or.inl (hx []))
    (fun fs fs' => fs' = Function.update fs ["problem", "in"] (some (.file ['y']))) ['y'] (Or.inr fun _ => rfl)
    (fun fs => Function.update fs ["output", "1", "states.json"] (some (.file ['x']))) fun fs => .written fs _ _ _ _
  have := h [] (copyText "in") _ oneProblem _ stage _ ⟨["states.json"], [("states.json", ['x'])]⟩ (copyText_apart _) (by
    intro r hr
    have : r = "in" := by simpa [Prog.references, copyText] using hr
    subst this
    exact Or.inl ⟨by rw [split_in]; decide, by rw [split_in]; decide⟩) hr he (by
    intro x hx
    rw [List.mem_singleton.mp hx]
    exact Function.update_self ..)
  unfold copyText Prog.eval texts at this
  rw [hx] at this
  have h1 : textAt (Function.update fs ["output", "1", "states.json"] (some (.file ['x']))) (["output", "1"] ++ ["problem", "in"]) = some ['y'] := by
    unfold textAt
    rw [Function.update_of_ne (by decide)]
    show (match fs ["output", "1", "problem", "in"] with | some (.file t) => some t | _ => none) = _
    rw [hfs]
  rw [h1] at this
  simp [Prog.eval] at this

/-- A run whose copy can be used, and what a run on it computes. -/
example : ∃ fs stage, Reach false (resolve []) [] (fun _ : Unit => copyText "in") (fun _ _ => False) oneProblem fs stage ∧
    stage () = .exited (some ["output", "1"]) 0 ∧ fs ["output", "1", "problem", "in"] = some (.file ['x']) ∧
    (copyText "in").eval (texts (resolve ["output", "1"]) fs) = .ok ⟨["states.json"], [("states.json", ['x'])]⟩ := by
  have hx : resolve [] "in" = ["problem", "in"] := by
    unfold resolve
    rw [split_in]
    simp [enter]
  obtain ⟨fs, -, -, -, stage, hr, he⟩ := copyText_run false (resolve []) "in" (Or.inl hx)
    (fun _ _ => False) ['x'] (Or.inl rfl)
    (fun fs => Function.update fs ["output", "1", "states.json"] (some (.file ['x']))) fun fs => .written fs _ _ _ _
  refine ⟨_, stage, hr, he, C122_copy hr (fun _ => copyText_apart _) (by simp) he ["in"], ?_⟩
  rw [(C122_same_partial hr (i := ()) (fun _ => copyText_apart _) (by
    intro r hr
    have : r = "in" := by simpa [Prog.references, copyText] using hr
    subst this
    exact Or.inl ⟨by rw [split_in]; decide, by rw [split_in]; decide⟩) (by simp) he).1]
  unfold copyText Prog.eval texts
  rw [hx]
  rfl

end Verif.Command
