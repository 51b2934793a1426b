import Verif.Command.Own

/-!
# Property C121: exit code 0 means that the results have been written
-/

set_option autoImplicit false

namespace Verif.Command

open Verif.Files.Unique (Entry FileSystem mkdir fopenExclusive directoryTries mkdir_eq fopen_eq)

namespace Prog
variable {α β : Type}

/-- The files that are read if the files have certain texts. -/
def references (load : String → Option Text) : Prog α → List String
  | .done _ => []
  | .read r k => r :: (k (load r)).references load

theorem yields_eval (load : String → Option Text) (p : Prog α) : ∃ reads, Yields p reads (p.eval load) := by
  induction p with
  | done r => exact ⟨[], .done r⟩
  | read r k ih =>
    obtain ⟨reads, h⟩ := ih (load r)
    exact ⟨_, .read r k (load r) reads _ h⟩

theorem eval_of_yields {load : String → Option Text} {p : Prog α} {reads : List (String × Option Text)} {r : Res α} (h : Yields p reads r)
    (hr : ∀ x ∈ reads, x.1 ∈ p.references load → x.2 = load x.1) : p.eval load = r := by
  induction h with
  | done => rfl
  | read reference next t reads r _ ih =>
    have ht : t = load reference := hr (reference, t) List.mem_cons_self List.mem_cons_self
    subst ht
    exact ih fun x hx h => hr x (List.mem_cons_of_mem _ hx) (List.mem_cons_of_mem _ h)

end Prog

/-- There is nothing of this name, or an empty file. -/
def Blank (fs : Disk) (p : Path) : Prop := fs p = none ∨ fs p = some (.file [])

/-- What is known at each stage of a run. `Ok` says which texts a file may have had when it was read. -/
def Known (silent : Bool) (Ok : String → Option Text → Prop) (prog : Prog Outputs) (fs : Disk) : Stage → Prop
  | .start => True
  | .naming _ => True
  | .computing d rest => (∃ before, (∀ x ∈ before, Ok x.1 x.2) ∧ ∀ reads r, Prog.Yields rest reads r → Prog.Yields prog (before ++ reads) r) ∧
      ∀ name, name ≠ "problem" → fs (d ++ [name]) = none
  | .copying d _ out => (∃ reads, (∀ x ∈ reads, Ok x.1 x.2) ∧ Prog.Yields prog reads (.ok out)) ∧
      ∀ name, name ≠ "problem" → fs (d ++ [name]) = none
  | .creating d _ out => (∃ reads, (∀ x ∈ reads, Ok x.1 x.2) ∧ Prog.Yields prog reads (.ok out)) ∧
      ∀ name, name ≠ "problem" → Blank fs (d ++ [name])
  | .writing d todo => ∃ reads out before, (∀ x ∈ reads, Ok x.1 x.2) ∧ Prog.Yields prog reads (.ok out) ∧ out.write = before ++ todo ∧
      (silent = false → (out.write.map Prod.fst).Nodup → ∀ x ∈ before, fs (d ++ [x.1]) = some (.file x.2))
  | .exited (some d) code => (code = 0 → ∃ reads out, (∀ x ∈ reads, Ok x.1 x.2) ∧ Prog.Yields prog reads (.ok out) ∧
      (silent = false → (out.write.map Prod.fst).Nodup → ∀ x ∈ out.write, fs (d ++ [x.1]) = some (.file x.2))) ∧
      (code ≠ 0 → ∀ name, name ≠ "problem" → Blank fs (d ++ [name]))
  | .exited none code => code ≠ 0
  | .undefined _ => ∃ reads, (∀ x ∈ reads, Ok x.1 x.2) ∧ Prog.Yields prog reads .ub

section
variable {silent : Bool} {place : String → Path} {base : Path} {prog : Prog Outputs} {fs fs' : Disk} {s s' : Stage}
  {Ok : String → Option Text → Prop}

theorem Known.frame (h : Known silent Ok prog fs s) (hfs : ∀ d, s.dir = some d → ∀ p, d <+: p → fs' p = fs p) :
    Known silent Ok prog fs' s := by
  have key : ∀ d, s.dir = some d → ∀ name, fs' (d ++ [name]) = fs (d ++ [name]) := fun d hd name => hfs d hd _ (prefix_file name)
  cases s with
  | start => exact trivial
  | naming => exact trivial
  | computing d rest => exact ⟨h.1, fun name hn => (key d rfl name).trans (h.2 name hn)⟩
  | copying d done out => exact ⟨h.1, fun name hn => (key d rfl name).trans (h.2 name hn)⟩
  | creating d todo out =>
    refine ⟨h.1, fun name hn => ?_⟩
    unfold Blank
    rw [key d rfl name]
    exact h.2 name hn
  | writing d todo =>
    obtain ⟨reads, out, before, h1, h2, h3, h4⟩ := h
    exact ⟨reads, out, before, h1, h2, h3, fun hs hn x hx => (key d rfl _).trans (h4 hs hn x hx)⟩
  | exited d code =>
    cases d with
    | none => exact h
    | some d =>
      refine ⟨fun hc => ?_, fun hc name hn => ?_⟩
      · obtain ⟨reads, out, h1, h2, h3⟩ := h.1 hc
        exact ⟨reads, out, h1, h2, fun hs hn x hx => (key d rfl _).trans (h3 hs hn x hx)⟩
      · unfold Blank
        rw [key d rfl name]
        exact h.2 hc name hn
  | undefined d => exact h

theorem file_ne_problem {d q : Path} {name : String} (hn : name ≠ "problem") : d ++ [name] ≠ inProblem d q := by
  intro h
  unfold inProblem at h
  have := List.append_cancel_left h
  simp only [List.cons.injEq] at this
  exact hn this.1

theorem file_inj {d : Path} {a b : String} (h : d ++ [a] = d ++ [b]) : a = b := by
  have := List.append_cancel_left h
  simpa using this

theorem Known.step (h : Known silent Ok prog fs s) (hok : ∀ r, Ok r (textAt fs (place r))) (hs : Step silent place base prog fs s fs' s') :
    Known silent Ok prog fs' s' := by
  cases hs with
  | makeOuter => exact trivial
  | outerThere => exact trivial
  | outerFails => exact Nat.one_ne_zero
  | named _ _ n _ hm hq =>
    obtain ⟨-, rfl⟩ := mkdir_eq hm
    refine ⟨⟨[], by simp, fun reads r hr => hr⟩, fun name _ => ?_⟩
    rw [Function.update_of_ne (file_ne name)]
    exact hq [name] (by simp)
  | nameTaken => exact trivial
  | namingFails => exact Nat.one_ne_zero
  | reads d r next =>
    obtain ⟨⟨before, h1, h2⟩, h3⟩ := h
    refine ⟨⟨before ++ [(r, textAt fs (place r))], ?_, fun reads res hr => ?_⟩, h3⟩
    · intro x hx
      rcases List.mem_append.mp hx with hx | hx
      · exact h1 x hx
      · rw [List.mem_singleton.mp hx]
        exact hok r
    · rw [List.append_assoc]
      exact h2 _ _ (.read r next _ reads res hr)
  | computed d out =>
    obtain ⟨⟨before, h1, h2⟩, h3⟩ := h
    have := h2 [] _ (.done _)
    rw [List.append_nil] at this
    exact ⟨⟨before, h1, this⟩, h3⟩
  | thrown d =>
    refine ⟨fun hc => absurd hc Nat.one_ne_zero, fun _ name hn => Or.inl (h.2 name hn)⟩
  | goesWrong d =>
    obtain ⟨⟨before, h1, h2⟩, -⟩ := h
    have := h2 [] _ (.done _)
    rw [List.append_nil] at this
    exact ⟨before, h1, this⟩
  | copyPart d done out q =>
    refine ⟨h.1, fun name hn => ?_⟩
    rw [Function.update_of_ne (file_ne_problem hn)]
    exact h.2 name hn
  | copyFile d done out q =>
    refine ⟨h.1, fun name hn => ?_⟩
    rw [Function.update_of_ne (file_ne_problem hn)]
    exact h.2 name hn
  | copyDirectory d done out q =>
    refine ⟨h.1, fun name hn => ?_⟩
    rw [Function.update_of_ne (file_ne_problem hn)]
    exact h.2 name hn
  | copied d done out => exact ⟨h.1, fun name hn => Or.inl (h.2 name hn)⟩
  | copyFails d done out => exact ⟨fun hc => absurd hc Nat.one_ne_zero, fun _ name hn => Or.inl (h.2 name hn)⟩
  | created _ d name' todo out hf =>
    obtain ⟨-, rfl⟩ := fopen_eq hf
    refine ⟨h.1, fun name hn => ?_⟩
    by_cases e : name = name'
    · subst e
      exact Or.inr (Function.update_self ..)
    · unfold Blank
      rw [Function.update_of_ne fun h' => e (file_inj h')]
      exact h.2 name hn
  | creationFails d name' todo out => exact ⟨fun hc => absurd hc Nat.one_ne_zero, fun _ name hn => h.2 name hn⟩
  | ready d out =>
    obtain ⟨⟨reads, h1, h2⟩, -⟩ := h
    exact ⟨reads, out, [], h1, h2, rfl, by simp⟩
  | writePart d name text part todo =>
    obtain ⟨reads, out, before, h1, h2, h3, h4⟩ := h
    refine ⟨reads, out, before, h1, h2, h3, fun hs hn x hx => ?_⟩
    rw [Function.update_of_ne]
    · exact h4 hs hn x hx
    · intro e
      rw [h3, List.map_append, List.nodup_append] at hn
      exact hn.2.2 x.1 (List.mem_map_of_mem hx) name (by simp) (file_inj e)
  | written d name text todo =>
    obtain ⟨reads, out, before, h1, h2, h3, h4⟩ := h
    refine ⟨reads, out, before ++ [(name, text)], h1, h2, by simpa using h3, fun hs hn x hx => ?_⟩
    rcases List.mem_append.mp hx with hx | hx
    · rw [Function.update_of_ne]
      · exact h4 hs hn x hx
      · intro e
        rw [h3, List.map_append, List.nodup_append] at hn
        exact hn.2.2 x.1 (List.mem_map_of_mem hx) name (by simp) (file_inj e)
    · rw [List.mem_singleton.mp hx]
      exact Function.update_self ..
  | writeFails d name text todo hsil =>
    obtain ⟨reads, out, before, h1, h2, h3, h4⟩ := h
    exact ⟨reads, out, before ++ [(name, text)], h1, h2, by simpa using h3, fun hs => absurd (hs.symm.trans hsil) (by simp)⟩
  | finished d =>
    obtain ⟨reads, out, before, h1, h2, h3, h4⟩ := h
    rw [List.append_nil] at h3
    exact ⟨fun _ => ⟨reads, out, h1, h2, h3 ▸ h4⟩, fun hc => absurd rfl hc⟩

end

section
variable {Proc : Type} [DecidableEq Proc] {silent : Bool} {place : String → Path} {base : Path} {prog : Proc → Prog Outputs}
  {other : Disk → Disk → Prop} {fs₀ fs : Disk} {stage : Proc → Stage} {Ok : String → Option Text → Prop}

theorem reach_known (hok : ∀ fs stage, Reach silent place base prog other fs₀ fs stage → ∀ r, Ok r (textAt fs (place r)))
    (h : Reach silent place base prog other fs₀ fs stage) : ∀ i, Known silent Ok (prog i) fs (stage i) := by
  induction h with
  | start => intro i; exact trivial
  | @run fs stage i fs' s hr hs ih =>
    intro j
    by_cases hji : j = i
    · subst hji
      rw [Function.update_self]
      exact (ih j).step (hok _ _ hr) hs
    · rw [Function.update_of_ne hji]
      exact (ih j).frame fun d hd => ((C120_own_directory hr hs).2.2 j hji d hd).2
  | other hr _ hl ih => exact fun i => (ih i).frame fun d hd => hl i d hd

/-- What no other program touches, and is not in the output, does not change. -/
theorem reach_quiet {p : Path} (hp : ¬ base ++ ["output"] <+: p) (hother : ∀ fs fs', other fs fs' → fs' p = fs p)
    (h : Reach silent place base prog other fs₀ fs stage) : fs p = fs₀ p := by
  induction h with
  | start => rfl
  | @run fs stage i fs' s hr hs ih =>
    rw [← ih]
    by_contra hc
    rcases (C120_own_directory hr hs).1 p hc with ⟨rfl, -⟩ | ⟨n, -, h2⟩
    · exact hp (List.prefix_refl _)
    · refine hp (List.IsPrefix.trans ⟨[n], ?_⟩ h2)
      simp
  | other _ ho _ ih => rw [hother _ _ ho, ih]

/-! ## The property -/

/-- The files with the given texts are in a directory. -/
def Written (fs : Disk) (d : Path) (out : Outputs) : Prop := ∀ x ∈ out.write, fs (d ++ [x.1]) = some (.file x.2)

/-- C121: a run that returns 0 has written its results. -/
def C121Statement : Prop :=
  ∀ (place : String → Path) (base : Path) (prog : Prog Outputs) (fs₀ fs : Disk) (stage : Unit → Stage) (d : Path),
    (∀ reads out, Prog.Yields prog reads (.ok out) → (out.write.map Prod.fst).Nodup) →
    Reach true place base (fun _ => prog) (fun _ _ => False) fs₀ fs stage → stage () = .exited (some d) 0 →
    ∃ out, prog.eval (fun r => textAt fs₀ (place r)) = .ok out ∧ Written fs d out

/-- C121, for runs on a file system that writes what is to be written (or else throws an exception, which `std::ofstream` does not do): a run that returns 0 has written
all its results, computed from texts that the files had when they were read — whatever other runs and other programs do at the same
time, as long as they leave the output directory alone. -/
theorem C121_exit_partial (h : Reach false place base prog other fs₀ fs stage) {i : Proc} {d : Path}
    (hok : ∀ fs stage, Reach false place base prog other fs₀ fs stage → ∀ r, Ok r (textAt fs (place r)))
    (hexit : stage i = .exited (some d) 0) (hnames : ∀ reads out, Prog.Yields (prog i) reads (.ok out) → (out.write.map Prod.fst).Nodup) :
    ∃ reads out, (∀ x ∈ reads, Ok x.1 x.2) ∧ Prog.Yields (prog i) reads (.ok out) ∧ Written fs d out := by
  have := reach_known hok h i
  rw [hexit] at this
  obtain ⟨reads, out, h1, h2, h3⟩ := this.1 rfl
  exact ⟨reads, out, h1, h2, h3 rfl (hnames reads out h2)⟩

/-- The texts the files of a run have, in the beginning. -/
def texts (place : String → Path) (fs : Disk) (r : String) : Option Text := textAt fs (place r)

theorem quiet_ok {i : Proc} (hread : ∀ r ∈ (prog i).references (texts place fs₀), ¬ base ++ ["output"] <+: place r)
    (hother : ∀ r ∈ (prog i).references (texts place fs₀), ∀ fs fs', other fs fs' → fs' (place r) = fs (place r)) :
    ∀ fs stage, Reach silent place base prog other fs₀ fs stage →
      ∀ r, r ∈ (prog i).references (texts place fs₀) → textAt fs (place r) = texts place fs₀ r := by
  intro fs stage h r hr
  unfold texts textAt
  rw [reach_quiet (hread r hr) (hother r hr) h]

/-- C121. If moreover nobody changes the files that are read, the results are those of the texts of the files; and the exit code tells whether there are
results: it is not 0 if the computation throws an exception. -/
theorem C121_result_partial (h : Reach false place base prog other fs₀ fs stage) {i : Proc} {d : Path} {code : ℕ}
    (hread : ∀ r ∈ (prog i).references (texts place fs₀), ¬ base ++ ["output"] <+: place r)
    (hother : ∀ r ∈ (prog i).references (texts place fs₀), ∀ fs fs', other fs fs' → fs' (place r) = fs (place r))
    (hnames : ∀ reads out, Prog.Yields (prog i) reads (.ok out) → (out.write.map Prod.fst).Nodup)
    (hexit : stage i = .exited (some d) code) :
    (code = 0 → ∃ out, (prog i).eval (texts place fs₀) = .ok out ∧ Written fs d out) ∧
    ((prog i).eval (texts place fs₀) = .throws → code ≠ 0) ∧
    (code ≠ 0 → ∀ name, name ≠ "problem" → fs (d ++ [name]) = none ∨ fs (d ++ [name]) = some (.file [])) := by
  have h0 : code = 0 → ∃ out, (prog i).eval (texts place fs₀) = .ok out ∧ Written fs d out := by
    rintro rfl
    obtain ⟨reads, out, h1, h2, h3⟩ := C121_exit_partial (Ok := fun r t => r ∈ (prog i).references (texts place fs₀) → t = texts place fs₀ r) h
      (quiet_ok hread hother) hexit hnames
    exact ⟨out, Prog.eval_of_yields h2 h1, h3⟩
  refine ⟨h0, fun ht hc => ?_, fun hc => ?_⟩
  · obtain ⟨out, h1, -⟩ := h0 hc
    rw [ht] at h1
    cases h1
  · have := reach_known (Ok := fun _ _ => True) (fun _ _ _ _ => trivial) h i
    rw [hexit] at this
    exact this.2 hc

/-- Undefined behaviour comes from the computation only. -/
theorem C121_undefined (h : Reach silent place base prog other fs₀ fs stage) {i : Proc} {d : Path}
    (hread : ∀ r ∈ (prog i).references (texts place fs₀), ¬ base ++ ["output"] <+: place r)
    (hother : ∀ r ∈ (prog i).references (texts place fs₀), ∀ fs fs', other fs fs' → fs' (place r) = fs (place r))
    (hu : stage i = .undefined d) : (prog i).eval (texts place fs₀) = .ub := by
  have := reach_known (Ok := fun r t => r ∈ (prog i).references (texts place fs₀) → t = texts place fs₀ r) (quiet_ok hread hother) h i
  rw [hu] at this
  obtain ⟨reads, h1, h2⟩ := this
  exact Prog.eval_of_yields h2 h1

end

/-! ## Cases -/

/-- A computation that copies a text. -/
def copyText (r : String) : Prog Outputs := .read r fun t => .done (match t with
  | some t => .ok ⟨["states.json"], [("states.json", t)]⟩
  | none => .throws)

/-- A directory with a problem and another file. -/
def oneProblem : Disk := fun p =>
  if p = ["problem"] then some .directory else if p = ["problem", "in"] then some (.file ['x'])
  else if p = ["x"] then some (.file ['x']) else none

def besideProblem (r : String) : Path := ["problem", r]

theorem copyText_names (r : String) (reads out) (h : Prog.Yields (copyText r) reads (.ok out)) : out = ⟨["states.json"], out.write⟩ ∧
    out.write.map Prod.fst = ["states.json"] := by
  cases h with
  | read _ _ t reads _ h =>
    cases t with
    | none => cases h
    | some t => cases h; exact ⟨rfl, rfl⟩

/-- A whole run with exit code 0. The last step is one of the ways to deal with the file of results; before the problem is copied, another program may do something to
the file `in`. -/
theorem copyText_run (silent : Bool) (place : String → Path) (r : String) (hr : place r = ["problem", "in"] ∨ place r = ["x"])
    (other : Disk → Disk → Prop) (t : Text) (ho : t = ['x'] ∨ ∀ fs, other fs (Function.update fs ["problem", "in"] (some (.file t)))) (fs' : Disk → Disk)
    (hw : ∀ fs, Step silent place [] (copyText r) fs (.writing ["output", "1"] [("states.json", ['x'])]) (fs' fs) (.writing ["output", "1"] [])) :
    ∃ fs, fs ["output", "1", "states.json"] = some (.file []) ∧ fs ["output", "1", "x"] = none ∧
      fs ["output", "1", "problem", "in"] = some (.file t) ∧
      ∃ stage, Reach silent place [] (fun _ : Unit => copyText r) other oneProblem (fs' fs) stage ∧
        stage () = .exited (some ["output", "1"]) 0 := by
  have r0 : Reach silent place [] (fun _ : Unit => copyText r) other oneProblem oneProblem fun _ => .start := .start
  have u : ∀ (s s' : Stage), Function.update (fun _ : Unit => s) () s' = fun _ => s' := by
    intro s s'
    funext i
    rfl
  have r1 := Reach.run () r0 (Step.makeOuter _ _ rfl)
  rw [u] at r1
  have r2 := Reach.run () r1 (Step.named _ _ 0 "1" (by decide) rfl (by
    intro q hq
    show Function.update oneProblem ["output"] _ ("output" :: "1" :: q) = none
    rw [Function.update_of_ne (by simp)]
    simp [oneProblem]))
  rw [u] at r2
  have r3 := Reach.run () r2 (Step.reads _ _ _ _)
  rw [u] at r3
  have e3 : textAt (Function.update (Function.update oneProblem (outer []) (some Entry.directory)) (own [] "1") (some Entry.directory)) (place r) =
      some ['x'] := by
    rcases hr with h | h
    · rw [h]; rfl
    · rw [h]; rfl
  rw [e3] at r3
  have r4 := Reach.run () r3 (Step.computed _ _ _)
  rw [u] at r4
  have r4' : Reach silent place [] (fun _ : Unit => copyText r) other oneProblem
      (Function.update (Function.update (Function.update oneProblem ["problem", "in"] (some (.file t))) ["output"] (some Entry.directory))
        ["output", "1"] (some Entry.directory)) fun _ => .copying ["output", "1"] [] ⟨["states.json"], [("states.json", ['x'])]⟩ := by
    rw [Function.update_comm (a := ["problem", "in"]) (b := ["output"]) (by decide),
      Function.update_comm (a := ["problem", "in"]) (b := ["output", "1"]) (by decide)]
    rcases ho with rfl | ho
    · have e : ∀ fs : Disk, fs ["problem", "in"] = some (.file ['x']) → Function.update fs ["problem", "in"] (some (.file ['x'])) = fs := by
        intro fs h
        rw [← h]
        exact Function.update_eq_self _ _
      rw [e _ rfl]
      exact r4
    · refine Reach.other r4 (ho _) ?_
      intro i d hd p hp
      injection hd with hd
      subst hd
      refine Function.update_of_ne ?_ _ _
      rintro rfl
      exact absurd hp (by decide)
  have r5 := Reach.run () r4' (Step.copyDirectory _ _ _ _ [] (by simp) rfl rfl)
  rw [u] at r5
  have r6 := Reach.run () r5 (Step.copyFile _ _ _ _ ["in"] t (by simp) rfl (fun h => by cases h))
  rw [u] at r6
  have r7 := Reach.run () r6 (Step.copied _ _ _ _ (by simp) (by
    intro q hq
    by_contra hc
    refine hq ?_
    simp only [List.mem_cons, List.not_mem_nil, or_false, not_or] at hc
    show Function.update (Function.update (Function.update (Function.update (Function.update oneProblem ["problem", "in"] _) ["output"] _) ["output", "1"] _)
      ["output", "1", "problem"] _) ["output", "1", "problem", "in"] _ ("problem" :: q) = none
    rw [Function.update_of_ne (by simp), Function.update_of_ne (by simp), Function.update_of_ne (by simp), Function.update_of_ne (by simp),
      Function.update_of_ne (by simpa using hc.1)]
    unfold oneProblem
    rw [if_neg (by simpa using hc.2), if_neg (by simpa using hc.1), if_neg (by simp)]))
  rw [u] at r7
  have r8 := Reach.run () r7 (Step.created _ _ _ _ _ _ rfl)
  rw [u] at r8
  have r9 := Reach.run () r8 (Step.ready _ _ _)
  rw [u] at r9
  have r10 := Reach.run () r9 (hw _)
  rw [u] at r10
  have r11 := Reach.run () r10 (Step.finished _ _)
  exact ⟨_, rfl, rfl, rfl, _, r11, rfl⟩

/-- C121 is false of the program: it does not notice if the results cannot be written, e.g. because the disk is full. -/
theorem C121_false : ¬ C121Statement := by
  intro h
  obtain ⟨fs, hfs, -, -, stage, hr, he⟩ := copyText_run true besideProblem "in" (Or.inl rfl) (fun _ _ => False) ['x'] (Or.inl rfl) id
    fun fs => .writeFails fs _ _ _ _ rfl
  obtain ⟨out, h1, h2⟩ := h besideProblem [] (copyText "in") oneProblem fs stage _ (fun reads out hy => by rw [(copyText_names _ _ _ hy).2]; simp) hr he
  have : (copyText "in").eval (fun r => textAt oneProblem (besideProblem r)) = .ok ⟨["states.json"], [("states.json", ['x'])]⟩ := rfl
  rw [this] at h1
  injection h1 with h1
  subst h1
  have h3 := h2 ("states.json", ['x']) (by simp)
  have h3 : fs ["output", "1", "states.json"] = some (.file ['x']) := h3
  rw [hfs] at h3
  cases h3

/-- A run that writes its results and returns 0, so C120, C121 and C122 are about something. -/
example : ∃ fs stage, Reach false besideProblem [] (fun _ : Unit => copyText "in") (fun _ _ => False) oneProblem fs stage ∧
    stage () = .exited (some ["output", "1"]) 0 ∧ fs ["output", "1", "states.json"] = some (.file ['x']) := by
  obtain ⟨fs, -, -, -, stage, hr, he⟩ := copyText_run false besideProblem "in" (Or.inl rfl) (fun _ _ => False) ['x'] (Or.inl rfl)
    (fun fs => Function.update fs ["output", "1", "states.json"] (some (.file ['x']))) fun fs => .written fs _ _ _ _
  refine ⟨_, stage, hr, he, ?_⟩
  obtain ⟨h0, -⟩ := C121_result_partial hr (i := ()) (by
    intro r hr
    have : r = "in" := by simpa [Prog.references, copyText] using hr
    subst this
    decide) (by simp) (fun reads out hy => by rw [(copyText_names _ _ _ hy).2]; simp) he
  obtain ⟨out, h1, h2⟩ := h0 rfl
  have : (copyText "in").eval (texts besideProblem oneProblem) = .ok ⟨["states.json"], [("states.json", ['x'])]⟩ := rfl
  rw [this] at h1
  injection h1 with h1
  subst h1
  exact h2 ("states.json", ['x']) (by simp)

end Verif.Command
