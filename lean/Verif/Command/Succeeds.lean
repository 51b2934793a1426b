import Verif.Command.Exit

/-!
# Property C121: a run on a proper problem can succeed
-/

set_option autoImplicit false

namespace Verif.Command

open Verif.Files.Unique (Entry FileSystem mkdir fopenExclusive directoryTries mkdir_eq fopen_eq)

section
variable {silent : Bool} {place : String → Path} {base : Path} {prog : Prog Outputs} {other : Disk → Disk → Prop} {fs₀ fs fs' : Disk}

/-- One more step of a single run. -/
theorem Reach.then {s s' : Stage} (h : Reach silent place base (fun _ : Unit => prog) other fs₀ fs fun _ => s)
    (hs : Step silent place base prog fs s fs' s') : Reach silent place base (fun _ : Unit => prog) other fs₀ fs' fun _ => s' := by
  have := Reach.run () h hs
  have e : Function.update (fun _ : Unit => s) () s' = fun _ => s' := by
    funext i
    rfl
  rwa [e] at this

theorem reach_computing {load : String → Option Text} {d : Path} (rest : Prog Outputs)
    (h : Reach silent place base (fun _ : Unit => prog) other fs₀ fs fun _ => .computing d rest)
    (hr : ∀ r ∈ rest.references load, textAt fs (place r) = load r) :
    Reach silent place base (fun _ : Unit => prog) other fs₀ fs fun _ => .computing d (.done (rest.eval load)) := by
  induction rest with
  | done r => exact h
  | read r k ih =>
    have := h.then (Step.reads _ _ _ _)
    rw [hr r List.mem_cons_self] at this
    exact ih _ this fun x hx => hr x (List.mem_cons_of_mem _ hx)

theorem reach_copying {name : String} {out : Outputs} (todo done : List Path)
    (h : Reach silent place base (fun _ : Unit => prog) other fs₀ fs fun _ => .copying (own base name) done out)
    (hn : (todo ++ done).Nodup) (h1 : ∀ q, fs (inProblem base q) = fs₀ (inProblem base q)) (h2 : ∀ q ∈ todo, fs (inProblem (own base name) q) = none)
    (hq : ∀ q, fs₀ (inProblem base q) ≠ none ↔ q ∈ todo ++ done) (hroot : [] ∈ todo ++ done)
    (hfree : ∀ x, x ≠ "problem" → fs (own base name ++ [x]) = none) :
    ∃ fs, (∀ x, x ≠ "problem" → fs (own base name ++ [x]) = none) ∧
      Reach silent place base (fun _ : Unit => prog) other fs₀ fs fun _ => .creating (own base name) out.create out := by
  induction todo generalizing done fs with
  | nil =>
    refine ⟨fs, hfree, h.then (Step.copied _ _ _ _ hroot fun q hq' => ?_)⟩
    rw [h1] at hq'
    exact (hq q).mp hq'
  | cons q todo ih =>
    have hmem : ∀ x, x ∈ todo ++ q :: done ↔ x ∈ q :: todo ++ done := by
      intro x
      simp only [List.mem_append, List.mem_cons]
      tauto
    have hnd : (todo ++ q :: done).Nodup := (List.perm_middle.nodup_iff).mpr hn
    have hqd : q ∉ done := fun h => (List.nodup_cons.mp hn).1 (List.mem_append_right _ h)
    have hqt : q ∉ todo := fun h => (List.nodup_cons.mp hn).1 (List.mem_append_left _ h)
    have hne : ∀ q', inProblem base q' ≠ inProblem (own base name) q := by
      intro q' e
      refine problem_not_output (base := base) (a := name) (q := q') ?_
      rw [e]
      exact prefix_inProblem q
    cases he : fs₀ (inProblem base q) with
    | none => exact absurd he ((hq q).mpr (by simp))
    | some e =>
      have key : ∀ v, Reach silent place base (fun _ : Unit => prog) other fs₀ (Function.update fs (inProblem (own base name) q) v)
          (fun _ => .copying (own base name) (q :: done) out) → ∃ fs, (∀ x, x ≠ "problem" → fs (own base name ++ [x]) = none) ∧
          Reach silent place base (fun _ : Unit => prog) other fs₀ fs fun _ => .creating (own base name) out.create out := by
        intro v hv
        refine ih (q :: done) hv hnd (fun q' => ?_) (fun q' hq' => ?_) (fun q' => (hq q').trans (hmem q').symm) ((hmem _).mpr hroot) fun x hx => ?_
        · rw [Function.update_of_ne (hne q')]
          exact h1 q'
        · rw [Function.update_of_ne]
          · exact h2 q' (List.mem_cons_of_mem _ hq')
          · intro e'
            exact hqt (inProblem_inj e' ▸ hq')
        · rw [Function.update_of_ne (file_ne_problem hx)]
          exact hfree x hx
      cases e with
      | directory =>
        exact key _ (h.then (Step.copyDirectory _ _ _ _ q hqd ((h1 q).trans he) (h2 q List.mem_cons_self)))
      | file t =>
        refine key _ (h.then (Step.copyFile _ _ _ _ q t hqd ((h1 q).trans he) ?_))
        rw [h2 q List.mem_cons_self]
        exact fun h => by cases h

theorem reach_creating {name : String} {out : Outputs} (todo : List String)
    (h : Reach silent place base (fun _ : Unit => prog) other fs₀ fs fun _ => .creating (own base name) todo out) (hn : todo.Nodup)
    (hfree : ∀ x ∈ todo, fs (own base name ++ [x]) = none) :
    ∃ fs, Reach silent place base (fun _ : Unit => prog) other fs₀ fs fun _ => .writing (own base name) out.write := by
  induction todo generalizing fs with
  | nil => exact ⟨fs, h.then (Step.ready _ _ _)⟩
  | cons x todo ih =>
    have hx := hfree x List.mem_cons_self
    refine ih (h.then (Step.created _ (Function.update fs (own base name ++ [x]) (some (.file []))) _ x _ _ ?_)) (List.nodup_cons.mp hn).2 fun y hy => ?_
    · unfold fopenExclusive
      rw [hx]
    · rw [Function.update_of_ne]
      · exact hfree y (List.mem_cons_of_mem _ hy)
      · intro e
        exact (List.nodup_cons.mp hn).1 (file_inj e ▸ hy)

theorem reach_writing {d : Path} (todo : List (String × Text))
    (h : Reach silent place base (fun _ : Unit => prog) other fs₀ fs fun _ => .writing d todo) :
    ∃ fs, Reach silent place base (fun _ : Unit => prog) other fs₀ fs fun _ => .exited (some d) 0 := by
  induction todo generalizing fs with
  | nil => exact ⟨fs, h.then (Step.finished _ _)⟩
  | cons x todo ih => exact ih (h.then (Step.written _ _ _ _ _))

/-- C121, the other direction: if results can be computed from the texts of the files, and there is nothing in the way in the output directory, then a run can
end with exit code 0. -/
theorem C121_succeeds {name : String} {out : Outputs} {entries : List Path}
    (houter : fs₀ (base ++ ["output"]) = none ∨ fs₀ (base ++ ["output"]) = some .directory)
    (hfree : ∀ q, fs₀ (base ++ "output" :: name :: q) = none)
    (hread : ∀ r ∈ prog.references (texts place fs₀), ¬ base ++ ["output"] <+: place r)
    (hentries : ∀ q, fs₀ (base ++ "problem" :: q) ≠ none ↔ q ∈ entries) (hnodup : entries.Nodup) (hroot : [] ∈ entries)
    (heval : prog.eval (texts place fs₀) = .ok out) (hcreate : out.create.Nodup) (hproblem : "problem" ∉ out.create) :
    ∃ fs stage, Reach silent place base (fun _ : Unit => prog) other fs₀ fs stage ∧
      stage () = .exited (some (base ++ ["output", name])) 0 := by
  have hown : ∀ q, own base name ++ q = base ++ "output" :: name :: q := by
    intro q
    simp [own]
  have r1 : ∃ fs, (∀ p, ¬ base ++ ["output"] <+: p → fs p = fs₀ p) ∧ (∀ q, fs (base ++ "output" :: name :: q) = none) ∧
      Reach silent place base (fun _ : Unit => prog) other fs₀ fs fun _ => .naming 0 := by
    rcases houter with ho | ho
    · refine ⟨Function.update fs₀ (outer base) (some .directory), fun p hp => ?_, fun q => ?_, Reach.start.then (Step.makeOuter _ _ ?_)⟩
      · rw [Function.update_of_ne]
        rintro rfl
        exact hp (List.prefix_refl _)
      · rw [Function.update_of_ne]
        · exact hfree q
        · intro e
          unfold outer at e
          have := List.append_cancel_left e
          simp at this
      · unfold mkdir outer
        rw [ho]
    · exact ⟨fs₀, fun _ _ => rfl, hfree, Reach.start.then (Step.outerThere _ ho)⟩
  obtain ⟨fs1, e1, f1, r1⟩ := r1
  have r2 := r1.then (Step.named _ (Function.update fs1 (own base name) (some .directory)) 0 name (by decide) (by
    unfold mkdir
    have := f1 []
    rw [← hown, List.append_nil] at this
    rw [this]) fun q _ => by rw [hown]; exact f1 q)
  have e2 : ∀ p, ¬ base ++ ["output"] <+: p → Function.update fs1 (own base name) (some .directory) p = fs₀ p := by
    intro p hp
    rw [Function.update_of_ne]
    · exact e1 p hp
    · rintro rfl
      exact hp ⟨[name], by simp [own]⟩
  have r3 := reach_computing (load := texts place fs₀) prog r2 fun r hr => by
    unfold texts textAt
    rw [e2 _ (hread r hr)]
  rw [heval] at r3
  have r4 := r3.then (Step.computed _ _ _)
  have hout : ∀ p, own base name <+: p → p ≠ own base name → Function.update fs1 (own base name) (some .directory) p = none := by
    rintro p ⟨q, rfl⟩ hp
    rw [Function.update_of_ne hp, hown]
    exact f1 q
  obtain ⟨fs5, f5, r5⟩ := reach_copying entries [] r4 (by rwa [List.append_nil]) (fun q => e2 _ problem_outside)
    (fun q _ => hout _ (prefix_inProblem q) (inProblem_ne q)) (fun q => by rw [List.append_nil]; exact hentries q)
    (by rwa [List.append_nil]) (fun x hx => hout _ (prefix_file x) (file_ne x))
  obtain ⟨fs6, r6⟩ := reach_creating out.create r5 hcreate fun x hx => f5 x fun e => hproblem (e ▸ hx)
  obtain ⟨fs7, r7⟩ := reach_writing out.write r6
  exact ⟨fs7, _, r7, rfl⟩

end

/-- `C121_succeeds` applies to the directory of `Verif.Command.Exit`. -/
example : ∃ fs stage, Reach true besideProblem [] (fun _ : Unit => copyText "in") (fun _ _ => False) oneProblem fs stage ∧
    stage () = .exited (some ["output", "7"]) 0 := by
  refine C121_succeeds (base := []) (entries := [[], ["in"]]) (out := ⟨["states.json"], [("states.json", ['x'])]⟩) (Or.inl rfl) (fun q => ?_) ?_ (fun q => ?_)
    (by decide) (by decide) rfl (by decide) (by decide)
  · simp [oneProblem]
  · intro r hr
    have : r = "in" := by simpa [Prog.references, copyText] using hr
    subst this
    decide
  · simp only [List.nil_append, List.mem_cons, List.not_mem_nil, or_false, oneProblem]
    by_cases h : q = []
    · simp [h]
    · by_cases h' : q = ["in"]
      · simp [h']
      · simp [h, h']

end Verif.Command
