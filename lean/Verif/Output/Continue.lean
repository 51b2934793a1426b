import Verif.Output.Restart
import Verif.Evolve.Restart

/-! # Property C82 with files: stopping a simulation, extracting initial values from its results and going on -/

set_option autoImplicit false

namespace Verif.Output

open Verif.Json Verif.Initial Verif.Evolve

/-- C82. A simulation over all times succeeds. Then so does one over the first times. From the file with its states, initial
values are extracted for a time after its end. A simulation that starts with these initial values where the first one ended, and
goes over the other times, gives the states the simulation over all times gives. -/
theorem C82_from_file {cs : List (Component ℚ)} (hne : cs ≠ []) (hc : ∀ c ∈ cs, Sensible c ∧ Typed c ∧ c.cls ∈ classes)
    (hids : (cs.map Component.id).Nodup) (hd : ∀ a ∈ cs, ∀ b ∈ cs, ∀ k, Occupies a k → Occupies b k → a = b)
    {C : Type} {retries : ℤ} {simplified : Bool} {solver : Solver ℚ (List ℚ) C} (hm : Memoryless solver)
    {controls : ℚ → Res C} {first last : List ℚ} {middle : ℚ} (hf : first ≠ []) (hl : last ≠ []) {initial : List ℚ}
    {states : List (List ℚ)}
    (h : (simulate retries simplified solver controls (first ++ middle :: last) initial).1 = Res.ok states)
    (hs : ∀ c ∈ cs, ∀ x ∈ states, FitsIn c x ∧ Invertible c x)
    (hr : ∀ c ∈ cs, ∀ t ∈ first ++ [middle], ∀ x ∈ states, Reports c t x)
    (hcover : ∀ x ∈ states, ∀ k < x.length, ∃ c ∈ cs, Occupies c k) {time : ℚ} (htime : ∀ t ∈ first ++ [middle], t < time)
    (mem : ℕ → ℚ) :
    ∃ before x after out new, states = before ++ x :: after ∧
      (simulate retries simplified solver controls (first ++ [middle]) initial).1 = Res.ok (before ++ [x]) ∧
      statesJson cs ((first ++ [middle]).zip (before ++ [x])) = Res.ok out ∧ extractAll time out = Res.ok new ∧
      ∀ vector : List ℚ, vector.length = x.length → ∃ start,
        setInitialValues (cs.map (stateComponent mem)) vector new = Res.ok start ∧
        (simulate retries simplified solver controls (middle :: last) start).1 = Res.ok (x :: after) := by
  obtain ⟨before, x, after, h1, h2, rfl⟩ := (C82_continue hm hf hl).mp h
  have hlen : before.length = first.length := by
    rcases h3 : simulate retries simplified solver controls (first ++ [middle]) initial with ⟨o, tr⟩
    rw [h3] at h1
    simp only [] at h1
    subst h1
    have := (C24_solved _ _ _ _ _ _ _ _ h3).1
    simpa using this
  have hz : (first ++ [middle]).zip (before ++ [x]) = first.zip before ++ [(middle, x)] := by
    rw [List.zip_append hlen.symm]
    rfl
  have hmem : ∀ s ∈ first.zip before ++ [(middle, x)], s.1 ∈ first ++ [middle] ∧ s.2 ∈ before ++ x :: after := by
    intro s hs
    rw [List.mem_append, List.mem_singleton] at hs
    rcases hs with hs | rfl
    · obtain ⟨h3, h4⟩ := List.of_mem_zip (a := s.1) (b := s.2) hs
      simp [h3, h4]
    · simp
  obtain ⟨out, new, h3, h4, h5⟩ := C80_last hne hc hids hd (saves := first.zip before) (last := (middle, x))
    (fun c hcm s hsm => ⟨⟨(hs c hcm _ (hmem s hsm).2).1, hr c hcm _ (hmem s hsm).1 _ (hmem s hsm).2⟩,
      (hs c hcm _ (hmem s hsm).2).2⟩) (fun s hsm => hcover _ (hmem s hsm).2)
    (fun s hsm => htime _ (hmem s hsm).1) mem
  exact ⟨before, x, after, out, new, rfl, h1, by rw [hz, h3], h4, fun vector hv => ⟨x, h5 vector hv, h2⟩⟩

/-- A solver that adds the time step to the first state and keeps the others. -/
def stepSolver : Solver ℚ (List ℚ) Unit := fun _ a =>
  Res.ok (true, match a.lastState with
    | [] => []
    | x :: l => (x + (a.newTime - a.lastTime)) :: l)

/-- The hypotheses about the simulation are met by the network of `exampleComponents` (see `C80_last` for those about
the components). -/
example : Memoryless stepSolver ∧
    (simulate 1 true stepSolver (fun _ => Res.ok ()) ([0] ++ 1 :: [3]) [1, 2, 3, 4, 5, 6, 7, 8, 9, 10]).1 =
      Res.ok [[1, 2, 3, 4, 5, 6, 7, 8, 9, 10], [2, 2, 3, 4, 5, 6, 7, 8, 9, 10], [4, 2, 3, 4, 5, 6, 7, 8, 9, 10]] ∧
    ∀ c ∈ exampleComponents, ∀ x ∈ [[1, 2, 3, 4, 5, 6, 7, 8, 9, 10], [2, 2, 3, 4, 5, 6, 7, 8, 9, 10],
      [4, 2, 3, 4, 5, 6, 7, 8, 9, (10 : ℚ)]], FitsIn c x ∧ Invertible c x ∧ ∀ t ∈ [0] ++ [(1 : ℚ)], Reports c t x := by
  refine ⟨fun _ _ _ => rfl, ?_, ?_⟩
  · simp [simulate, loop, makeOneStep, attempts, stepSolver]
    norm_num
  · intro c hc s hs
    simp only [exampleComponents, List.mem_cons, List.not_mem_nil, or_false] at hc hs
    rcases hc with rfl | rfl | rfl <;> rcases hs with rfl | rfl | rfl <;> simp [FitsIn, Reports, Invertible, states]

end Verif.Output
