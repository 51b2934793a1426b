import Verif.Command.Machine

/-!
# Property C120: a run only adds its own output directory
-/

set_option autoImplicit false

namespace Verif.Command

open Verif.Files.Unique (Entry FileSystem mkdir fopenExclusive directoryTries mkdir_eq fopen_eq)

section Paths
variable {base : Path}

theorem own_inj {a b : String} (h : own base a = own base b) : a = b := by
  unfold own at h
  have := List.append_cancel_left h
  simpa using this

theorem own_prefix {a b : String} (h : own base a <+: own base b) : a = b := by
  have hl : (own base a).length = (own base b).length := by simp [own]
  exact own_inj (h.eq_of_length hl)

/-- Something in both directories. -/
theorem own_disjoint {a b : String} {p : Path} (ha : own base a <+: p) (hb : own base b <+: p) : a = b := by
  have hl : (own base a).length = (own base b).length := by simp [own]
  exact own_prefix (List.prefix_of_prefix_length_le ha hb (by omega))

theorem outer_ne_own {a : String} : ¬ own base a <+: outer base := by
  intro h
  have := h.length_le
  simp [own, outer] at this

theorem inProblem_inj {q r : Path} (h : inProblem base q = inProblem base r) : q = r := by
  unfold inProblem at h
  have := List.append_cancel_left h
  simpa using this

theorem prefix_inProblem (q : Path) : base <+: inProblem base q := List.prefix_append _ _

theorem prefix_file (name : String) : base <+: base ++ [name] := List.prefix_append _ _

theorem inProblem_ne (q : Path) : inProblem base q ≠ base := by
  intro h
  have := congrArg List.length h
  simp [inProblem] at this

theorem file_ne (name : String) : base ++ [name] ≠ base := by
  intro h
  have := congrArg List.length h
  simp at this

/-- The problem is not in the output. -/
theorem problem_not_output {a : String} {q : Path} : ¬ own base a <+: inProblem base q := by
  rintro ⟨r, h⟩
  unfold own inProblem at h
  rw [List.append_assoc] at h
  have := List.append_cancel_left h
  simp at this

theorem problem_outside {q : Path} : ¬ base ++ ["output"] <+: inProblem base q := by
  rintro ⟨r, h⟩
  unfold inProblem at h
  rw [List.append_assoc] at h
  have := List.append_cancel_left h
  simp at this

theorem problem_ne_outer {q : Path} : inProblem base q ≠ outer base := by
  intro h
  unfold outer inProblem at h
  have := List.append_cancel_left h
  simp at this

end Paths

section
variable {silent : Bool} {place : String → Path} {base : Path} {prog : Prog Outputs} {fs fs' : Disk} {s s' : Stage}

/-- What a step changes: it makes the outer directory, it makes its own directory, or it changes something in it. -/
theorem step_changes (h : Step silent place base prog fs s fs' s') :
    (s = .start ∧ fs' = Function.update fs (outer base) (some .directory) ∧ fs (outer base) = none ∧ s'.dir = none) ∨
    (∃ n, s.dir = none ∧ s' = .computing (own base n) prog ∧ fs' = Function.update fs (own base n) (some .directory) ∧
      ∀ q, fs (own base n ++ q) = none) ∨
    (s'.dir = s.dir ∧ ∃ d, s.dir = some d ∧ ∃ q, q ≠ [] ∧ ∃ e, fs' = Function.update fs (d ++ q) e) ∨
    (fs' = fs ∧ s'.dir = s.dir) := by
  cases h with
  | makeOuter _ h => obtain ⟨h1, h2⟩ := mkdir_eq h; exact Or.inl ⟨rfl, h2, h1, rfl⟩
  | outerThere => exact Or.inr (Or.inr (Or.inr ⟨rfl, rfl⟩))
  | outerFails => exact Or.inr (Or.inr (Or.inr ⟨rfl, rfl⟩))
  | named _ _ n _ h hq =>
    obtain ⟨h1, h2⟩ := mkdir_eq h
    refine Or.inr (Or.inl ⟨n, rfl, rfl, h2, fun q => ?_⟩)
    by_cases hq' : q = []
    · rw [hq', List.append_nil, h1]
    · exact hq q hq'
  | nameTaken => exact Or.inr (Or.inr (Or.inr ⟨rfl, rfl⟩))
  | namingFails => exact Or.inr (Or.inr (Or.inr ⟨rfl, rfl⟩))
  | reads => exact Or.inr (Or.inr (Or.inr ⟨rfl, rfl⟩))
  | computed => exact Or.inr (Or.inr (Or.inr ⟨rfl, rfl⟩))
  | thrown => exact Or.inr (Or.inr (Or.inr ⟨rfl, rfl⟩))
  | goesWrong => exact Or.inr (Or.inr (Or.inr ⟨rfl, rfl⟩))
  | copyPart dir _ _ q => exact Or.inr (Or.inr (Or.inl ⟨rfl, _, rfl, "problem" :: q, by simp, _, rfl⟩))
  | copyFile dir _ _ q => exact Or.inr (Or.inr (Or.inl ⟨rfl, _, rfl, "problem" :: q, by simp, _, rfl⟩))
  | copyDirectory dir _ _ q => exact Or.inr (Or.inr (Or.inl ⟨rfl, _, rfl, "problem" :: q, by simp, _, rfl⟩))
  | copied => exact Or.inr (Or.inr (Or.inr ⟨rfl, rfl⟩))
  | copyFails => exact Or.inr (Or.inr (Or.inr ⟨rfl, rfl⟩))
  | created _ _ name _ _ h => obtain ⟨h1, h2⟩ := fopen_eq h; exact Or.inr (Or.inr (Or.inl ⟨rfl, _, rfl, [name], by simp, _, h2⟩))
  | creationFails => exact Or.inr (Or.inr (Or.inr ⟨rfl, rfl⟩))
  | ready => exact Or.inr (Or.inr (Or.inr ⟨rfl, rfl⟩))
  | writePart dir name => exact Or.inr (Or.inr (Or.inl ⟨rfl, _, rfl, [name], by simp, _, rfl⟩))
  | written dir name => exact Or.inr (Or.inr (Or.inl ⟨rfl, _, rfl, [name], by simp, _, rfl⟩))
  | writeFails => exact Or.inr (Or.inr (Or.inr ⟨rfl, rfl⟩))
  | finished => exact Or.inr (Or.inr (Or.inr ⟨rfl, rfl⟩))

end

section
variable {Proc : Type} [DecidableEq Proc] {silent : Bool} {place : String → Path} {base : Path} {prog : Proc → Prog Outputs}
  {other : Disk → Disk → Prop} {fs₀ fs : Disk} {stage : Proc → Stage}

/-- Each run that has a directory has its own one, in the outer directory. -/
theorem reach_dirs (h : Reach silent place base prog other fs₀ fs stage) :
    (∀ i d, (stage i).dir = some d → (∃ n, d = own base n) ∧ fs d = some .directory) ∧
      ∀ i j d, (stage i).dir = some d → (stage j).dir = some d → i = j := by
  induction h with
  | start => exact ⟨fun i d h => (by cases h), fun i j d h => (by cases h)⟩
  | @run fs stage i fs' s _ hs ih =>
    obtain ⟨ih1, ih2⟩ := ih
    have hc := step_changes hs
    constructor
    · intro j d hj
      by_cases hji : j = i
      · subst hji
        rw [Function.update_self] at hj
        rcases hc with ⟨-, -, -, h4⟩ | ⟨n, -, h2, h3, -⟩ | ⟨h1, d', h2, q, hq, e, h3⟩ | ⟨h1, h2⟩
        · rw [h4] at hj; cases hj
        · subst h2
          injection hj with hj
          subst hj
          exact ⟨⟨n, rfl⟩, by rw [h3, Function.update_self]⟩
        · rw [h1] at hj
          obtain ⟨k1, k2⟩ := ih1 _ d hj
          rw [h2] at hj
          injection hj with hj
          subst hj
          refine ⟨k1, ?_⟩
          rw [h3, Function.update_of_ne, k2]
          intro hd
          exact hq (by simpa using hd.symm)
        · rw [h2] at hj
          rw [h1]
          exact ih1 _ d hj
      · rw [Function.update_of_ne hji] at hj
        obtain ⟨k1, k2⟩ := ih1 j d hj
        refine ⟨k1, ?_⟩
        obtain ⟨n, rfl⟩ := k1
        rcases hc with ⟨-, h2, -⟩ | ⟨n', -, h2, h3, h4⟩ | ⟨h1, d', h2, q, hq, e, h3⟩ | ⟨h1, h2⟩
        · rw [h2, Function.update_of_ne, k2]
          intro hd
          exact outer_ne_own (base := base) (a := n) (hd ▸ List.prefix_refl (own base n))
        · rw [h3, Function.update_of_ne, k2]
          intro hd
          have := h4 []
          rw [List.append_nil, ← hd, k2] at this
          cases this
        · obtain ⟨⟨n', rfl⟩, -⟩ := ih1 i d' h2
          rw [h3, Function.update_of_ne, k2]
          intro hd
          have := own_prefix (base := base) (a := n') (b := n) ⟨q, hd.symm⟩
          subst this
          exact hji (ih2 j i _ hj h2)
        · rw [h1]; exact k2
    · have hnew : ∀ j d, j ≠ i → (stage j).dir = some d → s.dir ≠ some d := by
        intro j d hji hj hd
        rcases hc with ⟨-, -, -, h4⟩ | ⟨n', -, h2, h3, h4⟩ | ⟨h1, d', h2, q, hq, e, h3⟩ | ⟨h1, h2⟩
        · rw [h4] at hd; cases hd
        · subst h2
          injection hd with hd
          subst hd
          have := (ih1 j _ hj).2
          have h5 := h4 []
          rw [List.append_nil, this] at h5
          cases h5
        · rw [h1] at hd
          exact hji (ih2 j i d hj hd)
        · rw [h2] at hd
          exact hji (ih2 j i d hj hd)
      intro j k d hj hk
      by_cases hji : j = i
      · by_cases hki : k = i
        · rw [hji, hki]
        · subst hji
          rw [Function.update_self] at hj
          rw [Function.update_of_ne hki] at hk
          exact absurd hj (hnew k d hki hk)
      · rw [Function.update_of_ne hji] at hj
        by_cases hki : k = i
        · subst hki
          rw [Function.update_self] at hk
          exact absurd hk (hnew j d hji hj)
        · rw [Function.update_of_ne hki] at hk
          exact ih2 j k d hj hk
  | other _ _ hleave ih =>
    obtain ⟨ih1, ih2⟩ := ih
    refine ⟨fun i d hi => ⟨(ih1 i d hi).1, ?_⟩, ih2⟩
    rw [hleave i d hi d (List.prefix_refl d)]
    exact (ih1 i d hi).2

/-- What a step of one of the runs can change. -/
theorem reach_step (h : Reach silent place base prog other fs₀ fs stage) {i : Proc} {fs' : Disk} {s : Stage}
    (hs : Step silent place base (prog i) fs (stage i) fs' s) {p : Path} (hp : fs' p ≠ fs p) :
    (p = outer base ∧ fs p = none) ∨ ∃ n, s.dir = some (own base n) ∧ own base n <+: p ∧
      ((stage i).dir = some (own base n) ∨ fs p = none) := by
  have hd := (reach_dirs h).1
  rcases step_changes hs with ⟨-, h2, h3, -⟩ | ⟨n, -, h2, h3, h4⟩ | ⟨h1, d, h2, q, hq, e, h3⟩ | ⟨h1, h2⟩
  · by_cases e : p = outer base
    · exact Or.inl ⟨e, e ▸ h3⟩
    · rw [h2, Function.update_of_ne e] at hp; exact absurd rfl hp
  · by_cases e : p = own base n
    · refine Or.inr ⟨n, by rw [h2]; rfl, e ▸ List.prefix_refl _, Or.inr ?_⟩
      have := h4 []
      rwa [List.append_nil, ← e] at this
    · rw [h3, Function.update_of_ne e] at hp; exact absurd rfl hp
  · obtain ⟨⟨n, rfl⟩, -⟩ := hd i d h2
    by_cases e' : p = own base n ++ q
    · exact Or.inr ⟨n, by rw [h1, h2], e' ▸ List.prefix_append _ _, Or.inl h2⟩
    · rw [h3, Function.update_of_ne e'] at hp; exact absurd rfl hp
  · rw [h1] at hp; exact absurd rfl hp

/-- C120. Whatever a run does — whatever the files contain, at whatever point it stops, while other runs and programs are at work — it changes
nothing outside of one new directory `base/output/name`, which no other run uses; it only makes the directory `base/output` if there is
nothing with this name. -/
theorem C120_own_directory (h : Reach silent place base prog other fs₀ fs stage) {i : Proc} {fs' : Disk} {s : Stage}
    (hs : Step silent place base (prog i) fs (stage i) fs' s) :
    (∀ p, fs' p ≠ fs p → (p = base ++ ["output"] ∧ fs p = none) ∨
      ∃ name, s.dir = some (base ++ ["output", name]) ∧ base ++ ["output", name] <+: p) ∧
    (∀ d, (stage i).dir = none → s.dir = some d → ∀ q, fs (d ++ q) = none) ∧
    ∀ j, j ≠ i → ∀ d, (stage j).dir = some d → s.dir ≠ some d ∧ ∀ p, d <+: p → fs' p = fs p := by
  have hr := Reach.run i h hs
  refine ⟨fun p hp => ?_, fun d h1 h2 => ?_, fun j hj d hd => ?_⟩
  · rcases reach_step h hs hp with h1 | ⟨n, h1, h2, -⟩
    · exact Or.inl h1
    · exact Or.inr ⟨n, h1, h2⟩
  · rcases step_changes hs with ⟨-, -, -, k⟩ | ⟨n, -, k, -, k'⟩ | ⟨k, -⟩ | ⟨-, k⟩
    · rw [k] at h2; cases h2
    · subst k
      injection h2 with h2
      subst h2
      exact k'
    · rw [k, h1] at h2; cases h2
    · rw [k, h1] at h2; cases h2
  · have hne : s.dir ≠ some d := by
      intro hs'
      exact hj ((reach_dirs hr).2 j i d (by rw [Function.update_of_ne hj]; exact hd) (by rw [Function.update_self]; exact hs'))
    refine ⟨hne, fun p hp => ?_⟩
    by_contra hc
    obtain ⟨⟨m, rfl⟩, -⟩ := (reach_dirs h).1 j d hd
    rcases reach_step h hs hc with ⟨rfl, -⟩ | ⟨n, h1, h2, -⟩
    · exact outer_ne_own hp
    · have := own_disjoint hp h2
      subst this
      exact hne h1

/-- C120. If other programs leave the things alone that were there in the beginning, they are there, unchanged, at all times. -/
theorem C120_nothing_lost (hother : ∀ fs fs', other fs fs' → ∀ p, fs₀ p ≠ none → fs' p = fs p)
    (h : Reach silent place base prog other fs₀ fs stage) : ∀ p, fs₀ p ≠ none → fs p = fs₀ p := by
  suffices (∀ p, fs₀ p ≠ none → fs p = fs₀ p) ∧ ∀ i d, (stage i).dir = some d → ∀ p, d <+: p → fs₀ p = none from this.1
  induction h with
  | start => exact ⟨fun _ _ => rfl, fun i d h => by cases h⟩
  | @run fs stage i fs' s hr hs ih =>
    obtain ⟨ih1, ih2⟩ := ih
    have hdir : ∀ j d, (Function.update stage i s j).dir = some d → ∀ p, d <+: p → fs₀ p = none := by
      intro j d hj p hp
      by_cases hji : j = i
      · subst hji
        rw [Function.update_self] at hj
        cases hd : (stage j).dir with
        | none =>
          obtain ⟨q, rfl⟩ := hp
          have := (C120_own_directory hr hs).2.1 d hd hj q
          by_contra hc
          rw [ih1 _ hc] at this
          exact hc this
        | some d' =>
          have : s.dir = (stage j).dir := by
            rcases step_changes hs with ⟨k, -⟩ | ⟨n, k, -⟩ | ⟨k, -⟩ | ⟨-, k⟩
            · rw [k] at hd; cases hd
            · rw [k] at hd; cases hd
            · exact k
            · exact k
          exact ih2 j d (this ▸ hj) p hp
      · rw [Function.update_of_ne hji] at hj
        exact ih2 j d hj p hp
    refine ⟨fun p hp => ?_, hdir⟩
    rw [← ih1 p hp]
    by_contra hc
    rcases reach_step hr hs hc with ⟨-, h1⟩ | ⟨n, h1, h2, -⟩
    · rw [ih1 p hp] at h1; exact hp h1
    · exact hp (hdir i _ (by rw [Function.update_self]; exact h1) p h2)
  | other _ ho _ ih => exact ⟨fun p hp => (hother _ _ ho p hp).trans (ih.1 p hp), ih.2⟩

end

/-- Two runs on the same directory that have their own directories, and a file that was there before. -/
example : ∃ fs stage, Reach false (fun r => ["problem", r]) [] (fun _ : Bool => .done .throws) (fun _ _ => False)
    (fun p => if p = ["output", "old"] then some (.file ['x']) else none) fs stage ∧
    (stage true).dir = some ["output", "1"] ∧ (stage false).dir = some ["output", "2"] ∧ fs ["output", "old"] = some (.file ['x']) := by
  have r0 : Reach false (fun r => ["problem", r]) [] (fun _ : Bool => .done .throws) (fun _ _ => False)
    (fun p => if p = ["output", "old"] then some (.file ['x']) else none) _ _ := .start
  have r1 := Reach.run true r0 (.makeOuter _ _ rfl)
  have r2 := Reach.run false r1 (.outerThere _ rfl)
  have r3 := Reach.run true r2 (.named _ _ 0 "1" (by decide) rfl (by
    intro q hq
    rw [Function.update_of_ne (by simp [own, outer]), if_neg (by simp [own])]))
  have r4 := Reach.run false r3 (.nameTaken _ 0 "1" (by decide) rfl)
  have r5 := Reach.run false r4 (.named _ _ 1 "2" (by decide) rfl (by
    intro q hq
    rw [Function.update_of_ne (by simp [own]), Function.update_of_ne (by simp [own, outer]), if_neg (by simp [own])]))
  exact ⟨_, _, r5, rfl, rfl, rfl⟩

end Verif.Command
