import Verif.Read.NlpUnavail
import Verif.Read.NlpDerivExample

/-!
# C107 is false

The problem of `NlpExample` with two simulated steps of 30 seconds, one control step and constraints at every second time. The program
then puts the only constraint time at the end. The simulation succeeds; the sweep for the derivatives reads in front of the array of
constraint times.
-/

set_option autoImplicit false

namespace Verif.Read

open Verif.Json Verif.Factory Verif.Interp Verif.Schema Verif.Initial Verif.Times Network Net Newton Evolve OptTimes IndexLambda Weights
  Jacobian Matrix Verif.Handler Filter Topology

noncomputable def settingsU : Settings := ⟨0, 30, 60, some ⟨some 60, none⟩, 0.001, 5, 1, true⟩

theorem points_u {number : ℕ} {desired : ℝ} (h0 : 0 < desired) (hn : (⌈((60 : ℝ) - 0) / desired⌉ + 1).toNat = number) :
    gridFromDelta (0 : ℝ) (.finite desired) 60 = Res.ok (equidistantPoints ⟨0, (60 - 0) / ((number - 1 : ℕ) : ℝ), number⟩) := by
  unfold gridFromDelta makeFromStartDeltaEnd
  simp only
  rw [if_neg (by norm_num), if_neg (by linarith), hn, Res.ok_bind]

theorem grid_u : stateGrid (0 : ℝ) 30 60 = Res.ok [0, 30, 60] := by
  unfold stateGrid numberOfTimesteps
  rw [if_neg (by norm_num)]
  have h : (⌈((60 : ℝ) - 0) / 30⌉ + 1 : ℤ) = 3 := by norm_num
  rw [h, Res.ok_bind]
  unfold deltaT
  rw [if_neg (by norm_num)]
  have hd : ((60 : ℝ) - 0) / ((3 - 1 : ℤ) : ℝ) = 30 := by norm_num
  rw [hd, points_u (number := 3) (by norm_num) (by rw [h]; rfl)]
  norm_num [equidistantPoints, equidistantLoop]

theorem control_grid_u : controlGrid (0 : ℝ) 30 60 (some ⟨some 60, none⟩) = Res.ok [0, 60] := by
  have h : (⌈((60 : ℝ) - 0) / 60⌉ + 1 : ℤ) = 2 := by norm_num
  refine (points_u (number := 2) (desired := 60) (by norm_num) (by rw [h]; rfl)).trans ?_
  norm_num [equidistantPoints, equidistantLoop]

theorem pairs_u : ∃ pairs, computeIndexLambdaVector [(0 : ℝ), 60] [0, 30, 60] = Res.ok pairs := by
  have h0 : computeIndexLambda [(0 : ℝ), 60] 0 = Res.ok (0, 1) := by
    have hl : lowerBound [(0 : ℝ), 60] 0 = 0 := by simp [lowerBound, List.findIdx_cons]
    unfold computeIndexLambda
    simp only [List.getLast?_cons_cons, List.getLast?_singleton, hl]
    rw [if_neg (by norm_num)]
    rfl
  have h : ∀ t : ℝ, 0 < t → t ≤ 60 → ∃ p, computeIndexLambda [(0 : ℝ), 60] t = Res.ok p := by
    intro t h1 h2
    have hl : lowerBound [(0 : ℝ), 60] t = 1 := by simp [lowerBound, List.findIdx_cons, h1.not_ge, h2]
    unfold computeIndexLambda
    simp only [List.getLast?_cons_cons, List.getLast?_singleton, hl]
    rw [if_neg (by rintro ⟨h, -⟩; linarith)]
    exact ⟨_, rfl⟩
  obtain ⟨p, hp⟩ := h 30 (by norm_num) (by norm_num)
  obtain ⟨q, hq⟩ := h 60 (by norm_num) (by norm_num)
  exact ⟨_, by simp only [computeIndexLambdaVector, h0, hp, hq, Res.ok_bind]; rfl⟩

variable (hc : Consistent graphK)

theorem simulate_u (lu : Solve) : (simulate settingsU.retries settingsU.simplified
    (newtonSolver (fun a b x c => (toNet hc).system (lu (toNet hc) a b x c) a b x c) settingsU.tolerance settingsU.iterations 10)
    (controlsAt (N := toNet hc) [0, 60] [10, 10]) [0, 30, 60] (some (entriesOf [60, 5, 70, 5]))).1 =
      Res.ok [some (stateK hc), some (stateK hc), some (stateK hc)] := by
  have h1 := controlsAt_k hc (t := 30) (by norm_num) (by norm_num)
  have h2 := controlsAt_k hc (t := 60) (by norm_num) le_rfl
  have h3 := fun u s => solve_k hc u s (t := 30) (by norm_num) (by norm_num)
  have h4 := fun u s => solve_k hc u s (t := 60) (by norm_num) (by norm_num)
  rw [initial_state_k]
  simp [simulate, loop, makeOneStep, attempts, newtonSolver, h1, h2, h3, h4, settingsU]

theorem after {α β : Type} {a : Res α} {x : α} {f : α → Res β} {Q : β → Prop} (h : a = Res.ok x) (h2 : ∃ y, f x = Res.ok y ∧ Q y) :
    ∃ y, (a >>= f) = Res.ok y ∧ Q y := by
  rw [h]
  exact h2

/-- The problem. -/
theorem optimization_u (draws : Json → Res (ℝ → Res (ℝ × ℝ))) (mem : ℕ → ℝ) (lu : Solve) :
    ∃ P, optimization draws mem lu 10 settingsU 2 filesK boundsK = Res.ok P ∧ P.times = [0, 30, 60] ∧ P.controlTimes = [0, 60] ∧
      P.constraintTimes = [60] ∧ P.constraints = 1 ∧
      P.simulation [10, 10] = Res.ok [some (ext (stateK hc)), some (ext (stateK hc)), some (ext (stateK hc))] := by
  have hstart := set_edge hc mem (q := 10) (by decide +kernel) (by decide +kernel)
  have hlower := set_edge hc mem (q := 0) (by decide +kernel) (by decide +kernel)
  have hupper := set_edge hc mem (q := 30) (by decide +kernel) (by decide +kernel)
  have hklower := set_node hc mem (q := 40) (by decide +kernel) (by decide +kernel)
  have hkupper := set_node hc mem (q := 80) (by decide +kernel) (by decide +kernel)
  push_cast at hstart hlower hupper hklower hkupper
  have hsel : selectConstraintTimes [(0 : ℝ), 30, 60] 2 = Res.ok [60] := rfl
  have hcheck : checkConstraintTimes [(0 : ℝ), 30, 60] [60] = Res.ok () := by
    obtain ⟨cons, h1, -, -, -, h2⟩ := C20_selection [(0 : ℝ), 30, 60] 2 (by norm_num) (by simp)
    rw [hsel] at h1
    injection h1 with h1
    subst h1
    exact h2
  have htimes : checkTimes [0, 30, 60] [0, 60] [60] = Res.ok () := by
    have := EPSILON_pos (K := ℝ)
    unfold checkTimes
    norm_num [this.le]
  obtain ⟨pairs, hpairs⟩ := pairs_u
  obtain ⟨w, hw, -⟩ := weights_eq [(0 : ℝ), 30, 60] (by simp)
  have hs := simulate_u hc lu
  unfold optimization
  refine after grid_u (after (read_k draws mem) ?_)
  rw [dif_pos hc]
  refine after (setup_k hc) (after (initial_k hc mem) ?_)
  simp only
  rw [if_pos (show 0 < (toNet hc).controlCount from Nat.zero_lt_one)]
  refine after control_grid_u (after hstart (after hsel (after hlower (after hupper (after hklower (after hkupper (after hpairs
    (after hw (after rfl (after (x := ()) rfl (after (x := ()) ?_ (after (x := ()) ?_ (after (x := ()) ?_ (after (x := ()) rfl
    (after (x := ()) rfl (after htimes (after hcheck ⟨_, rfl, rfl, rfl, rfl, rfl, ?_⟩)))))))))))))))))
  · simp [Read.ensure, haveSameStructure]
  · simp [Read.ensure, haveSameStructure]
  · simp [Read.ensure, haveSameStructure]
  · simp only
    rw [if_pos (show [(10 : ℝ), 10].length = (toNet hc).controlCount * [(0 : ℝ), 60].length from rfl)]
    exact Res.bind_eq_ok.mpr ⟨_, hs, rfl⟩

/-- C107 is false: the files have no mistake, the problem is set up, the simulation succeeds for the variables (10, 10). But the derivatives are not available. -/
theorem C107_false (draws : Json → Res (ℝ → Res (ℝ × ℝ))) (hdraw : ∀ data, draws data = Res.throws) (mem : ℕ → ℝ) (lu : Solve) :
    ∃ P states, optimization draws mem lu 10 settingsU 2 filesK boundsK = Res.ok P ∧ P.simulation [10, 10] = Res.ok states ∧
      none ∉ states ∧ ¬ ∃ gradient jacobian, P.derivatives none [10, 10] = Res.ok (some (gradient, jacobian)) := by
  obtain ⟨hc, -⟩ := C100_partial rfl shaped_k.1.1 shaped_k.1.2 shaped_k.2.1 shaped_k.2.2 (read_k draws mem) fit_k
  obtain ⟨P, hP, h1, h2, h3, h4, h5⟩ := optimization_u hc draws mem lu
  refine ⟨P, _, hP, h5, by simp, fun h => ?_⟩
  obtain ⟨-, this⟩ := (C107_available_iff (f := filesK) (s := settingsU) rfl shaped_k.1.1 shaped_k.1.2 shaped_k.2.1 shaped_k.2.2
    fit_k (by norm_num [settingsU]) (by norm_num [settingsU]) (by norm_num [settingsU])
    (fun t h0 h1 => covers_k h0 (h1.trans (by norm_num [settingsU]))) (by intro data d hd; rw [hdraw] at hd; cases hd) hP
    (read_k draws mem) hc (attached_k hc) h5 (by simp)).mp h
  rw [h1, h3, h4] at this
  norm_num at this

end Verif.Read
