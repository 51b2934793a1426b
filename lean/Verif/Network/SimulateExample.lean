import Verif.Network.Simulate

/-!
# A simulation that is only nearly right

A short pipe from a pressure node (60 bar) to a sink (5). The initial state has half a thousandth of a bar too much at the
start; with the tolerance one thousandth this is accepted at every time.
-/

set_option autoImplicit false

namespace Verif.Network

open Verif.Net Verif.Newton Verif.Evolve Finset

noncomputable section

/-- The network. -/
def shortNet : Net where
  nodes := 2
  edges := 1
  node v := ⟨if v = 0 then .pressure else .flow, fun _ => Res.ok (if v = 0 then 60 else -5, 0), 0, 0⟩
  edge _ := .gas .shortpipe 0
  src _ := 0
  dst _ := 1
  starting v := if v = 0 then [0] else []
  ending v := if v = 1 then [0] else []

/-- Pressure and flow at both ends. -/
def shortState : Fin shortNet.stateCount → ℝ := (![60.0005, 5, 60, 5] : Fin 4 → ℝ)

def noControl : Fin shortNet.controlCount → ℝ := fun _ => 0

end

theorem short_admissible : Admissible shortNet where
  starting := by
    show ∀ v : Fin 2, (if v = 0 then [(0 : Fin 1)] else []).Nodup ∧
      ∀ k : Fin 1, k ∈ (if v = 0 then [(0 : Fin 1)] else []) ↔ (0 : Fin 2) = v
    decide
  ending := by
    show ∀ v : Fin 2, (if v = 1 then [(0 : Fin 1)] else []).Nodup ∧
      ∀ k : Fin 1, k ∈ (if v = 1 then [(0 : Fin 1)] else []) ↔ (1 : Fin 2) = v
    decide
  noLoop := by show ∀ _ : Fin 1, (0 : Fin 2) ≠ 1; decide
  points := by intro k dx d r n h; injection h with h; cases h
  gasStart := by intro k kind n h; rfl
  gasEnd := by intro k kind n h _; rfl
  plantEnd := by intro k g p n h; injection h with h; cases h
  lines := by intro k G B h; cases h

theorem short_computable (t : ℝ) : Computable shortNet t where
  boundary v _ := ⟨_, rfl⟩
  pipes := by intro k dx d r n h; injection h with h; cases h

theorem short_finite (new : Vec) : shortNet.Finite new := by
  intro k dx d r n h; injection h with h; cases h

/-- The residual in general. -/
theorem short_residual (s t : ℝ) (x y : Fin shortNet.stateCount → ℝ) (c : Fin shortNet.controlCount → ℝ) :
    shortNet.residual s t (x, y, c) = Res.ok (![ext y 0 - 60, ext y 0 - ext y 2, ext y 1 - ext y 3, 5 - ext y 3] : Fin 4 → ℝ) := by
  have h : shortNet.evaluate s t (shortNet.args (x, y, c)) = Res.ok [.set 0 (ext y 0 - 60), .set 3 (-1 * (-5)),
      .inc 3 (-1 * ext y 3), .set 1 (ext y 0 - ext y 2), .set 2 (ext y 1 - ext y 3)] := rfl
  unfold Net.residual
  rw [h, Res.ok_bind]
  congr 1
  show (fun i : Fin 4 => _) = _
  funext i
  fin_cases i <;> simp [run, Op.apply]
  ring

theorem short_entry (j : ℕ) (h : j < 4) : ext shortState (j : ℤ) = (![60.0005, 5, 60, 5] : Fin 4 → ℝ) ⟨j, h⟩ := by
  unfold ext
  rw [dif_pos ⟨by omega, by show _ < 4; omega⟩]
  rfl

/-- The residual of the state with its own norm. -/
theorem short_norm (lu) (s t : ℝ) :
    (shortNet.system lu s t (some shortState) noControl).normY
      ((shortNet.system lu s t (some shortState) noControl).evaluate (some shortState)) =
    some (Real.sqrt (0.0005 ^ 2 + 0.0005 ^ 2)) := by
  have e0 := short_entry 0 (by norm_num)
  have e1 := short_entry 1 (by norm_num)
  have e2 := short_entry 2 (by norm_num)
  have e3 := short_entry 3 (by norm_num)
  simp only [Nat.cast_ofNat, Nat.cast_zero, Nat.cast_one] at e0 e1 e2 e3
  have hev : (shortNet.system lu s t (some shortState) noControl).evaluate (some shortState) =
      some (![0.0005, 0.0005, 0, 0] : Fin 4 → ℝ) := by
    simp only [Net.system, if_pos (short_finite _), short_residual, e0, e1, e2, e3]
    congr 1
    funext i
    revert i
    show ∀ i : Fin 4, _
    intro i
    fin_cases i <;> norm_num
  rw [hev]
  show some (Real.sqrt (∑ i : Fin 4, (![0.0005, 0.0005, 0, 0] : Fin 4 → ℝ) i ^ 2)) = _
  rw [Fin.sum_univ_four]
  show some (Real.sqrt ((0.0005 : ℝ) ^ 2 + 0.0005 ^ 2 + 0 ^ 2 + 0 ^ 2)) = _
  congr 2
  ring

theorem short_solve (lu) (s t : ℝ) (full : Bool) :
    solve (shortNet.system lu s t (some shortState) noControl) 0.001 5 full 10 (some shortState) =
      some (Res.ok (some shortState, ⟨true, some (Real.sqrt (0.0005 ^ 2 + 0.0005 ^ 2)), 0⟩)) := by
  have hle : Real.sqrt (0.0005 ^ 2 + 0.0005 ^ 2) ≤ 0.001 := by
    rw [Real.sqrt_le_left (by norm_num)]
    norm_num
  unfold solve
  simp only [short_norm]
  rw [if_pos (by simp [le, hle])]

/-- The simulation returns. -/
theorem short_simulation (lu : ℝ → ℝ → Option (Fin shortNet.stateCount → ℝ) → (Fin shortNet.controlCount → ℝ) →
      Option (Fin shortNet.stateCount → ℝ) →
      Option (Option (Fin shortNet.stateCount → ℝ) → Option (Fin shortNet.stateCount → ℝ))) : ∃ trace, simulate 1 true
      (newtonSolver (fun s t x c => shortNet.system (lu s t x c) s t x c) 0.001 5 10)
      (fun _ => Res.ok noControl) [0, 60, 120] (some shortState) =
      (Res.ok [some shortState, some shortState, some shortState], trace) := by
  simp [simulate, loop, makeOneStep, attempts, newtonSolver, short_solve]

/-- All hypotheses of `C85_simulation` are met; the laws hold up to a thousandth, and not exactly. -/
example : LawsWithin shortNet 0.001 60 120 ⟨ext shortState, ext shortState, ext noControl⟩ ∧
    ¬ Laws shortNet 60 120 ⟨ext shortState, ext shortState, ext noControl⟩ := by
  obtain ⟨trace, h⟩ := short_simulation (fun _ _ _ _ _ => none)
  obtain ⟨-, -, h3⟩ := C85_simulation shortNet short_admissible _ 0.001 5 (by norm_num) 10 1 true
    (fun _ => Res.ok noControl) [0, 60, 120] (fun t _ => short_computable t) shortState _ trace h
  obtain ⟨c, hc, -, hl⟩ := h3 1 (by simp) (by simp) shortState shortState rfl rfl (short_finite _)
  injection hc with hc
  subst hc
  refine ⟨hl, fun hl' => ?_⟩
  obtain ⟨P, hP, hb⟩ := hl'.pressures
  have h1 := (hP (0 : Fin 1) rfl).1
  have h2 := hb (0 : Fin 2) (60, 0) rfl rfl
  have e0 := short_entry 0 (by norm_num)
  simp only [Nat.cast_zero] at e0
  have h1 : ext shortState 0 = P (0 : Fin 2) := h1
  rw [e0, h2] at h1
  norm_num at h1

theorem short_attached : ∀ v, (shortNet.node v).kind = .flow →
    ∃ k, (shortNet.edge k).isGas ∧ (shortNet.src k = v ∨ shortNet.dst k = v) := by
  show ∀ v : Fin 2, _
  intro v hv
  match v, hv with
  | 0, h => cases h
  | 1, _ => exact ⟨(0 : Fin 1), rfl, Or.inr rfl⟩

/-- The slack is that of the short pipe and the sink. -/
theorem short_slack (dt : ℝ) : shortNet.slack dt = |dt| * Euler.rho0 + |dt| * Euler.rho0 := by
  unfold Net.slack
  have hs : ∀ f : Fin shortNet.edges → ℝ, ∑ k, f k = f (0 : Fin 1) := fun f => Fin.sum_univ_one f
  have hs2 : ∀ f : Fin shortNet.nodes → ℝ, ∑ k, f k = f (0 : Fin 2) + f (1 : Fin 2) := fun f => Fin.sum_univ_two f
  rw [hs, hs2]
  have e1 : shortNet.edgeSlack dt (0 : Fin 1) = |dt| * Euler.rho0 := rfl
  have e2 : shortNet.nodeSlack dt (0 : Fin 2) = 0 := rfl
  have e3 : shortNet.nodeSlack dt (1 : Fin 2) = |dt| * Euler.rho0 := rfl
  rw [e1, e2, e3, zero_add]

/-- All hypotheses of `C84_drift` and `C85_balance` are met by this simulation, whose residuals do not vanish. -/
example : |∑ k, shortNet.mass k (ext shortState) - (∑ k, shortNet.mass k (ext shortState) +
      ∑ i ∈ Finset.range 2, (60 * ((i + 1 : ℕ) : ℝ) - 60 * (i : ℝ)) * Euler.rho0 *
        (∑ v, shortNet.supply (60 * ((i + 1 : ℕ) : ℝ)) v (ext shortState) - ∑ k, shortNet.burnt k (ext shortState)))| ≤
      0.001 * (240 * Euler.rho0) := by
  obtain ⟨trace, h⟩ := short_simulation (fun _ _ _ _ _ => none)
  have := C85_balance shortNet short_admissible _ 0.001 (by norm_num) 5 (by norm_num) 10 1 true
    (fun _ => Res.ok noControl) (fun i => 60 * (i : ℝ)) 2 (fun i => short_computable _) short_attached
    (fun _ => shortState) trace (by
      have e : (List.range (2 + 1)).map (fun i : ℕ => 60 * (i : ℝ)) = [0, 60, 120] := by
        simp [List.range_succ]; norm_num
      rw [e]
      exact h) (fun _ _ => short_finite _)
  refine this.trans (le_of_eq ?_)
  simp only [short_slack, Finset.sum_range_succ, Finset.sum_range_zero]
  push_cast
  norm_num
  ring

end Verif.Network
