import Verif.Network.Converge
import Verif.Network.Equilibrium

/-! # Gas nearly at rest: a case for C118 -/

set_option autoImplicit false

namespace Verif.Network

open Verif.Net Verif.Newton Verif.Evolve Verif.Handler Verif.SmoothAbs

theorem calm_values : ext calmState 0 = 1 ∧ ext calmState 1 = 0 ∧ ext calmState 2 = 1 ∧ ext calmState 3 = 0 :=
  ⟨rfl, rfl, rfl, rfl⟩

theorem calm_regular (t : ℝ) : Regular pipeNet t (ext calmState) where
  boundary v _ := ⟨_, rfl⟩
  pipes := by
    intro k dx d r n h
    obtain rfl : k = (0 : Fin 1) := Subsingleton.elim (α := Fin 1) _ _
    injection h with h hn
    injection h with h1 h2 h3
    subst h1 h2 h3
    refine ⟨by norm_num, ⟨by norm_num, le_rfl, by norm_num⟩, ?_⟩
    intro j j1 j2 j3
    have j1 : 0 ≤ j := j1
    have j2 : j + 1 < 4 := j2
    have j3 : (j - 0) % 2 = 0 := j3
    have hre : Euler.reynolds 0 1 < 4000 := by
      unfold Euler.reynolds
      simp
    have : j = 0 ∨ j = 2 := by omega
    rcases this with rfl | rfl
    · rw [calm_values.1, show (0 : ℤ) + 1 = 1 from rfl, calm_values.2.1]; exact ⟨by norm_num, hre⟩
    · rw [calm_values.2.2.1, show (2 : ℤ) + 1 = 3 from rfl, calm_values.2.2.2]; exact ⟨by norm_num, hre⟩

theorem filled_new (s t : ℝ) (a : Args) {l r : ℝ × ℝ →L[ℝ] ℝ × ℝ}
    (hl : Box.dNewLeft (Box.eulerLaw 1 0) s t 100 (a.new 0, a.new 1) = Res.ok l)
    (hr : Box.dNewRight (Box.eulerLaw 1 0) s t 100 (a.new 2, a.new 3) = Res.ok r) :
    pipeNet.dNew s t a = Res.ok ([(0, 0, Euler.dp (a.new 0) / 100000), (0, 1, 0), (3, 2, 0), (3, 3, -1)] ++ Gas.cellEntries 1 l r) := by
  have h1 : forEach (List.finRange pipeNet.nodes) (fun v => pipeNet.nodeNew v a) =
      Res.ok [(0, 0, (Euler.rowMul (1, 0) ((Euler.dToBar (Euler.pQvol (a.new 0, a.new 1))).mul (Euler.dPQvol (a.new 0, a.new 1)))).1),
        (0, 1, (Euler.rowMul (1, 0) ((Euler.dToBar (Euler.pQvol (a.new 0, a.new 1))).mul (Euler.dPQvol (a.new 0, a.new 1)))).2),
        (3, 2, (Euler.rowMul (0, -1) ((Euler.dToBar (Euler.pQvol (a.new 2, a.new 3))).mul (Euler.dPQvol (a.new 2, a.new 3)))).1),
        (3, 3, (Euler.rowMul (0, -1) ((Euler.dToBar (Euler.pQvol (a.new 2, a.new 3))).mul (Euler.dPQvol (a.new 2, a.new 3)))).2)] := rfl
  have h2 : Gas.cellNew 100 1 0 s t 1 a = Res.ok (Gas.cellEntries 1 l r) := by
    unfold Gas.cellNew
    have e1 : Net.segment a.new (1 - 1) = (a.new 0, a.new 1) := rfl
    have e2 : Net.segment a.new (1 + 1) = (a.new 2, a.new 3) := rfl
    rw [e1, e2, hl, hr]
    rfl
  have h3 : forEach pipeNet.equationEdges (fun k => pipeNet.edgeNew k s t a) =
      (forEach [(0 : Fin 1)] fun _ => forEach [(1 : ℤ)] fun i => Gas.cellNew 100 1 0 s t i a) := rfl
  have h4 : forEach pipeNet.controlEdges (fun k => pipeNet.edgeNew k s t a) = Res.ok [] := rfl
  have hb : Euler.bar = 100000 := by unfold Euler.bar; norm_num
  unfold Net.dNew
  rw [h1, h3, h4]
  simp only [forEach, h2, Res.ok_bind, Euler.rowMul, Euler.dToBar, Euler.dPQvol, Euler.Mat2.mul, hb]
  simp
  ring

/-- The matrix at rest is invertible. -/
theorem calm_det {s t : ℝ} (h : s < t) (last : Fin pipeNet.stateCount → ℝ) (c : Fin pipeNet.controlCount → ℝ) :
    (pipeNet.newMatrix s t (last, calmState, c)).det ≠ 0 := by
  set a := pipeNet.args (last, calmState, c) with ha
  have a0 : a.new 0 = 1 := calm_values.1
  have a1 : a.new 1 = 0 := calm_values.2.1
  have a2 : a.new 2 = 1 := calm_values.2.2.1
  have a3 : a.new 3 = 0 := calm_values.2.2.2
  set A := circleArea (0.5 * 1) with hA
  have hA0 : 0 < A := by rw [hA]; unfold circleArea Pi; norm_num
  set lam := Euler.rho0 / (2 * A * 1) * 64 / Euler.coeffReynolds 1 with hlam
  have hlam0 : 0 < lam := by
    have := Euler.coeffReynolds_pos (d := 1) one_pos
    have : 0 < Euler.rho0 := by unfold Euler.rho0; norm_num
    positivity
  have hsrc : Euler.dsource 1 0 (1, 0) = Res.ok ⟨0, 0, 0, -lam⟩ := by
    unfold Euler.dsource
    have : Euler.reynolds 0 1 < Euler.laminarBorder := by unfold Euler.reynolds Euler.laminarBorder; simp
    simp only
    rw [if_pos this]
    congr 2
    · simp
    · rw [hlam, div_one]; ring
  set P := Euler.dp 1 with hP
  have hP0 : 0 < P := by
    have hD := (Euler.C31_density_round_trip 1).2 zero_le_one
    have hc : 0 < Euler.cVac := by unfold Euler.cVac Euler.p0 Euler.T Euler.z0 Euler.T0 Euler.rho0 Euler.bar; norm_num
    rw [hP]
    unfold Euler.dp
    simp only
    exact div_pos hc (mul_self_pos.mpr hD)
  have hrho : 0 < Euler.rho0 := by unfold Euler.rho0; norm_num
  have hl : Box.dNewLeft (Box.eulerLaw 1 0) s t 100 (a.new 0, a.new 1) = Res.ok ((0.5 : ℝ) • ContinuousLinearMap.id ℝ (ℝ × ℝ) -
      ((t - s) / 100) • (Euler.dflux 1 (1, 0)).map - (0.5 * (t - s)) • (Euler.Mat2.map ⟨0, 0, 0, -lam⟩)) := by
    rw [a0, a1]
    unfold Box.dNewLeft Box.eulerLaw
    simp only [hsrc, Res.ok_bind]
  have hr : Box.dNewRight (Box.eulerLaw 1 0) s t 100 (a.new 2, a.new 3) = Res.ok ((0.5 : ℝ) • ContinuousLinearMap.id ℝ (ℝ × ℝ) +
      ((t - s) / 100) • (Euler.dflux 1 (1, 0)).map - (0.5 * (t - s)) • (Euler.Mat2.map ⟨0, 0, 0, -lam⟩)) := by
    rw [a2, a3]
    unfold Box.dNewRight Box.eulerLaw
    simp only [hsrc, Res.ok_bind]
  have hnew := filled_new s t a hl hr
  set κ := (t - s) / 100 * (Euler.rho0 / A) with hκ
  set μ := (t - s) / 100 * (A / Euler.rho0 * P) with hμ
  set ν := 0.5 + 0.5 * (t - s) * lam with hν
  have hts : 0 < t - s := by linarith
  have hκ0 : 0 < κ := by positivity
  have hμ0 : 0 < μ := by positivity
  have hν0 : 0 < ν := by positivity
  have hentries : ([(0, 0, Euler.dp (a.new 0) / 100000), (0, 1, 0), (3, 2, 0), (3, 3, -1)] : List (Contribution ℝ)) ++ Gas.cellEntries 1
      ((0.5 : ℝ) • ContinuousLinearMap.id ℝ (ℝ × ℝ) - ((t - s) / 100) • (Euler.dflux 1 (1, 0)).map -
        (0.5 * (t - s)) • (Euler.Mat2.map ⟨0, 0, 0, -lam⟩))
      ((0.5 : ℝ) • ContinuousLinearMap.id ℝ (ℝ × ℝ) + ((t - s) / 100) • (Euler.dflux 1 (1, 0)).map -
        (0.5 * (t - s)) • (Euler.Mat2.map ⟨0, 0, 0, -lam⟩)) =
      [(0, 0, P / 100000), (0, 1, 0), (3, 2, 0), (3, 3, -1), (1, 0, 0.5), (1, 1, -κ), (2, 0, -μ), (2, 1, ν),
        (1, 2, 0.5), (1, 3, κ), (2, 2, μ), (2, 3, ν)] := by
    rw [a0, ← hP]
    simp only [Gas.cellEntries, Euler.dflux, Euler.Mat2.map, ← hA, ← hP, hκ, hμ, hν]
    simp
  rw [hentries] at hnew
  have hM : pipeNet.newMatrix s t (last, calmState, c) = matrixOf 4 4 [(0, 0, P / 100000), (0, 1, 0), (3, 2, 0), (3, 3, -1), (1, 0, 0.5),
      (1, 1, -κ), (2, 0, -μ), (2, 1, ν), (1, 2, 0.5), (1, 3, κ), (2, 2, μ), (2, 3, ν)] := by
    unfold Net.newMatrix
    rw [← ha, hnew]
    rfl
  intro hz
  rw [hM] at hz
  obtain ⟨v, hv, hz⟩ := Matrix.exists_mulVec_eq_zero_iff.mpr hz
  change Fin 4 → ℝ at v
  apply hv
  have hrow : ∀ i : Fin 4, applyRow [(0, 0, P / 100000), (0, 1, 0), (3, 2, 0), (3, 3, -1), (1, 0, 0.5),
      (1, 1, -κ), (2, 0, -μ), (2, 1, ν), (1, 2, 0.5), (1, 3, κ), (2, 2, μ), (2, 3, ν)] i.val (ext v) = 0 := by
    intro i
    refine (applyRow_ext (n := 4) (m := 4) _ ?_ i v).trans (congrFun hz i)
    simp
  have v0 : ext v 0 = v (0 : Fin 4) := rfl
  have v1 : ext v 1 = v (1 : Fin 4) := rfl
  have v2 : ext v 2 = v (2 : Fin 4) := rfl
  have v3 : ext v 3 = v (3 : Fin 4) := rfl
  have h0 := hrow 0
  have h1 := hrow 1
  have h2 := hrow 2
  have h3 := hrow 3
  simp [applyRow_cons, v0, v1, v2, v3, hP0.ne'] at h0 h1 h2 h3
  rw [h0, h3] at h1 h2
  have k1 : v 2 = 2 * κ * v 1 := by linarith
  rw [k1] at h2
  have k2 : (ν + 2 * κ * μ) * v 1 = 0 := by linarith
  have k3 : v 1 = 0 := (mul_eq_zero.mp k2).resolve_left (by positivity)
  rw [k3, mul_zero] at k1
  show (v : Fin 4 → ℝ) = 0
  funext i
  have : i = 0 ∨ i = 1 ∨ i = 2 ∨ i = 3 := by omega
  rcases this with rfl | rfl | rfl | rfl <;> assumption

/-- Cramer's rule as the linear solver. -/
noncomputable def cramer (n : ℕ) : Option (Res (List (Contribution ℝ))) → Option (Option (Fin n → ℝ) → Option (Fin n → ℝ))
  | some (.ok entries) => some (Option.map fun w => (matrixOf n n entries)⁻¹.mulVec w)
  | _ => none

theorem cramer_solves (n : ℕ) : Solves (cramer n) := by
  intro entries h
  refine ⟨_, rfl, fun w => ⟨_, rfl, ?_⟩⟩
  rw [Matrix.mulVec_mulVec, Matrix.mul_nonsing_inv _ (isUnit_iff_ne_zero.mpr h), Matrix.one_mulVec]

theorem calm_residual (s t : ℝ) (c : Fin pipeNet.controlCount → ℝ) : pipeNet.residual s t (calmState, calmState, c) = Res.ok 0 := by
  obtain ⟨r, hr, hiff⟩ := C72_residual_iff_laws pipeNet pipe_admissible s t (pipe_computable t) (calmState, calmState, c)
  rw [hr, hiff.mpr]
  exact C88_any_step (s' := s) (t' := t) pipeNet (pipe_computable 60) (by norm_num) (fun _ => rfl) _ _ (calm_laws _)

/-- Gas nearly at rest stays nearly at rest for a hundred steps of a minute. -/
example : ∃ E > 0, ∃ δ₀ > 0, ∀ δ, 0 < δ → δ ≤ δ₀ → ∃ m : ℕ, ∀ initial, ‖initial - calmState‖ ≤ δ → ∃ states : ℕ → Fin pipeNet.stateCount → ℝ, ∃ trace,
    simulate 1 true (newtonSolver (pipeNet.newton (cramer _)) δ m 0) (fun _ => Res.ok fun _ => 0)
      ((List.range (100 + 1)).map fun i => 60 * (i : ℝ)) (some initial) =
      (Res.ok ((List.range (100 + 1)).map fun i => some (states i)), trace) ∧ ∀ i ≤ 100, ‖states i - calmState‖ ≤ E * δ := by
  obtain ⟨r, hr, h⟩ := C118_simulation pipeNet pipe_admissible (cramer _) (cramer_solves _) (fun i => 60 * (i : ℝ)) 100 (by norm_num)
    (fun _ => calmState) (fun _ _ => 0) (fun _ _ => calm_regular _) (fun i _ => calm_residual _ _ _)
    (fun i _ => calm_det (by push_cast; linarith) _ _)
  obtain ⟨E, hE, δ₀, hδ₀, h⟩ := h (fun _ _ => by rw [sub_self, norm_zero]; exact hr)
  refine ⟨E, hE, δ₀, hδ₀, fun δ h0 h1 => ?_⟩
  obtain ⟨m, hm⟩ := h δ h0 h1 δ h0 le_rfl
  refine ⟨m, fun initial hi => ?_⟩
  obtain ⟨states, trace, e1, -, e2⟩ := hm m le_rfl initial (fun _ => Res.ok fun _ => 0) hi
    (fun i _ => ⟨_, rfl, by rw [sub_self, norm_zero]; exact h0.le⟩) 1 true 0
  exact ⟨states, trace, e1, e2⟩

end Verif.Network
