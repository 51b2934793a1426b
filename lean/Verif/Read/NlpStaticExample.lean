import Verif.Read.NlpStatic
import Verif.Read.NlpDerivExample

/-!
# Cases for C181
-/

set_option autoImplicit false

namespace Verif.Read

open Verif.Json Verif.Factory Verif.Interp Verif.Schema Verif.Initial Verif.Times Verif.Newton Verif.Evolve Verif.OptTimes
  Verif.IndexLambda Verif.Weights Verif.Jacobian Verif.Adjoint Network Net Relation

/-- Problems are set up for every tolerance. -/
theorem optimization_tolerance {draws : Json → Res (ℝ → Res (ℝ × ℝ))} {mem : ℕ → ℝ} {lu : Solve} {fuel : ℕ} {s : Settings} {every : ℤ} {f : Files} {b : Bounds} {P : Nlp}
    (h : optimization draws mem lu fuel s every f b = Res.ok P) (tol : ℝ) : ∃ P', optimization draws mem lu fuel { s with tolerance := tol } every f b = Res.ok P' ∧
      P'.controls = P.controls ∧ P'.controlTimes = P.controlTimes ∧ P'.lower = P.lower ∧ P'.upper = P.upper := by
  unfold optimization at h
  obtain ⟨times, ht, h⟩ := Res.bind_eq_ok.mp h
  obtain ⟨g, hg, h⟩ := Res.bind_eq_ok.mp h
  split at h
  case isFalse => cases h
  next hc =>
  obtain ⟨_, h1, h⟩ := Res.bind_eq_ok.mp h
  obtain ⟨initial, h2, h⟩ := Res.bind_eq_ok.mp h
  simp only at h
  split at h
  case isFalse => cases h
  next hn =>
  obtain ⟨cgrid, h3, h⟩ := Res.bind_eq_ok.mp h
  obtain ⟨start, h4, h⟩ := Res.bind_eq_ok.mp h
  obtain ⟨ktimes, h5, h⟩ := Res.bind_eq_ok.mp h
  obtain ⟨lower, h6, h⟩ := Res.bind_eq_ok.mp h
  obtain ⟨upper, h7, h⟩ := Res.bind_eq_ok.mp h
  obtain ⟨klower, h8, h⟩ := Res.bind_eq_ok.mp h
  obtain ⟨kupper, h9, h⟩ := Res.bind_eq_ok.mp h
  obtain ⟨ps, h10, h⟩ := Res.bind_eq_ok.mp h
  obtain ⟨w, h11, h⟩ := Res.bind_eq_ok.mp h
  obtain ⟨jac, h12, h⟩ := Res.bind_eq_ok.mp h
  obtain ⟨_, h13, h⟩ := Res.bind_eq_ok.mp h
  obtain ⟨_, h14, h⟩ := Res.bind_eq_ok.mp h
  obtain ⟨_, h15, h⟩ := Res.bind_eq_ok.mp h
  obtain ⟨_, h16, h⟩ := Res.bind_eq_ok.mp h
  obtain ⟨_, h17, h⟩ := Res.bind_eq_ok.mp h
  obtain ⟨_, h18, h⟩ := Res.bind_eq_ok.mp h
  obtain ⟨_, h19, h⟩ := Res.bind_eq_ok.mp h
  obtain ⟨_, h20, h⟩ := Res.bind_eq_ok.mp h
  injection h with h
  subst h
  unfold optimization
  simp only [ht, hg, Res.ok_bind, dif_pos hc, h1, h2, if_pos hn, h3, h4, h5, h6, h7, h8, h9, h10, h11, h12, h13, h14, h15, h16, h17, h18, h19, h20]
  exact ⟨_, rfl, rfl, rfl, rfl, rfl⟩

section
variable (hc : Consistent graphK)

theorem short_k : ShortOnly (toNet hc) := by
  constructor
  · intro k
    refine ⟨.compressor, 0, ?_, trivial⟩
    revert k
    show ∀ k : Fin 1, _
    intro k
    rw [Subsingleton.elim k 0]
    rfl
  · show ∀ v : Fin 2, _
    intro v
    match v with
    | 0 => rfl
    | 1 => rfl

theorem noCircles_k : NoShortCircles (toNet hc) := by
  show ∀ k : Fin 1, _
  intro k _ h
  rw [Subsingleton.elim k 0] at h
  have none : ∀ v w, ShortWay (toNet hc) (0 : Fin 1) v w → v = (1 : Fin 2) := by
    rintro v w (⟨e, he, -⟩ | ⟨hv, -⟩)
    · exact absurd (Subsingleton.elim (α := Fin 1) e 0) he
    · revert v
      show ∀ v : Fin 2, _
      intro v
      match v with
      | 0 => intro hv; cases hv
      | 1 => intro _; rfl
  rcases ReflTransGen.cases_head h with h | ⟨w, hw, -⟩
  · exact absurd h (by show ¬ (0 : Fin 2) = 1; decide)
  · exact absurd (none _ _ hw) (by show ¬ (0 : Fin 2) = 1; decide)

theorem supplied_k (k : Fin (toNet hc).edges) : Supplied (toNet hc) ((toNet hc).src k) := by
  revert k
  show ∀ k : Fin 1, _
  intro k
  rw [Subsingleton.elim k 0]
  exact ⟨(1 : Fin 2), rfl, ReflTransGen.refl⟩

end

/-- The linear solver by Cramer's rule. -/
noncomputable def luCramer : Solve := fun N => N.factorized (cramer N.stateCount)

/-- C181 applies to the files of a compressor between a pressure node and a constrained sink: all variables can be evaluated, for every tolerance, and if the equations are
solved exactly every local optimum is a global one. -/
example (draws : Json → Res (ℝ → Res (ℝ × ℝ))) (hdraw : ∀ data, draws data = Res.throws) (mem : ℕ → ℝ) :
    (∃ P, optimization draws mem luCramer 10 settingsC 1 filesK boundsK = Res.ok P ∧
      ∀ x : List ℝ, x.length = 2 → ∃ a values, P.objective x = Res.ok a ∧ P.constraintValues x = Res.ok values) ∧
    ∃ P, optimization draws mem luCramer 10 { settingsC with tolerance := 0 } 1 filesK boundsK = Res.ok P ∧ P.upper = [30, 30] ∧
      ∀ x, LocalOptimum P x → GlobalOptimum P x := by
  obtain ⟨hc, -⟩ := C100_partial rfl shaped_k.1.1 shaped_k.1.2 shaped_k.2.1 shaped_k.2.2 (read_k draws mem) fit_k
  obtain ⟨hP, -⟩ := optimization_k hc draws mem luCramer
  refine ⟨⟨_, hP, fun x hx => ?_⟩, ?_⟩
  · obtain ⟨-, a, values, -, -, h1, h2⟩ := C181_total (f := filesK) (s := settingsC) rfl shaped_k.1.1 shaped_k.1.2 shaped_k.2.1 shaped_k.2.2
      fit_k (by norm_num [settingsC]) (by norm_num [settingsC]) (by norm_num [settingsC])
      (fun t h0 h1 => covers_k h0 (h1.trans (by norm_num [settingsC]))) (by intro data d hd; rw [hdraw] at hd; cases hd)
      (read_k draws mem) hc (attached_k hc) (short_k hc) (noCircles_k hc) (supplied_k hc) _ (cramer_solves _) rfl (by norm_num [settingsC]) hP x hx
    exact ⟨a, values, h1, h2⟩
  · obtain ⟨P', h1, -, -, -, h2⟩ := optimization_tolerance hP 0
    refine ⟨P', h1, h2, ?_⟩
    exact (C181_global (f := filesK) (s := { settingsC with tolerance := 0 }) rfl shaped_k.1.1 shaped_k.1.2 shaped_k.2.1 shaped_k.2.2
      fit_k (by norm_num [settingsC]) (by norm_num [settingsC]) (by norm_num [settingsC])
      (fun t h0 h1 => covers_k h0 (h1.trans (by norm_num [settingsC]))) (by intro data d hd; rw [hdraw] at hd; cases hd)
      (read_k draws mem) hc (attached_k hc) (short_k hc) (noCircles_k hc) (supplied_k hc) _ (cramer_solves _) rfl rfl h1).2

/-- The constraints for the controls 10 are the means of those for 0 and 20, up to a multiple of the tolerance. -/
example (draws : Json → Res (ℝ → Res (ℝ × ℝ))) (hdraw : ∀ data, draws data = Res.throws) (mem : ℕ → ℝ) :
    ∃ P C, optimization draws mem luCramer 10 settingsC 1 filesK boundsK = Res.ok P ∧ ∃ a b c α β γ, P.constraintValues [0, 0] = Res.ok a ∧
      P.constraintValues [20, 20] = Res.ok b ∧ P.constraintValues [10, 10] = Res.ok c ∧ a[0]? = some (some α) ∧ b[0]? = some (some β) ∧ c[0]? = some (some γ) ∧
      |γ - (α + β) / 2| ≤ C * settingsC.tolerance := by
  obtain ⟨hc, -⟩ := C100_partial rfl shaped_k.1.1 shaped_k.1.2 shaped_k.2.1 shaped_k.2.2 (read_k draws mem) fit_k
  obtain ⟨hP, -⟩ := optimization_k hc draws mem luCramer
  have hcov : ∀ t, settingsC.start ≤ t → t ≤ settingsC.stop → Covers filesK.defaults filesK.topology filesK.boundary t :=
    fun t h0 h1 => covers_k h0 (h1.trans (by norm_num [settingsC]))
  have hdr : ∀ data d, draws data = Res.ok d → ∀ t, settingsC.start ≤ t → t ≤ settingsC.stop → ∃ b, d t = Res.ok b := by
    intro data d hd; rw [hdraw] at hd; cases hd
  have total := C181_total (f := filesK) (s := settingsC) rfl shaped_k.1.1 shaped_k.1.2 shaped_k.2.1 shaped_k.2.2
    fit_k (by norm_num [settingsC]) (by norm_num [settingsC]) (by norm_num [settingsC]) hcov hdr
    (read_k draws mem) hc (attached_k hc) (short_k hc) (noCircles_k hc) (supplied_k hc) _ (cramer_solves _) rfl (by norm_num [settingsC]) hP
  obtain ⟨sx, -, -, x1, x2, -⟩ := total [0, 0] rfl
  obtain ⟨sy, -, -, y1, y2, -⟩ := total [20, 20] rfl
  obtain ⟨sz, -, -, z1, z2, -⟩ := total [10, 10] rfl
  have hmean : mean (1 / 2) [0, 0] [20, 20] = [10, 10] := by norm_num [mean]
  obtain ⟨C, -, h⟩ := C181_constraints (f := filesK) rfl shaped_k.1.1 shaped_k.1.2 shaped_k.2.1 shaped_k.2.2 fit_k (read_k draws mem) hc (attached_k hc)
    (short_k hc) (noCircles_k hc) (supplied_k hc)
  obtain ⟨pos, p1, -, h⟩ := h luCramer 10 settingsC 1 boundsK _ (by norm_num [settingsC]) (by norm_num [settingsC]) (by norm_num [settingsC]) hcov hdr hP
  obtain ⟨a, b, c, e1, e2, e3, h⟩ := h [0, 0] [20, 20] (1 / 2) (by norm_num) (by norm_num) sx sy sz x1 y1 (by rw [hmean]; exact z1) x2 y2 z2
  have hsink : ConstraintSink topologyK (graphK.nodes[(0 : Fin 2)]).id := ⟨_, List.mem_cons_self, rfl⟩
  obtain ⟨α, β, γ, k1, k2, k3, hle⟩ := h (0 : Fin 2) hsink 0 (by show 0 < 1; omega)
  have hpos : pos (0 : Fin 2) = 0 := by
    have : pos (0 : Fin 2) < 1 := p1 (0 : Fin 2) hsink
    omega
  rw [hpos, zero_mul] at k1 k2 k3
  rw [hmean] at e3
  refine ⟨_, C, hP, a, b, c, α, β, γ, e1, e2, e3, k1, k2, k3, ?_⟩
  rw [show (α + β) / 2 = 1 / 2 * α + (1 - 1 / 2) * β by ring]
  exact hle

end Verif.Read

namespace Verif.Network

open Verif.Net Relation

/-- C181 applies to a short pipe from a pressure node to a sink. -/
example : ∃ C : ℝ, ∀ x y z rx ry rz, shortNet.residual 0 60 (shortState, x, noControl) = Res.ok rx → shortNet.residual 0 60 (shortState, y, noControl) = Res.ok ry →
    shortNet.residual 0 60 (shortState, z, noControl) = Res.ok rz → Real.sqrt (∑ i, rx i ^ 2) ≤ 1 → Real.sqrt (∑ i, ry i ^ 2) ≤ 1 → Real.sqrt (∑ i, rz i ^ 2) ≤ 1 →
      ∀ i, |z i - (1 / 2 * x i + (1 - 1 / 2) * y i)| ≤ C := by
  obtain ⟨C, -, h⟩ := C181 shortNet short_admissible shortNet_shortOnly shortNet_noCircles (fun _ => ⟨(0 : Fin 2), rfl, ReflTransGen.refl⟩)
  refine ⟨C, fun x y z rx ry rz hx hy hz b1 b2 b3 i => ?_⟩
  have := h 0 60 (short_computable 60) shortState shortState shortState x y z noControl noControl (1 / 2) 1 (by norm_num) (by norm_num) rx ry rz hx hy
    (by rw [← add_smul, add_sub_cancel, one_smul]; exact hz) b1 b2 b3 i
  rwa [mul_one] at this

end Verif.Network
