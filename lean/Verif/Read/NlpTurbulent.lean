import Verif.Read.NlpTurbulentRead
import Verif.Read.NlpUnavail

/-!
# C106 is false for turbulent flow

The problem that is set up for the files of `NlpTurbulentRead`: Ipopt gets a Jacobian that is not the derivative of the constraint.
-/

set_option autoImplicit false

namespace Verif.Read

open Verif.Json Verif.Factory Verif.Interp Verif.Schema Verif.Initial Verif.Times Network Net Newton Evolve OptTimes IndexLambda Weights
  Jacobian Matrix Verif.Handler Filter Topology

variable {i : Fin 5} (hc : Consistent (graphT i))

/-- The quotient of time step and cell width. -/
def quotientT (i : Fin 5) : ℝ := (i.val : ℝ) + 1

theorem quotient_pos (i : Fin 5) : 0 < quotientT i := by unfold quotientT; positivity

/-- One of the lengths is suitable. -/
theorem exists_length (t₀ t₁ m₁ : ℝ) : ∃ i : Fin 5, Fast.β (quotientT i) t₀ t₁ ≠ 0 ∧ Fast.β (quotientT i) t₀ m₁ ≠ 0 := by
  have hφ := Fast.φ_pos
  have hf := Fast.subsonic
  have key : ∀ w : ℝ, ∀ i : Fin 5, Fast.β (quotientT i) t₀ w = 0 →
      (0.25 - 0.25 * w) + quotientT i * (-0.5 * (Euler.dflux 1 (1, 1)).m11 - 0.5 * t₀ * Fast.φ) +
        quotientT i ^ 2 * ((Euler.dflux 1 (1, 1)).m10 * Fast.φ) = 0 := by
    intro w i h
    have hq := quotient_pos i
    unfold Fast.β at h
    field_simp at h
    linear_combination h
  have hpos : 0 < (Euler.dflux 1 (1, 1)).m10 * Fast.φ := mul_pos hf hφ
  by_contra hall
  push Not at hall
  have hor : ∀ i : Fin 5, Fast.β (quotientT i) t₀ t₁ = 0 ∨ Fast.β (quotientT i) t₀ m₁ = 0 := by
    intro i
    by_cases h : Fast.β (quotientT i) t₀ t₁ = 0
    · exact .inl h
    · exact .inr (hall i h)
  have h0 := (hor 0).imp (key _ _) (key _ _)
  have h1 := (hor 1).imp (key _ _) (key _ _)
  have h2 := (hor 2).imp (key _ _) (key _ _)
  have h3 := (hor 3).imp (key _ _) (key _ _)
  have h4 := (hor 4).imp (key _ _) (key _ _)
  simp only [quotientT] at h0 h1 h2 h3 h4
  norm_num at h0 h1 h2 h3 h4
  rcases h0 with h0 | h0 <;> rcases h1 with h1 | h1 <;> rcases h2 with h2 | h2 <;> rcases h3 with h3 | h3 <;> rcases h4 with h4 | h4 <;> linarith

/-! ## The equations -/

theorem boundary_ta {t : ℝ} (h0 : 0 ≤ t) (h1 : t ≤ 3600) : one ⟨[0, 3600], 1, [(barT : ℝ), (barT : ℝ)]⟩ t = Res.ok ((barT : ℝ), 0) :=
  boundary_at barT h0 h1

theorem boundary_tb {t : ℝ} (h0 : 0 ≤ t) (h1 : t ≤ 3600) : one ⟨[0, 3600], 1, [-1, -1]⟩ t = Res.ok (-1, 0) := by
  have := boundary_at (-1) h0 h1; push_cast at this; exact this

theorem pipe_edge_t : ∃ e : Gas.Edge, (toNet hc).gasEdge (1 : Fin 2) = some e ∧ e.kind = .pipe (1 / quotientT i) 1 0 ∧ Gas.cells e = [5] := by
  have hg : ∃ e : Gas.Edge, (toNet hc).gasEdge (1 : Fin 2) = some e ∧ e.kind = .pipe (1 / quotientT i) 1 0 ∧ e.first = 4 ∧ e.after = 8 :=
    ⟨_, rfl, rfl, rfl, rfl⟩
  obtain ⟨e, hg, e1, e2, e3⟩ := hg
  refine ⟨e, hg, e1, ?_⟩
  unfold Gas.cells Gas.equationStart Gas.equationAfter
  rw [e2, e3]
  rfl

theorem residual_t (s : ℝ) (x y : Fin (toNet hc).stateCount → ℝ) (c : Fin (toNet hc).controlCount → ℝ) {t : ℝ} (h0 : 0 ≤ t) (h1 : t ≤ 3600)
    {e : ℝ × ℝ} (he : Box.evaluatePoint (Box.eulerLaw 1 0) s t (1 / quotientT i) (ext x 4, ext x 5) (ext x 6, ext x 7) (ext y 4, ext y 5)
      (ext y 6, ext y 7) = Res.ok e) : (toNet hc).residual s t (x, y, c) =
      Res.ok (![ext y 0 - barT, ext y 2 - ext y 0 - ext c 0, ext y 3 - ext y 1, ext y 5 - ext y 3, ext y 2 - Euler.p (ext y 4) / 100000,
        e.1, e.2, 1 - ext y 7] : Fin 8 → ℝ) := by
  set a := (toNet hc).args (x, y, c) with ha
  have hb : (toNet hc).nodeEvaluate (0 : Fin 3) t a = Res.ok [.set 7 (-1 * (-1)), .inc 7 (-1 * ext y 7)] := by
    show (one ⟨[0, 3600], 1, [-1, -1]⟩ t).bind _ = _
    rw [boundary_tb h0 h1]
    rfl
  have hi : (toNet hc).nodeEvaluate (1 : Fin 3) t a = Res.ok [.set 3 (-1 * 0), .inc 3 (1 * ext y 5),
      .set 4 (ext y 2 - Euler.p (ext y 4) / 100000), .inc 3 (-1 * ext y 3)] := rfl
  have hp : (toNet hc).nodeEvaluate (2 : Fin 3) t a = Res.ok [.set 0 (ext y 0 - barT)] := by
    show (one ⟨[0, 3600], 1, [(barT : ℝ), (barT : ℝ)]⟩ t).bind _ = _
    rw [boundary_ta h0 h1]
    rfl
  have hn : forEach (List.finRange (toNet hc).nodes) (fun v => (toNet hc).nodeEvaluate v t a) =
      Res.ok [.set 7 (-1 * (-1)), .inc 7 (-1 * ext y 7), .set 3 (-1 * 0), .inc 3 (1 * ext y 5),
      .set 4 (ext y 2 - Euler.p (ext y 4) / 100000), .inc 3 (-1 * ext y 3), .set 0 (ext y 0 - barT)] := by
    show ((toNet hc).nodeEvaluate (0 : Fin 3) t a).bind (fun a0 => (((toNet hc).nodeEvaluate (1 : Fin 3) t a).bind fun b =>
      (((toNet hc).nodeEvaluate (2 : Fin 3) t a).bind fun b' => Res.ok (b' ++ [])).bind fun b' => Res.ok (b ++ b')).bind fun b =>
          Res.ok (a0 ++ b)) = _
    rw [hb, hi, hp]
    rfl
  have hy : forEach (toNet hc).equationEdges (fun k => (toNet hc).edgeEvaluate k s t a) = Res.ok [.set 5 e.1, .set 6 e.2] := by
    obtain ⟨f, hg, e1, hcells⟩ := pipe_edge_t hc
    have hcell : Gas.cellEvaluate (1 / quotientT i) 1 0 s t 5 a = Res.ok [.set 5 e.1, .set 6 e.2] := by
      unfold Gas.cellEvaluate
      have : Box.evaluatePoint (Box.eulerLaw 1 0) s t (1 / quotientT i) (segment a.last (5 - 1)) (segment a.last (5 + 1))
        (segment a.new (5 - 1)) (segment a.new (5 + 1)) = Res.ok e := he
      rw [this]
      rfl
    have hk : (toNet hc).edgeEvaluate (1 : Fin 2) s t a = forEach [5] fun j => Gas.cellEvaluate (1 / quotientT i) 1 0 s t j a := by
      unfold Net.edgeEvaluate
      rw [hg]
      simp only [e1]
      unfold Gas.edgeEvaluate
      simp only [e1, hcells]
    have he : (toNet hc).equationEdges = [(1 : Fin 2)] := rfl
    rw [he]
    simp only [forEach, hk, hcell, Res.ok_bind, List.append_nil]
  have hz : forEach (toNet hc).controlEdges (fun k => (toNet hc).edgeEvaluate k s t a) =
      Res.ok [.set 1 (ext y 2 - ext y 0 - ext c 0), .set 2 (ext y 3 - ext y 1 - 0)] := rfl
  unfold Net.residual Net.evaluate
  rw [← ha, hn, hy, hz]
  simp only [Res.ok_bind]
  congr 1
  show (fun j : Fin 8 => _) = _
  funext j
  fin_cases j <;> simp [Net.run, Op.apply]
  all_goals ring

theorem new_entries_t (s t : ℝ) (z : (toNet hc).Point) (L R : ℝ × ℝ →L[ℝ] ℝ × ℝ)
    (hL : Box.dNewLeft (Box.eulerLaw 1 0) s t (1 / quotientT i) (ext z.2.1 4, ext z.2.1 5) = Res.ok L)
    (hR : Box.dNewRight (Box.eulerLaw 1 0) s t (1 / quotientT i) (ext z.2.1 6, ext z.2.1 7) = Res.ok R) :
    (toNet hc).dNew s t ((toNet hc).args z) = Res.ok ([(7, 6, 0), (7, 7, -1), (3, 4, 0), (3, 5, 1), (4, 4, -(Euler.dp (ext z.2.1 4) / 100000)), (4, 5, 0),
      (4, 2, 1), (4, 3, 0), (3, 2, 0), (3, 3, -1), (0, 0, 1), (0, 1, 0)] ++ Gas.cellEntries 5 L R ++ [(1, 0, -1), (1, 2, 1), (2, 1, -1), (2, 3, 1)]) := by
  set a := (toNet hc).args z with ha
  have hx : forEach (List.finRange (toNet hc).nodes) (fun v => (toNet hc).nodeNew v a) =
      Res.ok [
        (7, 6, (Euler.rowMul (0, -1) ((Euler.dToBar (Euler.pQvol (a.new 6, a.new 7))).mul (Euler.dPQvol (a.new 6, a.new 7)))).1),
        (7, 7, (Euler.rowMul (0, -1) ((Euler.dToBar (Euler.pQvol (a.new 6, a.new 7))).mul (Euler.dPQvol (a.new 6, a.new 7)))).2),
        (3, 4, (Euler.rowMul (0, 1) ((Euler.dToBar (Euler.pQvol (a.new 4, a.new 5))).mul (Euler.dPQvol (a.new 4, a.new 5)))).1),
        (3, 5, (Euler.rowMul (0, 1) ((Euler.dToBar (Euler.pQvol (a.new 4, a.new 5))).mul (Euler.dPQvol (a.new 4, a.new 5)))).2),
        (4, 4, (Euler.rowMul (-1, 0) ((Euler.dToBar (Euler.pQvol (a.new 4, a.new 5))).mul (Euler.dPQvol (a.new 4, a.new 5)))).1),
        (4, 5, (Euler.rowMul (-1, 0) ((Euler.dToBar (Euler.pQvol (a.new 4, a.new 5))).mul (Euler.dPQvol (a.new 4, a.new 5)))).2),
        (4, 2, (1, 0).1), (4, 3, (1, 0).2), (3, 2, (0, -1).1), (3, 3, (0, -1).2), (0, 0, (1, 0).1), (0, 1, (1, 0).2)] := rfl
  have hy : forEach (toNet hc).equationEdges (fun k => (toNet hc).edgeNew k s t a) = Res.ok (Gas.cellEntries 5 L R) := by
    have hcell : Gas.cellNew (1 / quotientT i) 1 0 s t 5 a = Res.ok (Gas.cellEntries 5 L R) := by
      unfold Gas.cellNew
      have e1 : Box.dNewLeft (Box.eulerLaw 1 0) s t (1 / quotientT i) (segment a.new (5 - 1)) = Res.ok L := hL
      have e2 : Box.dNewRight (Box.eulerLaw 1 0) s t (1 / quotientT i) (segment a.new (5 + 1)) = Res.ok R := hR
      rw [e1, e2]; rfl
    obtain ⟨e, hg, e1, hcells⟩ := pipe_edge_t hc
    have hk : (toNet hc).edgeNew (1 : Fin 2) s t a = forEach [5] fun j => Gas.cellNew (1 / quotientT i) 1 0 s t j a := by
      unfold Net.edgeNew
      rw [hg]
      simp only [e1]
      unfold Gas.edgeNew
      simp only [e1, hcells]
    have he : (toNet hc).equationEdges = [(1 : Fin 2)] := rfl
    rw [he]
    simp only [forEach, hk, hcell, Res.ok_bind, List.append_nil]
  have hz : forEach (toNet hc).controlEdges (fun k => (toNet hc).edgeNew k s t a) =
      Res.ok [(1, 0, -1), (1, 2, 1), (2, 1, -1), (2, 3, 1)] := rfl
  have h4 : a.new 4 = ext z.2.1 4 := rfl
  unfold Net.dNew
  rw [hx, hy, hz]
  simp only [Res.ok_bind, Euler.rowMul, Euler.dToBar, Euler.dPQvol, Euler.Mat2.mul, Euler.bar, h4]
  congr 1
  simp only [List.cons_append, List.nil_append]
  norm_num
  ring

/-- The matrix with respect to the new state is the one of `Network.OptimizeTurbulent`. -/
theorem matrix_t (L R : ℝ × ℝ →L[ℝ] ℝ × ℝ) (q : ℝ) (A : List (Contribution ℝ)) :
    matrixOf 8 8 ([(7, 6, 0), (7, 7, -1), (3, 4, 0), (3, 5, 1), (4, 4, q), (4, 5, 0), (4, 2, 1), (4, 3, 0), (3, 2, 0), (3, 3, -1), (0, 0, 1),
      (0, 1, 0)] ++ Gas.cellEntries 5 L R ++ A) =
    matrixOf 8 8 ([(0, 0, 1), (0, 1, 0), (3, 4, 0), (3, 5, 1), (4, 4, q), (4, 5, 0), (4, 2, 1), (4, 3, 0), (3, 2, 0), (3, 3, -1), (7, 6, 0),
      (7, 7, -1)] ++ Gas.cellEntries 5 L R ++ A) := by
  ext j k
  show total _ _ _ = total _ _ _
  unfold total
  refine ((List.Perm.filter _ (List.Perm.append_right _ (List.Perm.append_right _ ?_))).map _).sum_eq
  refine (List.perm_append_comm (l₁ := [_, _]) (l₂ := [_, _, _, _, _, _, _, _, _, _])).trans ?_
  exact (List.Perm.append (List.perm_append_comm (l₁ := [_, _, _, _, _, _, _, _]) (l₂ := [_, _])) (List.Perm.refl [_, _]))

/-! ## The simulation -/

/-- Without a rise of the pressure: density and flow 1 in the pipe. -/
noncomputable def stateT : Fin (toNet hc).stateCount → ℝ := (![(barT : ℝ), 1, barT, 1, 1, 1, 1, 1] : Fin 8 → ℝ)

noncomputable def raiseT : Fin (toNet hc).controlCount → ℝ := (![0] : Fin 1 → ℝ)

/-- The tolerance of Newton's method is so large that the initial state is accepted. -/
noncomputable def settingsT : Settings := ⟨0, 1, 1, none, |Fast.S (1, 1)| + 1, 5, 1, true⟩

theorem eulerLaw_t : (∀ y, (Box.eulerLaw 1 0).source y = Res.ok (0, Fast.S y)) ∧ ∀ y, (Box.eulerLaw 1 0).flux y = (Fast.φ * y.2, Fast.F y) := by
  have hp : Euler.RealPipe 1 0 := Euler.turbulent_example.1
  refine ⟨fun y => ?_, fun y => rfl⟩
  show Euler.source 1 0 y = _
  unfold Fast.S
  rw [Euler.C34_source_defined hp y]; rfl

/-- The equations of the pipe, after density and flow 1 and if flow 1 leaves the pipe. -/
theorem point_t {r : ℝ × ℝ} {q : ℝ} (hq : q = Fast.Q (quotientT i) r) :
    Box.evaluatePoint (Box.eulerLaw 1 0) 0 1 (1 / quotientT i) (1, 1) (1, 1) (r.1, q) (r.2, 1) =
      Res.ok (0, Fast.Φ (quotientT i) r - Fast.S (1, 1)) := by
  have hcp := quotient_pos i
  obtain ⟨hs, hf⟩ := eulerLaw_t
  unfold Box.evaluatePoint
  simp only [hs, hf, Res.ok_bind]
  have hdt : (1 - 0 : ℝ) / (1 / quotientT i) = quotientT i := by field_simp; ring
  rw [hdt]
  congr 1
  refine Prod.ext ?_ ?_
  · have hφ := Fast.φ_pos
    simp only [Prod.fst_sub, Prod.fst_add, Prod.smul_fst, smul_eq_mul, hq, Fast.Q]
    field_simp
    ring
  · simp only [Prod.snd_sub, Prod.snd_add, Prod.smul_snd, smul_eq_mul]
    unfold Fast.Φ
    rw [← hq]
    ring

theorem entry_t (j : ℕ) (h : j < 8) : ext (stateT hc) (j : ℤ) = (![(barT : ℝ), 1, barT, 1, 1, 1, 1, 1] : Fin 8 → ℝ) ⟨j, h⟩ := by
  unfold Network.ext
  rw [dif_pos ⟨by omega, by show _ < 8; omega⟩]
  rfl

theorem entries_t : ext (stateT hc) 0 = barT ∧ ext (stateT hc) 1 = 1 ∧ ext (stateT hc) 2 = barT ∧ ext (stateT hc) 3 = 1 ∧ ext (stateT hc) 4 = 1 ∧
    ext (stateT hc) 5 = 1 ∧ ext (stateT hc) 6 = 1 ∧ ext (stateT hc) 7 = 1 :=
  ⟨rfl, rfl, rfl, rfl, rfl, rfl, rfl, rfl⟩

theorem residual_state_t : (toNet hc).residual 0 1 (stateT hc, stateT hc, raiseT hc) =
    Res.ok (![0, 0, 0, 0, 0, 0, -Fast.S (1, 1), 0] : Fin 8 → ℝ) := by
  obtain ⟨e0, e1, e2, e3, e4, e5, e6, e7⟩ := entries_t hc
  have e8 : ext (raiseT hc) 0 = 0 := rfl
  have hQ : (1 : ℝ) = Fast.Q (quotientT i) (1, 1) := by unfold Fast.Q; norm_num
  have hp := point_t (r := (1, 1)) hQ
  rw [Fast.Φ_zero, zero_sub] at hp
  rw [residual_t hc 0 (stateT hc) (stateT hc) (raiseT hc) (t := 1) (by norm_num) (by norm_num) (e := (0, -Fast.S (1, 1)))
    (by rw [e4, e5, e6, e7]; exact hp)]
  rw [e0, e1, e2, e3, e4, e5, e7, e8, barT_eq]
  norm_num
  rfl

theorem edges_t : ∀ k : Fin 2, (toNet hc).edge k = if k = 0 then .gas .compressor 0 else .gas (.pipe (1 / quotientT i) 1 0) 2 := by
  intro k
  match k with
  | 0 => rfl
  | 1 => rfl

theorem finite_t : (toNet hc).Finite (ext (stateT hc)) := by
  have hD := (Euler.C31_density_round_trip 1).2 one_pos.le
  obtain ⟨-, -, -, -, e4, -, e6, -⟩ := entries_t hc
  show ∀ k : Fin 2, _
  intro k dx d r n h j hj
  rw [edges_t hc k] at h
  match k with
  | 0 => injection h with h; cases h
  | 1 =>
    injection h with _ hn
    subst hn
    have : j = 0 ∨ j = 1 := by omega
    have hr : ((toNet hc).edgeRange (1 : Fin 2)).1 = 4 := rfl
    rw [hr]
    rcases this with rfl | rfl
    · norm_num
      rw [e4]
      exact ⟨one_ne_zero, by simpa using hD⟩
    · norm_num
      rw [e6]
      exact ⟨one_ne_zero, by simpa using hD⟩

theorem norm_t (lu) : ((toNet hc).system lu 0 1 (some (stateT hc)) (raiseT hc)).normY
    (((toNet hc).system lu 0 1 (some (stateT hc)) (raiseT hc)).evaluate (some (stateT hc))) = some |Fast.S (1, 1)| := by
  have hev : ((toNet hc).system lu 0 1 (some (stateT hc)) (raiseT hc)).evaluate (some (stateT hc)) =
      some (![0, 0, 0, 0, 0, 0, -Fast.S (1, 1), 0] : Fin 8 → ℝ) := by
    simp only [Net.system, if_pos (finite_t hc), residual_state_t]
    rfl
  rw [hev]
  show some (Real.sqrt (∑ i : Fin 8, (![0, 0, 0, 0, 0, 0, -Fast.S (1, 1), 0] : Fin 8 → ℝ) i ^ 2)) = _
  rw [Fin.sum_univ_eight]
  congr 1
  rw [← Real.sqrt_sq_eq_abs]
  congr 1
  simp

theorem solve_t (lu) (full : Bool) :
    solve ((toNet hc).system lu 0 1 (some (stateT hc)) (raiseT hc)) (|Fast.S (1, 1)| + 1) 5 full 10 (some (stateT hc)) =
      some (Res.ok (some (stateT hc), ⟨true, some |Fast.S (1, 1)|, 0⟩)) := by
  unfold solve
  simp only [norm_t hc lu]
  rw [if_pos (by simp [le])]

theorem initial_state_t : (entriesOf [(barT : ℝ), 1, barT, 1, 1, 1, 1, 1] : Fin (toNet hc).stateCount → ℝ) = stateT hc := by
  show (fun i : Fin 8 => _) = _
  funext i
  fin_cases i <;> rfl

theorem controlsAt_t : controlsAt (N := toNet hc) [0, 1] [0, 0] 1 = Res.ok (raiseT hc) := by
  refine Res.bind_eq_ok.mpr ⟨[0], ?_, ?_⟩
  · have := constant_value (fun _ => 0) 0 (T := 1) (t := 1) (by norm_num) (by norm_num) (by norm_num)
    push_cast at this
    exact this
  · congr 1
    show (fun i : Fin 1 => _) = _
    funext i
    rw [Subsingleton.elim i 0]
    rfl

theorem simulate_t (lu : Solve) : (simulate settingsT.retries settingsT.simplified
    (newtonSolver (fun a b x c => (toNet hc).system (lu (toNet hc) a b x c) a b x c) settingsT.tolerance settingsT.iterations 10)
    (controlsAt (N := toNet hc) [0, 1] [0, 0]) [0, 1] (some (entriesOf [(barT : ℝ), 1, barT, 1, 1, 1, 1, 1]))).1 =
      Res.ok [some (stateT hc), some (stateT hc)] := by
  rw [initial_state_t]
  simp [simulate, loop, makeOneStep, attempts, newtonSolver, solve_t, controlsAt_t, settingsT]

theorem weights_t : weights [(0 : ℝ), 1] = Res.ok [1 / 2, 1 / 2] := by
  obtain ⟨w, h1, h2, h3⟩ := weights_eq [(0 : ℝ), 1] (by simp)
  match w, h2 with
  | [a, b], _ =>
    have e1 := h3 0 (by simp) (by simp)
    have e2 := h3 1 (by simp) (by simp)
    simp at e1 e2
    rw [h1, e1, e2]
    norm_num

theorem pairs_t : computeIndexLambdaVector [(0 : ℝ), 1] [0, 1] = Res.ok [(0, 1), (1, 1)] := by
  have h1 : computeIndexLambda [(0 : ℝ), 1] 0 = Res.ok (0, 1) := by
    have hl : lowerBound [(0 : ℝ), 1] 0 = 0 := by simp [lowerBound, List.findIdx_cons]
    unfold computeIndexLambda
    simp only [List.getLast?_cons_cons, List.getLast?_singleton, hl]
    rw [if_neg (by norm_num)]
    rfl
  have h2 : computeIndexLambda [(0 : ℝ), 1] 1 = Res.ok (1, 1) := by
    have hl : lowerBound [(0 : ℝ), 1] 1 = 1 := by norm_num [lowerBound, List.findIdx_cons]
    unfold computeIndexLambda
    simp only [List.getLast?_cons_cons, List.getLast?_singleton, hl]
    rw [if_neg (by norm_num)]
    simp [Res.get]
  simp [computeIndexLambdaVector, h1, h2]

noncomputable def statesT (lu : Solve) (x : List ℝ) : Res (List (Option (Fin (toNet hc).stateCount → ℝ))) :=
  (simulate settingsT.retries settingsT.simplified
    (newtonSolver (fun a b x c => (toNet hc).system (lu (toNet hc) a b x c) a b x c) settingsT.tolerance settingsT.iterations 10)
    (controlsAt (N := toNet hc) [0, 1] x) [0, 1] (some (entriesOf [(barT : ℝ), 1, barT, 1, 1, 1, 1, 1]))).1

noncomputable def problemT (lu : Solve) : Nlp where
  times := [0, 1]
  controlTimes := [0, 1]
  constraintTimes := [1]
  controls := (toNet hc).controlCount
  constraints := (goals hc (topologyT i)).count
  start := [0, 0]
  lower := [-1, -1]
  upper := [1, 1]
  constraintLower := [0]
  constraintUpper := [2]
  jacobian := ⟨(goals hc (topologyT i)).count, (toNet hc).controlCount, 0 :: makeDataLoop [(1 : ℝ)] [1] 0 1 0⟩
  simulation x := if x.length = (toNet hc).controlCount * [(0 : ℝ), 1].length then do
      let z ← statesT hc lu x
      Res.ok (z.map (Option.map ext))
    else Res.ub
  objective x := if x.length = (toNet hc).controlCount * [(0 : ℝ), 1].length then do
      let z ← statesT hc lu x
      objectiveOf (goals hc (topologyT i)) [0, 1] [0, 1] x [1 / 2, 1 / 2] z
    else Res.ub
  constraintValues x := if x.length = (toNet hc).controlCount * [(0 : ℝ), 1].length then do
      let z ← statesT hc lu x
      constraintsOf (goals hc (topologyT i)) [0, 1] [0, 1] [1] x z
    else Res.throws
  derivatives oob x := if x.length = (toNet hc).controlCount * [(0 : ℝ), 1].length then do
      let z ← statesT hc lu x
      derivativesOf (goals hc (topologyT i)) [0, 1] [0, 1] [1] x [1 / 2, 1 / 2] [(0, 1), (1, 1)]
        ⟨(goals hc (topologyT i)).count, (toNet hc).controlCount, 0 :: makeDataLoop [(1 : ℝ)] [1] 0 1 0⟩ oob z
    else Res.ub

theorem check_t : checkConstraintTimes [(0 : ℝ), 1] [1] = Res.ok () := by
  obtain ⟨cons, h1, -, -, -, h2⟩ := C20_selection [(0 : ℝ), 1] 1 (by simp) (by simp)
  have hsel : selectConstraintTimes [(0 : ℝ), 1] 1 = Res.ok [1] := rfl
  rw [hsel] at h1
  injection h1 with h1
  subst h1
  exact h2

/-- The problem that is set up. -/
theorem optimization_t (draws : Json → Res (ℝ → Res (ℝ × ℝ))) (mem : ℕ → ℝ) (lu : Solve) :
    optimization draws mem lu 10 settingsT 1 (filesT i) boundsT = Res.ok (problemT hc lu) := by
  have hstart := set_edge_t hc mem (q := 0) (by decide +kernel) (by decide +kernel)
  have hlower := set_edge_t hc mem (q := -1) (by decide +kernel) (by decide +kernel)
  have hupper := set_edge_t hc mem (q := 1) (by decide +kernel) (by decide +kernel)
  have hklower := set_node_t hc mem (q := 0) (by decide +kernel) (by decide +kernel)
  have hkupper := set_node_t hc mem (q := 2) (by decide +kernel) (by decide +kernel)
  push_cast at hstart hlower hupper hklower hkupper
  have hsel : selectConstraintTimes [(0 : ℝ), 1] 1 = Res.ok [1] := rfl
  have htimes : checkTimes [0, 1] [0, 1] [1] = Res.ok () := by
    have := EPSILON_pos (K := ℝ)
    unfold checkTimes
    simp [this.le]
  unfold optimization
  refine Res.bind_eq_ok.mpr ⟨_, grid_t, Res.bind_eq_ok.mpr ⟨_, read_t i draws mem, ?_⟩⟩
  rw [dif_pos hc]
  refine Res.bind_eq_ok.mpr ⟨_, setup_t hc, Res.bind_eq_ok.mpr ⟨_, initial_t hc mem, ?_⟩⟩
  simp only
  rw [if_pos (show 0 < (toNet hc).controlCount from Nat.zero_lt_one)]
  refine Res.bind_eq_ok.mpr ⟨_, grid_t, Res.bind_eq_ok.mpr ⟨_, hstart, Res.bind_eq_ok.mpr ⟨_, hsel, Res.bind_eq_ok.mpr ⟨_, hlower,
    Res.bind_eq_ok.mpr ⟨_, hupper, Res.bind_eq_ok.mpr ⟨_, hklower, Res.bind_eq_ok.mpr ⟨_, hkupper, Res.bind_eq_ok.mpr ⟨_, pairs_t,
    Res.bind_eq_ok.mpr ⟨_, weights_t, Res.bind_eq_ok.mpr ⟨_, rfl, Res.bind_eq_ok.mpr ⟨(), rfl, Res.bind_eq_ok.mpr ⟨(), ?_,
    Res.bind_eq_ok.mpr ⟨(), ?_, Res.bind_eq_ok.mpr ⟨(), ?_, Res.bind_eq_ok.mpr ⟨(), rfl, Res.bind_eq_ok.mpr ⟨(), rfl,
    Res.bind_eq_ok.mpr ⟨(), htimes, Res.bind_eq_ok.mpr ⟨(), check_t, rfl⟩⟩⟩⟩⟩⟩⟩⟩⟩⟩⟩⟩⟩⟩⟩⟩⟩⟩
  all_goals simp [Read.ensure, haveSameStructure]

theorem simulation_t (lu : Solve) : (problemT hc lu).simulation [0, 0] = Res.ok [some (ext (stateT hc)), some (ext (stateT hc))] := by
  have hs : statesT hc lu [0, 0] = Res.ok [some (stateT hc), some (stateT hc)] := simulate_t hc lu
  have hl : [(0 : ℝ), 0].length = (toNet hc).controlCount * [(0 : ℝ), 1].length := rfl
  unfold problemT
  simp only
  rw [if_pos hl, hs, Res.ok_bind]
  rfl

theorem derivatives_t (lu : Solve) (oob : Option ℝ) : (problemT hc lu).derivatives oob [0, 0] =
    derivativesOf (goals hc (topologyT i)) [0, 1] [0, 1] [1] [0, 0] [1 / 2, 1 / 2] [(0, 1), (1, 1)] (problemT hc lu).jacobian oob
      [some (stateT hc), some (stateT hc)] := by
  have hs : statesT hc lu [0, 0] = Res.ok [some (stateT hc), some (stateT hc)] := simulate_t hc lu
  have hl : [(0 : ℝ), 0].length = (toNet hc).controlCount * [(0 : ℝ), 1].length := rfl
  unfold problemT
  simp only
  rw [if_pos hl, hs, Res.ok_bind]

theorem pattern_t (lu : Solve) : (problemT hc lu).jacobian = ⟨1, 1, [0, 1, 2]⟩ := by
  have : makeDataLoop [(1 : ℝ)] [1] 0 1 0 = [1, 2] := by
    unfold makeDataLoop
    rw [if_pos (by norm_num)]
    unfold makeDataLoop
    rfl
  unfold problemT
  rw [this]
  rfl

theorem attached_t : ∀ v : Fin (graphT i).nodes.length, ConstraintSink (topologyT i) (graphT i).nodes[v].id →
    ∃ k, ((toNet hc).edge k).isGas ∧ ((toNet hc).src k = v ∨ (toNet hc).dst k = v) := by
  show ∀ v : Fin 3, _
  intro v _
  match v with
  | 0 => exact ⟨(1 : Fin 2), rfl, .inr rfl⟩
  | 1 => exact ⟨(1 : Fin 2), rfl, .inl rfl⟩
  | 2 => exact ⟨(0 : Fin 2), rfl, .inl rfl⟩

/-- The matrix at the simulated state. -/
theorem new_t {t₀ m₁ : ℝ} (hM : Euler.dsource 1 0 (1, 1) = Res.ok ⟨0, 0, t₀, m₁⟩) (x : Fin (toNet hc).stateCount → ℝ)
    (u : Fin (toNet hc).controlCount → ℝ) : ∃ new, (toNet hc).dNew 0 1 ((toNet hc).args (x, stateT hc, u)) = Res.ok new ∧
      matrixOf 8 8 new = matrixOf 8 8 (Fast.newList (quotientT i) t₀ m₁) := by
  obtain ⟨-, -, -, -, e4, e5, e6, e7⟩ := entries_t hc
  have hcp := quotient_pos i
  have hdt : (1 - 0 : ℝ) / (1 / quotientT i) = quotientT i := by field_simp; ring
  have hds : (Box.eulerLaw 1 0).dsource (1, 1) = Res.ok (Euler.Mat2.mk 0 0 t₀ m₁).map := by
    show (Euler.dsource 1 0 (1, 1) >>= fun M => Res.ok M.map) = _
    rw [hM]; rfl
  refine ⟨_, new_entries_t hc 0 1 (x, stateT hc, u) _ _ (by simp only; unfold Box.dNewLeft; rw [e4, e5, hds]; rfl)
    (by simp only; unfold Box.dNewRight; rw [e6, e7, hds]; rfl), ?_⟩
  rw [matrix_t, hdt]
  simp only [e4, sub_zero]
  rfl

theorem det_t {t₀ m₁ : ℝ} (hβ : Fast.β (quotientT i) t₀ m₁ ≠ 0) : (matrixOf 8 8 (Fast.newList (quotientT i) t₀ m₁)).det ≠ 0 := by
  obtain ⟨r', hr', hr1⟩ := Fast.start_deriv
  have hdp : Euler.dp 1 / 100000 ≠ 0 := fun h0 => by rw [h0, zero_mul] at hr1; exact zero_ne_one hr1
  intro h0
  obtain ⟨v, hv, hz⟩ := Matrix.exists_mulVec_eq_zero_iff.mpr h0
  apply hv
  obtain ⟨v0, v1, v2, v3, v4, v5, v7, v46⟩ := Fast.variation (quotient_pos i) (v := v) (w := 0) (by
    rw [hz, zero_add]
    exact Matrix.mulVec_zero _)
  have v4 := (mul_eq_zero.mp v4).resolve_left hdp
  rw [v4, mul_zero, zero_add] at v46
  have v6 := (mul_eq_zero.mp v46).resolve_left hβ
  rw [v4, v6, add_zero, mul_zero] at v5
  rw [v5] at v1 v3
  funext i
  have : i = 0 ∨ i = 1 ∨ i = 2 ∨ i = 3 ∨ i = 4 ∨ i = 5 ∨ i = 6 ∨ i = 7 := by omega
  rcases this with rfl | rfl | rfl | rfl | rfl | rfl | rfl | rfl <;> assumption

theorem solvable_t {t₀ m₁ : ℝ} (hM : Euler.dsource 1 0 (1, 1) = Res.ok ⟨0, 0, t₀, m₁⟩) (hβ : Fast.β (quotientT i) t₀ m₁ ≠ 0) (lu : Solve) :
    Solvable (toNet hc) (problemT hc lu).times (problemT hc lu).controlTimes [0, 0] [some (Network.ext (stateT hc)), some (ext (stateT hc))] := by
  intro j h1 hj last new _ hnew c _
  have : j = 1 := by
    have : j < 2 := hj
    omega
  subst this
  obtain rfl : stateT hc = new := by
    have : some (some (Network.ext (stateT hc))) = some (some (ext new)) := hnew
    exact ext_inj (Option.some.inj (Option.some.inj this))
  obtain ⟨entries, h1, h2⟩ := new_t hc hM last c
  refine ⟨entries, h1, ?_⟩
  have e := det_t hβ
  rw [← h2] at e
  exact e

/-! ## The family -/

section Family
variable (ψ : ℝ → ℝ)

/-- The states as functions of the variables. -/
noncomputable def familyT : ℕ → (Fin 2 → ℝ) → Fin (toNet hc).stateCount → ℝ
  | 0, _ => stateT hc
  | _ + 1, u => (![(barT : ℝ), Fast.Q (quotientT i) (Fast.start (u 1), ψ (Fast.start (u 1))), barT + u 1,
      Fast.Q (quotientT i) (Fast.start (u 1), ψ (Fast.start (u 1))), Fast.start (u 1),
      Fast.Q (quotientT i) (Fast.start (u 1), ψ (Fast.start (u 1))), ψ (Fast.start (u 1)), 1] : Fin 8 → ℝ)

theorem family_value (h1 : ψ 1 = 1) (n : ℕ) {u : Fin 2 → ℝ} (hu : u 1 = 0) : familyT hc ψ n u = stateT hc := by
  cases n with
  | zero => rfl
  | succ n =>
    have hQ : Fast.Q (quotientT i) (1, 1) = 1 := by unfold Fast.Q; norm_num
    show (![(barT : ℝ), Fast.Q (quotientT i) (Fast.start (u 1), ψ (Fast.start (u 1))), barT + u 1,
      Fast.Q (quotientT i) (Fast.start (u 1), ψ (Fast.start (u 1))), Fast.start (u 1),
      Fast.Q (quotientT i) (Fast.start (u 1), ψ (Fast.start (u 1))), ψ (Fast.start (u 1)), 1] : Fin 8 → ℝ) = ![(barT : ℝ), 1, barT, 1, 1, 1, 1, 1]
    rw [hu, Fast.start_zero, h1, hQ, add_zero]

theorem family_t (lu : Solve) {ψ' : ℝ} (h1 : ψ 1 = 1) (hψ : ∀ᶠ r in 𝓝 1, Fast.Φ (quotientT i) (r, ψ r) = 0) (hd : HasDerivAt ψ ψ' 1) :
    Continues hc (problemT hc lu) [0, 0] [some (Network.ext (stateT hc)), some (ext (stateT hc))] (familyT hc ψ) := by
  obtain ⟨r', hr', -⟩ := Fast.start_deriv
  have hval : ∀ n, familyT hc ψ n (fun k : Fin 2 => ([0, 0] : List ℝ).getD k 0) = stateT hc := fun n => family_value hc ψ h1 n rfl
  have hev : Continuous fun u : Fin 2 → ℝ => u 1 := continuous_apply 1
  have hev0 : Tendsto (fun u : Fin 2 → ℝ => u 1) (𝓝 (fun k : Fin 2 => ([0, 0] : List ℝ).getD k 0)) (𝓝 0) := hev.tendsto' _ _ rfl
  have hst : Tendsto (fun u : Fin 2 → ℝ => Fast.start (u 1)) (𝓝 (fun k : Fin 2 => ([0, 0] : List ℝ).getD k 0)) (𝓝 1) := by
    have := hr'.continuousAt.tendsto.comp hev0
    rwa [Fast.start_zero] at this
  refine ⟨fun n hn => ?_, fun v => rfl, fun n hn => ?_, fun n hn1 hn => ?_⟩
  · have hn : n < 2 := hn
    have := hval n
    interval_cases n <;> exact congrArg (fun s => some (some (ext s))) this.symm
  · show ContinuousAt (familyT hc ψ n) _
    cases n with
    | zero => exact continuousAt_const
    | succ n =>
      have k1 : ContinuousAt (fun u : Fin 2 → ℝ => Fast.start (u 1)) (fun k : Fin 2 => ([0, 0] : List ℝ).getD k 0) := by
        show Tendsto _ _ (𝓝 (Fast.start 0))
        rw [Fast.start_zero]; exact hst
      have k2 : ContinuousAt (fun u : Fin 2 → ℝ => ψ (Fast.start (u 1))) (fun k : Fin 2 => ([0, 0] : List ℝ).getD k 0) := by
        show Tendsto _ _ (𝓝 (ψ (Fast.start 0)))
        rw [Fast.start_zero]; exact hd.continuousAt.tendsto.comp hst
      have k3 : ContinuousAt (fun u : Fin 2 → ℝ => Fast.Q (quotientT i) (Fast.start (u 1), ψ (Fast.start (u 1))))
          (fun k : Fin 2 => ([0, 0] : List ℝ).getD k 0) :=
        ContinuousAt.comp (g := Fast.Q (quotientT i)) (Fast.strict_Q (quotientT i) _).continuousAt (k1.prodMk k2)
      show ContinuousAt (fun (u : Fin 2 → ℝ) => (![(barT : ℝ), Fast.Q (quotientT i) (Fast.start (u 1), ψ (Fast.start (u 1))), barT + u 1,
        Fast.Q (quotientT i) (Fast.start (u 1), ψ (Fast.start (u 1))), Fast.start (u 1),
        Fast.Q (quotientT i) (Fast.start (u 1), ψ (Fast.start (u 1))), ψ (Fast.start (u 1)), 1] : Fin 8 → ℝ)) _
      refine continuousAt_pi.mpr fun j => ?_
      fin_cases j
      · exact continuousAt_const
      · exact k3
      · exact continuousAt_const.add hev.continuousAt
      · exact k3
      · exact k1
      · exact k3
      · exact k2
      · exact continuousAt_const
  · have : n = 1 := by
      have : n < 2 := hn
      omega
    subst this
    refine ⟨(![0, 0, 0, 0, 0, 0, -Fast.S (1, 1), 0] : Fin 8 → ℝ), ?_⟩
    filter_upwards [hev0.eventually Fast.start_pressure, hst.eventually hψ] with v hv1 hv2
    change Fin 2 → ℝ at v
    have hcon := controlsAt_pair (N := toNet hc) (cgrid := [0, 1]) (by simp) (by simp) (t := 1) (by simp)
      (by have := EPSILON_pos (K := ℝ); simp; linarith) (pairs_get pairs_t 1 (by simp)) v
    refine ⟨_, hcon, ?_⟩
    obtain ⟨-, -, -, -, s4, s5, s6, s7⟩ := entries_t hc
    have e4 : Network.ext (familyT hc ψ 1 v) 4 = Fast.start (v 1) := rfl
    have e5 : Network.ext (familyT hc ψ 1 v) 5 = Fast.Q (quotientT i) (Fast.start (v 1), ψ (Fast.start (v 1))) := rfl
    have e6 : Network.ext (familyT hc ψ 1 v) 6 = ψ (Fast.start (v 1)) := rfl
    have e7 : Network.ext (familyT hc ψ 1 v) 7 = 1 := rfl
    have hp := point_t (i := i) (r := (Fast.start (v 1), ψ (Fast.start (v 1)))) (q := Fast.Q (quotientT i) (Fast.start (v 1), ψ (Fast.start (v 1)))) rfl
    rw [hv2, zero_sub] at hp
    have hu : Network.ext (Adjoint.controlAt (m := (toNet hc).controlCount) ([((0 : ℕ), (1 : ℝ)), (1, 1)].getD 1 (0, 0))
        (Adjoint.extend (blocks (m := (toNet hc).controlCount) (q := 2) v))) 0 = v 1 := by
      unfold Network.ext
      rw [dif_pos ⟨le_rfl, by show (0 : ℕ) < 1; omega⟩]
      show (1 : ℝ) * v 1 + (1 - 1) * _ = v 1
      ring
    refine (residual_t hc 0 (stateT hc) (familyT hc ψ 1 v) _ (t := 1) (by norm_num) (by norm_num) (e := (0, -Fast.S (1, 1)))
      (by rw [s4, s5, s6, s7, e4, e5, e6, e7]; exact hp)).trans ?_
    have e0 : Network.ext (familyT hc ψ 1 v) 0 = barT := rfl
    have e1 : Network.ext (familyT hc ψ 1 v) 1 = Fast.Q (quotientT i) (Fast.start (v 1), ψ (Fast.start (v 1))) := rfl
    have e2 : Network.ext (familyT hc ψ 1 v) 2 = barT + v 1 := rfl
    have e3 : Network.ext (familyT hc ψ 1 v) 3 = Fast.Q (quotientT i) (Fast.start (v 1), ψ (Fast.start (v 1))) := rfl
    congr 1
    show (![Network.ext (familyT hc ψ 1 v) 0 - barT, Network.ext (familyT hc ψ 1 v) 2 - Network.ext (familyT hc ψ 1 v) 0 -
      Network.ext (Adjoint.controlAt (m := (toNet hc).controlCount) ([((0 : ℕ), (1 : ℝ)), (1, 1)].getD 1 (0, 0))
        (Adjoint.extend (blocks (m := (toNet hc).controlCount) (q := 2) v))) 0,
      Network.ext (familyT hc ψ 1 v) 3 - Network.ext (familyT hc ψ 1 v) 1, Network.ext (familyT hc ψ 1 v) 5 - Network.ext (familyT hc ψ 1 v) 3,
      Network.ext (familyT hc ψ 1 v) 2 - Euler.p (Network.ext (familyT hc ψ 1 v) 4) / 100000,
        0, -Fast.S (1, 1), 1 - Network.ext (familyT hc ψ 1 v) 7] : Fin 8 → ℝ) = ![0, 0, 0, 0, 0, 0, -Fast.S (1, 1), 0]
    rw [e0, e1, e2, e3, e4, e5, e7, hu, hv1, barT_eq]
    simp

end Family

/-! ## What is computed -/

/-- The entry of the Jacobian for the second variable is that of the linearised equations with the wrong derivative of the friction. -/
theorem entry_jacobian (lu : Solve) {t₀ m₁ : ℝ} (hM : Euler.dsource 1 0 (1, 1) = Res.ok ⟨0, 0, t₀, m₁⟩) {oob : Option ℝ}
    {gradient jacobian : List ℝ} (h : (problemT hc lu).derivatives oob [0, 0] = Res.ok (some (gradient, jacobian))) :
    ∃ v : Fin 8 → ℝ, jacobian[1]? = some (v 6) ∧
      matrixOf 8 8 (Fast.newList (quotientT i) t₀ m₁) *ᵥ v + matrixOf 8 1 [(1, 0, -1)] *ᵥ (fun _ => 1) = 0 := by
  rw [derivatives_t, pattern_t] at h
  unfold derivativesOf at h
  rw [if_neg (by simp)] at h
  obtain ⟨data, hdata, h⟩ := Res.bind_eq_ok.mp h
  obtain ⟨st, hsw, h⟩ := Res.bind_eq_ok.mp h
  match st, hsw, h with
  | some st, hsw, h =>
    injection h with h
    injection h with h
    injection h with _ hjac
    set I := inputOf (goals hc (topologyT i)) [0, 1] [0, 1] [1] [1 / 2, 1 / 2] [(0, 1), (1, 1)] ⟨1, 1, [0, 1, 2]⟩ oob data with hI
    obtain ⟨-, hdat⟩ := steps_get hdata
    obtain ⟨y, z, c, d1, d2, d3, d4⟩ := hdat 1 le_rfl (by simp)
    have d1 : some (some (stateT hc)) = some y := d1
    have d2 : some (some (stateT hc)) = some z := d2
    injection d1 with d1
    injection d2 with d2
    subst d1 d2
    obtain ⟨new, last, con, gs, gc, f1, f2, f3, f4, f5, g1, g2, g3, g4, g5, -⟩ := stepData_inv d4
    obtain ⟨new', n1, n2⟩ := new_t hc hM (stateT hc) c
    obtain rfl : new' = new := by
      have : Res.ok new' = Res.ok new := n1.symm.trans f1
      injection this
    obtain rfl : [(1, 0, -1)] = con := by
      have : Res.ok [(1, 0, -1)] = Res.ok con := Eq.trans (by rfl) f3
      injection this
    obtain rfl : [(0, 6, 1)] = gs := by
      have : Res.ok [(0, 6, 1)] = Res.ok gs := Eq.trans (by rfl) f4
      injection this
    obtain rfl : [] = gc := by
      have : Res.ok [] = Res.ok gc := Eq.trans (by rfl) f5
      injection this
    have hD : (I.data 1).dEdnew = matrixOf 8 8 (Fast.newList (quotientT i) t₀ m₁) := g1.trans n2
    have hCon : (I.data 1).dEdcontrol = matrixOf 8 1 [(1, 0, -1)] := g3
    have hgn : (I.data 1).dgdnew = matrixOf 1 8 [(0, 6, 1)] := g4
    have hgc : (I.data 1).dgdcontrol = matrixOf 1 1 [] := g5
    have hfrom : Adjoint.FromOptimizer I [0, 1] [0, 1] [1] := by
      refine ⟨fun j hj => ?_, rfl, rfl, pairs_get pairs_t, ⟨_, weights_t, fun j hj => ?_⟩, _, (Eq.trans (by
        have hl : makeDataLoop [(1 : ℝ)] [1] 0 1 0 = [1, 2] := by
          unfold makeDataLoop
          rw [if_pos (by norm_num)]
          unfold makeDataLoop
          rfl
        show Res.ok (⟨1, 1, 0 :: makeDataLoop [(1 : ℝ)] [1] 0 1 0⟩ : Jac) = Res.ok ⟨1, 1, [0, 1, 2]⟩
        rw [hl]) rfl), fun j _ => rfl⟩
      · have : j = 0 ∨ j = 1 := by simp at hj; omega
        rcases this with rfl | rfl <;> rfl
      · have : j = 0 ∨ j = 1 := by simp at hj; omega
        rcases this with rfl | rfl <;> rfl
    have hplaced := Adjoint.placed_of_accepted I [0, 1] [0, 1] [1] hfrom (by simp) check_t
    have hdet := sweep_det hsw
    let dU : ℕ → Fin (toNet hc).controlCount → ℝ := fun j _ => if j = 1 then 1 else 0
    obtain ⟨⟨dx, ht⟩, -⟩ := Adjoint.tangent_exists_unique I 1 hdet dU
    have hcode := (Adjoint.C16_jacobian_of_linearisation I 1 _ hplaced st hsw dU dx ht 0 (by show 0 < 1; omega)).1
    have hpos := hplaced.lower 0 (by show 0 < 1; omega)
    have hpos' := hplaced.upper 0 (by show 0 < 1; omega)
    have hpos1 : Adjoint.position [(0 : ℝ), 1] [1] 0 = 1 := le_antisymm hpos' hpos
    rw [hpos1, hgn, hgc] at hcode
    have hctrl : Adjoint.controlAt (I.pair 1) dU = fun _ => 1 := by
      funext j
      show (1 : ℝ) * 1 + (1 - 1) * 0 = 1
      ring
    have hv := ht.equation 1 le_rfl le_rfl
    rw [ht.initial, hctrl, Matrix.mulVec_zero, add_zero, hD, hCon] at hv
    refine ⟨dx 1, ?_, hv⟩
    rw [← hjac]
    have hlast := jacobianValues_get (jac := ⟨1, 1, [0, 1, 2]⟩) (s := st) (k := 1) (i := 0) (a := 0) (col := 1)
      (show 0 < (toNet hc).controlCount from Nat.zero_lt_one) (show 0 < (goals hc (topologyT i)).count from Nat.zero_lt_one) rfl
    rw [hlast]
    congr 1
    have e := congrFun hcode (0 : Fin 1)
    have e3 := applyRow_ext (n := 1) (m := 8) [(0, 6, 1)] (by simp) 0 (dx 1)
    have e4 := applyRow_ext (n := 1) (m := 1) [] (by simp) 0 (Adjoint.controlAt (I.pair 1) dU)
    have el : (∑ j ∈ Finset.range 2, st.jacobian 0 j *ᵥ dU j) (0 : Fin 1) = (matrixOf 1 8 [(0, 6, 1)] *ᵥ dx 1) 0 + (matrixOf 1 1 [] *ᵥ
      Adjoint.controlAt (I.pair 1) dU) 0 := e
    rw [← e3, ← e4] at el
    have : Network.ext (dx 1) 6 = dx 1 (6 : Fin 8) := rfl
    simp [applyRow_cons] at el
    refine Eq.trans ?_ (el.trans this)
    rw [Finset.sum_range_succ, Finset.sum_range_one]
    have u0 : dU 0 = 0 := by funext j; rfl
    have u1 : dU 1 = fun _ => 1 := by funext j; rfl
    have e1 : (st.jacobian 0 1 *ᵥ fun _ => 1) (0 : Fin 1) = st.jacobian 0 1 (0 : Fin 1) (0 : Fin 1) := by
      show (∑ k : Fin 1, st.jacobian 0 1 (0 : Fin 1) k * 1) = _
      rw [Fin.sum_univ_one, mul_one]
    rw [u0, u1, Matrix.mulVec_zero, zero_add]
    refine Eq.trans ?_ e1.symm
    have hq : 1 / (toNet hc).controlCount = 1 := by rw [show (toNet hc).controlCount = 1 from rfl]
    rw [hq]
    exact congrArg (fun k : Fin 1 => st.jacobian 0 1 (0 : Fin 1) k) (Subsingleton.elim (α := Fin 1) _ _)

/-! ## The property -/

/-- C106 for all flows: as in `C106_jacobian_partial`, but all that is assumed about the simulated states is that nothing keeps the equations
from being computed and that densities are positive. -/
def C106Statement : Prop := ∀ {draws : Json → Res (ℝ → Res (ℝ × ℝ))} {mem : ℕ → ℝ} {lu : Solve} {fuel : ℕ} {s : Settings} {every : ℤ}
    {f : Files} {b : Bounds}
    (_ : f.topology.isObj = true) (_ : Shaped f.topology) (_ : DistinctTypes f.topology) (_ : Shaped f.boundary)
    (_ : DistinctTypes f.boundary) (_ : Fit f.defaults f.topology) (_ : s.start < s.stop) (_ : 0 < s.desired)
    (_ : 1 ≤ s.iterations) (_ : ∀ t, s.start ≤ t → t ≤ s.stop → Covers f.defaults f.topology f.boundary t)
    (_ : ∀ data d, draws data = Res.ok d → ∀ t, s.start ≤ t → t ≤ s.stop → ∃ b, d t = Res.ok b)
    {P : Nlp} (_ : optimization draws mem lu fuel s every f b = Res.ok P)
    {g : Graph Network.Node EdgeKind} (_ : readNet draws mem f.defaults f.topology f.boundary = Res.ok g) (hc : Consistent g)
    (_ : ∀ v : Fin g.nodes.length, ConstraintSink f.topology g.nodes[v].id →
      ∃ k, ((toNet hc).edge k).isGas ∧ ((toNet hc).src k = v ∨ (toNet hc).dst k = v)),
    ∃ (pos : Fin g.nodes.length → ℕ) (place : Fin g.nodes.length → ℤ),
      (∀ x values states, P.constraintValues x = Res.ok values → P.simulation x = Res.ok states →
        ∀ v : Fin g.nodes.length, ConstraintSink f.topology g.nodes[v].id → pos v < P.constraints ∧
          ∀ i j : ℕ, i < P.constraintTimes.length → P.constraintTimes[i]? = P.times[j]? → ∀ z, states[j]? = some (some z) →
            values[i * P.constraints + pos v]? = some (some (z (place v)))) ∧
      (∀ x values z, z.length = P.times.length → x.length = P.controls * P.controlTimes.length →
        constraintsOf (goals hc f.topology) P.times P.controlTimes P.constraintTimes x z = Res.ok values →
        ∀ v : Fin g.nodes.length, ConstraintSink f.topology g.nodes[v].id →
          ∀ i j : ℕ, i < P.constraintTimes.length → P.constraintTimes[i]? = P.times[j]? → ∀ y, z[j]? = some (some y) →
            values[i * P.constraints + pos v]? = some (some (ext y (place v)))) ∧
      ∀ oob x gradient jacobian states, P.derivatives oob x = Res.ok (some (gradient, jacobian)) → P.simulation x = Res.ok states →
        jacobian.length = P.jacobian.supplyIndices.length ∧
        ∀ X, Continues hc P x states X →
        (∀ i, 1 ≤ i → ∀ hi : i < P.times.length, Computable (toNet hc) P.times[i] ∧ ∀ k dx d r n, (toNet hc).edge k = .gas (.pipe dx d r) n →
          ∀ j : ℤ, ((toNet hc).edgeRange k).1 ≤ j → j + 1 < ((toNet hc).edgeRange k).2 → (j - ((toNet hc).edgeRange k).1) % 2 = 0 →
            0 < ext (X i fun k => x.getD k 0) j) →
        ∀ v : Fin g.nodes.length, ConstraintSink f.topology g.nodes[v].id →
        ∀ i j : ℕ, i < P.constraintTimes.length → P.constraintTimes[i]? = P.times[j]? →
        ∃ D : (Fin (P.controls * P.controlTimes.length) → ℝ) →L[ℝ] ℝ,
          HasFDerivAt (fun u => ext (X j u) (place v)) D (fun k => x.getD k 0) ∧ ∀ col,
            (∀ k : ℕ, P.jacobian.supplyIndices[k]? = some (i * P.constraints + pos v, col.val) →
              jacobian[k]? = some (D (Pi.single col 1))) ∧
            ((i * P.constraints + pos v, col.val) ∉ P.jacobian.supplyIndices → D (Pi.single col 1) = 0)

theorem computable_t : Computable (toNet hc) 1 where
  boundary := by
    show ∀ v : Fin 3, _
    intro v hv
    match v with
    | 0 => exact ⟨_, boundary_tb (by norm_num) (by norm_num)⟩
    | 1 => exact absurd rfl hv
    | 2 => exact ⟨_, boundary_ta (by norm_num) (by norm_num)⟩
  pipes := by
    show ∀ k : Fin 2, _
    intro k dx d r n h
    rw [edges_t hc k] at h
    match k with
    | 0 => injection h with h; cases h
    | 1 =>
      injection h with h _
      injection h with h1 h2 h3
      subst h1 h2 h3
      exact ⟨(one_div_pos.mpr (quotient_pos i)).ne', Euler.turbulent_example.1⟩

theorem positive_t : ∀ k dx d r n, (toNet hc).edge k = .gas (.pipe dx d r) n → ∀ j : ℤ, ((toNet hc).edgeRange k).1 ≤ j →
    j + 1 < ((toNet hc).edgeRange k).2 → (j - ((toNet hc).edgeRange k).1) % 2 = 0 → 0 < ext (stateT hc) j := by
  obtain ⟨-, -, -, -, e4, -, e6, -⟩ := entries_t hc
  show ∀ k : Fin 2, _
  intro k dx d r n h j hj1 hj2 hj3
  rw [edges_t hc k] at h
  match k with
  | 0 => injection h with h; cases h
  | 1 =>
    have hj1 : 4 ≤ j := hj1
    have hj2 : j + 1 < 8 := hj2
    have hj3 : (j - 4) % 2 = 0 := hj3
    have : j = 4 ∨ j = 6 := by omega
    rcases this with rfl | rfl
    · rw [e4]; exact one_pos
    · rw [e6]; exact one_pos

/-- C106 as stated is false: with turbulent flow in a pipe Ipopt gets a Jacobian that is not the derivative of the constraints (because of
`C33`). -/
theorem C106_false : ¬ C106Statement := by
  intro h
  obtain ⟨t₀, t₁, m₁, hM, hS, hne⟩ := Fast.source_data
  obtain ⟨i, hβ, hβ'⟩ := exists_length t₀ t₁ m₁
  obtain ⟨ψ, ψ', hψ1, hψ, hdψ, hψ'⟩ := Fast.exists_ψ (quotientT i) hS hβ
  obtain ⟨r', hr', hr1⟩ := Fast.start_deriv
  have hφ := Fast.φ_pos
  have hcp := quotient_pos i
  let draws : Json → Res (ℝ → Res (ℝ × ℝ)) := fun _ => Res.throws
  let mem : ℕ → ℝ := fun _ => 0
  let lu : Solve := fun _ _ _ _ _ _ => none
  have hdraw : ∀ data d, draws data = Res.ok d → ∀ t, settingsT.start ≤ t → t ≤ settingsT.stop → ∃ b, d t = Res.ok b := by
    intro data d hd
    cases hd
  have hcov : ∀ t, settingsT.start ≤ t → t ≤ settingsT.stop → Covers (filesT i).defaults (filesT i).topology (filesT i).boundary t :=
    fun t h0 h1 => covers_t i h0 (h1.trans (by norm_num [settingsT]))
  obtain ⟨hc, hadm, -⟩ := C100_partial rfl (shaped_t i).1.1 (shaped_t i).1.2 (shaped_t i).2.1 (shaped_t i).2.2 (read_t i draws mem) (fit_t i)
  have hP := optimization_t hc draws mem lu
  have hsim := simulation_t hc lu
  obtain ⟨gradient, jacobian, hx⟩ := (C107_available_iff (f := filesT i) (s := settingsT) rfl (shaped_t i).1.1 (shaped_t i).1.2 (shaped_t i).2.1
    (shaped_t i).2.2 (fit_t i) (by norm_num [settingsT]) (by norm_num [settingsT]) (by norm_num [settingsT]) hcov hdraw hP (read_t i draws mem) hc
    (attached_t hc) hsim (by simp)).mpr ⟨solvable_t hc hM hβ' lu, .inr rfl⟩
  obtain ⟨pos, place, -, hplace, hjac⟩ := h (f := filesT i) (s := settingsT) rfl (shaped_t i).1.1 (shaped_t i).1.2 (shaped_t i).2.1 (shaped_t i).2.2
    (fit_t i) (by norm_num [settingsT]) (by norm_num [settingsT]) (by norm_num [settingsT]) hcov hdraw hP (read_t i draws mem) hc (attached_t hc)
  have hsink : ConstraintSink (topologyT i) ((graphT i).nodes[(0 : Fin 3)]).id := ⟨_, List.mem_cons_self, rfl⟩
  -- the constraint is the density at the end of the pipe
  have hat : pos (0 : Fin 3) = 0 ∧ place (0 : Fin 3) = 6 := by
    let y : Fin (toNet hc).stateCount → ℝ := (Pi.single 6 1 : Fin 8 → ℝ)
    have hy6 : Network.ext y 6 = 1 := by
      show (Pi.single 6 1 : Fin 8 → ℝ) 6 = 1
      simp
    have hG : (goals hc (topologyT i)).Attached := by
      show ∀ v : Fin 3, _
      intro v hv
      match v with
      | 0 => exact ⟨rfl, by show [_] ≠ []; simp⟩
      | 1 => cases hv
      | 2 => cases hv
    obtain ⟨values, h1, h2, h3⟩ := constraints_eq hadm (goals hc (topologyT i)) hG (times := [0, 1]) (cgrid := [0, 1]) (ktimes := [1])
      (x := [0, 0]) (states := [some y, some y]) (by simp) (by simp) rfl (by
        intro t ht
        exact controls_ok rfl (by simp) (by simp) (by simp at ht ⊢; rcases ht with rfl | rfl <;> norm_num)
          (by have := EPSILON_pos (K := ℝ); simp at ht ⊢; rcases ht with rfl | rfl <;> linarith))
    have h4 := hplace [0, 0] values [some y, some y] rfl rfl h1 (0 : Fin 3) hsink 0 1 (by show 0 < 1; omega) rfl y rfl
    have h5 : values[0]? = some (some (Network.ext y 6)) := h3 (0 : Fin 3) rfl 0 1 (by show 0 < 1; omega) rfl y rfl
    have h6 : values[0 * 1 + pos (0 : Fin 3)]? = some (some (Network.ext y (place (0 : Fin 3)))) := h4
    have hlen : values.length = 1 := h2
    have hp : pos (0 : Fin 3) = 0 := by
      have := (List.getElem?_eq_some_iff.mp h6).1
      omega
    refine ⟨hp, ?_⟩
    rw [hp] at h6
    have h7 : Network.ext y (place (0 : Fin 3)) = 1 := by
      have := h6.symm.trans h5
      rw [hy6] at this
      exact Option.some.inj (Option.some.inj this)
    by_contra hne6
    unfold Network.ext at h7
    split at h7
    · next hr =>
      have hlt : (place (0 : Fin 3)).toNat < 8 := hr.2
      have e : (Pi.single 6 1 : Fin 8 → ℝ) ⟨_, hlt⟩ = 1 := h7
      rw [Pi.single_apply, if_neg (by
        intro e
        have := congrArg Fin.val e
        have : (place (0 : Fin 3)).toNat = 6 := this
        omega)] at e
      exact zero_ne_one e
    · exact zero_ne_one h7
  obtain ⟨-, h4⟩ := hjac none _ _ _ _ hx hsim
  obtain ⟨D, hD, hcol⟩ := h4 (familyT hc ψ) (family_t hc ψ lu hψ1 hψ hdψ) (fun n h1 hn => by
      have : n = 1 := by
        have : n < 2 := hn
        omega
      subst this
      refine ⟨computable_t hc, ?_⟩
      have e : familyT hc ψ 1 (fun k : Fin 2 => ([0, 0] : List ℝ).getD k 0) = stateT hc := family_value hc ψ hψ1 1 rfl
      have hp := positive_t hc
      rw [← e] at hp
      exact hp) (0 : Fin 3) hsink 0 1 (by show 0 < 1; omega) rfl
  -- the derivative
  have htrue : D (Pi.single (1 : Fin 2) 1) = ψ' * r' := by
    have hD1 : HasFDerivAt (fun u : Fin 2 → ℝ => Network.ext (familyT hc ψ 1 u) 6) D (fun k : Fin 2 => ([0, 0] : List ℝ).getD k 0) := by
      have := hD
      rw [hat.2] at this
      exact this
    have hcomp : HasDerivAt (fun τ : ℝ => ψ (Fast.start τ)) (ψ' * r') 0 :=
      HasDerivAt.comp (h₂ := ψ) (h := Fast.start) (0 : ℝ) (by rw [Fast.start_zero]; exact hdψ) hr'
    have hD2 : HasFDerivAt (fun u : Fin 2 → ℝ => ψ (Fast.start (u 1))) ((ψ' * r') • ContinuousLinearMap.proj (R := ℝ) (φ := fun _ : Fin 2 => ℝ) 1)
        (fun k : Fin 2 => ([0, 0] : List ℝ).getD k 0) :=
      HasDerivAt.comp_hasFDerivAt (h₂ := fun τ : ℝ => ψ (Fast.start τ)) (f := fun u : Fin 2 → ℝ => u 1)
        (fun k : Fin 2 => ([0, 0] : List ℝ).getD k 0) hcomp (hasFDerivAt_apply (𝕜 := ℝ) (F' := fun _ : Fin 2 => ℝ) 1 _)
    have : D = (ψ' * r') • ContinuousLinearMap.proj (R := ℝ) (φ := fun _ : Fin 2 => ℝ) 1 :=
      HasFDerivAt.unique (𝕜 := ℝ) (E := Fin 2 → ℝ) hD1 hD2
    have w : ((ψ' * r') • ContinuousLinearMap.proj (R := ℝ) (φ := fun _ : Fin 2 => ℝ) 1) (Pi.single (1 : Fin 2) 1) = ψ' * r' := by simp
    rw [this]
    exact w
  -- what is computed
  obtain ⟨v, hv, heq⟩ := entry_jacobian hc lu hM hx
  have hsum : ψ' * r' = v 6 := by
    have h5 := (hcol (1 : Fin 2)).1 1 (by rw [pattern_t, hat.1]; rfl)
    have : some (v 6) = some (D (Pi.single (1 : Fin 2) 1)) := hv.symm.trans h5
    rw [← htrue]
    exact (Option.some.inj this).symm
  obtain ⟨-, -, -, -, v4, -, -, v46⟩ := Fast.variation hcp (v := v) (w := 1) heq
  have hdp : Euler.dp 1 / 100000 ≠ 0 := fun h0 => by rw [h0, zero_mul] at hr1; exact zero_ne_one hr1
  have hv4 : v 4 = r' := mul_left_cancel₀ hdp (v4.trans hr1.symm)
  have hv6 : v 6 = ψ' * v 4 := by rw [hv4, hsum]
  have hr0 : v 4 ≠ 0 := fun h0 => by rw [h0, mul_zero] at v4; exact zero_ne_one v4
  have hT : Fast.α (quotientT i) t₀ t₁ * v 4 + Fast.β (quotientT i) t₀ t₁ * v 6 = 0 := by
    rw [hv6]
    linear_combination v 4 * hψ'
  have hdiff : 0.5 / (quotientT i * Fast.φ) * (0.5 * (t₁ - m₁)) * (v 4 + v 6) = 0 := by
    unfold Fast.α Fast.β at hT v46
    linear_combination v46 - hT
  have hk : (0.5 : ℝ) / (quotientT i * Fast.φ) * (0.5 * (t₁ - m₁)) ≠ 0 :=
    mul_ne_zero (by positivity) (mul_ne_zero (by norm_num) (sub_ne_zero.mpr hne.symm))
  have hopp := (mul_eq_zero.mp hdiff).resolve_left hk
  have h6 : v 6 = -v 4 := by linarith
  rw [h6] at hT
  unfold Fast.α Fast.β at hT
  have : quotientT i * (Euler.dflux 1 (1, 1)).m10 * v 4 = 0 := by linear_combination -0.5 * hT
  exact (mul_ne_zero (mul_ne_zero hcp.ne' Fast.subsonic.ne') hr0) this

end Verif.Read
