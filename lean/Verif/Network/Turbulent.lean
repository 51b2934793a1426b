import Verif.Network.PipeExample
import Verif.Euler.Source

/-!
# C69 is false for turbulent flow

The pipe of `PipeExample` with a flow of one cubic meter per second at both points.
-/

set_option autoImplicit false

namespace Verif.Network

open Verif.Net Verif.Handler Filter Topology Matrix

/-- What C69 asks, for all states with positive densities: the matrices are the derivatives of the residual. -/
def C69Statement : Prop := ∀ (N : Net) (_ : Admissible N) (lastTime newTime : ℝ) (z : N.Point)
  (_ : Computable N newTime)
  (_ : ∀ k dx d r n, N.edge k = .gas (.pipe dx d r) n → ∀ j : ℤ, (N.edgeRange k).1 ≤ j → j + 1 < (N.edgeRange k).2 →
    (j - (N.edgeRange k).1) % 2 = 0 → 0 < ext z.2.1 j),
  ∃ last new control, N.dLast = Res.ok last ∧ N.dNew lastTime newTime (N.args z) = Res.ok new ∧
    N.dControl = Res.ok control ∧
    ∃ D : N.Point →L[ℝ] (Fin N.stateCount → ℝ), Derives (N.residual lastTime newTime) D z ∧
      ∀ a b c, D (a, b, c) = matrixOf N.stateCount N.stateCount last *ᵥ a +
        matrixOf N.stateCount N.stateCount new *ᵥ b + matrixOf N.stateCount N.controlCount control *ᵥ c

/-- All densities and flows are one. -/
def fastPoint : pipeNet.Point := (fun _ => 1, fun _ => 1, fun _ => 0)

theorem pipe_evaluate (s t : ℝ) (a : Args) (v : ℝ × ℝ) (h : Box.evaluatePoint (Box.eulerLaw 1 0) s t 100
    (a.last 0, a.last 1) (a.last 2, a.last 3) (a.new 0, a.new 1) (a.new 2, a.new 3) = Res.ok v) :
    ∃ x y, pipeNet.evaluate s t a = Res.ok [.set 0 x, .set 3 (-1 * 0), .inc 3 y, .set 1 v.1, .set 2 v.2] := by
  have hx : forEach (List.finRange pipeNet.nodes) (fun v => pipeNet.nodeEvaluate v t a) =
      Res.ok [.set 0 _, .set 3 (-1 * 0), .inc 3 _] := rfl
  have hy : forEach pipeNet.equationEdges (fun k => pipeNet.edgeEvaluate k s t a) = Res.ok [.set 1 v.1, .set 2 v.2] := by
    have hc : Gas.cellEvaluate 100 1 0 s t 1 a = Res.ok [.set 1 v.1, .set 2 v.2] := by
      unfold Gas.cellEvaluate
      have : Box.evaluatePoint (Box.eulerLaw 1 0) s t 100 (segment a.last (1 - 1)) (segment a.last (1 + 1))
        (segment a.new (1 - 1)) (segment a.new (1 + 1)) = Res.ok v := h
      rw [this]; rfl
    show (do let x ← (do let x ← Gas.cellEvaluate 100 1 0 s t 1 a; let y ← Res.ok []; Res.ok (x ++ y)); let y ← Res.ok []; Res.ok (x ++ y)) = _
    rw [hc]; rfl
  unfold Net.evaluate
  rw [hx, hy]
  exact ⟨_, _, rfl⟩

theorem pipe_new_entries (s t : ℝ) (a : Args) (L R : ℝ × ℝ →L[ℝ] ℝ × ℝ)
    (hL : Box.dNewLeft (Box.eulerLaw 1 0) s t 100 (a.new 0, a.new 1) = Res.ok L)
    (hR : Box.dNewRight (Box.eulerLaw 1 0) s t 100 (a.new 2, a.new 3) = Res.ok R) :
    ∃ x₀ x₁ y₀ y₁, pipeNet.dNew s t a = Res.ok ([(0, 0, x₀), (0, 1, x₁), (3, 2, y₀), (3, 3, y₁)] ++ Gas.cellEntries 1 L R) := by
  have hx : forEach (List.finRange pipeNet.nodes) (fun v => pipeNet.nodeNew v a) =
      Res.ok [(0, 0, _), (0, 1, _), (3, 2, _), (3, 3, _)] := rfl
  have hy : forEach pipeNet.equationEdges (fun k => pipeNet.edgeNew k s t a) = Res.ok (Gas.cellEntries 1 L R) := by
    have hc : Gas.cellNew 100 1 0 s t 1 a = Res.ok (Gas.cellEntries 1 L R) := by
      unfold Gas.cellNew
      have e1 : Box.dNewLeft (Box.eulerLaw 1 0) s t 100 (segment a.new (1 - 1)) = Res.ok L := hL
      have e2 : Box.dNewRight (Box.eulerLaw 1 0) s t 100 (segment a.new (1 + 1)) = Res.ok R := hR
      rw [e1, e2]; rfl
    show (do let x ← (do let x ← Gas.cellNew 100 1 0 s t 1 a; let y ← Res.ok []; Res.ok (x ++ y)); let y ← Res.ok []; Res.ok (x ++ y)) = _
    rw [hc]; rfl
  unfold Net.dNew
  rw [hx, hy]
  exact ⟨_, _, _, _, rfl⟩

/-- The point moved in the direction of the flow at the start of the pipe. -/
def moved (t : ℝ) : pipeNet.Point := (fun _ => 1, fun i => if i.val = 1 then 1 + t else 1, fun _ => 0)

/-- C69 as stated is false: with turbulent flow in a pipe the matrix with respect to the new state is not the derivative of
the residual (because of `C33`). -/
theorem C69_false : ¬ C69Statement := by
  intro h
  obtain ⟨last, new, control, -, hnew, -, D, ⟨g, hg, hD⟩, hmat⟩ := h pipeNet pipe_admissible 0 60 fastPoint (pipe_computable 60) (by
    intro k dx d r n _ j h1 h2 _
    obtain rfl : k = (0 : Fin 1) := Subsingleton.elim (α := Fin 1) _ _
    have h1 : 0 ≤ j := h1
    have h2 : j + 1 < 4 := h2
    unfold ext
    rw [dif_pos ⟨h1, by show _ < 4; omega⟩]
    exact one_pos)
  obtain ⟨hp, hRe⟩ := Euler.turbulent_example
  obtain ⟨M, T, hM, hT, hne⟩ := Euler.C34_source_turbulent hp (1, 1) one_ne_zero hRe
  -- the entry of the matrix
  have hds : (Box.eulerLaw 1 0).dsource (1, 1) = Res.ok M.map := by
    show (Euler.dsource 1 0 (1, 1) >>= fun M => Res.ok M.map) = _
    rw [hM]; rfl
  obtain ⟨L, hL⟩ : ∃ L, L = (0.5 : ℝ) • ContinuousLinearMap.id ℝ (ℝ × ℝ) - ((60 - 0 : ℝ) / 100) • (Box.eulerLaw 1 0).dflux (1, 1)
    - (0.5 * (60 - 0 : ℝ)) • M.map := ⟨_, rfl⟩
  have hL' : Box.dNewLeft (Box.eulerLaw 1 0) 0 60 100 (1, 1) = Res.ok L := by
    unfold Box.dNewLeft; rw [hds, hL]; rfl
  have hR' : ∃ R, Box.dNewRight (Box.eulerLaw 1 0) 0 60 100 (1, 1) = Res.ok R := by
    unfold Box.dNewRight; rw [hds]; exact ⟨_, rfl⟩
  obtain ⟨R, hR'⟩ := hR'
  obtain ⟨x₀, x₁, y₀, y₁, he⟩ := pipe_new_entries 0 60 (pipeNet.args fastPoint) L R hL' hR'
  rw [hnew] at he
  injection he with he
  have hentry : total new 2 1 = (L (0, 1)).2 := by
    rw [he]
    simp [total, Gas.cellEntries]
  -- the row of the residual along the curve
  let dir : Fin pipeNet.stateCount → ℝ := fun i => if i.val = 1 then 1 else 0
  let two : Fin pipeNet.stateCount := (2 : Fin 4)
  have hmove : HasDerivAt moved (0, dir, 0) 0 := by
    refine HasDerivAt.prodMk (hasDerivAt_const _ _) (HasDerivAt.prodMk ?_ (hasDerivAt_const _ _))
    refine hasDerivAt_pi.mpr fun i => ?_
    by_cases hi : i.val = 1
    · simp only [dir, hi, if_true]
      exact (hasDerivAt_id' (0 : ℝ)).const_add 1
    · simp only [dir, hi, if_false]
      exact hasDerivAt_const _ _
  have hstart : moved 0 = fastPoint := by simp [moved, fastPoint]
  have hcurve : HasDerivAt (fun t => g (moved t) two) (D (0, dir, 0) two) 0 :=
    hasDerivAt_pi.mp ((hstart ▸ hD : HasFDerivAt g D (moved 0)).comp_hasDerivAt (0 : ℝ) hmove) two
  have hDdir : D (0, dir, 0) two = total new 2 1 := by
    rw [hmat]
    simp only [mulVec_zero, zero_add, add_zero]
    show ∑ j : Fin 4, total new 2 j.val * (if j.val = 1 then (1 : ℝ) else 0) = _
    simp [Fin.sum_univ_four]
  let row : ℝ → ℝ := fun t => 0.5 * (1 + t + 1) - 0.5 * (1 + 1) - 60 / 100 * ((Euler.flux 1 (1, 1 + t)).2 - (Euler.flux 1 (1, 1)).2)
    - 30 * ((Euler.valueOf (Euler.source 1 0 (1, 1))).2 + (Euler.valueOf (Euler.source 1 0 (1, 1 + t))).2)
  have hrow : ∀ᶠ t in 𝓝 (0 : ℝ), g (moved t) two = row t := by
    have hev : ∀ᶠ t in 𝓝 (0 : ℝ), pipeNet.residual 0 60 (moved t) = Res.ok (g (moved t)) :=
      hmove.continuousAt.eventually (hstart.symm ▸ hg)
    filter_upwards [hev] with t ht
    have hsrc : ∀ y, (Box.eulerLaw 1 0).source y = Res.ok (Euler.valueOf (Euler.source 1 0 y)) := fun y => by
      show Euler.source 1 0 y = _
      rw [Euler.C34_source_defined hp y]; rfl
    have hpoint : ∃ v, Box.evaluatePoint (Box.eulerLaw 1 0) 0 60 100 (1, 1) (1, 1) (1, 1 + t) (1, 1) = Res.ok v ∧ v.2 = row t := by
      unfold Box.evaluatePoint
      simp only [hsrc, Res.ok_bind]
      refine ⟨_, rfl, ?_⟩
      simp only [row, Box.eulerLaw, Prod.snd_sub, Prod.snd_add, Prod.smul_snd, smul_eq_mul]
      ring
    obtain ⟨v, hv, hv2⟩ := hpoint
    obtain ⟨x, y, hxy⟩ := pipe_evaluate 0 60 (pipeNet.args (moved t)) v hv
    unfold Net.residual at ht
    rw [hxy, Res.ok_bind] at ht
    injection ht with ht
    rw [← ht, ← hv2]
    show run _ _ (2 : ℤ) = _
    simp [run, Op.apply]
  have hpath : HasDerivAt (fun t : ℝ => ((1 : ℝ), 1 + t)) (0, 1) 0 :=
    (hasDerivAt_const _ _).prodMk ((hasDerivAt_id' (0 : ℝ)).const_add 1)
  have h10 : ((1 : ℝ), (1 : ℝ) + 0) = (1, 1) := by norm_num
  have hflux : HasDerivAt (fun t : ℝ => (Euler.flux 1 (1, 1 + t)).2) ((Euler.dflux 1 (1, 1)).map (0, 1)).2 0 := by
    have := Euler.C34_flux 1 (1, 1) one_ne_zero ((Euler.C31_density_round_trip 1).2 one_pos.le)
    rw [← h10] at this
    have h := this.snd.comp_hasDerivAt (0 : ℝ) hpath
    rw [h10] at h
    exact h
  have hsource : HasDerivAt (fun t : ℝ => (Euler.valueOf (Euler.source 1 0 (1, 1 + t))).2) (T.map (0, 1)).2 0 := by
    rw [← h10] at hT
    have h := hT.snd.comp_hasDerivAt (0 : ℝ) hpath
    exact h
  have htrue : HasDerivAt row (0.5 - 60 / 100 * ((Euler.dflux 1 (1, 1)).map (0, 1)).2 - 30 * (T.map (0, 1)).2) 0 := by
    have h1 : HasDerivAt (fun t : ℝ => 0.5 * (1 + t + 1)) (0.5 * 1) 0 :=
      (((hasDerivAt_id' (0 : ℝ)).const_add 1).add_const 1).const_mul 0.5
    refine ((((h1.sub_const _).sub ((hflux.sub_const _).const_mul _)).sub ((hsource.const_add _).const_mul _)).congr_deriv ?_)
    ring
  have heq := (hcurve.congr_of_eventuallyEq (hrow.mono fun t h => h.symm)).unique htrue
  rw [hDdir, hentry, hL] at heq
  apply hne
  simp only [_root_.sub_apply, _root_.smul_apply, ContinuousLinearMap.id_apply, Prod.snd_sub, Prod.smul_snd, smul_eq_mul,
    Box.eulerLaw, Euler.Mat2.map_apply, mul_zero, zero_add, mul_one] at heq
  linarith

end Verif.Network
