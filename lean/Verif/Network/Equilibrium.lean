import Verif.Network.Simulate
import Verif.Network.PipeExample

/-!
# Property C88: equilibria are kept

If the boundary values and controls do not change and the initial state is an equilibrium, the simulation stays there, for every time
grid and every setting of the solver.
-/

set_option autoImplicit false

namespace Verif.Evolve

open Verif.Newton

variable {T X Y C : Type} {K : Type} [Field K] [LinearOrder K] [IsStrictOrderedRing K]

/-- A state that meets the tolerance for all steps of the loop is stored for all of them. -/
theorem loop_kept (sys : T → T → X → C → System X Y K) (tol : K) (maxIter : ℤ) (fuel : ℕ) (R : ℤ) (sm : Bool)
    (controls : T → Res C) (x : X) (ts : List T) : ∀ (last : T) (hist : List (Attempt T X C)),
    (∀ i (hi : i < ts.length), ∃ c, controls ts[i] = Res.ok c ∧
      MeetsTolerance (sys ((last :: ts)[i]'(by simp; omega)) ts[i] x c) tol x) →
    ∃ trace, loop R sm (newtonSolver sys tol maxIter fuel) controls ts last x x hist =
      (Res.ok (List.replicate ts.length x), trace) := by
  induction ts with
  | nil => intro last hist _; exact ⟨hist, rfl⟩
  | cons t ts ih =>
    intro last hist h
    obtain ⟨c, hc, hm⟩ := h 0 (by simp)
    have hc : controls t = Res.ok c := hc
    have hm : MeetsTolerance (sys last t x c) tol x := hm
    obtain ⟨trace, htr⟩ := ih t (hist ++ [⟨!sm, last, t, x, x, c⟩]) (fun i hi => by
      obtain ⟨c, hc, hm⟩ := h (i + 1) (by simp; omega)
      exact ⟨c, by simpa using hc, by simpa using hm⟩)
    have hsol : ∀ hist full, newtonSolver sys tol maxIter fuel hist ⟨full, last, t, x, x, c⟩ = Res.ok (true, x) := by
      intro hist full
      simp only [newtonSolver, C23_solved_start _ tol maxIter full fuel x hm]
    have hstep : makeOneStep R sm (newtonSolver sys tol maxIter fuel) last t x x c hist =
        (Res.ok x, hist ++ [⟨!sm, last, t, x, x, c⟩]) := by
      unfold makeOneStep attempts
      rw [hsol]
    refine ⟨trace, ?_⟩
    unfold loop
    simp only [hc, hstep, htr, List.length_cons, List.replicate_succ]

/-- C88 for any equations: if the initial state meets the tolerance for every step when nothing changes, the simulation returns it for every
time, for any number of retries, any limit of iterations and whatever the derivatives are. -/
theorem C88_kept (sys : T → T → X → C → System X Y K) (tol : K) (maxIter : ℤ) (fuel : ℕ) (R : ℤ) (sm : Bool)
    (controls : T → Res C) (times : List T) (x : X) (h2 : 2 ≤ times.length)
    (h : ∀ i (hi : i + 1 < times.length), ∃ c, controls times[i + 1] = Res.ok c ∧
      MeetsTolerance (sys times[i] times[i + 1] x c) tol x) :
    ∃ trace, simulate R sm (newtonSolver sys tol maxIter fuel) controls times x =
      (Res.ok (List.replicate times.length x), trace) := by
  match times, h2 with
  | t0 :: t1 :: ts, _ =>
    obtain ⟨trace, htr⟩ := loop_kept sys tol maxIter fuel R sm controls x (t1 :: ts) t0 [] (fun i hi => by
      obtain ⟨c, hc, hm⟩ := h i (by simpa using hi)
      exact ⟨c, by simpa using hc, hm⟩)
    obtain ⟨c, hc, -⟩ := h 0 (by simp)
    have hc : controls t1 = Res.ok c := hc
    refine ⟨trace, ?_⟩
    unfold simulate
    simp only [hc, htr, List.length_cons, List.replicate_succ]

end Verif.Evolve

namespace Verif.Network

open Verif.Net Verif.Newton Verif.Evolve

/-- A cell of a pipe that is stationary for one length of the time step is so for all. -/
theorem cell_stationary {d r : ℝ} (hp : Euler.RealPipe d r) {s t s' t' dx : ℝ} (hst : s ≠ t) (left right : ℝ × ℝ)
    (h : Box.evaluatePoint (Box.eulerLaw d r) s t dx left right left right = Res.ok 0) :
    Box.evaluatePoint (Box.eulerLaw d r) s' t' dx left right left right = Res.ok 0 := by
  have hs : ∀ y, ∃ v, (Box.eulerLaw d r).source y = Res.ok v := fun y => ⟨_, Euler.C34_source_defined hp y⟩
  obtain ⟨sl, hl⟩ := hs left
  obtain ⟨sr, hr⟩ := hs right
  unfold Box.evaluatePoint at h ⊢
  simp only [hl, hr, Res.ok_bind] at h ⊢
  injection h with h
  congr 1
  have e : ∀ a : ℝ, (0.5 : ℝ) • (left + right) - (0.5 : ℝ) • (left + right) -
      (a / dx) • ((Box.eulerLaw d r).flux left - (Box.eulerLaw d r).flux right) - (0.5 * a) • (sr + sl) =
      a • (-((1 / dx) • ((Box.eulerLaw d r).flux left - (Box.eulerLaw d r).flux right)) - (0.5 : ℝ) • (sr + sl)) := by
    intro a
    have h1 : a / dx = a * (1 / dx) := by ring
    have h2 : 0.5 * a = a * 0.5 := by ring
    rw [h1, h2, mul_smul, mul_smul, sub_self, zero_sub, ← smul_neg, ← smul_sub]
  rw [e] at h ⊢
  rcases smul_eq_zero.mp h with h | h
  · exact absurd (sub_eq_zero.mp h).symm hst
  · rw [h, smul_zero]

/-- C88. Whether a state is an equilibrium does not depend on the time step: if it obeys all laws as the next state after itself for one pair of
times, it does so for every pair of times at which the boundary values are the same. -/
theorem C88_any_step (N : Net) {s t s' t' : ℝ} (hc : Computable N t) (hst : s ≠ t)
    (hb : ∀ v, (N.node v).boundary t' = (N.node v).boundary t) (x control : Vec) (h : Laws N s t ⟨x, x, control⟩) :
    Laws N s' t' ⟨x, x, control⟩ where
  pressures := by simpa only [hb] using h.pressures
  flows := by simpa only [hb] using h.flows
  short := h.short
  pipes := fun k dx d r n hk j hj => cell_stationary (hc.pipes k dx d r n hk).2 hst _ _ (h.pipes k dx d r n hk j hj)
  grid := by simpa only [hb] using h.grid
  plants := h.plants

/-- C88. If the boundary values and the controls are the same at all times and the initial state is an equilibrium, a simulation of an admissible network
returns it at every time — for every time grid, tolerance, number of retries and iterations, and whatever the derivatives are. -/
theorem C88_equilibrium (N : Net) (hN : Admissible N)
    (lu : ℝ → ℝ → Option (Fin N.stateCount → ℝ) → (Fin N.controlCount → ℝ) → Option (Fin N.stateCount → ℝ) →
      Option (Option (Fin N.stateCount → ℝ) → Option (Fin N.stateCount → ℝ)))
    (tol : ℝ) (htol : 0 ≤ tol) (maxIter : ℤ) (fuel : ℕ) (retries : ℤ) (simplified : Bool)
    (controls : ℝ → Res (Fin N.controlCount → ℝ)) (times : List ℝ) (h2 : 2 ≤ times.length)
    (control : Fin N.controlCount → ℝ) (hcontrol : ∀ t ∈ times, controls t = Res.ok control)
    {s t : ℝ} (hst : s ≠ t) (hc : Computable N t) (hb : ∀ t' ∈ times, ∀ v, (N.node v).boundary t' = (N.node v).boundary t)
    (x : Fin N.stateCount → ℝ) (hf : N.Finite (ext x)) (h : N.residual s t (x, x, control) = Res.ok 0) :
    ∃ trace, simulate retries simplified (newtonSolver (fun s t x c => N.system (lu s t x c) s t x c) tol maxIter fuel)
      controls times (some x) = (Res.ok (List.replicate times.length (some x)), trace) := by
  refine C88_kept _ tol maxIter fuel retries simplified controls times (some x) h2 fun i hi => ?_
  refine ⟨control, hcontrol _ (List.getElem_mem _), ?_⟩
  have hl : Laws N s t (N.args (x, x, control)) := by
    obtain ⟨r, hr, hiff⟩ := C72_residual_iff_laws N hN s t hc (x, x, control)
    rw [h] at hr
    injection hr with hr
    exact hiff.mp hr.symm
  have hb' := hb times[i + 1] (List.getElem_mem _)
  have hl' : Laws N times[i] times[i + 1] (N.args (x, x, control)) := C88_any_step N hc hst hb' _ _ hl
  have hc' : Computable N times[i + 1] := ⟨fun v hv => by rw [hb']; exact hc.boundary v hv, hc.pipes⟩
  obtain ⟨r, hr, hiff⟩ := C72_residual_iff_laws N hN times[i] times[i + 1] hc' (x, x, control)
  refine ⟨0, ?_, htol⟩
  simp only [Net.system, if_pos hf, hr, hiff.mpr hl', euclidean, Option.map_some]
  simp

/-! ## A case -/

/-- Gas at rest in the pipe of `pipeNet`. -/
noncomputable def calmState : Fin pipeNet.stateCount → ℝ := (![1, 0, 1, 0] : Fin 4 → ℝ)

theorem calm_entry (j : ℕ) (h : j < 4) : ext calmState (j : ℤ) = (![1, 0, 1, 0] : Fin 4 → ℝ) ⟨j, h⟩ := by
  unfold ext
  rw [dif_pos ⟨by omega, by show _ < 4; omega⟩]
  rfl

theorem calm_laws (c : Vec) : Laws pipeNet 0 60 ⟨ext calmState, ext calmState, c⟩ := by
  have h0 := calm_entry 0 (by norm_num)
  have h1 := calm_entry 1 (by norm_num)
  have h2 := calm_entry 2 (by norm_num)
  have h3 := calm_entry 3 (by norm_num)
  simp only [Nat.cast_ofNat, Nat.cast_zero, Nat.cast_one] at h0 h1 h2 h3
  have h0 : ext calmState 0 = 1 := h0
  have h1 : ext calmState 1 = 0 := h1
  have h2 : ext calmState 2 = 1 := h2
  have h3 : ext calmState 3 = 0 := h3
  refine ⟨⟨fun _ => Euler.p 1 / 100000, ?_, ?_⟩, ?_, ?_, ?_, ?_, ?_⟩
  · intro k hk
    obtain rfl : k = (0 : Fin 1) := Subsingleton.elim (α := Fin 1) _ _
    refine ⟨?_, fun _ => ?_⟩
    · show Euler.p (ext calmState 0) / 100000 = _
      rw [h0]
    · show Euler.p (ext calmState 2) / 100000 = _
      rw [h2]
  · show ∀ v : Fin 2, _
    intro v b hv hb
    match v, hv with
    | 0, _ => injection hb with hb; subst hb; rfl
    | 1, h => cases h
  · show ∀ v : Fin 2, _
    intro v _
    match v with
    | 0 => exact ⟨fun h => (by cases h), fun h => (by cases h)⟩
    | 1 =>
      refine ⟨fun h => (by cases h), fun _ b hb => ?_⟩
      injection hb with hb
      subst hb
      have : pipeNet.outflow (1 : Fin 2) (ext calmState) = 0 - ext calmState 3 := by
        unfold Net.outflow
        show (∑ k : Fin 1, _) - (∑ k : Fin 1, _) = _
        rw [Fin.sum_univ_one, Fin.sum_univ_one]
        rfl
      show pipeNet.outflow (1 : Fin 2) (ext calmState) = _
      rw [this, h3]
      show (0 : ℝ) - 0 = 0
      norm_num
  · intro k kind n h hs
    injection h with h
    subst h
    exact hs.elim
  · intro k dx d r n h j hj
    obtain rfl : k = (0 : Fin 1) := Subsingleton.elim (α := Fin 1) _ _
    injection h with h hn
    injection h with e1 e2 e3
    subst e1 e2 e3 hn
    obtain rfl : j = 0 := by omega
    have hp : Euler.RealPipe 1 0 := ⟨by norm_num, le_rfl, by norm_num⟩
    have hs : ∀ y, (Box.eulerLaw 1 0).source y = Res.ok _ := fun y => Euler.C34_source_defined hp y
    show Box.evaluatePoint _ 0 60 100 (ext calmState 0, ext calmState 1) (ext calmState 2, ext calmState 3)
      (ext calmState 0, ext calmState 1) (ext calmState 2, ext calmState 3) = Res.ok 0
    rw [h0, h1, h2, h3]
    unfold Box.evaluatePoint
    simp only [hs, Res.ok_bind]
    congr 1
    have hforce : Euler.force 1 0 0 = 0 := by
      simp only [Euler.force, mul_zero]
      split
      · rfl
      · split <;> rfl
    simp [hforce]
  · show ∀ v : Fin 2, _
    intro v b hb
    match v with
    | 0 => trivial
    | 1 => trivial
  · intro k g p n h
    injection h with h
    cases h

theorem calm_finite : pipeNet.Finite (ext calmState) := by
  intro k dx d r n h j hj
  obtain rfl : k = (0 : Fin 1) := Subsingleton.elim (α := Fin 1) _ _
  injection h with h hn
  subst hn
  have e : ∀ j : ℕ, j < 2 → ext calmState ((pipeNet.edgeRange (0 : Fin 1)).1 + 2 * j) = 1 := by
    intro j hj
    have h0 : (pipeNet.edgeRange (0 : Fin 1)).1 = 0 := rfl
    have := calm_entry (2 * j) (by omega)
    rw [h0, zero_add]
    push_cast at this
    rw [this]
    rcases (by omega : j = 0 ∨ j = 1) with rfl | rfl <;> rfl
  rw [e j hj]
  refine ⟨one_ne_zero, ?_⟩
  have := (Euler.C31_density_round_trip 1).2 zero_le_one
  simpa using this

/-- Gas at rest stays at rest, here with a negative limit of iterations and derivatives that cannot be factorized. -/
example : ∃ trace, simulate 1 true (newtonSolver (fun s t x c => pipeNet.system (fun _ => none) s t x c) 0 (-1) 0)
    (fun _ => Res.ok fun _ => 0) [0, 3, 5, 1000] (some calmState) =
      (Res.ok (List.replicate 4 (some calmState)), trace) := by
  refine C88_equilibrium pipeNet pipe_admissible (fun _ _ _ _ _ => none) 0 le_rfl (-1) 0 1 true _ _ (by simp) (fun _ => 0) (fun _ _ => rfl)
    (s := 0) (t := 60) (by norm_num) (pipe_computable 60) (fun _ _ _ => rfl) calmState calm_finite ?_
  obtain ⟨r, hr, h⟩ := C72_residual_iff_laws pipeNet pipe_admissible 0 60 (pipe_computable 60) (calmState, calmState, fun _ => 0)
  rw [hr, h.mpr (calm_laws _)]

end Verif.Network
