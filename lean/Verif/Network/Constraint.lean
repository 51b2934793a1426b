import Verif.Network.PipeExample
import Verif.Network.OptimizeExample

/-!
# Property C74: the constraint of a sink bounds the pressure there

False if the first edge at the sink is a pipe: the constraint then bounds the density.
-/

set_option autoImplicit false

namespace Verif.Network

open Verif.Net

/-- All gas edges at a node have this pressure there. -/
def Net.PressureAt (N : Net) (v : Fin N.nodes) (state : Vec) (P : ℝ) : Prop :=
  ∀ k, (N.edge k).isGas → (N.src k = v → N.startPressure k state = P) ∧ (N.dst k = v → N.endPressure k state = P)

/-- C74, for sinks without pipes. At a solved state there is one pressure at a constrained sink, and the
constraint that belongs to the sink has it as value. Missing: sinks with pipes, where it is false. -/
theorem C74_constraint_partial (N : Net) (hN : Admissible N) (G : Goals N) (hG : G.Attached) (lastTime newTime : ℝ)
    (hc : Computable N newTime) (z : N.Point) (hz : N.residual lastTime newTime z = Res.ok 0)
    (v : Fin N.nodes) (hv : G.constrained v = true)
    (hpipe : ∀ k dx d r n, N.edge k = .gas (.pipe dx d r) n → N.src k ≠ v ∧ N.dst k ≠ v) :
    ∃ P values, N.PressureAt v (ext z.2.1) P ∧ G.constraintVector z.2 = Res.ok values ∧
      ∃ i : Fin G.count, (i.val : ℤ) = (Net.constraintRange G v).1 ∧ values i = P := by
  obtain ⟨r, hr, h⟩ := C72_residual_iff_laws N hN lastTime newTime hc z
  rw [hz] at hr
  injection hr with hr
  obtain ⟨P, hP, -⟩ := (h.mp hr.symm).pressures
  obtain ⟨hk, hne⟩ := hG v hv
  have hPv : N.PressureAt v (ext z.2.1) (P v) := by
    intro k hgas
    refine ⟨?_, ?_⟩
    · rintro rfl; exact (hP k hgas).1
    · rintro rfl; exact (hP k hgas).2 (by rw [hk]; rfl)
  obtain ⟨h1, -, -⟩ := constraint_ok hN G hG (ext z.2.1) (ext z.2.2)
  have hi := (constraint_bounds G hv).1
  refine ⟨P v, _, hPv, by unfold Goals.constraintVector; rw [h1, Res.ok_bind],
    ⟨(Net.constraintRange G v).1.toNat, by unfold Goals.count; omega⟩, Int.toNat_of_nonneg hi.1, ?_⟩
  simp only [Int.toNat_of_nonneg hi.1]
  rw [run_flatMap_single (x := v) (by simp [Net.constraintNodes, hv]) (w := fun _ => 0)]
  · simp only [run_cons, run_nil, Op.apply, Function.update_self]
    obtain ⟨x, rest, hx⟩ := List.exists_cons_of_ne_nil hne
    have hc : constrainedIndex v = Gas.stateIndex x := by simp [constrainedIndex, hx]
    rw [hc]
    have := (ends_pressure hN v (ext z.2.1) (P v)).mpr hPv x (by rw [hx]; simp)
    rw [← this]
    obtain ⟨k, e, he, hcase⟩ := hN.mem_ends.mp (show x ∈ N.ends v by rw [hx]; simp)
    obtain ⟨kind, n, hkk, rfl⟩ := Admissible.gasEdge_eq.mp he
    have hnp : ∀ dx d r, kind ≠ .pipe dx d r := by
      rintro dx d r rfl
      have := hpipe k dx d r n hkk
      rcases hcase with ⟨hs, -⟩ | ⟨hs, -⟩
      · exact this.1 hs
      · exact this.2 hs
    rcases hcase with ⟨-, rfl⟩ | ⟨-, rfl⟩ <;> cases kind <;> first | rfl | exact absurd rfl (hnp _ _ _)
  · intro w hw hne o ho
    simp only [List.mem_singleton] at ho
    subst ho
    intro he
    exact hne (constraint_unique G (List.mem_filter.mp hw).2 hv he)
  · intro u w
    simp only [run_cons, run_nil, Op.apply, Function.update_self]

/-- All hypotheses are met by the sink behind a compressor that raises the pressure from 1 to 5 bar. -/
example : ∃ z : chainNet.Point, chainNet.residual 0 1 z = Res.ok 0 ∧ Computable chainNet 1 ∧
    (chainGoals 1).constrained (1 : Fin 2) = true ∧ (ext z.2.1 2 = 5) ∧
    ∀ k dx d r n, chainNet.edge k = .gas (.pipe dx d r) n → chainNet.src k ≠ (1 : Fin 2) ∧ chainNet.dst k ≠ (1 : Fin 2) := by
  let z : chainNet.Point := (fun _ => 0, fun i => (fun j : ℕ => if j = 0 then 1 else if j = 2 then 5 else -1) i.val,
    fun _ => 4)
  have e2 : ext z.2.1 2 = 5 := rfl
  refine ⟨z, ?_, ⟨fun v _ => ⟨_, rfl⟩, fun k dx d r n h => ?_⟩, rfl, e2, fun k dx d r n h => ?_⟩
  · unfold Net.residual
    rw [chain_evaluate, Res.ok_bind]
    congr 1
    have e0 : (chainNet.args z).new 0 = 1 := rfl
    have e1 : (chainNet.args z).new 1 = -1 := rfl
    have e2 : (chainNet.args z).new 2 = 5 := rfl
    have e3 : (chainNet.args z).new 3 = -1 := rfl
    have e4 : (chainNet.args z).control 0 = 4 := rfl
    show (fun i : Fin 4 => _) = fun _ => 0
    funext i
    rw [e0, e1, e2, e3, e4]
    have : i = 0 ∨ i = 1 ∨ i = 2 ∨ i = 3 := by omega
    rcases this with rfl | rfl | rfl | rfl <;> norm_num [run, Op.apply]
  · injection h with h; cases h
  · injection h with h; cases h

/-- The sink at the end of the pipe is constrained. -/
noncomputable def pipeGoals : Goals pipeNet where
  weight _ := 1
  netWeight := 1
  netPenalty := 1
  constrained v := v == (1 : Fin 2)

theorem pipe_attached : pipeGoals.Attached := by
  show ∀ v : Fin 2, (v == (1 : Fin 2)) = true → _
  intro v hv
  obtain rfl : v = 1 := by simpa using hv
  exact ⟨rfl, by simp [Net.ends, pipeNet, Net.gasEdge]⟩

/-- C74 is false: at the sink at the end of the pipe the only constraint has the value 1, which is the density; the
pressure there is about 1.33 bar. -/
theorem C74_constraint_false :
    ¬ ∀ (N : Net) (_ : Admissible N) (G : Goals N) (_ : G.Attached) (lastTime newTime : ℝ)
      (_ : Computable N newTime) (z : N.Point) (_ : N.residual lastTime newTime z = Res.ok 0)
      (v : Fin N.nodes) (_ : G.constrained v = true),
      ∃ P values, N.PressureAt v (ext z.2.1) P ∧ G.constraintVector z.2 = Res.ok values ∧
        ∃ i : Fin G.count, (i.val : ℤ) = (Net.constraintRange G v).1 ∧ values i = P := by
  intro h
  obtain ⟨P, values, hP, hv, i, -, hi⟩ := h pipeNet pipe_admissible pipeGoals pipe_attached 0 60 (pipe_computable 60)
    pipePoint pipe_residual (1 : Fin 2) rfl
  have h2 := pipe_new 2 (by norm_num)
  simp only [Nat.cast_ofNat] at h2
  have e1 : P = Euler.p 1 / 100000 := by
    rw [← (hP (0 : Fin 1) rfl).2 rfl]
    show Euler.p (ext pipePoint.2.1 2) / 100000 = _
    rw [h2]; rfl
  have e2 : values i = 1 := by
    have : pipeGoals.constraintVector pipePoint.2 =
        Res.ok fun i => run (fun _ => 0) [.set 0 (ext pipePoint.2.1 2)] i.val := rfl
    rw [this] at hv
    injection hv with hv
    rw [← hv, h2]
    have hi0 : i.val = 0 := by
      have := i.isLt
      have hc : pipeGoals.count = 1 := rfl
      omega
    simp [hi0, run_cons, run_nil, Op.apply, pipeNew]
  rw [e2, e1] at hi
  norm_num [Euler.p, Euler.cVac, Euler.alpha, Euler.p0, Euler.bar, Euler.T, Euler.z0, Euler.T0, Euler.rho0,
    Euler.pcrit, Euler.Tcrit] at hi

end Verif.Network
