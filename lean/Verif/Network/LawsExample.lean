import Verif.Network.Laws
import Verif.Network.Example

/-!
# A solved network

The network of `Verif.Network.Example` at rest: gas at density 1 in the pipe, no flow, the compressor raising the
pressure by its control 2, the plant idle, and the power lines balanced by the admittances of the nodes. It meets all
hypotheses of `C72_residual_iff_laws`, and its residual vanishes.
-/

set_option autoImplicit false

namespace Verif.Network

open Verif.Net

noncomputable section

/-- The boundary values: the pressure that belongs to density 1; no inflow; voltage 1 and angle 0 at the plant; no
power at the PQ node. -/
def restBoundary : Fin 5 → ℝ × ℝ
  | 0 => (Euler.p 1 / 100000, 0)
  | 1 => (0, 0)
  | 2 => (0, 0)
  | 3 => (1, 0)
  | 4 => (0, 0)

/-- The network: as `exampleNet`, with balancing admittances at the power nodes. -/
def restNet : Net :=
  { exampleNet with node := fun v : Fin 5 => ⟨exampleKind v, fun _ => Res.ok (restBoundary v), -3, -4⟩ }

/-- The state: the nodes 3 and 4 (indices 0 to 3), the pipe (4 to 7), the compressor (8 to 11), the connection
(12 and 13). -/
def restState : ℕ → ℝ
  | 0 | 2 | 4 | 6 => 1
  | 8 | 12 => Euler.p 1 / 100000
  | 10 => Euler.p 1 / 100000 + 2
  | _ => 0

/-- Last state, new state and control. -/
def restPoint : restNet.Point := (fun i => restState i.val, fun i => restState i.val, fun _ => 2)

end

theorem rest_admissible : Admissible restNet where
  starting := example_admissible.starting
  ending := example_admissible.ending
  noLoop := example_admissible.noLoop
  points := example_admissible.points
  gasStart := example_admissible.gasStart
  gasEnd := example_admissible.gasEnd
  plantEnd := example_admissible.plantEnd
  lines := example_admissible.lines

theorem rest_ranges : restNet.edgeRange (0 : Fin 4) = (4, 8) ∧ restNet.edgeRange (1 : Fin 4) = (8, 12) ∧
    restNet.edgeRange (2 : Fin 4) = (12, 14) ∧ restNet.nodeRange (3 : Fin 5) = (0, 2) ∧
    restNet.nodeRange (4 : Fin 5) = (2, 4) := ⟨rfl, rfl, rfl, rfl, rfl⟩

theorem rest_new (j : ℕ) (h : j < 14) : (restNet.args restPoint).new (j : ℤ) = restState j := by
  show ext _ _ = _
  unfold ext
  rw [dif_pos ⟨by omega, by show _ < 14; omega⟩]
  rfl

theorem rest_last : (restNet.args restPoint).last = (restNet.args restPoint).new := rfl

theorem rest_computable (t : ℝ) : Computable restNet t where
  boundary v _ := ⟨_, rfl⟩
  pipes := by
    show ∀ k : Fin 4, _
    intro k dx d r n h
    match k, h with
    | 1, h => injection h with h; cases h
    | 2, h => injection h with h; cases h
    | 3, h => cases h
    | 0, h =>
      injection h with h hn
      injection h with h1 h2 h3
      subst h1 h2 h3
      exact ⟨by norm_num, by norm_num, le_rfl, by norm_num⟩

theorem rest_laws (t t' : ℝ) : Laws restNet t t' (restNet.args restPoint) := by
  have h0 := rest_new 0 (by norm_num)
  have h1 := rest_new 1 (by norm_num)
  have h2 := rest_new 2 (by norm_num)
  have h3 := rest_new 3 (by norm_num)
  have h4 := rest_new 4 (by norm_num)
  have h5 := rest_new 5 (by norm_num)
  have h6 := rest_new 6 (by norm_num)
  have h7 := rest_new 7 (by norm_num)
  have h8 := rest_new 8 (by norm_num)
  have h9 := rest_new 9 (by norm_num)
  have h10 := rest_new 10 (by norm_num)
  have h11 := rest_new 11 (by norm_num)
  have h12 := rest_new 12 (by norm_num)
  have h13 := rest_new 13 (by norm_num)
  have hc : (restNet.args restPoint).control 0 = 2 := by
    show ext restPoint.2.2 0 = 2
    unfold ext
    rw [dif_pos ⟨le_rfl, by show 0 < 1; norm_num⟩]
    rfl
  have hl := rest_last
  generalize restNet.args restPoint = a at *
  simp only [restState, Nat.cast_ofNat, Nat.cast_zero, Nat.cast_one] at h0 h1 h2 h3 h4 h5 h6 h7 h8 h9 h10 h11 h12 h13
  have hact : ∀ v : Fin 5, v = 3 ∨ v = 4 → restNet.active v a.new = 0 ∧ restNet.reactive v a.new = 0 := by
    have hV3 : restNet.voltage a.new (3 : Fin 5) = 1 := h0
    have hA3 : restNet.angle a.new (3 : Fin 5) = 0 := h1
    have hV4 : restNet.voltage a.new (4 : Fin 5) = 1 := h2
    have hA4 : restNet.angle a.new (4 : Fin 5) = 0 := h3
    rintro v (rfl | rfl)
    · have e1 : restNet.active (3 : Fin 5) a.new = -3 * restNet.voltage a.new (3 : Fin 5) ^ 2 +
          ((0 + 0 + 0 + restNet.voltage a.new (3 : Fin 5) * restNet.voltage a.new (4 : Fin 5) *
            (3 * Real.cos (restNet.angle a.new (3 : Fin 5) - restNet.angle a.new (4 : Fin 5)) +
            4 * Real.sin (restNet.angle a.new (3 : Fin 5) - restNet.angle a.new (4 : Fin 5)))) +
          (0 + 0 + restNet.voltage a.new (3 : Fin 5) * restNet.voltage a.new (1 : Fin 5) *
            (0 * Real.cos (restNet.angle a.new (3 : Fin 5) - restNet.angle a.new (1 : Fin 5)) +
            0 * Real.sin (restNet.angle a.new (3 : Fin 5) - restNet.angle a.new (1 : Fin 5))) + 0)) := by
        unfold Net.active
        show _ + ((∑ k : Fin 4, _) + (∑ k : Fin 4, _)) = _
        rw [Fin.sum_univ_four, Fin.sum_univ_four]
        rfl
      have e2 : restNet.reactive (3 : Fin 5) a.new = -(-4 * restNet.voltage a.new (3 : Fin 5) ^ 2) +
          ((0 + 0 + 0 + restNet.voltage a.new (3 : Fin 5) * restNet.voltage a.new (4 : Fin 5) *
            (3 * Real.sin (restNet.angle a.new (3 : Fin 5) - restNet.angle a.new (4 : Fin 5)) -
            4 * Real.cos (restNet.angle a.new (3 : Fin 5) - restNet.angle a.new (4 : Fin 5)))) +
          (0 + 0 + restNet.voltage a.new (3 : Fin 5) * restNet.voltage a.new (1 : Fin 5) *
            (0 * Real.sin (restNet.angle a.new (3 : Fin 5) - restNet.angle a.new (1 : Fin 5)) -
            0 * Real.cos (restNet.angle a.new (3 : Fin 5) - restNet.angle a.new (1 : Fin 5))) + 0)) := by
        unfold Net.reactive
        show _ + ((∑ k : Fin 4, _) + (∑ k : Fin 4, _)) = _
        rw [Fin.sum_univ_four, Fin.sum_univ_four]
        rfl
      rw [e1, e2, hV3, hA3, hV4, hA4]
      norm_num
    · have e1 : restNet.active (4 : Fin 5) a.new = -3 * restNet.voltage a.new (4 : Fin 5) ^ 2 +
          ((0 + 0 + 0 + 0) + (0 + 0 + 0 + restNet.voltage a.new (4 : Fin 5) * restNet.voltage a.new (3 : Fin 5) *
            (3 * Real.cos (restNet.angle a.new (4 : Fin 5) - restNet.angle a.new (3 : Fin 5)) +
            4 * Real.sin (restNet.angle a.new (4 : Fin 5) - restNet.angle a.new (3 : Fin 5))))) := by
        unfold Net.active
        show _ + ((∑ k : Fin 4, _) + (∑ k : Fin 4, _)) = _
        rw [Fin.sum_univ_four, Fin.sum_univ_four]
        rfl
      have e2 : restNet.reactive (4 : Fin 5) a.new = -(-4 * restNet.voltage a.new (4 : Fin 5) ^ 2) +
          ((0 + 0 + 0 + 0) + (0 + 0 + 0 + restNet.voltage a.new (4 : Fin 5) * restNet.voltage a.new (3 : Fin 5) *
            (3 * Real.sin (restNet.angle a.new (4 : Fin 5) - restNet.angle a.new (3 : Fin 5)) -
            4 * Real.cos (restNet.angle a.new (4 : Fin 5) - restNet.angle a.new (3 : Fin 5))))) := by
        unfold Net.reactive
        show _ + ((∑ k : Fin 4, _) + (∑ k : Fin 4, _)) = _
        rw [Fin.sum_univ_four, Fin.sum_univ_four]
        rfl
      rw [e1, e2, hV3, hA3, hV4, hA4]
      norm_num
  refine ⟨⟨fun v : Fin 5 => if v = 2 then Euler.p 1 / 100000 + 2 else Euler.p 1 / 100000, ?_, ?_⟩, ?_, ?_, ?_, ?_, ?_⟩
  · show ∀ k : Fin 4, _
    intro k hk
    match k, hk with
    | 0, _ =>
      refine ⟨?_, fun _ => ?_⟩
      · show Euler.p (a.new 4) / 100000 = Euler.p 1 / 100000
        rw [h4]
      · show Euler.p (a.new 6) / 100000 = Euler.p 1 / 100000
        rw [h6]
    | 1, _ => exact ⟨h8, fun _ => h10⟩
    | 2, _ => exact ⟨h12, fun h => by cases h⟩
    | 3, h => cases h
  · show ∀ v : Fin 5, _
    intro v b hv hb
    match v, hv with
    | 0, _ => injection hb with hb; subst hb; rfl
    | 1, h => cases h
    | 2, h => cases h
    | 3, h => cases h
    | 4, h => cases h
  · show ∀ v : Fin 5, _
    intro v _
    match v with
    | 0 => exact ⟨fun h => (by cases h), fun h => (by cases h)⟩
    | 3 => exact ⟨fun h => (by cases h), fun h => (by cases h)⟩
    | 4 => exact ⟨fun h => (by cases h), fun h => (by cases h)⟩
    | 1 =>
      refine ⟨fun _ => ?_, fun h => (by cases h)⟩
      have : restNet.outflow (1 : Fin 5) a.new = (0 + a.new 9 + a.new 13 + 0) - (a.new 7 + 0 + 0 + 0) := by
        unfold Net.outflow
        show (∑ k : Fin 4, _) - (∑ k : Fin 4, _) = _
        rw [Fin.sum_univ_four, Fin.sum_univ_four]
        rfl
      rw [this, h9, h13, h7]; norm_num
    | 2 =>
      refine ⟨fun h => (by cases h), fun _ b hb => ?_⟩
      injection hb with hb
      subst hb
      have : restNet.outflow (2 : Fin 5) a.new = (0 + 0 + 0 + 0) - (0 + a.new 11 + 0 + 0) := by
        unfold Net.outflow
        show (∑ k : Fin 4, _) - (∑ k : Fin 4, _) = _
        rw [Fin.sum_univ_four, Fin.sum_univ_four]
        rfl
      rw [this, h11]
      show _ = (0 : ℝ)
      norm_num
  · show ∀ k : Fin 4, _
    intro k kind n h hs
    match k, h with
    | 0, h => injection h with h; subst h; exact hs.elim
    | 2, h => injection h with h; subst h; exact hs.elim
    | 3, h => cases h
    | 1, h =>
      injection h with h; subst h
      refine ⟨?_, ?_⟩
      · show a.new 10 = a.new 8 + a.control 0
        rw [h10, h8, hc]
      · show a.new 9 = a.new 11
        rw [h9, h11]
  · show ∀ k : Fin 4, _
    intro k dx d r n h
    match k, h with
    | 1, h => injection h with h; cases h
    | 2, h => injection h with h; cases h
    | 3, h => cases h
    | 0, h =>
      injection h with h hn
      injection h with e1 e2 e3
      subst e1 e2 e3 hn
      intro j hj
      obtain rfl : j = 0 := by omega
      have hp : Euler.RealPipe 1 0 := Euler.turbulent_example.1
      have hs : (Box.eulerLaw 1 0).source (1, 0) = Res.ok 0 := by
        simp only [Box.eulerLaw]
        rw [Euler.C34_source_defined hp]
        have : Euler.force 1 0 0 = 0 := by unfold Euler.force; split <;> simp; split <;> rfl
        simp [this]
      show Box.evaluatePoint _ t t' 100 (a.last 4, a.last 5) (a.last 6, a.last 7) (a.new 4, a.new 5)
        (a.new 6, a.new 7) = Res.ok 0
      rw [hl, h4, h5, h6, h7]
      unfold Box.evaluatePoint
      rw [hs]
      simp
  · show ∀ v : Fin 5, _
    intro v b hb
    injection hb with hb
    subst hb
    match v with
    | 0 => trivial
    | 1 => trivial
    | 2 => trivial
    | 3 => exact ⟨h0, h1⟩
    | 4 => exact hact 4 (Or.inr rfl)
  · show ∀ k : Fin 4, _
    intro k g p n h
    match k, h with
    | 0, h => injection h with h; cases h
    | 1, h => injection h with h; cases h
    | 3, h => cases h
    | 2, h =>
      injection h with h
      injection h with e1 e2
      subst e1 e2
      rw [Power.generated_eq]
      show Res.ok (Power.gen ⟨1, 2⟩ (a.new 13)) = Res.ok (restNet.active (3 : Fin 5) a.new)
      rw [h13, (hact 3 (Or.inl rfl)).1]
      norm_num [Power.gen, Power.poly]

/-- The residual vanishes. -/
example (t t' : ℝ) : restNet.residual t t' restPoint = Res.ok 0 := by
  obtain ⟨r, hr, h⟩ := C72_residual_iff_laws restNet rest_admissible t t' (rest_computable t') restPoint
  rw [hr, h.mpr (rest_laws t t')]

end Verif.Network
