import Verif.Network.Balance

/-!
# Property C137: a passive grid never creates power

Conductances of lines are entries of the admittance matrix beside the diagonal, so they are not positive in a passive grid,
and the conductance of a node is what its lines need plus a conductance to the ground that is not negative.
-/

set_option autoImplicit false

namespace Verif.Network

open Verif.Net Real

/-- C137. In a grid where the conductance of each node is the sum of a conductance to the ground and of what its lines
need, the power that flows into the grid is what is lost in the conductances to the ground and in the lines; the
loss of a line is its conductance times the square of the distance of the complex voltages at its ends. So if
no conductance to the ground is negative and no conductance of a line positive, the grid as a whole never
delivers more active power than it gets. -/
theorem C137_passive (N : Net) (hN : Admissible N) (state : Vec) (ground : Fin N.nodes → ℝ)
    (hG : ∀ v ∈ N.grid, (N.node v).G = ground v -
      ((∑ k, if N.src k = v then (N.edge k).conductance else 0) + ∑ k, if N.dst k = v then (N.edge k).conductance else 0)) :
    ∃ bus : Fin N.nodes → Power.Bus, (∀ v, N.bus v = Res.ok (bus v)) ∧
      ∑ v ∈ N.grid, Power.activePower (bus v) state =
        ∑ v ∈ N.grid, ground v * N.voltage state v ^ 2 +
        ∑ k, -(N.edge k).conductance *
          ((N.voltage state (N.src k) * cos (N.angle state (N.src k)) -
              N.voltage state (N.dst k) * cos (N.angle state (N.dst k))) ^ 2 +
            (N.voltage state (N.src k) * sin (N.angle state (N.src k)) -
              N.voltage state (N.dst k) * sin (N.angle state (N.dst k))) ^ 2) ∧
      ((∀ v ∈ N.grid, 0 ≤ ground v) → (∀ k G B, N.edge k = .line G B → G ≤ 0) →
        0 ≤ ∑ v ∈ N.grid, Power.activePower (bus v) state) := by
  obtain ⟨bus, hb, h, -⟩ := C42_power_balance N hN state
  have hmem : ∀ k, (N.edge k).conductance ≠ 0 → N.src k ∈ N.grid ∧ N.dst k ∈ N.grid := by
    intro k hk
    cases he : N.edge k with
    | gas kind n => rw [he] at hk; exact absurd rfl hk
    | line G B =>
      obtain ⟨h1, h2⟩ := hN.lines k G B he
      simp only [Net.grid, Finset.mem_filter, Finset.mem_univ, true_and]
      exact ⟨h1, h2⟩
  have hsum : ∑ v ∈ N.grid, (N.node v).G * N.voltage state v ^ 2 =
      ∑ v ∈ N.grid, ground v * N.voltage state v ^ 2 -
      ∑ k, (N.edge k).conductance * (N.voltage state (N.src k) ^ 2 + N.voltage state (N.dst k) ^ 2) := by
    have e : ∀ f : Fin N.edges → Fin N.nodes, (∀ k, (N.edge k).conductance ≠ 0 → f k ∈ N.grid) →
        ∑ v ∈ N.grid, (∑ k, if f k = v then (N.edge k).conductance else 0) * N.voltage state v ^ 2 =
        ∑ k, (N.edge k).conductance * N.voltage state (f k) ^ 2 := by
      intro f hf
      simp only [Finset.sum_mul, ite_mul, zero_mul]
      rw [Finset.sum_comm]
      refine Finset.sum_congr rfl fun k _ => ?_
      rw [Finset.sum_ite_eq]
      split
      · rfl
      · rename_i hk
        have : (N.edge k).conductance = 0 := by
          by_contra hne
          exact hk (hf k hne)
        rw [this, zero_mul]
    have e1 := e N.src fun k hk => (hmem k hk).1
    have e2 := e N.dst fun k hk => (hmem k hk).2
    calc _ = ∑ v ∈ N.grid, (ground v * N.voltage state v ^ 2 -
          ((∑ k, if N.src k = v then (N.edge k).conductance else 0) * N.voltage state v ^ 2 +
            (∑ k, if N.dst k = v then (N.edge k).conductance else 0) * N.voltage state v ^ 2)) :=
          Finset.sum_congr rfl fun v hv => by rw [hG v hv]; ring
      _ = _ := by
          rw [Finset.sum_sub_distrib, Finset.sum_add_distrib, e1, e2, ← Finset.sum_add_distrib]
          congr 1
          exact Finset.sum_congr rfl fun k _ => by ring
  have htotal : ∑ v ∈ N.grid, Power.activePower (bus v) state =
        ∑ v ∈ N.grid, ground v * N.voltage state v ^ 2 +
        ∑ k, -(N.edge k).conductance *
          ((N.voltage state (N.src k) * cos (N.angle state (N.src k)) -
              N.voltage state (N.dst k) * cos (N.angle state (N.dst k))) ^ 2 +
            (N.voltage state (N.src k) * sin (N.angle state (N.src k)) -
              N.voltage state (N.dst k) * sin (N.angle state (N.dst k))) ^ 2) := by
    rw [h, hsum, sub_add_eq_add_sub, add_sub_assoc, ← Finset.sum_sub_distrib]
    congr 1
    refine Finset.sum_congr rfl fun k _ => ?_
    rw [cos_sub]
    have s1 := sin_sq_add_cos_sq (N.angle state (N.src k))
    have s2 := sin_sq_add_cos_sq (N.angle state (N.dst k))
    linear_combination ((N.edge k).conductance * N.voltage state (N.src k) ^ 2) * s1 +
      ((N.edge k).conductance * N.voltage state (N.dst k) ^ 2) * s2
  refine ⟨bus, hb, htotal, fun hg hl => ?_⟩
  rw [htotal]
  refine add_nonneg (Finset.sum_nonneg fun v hv => mul_nonneg (hg v hv) (sq_nonneg _))
    (Finset.sum_nonneg fun k _ => mul_nonneg ?_ (by positivity))
  cases he : N.edge k with
  | gas kind n => show 0 ≤ -(0 : ℝ); norm_num
  | line G B => show 0 ≤ -G; linarith [hl k G B he]

noncomputable section

/-- Two power nodes joined by a line of conductance 3 and susceptance -10, one with a conductance to the ground. -/
def gridNet : Net where
  nodes := 2
  edges := 1
  node v := ⟨if v = 0 then .power .vphi else .power .pq, fun _ => Res.ok (1, 0), if v = 0 then 4 else 3, -10⟩
  edge _ := .line (-3) 10
  src _ := 0
  dst _ := 1
  starting v := if v = 0 then [0] else []
  ending v := if v = 1 then [0] else []

end

theorem grid_admissible : Admissible gridNet where
  starting := by
    show ∀ v : Fin 2, (if v = 0 then [(0 : Fin 1)] else []).Nodup ∧
      ∀ k : Fin 1, k ∈ (if v = 0 then [(0 : Fin 1)] else []) ↔ (0 : Fin 2) = v
    decide
  ending := by
    show ∀ v : Fin 2, (if v = 1 then [(0 : Fin 1)] else []).Nodup ∧
      ∀ k : Fin 1, k ∈ (if v = 1 then [(0 : Fin 1)] else []) ↔ (1 : Fin 2) = v
    decide
  noLoop := by show ∀ _ : Fin 1, (0 : Fin 2) ≠ 1; decide
  points := by intro k dx d r n h; cases h
  gasStart := by intro k kind n h; cases h
  gasEnd := by intro k kind n h; cases h
  plantEnd := by intro k g p n h; cases h
  lines := by intro k G B h; exact ⟨rfl, rfl⟩

/-- A passive grid meets the hypotheses of `C137_passive`. -/
example : ∃ ground : Fin gridNet.nodes → ℝ,
    (∀ v ∈ gridNet.grid, (gridNet.node v).G = ground v -
      ((∑ k, if gridNet.src k = v then (gridNet.edge k).conductance else 0) +
        ∑ k, if gridNet.dst k = v then (gridNet.edge k).conductance else 0)) ∧
    (∀ v ∈ gridNet.grid, 0 ≤ ground v) ∧ ∀ k G B, gridNet.edge k = .line G B → G ≤ 0 := by
  refine ⟨fun v : Fin 2 => if v = 0 then 1 else 0, ?_, ?_, ?_⟩
  · show ∀ v : Fin 2, _
    intro v _
    have e : (gridNet.edge (0 : Fin 1)).conductance = -3 := rfl
    show (if v = 0 then (4 : ℝ) else 3) = _ - ((∑ k : Fin 1, _) + ∑ k : Fin 1, _)
    rw [Fin.sum_univ_one, Fin.sum_univ_one, e]
    match v with
    | 0 => show (4 : ℝ) = 1 - (-3 + 0); norm_num
    | 1 => show (3 : ℝ) = 0 - (0 + -3); norm_num
  · intro v _
    show 0 ≤ if (show Fin 2 from v) = 0 then (1 : ℝ) else 0
    split <;> norm_num
  · intro k G B h
    injection h with h
    subst h
    norm_num

end Verif.Network
