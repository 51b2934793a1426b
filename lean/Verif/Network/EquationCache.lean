import Verif.OptState.EquationCacheProps
import Verif.Network.Jacobian
import Verif.Network.SimulateExample

/-!
# Property C182 for networks: the cache for derivatives of the equations
-/

set_option autoImplicit false

namespace Verif.Network

open Verif.Net Verif.Handler Verif.Interp Verif.OptState Matrix

/-- The entries of a vector. -/
def vector {n : ℕ} (l : List ℝ) : Fin n → ℝ := fun i => l.getD i 0

/-- The derivatives a network adds to the matrices — `Networkproblem.cpp` 263-304. -/
noncomputable def Net.equations (N : Net) : Equations ℝ where
  new t0 t1 y z u := N.dNew t0 t1 (N.args (vector y, vector z, vector u))
  last _ _ _ _ _ := N.dLast
  control _ _ _ _ _ := N.dControl

/-- The query is about states and controls of the network for `n` times, and derivatives exist at every time after the first. -/
structure Net.Asked (N : Net) (n : ℕ) (q : Query ℝ) : Prop where
  times : q.states.points.length = n
  inner : q.states.inner = N.stateCount
  states : q.states.WF
  controls : q.controls.WF
  regular : ∀ i, 1 ≤ i → i < n → ∃ t z u, q.states.points[i]? = some t ∧ vectorAtIndex q.states i = Res.ok z ∧ eval q.controls t = Res.ok u ∧
    Regular N t (ext (vector z : Fin N.stateCount → ℝ))

/-- The entries of a stored matrix. -/
def _root_.Verif.Handler.Sparse.matrix (S : Sparse ℝ) (n m : ℕ) : Matrix (Fin n) (Fin m) ℝ := fun i j => S.coeff i.val j.val

/-- There are not more controls than states. -/
theorem controls_le_states (N : Net) : N.controls ≤ N.states := by
  unfold Net.controls Net.states
  rw [setIndices_free, setIndices_free]
  have : N.controlNeeds.sum ≤ N.stateNeeds.sum := by
    unfold Net.controlNeeds Net.stateNeeds
    rw [List.sum_append, List.sum_ofFn, List.sum_ofFn, List.sum_ofFn]
    refine le_trans (Finset.sum_le_sum fun k _ => ?_) (Nat.le_add_left _ _)
    cases h : N.edge k with
    | line _ _ => simp [edgeControls, EdgeKind.isControl]
    | gas kind points => cases kind <;> simp [edgeControls, EdgeKind.isControl, edgeNeed]
  omega

theorem Net.equations_pattern {N : Net} (hN : Admissible N) : FixedPattern N.equations := by
  obtain ⟨P, hP, -⟩ := hN.dNew_pattern
  refine ⟨P, fun t0 t1 y z u a h p => ?_⟩
  rw [← hP (t0, t1, _) a h]
  simp [pos]

theorem Net.Asked.step {N : Net} (hN : Admissible N) {n : ℕ} {q : Query ℝ} (hq : N.Asked n q) {i : ℕ} (h1 : 1 ≤ i) (hi : i < n) :
    ∃ t0 t1 y z u last new control, q.states.points[i - 1]? = some t0 ∧ q.states.points[i]? = some t1 ∧ vectorAtIndex q.states ((i : ℤ) - 1) = Res.ok y ∧
      vectorAtIndex q.states i = Res.ok z ∧ eval q.controls t1 = Res.ok u ∧ N.dLast = Res.ok last ∧
      N.dNew t0 t1 (N.args (vector y, vector z, vector u)) = Res.ok new ∧ N.dControl = Res.ok control ∧
      ∃ D : N.Point →L[ℝ] (Fin N.stateCount → ℝ), Derives (N.residual t0 t1) D (vector y, vector z, vector u) ∧
        ∀ a b c, D (a, b, c) = matrixOf N.stateCount N.stateCount last *ᵥ a + matrixOf N.stateCount N.stateCount new *ᵥ b +
          matrixOf N.stateCount N.controlCount control *ᵥ c := by
  obtain ⟨t, z, u, e1, e2, e3, hr⟩ := hq.regular i h1 hi
  have hy : ∃ y, vectorAtIndex q.states ((i : ℤ) - 1) = Res.ok y := by
    have hl : q.states.values.length = n * q.states.inner := by rw [hq.states, hq.times]
    have hle : q.states.inner * (i - 1) + q.states.inner ≤ q.states.values.length := by
      rw [hl, ← Nat.mul_succ, mul_comm n]
      exact Nat.mul_le_mul_left _ (by omega)
    have ht : ((i : ℤ) - 1).toNat = i - 1 := by omega
    unfold vectorAtIndex Interp.segment
    simp only [ht]
    rw [if_neg (by omega), if_neg (by omega), if_pos hle]
    exact ⟨_, rfl⟩
  obtain ⟨y, hy⟩ := hy
  have hi' : i - 1 < q.states.points.length := by rw [hq.times]; omega
  obtain ⟨last, new, control, h1, h2, h3, hD⟩ := C69_network_derivative_partial N hN q.states.points[i - 1] t (vector y, vector z, vector u) hr
  exact ⟨_, t, y, z, u, last, new, control, List.getElem?_eq_getElem hi', e1, hy, e2, e3, h1, h2, h3, hD⟩

/-- **C182** for networks, with the limits of `C182_partial` and C69. However often the cache was asked before: in each time step it returns the matrices of the derivatives of the
residual by last state, new state and control, at the states and controls of the call. -/
theorem C182_network_partial (N : Net) (hN : Admissible N) (n : ℕ) (c : EquationCache ℝ) (hc : EquationCache.construct n = Res.ok c) (qs : List (Query ℝ))
    (hq : ∀ q ∈ qs, N.Asked n q) (hd : Determined qs) (k : ℕ) (q : Query ℝ) (hk : qs[k]? = some q) :
    ∃ c', (calls false N.equations c qs)[k]? = some (Res.ok (), c') ∧ ∀ i, 1 ≤ i → i < n →
      ∃ t0 t1 y z u, q.states.points[i - 1]? = some t0 ∧ q.states.points[i]? = some t1 ∧ vectorAtIndex q.states ((i : ℤ) - 1) = Res.ok y ∧
        vectorAtIndex q.states i = Res.ok z ∧ eval q.controls t1 = Res.ok u ∧
        ∃ positions new last control, c'.solvers[i]? = some (some (positions, new)) ∧ c'.last[i]? = some last ∧ c'.control[i]? = some control ∧
          ∃ D : N.Point →L[ℝ] (Fin N.stateCount → ℝ), Derives (N.residual t0 t1) D (vector y, vector z, vector u) ∧
            ∀ a b d, D (a, b, d) = last.matrix N.stateCount N.stateCount *ᵥ a + new.matrix N.stateCount N.stateCount *ᵥ b +
              control.matrix N.stateCount N.controlCount *ᵥ d := by
  have hfits : ∀ q ∈ qs, q.Fits N.equations n N.stateCount := fun q h => by
    have hq := hq q h
    refine ⟨hq.times, hq.inner, hq.states, hq.controls, fun i h1 hi => ?_⟩
    obtain ⟨t0, t1, y, z, u, last, new, control, e1, e2, e3, e4, e5, e6, e7, e8, -⟩ := hq.step hN h1 hi
    refine ⟨new, last, control, ⟨t0, t1, y, z, u, e1, e2, e3, e4, e5, e7, e6, e8⟩, fun x hx => ?_⟩
    obtain ⟨hin, hil, hic⟩ := C70_inside N hN
    have hcs := controls_le_states N
    simp only [List.mem_append] at hx
    unfold Net.stateCount
    rcases hx with (hx | hx) | hx
    · have := hin _ _ _ _ e7 x hx; omega
    · have := hil _ e6 x hx; omega
    · have := hic _ e8 x hx; omega
  obtain ⟨c', e, hh⟩ := C182_partial N.equations (Net.equations_pattern hN) n N.stateCount c hc qs hfits hd k q hk
  refine ⟨c', e, fun i h1 hi => ?_⟩
  have hmem : q ∈ qs := List.mem_of_getElem? hk
  obtain ⟨t0, t1, y, z, u, last, new, control, e1, e2, e3, e4, e5, e6, e7, e8, D, hD, hv⟩ := (hq q hmem).step hN h1 hi
  obtain ⟨positions, M, L, U, g1, g2, g3, hval⟩ := hh i h1 (by rw [(hq q hmem).times]; exact hi) new last control
    ⟨t0, t1, y, z, u, e1, e2, e3, e4, e5, e7, e6, e8⟩
  refine ⟨t0, t1, y, z, u, e1, e2, e3, e4, e5, positions, M, L, U, g1, g2, g3, D, hD, fun a b d => ?_⟩
  have m1 : M.matrix N.stateCount N.stateCount = matrixOf N.stateCount N.stateCount new := by ext i j; exact (hval i j).1
  have m2 : L.matrix N.stateCount N.stateCount = matrixOf N.stateCount N.stateCount last := by ext i j; exact (hval i j).2.1
  have m3 : U.matrix N.stateCount N.controlCount = matrixOf N.stateCount N.controlCount control := by ext i j; exact (hval i j).2.2
  rw [m1, m2, m3]
  exact hv a b d

/-! ## Example -/

/-- Three times, at which the short pipe is at rest under some pressure. -/
noncomputable def shortQuery (p : ℝ) : Query ℝ := ⟨⟨[0, 120], 0, []⟩, ⟨[0, 60, 120], 4, [p, 0, p, 0, 60, 5, 60, 5, 60, 5, 60, 5]⟩⟩

theorem short_asked (p : ℝ) : shortNet.Asked 3 (shortQuery p) where
  times := rfl
  inner := rfl
  states := rfl
  controls := rfl
  regular i h1 hi := by
    have hreg : ∀ t (z : List ℝ), Regular shortNet t (ext (vector z : Fin shortNet.stateCount → ℝ)) := fun t z =>
      ⟨fun v _ => ⟨_, rfl⟩, by intro k dx d r n h; injection h with h; cases h⟩
    have hvec : ∀ i : ℕ, 1 ≤ i → i < 3 → vectorAtIndex (shortQuery p).states i = Res.ok [60, 5, 60, 5] := by
      intro i h1 h2
      obtain rfl | rfl : i = 1 ∨ i = 2 := by omega
      all_goals rfl
    have hctl : ∀ t : ℝ, 0 < t → t ≤ 120 → eval (shortQuery p).controls t = Res.ok [] := by
      intro t h0 ht
      unfold eval shortQuery
      simp only [List.getLast?_cons_cons, List.getLast?_singleton, List.head?_cons]
      by_cases hb : 120 ≤ t
      · rw [if_pos hb, if_neg (by
          have : t = 120 := le_antisymm ht hb
          rw [this]; unfold EPSILON; norm_num)]
        rfl
      · rw [if_neg hb, if_neg (by linarith)]
        have hl : lowerBound [0, 120] t = 1 := by
          unfold lowerBound
          simp [List.findIdx_cons, not_le.mpr h0, ht]
        rw [hl]
        rfl
    obtain rfl | rfl : i = 1 ∨ i = 2 := by omega
    · exact ⟨60, _, _, rfl, hvec 1 le_rfl (by omega), hctl 60 (by norm_num) (by norm_num), hreg _ _⟩
    · exact ⟨120, _, _, rfl, hvec 2 (by omega) (by omega), hctl 120 (by norm_num) (by norm_num), hreg _ _⟩

/-- C182 applies to a short pipe: to a second call with another initial state, and to a third one with the first. -/
example : ∃ c c' : EquationCache ℝ, EquationCache.construct 3 = Res.ok c ∧
    (calls false shortNet.equations c [shortQuery 60, shortQuery 50, shortQuery 60])[2]? = some (Res.ok (), c') ∧
    ∀ i, 1 ≤ i → i < 3 → ∃ positions new, c'.solvers[i]? = some (some (positions, new)) := by
  obtain ⟨c, hc⟩ : ∃ c : EquationCache ℝ, EquationCache.construct ((3 : ℕ) : ℤ) = Res.ok c := ⟨_, rfl⟩
  have hd : Determined [shortQuery 60, shortQuery 50, shortQuery 60] := by
    intro p hp q hq _ _ h
    have first : ∀ p : ℝ, vectorAtIndex (shortQuery p).states 0 = Res.ok [p, 0, p, 0] := fun p => rfl
    have hp' : ∃ a, p = shortQuery a := by simp at hp; rcases hp with h | h | h <;> exact ⟨_, h⟩
    have hq' : ∃ a, q = shortQuery a := by simp at hq; rcases hq with h | h | h <;> exact ⟨_, h⟩
    obtain ⟨a, rfl⟩ := hp'
    obtain ⟨b, rfl⟩ := hq'
    rw [first, first] at h
    injection h with h
    injection h with h
    rw [h]
  obtain ⟨c', e, h⟩ := C182_network_partial shortNet short_admissible 3 c hc [shortQuery 60, shortQuery 50, shortQuery 60] (by simp [short_asked]) hd 2 (shortQuery 60) rfl
  refine ⟨c, c', hc, e, fun i h1 h2 => ?_⟩
  obtain ⟨-, -, -, -, -, -, -, -, -, -, positions, new, -, -, e, -⟩ := h i h1 h2
  exact ⟨positions, new, e⟩

end Verif.Network
