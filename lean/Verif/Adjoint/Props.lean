import Verif.Adjoint.Lemmas
import Verif.Adjoint.Implicit
import Verif.IndexLambda.Props
import Verif.Jacobian.Props
import Verif.OptTimes.Props
import Verif.Weights.Props
import Mathlib.Analysis.Normed.Module.FiniteDimension
import Mathlib.Topology.Algebra.Module.FiniteDimension
import Mathlib.Analysis.Calculus.FDeriv.Mul
import Mathlib.LinearAlgebra.Matrix.NonsingularInverse
import Mathlib.LinearAlgebra.Matrix.ToLin

/-! # Properties C15 and C16: the derivative sweep is exact -/

set_option autoImplicit false
set_option linter.unusedSectionVars false

namespace Verif.Adjoint

open Matrix Finset

variable {n m r : ℕ} {K : Type} [Field K] [DecidableEq K]

/-! ## Algebraic form: the sweep transposes the linearised equations -/

/-- C15 (algebraic form). If the sweep returns, its gradient applied to any variation of the control
variables is the variation of the weighted cost along the linearised equations. -/
theorem C15_gradient_of_linearisation (I : Input n m r K) (N : ℕ) (s : State n m r K)
    (h : computeDerivatives I N = Res.ok (some s)) (dU : ℕ → Fin m → K) (dx : ℕ → Fin n → K)
    (ht : Tangent I N dU dx) :
    ∑ j ∈ range I.controlSteps, s.gradient j ⬝ᵥ dU j =
      ∑ i ∈ range N, I.weight (i + 1) * ((I.data (i + 1)).dfdnew ⬝ᵥ dx (i + 1) +
        (I.data (i + 1)).dfdcontrol ⬝ᵥ controlAt (I.pair (i + 1)) dU) := by
  have := sweep_gradient I dU dx N (State.init I) s h ht
  simpa [pairing, State.init] using this

/-- C16 (algebraic form). Likewise each block row of the Jacobian applied to a variation of the control
variables is the variation of the constraints at that constraint time, and blocks that are not
stored are zero. -/
theorem C16_jacobian_of_linearisation (I : Input n m r K) (N : ℕ) (pos : ℕ → ℕ)
    (hp : Placed I N pos) (s : State n m r K) (h : computeDerivatives I N = Res.ok (some s))
    (dU : ℕ → Fin m → K) (dx : ℕ → Fin n → K) (ht : Tangent I N dU dx) (k : ℕ)
    (hk : k < I.cons.length) :
    (∑ j ∈ range I.controlSteps, s.jacobian k j *ᵥ dU j =
      (I.data (pos k)).dgdnew *ᵥ dx (pos k) +
        (I.data (pos k)).dgdcontrol *ᵥ controlAt (I.pair (pos k)) dU) ∧
    ∀ j, k < I.rowstart j → s.jacobian k j = 0 := by
  rcases Nat.eq_zero_or_pos r with rfl | hr
  · exact ⟨funext fun x => x.elim0, fun j _ => Matrix.ext fun x => x.elim0⟩
  · obtain ⟨inv, hs⟩ := sweep_constraints hp hr dU dx N le_rfl (State.init I) s (init_inv hp) h ht
    refine ⟨?_, fun j hj => inv.stored k j hj⟩
    have := hs k hk
    rwa [if_neg (by simpa [State.init] using hk)] at this

/-- The linearised equations have exactly one solution for every variation of the controls, so the
two theorems above are not vacuous. -/
theorem tangent_exists_unique (I : Input n m r K) (N : ℕ)
    (hdet : ∀ i, 1 ≤ i → i ≤ N → (I.data i).dEdnew.det ≠ 0) (dU : ℕ → Fin m → K) :
    (∃ dx, Tangent I N dU dx) ∧
    ∀ dx dx', Tangent I N dU dx → Tangent I N dU dx' → ∀ i ≤ N, dx i = dx' i := by
  constructor
  · let dx : ℕ → Fin n → K := fun i => Nat.rec 0 (fun i prev =>
      -((I.data (i + 1)).dEdnew⁻¹ *ᵥ ((I.data (i + 1)).dEdlast *ᵥ prev +
        (I.data (i + 1)).dEdcontrol *ᵥ controlAt (I.pair (i + 1)) dU))) i
    refine ⟨dx, ⟨rfl, ?_⟩⟩
    intro i h1 h2
    obtain ⟨i, rfl⟩ : ∃ j, i = j + 1 := ⟨i - 1, by omega⟩
    have hu : IsUnit (I.data (i + 1)).dEdnew.det := isUnit_iff_ne_zero.mpr (hdet _ h1 h2)
    have e : dx (i + 1) = -((I.data (i + 1)).dEdnew⁻¹ *ᵥ ((I.data (i + 1)).dEdlast *ᵥ dx i +
        (I.data (i + 1)).dEdcontrol *ᵥ controlAt (I.pair (i + 1)) dU)) := rfl
    rw [e, mulVec_neg, mulVec_mulVec, Matrix.mul_nonsing_inv _ hu, one_mulVec, Nat.add_sub_cancel]
    abel
  · intro dx dx' h h' i
    induction i with
    | zero => intro _; rw [h.initial, h'.initial]
    | succ i ih =>
      intro hi
      have e := h.equation (i + 1) (by omega) hi
      have e' := h'.equation (i + 1) (by omega) hi
      rw [Nat.add_sub_cancel] at e e'
      rw [ih (by omega)] at e
      have hu : IsUnit (I.data (i + 1)).dEdnew.det := isUnit_iff_ne_zero.mpr (hdet _ (by omega) hi)
      have : (I.data (i + 1)).dEdnew *ᵥ dx (i + 1) = (I.data (i + 1)).dEdnew *ᵥ dx' (i + 1) := by
        have := e.trans e'.symm
        simpa using this
      have := congrArg (fun v => (I.data (i + 1)).dEdnew⁻¹ *ᵥ v) this
      simpa [mulVec_mulVec, Matrix.nonsing_inv_mul _ hu] using this

/-! ## The sweep returns -/

/-- Conditions under which all accesses of the sweep are in bounds. -/
structure InBounds (I : Input n m r K) (N : ℕ) (pos : ℕ → ℕ) : Prop where
  pair_lt : ∀ i, 1 ≤ i → i ≤ N → (I.pair i).1 < I.controlSteps
  pair_zero : ∀ i, 1 ≤ i → i ≤ N → (I.pair i).1 = 0 → (I.pair i).2 = 1
  stored : ∀ i, 1 ≤ i → i ≤ N → ∀ k < I.cons.length, i ≤ pos k →
    I.rowstart (I.pair i).1 ≤ k ∧ I.rowstart ((I.pair i).1 - 1) ≤ k
  read : 0 < r → (0 < I.cons.length ∧ pos 0 = 1) ∨ ∃ v, I.oob = some v ∧ ∀ i, 1 ≤ i → i ≤ N → v ≠ I.time i

theorem distributeGradient_ok {q : ℕ} (g : ℕ → Fin m → K) {p : ℕ × K} (v : Fin m → K)
    (h1 : p.1 < q) (h2 : p.1 = 0 → p.2 = 1) : ∃ g', distributeGradient q g p v = Res.ok g' := by
  unfold distributeGradient addGradient
  by_cases hp : p.2 = 1
  · rw [if_pos hp, if_pos h1]; exact ⟨_, rfl⟩
  · rw [if_neg hp, if_pos h1]
    simp only [Res.ok_bind]
    rw [if_neg (fun h => hp (h2 h)), if_pos (by omega)]
    exact ⟨_, rfl⟩

theorem distributeJacobian_ok {q ci : ℕ} {rs : ℕ → ℕ} (J : ℕ → ℕ → Matrix (Fin r) (Fin m) K)
    {p : ℕ × K} (v : ℕ → Matrix (Fin r) (Fin m) K) (h1 : p.1 < q) (h2 : p.1 = 0 → p.2 = 1)
    (h3 : rs p.1 ≤ ci) (h4 : rs (p.1 - 1) ≤ ci) :
    ∃ J', distributeJacobian q rs J p ci v = Res.ok J' := by
  unfold distributeJacobian addJacobian
  by_cases hp : p.2 = 1
  · rw [if_pos hp, if_pos ⟨h1, h3⟩]; exact ⟨_, rfl⟩
  · rw [if_neg hp, if_pos ⟨h1, h3⟩]
    simp only [Res.ok_bind]
    rw [if_neg (fun h => hp (h2 h)), if_pos ⟨by omega, h4⟩]
    exact ⟨_, rfl⟩

theorem step_ok {I : Input n m r K} {N i : ℕ} {pos : ℕ → ℕ} (hp : Placed I N pos)
    (hb : InBounds I N pos) (hi : i + 1 ≤ N) (s : State n m r K)
    (inv : 0 < r → CInv I pos (i + 1) s)
    (hact : 0 < r → s.active = true → s.constraintIndex < I.cons.length)
    (hdet : ((I.data (i + 1)).dEdnewᵀ).det ≠ 0) :
    ∃ s', step I (i + 1) s = Res.ok (some s') ∧
      (0 < r → s'.active = true → s'.constraintIndex < I.cons.length) := by
  unfold step
  simp only
  rw [if_neg hdet]
  obtain ⟨g, hg⟩ := distributeGradient_ok s.gradient (p := I.pair (i + 1))
    (v := (inverseT (I.data (i + 1)).dEdnew *ᵥ (s.rhsF - I.weight (i + 1) • (I.data (i + 1)).dfdnew))
      ᵥ* (I.data (i + 1)).dEdcontrol + I.weight (i + 1) • (I.data (i + 1)).dfdcontrol)
    (hb.pair_lt (i + 1) (by omega) hi) (hb.pair_zero (i + 1) (by omega) hi)
  rw [hg]
  simp only [Res.ok_bind]
  by_cases hr : 0 < r
  · have inv := inv hr
    have hact := hact hr
    rw [if_pos hr]
    unfold constraintStep
    have hnew : ∃ b, isNewConstraint I s.constraintIndex (i + 1) = Res.ok b ∧
        (b = true → 0 < s.constraintIndex ∧ pos (s.constraintIndex - 1) = i + 1) := by
      unfold isNewConstraint
      by_cases h0 : s.constraintIndex = 0
      · rw [if_pos h0]
        rcases hb.read hr with ⟨hM, hp0⟩ | ⟨v, hv, hne⟩
        · have := (inv.found 0 hM).mpr (by omega)
          omega
        · rw [hv]
          simp only
          rw [if_neg (hne (i + 1) (by omega) hi)]
          exact ⟨false, rfl, by simp⟩
      · rw [if_neg h0]
        have hlt : s.constraintIndex - 1 < I.cons.length := by have := inv.le; omega
        rw [Res.get_of_lt hlt]
        refine ⟨_, rfl, fun h => ⟨by omega, ?_⟩⟩
        rw [decide_eq_true_eq, hp.time _ hlt] at h
        exact hp.inj _ _ (hp.lower _ hlt) (hp.upper _ hlt) (by omega) hi h
    obtain ⟨b, hb1, hb2⟩ := hnew
    simp only
    rw [hb1]
    simp only [Res.ok_bind]
    by_cases ha : (s.active || b) = true
    · rw [if_pos ha]
      have hci : (if b = true then s.constraintIndex - 1 else s.constraintIndex) < I.cons.length ∧
          i + 1 ≤ pos (if b = true then s.constraintIndex - 1 else s.constraintIndex) := by
        cases hbb : b with
        | true =>
          obtain ⟨h0, h1⟩ := hb2 hbb
          have := inv.le
          simp only [if_true]
          exact ⟨by omega, by omega⟩
        | false =>
          have haa : s.active = true := by simpa [hbb] using ha
          have hlt := hact haa
          simp only [Bool.false_eq_true, if_false]
          refine ⟨hlt, ?_⟩
          by_contra hcon
          have := (inv.found _ hlt).mpr (by omega)
          omega
      obtain ⟨st1, st2⟩ := hb.stored (i + 1) (by omega) hi _ hci.1 hci.2
      obtain ⟨J, hJ⟩ := distributeJacobian_ok s.jacobian
        (v := fun k => if b = true ∧ k = (if b = true then s.constraintIndex - 1 else s.constraintIndex)
          then (inverseT (I.data (i + 1)).dEdnew * (if b = true ∧ k = (if b = true then
            s.constraintIndex - 1 else s.constraintIndex) then s.rhsG k - (I.data (i + 1)).dgdnewᵀ
            else s.rhsG k))ᵀ * (I.data (i + 1)).dEdcontrol + (I.data (i + 1)).dgdcontrol
          else (inverseT (I.data (i + 1)).dEdnew * (if b = true ∧ k = (if b = true then
            s.constraintIndex - 1 else s.constraintIndex) then s.rhsG k - (I.data (i + 1)).dgdnewᵀ
            else s.rhsG k))ᵀ * (I.data (i + 1)).dEdcontrol)
        (hb.pair_lt (i + 1) (by omega) hi) (hb.pair_zero (i + 1) (by omega) hi) st1 st2
      rw [hJ]
      simp only [Res.ok_bind]
      exact ⟨_, rfl, fun _ _ => hci.1⟩
    · rw [if_neg ha]
      simp only [Res.ok_bind]
      refine ⟨_, rfl, fun _ h => ?_⟩
      simp only at h
      rw [h] at ha; exact absurd rfl ha
  · rw [if_neg hr]
    exact ⟨_, rfl, fun h => absurd h hr⟩

/-- C15/C16. If all matrices `dE/dnew` are invertible and the index data are in bounds, the sweep
returns a result. -/
theorem C15_sweep_succeeds (I : Input n m r K) (N : ℕ) (pos : ℕ → ℕ) (hp : Placed I N pos)
    (hb : InBounds I N pos) (hdet : ∀ i, 1 ≤ i → i ≤ N → (I.data i).dEdnew.det ≠ 0) :
    ∃ s, computeDerivatives I N = Res.ok (some s) := by
  have main : ∀ i ≤ N, ∀ s : State n m r K, (0 < r → CInv I pos i s) →
      (0 < r → s.active = true → s.constraintIndex < I.cons.length) →
      ∃ s', sweep I i s = Res.ok (some s') := by
    intro i
    induction i with
    | zero => intro _ s _ _; exact ⟨s, rfl⟩
    | succ i ih =>
      intro hi s inv hact
      have hd : ((I.data (i + 1)).dEdnewᵀ).det ≠ 0 := by
        rw [det_transpose]; exact hdet _ (by omega) hi
      obtain ⟨s1, h1, h2⟩ := step_ok hp hb hi s inv hact hd
      have inv1 : 0 < r → CInv I pos i s1 := by
        intro hr
        have hz : (I.data (i + 1)).dEdnew *ᵥ (0 : Fin n → K) + (I.data (i + 1)).dEdlast *ᵥ 0 +
            (I.data (i + 1)).dEdcontrol *ᵥ controlAt (I.pair (i + 1)) (fun _ => 0) = 0 := by
          simp [controlAt]
        exact (step_constraints hp hi hr (inv hr) h1 (dU := fun _ => 0) (dx := fun _ => 0) hz).1
      obtain ⟨s', hs'⟩ := ih (by omega) s1 inv1 h2
      exact ⟨s', by simp [sweep, h1, hs']⟩
  refine main N le_rfl _ (fun _ => init_inv hp) (fun _ h => ?_)
  simp [State.init] at h

/-! ## The index data of the optimizer satisfy these conditions -/

open Verif.Interp Verif.IndexLambda Verif.Jacobian Verif.OptTimes

section Optimizer

variable {F : Type} [Field F] [LinearOrder F] [IsStrictOrderedRing F]

/-- The input the constructor of the optimizer prepares for the sweep: pairs by
`compute_index_lambda`, weights by `make_objective_function_coefficients`, row starts of the
constraint Jacobian by `make_data` — `ImplicitOptimizer.cpp` 77-90. -/
structure FromOptimizer (I : Input n m r F) (states controls cons : List F) : Prop where
  time : ∀ i (hi : i < states.length), I.time i = states[i]
  consEq : I.cons = cons
  steps : I.controlSteps = controls.length
  pair : ∀ i (hi : i < states.length), computeIndexLambda controls states[i] = Res.ok (I.pair i)
  weight : ∃ w, Verif.Weights.weights states = Res.ok w ∧
    ∀ i (hi : i < w.length), I.weight i = w[i]
  rowstart : ∃ J, makeData r m cons controls = Res.ok J ∧
    ∀ j < controls.length, I.rowstart j = J.outerRowstart j

theorem computeIndexLambda_spec (us : List F) (hu : us.Pairwise (· < ·)) (hn : 0 < us.length) (t : F)
    (h1 : us[0] ≤ t) (h2 : t < us[us.length - 1] + EPSILON) (p : ℕ × F)
    (h : computeIndexLambda us t = Res.ok p) :
    p.1 < us.length ∧ (p.1 = 0 → p.2 = 1) ∧
      ∀ j (hj : j < us.length), j + 1 ≤ p.1 → us[j] < t := by
  have he := EPSILON_pos (K := F)
  obtain ⟨i, lam, hil, hlt, -, -, h0, -⟩ := C08_agrees_with_interpolation
    (⟨us, 0, []⟩ : IV F) (by simp [IV.WF]) hu hn t (by simp only; linarith) (by simpa using h2)
  simp only at hil hlt
  rw [h] at hil
  obtain rfl : p = (i, lam) := by simpa using hil
  refine ⟨hlt, h0, ?_⟩
  intro j hj hji
  unfold computeIndexLambda at h
  rw [getLast?_eq hn] at h
  simp only at h
  split at h
  · rename_i hc
    exact lt_of_le_of_lt (getElem_le_of_pairwise hu (by omega) (by omega)) hc.1
  · rw [Res.bind_eq_ok] at h
    obtain ⟨tu, htu, h⟩ := h
    have hi : lowerBound us t = i := by
      split at h
      · simp only [Res.ok.injEq, Prod.mk.injEq] at h; exact h.1
      · rw [Res.bind_eq_ok] at h
        obtain ⟨tl, -, h⟩ := h
        simp only [Res.ok.injEq, Prod.mk.injEq] at h; exact h.1
    simp only at hji
    rw [← hi] at hji
    unfold lowerBound at hji
    have := List.not_of_lt_findIdx (xs := us) (p := fun p => decide ¬p < t) (i := j) (by omega)
    simpa using this

/-- The state index of each constraint time. -/
def position (states cons : List F) (k : ℕ) : ℕ := states.idxOf (cons.getD k 0)

theorem placed_of_accepted (I : Input n m r F) (states controls cons : List F)
    (hI : FromOptimizer I states controls cons) (hs : states.Pairwise (· < ·))
    (hacc : checkConstraintTimes states cons = Res.ok ()) :
    Placed I (states.length - 1) (position states cons) := by
  obtain ⟨hmem, hinc⟩ := (C17_check_iff_subset states cons hs).mp hacc
  have hidx : ∀ k (hk : k < cons.length), 1 ≤ position states cons k ∧
      ∃ h : position states cons k < states.length, states[position states cons k] = cons[k] := by
    intro k hk
    have hm := hmem cons[k] (List.getElem_mem hk)
    have hpos : position states cons k = states.idxOf cons[k] := by
      unfold position; rw [List.getD_eq_getElem?_getD, List.getElem?_eq_getElem hk]; rfl
    have hm' : cons[k] ∈ states := List.mem_of_mem_tail hm
    have hlt : states.idxOf cons[k] < states.length := List.idxOf_lt_length_iff.mpr hm'
    have hget : states[states.idxOf cons[k]] = cons[k] := List.getElem_idxOf hlt
    refine ⟨?_, by rw [hpos]; exact hlt, by simp only [hpos]; exact hget⟩
    rw [hpos]
    by_contra hcon
    obtain ⟨j, hj, hje⟩ := List.getElem_of_mem hm
    have h0 : states.idxOf cons[k] = 0 := by omega
    have hjl : j + 1 < states.length := by simp at hj; omega
    have e1 : states[j + 1] = cons[k] := by rw [← hje]; simp
    have e2 : states[0]'(by omega) = cons[k] := by
      rw [← hget]; congr 1; exact h0.symm
    have := List.pairwise_iff_getElem.mp hs 0 (j + 1) (by omega) hjl (by omega)
    rw [e1, e2] at this
    exact lt_irrefl _ this
  have hinj : ∀ a b (ha : a < states.length) (hb : b < states.length), states[a] < states[b] → a < b := by
    intro a b ha hb h
    by_contra hcon
    exact absurd h (not_lt.mpr (getElem_le_of_pairwise hs (by omega) ha))
  have hlen := hI.consEq
  refine ⟨?_, ?_, ?_, ?_, ?_⟩
  · intro k hk; rw [hlen] at hk; exact (hidx k hk).1
  · intro k hk; rw [hlen] at hk; have := (hidx k hk).2.1; omega
  · intro k hk
    simp only [hlen] at hk ⊢
    obtain ⟨-, hlt, he⟩ := hidx k hk
    rw [hI.time _ hlt, he]
  · intro k l hkl hl
    rw [hlen] at hl
    obtain ⟨-, h1, e1⟩ := hidx k (by omega)
    obtain ⟨-, h2, e2⟩ := hidx l hl
    apply hinj _ _ h1 h2
    rw [e1, e2]
    exact List.pairwise_iff_getElem.mp hinc k l (by omega) hl hkl
  · intro a b ha1 ha2 hb1 hb2 he
    rw [hI.time a (by omega), hI.time b (by omega)] at he
    rcases Nat.lt_trichotomy a b with h | h | h
    · have := List.pairwise_iff_getElem.mp hs a b (by omega) (by omega) h
      rw [he] at this; exact absurd this (lt_irrefl _)
    · exact h
    · have := List.pairwise_iff_getElem.mp hs b a (by omega) (by omega) h
      rw [he] at this; exact absurd this (lt_irrefl _)

/-- C15/C16. For all grids the constructor accepts, with strictly increasing state and control times, the
index data satisfy the conditions of `C15_sweep_succeeds`, provided that there are no constraints,
or the first constraint time is the
first simulated time, or that reading before the beginning of the constraint times
delivers a value that is not a state time (see C18). -/
theorem C16_index_data_in_bounds (I : Input n m r F) (states controls cons : List F)
    (hI : FromOptimizer I states controls cons) (hs : states.Pairwise (· < ·))
    (hu : controls.Pairwise (· < ·)) (hs0 : 0 < states.length) (hu0 : 0 < controls.length)
    (hfront : controls[0] ≤ states[0])
    (hback : states[states.length - 1] < controls[controls.length - 1] + EPSILON)
    (hacc : checkConstraintTimes states cons = Res.ok ())
    (hread : 0 < r → (cons ≠ [] ∧ cons.head? = states.tail.head?) ∨
      ∃ v, I.oob = some v ∧ v ∉ states.tail) :
    Placed I (states.length - 1) (position states cons) ∧
    InBounds I (states.length - 1) (position states cons) := by
  have hp := placed_of_accepted I states controls cons hI hs hacc
  refine ⟨hp, ?_⟩
  obtain ⟨hmem, hinc⟩ := (C17_check_iff_subset states cons hs).mp hacc
  have hspec : ∀ i, 1 ≤ i → i ≤ states.length - 1 → ∃ hi : i < states.length,
      (I.pair i).1 < controls.length ∧ ((I.pair i).1 = 0 → (I.pair i).2 = 1) ∧
      ∀ j (hj : j < controls.length), j + 1 ≤ (I.pair i).1 → controls[j] < states[i] := by
    intro i h1 h2
    refine ⟨by omega, ?_⟩
    apply computeIndexLambda_spec controls hu hu0 states[i] ?_ ?_ _ (hI.pair i (by omega))
    · exact le_trans hfront (getElem_le_of_pairwise hs (by omega) (by omega))
    · exact lt_of_le_of_lt (getElem_le_of_pairwise hs (by omega) (by omega)) hback
  refine ⟨?_, ?_, ?_, ?_⟩
  · intro i h1 h2; rw [hI.steps]; exact (hspec i h1 h2).2.1
  · intro i h1 h2; exact (hspec i h1 h2).2.2.1
  · intro i h1 h2 k hk hik
    obtain ⟨hi, hlt, -, hbelow⟩ := hspec i h1 h2
    obtain ⟨J, hJ, hrs⟩ := hI.rowstart
    have hcl := hinc.imp (R := (· < ·)) (S := (· ≤ ·)) (fun h => le_of_lt h)
    have hul := hu.imp (R := (· < ·)) (S := (· ≤ ·)) (fun h => le_of_lt h)
    obtain ⟨hbh, hbw, hW, -, h0, hH, hoff⟩ := C09_offsets r m cons controls hcl hul J hJ
    have hkl : k < cons.length := by rw [← hI.consEq]; exact hk
    have htk : states[i] ≤ cons[k] := by
      have := hp.time k hk
      simp only [hI.consEq] at this
      have hpu := hp.upper k hk
      rw [this, hI.time _ (by omega)]
      exact getElem_le_of_pairwise hs hik (by omega)
    have key : ∀ j, j < controls.length → j ≤ (I.pair i).1 → I.rowstart j ≤ k := by
      intro j hj hji
      rw [hrs j hj]
      unfold Jac.outerRowstart Jac.outerColHeight
      rw [hH, hoff j hj]
      by_cases hj0 : j = 0
      · subst hj0
        simp
      · rw [dif_neg hj0, Nat.add_sub_cancel_left]
        rw [countAfter_iff cons hcl _ k hkl]
        exact lt_of_lt_of_le (hbelow (j - 1) (by omega) (by omega)) htk
    exact ⟨key _ hlt le_rfl, key _ (by omega) (by omega)⟩
  · intro hr
    rcases hread hr with ⟨hne, hhead⟩ | ⟨v, hv, hnot⟩
    · left
      have hc0 : 0 < cons.length := List.length_pos_iff.mpr hne
      refine ⟨by rw [hI.consEq]; exact hc0, ?_⟩
      have hlt := hp.upper 0 (by rw [hI.consEq]; exact hc0)
      have hlo := hp.lower 0 (by rw [hI.consEq]; exact hc0)
      have ht := hp.time 0 (by rw [hI.consEq]; exact hc0)
      simp only [hI.consEq] at ht
      rw [List.head?_eq_getElem?, List.head?_eq_getElem?, List.getElem?_tail,
        List.getElem?_eq_getElem hc0, List.getElem?_eq_getElem (by omega)] at hhead
      simp only [Option.some.injEq, Nat.zero_add] at hhead
      apply hp.inj _ _ hlo hlt le_rfl (by omega)
      rw [← ht, hhead, hI.time 1 (by omega)]
    · right
      refine ⟨v, hv, fun i h1 h2 he => hnot ?_⟩
      rw [hI.time i (by omega)] at he
      obtain ⟨i', rfl⟩ : ∃ i', i = i' + 1 := ⟨i - 1, by omega⟩
      have : states[i' + 1] = states.tail[i']'(by simp; omega) := by simp
      rw [he, this]; exact List.getElem_mem _

end Optimizer

/-! ## Analytic form: the sweep computes Fréchet derivatives -/

section Analytic

open Filter Topology

variable {q : ℕ}

/-- The control variables, one vector per control time, continued by zero to all indices. -/
def extend (V : Fin q → Fin m → ℝ) (j : ℕ) : Fin m → ℝ := if h : j < q then V ⟨j, h⟩ else 0

/-- The control at state index `i`. -/
noncomputable def control (I : Input n m r ℝ) (i : ℕ) (V : Fin q → Fin m → ℝ) : Fin m → ℝ :=
  controlAt (I.pair i) (extend V)

/-- The discretised problem around a control vector `V₀`. `E i last new u = 0` is the system of
equations for state `i`; `x i V` is the state computed for the controls `V` (by the simulation),
`f i` the cost (with penalty), `g i` the constraints at state index `i`. The derivative matrices
handed to the sweep are those of `E`, `f` and `g`, and the computed states depend continuously
on the controls. -/
structure Discretised (I : Input n m r ℝ) (N : ℕ)
    (E : ℕ → (Fin n → ℝ) × (Fin n → ℝ) × (Fin m → ℝ) → (Fin n → ℝ))
    (f : ℕ → (Fin n → ℝ) × (Fin m → ℝ) → ℝ)
    (g : ℕ → (Fin n → ℝ) × (Fin m → ℝ) → (Fin r → ℝ))
    (x : ℕ → (Fin q → Fin m → ℝ) → (Fin n → ℝ)) (V₀ : Fin q → Fin m → ℝ) : Prop where
  initial : ∀ V, x 0 V = x 0 V₀
  solved : ∀ i, 1 ≤ i → i ≤ N → ∀ᶠ V in 𝓝 V₀, E i (x (i - 1) V, x i V, control I i V) = 0
  continuous : ∀ i, 1 ≤ i → i ≤ N → ContinuousAt (x i) V₀
  dE : ∀ i, 1 ≤ i → i ≤ N → ∃ E' : (Fin n → ℝ) × (Fin n → ℝ) × (Fin m → ℝ) →L[ℝ] (Fin n → ℝ),
    HasFDerivAt (E i) E' (x (i - 1) V₀, x i V₀, control I i V₀) ∧
    ∀ a b c, E' (a, b, c) = (I.data i).dEdlast *ᵥ a + (I.data i).dEdnew *ᵥ b +
      (I.data i).dEdcontrol *ᵥ c
  df : ∀ i, 1 ≤ i → i ≤ N → ∃ f' : (Fin n → ℝ) × (Fin m → ℝ) →L[ℝ] ℝ,
    HasFDerivAt (f i) f' (x i V₀, control I i V₀) ∧
    ∀ a c, f' (a, c) = (I.data i).dfdnew ⬝ᵥ a + (I.data i).dfdcontrol ⬝ᵥ c
  dg : ∀ i, 1 ≤ i → i ≤ N → ∃ g' : (Fin n → ℝ) × (Fin m → ℝ) →L[ℝ] (Fin r → ℝ),
    HasFDerivAt (g i) g' (x i V₀, control I i V₀) ∧
    ∀ a c, g' (a, c) = (I.data i).dgdnew *ᵥ a + (I.data i).dgdcontrol *ᵥ c

theorem extend_add (V W : Fin q → Fin m → ℝ) (j : ℕ) : extend (V + W) j = extend V j + extend W j := by
  unfold extend; split <;> simp

theorem extend_smul (c : ℝ) (V : Fin q → Fin m → ℝ) (j : ℕ) : extend (c • V) j = c • extend V j := by
  unfold extend; split <;> simp

theorem control_linear (I : Input n m r ℝ) (i : ℕ) :
    ∃ L : (Fin q → Fin m → ℝ) →L[ℝ] (Fin m → ℝ), ∀ V, L V = control I i V := by
  let l : (Fin q → Fin m → ℝ) →ₗ[ℝ] (Fin m → ℝ) :=
    { toFun := fun V => control I i V
      map_add' := by
        intro V W
        unfold control controlAt
        rw [extend_add, extend_add, smul_add, smul_add]
        abel
      map_smul' := by
        intro c V
        unfold control controlAt
        rw [extend_smul, extend_smul, RingHom.id_apply, smul_add, smul_comm c, smul_comm c] }
  exact ⟨LinearMap.toContinuousLinearMap l, fun V => rfl⟩

/-- The computed states are differentiable, and their derivatives solve the linearised equations. -/
theorem states_differentiable {I : Input n m r ℝ} {N : ℕ}
    {E : ℕ → (Fin n → ℝ) × (Fin n → ℝ) × (Fin m → ℝ) → (Fin n → ℝ)}
    {f : ℕ → (Fin n → ℝ) × (Fin m → ℝ) → ℝ} {g : ℕ → (Fin n → ℝ) × (Fin m → ℝ) → (Fin r → ℝ)}
    {x : ℕ → (Fin q → Fin m → ℝ) → (Fin n → ℝ)} {V₀ : Fin q → Fin m → ℝ}
    (hd : Discretised I N E f g x V₀)
    (hdet : ∀ i, 1 ≤ i → i ≤ N → (I.data i).dEdnew.det ≠ 0) :
    ∃ D : ℕ → (Fin q → Fin m → ℝ) →L[ℝ] (Fin n → ℝ),
      (∀ i ≤ N, HasFDerivAt (x i) (D i) V₀) ∧
      ∀ dV, Tangent I N (extend dV) (fun i => D i dV) := by
  have hex : ∀ i, i ≤ N → ∃ D : (Fin q → Fin m → ℝ) →L[ℝ] (Fin n → ℝ), HasFDerivAt (x i) D V₀ := by
    intro i
    induction i with
    | zero =>
      intro _
      refine ⟨0, ?_⟩
      have : x 0 = fun _ => x 0 V₀ := funext hd.initial
      rw [this]; exact hasFDerivAt_const _ _
    | succ i ih =>
      intro hi
      obtain ⟨Di, hDi⟩ := ih (by omega)
      obtain ⟨L, hL⟩ := control_linear (q := q) I (i + 1)
      obtain ⟨E', hE', hE''⟩ := hd.dE (i + 1) (by omega) hi
      rw [Nat.add_sub_cancel] at hE'
      -- the equations as a function of controls and new state
      have hinner : HasFDerivAt
          (fun p : (Fin q → Fin m → ℝ) × (Fin n → ℝ) => (x i p.1, p.2, control I (i + 1) p.1))
          ((Di.comp (ContinuousLinearMap.fst ℝ _ _)).prod
            ((ContinuousLinearMap.snd ℝ _ _).prod (L.comp (ContinuousLinearMap.fst ℝ _ _))))
          (V₀, x (i + 1) V₀) := by
        have h1 : HasFDerivAt (fun p : (Fin q → Fin m → ℝ) × (Fin n → ℝ) => x i p.1)
            (Di.comp (ContinuousLinearMap.fst ℝ _ _)) (V₀, x (i + 1) V₀) :=
          HasFDerivAt.comp (V₀, x (i + 1) V₀) hDi hasFDerivAt_fst
        have h2 : HasFDerivAt (fun p : (Fin q → Fin m → ℝ) × (Fin n → ℝ) => control I (i + 1) p.1)
            (L.comp (ContinuousLinearMap.fst ℝ _ _)) (V₀, x (i + 1) V₀) := by
          have : (fun p : (Fin q → Fin m → ℝ) × (Fin n → ℝ) => control I (i + 1) p.1) =
              fun p => L p.1 := by funext p; rw [hL]
          rw [this]
          exact HasFDerivAt.comp (V₀, x (i + 1) V₀) L.hasFDerivAt hasFDerivAt_fst
        exact h1.prodMk (hasFDerivAt_snd.prodMk h2)
      have hF := HasFDerivAt.comp (V₀, x (i + 1) V₀) (g := E (i + 1)) hE' hinner
      have hu : IsUnit (I.data (i + 1)).dEdnew.det :=
        isUnit_iff_ne_zero.mpr (hdet (i + 1) (by omega) hi)
      let A : (Fin n → ℝ) ≃L[ℝ] (Fin n → ℝ) :=
        LinearEquiv.toContinuousLinearEquiv (Matrix.toLinearEquiv' (I.data (i + 1)).dEdnew
          (Matrix.invertibleOfIsUnitDet _ hu))
      have hA : ∀ y, (E'.comp ((Di.comp (ContinuousLinearMap.fst ℝ _ _)).prod
            ((ContinuousLinearMap.snd ℝ _ _).prod (L.comp (ContinuousLinearMap.fst ℝ _ _)))))
            ((0 : Fin q → Fin m → ℝ), y) = A y := by
        intro y
        have hAy : A y = (I.data (i + 1)).dEdnew *ᵥ y := rfl
        rw [hAy]
        simp only [ContinuousLinearMap.comp_apply, ContinuousLinearMap.prod_apply,
          ContinuousLinearMap.coe_fst', ContinuousLinearMap.coe_snd', map_zero]
        rw [hE'']
        simp
      have hz := hd.solved (i + 1) (by omega) hi
      rw [Nat.add_sub_cancel] at hz
      exact ⟨_, hasFDerivAt_of_implicit (hd.continuous (i + 1) (by omega) hi) hF hA hz⟩
  choose! D hD using hex
  refine ⟨D, hD, fun dV => ⟨?_, ?_⟩⟩
  · have h0 : HasFDerivAt (x 0) (0 : (Fin q → Fin m → ℝ) →L[ℝ] (Fin n → ℝ)) V₀ := by
      have : x 0 = fun _ => x 0 V₀ := funext hd.initial
      rw [this]; exact hasFDerivAt_const _ _
    rw [(hD 0 (by omega)).unique h0]; rfl
  · intro i h1 h2
    obtain ⟨E', hE', hE''⟩ := hd.dE i h1 h2
    obtain ⟨L, hL⟩ := control_linear (q := q) I i
    have hu : HasFDerivAt (control I i) L V₀ := by
      have : control I i = fun V => L V := by funext p; rw [hL]
      rw [this]; exact L.hasFDerivAt
    have hcomp := HasFDerivAt.comp V₀ (g := E i) (f := fun V => (x (i - 1) V, x i V, control I i V)) hE'
      ((hD (i - 1) (by omega)).prodMk ((hD i h2).prodMk hu))
    have hzero : HasFDerivAt (E i ∘ fun V => (x (i - 1) V, x i V, control I i V))
        (0 : (Fin q → Fin m → ℝ) →L[ℝ] (Fin n → ℝ)) V₀ := by
      refine HasFDerivAt.congr_of_eventuallyEq (hasFDerivAt_const (0 : Fin n → ℝ) V₀) ?_
      exact hd.solved i h1 h2
    have := congrArg (fun T : (Fin q → Fin m → ℝ) →L[ℝ] (Fin n → ℝ) => T dV) (hcomp.unique hzero)
    simp only [ContinuousLinearMap.comp_apply, ContinuousLinearMap.prod_apply,
      _root_.zero_apply] at this
    rw [hE'', hL] at this
    simp only [control] at this
    rw [← this]; abel

theorem sum_extend (c : ℕ → Fin m → ℝ) (dV : Fin q → Fin m → ℝ) :
    ∑ j ∈ range q, c j ⬝ᵥ extend dV j = ∑ j : Fin q, c j ⬝ᵥ dV j := by
  rw [Finset.sum_range]
  apply Finset.sum_congr rfl
  intro j _
  simp [extend]

theorem accumulate_eq (w c : ℕ → ℝ) (N : ℕ) :
    Verif.Weights.accumulate w c (N + 1) = ∑ i ∈ range N, w (i + 1) * c (i + 1) := by
  unfold Verif.Weights.accumulate
  rw [Nat.add_sub_cancel]
  induction N with
  | zero => simp
  | succ N ih =>
    rw [List.range'_concat, List.foldl_append, ih, Finset.sum_range_succ]
    simp [add_comm 1 N]

/-- C15. The gradient computed by the sweep is the Fréchet derivative of the discretised objective
`V ↦ Σ_i w_i f_i(x_i(V), u_i(V))` with respect to all control variables. -/
theorem C15_gradient_exact {I : Input n m r ℝ} {N : ℕ}
    {E : ℕ → (Fin n → ℝ) × (Fin n → ℝ) × (Fin m → ℝ) → (Fin n → ℝ)}
    {f : ℕ → (Fin n → ℝ) × (Fin m → ℝ) → ℝ} {g : ℕ → (Fin n → ℝ) × (Fin m → ℝ) → (Fin r → ℝ)}
    {x : ℕ → (Fin q → Fin m → ℝ) → (Fin n → ℝ)} {V₀ : Fin q → Fin m → ℝ}
    (hq : I.controlSteps = q) (hd : Discretised I N E f g x V₀)
    (hdet : ∀ i, 1 ≤ i → i ≤ N → (I.data i).dEdnew.det ≠ 0)
    (s : State n m r ℝ) (hs : computeDerivatives I N = Res.ok (some s)) :
    ∃ D : (Fin q → Fin m → ℝ) →L[ℝ] ℝ,
      HasFDerivAt (fun V => Verif.Weights.accumulate I.weight
        (fun i => f i (x i V, control I i V)) (N + 1)) D V₀ ∧
      ∀ dV, D dV = ∑ j : Fin q, s.gradient j ⬝ᵥ dV j := by
  obtain ⟨D, hD, htan⟩ := states_differentiable hd hdet
  have hterm : ∀ i, i < N → ∃ T : (Fin q → Fin m → ℝ) →L[ℝ] ℝ,
      HasFDerivAt (fun V => I.weight (i + 1) * f (i + 1) (x (i + 1) V, control I (i + 1) V)) T V₀ ∧
      ∀ dV, T dV = I.weight (i + 1) * ((I.data (i + 1)).dfdnew ⬝ᵥ D (i + 1) dV +
        (I.data (i + 1)).dfdcontrol ⬝ᵥ controlAt (I.pair (i + 1)) (extend dV)) := by
    intro i hi
    obtain ⟨f', hf', hf''⟩ := hd.df (i + 1) (by omega) (by omega)
    obtain ⟨L, hL⟩ := control_linear (q := q) I (i + 1)
    have hu : HasFDerivAt (control I (i + 1)) L V₀ := by
      have : control I (i + 1) = fun V => L V := by funext p; rw [hL]
      rw [this]; exact L.hasFDerivAt
    have hcomp := HasFDerivAt.comp V₀ (g := f (i + 1))
      (f := fun V => (x (i + 1) V, control I (i + 1) V)) hf'
      ((hD (i + 1) (by omega)).prodMk hu)
    refine ⟨_, hcomp.const_mul (I.weight (i + 1)), fun dV => ?_⟩
    simp only [_root_.smul_apply, ContinuousLinearMap.comp_apply,
      ContinuousLinearMap.prod_apply, smul_eq_mul]
    rw [hf'', hL]; rfl
  choose! T hT1 hT2 using hterm
  refine ⟨∑ i ∈ range N, T i, ?_, ?_⟩
  · have : (fun V => Verif.Weights.accumulate I.weight (fun i => f i (x i V, control I i V)) (N + 1)) =
        fun V => ∑ i ∈ range N, I.weight (i + 1) * f (i + 1) (x (i + 1) V, control I (i + 1) V) :=
      funext fun V => accumulate_eq _ _ _
    rw [this]
    exact HasFDerivAt.fun_sum (fun i hi => hT1 i (Finset.mem_range.mp hi))
  · intro dV
    rw [_root_.sum_apply]
    have := C15_gradient_of_linearisation I N s hs (extend dV) _ (htan dV)
    rw [hq, sum_extend] at this
    rw [this]
    exact Finset.sum_congr rfl (fun i hi => hT2 i (Finset.mem_range.mp hi) dV)

/-- C16. Each block row of the constraint Jacobian computed by the sweep is the Fréchet derivative of the
constraints at that constraint time with respect to all control variables, and the blocks that are
not stored are zero. (Named partial because a result is guaranteed only if the constraint times
are read in bounds, see `C16_index_data_in_bounds` and C18.) -/
theorem C16_jacobian_exact_partial {I : Input n m r ℝ} {N : ℕ} {pos : ℕ → ℕ}
    {E : ℕ → (Fin n → ℝ) × (Fin n → ℝ) × (Fin m → ℝ) → (Fin n → ℝ)}
    {f : ℕ → (Fin n → ℝ) × (Fin m → ℝ) → ℝ} {g : ℕ → (Fin n → ℝ) × (Fin m → ℝ) → (Fin r → ℝ)}
    {x : ℕ → (Fin q → Fin m → ℝ) → (Fin n → ℝ)} {V₀ : Fin q → Fin m → ℝ}
    (hq : I.controlSteps = q) (hd : Discretised I N E f g x V₀) (hp : Placed I N pos)
    (hdet : ∀ i, 1 ≤ i → i ≤ N → (I.data i).dEdnew.det ≠ 0)
    (s : State n m r ℝ) (hs : computeDerivatives I N = Res.ok (some s)) (k : ℕ)
    (hk : k < I.cons.length) :
    (∃ D : (Fin q → Fin m → ℝ) →L[ℝ] (Fin r → ℝ),
      HasFDerivAt (fun V => g (pos k) (x (pos k) V, control I (pos k) V)) D V₀ ∧
      ∀ dV, D dV = ∑ j : Fin q, s.jacobian k j *ᵥ dV j) ∧
    ∀ j, k < I.rowstart j → s.jacobian k j = 0 := by
  obtain ⟨D, hD, htan⟩ := states_differentiable hd hdet
  have h1 := hp.lower k hk
  have h2 := hp.upper k hk
  obtain ⟨g', hg', hg''⟩ := hd.dg (pos k) h1 h2
  obtain ⟨L, hL⟩ := control_linear (q := q) I (pos k)
  have hu : HasFDerivAt (control I (pos k)) L V₀ := by
    have : control I (pos k) = fun V => L V := by funext p; rw [hL]
    rw [this]; exact L.hasFDerivAt
  have hcomp := HasFDerivAt.comp V₀ (g := g (pos k))
    (f := fun V => (x (pos k) V, control I (pos k) V)) hg'
    ((hD (pos k) h2).prodMk hu)
  refine ⟨⟨_, hcomp, fun dV => ?_⟩, ?_⟩
  · have := (C16_jacobian_of_linearisation I N pos hp s hs (extend dV) _ (htan dV) k hk).1
    simp only [ContinuousLinearMap.comp_apply, ContinuousLinearMap.prod_apply]
    rw [hg'', hL]
    rw [hq, Finset.sum_range] at this
    have e : ∀ j : Fin q, s.jacobian k j *ᵥ extend dV j = s.jacobian k j *ᵥ dV j := by
      intro j; simp [extend]
    simp only [e] at this
    rw [this]; rfl
  · exact (C16_jacobian_of_linearisation I N pos hp s hs (fun _ => 0) (fun _ => 0)
      ⟨rfl, fun i _ _ => by simp [controlAt]⟩ k hk).2

/-- C15 and C16 for the data the optimizer prepares: whenever the state, control and constraint
times are accepted by the constructor and the equations are uniquely solvable to first order, the
sweep returns, the gradient is the derivative of the discretised objective and the Jacobian that of
the constraints at the constraint times. Partial because of the assumption `hread` (see C18). -/
theorem C16_optimizer_exact_partial {I : Input n m r ℝ} {states controls cons : List ℝ}
    {E : ℕ → (Fin n → ℝ) × (Fin n → ℝ) × (Fin m → ℝ) → (Fin n → ℝ)}
    {f : ℕ → (Fin n → ℝ) × (Fin m → ℝ) → ℝ} {g : ℕ → (Fin n → ℝ) × (Fin m → ℝ) → (Fin r → ℝ)}
    {x : ℕ → (Fin controls.length → Fin m → ℝ) → (Fin n → ℝ)} {V₀ : Fin controls.length → Fin m → ℝ}
    (hI : FromOptimizer I states controls cons) (hs : states.Pairwise (· < ·))
    (hu : controls.Pairwise (· < ·)) (hs0 : 0 < states.length) (hu0 : 0 < controls.length)
    (hfront : controls[0] ≤ states[0])
    (hback : states[states.length - 1] < controls[controls.length - 1] + EPSILON)
    (hacc : checkConstraintTimes states cons = Res.ok ())
    (hread : 0 < r → (cons ≠ [] ∧ cons.head? = states.tail.head?) ∨
      ∃ v, I.oob = some v ∧ v ∉ states.tail)
    (hd : Discretised I (states.length - 1) E f g x V₀)
    (hdet : ∀ i, 1 ≤ i → i ≤ states.length - 1 → (I.data i).dEdnew.det ≠ 0) :
    ∃ s, computeDerivatives I (states.length - 1) = Res.ok (some s) ∧
      (∃ D : (Fin controls.length → Fin m → ℝ) →L[ℝ] ℝ,
        HasFDerivAt (fun V => Verif.Weights.accumulate I.weight
          (fun i => f i (x i V, control I i V)) states.length) D V₀ ∧
        ∀ dV, D dV = ∑ j : Fin controls.length, s.gradient j ⬝ᵥ dV j) ∧
      ∀ (k : ℕ) (hk : k < cons.length), ∃ p, ∃ hp : p < states.length, states[p] = cons[k] ∧
        ∃ D : (Fin controls.length → Fin m → ℝ) →L[ℝ] (Fin r → ℝ),
          HasFDerivAt (fun V => g p (x p V, control I p V)) D V₀ ∧
          ∀ dV, D dV = ∑ j : Fin controls.length, s.jacobian k j *ᵥ dV j := by
  obtain ⟨hp, hb⟩ := C16_index_data_in_bounds I states controls cons hI hs hu hs0 hu0 hfront hback
    hacc hread
  obtain ⟨s, hsw⟩ := C15_sweep_succeeds I _ _ hp hb hdet
  refine ⟨s, hsw, ?_, ?_⟩
  · have := C15_gradient_exact hI.steps hd hdet s hsw
    rwa [Nat.sub_add_cancel hs0] at this
  · intro k hk
    have hk' : k < I.cons.length := by rw [hI.consEq]; exact hk
    have hup := hp.upper k hk'
    refine ⟨position states cons k, by omega, ?_,
      (C16_jacobian_exact_partial hI.steps hd hp hdet s hsw k hk').1⟩
    have ht := hp.time k hk'
    simp only [hI.consEq] at ht
    rw [ht, hI.time _ (by omega)]

end Analytic

/-! ## Examples: the hypotheses are satisfiable -/

section Examples

/-- Two time steps of `new = last + u`, cost `u + 3 new`, constraint `2 new`, two control times,
state times 0, 1, 2, control times 0, 2, constraint time 1. -/
def demo (K : Type) [Field K] : Input 1 1 1 K where
  data := fun _ => ⟨1, -1, -1, fun _ => 3, fun _ => 1, fun _ _ => 2, 0⟩
  weight := fun i => if i = 1 then 1 else 1 / 2
  pair := fun i => if i = 0 then (0, 1) else if i = 1 then (1, 1 / 2) else (1, 1)
  time := fun i => i
  cons := [1]
  controlSteps := 2
  rowstart := fun _ => 0
  oob := none

/-- The sweep reads before the beginning of the constraint times only if it goes on after the last of
them; here it ends there. -/
example : (match computeDerivatives (demo ℚ) 2 with
    | Res.ok (some s) => (s.gradient 0 0, s.gradient 1 0, s.jacobian 0 0 0 0, s.jacobian 0 1 0 0)
    | _ => (0, 0, 0, 0)) = (11 / 4, 19 / 4, 1, 1) := by decide +kernel

theorem demo_placed (K : Type) [Field K] [CharZero K] : Placed (demo K) 2 (fun _ => 1) := by
  refine ⟨fun _ _ => le_rfl, fun _ _ => by omega, ?_, ?_, ?_⟩
  · intro k hk
    have : k = 0 := by simp [demo] at hk; exact hk
    subst this; simp [demo]
  · intro k l h1 h2; simp [demo] at h2; omega
  · intro a b _ _ _ _ h; simpa [demo] using h

theorem demo_inBounds (K : Type) [Field K] [DecidableEq K] : InBounds (demo K) 2 (fun _ => 1) := by
  refine ⟨?_, ?_, ?_, ?_⟩
  · intro i h1 h2; simp only [demo]; split_ifs <;> simp_all
  · intro i h1 h2; simp only [demo]; split_ifs <;> simp_all
  · intro i h1 h2 k hk h; simp [demo]
  · intro _; left; simp [demo]

/-- `demo` describes the following problem, whose solution is `x₁ = (V₀ + V₁)/2`,
`x₂ = x₁ + V₁`. -/
example : ∃ s, computeDerivatives (demo ℝ) 2 = Res.ok (some s) ∧
    Discretised (q := 2) (demo ℝ) 2 (fun _ p => p.2.1 - p.1 - p.2.2)
      (fun _ p => 3 * p.1 0 + p.2 0) (fun _ p => (2 : ℝ) • p.1)
      (fun i V => if i = 0 then 0 else if i = 1 then control (demo ℝ) 1 V
        else control (demo ℝ) 1 V + control (demo ℝ) 2 V) (fun _ _ => 1) := by
  obtain ⟨s, hs⟩ := C15_sweep_succeeds (demo ℝ) 2 _ (demo_placed ℝ) (demo_inBounds ℝ)
    (by intro i _ _; simp [demo])
  refine ⟨s, hs, ?_⟩
  have hcont : ∀ i, Continuous (control (q := 2) (demo ℝ) i) := by
    intro i
    obtain ⟨L, hL⟩ := control_linear (q := 2) (demo ℝ) i
    have : control (q := 2) (demo ℝ) i = fun V => L V := by funext p; rw [hL]
    rw [this]; exact L.continuous
  refine ⟨?_, ?_, ?_, ?_, ?_, ?_⟩
  · intro V; simp
  · intro i h1 h2
    refine Filter.Eventually.of_forall fun V => ?_
    obtain rfl | rfl : i = 1 ∨ i = 2 := by omega
    · simp
    · simp
  · intro i h1 h2
    obtain rfl | rfl : i = 1 ∨ i = 2 := by omega
    · simpa using (hcont 1).continuousAt
    · exact ((hcont 1).add (hcont 2)).continuousAt
  · intro i _ _
    refine ⟨((ContinuousLinearMap.fst ℝ _ _).comp (ContinuousLinearMap.snd ℝ _ _)) -
      ContinuousLinearMap.fst ℝ _ _ -
      ((ContinuousLinearMap.snd ℝ _ _).comp (ContinuousLinearMap.snd ℝ _ _)), ?_, ?_⟩
    · exact ContinuousLinearMap.hasFDerivAt (((ContinuousLinearMap.fst ℝ (Fin 1 → ℝ) (Fin 1 → ℝ)).comp
        (ContinuousLinearMap.snd ℝ (Fin 1 → ℝ) _)) - ContinuousLinearMap.fst ℝ _ _ -
        ((ContinuousLinearMap.snd ℝ _ _).comp (ContinuousLinearMap.snd ℝ _ _)))
    · intro a b c
      simp [demo, Matrix.neg_mulVec]; abel
  · intro i _ _
    refine ⟨(3 : ℝ) • ((ContinuousLinearMap.proj 0).comp (ContinuousLinearMap.fst ℝ _ _)) +
      ((ContinuousLinearMap.proj 0).comp (ContinuousLinearMap.snd ℝ _ _)), ?_, ?_⟩
    · exact ContinuousLinearMap.hasFDerivAt ((3 : ℝ) • ((ContinuousLinearMap.proj (R := ℝ) (φ := fun _ : Fin 1 => ℝ) 0).comp
        (ContinuousLinearMap.fst ℝ (Fin 1 → ℝ) (Fin 1 → ℝ))) +
        ((ContinuousLinearMap.proj 0).comp (ContinuousLinearMap.snd ℝ _ _)))
    · intro a c
      simp [demo, dotProduct]
  · intro i _ _
    refine ⟨(2 : ℝ) • (ContinuousLinearMap.fst ℝ _ _), ?_, ?_⟩
    · exact ContinuousLinearMap.hasFDerivAt ((2 : ℝ) • (ContinuousLinearMap.fst ℝ (Fin 1 → ℝ) (Fin 1 → ℝ)))
    · intro a c
      ext k
      have : k = 0 := Subsingleton.elim _ _
      subst this
      simp [demo, mulVec, dotProduct]

/-- The index data of `demo` are those of the optimizer. -/
example : FromOptimizer (demo ℚ) [0, 1, 2] [0, 2] [1] := by
  refine ⟨?_, rfl, rfl, ?_, ?_, ?_⟩
  · intro i hi
    have : i = 0 ∨ i = 1 ∨ i = 2 := by simp at hi; omega
    rcases this with rfl | rfl | rfl <;> simp [demo]
  · intro i hi
    have : i = 0 ∨ i = 1 ∨ i = 2 := by simp at hi; omega
    rcases this with rfl | rfl | rfl <;> revert hi <;> decide +kernel
  · refine ⟨[1 / 2, 1, 1 / 2], by decide +kernel, ?_⟩
    intro i hi
    have : i = 0 ∨ i = 1 ∨ i = 2 := by simp at hi; omega
    rcases this with rfl | rfl | rfl <;> simp [demo]
  · refine ⟨⟨1, 1, [0, 1, 2]⟩, by simp [makeData, makeDataLoop], ?_⟩
    intro j hj
    have : j = 0 ∨ j = 1 := by simp at hj; omega
    rcases this with rfl | rfl <;> rfl

end Examples

end Verif.Adjoint
