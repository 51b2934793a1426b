import Verif.Adjoint.Model
import Mathlib.Data.Matrix.Mul
import Mathlib.Algebra.BigOperators.Intervals
import Mathlib.Tactic.Ring
import Mathlib.Tactic.Linarith
import Mathlib.Tactic.Abel
import Mathlib.Tactic.LinearCombination

/-! # Lemmas on the derivative sweep -/

set_option autoImplicit false
set_option linter.unusedSectionVars false

namespace Verif.Adjoint

open Matrix Finset

variable {n m r : ℕ} {K : Type} [Field K] [DecidableEq K]

/-- The control at a state time: linear interpolation with the given index/factor pair. -/
def controlAt (p : ℕ × K) (U : ℕ → Fin m → K) : Fin m → K :=
  p.2 • U p.1 + (1 - p.2) • U (p.1 - 1)

theorem inverseT_spec (A : Matrix (Fin n) (Fin n) K) (h : (Aᵀ).det ≠ 0) :
    Aᵀ * inverseT A = 1 := by
  unfold inverseT
  rw [Matrix.mul_smul, Matrix.mul_adjugate, smul_smul, inv_mul_cancel₀ h, one_smul]

/-- Action of a gradient on a direction of control variables. -/
def pairing (q : ℕ) (g : ℕ → Fin m → K) (dU : ℕ → Fin m → K) : K :=
  ∑ j ∈ range q, g j ⬝ᵥ dU j

/-- Action of a block row of the Jacobian on a direction of control variables. -/
def blockAction (q : ℕ) (J : ℕ → Matrix (Fin r) (Fin m) K) (dU : ℕ → Fin m → K) : Fin r → K :=
  ∑ j ∈ range q, J j *ᵥ dU j

theorem addGradient_pairing {q : ℕ} {g g' : ℕ → Fin m → K} {j : ℕ} {v : Fin m → K}
    (h : addGradient q g j v = Res.ok g') (dU : ℕ → Fin m → K) :
    pairing q g' dU = pairing q g dU + v ⬝ᵥ dU j := by
  unfold addGradient at h
  split at h
  · rename_i hj
    simp only [Res.ok.injEq] at h
    subst h
    unfold pairing
    rw [← Finset.sum_erase_add _ _ (Finset.mem_range.mpr hj),
      ← Finset.sum_erase_add (range q) (fun j => g j ⬝ᵥ dU j) (Finset.mem_range.mpr hj)]
    beta_reduce
    rw [if_pos rfl, add_dotProduct, ← add_assoc]
    congr 2
    apply Finset.sum_congr rfl
    intro x hx
    rw [if_neg (Finset.ne_of_mem_erase hx)]
  · simp at h

theorem distributeGradient_pairing {q : ℕ} {g g' : ℕ → Fin m → K} {p : ℕ × K} {v : Fin m → K}
    (h : distributeGradient q g p v = Res.ok g') (dU : ℕ → Fin m → K) :
    pairing q g' dU = pairing q g dU + v ⬝ᵥ controlAt p dU := by
  unfold distributeGradient at h
  unfold controlAt
  split at h
  · rename_i hp
    rw [addGradient_pairing h, hp]; simp
  · rw [Res.bind_eq_ok] at h
    obtain ⟨g1, h1, h2⟩ := h
    split at h2
    · simp at h2
    · rw [addGradient_pairing h2, addGradient_pairing h1]
      simp only [smul_dotProduct, dotProduct_add, dotProduct_smul]
      ring

theorem addJacobian_action {q ci j : ℕ} {rs : ℕ → ℕ} {J J' : ℕ → ℕ → Matrix (Fin r) (Fin m) K}
    {v : ℕ → Matrix (Fin r) (Fin m) K} (h : addJacobian q rs J j ci v = Res.ok J')
    (dU : ℕ → Fin m → K) :
    (∀ k, ci ≤ k → blockAction q (J' k) dU = blockAction q (J k) dU + v k *ᵥ dU j) ∧
    (∀ k, k < ci → J' k = J k) ∧ (∀ k j', k < rs j' → J' k j' = J k j') := by
  unfold addJacobian at h
  split at h
  · rename_i hj
    simp only [Res.ok.injEq] at h
    subst h
    refine ⟨?_, ?_, ?_⟩
    · intro k hk
      unfold blockAction
      rw [← Finset.sum_erase_add _ _ (Finset.mem_range.mpr hj.1),
        ← Finset.sum_erase_add (range q) (fun j => J k j *ᵥ dU j) (Finset.mem_range.mpr hj.1)]
      beta_reduce
      rw [if_pos ⟨rfl, hk⟩, add_mulVec, ← add_assoc]
      congr 2
      apply Finset.sum_congr rfl
      intro x hx
      rw [if_neg (fun h => Finset.ne_of_mem_erase hx h.1)]
    · intro k hk
      funext j'
      beta_reduce
      rw [if_neg (by omega)]
    · intro k j' hk
      beta_reduce
      rw [if_neg]
      rintro ⟨rfl, h2⟩
      omega
  · simp at h

theorem distributeJacobian_action {q ci : ℕ} {rs : ℕ → ℕ} {J J' : ℕ → ℕ → Matrix (Fin r) (Fin m) K}
    {p : ℕ × K} {v : ℕ → Matrix (Fin r) (Fin m) K}
    (h : distributeJacobian q rs J p ci v = Res.ok J') (dU : ℕ → Fin m → K) :
    (∀ k, ci ≤ k → blockAction q (J' k) dU = blockAction q (J k) dU + v k *ᵥ controlAt p dU) ∧
    (∀ k, k < ci → J' k = J k) ∧ (∀ k j', k < rs j' → J' k j' = J k j') := by
  unfold distributeJacobian at h
  unfold controlAt
  split at h
  · rename_i hp
    obtain ⟨h1, h2, h3⟩ := addJacobian_action h dU
    refine ⟨fun k hk => ?_, h2, h3⟩
    rw [h1 k hk, hp]; simp
  · rw [Res.bind_eq_ok] at h
    obtain ⟨J1, hJ1, hJ2⟩ := h
    split at hJ2
    · simp at hJ2
    · obtain ⟨a1, a2, a3⟩ := addJacobian_action hJ1 dU
      obtain ⟨b1, b2, b3⟩ := addJacobian_action hJ2 dU
      refine ⟨fun k hk => ?_, fun k hk => by rw [b2 k hk, a2 k hk],
        fun k j' hk => by rw [b3 k j' hk, a3 k j' hk]⟩
      rw [b1 k hk, a1 k hk]
      simp only [smul_mulVec, mulVec_add, mulVec_smul]
      abel

/-- Specification: a variation of the controls `dU` and the variation `dx` of the states it causes,
i.e. the solution of the linearised equations at every time step, starting with an unchanged
initial state. -/
structure Tangent (I : Input n m r K) (N : ℕ) (dU : ℕ → Fin m → K) (dx : ℕ → Fin n → K) : Prop where
  initial : dx 0 = 0
  equation : ∀ i, 1 ≤ i → i ≤ N →
    (I.data i).dEdnew *ᵥ dx i + (I.data i).dEdlast *ᵥ dx (i - 1) +
      (I.data i).dEdcontrol *ᵥ controlAt (I.pair i) dU = 0

/-- What a successful step does to the objective part. -/
theorem step_gradient {I : Input n m r K} {i : ℕ} {s s' : State n m r K}
    (h : step I (i + 1) s = Res.ok (some s')) {dU : ℕ → Fin m → K} {dx : ℕ → Fin n → K}
    (ht : (I.data (i + 1)).dEdnew *ᵥ dx (i + 1) + (I.data (i + 1)).dEdlast *ᵥ dx i +
      (I.data (i + 1)).dEdcontrol *ᵥ controlAt (I.pair (i + 1)) dU = 0) :
    pairing I.controlSteps s'.gradient dU - s'.rhsF ⬝ᵥ dx i =
      pairing I.controlSteps s.gradient dU - s.rhsF ⬝ᵥ dx (i + 1) +
      I.weight (i + 1) * ((I.data (i + 1)).dfdnew ⬝ᵥ dx (i + 1) +
        (I.data (i + 1)).dfdcontrol ⬝ᵥ controlAt (I.pair (i + 1)) dU) := by
  unfold step at h
  simp only at h
  split at h
  · simp at h
  · rename_i hdet
    rw [Res.bind_eq_ok] at h
    obtain ⟨g, hg, h⟩ := h
    have key : s'.gradient = g ∧ s'.rhsF = -((I.data (i + 1)).dEdlastᵀ *ᵥ
        (inverseT (I.data (i + 1)).dEdnew *ᵥ (s.rhsF - I.weight (i + 1) • (I.data (i + 1)).dfdnew))) := by
      split at h
      · rw [Res.bind_eq_ok] at h
        obtain ⟨s1, hs1, hs2⟩ := h
        simp only [Res.ok.injEq, Option.some.injEq] at hs2
        subst hs2
        unfold constraintStep at hs1
        rw [Res.bind_eq_ok] at hs1
        obtain ⟨b, -, hb⟩ := hs1
        simp only at hb
        split at hb
        · rw [Res.bind_eq_ok] at hb
          obtain ⟨J, -, hJ⟩ := hb
          simp only [Res.ok.injEq] at hJ
          subst hJ
          exact ⟨rfl, rfl⟩
        · simp only [Res.ok.injEq] at hb
          subst hb
          exact ⟨rfl, rfl⟩
      · simp only [Res.ok.injEq, Option.some.injEq] at h
        subst h
        exact ⟨rfl, rfl⟩
    obtain ⟨kg, kr⟩ := key
    rw [kg, kr, distributeGradient_pairing hg]
    set d := I.data (i + 1)
    set w := I.weight (i + 1)
    set u := controlAt (I.pair (i + 1)) dU
    set xi := inverseT d.dEdnew *ᵥ (s.rhsF - w • d.dfdnew) with hxi
    have hsolve : d.dEdnewᵀ *ᵥ xi = s.rhsF - w • d.dfdnew := by
      rw [hxi, mulVec_mulVec, inverseT_spec _ hdet, one_mulVec]
    have e1 : xi ⬝ᵥ (d.dEdnew *ᵥ dx (i + 1)) = (s.rhsF - w • d.dfdnew) ⬝ᵥ dx (i + 1) := by
      rw [dotProduct_mulVec, ← mulVec_transpose, hsolve]
    have e2 : (d.dEdlastᵀ *ᵥ xi) ⬝ᵥ dx i = xi ⬝ᵥ (d.dEdlast *ᵥ dx i) := by
      rw [dotProduct_mulVec, mulVec_transpose]
    have e3 : (xi ᵥ* d.dEdcontrol) ⬝ᵥ u = xi ⬝ᵥ (d.dEdcontrol *ᵥ u) := by
      rw [dotProduct_mulVec]
    have e4 : xi ⬝ᵥ (d.dEdnew *ᵥ dx (i + 1)) + xi ⬝ᵥ (d.dEdlast *ᵥ dx i) +
        xi ⬝ᵥ (d.dEdcontrol *ᵥ u) = 0 := by
      rw [← dotProduct_add, ← dotProduct_add, ht, dotProduct_zero]
    rw [e1] at e4
    simp only [sub_dotProduct, smul_dotProduct, smul_eq_mul, add_dotProduct, neg_dotProduct,
      e2, e3] at e4 ⊢
    linear_combination e4

theorem sweep_gradient (I : Input n m r K) (dU : ℕ → Fin m → K) (dx : ℕ → Fin n → K)
    (i : ℕ) : ∀ s s' : State n m r K, sweep I i s = Res.ok (some s') → Tangent I i dU dx →
    pairing I.controlSteps s'.gradient dU =
      pairing I.controlSteps s.gradient dU - s.rhsF ⬝ᵥ dx i +
      ∑ k ∈ Finset.range i, I.weight (k + 1) * ((I.data (k + 1)).dfdnew ⬝ᵥ dx (k + 1) +
        (I.data (k + 1)).dfdcontrol ⬝ᵥ controlAt (I.pair (k + 1)) dU) := by
  induction i with
  | zero =>
    intro s s' h ht
    simp only [sweep, Res.ok.injEq, Option.some.injEq] at h
    subst h
    simp [ht.initial]
  | succ i ih =>
    intro s s' h ht
    simp only [sweep] at h
    rw [Res.bind_eq_ok] at h
    obtain ⟨o, ho, h⟩ := h
    cases o with
    | none => simp at h
    | some s1 =>
      have ht' : Tangent I i dU dx := ⟨ht.initial, fun k h1 h2 => ht.equation k h1 (by omega)⟩
      have hs := step_gradient ho (dU := dU) (dx := dx) (ht.equation (i + 1) (by omega) le_rfl)
      rw [ih s1 s' h ht', Finset.sum_range_succ, hs]
      ring

/-- Invariant of the constraint part before state index `i` is treated. `pos k` is the state index of
constraint time `k`. -/
structure CInv (I : Input n m r K) (pos : ℕ → ℕ) (i : ℕ) (s : State n m r K) : Prop where
  le : s.constraintIndex ≤ I.cons.length
  found : ∀ k < I.cons.length, (k < s.constraintIndex ↔ pos k ≤ i)
  zero : ∀ k < s.constraintIndex, s.rhsG k = 0 ∧ ∀ j, s.jacobian k j = 0
  inactive : s.active = false → s.constraintIndex = I.cons.length
  stored : ∀ k j, k < I.rowstart j → s.jacobian k j = 0

/-- Where the constraint times lie among the state times. -/
structure Placed (I : Input n m r K) (N : ℕ) (pos : ℕ → ℕ) : Prop where
  lower : ∀ k < I.cons.length, 1 ≤ pos k
  upper : ∀ k < I.cons.length, pos k ≤ N
  time : ∀ k (hk : k < I.cons.length), I.cons[k] = I.time (pos k)
  mono : ∀ k l, k < l → l < I.cons.length → pos k < pos l
  inj : ∀ a b, 1 ≤ a → a ≤ N → 1 ≤ b → b ≤ N → I.time a = I.time b → a = b

theorem step_constraints {I : Input n m r K} {N i : ℕ} {pos : ℕ → ℕ} (hp : Placed I N pos)
    (hi : i + 1 ≤ N) (hr : 0 < r) {s s' : State n m r K} (inv : CInv I pos (i + 1) s)
    (h : step I (i + 1) s = Res.ok (some s')) {dU : ℕ → Fin m → K} {dx : ℕ → Fin n → K}
    (ht : (I.data (i + 1)).dEdnew *ᵥ dx (i + 1) + (I.data (i + 1)).dEdlast *ᵥ dx i +
      (I.data (i + 1)).dEdcontrol *ᵥ controlAt (I.pair (i + 1)) dU = 0) :
    CInv I pos i s' ∧ ∀ k, k < I.cons.length → s'.constraintIndex ≤ k →
      blockAction I.controlSteps (s'.jacobian k) dU - (s'.rhsG k)ᵀ *ᵥ dx i =
        if s.constraintIndex ≤ k then
          blockAction I.controlSteps (s.jacobian k) dU - (s.rhsG k)ᵀ *ᵥ dx (i + 1)
        else (I.data (pos k)).dgdnew *ᵥ dx (pos k) +
          (I.data (pos k)).dgdcontrol *ᵥ controlAt (I.pair (pos k)) dU := by
  unfold step at h
  simp only at h
  split at h
  · simp at h
  · rename_i hdet
    rw [Res.bind_eq_ok] at h
    obtain ⟨g, -, h⟩ := h
    rw [Res.bind_eq_ok] at h
    obtain ⟨s1, hs1, hs2⟩ := h
    simp only [Res.ok.injEq, Option.some.injEq] at hs2
    subst hs2
    unfold constraintStep at hs1
    rw [Res.bind_eq_ok] at hs1
    obtain ⟨b, hb, hs1⟩ := hs1
    simp only at hb hs1
    -- meaning of the test
    have hnew : (b = true → 0 < s.constraintIndex ∧ pos (s.constraintIndex - 1) = i + 1) ∧
        (b = false → ∀ k < I.cons.length, pos k ≠ i + 1) := by
      unfold isNewConstraint at hb
      split at hb
      · rename_i h0
        cases ho : I.oob with
        | none => rw [ho] at hb; simp at hb
        | some v =>
          rw [ho] at hb
          simp only at hb
          split at hb
          · simp at hb
          · simp only [Res.ok.injEq] at hb
            subst hb
            refine ⟨by simp, fun _ k hk he => ?_⟩
            have := (inv.found k hk).mpr he.le
            omega
      · rename_i h0
        have hlt : s.constraintIndex - 1 < I.cons.length := by have := inv.le; omega
        rw [Res.get_of_lt hlt] at hb
        simp only [Res.ok_bind, Res.ok.injEq] at hb
        subst hb
        rw [hp.time _ hlt]
        simp only [decide_eq_true_eq, decide_eq_false_iff_not]
        constructor
        · intro he
          exact ⟨by omega, hp.inj _ _ (hp.lower _ hlt) (hp.upper _ hlt) (by omega) hi he⟩
        · intro hne k hk he
          have hk' := (inv.found k hk).mpr he.le
          rcases Nat.lt_or_ge k (s.constraintIndex - 1) with hlt' | hge
          · have h1 := hp.mono k (s.constraintIndex - 1) hlt' hlt
            have h2 := (inv.found _ hlt).mp (by omega)
            omega
          · obtain rfl : k = s.constraintIndex - 1 := by omega
            exact hne (by rw [he])
    set ci := if b = true then s.constraintIndex - 1 else s.constraintIndex with hci
    have hfound : ∀ k < I.cons.length, (k < ci ↔ pos k ≤ i) := by
      intro k hk
      have hf := inv.found k hk
      cases hbb : b with
      | false =>
        have := hnew.2 hbb k hk
        rw [hci, hbb]
        simp only [Bool.false_eq_true, if_false]
        rw [hf]; omega
      | true =>
        obtain ⟨h0, hpos⟩ := hnew.1 hbb
        have hlt : s.constraintIndex - 1 < I.cons.length := by have := inv.le; omega
        rw [hci, hbb, if_pos rfl]
        rcases Nat.lt_trichotomy k (s.constraintIndex - 1) with h1 | h1 | h1
        · have := hp.mono k _ h1 hlt
          constructor <;> intro <;> omega
        · subst h1
          constructor <;> intro <;> omega
        · have := hp.mono _ k h1 hk
          constructor <;> intro <;> omega
    have hcile : ci ≤ s.constraintIndex := by rw [hci]; split <;> omega
    split at hs1
    · rename_i hact
      rw [Res.bind_eq_ok] at hs1
      obtain ⟨J, hJ, hs1⟩ := hs1
      simp only [Res.ok.injEq] at hs1
      subst hs1
      obtain ⟨a1, a2, a3⟩ := distributeJacobian_action hJ dU
      refine ⟨⟨le_trans hcile inv.le, hfound, ?_, ?_, ?_⟩, ?_⟩
      · intro k hk
        simp only at hk ⊢
        have hz := inv.zero k (by omega)
        rw [if_neg (by omega), if_neg (by omega)]
        exact ⟨hz.1, fun j => by rw [a2 k hk]; exact hz.2 j⟩
      · intro hf; simp only at hf; rw [hact] at hf; simp at hf
      · intro k j hk
        simp only at hk ⊢
        rw [a3 k j hk]; exact inv.stored k j hk
      · intro k hk hck
        simp only at hck ⊢
        rw [a1 k hck, if_pos hck]
        set d := I.data (i + 1)
        set u := controlAt (I.pair (i + 1)) dU
        set rhs : Matrix (Fin n) (Fin r) K :=
          if b = true ∧ k = ci then s.rhsG k - d.dgdnewᵀ else s.rhsG k with hrhs
        set Xi := inverseT d.dEdnew * rhs with hXi
        have hsolve : d.dEdnewᵀ * Xi = rhs := by
          rw [hXi, ← Matrix.mul_assoc, inverseT_spec _ hdet, Matrix.one_mul]
        have hsolve' : Xiᵀ * d.dEdnew = rhsᵀ := by
          have := congrArg Matrix.transpose hsolve
          rwa [Matrix.transpose_mul, Matrix.transpose_transpose] at this
        have e4 : rhsᵀ *ᵥ dx (i + 1) + Xiᵀ *ᵥ (d.dEdlast *ᵥ dx i) + Xiᵀ *ᵥ (d.dEdcontrol *ᵥ u) = 0 := by
          rw [← hsolve', ← mulVec_mulVec, ← mulVec_add, ← mulVec_add, ht, mulVec_zero]
        have e5 : (-(d.dEdlastᵀ * Xi))ᵀ *ᵥ dx i = -(Xiᵀ *ᵥ (d.dEdlast *ᵥ dx i)) := by
          rw [Matrix.transpose_neg, Matrix.transpose_mul, Matrix.transpose_transpose, neg_mulVec,
            mulVec_mulVec]
        rw [e5]
        by_cases hbk : b = true ∧ k = ci
        · obtain ⟨h0, hpos⟩ := hnew.1 hbk.1
          have hkk : k = s.constraintIndex - 1 := by rw [hbk.2, hci, if_pos hbk.1]
          have hz := inv.zero k (by omega)
          rw [if_pos hbk, if_neg (by omega)]
          rw [if_pos hbk] at hrhs
          have hpk : pos k = i + 1 := by rw [hkk]; exact hpos
          rw [hpk]
          have hJ0 : blockAction I.controlSteps (s.jacobian k) dU = 0 := by
            unfold blockAction
            apply Finset.sum_eq_zero
            intro j _
            rw [hz.2 j, zero_mulVec]
          rw [hJ0, add_mulVec, ← mulVec_mulVec]
          have hrt : rhsᵀ = -d.dgdnew := by rw [hrhs, hz.1]; simp
          rw [hrt, neg_mulVec] at e4
          have : Xiᵀ *ᵥ (d.dEdcontrol *ᵥ u) = d.dgdnew *ᵥ dx (i + 1) -
              Xiᵀ *ᵥ (d.dEdlast *ᵥ dx i) := by
            rw [← sub_eq_zero, ← e4]; abel
          rw [this]
          change _ = d.dgdnew *ᵥ dx (i + 1) + d.dgdcontrol *ᵥ u
          abel
        · rw [if_neg hbk]
          rw [if_neg hbk] at hrhs
          have hge : s.constraintIndex ≤ k := by
            by_contra hlt
            apply hbk
            have hb1 : b = true := by
              by_contra hb0
              rw [hci, if_neg hb0] at hck
              exact hlt hck
            refine ⟨hb1, ?_⟩
            rw [hci, if_pos hb1] at hck ⊢
            omega
          rw [if_pos hge, ← mulVec_mulVec]
          rw [hrhs] at e4
          have : Xiᵀ *ᵥ (d.dEdcontrol *ᵥ u) = -((s.rhsG k)ᵀ *ᵥ dx (i + 1)) -
              Xiᵀ *ᵥ (d.dEdlast *ᵥ dx i) := by
            rw [← sub_eq_zero, ← e4]; abel
          rw [this]; abel
    · rename_i hact
      simp only [Res.ok.injEq] at hs1
      subst hs1
      have hb0 : b = false := by cases b <;> simp_all
      have ha0 : s.active = false := by cases hh : s.active <;> simp_all
      have hciEq : ci = s.constraintIndex := by rw [hci, hb0]; simp
      have hM := inv.inactive ha0
      refine ⟨⟨by simpa [hciEq] using inv.le, hfound, ?_, ?_, ?_⟩, ?_⟩
      · intro k hk; simp only at hk ⊢; exact inv.zero k (by omega)
      · intro _; simp only; omega
      · intro k j hk; exact inv.stored k j hk
      · intro k hk hck; simp only at hck; omega

theorem sweep_constraints {I : Input n m r K} {N : ℕ} {pos : ℕ → ℕ} (hp : Placed I N pos)
    (hr : 0 < r) (dU : ℕ → Fin m → K) (dx : ℕ → Fin n → K) (i : ℕ) (hi : i ≤ N) :
    ∀ s s' : State n m r K, CInv I pos i s → sweep I i s = Res.ok (some s') → Tangent I i dU dx →
    CInv I pos 0 s' ∧ ∀ k < I.cons.length, blockAction I.controlSteps (s'.jacobian k) dU =
      if s.constraintIndex ≤ k then
        blockAction I.controlSteps (s.jacobian k) dU - (s.rhsG k)ᵀ *ᵥ dx i
      else (I.data (pos k)).dgdnew *ᵥ dx (pos k) +
        (I.data (pos k)).dgdcontrol *ᵥ controlAt (I.pair (pos k)) dU := by
  induction i with
  | zero =>
    intro s s' inv h ht
    simp only [sweep, Res.ok.injEq, Option.some.injEq] at h
    subst h
    refine ⟨inv, fun k hk => ?_⟩
    have : ¬ k < s.constraintIndex := by
      rw [inv.found k hk]; have := hp.lower k hk; omega
    rw [if_pos (by omega), ht.initial]; simp
  | succ i ih =>
    intro s s' inv h ht
    simp only [sweep] at h
    rw [Res.bind_eq_ok] at h
    obtain ⟨o, ho, h⟩ := h
    cases o with
    | none => simp at h
    | some s1 =>
      have ht' : Tangent I i dU dx := ⟨ht.initial, fun k h1 h2 => ht.equation k h1 (by omega)⟩
      obtain ⟨inv1, hs⟩ := step_constraints hp hi hr inv ho (dU := dU) (dx := dx)
        (ht.equation (i + 1) (by omega) le_rfl)
      obtain ⟨inv0, hrec⟩ := ih (by omega) s1 s' inv1 h ht'
      refine ⟨inv0, fun k hk => ?_⟩
      rw [hrec k hk]
      by_cases h1 : s1.constraintIndex ≤ k
      · rw [if_pos h1, hs k hk h1]
      · rw [if_neg h1, if_neg]
        have h2 := (inv1.found k hk).mp (by omega)
        have := (inv.found k hk).mpr (by omega)
        omega

theorem init_inv {I : Input n m r K} {N : ℕ} {pos : ℕ → ℕ} (hp : Placed I N pos) :
    CInv I pos N (State.init I) where
  le := le_rfl
  found k hk := ⟨fun _ => hp.upper k hk, fun _ => hk⟩
  zero _ _ := ⟨rfl, fun _ => rfl⟩
  inactive _ := rfl
  stored _ _ _ := rfl

end Verif.Adjoint
