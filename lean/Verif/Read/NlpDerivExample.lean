import Verif.Read.NlpAvail
import Verif.Read.NlpExample

/-!
# C105, C106, C107: the derivatives of a problem

The problem of `NlpExample` where the compressor always raises the pressure by 10 bar.
-/

set_option autoImplicit false

namespace Verif.Read

open Verif.Json Verif.Factory Verif.Interp Verif.Schema Verif.Initial Verif.Times Network Net Newton Evolve OptTimes IndexLambda Weights
  Jacobian Matrix Verif.Handler Filter Topology

variable (hc : Consistent graphK)

theorem dNew_k (s : ℝ) (z : (toNet hc).Point) : (toNet hc).dNew s 60 ((toNet hc).args z) =
    Res.ok [(3, 2, 0), (3, 3, -1), (0, 0, 1), (0, 1, 0), (1, 0, -1), (1, 2, 1), (2, 1, -1), (2, 3, 1)] := rfl

theorem det_k : (matrixOf 4 4 [(3, 2, 0), (3, 3, -1), (0, 0, 1), (0, 1, 0), (1, 0, -1), (1, 2, 1), (2, 1, -1), (2, 3, 1)]).det ≠ 0 := by
  have : matrixOf 4 4 [(3, 2, 0), (3, 3, -1), (0, 0, 1), (0, 1, 0), (1, 0, -1), (1, 2, 1), (2, 1, -1), (2, 3, 1)] =
      !![1, 0, 0, 0; -1, 0, 1, 0; 0, -1, 0, 1; 0, 0, 0, -1] := by
    ext i j
    fin_cases i <;> fin_cases j <;> simp [matrixOf, total]
  rw [this]
  simp [Matrix.det_succ_row_zero, Fin.sum_univ_succ]

theorem attached_k : ∀ v : Fin graphK.nodes.length, ConstraintSink topologyK graphK.nodes[v].id →
    ∃ k, ((toNet hc).edge k).isGas ∧ ((toNet hc).src k = v ∨ (toNet hc).dst k = v) := by
  show ∀ v : Fin 2, _
  intro v _
  refine ⟨(0 : Fin 1), rfl, ?_⟩
  fin_cases v
  · exact .inr rfl
  · exact .inl rfl

theorem solvable_k (lu : Solve) (x : List ℝ) (states : List (Option Vec)) :
    Solvable (toNet hc) (problemK hc lu).times (problemK hc lu).controlTimes x states := by
  intro i h1 hi last new _ _ c _
  have : i = 1 := by
    have : i < 2 := hi
    omega
  subst this
  exact ⟨_, dNew_k hc _ _, det_k⟩

/-- C107 applies. -/
theorem available_k (draws : Json → Res (ℝ → Res (ℝ × ℝ))) (hdraw : ∀ data, draws data = Res.throws) (mem : ℕ → ℝ) (lu : Solve)
    (oob : Option ℝ) : ∃ gradient jacobian, (problemK hc lu).derivatives oob [10, 10] = Res.ok (some (gradient, jacobian)) := by
  obtain ⟨hP, h1, -⟩ := optimization_k hc draws mem lu
  exact C107_derivatives_available_partial (f := filesK) (s := settingsC) rfl shaped_k.1.1 shaped_k.1.2 shaped_k.2.1 shaped_k.2.2
    fit_k (by norm_num [settingsC]) (by norm_num [settingsC]) (by norm_num [settingsC])
    (fun t h0 h1 => covers_k h0 (h1.trans (by norm_num [settingsC]))) (by intro data d hd; rw [hdraw] at hd; cases hd) hP
    (read_k draws mem) hc (attached_k hc) h1 (by simp) (solvable_k hc lu _ _) (.inr (.inl rfl))

/-- C105 applies: the gradient is (0, 600). -/
example (draws : Json → Res (ℝ → Res (ℝ × ℝ))) (hdraw : ∀ data, draws data = Res.throws) (mem : ℕ → ℝ) (lu : Solve)
    (oob : Option ℝ) : ∃ P jacobian, optimization draws mem lu 10 settingsC 1 filesK boundsK = Res.ok P ∧
      P.derivatives oob [10, 10] = Res.ok (some ([0, 600], jacobian)) := by
  obtain ⟨hc, -⟩ := C100_partial rfl shaped_k.1.1 shaped_k.1.2 shaped_k.2.1 shaped_k.2.2 (read_k draws mem) fit_k
  obtain ⟨gradient, jacobian, hx⟩ := available_k hc draws hdraw mem lu oob
  obtain ⟨hP, -⟩ := optimization_k hc draws mem lu
  refine ⟨_, jacobian, hP, ?_⟩
  obtain ⟨g, hc', hg, F, h1, -, -, hl, D, hD, hval⟩ := C105_gradient (f := filesK) (s := settingsC) rfl shaped_k.1.1 shaped_k.1.2
    shaped_k.2.1 shaped_k.2.2 fit_k (by norm_num [settingsC]) (by norm_num [settingsC]) (by norm_num [settingsC])
    (fun t h0 h1 => covers_k h0 (h1.trans (by norm_num [settingsC]))) (by intro data d hd; rw [hdraw] at hd; cases hd) hP hx
  have hg' : readNet draws mem filesK.defaults filesK.topology filesK.boundary = Res.ok graphK := read_k draws mem
  rw [hg'] at hg
  injection hg with hg
  subst hg
  have hF : ∀ v : Fin 2 → ℝ, F v = 30 * v 1 ^ 2 := by
    intro v
    obtain ⟨c, e1, e2⟩ := h1 v
    obtain ⟨a, b, q1, q2, q3⟩ := e1 1 le_rfl (by show 1 < 2; omega) (0 : Fin 1) rfl 0 (by show 0 + 1 < 2; omega) (by
      show (0 : ℝ) ≤ 60; norm_num) (by show (60 : ℝ) ≤ 60; norm_num)
    have q2' : (List.ofFn v)[1]? = some b := q2
    have q3' : c 1 0 = a + (60 - 0) / (60 - 0) * (b - a) := q3
    have hb : v 1 = b := by simpa using q2'
    have hc1 : c 1 0 = v 1 := by rw [q3', hb]; ring
    have e2' : F v = ∑ i ∈ Finset.range 1, ([(0 : ℝ), 60].getD (i + 1) 0 - [(0 : ℝ), 60].getD i 0) *
      (((if i = 0 then 0 else ∑ k : Fin 1, if true = true then c i 0 ^ 2 else 0) +
        (if i + 1 = 0 then 0 else ∑ k : Fin 1, if true = true then c (i + 1) 0 ^ 2 else 0)) / 2) := e2
    rw [e2', Finset.sum_range_one]
    simp [hc1]
    ring
  have hD' : HasFDerivAt (fun v : Fin 2 → ℝ => 30 * v 1 ^ 2)
      ((600 : ℝ) • ContinuousLinearMap.proj (R := ℝ) (φ := fun _ : Fin 2 => ℝ) 1) ![10, 10] := by
    have := (((hasFDerivAt_apply (𝕜 := ℝ) (F' := fun _ : Fin 2 => ℝ) 1 ![10, 10]).pow 2).const_mul 30)
    refine this.congr_fderiv ?_
    ext v
    simp
    ring
  have hx0 : (fun i : Fin 2 => ([10, 10] : List ℝ).getD i 0) = ![10, 10] := by
    funext i
    fin_cases i <;> rfl
  have hDD : D = (600 : ℝ) • ContinuousLinearMap.proj (R := ℝ) (φ := fun _ : Fin 2 => ℝ) 1 := by
    have hFe : F = fun v : Fin 2 → ℝ => 30 * v 1 ^ 2 := funext hF
    have hD1 : HasFDerivAt F D (fun i : Fin 2 => ([10, 10] : List ℝ).getD i 0) := hD
    rw [hFe, hx0] at hD1
    exact hD1.unique hD'
  have hl' : gradient.length = 2 := hl
  match gradient, hl' with
  | [a, b], _ =>
    have v0 : [a, b][0]? = some (D (Pi.single (0 : Fin 2) 1)) := hval (0 : Fin 2)
    have v1 : [a, b][1]? = some (D (Pi.single (1 : Fin 2) 1)) := hval (1 : Fin 2)
    rw [hDD] at v0 v1
    have w0 : ((600 : ℝ) • ContinuousLinearMap.proj (R := ℝ) (φ := fun _ : Fin 2 => ℝ) 1) (Pi.single (0 : Fin 2) 1) = 0 := by simp
    have w1 : ((600 : ℝ) • ContinuousLinearMap.proj (R := ℝ) (φ := fun _ : Fin 2 => ℝ) 1) (Pi.single (1 : Fin 2) 1) = 600 := by simp
    rw [hx, Option.some.inj (v0.trans (congrArg some w0)), Option.some.inj (v1.trans (congrArg some w1))]

/-- The states as functions of the variables. -/
noncomputable def familyK : ℕ → (Fin 2 → ℝ) → Fin (toNet hc).stateCount → ℝ
  | 0, _ => stateK hc
  | _ + 1, u => (![60, 5, 60 + u 1, 5] : Fin 4 → ℝ)

theorem entry_family (u : Fin 2 → ℝ) (j : ℕ) (h : j < 4) :
    Network.ext (familyK hc 1 u) (j : ℤ) = (![60, 5, 60 + u 1, 5] : Fin 4 → ℝ) ⟨j, h⟩ := by
  unfold Network.ext
  rw [dif_pos ⟨by omega, by show _ < 4; omega⟩]
  rfl

theorem pattern_k (lu : Solve) : (problemK hc lu).jacobian.supplyIndices = [(0, 0), (0, 1)] := by
  have : makeDataLoop [(60 : ℝ)] [60] 0 1 0 = [1, 2] := by
    unfold makeDataLoop
    rw [if_pos (by norm_num)]
    unfold makeDataLoop
    rfl
  unfold problemK
  rw [this]
  rfl

theorem regular_k (new : Vec) : Regular (toNet hc) 60 new := by
  refine ⟨?_, ?_⟩
  · have ha : one ⟨[0, 3600], 1, [60, 60]⟩ 60 = Res.ok (60, 0) := by have := boundary_s 60; push_cast at this; exact this
    have hb : one ⟨[0, 3600], 1, [-5, -5]⟩ 60 = Res.ok (-5, 0) := by have := boundary_s (-5); push_cast at this; exact this
    show ∀ v : Fin 2, _
    intro v _
    fin_cases v
    · exact ⟨_, hb⟩
    · exact ⟨_, ha⟩
  · intro k dx d r n h
    have : ∀ k : Fin 1, (toNet hc).edge k = .gas .compressor 0 := by
      intro k
      rw [Subsingleton.elim k 0]
      rfl
    rw [this k] at h
    injection h with h
    cases h

theorem family_k (lu : Solve) (states) (h : states = [some (Network.ext (stateK hc)), some (ext (stateK hc))]) :
    Continues hc (problemK hc lu) [10, 10] states (familyK hc) := by
  have hx0 : (fun i : Fin 2 => ([10, 10] : List ℝ).getD i 0) = ![10, 10] := by
    funext i
    fin_cases i <;> rfl
  have hval : ∀ i, familyK hc i (fun k : Fin 2 => ([10, 10] : List ℝ).getD k 0) = stateK hc := by
    intro i
    rw [hx0]
    cases i with
    | zero => rfl
    | succ i =>
      show (![60, 5, 60 + 10, 5] : Fin 4 → ℝ) = ![60, 5, 70, 5]
      norm_num
  refine ⟨fun i hi => ?_, fun v => rfl, fun i hi => ?_, fun i h1 hi => ?_⟩
  · have hi : i < 2 := hi
    rw [h]
    have := hval i
    interval_cases i <;> exact congrArg (fun s => some (some (ext s))) this.symm
  · show ContinuousAt (familyK hc i) _
    cases i with
    | zero => exact continuousAt_const
    | succ i =>
      refine Continuous.continuousAt (X := Fin 2 → ℝ) (Y := Fin 4 → ℝ) ?_
      show Continuous fun (u : Fin 2 → ℝ) => (![60, 5, 60 + u 1, 5] : Fin 4 → ℝ)
      refine continuous_pi fun j => ?_
      fin_cases j <;> simp <;> fun_prop
  · have : i = 1 := by
      have : i < 2 := hi
      omega
    subst this
    refine ⟨fun _ => 0, Eventually.of_forall fun v => ?_⟩
    change Fin 2 → ℝ at v
    have hcon := controlsAt_pair (N := toNet hc) (cgrid := [0, 60]) (by simp) (by simp) (t := 60) (by simp)
      (by have := EPSILON_pos (K := ℝ); simp; linarith) (pairs_get pairs_k 1 (by simp)) v
    refine ⟨_, hcon, ?_⟩
    refine (residual_k hc 0 _ _ _ (t := 60) (by norm_num) (by norm_num)).trans ?_
    have e0 := entry_family hc v 0 (by norm_num)
    have e1 := entry_family hc v 1 (by norm_num)
    have e2 := entry_family hc v 2 (by norm_num)
    have e3 := entry_family hc v 3 (by norm_num)
    simp only [Nat.cast_ofNat, Nat.cast_zero, Nat.cast_one] at e0 e1 e2 e3
    have e4 : Network.ext (Adjoint.controlAt (m := (toNet hc).controlCount) ([((0 : ℕ), (1 : ℝ)), (1, 1)].getD 1 (0, 0))
        (Adjoint.extend (blocks (m := (toNet hc).controlCount) (q := 2) v))) 0 = v 1 := by
      unfold Network.ext
      rw [dif_pos ⟨le_rfl, by show (0 : ℕ) < 1; omega⟩]
      show (1 : ℝ) * v 1 + (1 - 1) * _ = v 1
      ring
    congr 1
    show (![Network.ext (familyK hc 1 v) 0 - 60, Network.ext (familyK hc 1 v) 2 - Network.ext (familyK hc 1 v) 0 - Network.ext (Adjoint.controlAt
      (m := (toNet hc).controlCount) ([((0 : ℕ), (1 : ℝ)), (1, 1)].getD 1 (0, 0))
      (Adjoint.extend (blocks (m := (toNet hc).controlCount) (q := 2) v))) 0, Network.ext (familyK hc 1 v) 3 - Network.ext (familyK hc 1 v) 1,
      5 - Network.ext (familyK hc 1 v) 3] : Fin 4 → ℝ) = _
    rw [e0, e1, e2, e3, e4]
    show _ = fun _ : Fin 4 => (0 : ℝ)
    funext i
    fin_cases i <;> simp

/-- C106 applies: the derivatives of the pressure at the sink are 0 and 1. -/
example (draws : Json → Res (ℝ → Res (ℝ × ℝ))) (hdraw : ∀ data, draws data = Res.throws) (mem : ℕ → ℝ) (lu : Solve)
    (oob : Option ℝ) : ∃ P gradient, optimization draws mem lu 10 settingsC 1 filesK boundsK = Res.ok P ∧
      P.derivatives oob [10, 10] = Res.ok (some (gradient, [0, 1])) := by
  obtain ⟨hc, -⟩ := C100_partial rfl shaped_k.1.1 shaped_k.1.2 shaped_k.2.1 shaped_k.2.2 (read_k draws mem) fit_k
  obtain ⟨gradient, jacobian, hx⟩ := available_k hc draws hdraw mem lu oob
  obtain ⟨hP, hsim, -, hval⟩ := optimization_k hc draws mem lu
  refine ⟨_, gradient, hP, ?_⟩
  obtain ⟨pos, place, h1, -, h2⟩ := C106_jacobian_partial (f := filesK) (s := settingsC) rfl shaped_k.1.1 shaped_k.1.2
    shaped_k.2.1 shaped_k.2.2 fit_k (by norm_num [settingsC]) (by norm_num [settingsC]) (by norm_num [settingsC])
    (fun t h0 h1 => covers_k h0 (h1.trans (by norm_num [settingsC]))) (by intro data d hd; rw [hdraw] at hd; cases hd) hP
    (read_k draws mem) hc (attached_k hc)
  obtain ⟨h3, h4⟩ := h2 oob _ _ _ _ hx hsim
  have hsink : ConstraintSink topologyK (graphK.nodes[(0 : Fin 2)]).id := ⟨_, List.mem_cons_self, rfl⟩
  obtain ⟨hpos, hval'⟩ := h1 _ _ _ hval hsim (0 : Fin 2) hsink
  have hpos : pos (0 : Fin 2) = 0 := by
    have : pos (0 : Fin 2) < 1 := hpos
    omega
  have h70 : Network.ext (stateK hc) (place (0 : Fin 2)) = 70 := by
    have := hval' 0 1 (by show 0 < 1; omega) rfl _ rfl
    rw [hpos] at this
    have e : [some (70 : ℝ)][0]? = some (some (ext (stateK hc) (place (0 : Fin 2)))) := this
    simpa using e.symm
  have hplace : place (0 : Fin 2) = 2 := by
    unfold Network.ext at h70
    split at h70
    · next hr =>
      have hlt : (place (0 : Fin 2)).toNat < 4 := hr.2
      have e : (![60, 5, 70, 5] : Fin 4 → ℝ) ⟨_, hlt⟩ = 70 := h70
      have : (place (0 : Fin 2)).toNat = 2 := by
        revert e
        generalize (place (0 : Fin 2)).toNat = n at hlt
        intro e
        interval_cases n
        all_goals first
          | rfl
          | (exfalso; norm_num at e)
      omega
    · norm_num at h70
  obtain ⟨D, hD, hcol⟩ := h4 (familyK hc) (family_k hc lu _ rfl) (fun i h1 hi => by
      have : i = 1 := by
        have : i < 2 := hi
        omega
      subst this
      exact regular_k hc _) (0 : Fin 2) hsink 0 1 (by show 0 < 1; omega) rfl
  have hD' : HasFDerivAt (fun u : Fin 2 → ℝ => 60 + u 1) (ContinuousLinearMap.proj (R := ℝ) (φ := fun _ : Fin 2 => ℝ) 1)
      (fun k : Fin 2 => ([10, 10] : List ℝ).getD k 0) := (hasFDerivAt_apply (𝕜 := ℝ) (F' := fun _ : Fin 2 => ℝ) 1 _).const_add 60
  have hDD : D = ContinuousLinearMap.proj (R := ℝ) (φ := fun _ : Fin 2 => ℝ) 1 := by
    rw [hplace] at hD
    have e : (fun u : Fin 2 → ℝ => Network.ext (familyK hc 1 u) 2) = fun u => 60 + u 1 := by
      funext u
      have := entry_family hc u 2 (by norm_num)
      simpa using this
    have hD1 : HasFDerivAt (fun u : Fin 2 → ℝ => Network.ext (familyK hc 1 u) 2) D (fun k : Fin 2 => ([10, 10] : List ℝ).getD k 0) := hD
    rw [e] at hD1
    exact HasFDerivAt.unique (𝕜 := ℝ) (E := Fin 2 → ℝ) hD1 hD'
  rw [pattern_k] at h3
  rw [hpos] at hcol
  match jacobian, h3 with
  | [a, b], _ =>
    have v0 : [a, b][0]? = some (D (Pi.single (0 : Fin 2) 1)) := (hcol (0 : Fin 2)).1 0 (by rw [pattern_k]; rfl)
    have v1 : [a, b][1]? = some (D (Pi.single (1 : Fin 2) 1)) := (hcol (1 : Fin 2)).1 1 (by rw [pattern_k]; rfl)
    rw [hDD] at v0 v1
    have w0 : (ContinuousLinearMap.proj (R := ℝ) (φ := fun _ : Fin 2 => ℝ) 1) (Pi.single (0 : Fin 2) 1) = 0 := by simp
    have w1 : (ContinuousLinearMap.proj (R := ℝ) (φ := fun _ : Fin 2 => ℝ) 1) (Pi.single (1 : Fin 2) 1) = 1 := by simp
    rw [hx, Option.some.inj (v0.trans (congrArg some w0)), Option.some.inj (v1.trans (congrArg some w1))]

end Verif.Read
