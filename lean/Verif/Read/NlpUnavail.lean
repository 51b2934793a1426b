import Verif.Read.NlpAvail

/-!
# Property C107: what the constraint times must be

Without luck the derivatives exist only if the first constraint time is the first one after the start: otherwise C18 is in the way.
-/

set_option autoImplicit false

namespace Verif.Adjoint

variable {n m r : ℕ} {K : Type} [Field K] [DecidableEq K]

open Matrix

/-- A sweep that ends has not read in front of the constraint times. -/
theorem sweep_reads {I : Input n m r K} {N : ℕ} {pos : ℕ → ℕ} (hp : Placed I N pos) (hr : 0 < r) (ho : I.oob = none) :
    ∀ i ≤ N, 1 ≤ i → ∀ s s' : State n m r K, CInv I pos i s → sweep I i s = Res.ok (some s') → 0 < I.cons.length ∧ pos 0 = 1 := by
  intro i
  induction i with
  | zero => intro _ h; omega
  | succ i ih =>
    intro hi _ s s' inv h
    simp only [sweep] at h
    obtain ⟨o, h1, h⟩ := Res.bind_eq_ok.mp h
    cases o with
    | none => simp at h
    | some s1 =>
      by_cases hi0 : i = 0
      · subst hi0
        unfold step at h1
        simp only at h1
        split at h1
        · simp at h1
        · obtain ⟨g, -, h1⟩ := Res.bind_eq_ok.mp h1
          obtain ⟨s2, hs, -⟩ := Res.bind_eq_ok.mp h1
          unfold constraintStep at hs
          obtain ⟨b, hb, -⟩ := Res.bind_eq_ok.mp hs
          unfold isNewConstraint at hb
          simp only at hb
          split at hb
          · rw [ho] at hb
            simp at hb
          · rename_i h0
            have h2 := inv.le
            have h3 := (inv.found 0 (by omega)).mp (by omega)
            have h4 := hp.lower 0 (by omega)
            omega
      · have hz : (I.data (i + 1)).dEdnew *ᵥ (0 : Fin n → K) + (I.data (i + 1)).dEdlast *ᵥ 0 +
            (I.data (i + 1)).dEdcontrol *ᵥ controlAt (I.pair (i + 1)) (fun _ => 0) = 0 := by
          simp [controlAt]
        have inv1 := (step_constraints hp hi hr inv h1 (dU := fun _ => 0) (dx := fun _ => 0) hz).1
        exact ih (by omega) (by omega) s1 s' inv1 h

/-- In a sweep that ends no matrix is singular. -/
theorem sweep_regular {I : Input n m r K} : ∀ i, ∀ s s' : State n m r K, sweep I i s = Res.ok (some s') →
    ∀ j, 1 ≤ j → j ≤ i → (I.data j).dEdnew.det ≠ 0 := by
  intro i
  induction i with
  | zero => intro _ _ _ j h1 h2; omega
  | succ i ih =>
    intro s s' h j h1 h2
    simp only [sweep] at h
    obtain ⟨o, ho, h⟩ := Res.bind_eq_ok.mp h
    cases o with
    | none => simp at h
    | some s1 =>
      rcases Nat.lt_or_ge j (i + 1) with hj | hj
      · exact ih s1 s' h j h1 (by omega)
      · obtain rfl : j = i + 1 := by omega
        unfold step at ho
        simp only at ho
        split at ho
        · simp at ho
        · rename_i hdet
          rwa [det_transpose] at hdet

open Verif.OptTimes

/-- C16: where a read in front of the constraint times has no defined result, derivatives exist only if the first constraint time is the first
simulated time. -/
theorem C16_first_constraint_time {F : Type} [Field F] [LinearOrder F] [IsStrictOrderedRing F] {I : Input n m r F}
    {states controls cons : List F} (hI : FromOptimizer I states controls cons) (hs : states.Pairwise (· < ·)) (h1 : 1 < states.length)
    (hacc : checkConstraintTimes states cons = Res.ok ()) (hr : 0 < r) (ho : I.oob = none) {s : State n m r F}
    (h : computeDerivatives I (states.length - 1) = Res.ok (some s)) : cons.head? = states.tail.head? := by
  have hp := placed_of_accepted I states controls cons hI hs hacc
  obtain ⟨hl, h2⟩ := sweep_reads hp hr ho (states.length - 1) le_rfl (by omega) _ _ (init_inv hp) h
  have ht := hp.time 0 hl
  rw [h2, hI.time 1 (by omega)] at ht
  simp only [hI.consEq] at ht hl
  rw [List.head?_eq_getElem?, List.head?_eq_getElem?, List.getElem?_tail, List.getElem?_eq_getElem hl,
    List.getElem?_eq_getElem (by omega)]
  exact congrArg some ht

end Verif.Adjoint

namespace Verif.Read

open Verif.Json Verif.Factory Verif.Interp Verif.Schema Verif.Initial Verif.Times Verif.Newton Verif.Evolve Verif.OptTimes
  Verif.IndexLambda Verif.Weights Verif.Jacobian Verif.Adjoint Network Net Filter Topology Matrix Verif.Handler

theorem reads_net {N : Net} (G : Goals N)
    {times cgrid ktimes x w : List ℝ} {pairs : List (ℕ × ℝ)} {jac : Jac}
    {z : List (Option (Fin N.stateCount → ℝ))}
    (hst : times.Pairwise (· < ·)) (h0 : 1 < times.length)
    (hps : computeIndexLambdaVector cgrid times = Res.ok pairs)
    (hww : weights times = Res.ok w) (hmake : makeData G.count N.controlCount ktimes cgrid = Res.ok jac)
    (hchk : checkConstraintTimes times ktimes = Res.ok ()) (hpos : 0 < G.count) {gradient jacobian : List ℝ}
    (h : derivativesOf G times cgrid ktimes x w pairs jac none z = Res.ok (some (gradient, jacobian))) :
    ktimes.head? = times.tail.head? := by
  unfold derivativesOf at h
  split at h
  · simp at h
  · obtain ⟨data, hdata, h⟩ := Res.bind_eq_ok.mp h
    obtain ⟨o, ho, h⟩ := Res.bind_eq_ok.mp h
    cases o with
    | none => simp at h
    | some s =>
      set I := inputOf G times cgrid ktimes w pairs jac none data with hI
      have hfrom : FromOptimizer I times cgrid ktimes := by
        refine ⟨fun i hi => ?_, rfl, rfl, pairs_get hps, ⟨w, hww, fun i hi => ?_⟩, jac, hmake, fun j _ => rfl⟩
        · show times.getD i 0 = _
          rw [List.getD_eq_getElem?_getD, List.getElem?_eq_getElem hi]
          rfl
        · show w.getD i 0 = _
          rw [List.getD_eq_getElem?_getD, List.getElem?_eq_getElem hi]
          rfl
      exact C16_first_constraint_time hfrom hst h0 hchk hpos rfl ho

theorem regular_net {N : Net} (G : Goals N) {times cgrid ktimes x w : List ℝ} {pairs : List (ℕ × ℝ)} {jac : Jac} {oob : Option ℝ}
    {z : List (Option (Fin N.stateCount → ℝ))} {gradient jacobian : List ℝ}
    (h : derivativesOf G times cgrid ktimes x w pairs jac oob z = Res.ok (some (gradient, jacobian))) :
    Solvable N times cgrid x (z.map (Option.map ext)) := by
  unfold derivativesOf at h
  split at h
  · simp at h
  · obtain ⟨data, hdata, h⟩ := Res.bind_eq_ok.mp h
    obtain ⟨o, ho, h⟩ := Res.bind_eq_ok.mp h
    cases o with
    | none => simp at h
    | some s =>
      intro i h1 hi last new hl hn c hc
      have hdet := sweep_regular _ _ _ ho i h1 (by omega)
      obtain ⟨y, y', c1, q1, q2, q3, q4⟩ := (steps_get hdata).2 i h1 hi
      rw [List.getElem?_map, q1] at hl
      rw [List.getElem?_map, q2] at hn
      rw [hc] at q3
      injection q3 with q3
      subst q3
      cases y with
      | none => simp at hl
      | some y =>
        cases y' with
        | none => simp at hn
        | some y' =>
          simp only [Option.map_some, Option.some.injEq] at hl hn
          obtain rfl := ext_inj hl
          obtain rfl := ext_inj hn
          simp only [Option.getD_some] at q4
          unfold Net.stepData at q4
          obtain ⟨entries, e1, q4⟩ := Res.bind_eq_ok.mp q4
          obtain ⟨a2, -, q4⟩ := Res.bind_eq_ok.mp q4
          obtain ⟨a3, -, q4⟩ := Res.bind_eq_ok.mp q4
          obtain ⟨a4, -, q4⟩ := Res.bind_eq_ok.mp q4
          obtain ⟨a5, -, q4⟩ := Res.bind_eq_ok.mp q4
          refine ⟨entries, e1, ?_⟩
          injection q4 with q4
          have : (inputOf G times cgrid ktimes w pairs jac oob data).data i = data.getD (i - 1) ⟨0, 0, 0, 0, 0, 0, 0⟩ := rfl
          rw [this, ← q4] at hdet
          exact hdet

open Classical in
/-- C107: where the simulation succeeds and the read in front of the constraint times has no defined result, Ipopt gets derivatives exactly if
no matrix is singular and there are no constraints or the first constraint time is the first one after the start. -/
theorem C107_available_iff {draws : Json → Res (ℝ → Res (ℝ × ℝ))} {mem : ℕ → ℝ} {lu : Solve} {fuel : ℕ} {s : Settings}
    {every : ℤ} {f : Files} {b : Bounds}
    (ho : f.topology.isObj = true) (hs : Shaped f.topology) (hd : DistinctTypes f.topology) (sb : Shaped f.boundary)
    (db : DistinctTypes f.boundary) (hf : Fit f.defaults f.topology) (hlt : s.start < s.stop) (hdes : 0 < s.desired)
    (hmax : 1 ≤ s.iterations) (hcov : ∀ t, s.start ≤ t → t ≤ s.stop → Covers f.defaults f.topology f.boundary t)
    (hdraw : ∀ data d, draws data = Res.ok d → ∀ t, s.start ≤ t → t ≤ s.stop → ∃ b, d t = Res.ok b)
    {P : Nlp} (h : optimization draws mem lu fuel s every f b = Res.ok P)
    {g : Graph Network.Node EdgeKind} (hg : readNet draws mem f.defaults f.topology f.boundary = Res.ok g) (hc : Consistent g)
    (hatt : ∀ v : Fin g.nodes.length, ConstraintSink f.topology g.nodes[v].id →
      ∃ k, ((toNet hc).edge k).isGas ∧ ((toNet hc).src k = v ∨ (toNet hc).dst k = v))
    {x : List ℝ} {states : List (Option Vec)} (hx : P.simulation x = Res.ok states) (hsome : none ∉ states) :
    (∃ gradient jacobian, P.derivatives none x = Res.ok (some (gradient, jacobian))) ↔
      Solvable (toNet hc) P.times P.controlTimes x states ∧
        (P.constraints = 0 ∨ P.constraintTimes.head? = P.times.tail.head?) := by
  constructor
  · rintro ⟨gradient, jacobian, hv⟩
    obtain ⟨g', hc', hg', initial, w, pairs, p⟩ := parts_of ho hs hd sb db hf hlt hdes hmax hcov hdraw h
    rw [hg] at hg'
    injection hg' with hg'
    subst hg'
    change Parts s every f lu fuel hc initial w pairs P at p
    obtain ⟨hxl, z, rfl, hzl, hder⟩ := p.simulated x states hx
    have hmake := p.jacobian
    rw [p.constraints, p.controls] at hmake
    rw [hder] at hv
    refine ⟨regular_net _ hv, ?_⟩
    by_cases h0 : P.constraints = 0
    · exact .inl h0
    · refine .inr (reads_net (goals hc f.topology) p.good.1 p.good.2.2.2.1 p.pairing p.weights hmake p.checked ?_ hv)
      rw [p.constraints] at h0
      omega
  · rintro ⟨hsol, hr⟩
    exact C107_derivatives_available_partial ho hs hd sb db hf hlt hdes hmax hcov hdraw h hg hc hatt hx hsome hsol
      (hr.imp id Or.inl)

end Verif.Read
