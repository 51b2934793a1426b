import Verif.Read.NlpJac
import Verif.Network.Implicit

/-!
# Property C119 for the problem Ipopt gets: the states continue to functions of the variables
-/

set_option autoImplicit false

namespace Verif.Read

open Verif.Json Verif.Factory Verif.Interp Verif.Schema Verif.Initial Verif.Times Verif.Newton Verif.Evolve Verif.OptTimes
  Verif.IndexLambda Verif.Weights Verif.Jacobian Verif.Adjoint Network Net Filter Topology Matrix

theorem continuous_control {n m r q : ℕ} (I : Input n m r ℝ) (i : ℕ) :
    Continuous fun v : Fin (m * q) → ℝ => control I i (blocks v) := by
  have hb : Continuous fun v : Fin (m * q) → ℝ => blocks v := blocksL.continuous
  have he : ∀ j, Continuous fun v : Fin (m * q) → ℝ => extend (blocks v) j := by
    intro j
    unfold extend
    split
    · exact (continuous_apply _).comp hb
    · exact continuous_const
  unfold Adjoint.control Adjoint.controlAt
  exact ((he _).const_smul (I.pair i).2).add ((he _).const_smul (1 - (I.pair i).2))

theorem continuation_net {N : Net} (hadm : Admissible N) (G : Goals N)
    {times cgrid ktimes x w : List ℝ} {pairs : List (ℕ × ℝ)} {jac : Jac} {oob : Option ℝ}
    {z : List (Option (Fin N.stateCount → ℝ))} {gradient jacobian : List ℝ}
    (hinc : cgrid.Pairwise (· < ·)) (hcn : 0 < cgrid.length) (hlow : ∀ t ∈ times, cgrid[0] ≤ t)
    (hlast : ∀ t ∈ times, t < cgrid[cgrid.length - 1] + EPSILON) (hps : computeIndexLambdaVector cgrid times = Res.ok pairs)
    (hxl : x.length = N.controlCount * cgrid.length) (hzl : z.length = times.length)
    (hder : derivativesOf G times cgrid ktimes x w pairs jac oob z = Res.ok (some (gradient, jacobian)))
    (hreg : ∀ i, 1 ≤ i → ∀ hi : i < times.length, ∀ y, z[i]? = some (some y) → Regular N times[i] (ext y)) :
    ∃ X : ℕ → (Fin (N.controlCount * cgrid.length) → ℝ) → Fin N.stateCount → ℝ,
      (∀ i < times.length, z[i]? = some (some (X i fun k => x.getD k 0))) ∧
      (∀ v, X 0 v = X 0 fun k => x.getD k 0) ∧
      (∀ i < times.length, ContinuousAt (X i) fun k => x.getD k 0) ∧
      (∀ i, 1 ≤ i → ∀ hi : i < times.length, ∃ r, ∀ᶠ v in 𝓝 (fun k : Fin (N.controlCount * cgrid.length) => x.getD k 0),
        ∃ c, controlsAt cgrid (List.ofFn v) times[i] = Res.ok c ∧ N.residual times[i - 1] times[i] (X (i - 1) v, X i v, c) = Res.ok r) ∧
      ∀ X' : ℕ → (Fin (N.controlCount * cgrid.length) → ℝ) → Fin N.stateCount → ℝ,
        (∀ i < times.length, z[i]? = some (some (X' i fun k => x.getD k 0))) →
        (∀ v, X' 0 v = X' 0 fun k => x.getD k 0) →
        (∀ i < times.length, ContinuousAt (X' i) fun k => x.getD k 0) →
        (∀ i, 1 ≤ i → ∀ hi : i < times.length, ∃ r, ∀ᶠ v in 𝓝 (fun k : Fin (N.controlCount * cgrid.length) => x.getD k 0),
          ∃ c, controlsAt cgrid (List.ofFn v) times[i] = Res.ok c ∧
            N.residual times[i - 1] times[i] (X' (i - 1) v, X' i v, c) = Res.ok r) →
        ∀ i < times.length, ∀ᶠ v in 𝓝 (fun k : Fin (N.controlCount * cgrid.length) => x.getD k 0), X' i v = X i v := by
  unfold derivativesOf at hder
  split at hder
  · cases hder
  next hnone =>
  obtain ⟨data, hdata, hder⟩ := Res.bind_eq_ok.mp hder
  obtain ⟨st, hsw, hder⟩ := Res.bind_eq_ok.mp hder
  match st, hsw, hder with
  | some st, hsw, hder =>
    set I := inputOf G times cgrid ktimes w pairs jac oob data with hI
    have hcontrol : ∀ i, ∀ hi : i < times.length, ∀ v : Fin (N.controlCount * cgrid.length) → ℝ,
        controlsAt (N := N) cgrid (List.ofFn v) times[i] = Res.ok (control I i (blocks v)) := by
      intro i hi v
      have hm := List.getElem_mem hi
      exact controlsAt_pair hinc hcn (hlow _ hm) (hlast _ hm) (pairs_get hps i hi) v
    have hx0 := ofFn_getD hxl
    obtain ⟨hdl, hdat⟩ := steps_get hdata
    set x0 : Fin (N.controlCount * cgrid.length) → ℝ := fun k => x.getD k 0 with hx0def
    have hdet := sweep_det hsw
    let Y : ℕ → Fin N.stateCount → ℝ := fun i => (z.getD i none).getD 0
    have hY : ∀ i < times.length, z[i]? = some (some (Y i)) := by
      intro i hi
      have hi' : i < z.length := hzl ▸ hi
      have hm := List.getElem_mem hi'
      show z[i]? = some (some ((z.getD i none).getD 0))
      rw [List.getD_eq_getElem?_getD, List.getElem?_eq_getElem hi']
      cases hy : z[i] with
      | none => rw [hy] at hm; exact absurd hm hnone
      | some y => rfl
    let time : ℕ → ℝ := fun i => times.getD i 0
    have htime : ∀ i (hi : i < times.length), time i = times[i] := by
      intro i hi
      show times.getD i 0 = _
      rw [List.getD_eq_getElem?_getD, List.getElem?_eq_getElem hi]
      rfl
    have hdet' : ∀ i < times.length - 1, (N.newMatrix (time i) (time (i + 1)) (Y i, Y (i + 1), control I (i + 1) (blocks x0))).det ≠ 0 := by
      intro i hi
      have hi1 : i + 1 < times.length := by omega
      obtain ⟨y, z1, c, d1, d2, d3, d4⟩ := hdat (i + 1) (by omega) hi1
      simp only [Nat.add_sub_cancel] at d1 d4
      rw [hY i (by omega)] at d1
      rw [hY (i + 1) hi1] at d2
      injection d1 with d1
      injection d2 with d2
      subst d1 d2
      have e4 := hcontrol (i + 1) hi1 x0
      rw [hx0, d3] at e4
      injection e4 with e4
      subst e4
      obtain ⟨new, _, _, _, _, g1, -, -, -, -, g6, -⟩ := stepData_inv d4
      have := hdet (i + 1) (by omega) (by omega)
      change (data.getD i _).dEdnew.det ≠ 0 at this
      rw [g6] at this
      rw [htime i (by omega), htime (i + 1) hi1]
      unfold Net.newMatrix
      simp only [Option.getD_some] at g1
      rw [g1]
      exact this
    have key : ∀ (F : ℕ → (Fin (N.controlCount * cgrid.length) → ℝ) → Fin N.stateCount → ℝ),
        (∀ i < times.length - 1, ∃ r, ∀ᶠ v in 𝓝 x0, N.residual (time i) (time (i + 1)) (F i v, F (i + 1) v, control I (i + 1) (blocks v)) = Res.ok r) ↔
        (∀ i, 1 ≤ i → ∀ hi : i < times.length, ∃ r, ∀ᶠ v in 𝓝 x0,
          ∃ c, controlsAt cgrid (List.ofFn v) times[i] = Res.ok c ∧ N.residual times[i - 1] times[i] (F (i - 1) v, F i v, c) = Res.ok r) := by
      intro F
      constructor
      · intro h i h1 hi
        obtain ⟨j, rfl⟩ : ∃ j, i = j + 1 := ⟨i - 1, by omega⟩
        obtain ⟨r, hr⟩ := h j (by omega)
        refine ⟨r, hr.mono fun v hv => ⟨_, hcontrol (j + 1) hi v, ?_⟩⟩
        rw [htime j (by omega), htime (j + 1) hi] at hv
        exact hv
      · intro h i hi
        have hi1 : i + 1 < times.length := by omega
        obtain ⟨r, hr⟩ := h (i + 1) (by omega) hi1
        refine ⟨r, hr.mono fun v hv => ?_⟩
        obtain ⟨c, c1, c2⟩ := hv
        rw [hcontrol (i + 1) hi1 v] at c1
        injection c1 with c1
        subst c1
        rw [htime i (by omega), htime (i + 1) hi1]
        exact c2
    obtain ⟨X, a1, a2, a3, a4⟩ := C119_continuation N hadm time (times.length - 1) Y (fun v i => control I i (blocks v)) x0
      (fun i _ => (continuous_control I (i + 1)).continuousAt)
      (fun i hi => by
        rw [htime (i + 1) (by omega)]
        exact hreg (i + 1) (by omega) (by omega) _ (hY _ (by omega))) hdet'
    refine ⟨X, fun i hi => ?_, fun v => ?_, fun i hi => (a2 i (by omega)).2, (key X).mp a3, fun X' b1 b2 b3 b4 i hi => ?_⟩
    · rw [(a2 i (by omega)).1]
      exact hY i hi
    · rw [a1, a1]
    · have hX' : ∀ i < times.length, X' i x0 = Y i := by
        intro i hi
        have h1 := b1 i hi
        rw [hY i hi] at h1
        exact (Option.some.inj (Option.some.inj h1)).symm
      refine a4 X' (Eventually.of_forall fun v => ?_) (fun i hi => ⟨hX' i (by omega), b3 i (by omega)⟩) ((key X').mpr b4) i (by omega)
      rw [b2 v]
      exact hX' 0 (by omega)

open Classical in
/-- C119 for the problem Ipopt gets. Whenever Ipopt gets derivatives for some variables, and the simulated states are regular, there is exactly one way (in
a neighbourhood of these variables) to continue the simulated states to functions of the variables. (So the functions C106 is about exist, and the
derivatives Ipopt gets are those of one well-defined problem.) -/
theorem C119_variables {draws : Json → Res (ℝ → Res (ℝ × ℝ))} {mem : ℕ → ℝ} {lu : Solve} {fuel : ℕ} {s : Settings} {every : ℤ}
    {f : Files} {b : Bounds}
    (ho : f.topology.isObj = true) (hs : Shaped f.topology) (hd : DistinctTypes f.topology) (sb : Shaped f.boundary)
    (db : DistinctTypes f.boundary) (hf : Fit f.defaults f.topology) (hlt : s.start < s.stop) (hdes : 0 < s.desired)
    (hmax : 1 ≤ s.iterations) (hcov : ∀ t, s.start ≤ t → t ≤ s.stop → Covers f.defaults f.topology f.boundary t)
    (hdraw : ∀ data d, draws data = Res.ok d → ∀ t, s.start ≤ t → t ≤ s.stop → ∃ b, d t = Res.ok b)
    {P : Nlp} (h : optimization draws mem lu fuel s every f b = Res.ok P)
    {g : Graph Network.Node EdgeKind} (hg : readNet draws mem f.defaults f.topology f.boundary = Res.ok g) (hc : Consistent g)
    {oob : Option ℝ} {x gradient jacobian : List ℝ} {states : List (Option Vec)}
    (hx : P.derivatives oob x = Res.ok (some (gradient, jacobian))) (hsim : P.simulation x = Res.ok states)
    (hreg : ∀ i, 1 ≤ i → ∀ hi : i < P.times.length, ∀ y, states[i]? = some (some y) → Regular (toNet hc) P.times[i] y) :
    ∃ X, Continues hc P x states X ∧
      ∀ X', Continues hc P x states X' → ∀ i < P.times.length,
        ∀ᶠ v in 𝓝 (fun k : Fin (P.controls * P.controlTimes.length) => x.getD k 0), X' i v = X i v := by
  obtain ⟨g', hc', hg', initial, w, pairs, p⟩ := parts_of ho hs hd sb db hf hlt hdes hmax hcov hdraw h
  rw [hg] at hg'
  injection hg' with hg'
  subst hg'
  change Parts s every f lu fuel hc initial w pairs P at p
  have hadm := p.admissible
  obtain ⟨times, cgrid, ktimes, n, r, start, lower, upper, klower, kupper, jac, sim, obj, cons, der⟩ := P
  have e0 : n = (toNet hc).controlCount := p.controls
  subst e0
  have e1 : r = (goals hc f.topology).count := p.constraints
  subst e1
  obtain ⟨hxl, z, hz, hzl, hder⟩ := p.derivatives oob x _ hx
  obtain ⟨hcn, hfirst, hlast⟩ := p.first
  have hz' := (p.simulation x z hxl hz).2
  rw [hsim] at hz'
  injection hz' with hz'
  have hin := p.good.bounds
  have hst : ∀ (i : ℕ) (y : Fin (toNet hc).stateCount → ℝ), states[i]? = some (some (ext y)) ↔ z[i]? = some (some y) := by
    intro i y
    rw [hz', List.getElem?_map, Option.map_eq_some_iff]
    constructor
    · rintro ⟨a, ha, h⟩
      rw [ha]
      cases a with
      | none => cases h
      | some a => rw [ext_inj (Option.some.inj h)]
    · intro h
      exact ⟨_, h, rfl⟩
  obtain ⟨X, a1, a2, a3, a4, a5⟩ := continuation_net hadm (goals hc f.topology) p.increasing hcn
    (fun t ht => hfirst.trans_le (hin t ht).1) hlast p.pairing hxl hzl hder
    (fun i h1 hi y hy => hreg i h1 hi _ ((hst i y).mpr hy))
  refine ⟨X, ⟨fun i hi => (hst i _).mpr (a1 i hi), a2, a3, a4⟩, fun X' hX' => ?_⟩
  exact a5 X' (fun i hi => (hst i _).mp (hX'.simulated i hi)) hX'.first hX'.continuous hX'.equations

end Verif.Read
