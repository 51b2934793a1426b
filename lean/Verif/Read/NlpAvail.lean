import Verif.Read.NlpJac

/-!
# Property C107: where the derivatives are available
-/

set_option autoImplicit false

namespace Verif.Read

open Verif.Json Verif.Factory Verif.Interp Verif.Schema Verif.Initial Verif.Times Verif.Newton Verif.Evolve Verif.OptTimes
  Verif.IndexLambda Verif.Weights Verif.Jacobian Verif.Adjoint Network Net Filter Topology Matrix Verif.Handler

/-! ## Specification -/

/-- The equations of every step can be solved uniquely to first order at the simulated states: their matrix of derivatives with respect to
the new state exists and is not singular. -/
def Solvable (N : Net) (times cgrid x : List ℝ) (states : List (Option Vec)) : Prop :=
  ∀ i, 1 ≤ i → ∀ hi : i < times.length, ∀ last new : Fin N.stateCount → ℝ, states[i - 1]? = some (some (ext last)) →
    states[i]? = some (some (ext new)) → ∀ c, controlsAt cgrid x times[i] = Res.ok c →
    ∃ entries, N.dNew times[i - 1] times[i] (N.args (last, new, c)) = Res.ok entries ∧
      (matrixOf N.stateCount N.stateCount entries).det ≠ 0

/-- The sweep does not run into C18: there are no constraints, or the first constraint time is the first one after the start, or what is
found in front of the array of constraint times is none of the simulated times. -/
def ReadsHarmless (P : Nlp) (oob : Option ℝ) : Prop :=
  P.constraints = 0 ∨ P.constraintTimes.head? = P.times.tail.head? ∨ ∃ v, oob = some v ∧ v ∉ P.times

/-! ## Matrices that always exist -/

theorem edgeLast_ok {N : Net} (k : Fin N.edges) : ∃ cs, N.edgeLast k = Res.ok cs := by
  unfold Net.edgeLast
  cases N.gasEdge k with
  | none => exact ⟨_, rfl⟩
  | some e =>
    simp only
    unfold Gas.edgeLast
    cases e.kind with
    | pipe => exact ⟨_, forEach_ok fun _ _ => rfl⟩
    | _ => exact ⟨_, rfl⟩

theorem edgeControl_ok {N : Net} (k : Fin N.edges) : ∃ cs, N.edgeControl k = Res.ok cs := by
  unfold Net.edgeControl
  cases N.gasEdge k with
  | none => exact ⟨_, rfl⟩
  | some e =>
    simp only
    unfold Gas.edgeControl
    cases e.kind <;> exact ⟨_, rfl⟩

theorem dLast_ok (N : Net) : ∃ cs, N.dLast = Res.ok cs := by
  choose el hel using edgeLast_ok (N := N)
  unfold Net.dLast
  rw [forEach_ok (g := el) fun k _ => hel k, forEach_ok (g := el) fun k _ => hel k]
  exact ⟨_, rfl⟩

theorem dControl_ok (N : Net) : ∃ cs, N.dControl = Res.ok cs := by
  choose ec hec using edgeControl_ok (N := N)
  exact ⟨_, forEach_ok (g := ec) fun k _ => hec k⟩

theorem each_ok {α β : Type} {l : List α} {f : α → Res β} (h : ∀ a ∈ l, ∃ b, f a = Res.ok b) : ∃ bs, Res.each l f = Res.ok bs := by
  obtain ⟨bs, h, -⟩ := each_of (l := l) (body := f) (Q := fun _ _ => True) fun a ha => (h a ha).imp fun _ h => ⟨h, trivial⟩
  exact ⟨bs, h⟩

theorem avail_net {N : Net} (hadm : Admissible N) (G : Goals N) (hG : G.Attached)
    {times cgrid ktimes x w : List ℝ} {pairs : List (ℕ × ℝ)} {jac : Jac} {oob : Option ℝ}
    {z : List (Option (Fin N.stateCount → ℝ))}
    (hst : times.Pairwise (· < ·)) (h0 : 0 < times.length) (hinc : cgrid.Pairwise (· < ·)) (hcn : 0 < cgrid.length)
    (hlow : ∀ t ∈ times, cgrid[0] ≤ t)
    (hlast : ∀ t ∈ times, t < cgrid[cgrid.length - 1] + EPSILON) (hps : computeIndexLambdaVector cgrid times = Res.ok pairs)
    (hww : weights times = Res.ok w) (hmake : makeData G.count N.controlCount ktimes cgrid = Res.ok jac)
    (hchk : checkConstraintTimes times ktimes = Res.ok ())
    (hxl : x.length = N.controlCount * cgrid.length) (hz : z.length = times.length) (hsome : none ∉ z)
    (hsol : Solvable N times cgrid x (z.map (Option.map ext)))
    (hread : 0 < G.count → (ktimes ≠ [] ∧ ktimes.head? = times.tail.head?) ∨ ∃ v, oob = some v ∧ v ∉ times.tail) :
    ∃ gradient jacobian, derivativesOf G times cgrid ktimes x w pairs jac oob z = Res.ok (some (gradient, jacobian)) := by
  have hstate : ∀ i, i < times.length → ∃ y, z[i]? = some (some y) := by
    intro i hi
    have hi' : i < z.length := by omega
    match e : z[i] with
    | none => exact absurd (e ▸ List.getElem_mem hi') hsome
    | some y => exact ⟨y, by rw [List.getElem?_eq_getElem hi', e]⟩
  have hstep : ∀ i, 1 ≤ i → ∀ hi : i < times.length, ∃ y y' c, z[i - 1]? = some (some y) ∧ z[i]? = some (some y') ∧
      controlsAt (N := N) cgrid x times[i] = Res.ok c ∧ ∃ d, N.stepData G times[i - 1] times[i] (y, y', c) = Res.ok d ∧
      d.dEdnew.det ≠ 0 := by
    intro i h1 hi
    obtain ⟨y, hy⟩ := hstate (i - 1) (by omega)
    obtain ⟨y', hy'⟩ := hstate i hi
    have hm := List.getElem_mem hi
    obtain ⟨c, hc⟩ := controls_ok hxl hinc hcn (hlow _ hm) (hlast _ hm)
    refine ⟨y, y', c, hy, hy', hc, ?_⟩
    obtain ⟨new, hnew, hdet⟩ := hsol i h1 hi y y' (by rw [List.getElem?_map, hy]; rfl) (by rw [List.getElem?_map, hy']; rfl) c hc
    obtain ⟨last, hl⟩ := dLast_ok N
    obtain ⟨con, hcon⟩ := dControl_ok N
    obtain ⟨gs, gc, f1, f2, -⟩ := C44_constraints N hadm G hG (y', c)
    unfold Net.stepData
    refine ⟨_, Res.bind_eq_ok.mpr ⟨_, hnew, Res.bind_eq_ok.mpr ⟨_, hl, Res.bind_eq_ok.mpr ⟨_, hcon, Res.bind_eq_ok.mpr ⟨_, f1,
      Res.bind_eq_ok.mpr ⟨_, f2, rfl⟩⟩⟩⟩⟩, hdet⟩
  obtain ⟨data, hdata⟩ : ∃ data, stepsOf G times cgrid x z = Res.ok data := by
    unfold stepsOf
    refine each_ok fun i hi => ?_
    rw [List.mem_range'_1] at hi
    obtain ⟨y, y', c, e1, e2, e3, d, e4, -⟩ := hstep i hi.1 (by omega)
    exact ⟨d, Res.bind_eq_ok.mpr ⟨_, Res.get_of_lt (by omega), Res.bind_eq_ok.mpr ⟨_, Res.get_of_lt (by omega),
      Res.bind_eq_ok.mpr ⟨_, Res.get_eq_ok.mpr e1, Res.bind_eq_ok.mpr ⟨_, Res.get_eq_ok.mpr e2,
      Res.bind_eq_ok.mpr ⟨_, e3, e4⟩⟩⟩⟩⟩⟩
  set I := inputOf G times cgrid ktimes w pairs jac oob data with hI
  have hfrom : FromOptimizer I times cgrid ktimes := by
    refine ⟨fun i hi => ?_, rfl, rfl, pairs_get hps, ⟨w, hww, fun i hi => ?_⟩, jac, hmake, fun j _ => rfl⟩
    · show times.getD i 0 = _
      rw [List.getD_eq_getElem?_getD, List.getElem?_eq_getElem hi]
      rfl
    · show w.getD i 0 = _
      rw [List.getD_eq_getElem?_getD, List.getElem?_eq_getElem hi]
      rfl
  obtain ⟨hp, hb⟩ := C16_index_data_in_bounds I times cgrid ktimes hfrom hst hinc h0 hcn (hlow _ (List.getElem_mem _))
    (hlast _ (List.getElem_mem _)) hchk hread
  obtain ⟨s, hs⟩ := C15_sweep_succeeds I (times.length - 1) _ hp hb fun i h1 hi => by
    have hi : i < times.length := by omega
    obtain ⟨y, y', c, e1, e2, e3, d, e4, e5⟩ := hstep i h1 hi
    obtain ⟨y1, y1', c1, q1, q2, q3, q4⟩ := (steps_get hdata).2 i h1 hi
    rw [e1] at q1; rw [e2] at q2; rw [e3] at q3
    injection q1 with q1; injection q2 with q2; injection q3 with q3
    subst q1 q2 q3
    simp only [Option.getD_some] at q4
    rw [e4] at q4
    injection q4 with q4
    have : I.data i = d := q4.symm
    rw [this]
    exact e5
  refine ⟨gradientValues cgrid.length s, jacobianValues jac s, ?_⟩
  unfold derivativesOf
  rw [if_neg hsome]
  exact Res.bind_eq_ok.mpr ⟨_, hdata, Res.bind_eq_ok.mpr ⟨_, hs, rfl⟩⟩

open Classical in
/-- C107, apart from what C18 and singular matrices break. If the simulation for the variables has states without NaN, Ipopt gets a gradient and
values of the Jacobian. -/
theorem C107_derivatives_available_partial {draws : Json → Res (ℝ → Res (ℝ × ℝ))} {mem : ℕ → ℝ} {lu : Solve} {fuel : ℕ} {s : Settings}
    {every : ℤ} {f : Files} {b : Bounds}
    (ho : f.topology.isObj = true) (hs : Shaped f.topology) (hd : DistinctTypes f.topology) (sb : Shaped f.boundary)
    (db : DistinctTypes f.boundary) (hf : Fit f.defaults f.topology) (hlt : s.start < s.stop) (hdes : 0 < s.desired)
    (hmax : 1 ≤ s.iterations) (hcov : ∀ t, s.start ≤ t → t ≤ s.stop → Covers f.defaults f.topology f.boundary t)
    (hdraw : ∀ data d, draws data = Res.ok d → ∀ t, s.start ≤ t → t ≤ s.stop → ∃ b, d t = Res.ok b)
    {P : Nlp} (h : optimization draws mem lu fuel s every f b = Res.ok P)
    {g : Graph Network.Node EdgeKind} (hg : readNet draws mem f.defaults f.topology f.boundary = Res.ok g) (hc : Consistent g)
    (hatt : ∀ v : Fin g.nodes.length, ConstraintSink f.topology g.nodes[v].id →
      ∃ k, ((toNet hc).edge k).isGas ∧ ((toNet hc).src k = v ∨ (toNet hc).dst k = v))
    {x : List ℝ} {states : List (Option Vec)} (hx : P.simulation x = Res.ok states) (hsome : none ∉ states)
    (hsol : Solvable (toNet hc) P.times P.controlTimes x states) {oob : Option ℝ} (hread : ReadsHarmless P oob) :
    ∃ gradient jacobian, P.derivatives oob x = Res.ok (some (gradient, jacobian)) := by
  obtain ⟨g', hc', hg', initial, w, pairs, p⟩ := parts_of ho hs hd sb db hf hlt hdes hmax hcov hdraw h
  rw [hg] at hg'
  injection hg' with hg'
  subst hg'
  change Parts s every f lu fuel hc initial w pairs P at p
  have hadm := p.admissible
  have hG : (goals hc f.topology).Attached := fun v hv =>
    ⟨p.flow v hv, (ends_ne_nil hadm).mpr (hatt v (isConstraintSink_iff.mp hv))⟩
  obtain ⟨hxl, z, rfl, hzl, hder⟩ := p.simulated x states hx
  obtain ⟨hcn, hfirst, hlast⟩ := p.first
  have hin := p.good.bounds
  have hsome' : none ∉ z := fun hm => hsome (List.mem_map.mpr ⟨none, hm, rfl⟩)
  have hmake := p.jacobian
  rw [p.constraints, p.controls] at hmake
  rw [hder]
  refine avail_net hadm (goals hc f.topology) hG p.good.1 (by have := p.good.2.2.2.1; omega) p.increasing hcn
    (fun t ht => hfirst.trans_le (hin t ht).1) hlast p.pairing p.weights hmake p.checked (hxl.trans (congrArg (· * _) p.controls)) hzl
    hsome' hsol fun hpos => ?_
  rcases hread with hr | hr | ⟨v, hv, hr⟩
  · rw [p.constraints] at hr
    omega
  · exact .inl ⟨p.selected.1, hr⟩
  · exact .inr ⟨v, hv, fun hm => hr (List.mem_of_mem_tail hm)⟩

end Verif.Read
