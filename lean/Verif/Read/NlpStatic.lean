import Verif.Read.NlpJac
import Verif.Read.NlpConvex
import Verif.Network.StaticControl

/-!
# Property C181 for the problem Ipopt gets: in a network of short edges the constraints are affine functions of the variables
-/

set_option autoImplicit false

namespace Verif.Read

open Verif.Json Verif.Factory Verif.Interp Verif.Schema Verif.Initial Verif.Times Verif.Newton Verif.Evolve Verif.OptTimes
  Verif.IndexLambda Verif.Weights Verif.Jacobian Verif.Adjoint Network Net Matrix

/-! ## Specification -/

/-- A mean of two vectors of variables. -/
def mean (θ : ℝ) (x y : List ℝ) : List ℝ := List.zipWith (fun u v => θ * u + (1 - θ) * v) x y

/-- The point satisfies all bounds of the problem. -/
structure Feasible (P : Nlp) (x : List ℝ) : Prop where
  length : x.length = P.controls * P.controlTimes.length
  bounds : ∀ (k : ℕ) (u lo up : ℝ), x[k]? = some u → P.lower[k]? = some lo → P.upper[k]? = some up → lo ≤ u ∧ u ≤ up
  constraints : ∃ values, P.constraintValues x = Res.ok values ∧ ∀ (k : ℕ) (lo up : ℝ), P.constraintLower[k]? = some lo → P.constraintUpper[k]? = some up →
    ∃ value, values[k]? = some (some value) ∧ lo ≤ value ∧ value ≤ up

/-- No feasible point nearby has a smaller objective. -/
def LocalOptimum (P : Nlp) (x : List ℝ) : Prop :=
  Feasible P x ∧ ∃ ε > 0, ∀ y, Feasible P y → (∀ k : ℕ, |y.getD k 0 - x.getD k 0| < ε) → ∀ a b, P.objective x = Res.ok a → P.objective y = Res.ok b → a ≤ b

/-- No feasible point has a smaller objective. -/
def GlobalOptimum (P : Nlp) (x : List ℝ) : Prop :=
  Feasible P x ∧ ∃ a, P.objective x = Res.ok a ∧ ∀ y, Feasible P y → ∃ b, P.objective y = Res.ok b ∧ a ≤ b

/-! ## Lemmas -/

/-- The controls for a mean of variables are the mean of the controls. -/
theorem controls_mean {N : Net} {cgrid : List ℝ} (hs : cgrid.Pairwise (· < ·)) (hn : 0 < cgrid.length) {t : ℝ} (h1 : cgrid[0] ≤ t)
    (h2 : t < cgrid[cgrid.length - 1] + EPSILON) {p : ℕ × ℝ} (hp : computeIndexLambda cgrid t = Res.ok p) {x y : List ℝ}
    (hx : x.length = N.controlCount * cgrid.length) (hy : y.length = N.controlCount * cgrid.length) {θ : ℝ} {a b c : Fin N.controlCount → ℝ}
    (ha : controlsAt cgrid x t = Res.ok a) (hb : controlsAt cgrid y t = Res.ok b) (hc : controlsAt cgrid (mean θ x y) t = Res.ok c) :
    c = θ • a + (1 - θ) • b := by
  have key : ∀ (z : List ℝ) (d : Fin N.controlCount → ℝ), z.length = N.controlCount * cgrid.length → controlsAt cgrid z t = Res.ok d →
      d = Adjoint.controlAt p (extend (blocks fun i : Fin (N.controlCount * cgrid.length) => z.getD i 0)) := by
    intro z d hz hd
    have := controlsAt_pair (N := N) hs hn h1 h2 hp (fun i => z.getD i 0)
    rw [ofFn_getD hz, hd] at this
    injection this
  have hl : (mean θ x y).length = N.controlCount * cgrid.length := by simp [mean, hx, hy]
  rw [key x a hx ha, key y b hy hb, key _ c hl hc]
  have hget : ∀ i : Fin (N.controlCount * cgrid.length), (mean θ x y).getD i 0 = θ * x.getD i 0 + (1 - θ) * y.getD i 0 := by
    intro i
    have h3 : i.val < x.length := by rw [hx]; exact i.isLt
    have h4 : i.val < y.length := by rw [hy]; exact i.isLt
    simp [mean, List.getD_eq_getElem?_getD, h3, h4]
  have hext : ∀ j k, extend (blocks fun i : Fin (N.controlCount * cgrid.length) => (mean θ x y).getD i 0) j k =
      θ * extend (blocks fun i : Fin (N.controlCount * cgrid.length) => x.getD i 0) j k +
        (1 - θ) * extend (blocks fun i : Fin (N.controlCount * cgrid.length) => y.getD i 0) j k := by
    intro j k
    unfold extend
    split
    · exact hget _
    · simp
  funext k
  simp only [Adjoint.controlAt, Pi.add_apply, Pi.smul_apply, smul_eq_mul, hext]
  ring

/-! ## The property -/

/-- **C181** for the problem Ipopt gets. If the files describe a network of short edges without circles, each joined to a pressure node, then the constraints are affine functions of the
variables, wherever the simulations yield numbers: the constraints for a mean of variables are the means of the constraints, up to a multiple of the tolerance of the solver, which
is the same for all settings, bounds and variables. -/
theorem C181_constraints {draws : Json → Res (ℝ → Res (ℝ × ℝ))} {mem : ℕ → ℝ} {f : Files}
    (ho : f.topology.isObj = true) (hs : Shaped f.topology) (hd : DistinctTypes f.topology) (sb : Shaped f.boundary) (db : DistinctTypes f.boundary)
    (hf : Fit f.defaults f.topology) {g : Graph Network.Node EdgeKind} (hg : readNet draws mem f.defaults f.topology f.boundary = Res.ok g) (hc : Consistent g)
    (hatt : ∀ v : Fin g.nodes.length, ConstraintSink f.topology g.nodes[v].id → ∃ k, ((toNet hc).edge k).isGas ∧ ((toNet hc).src k = v ∨ (toNet hc).dst k = v))
    (hso : ShortOnly (toNet hc)) (hcirc : NoShortCircles (toNet hc)) (hway : ∀ k, Supplied (toNet hc) ((toNet hc).src k)) :
    ∃ C : ℝ, 0 ≤ C ∧ ∀ (lu : Solve) (fuel : ℕ) (s : Settings) (every : ℤ) (b : Bounds) (P : Nlp), s.start < s.stop → 0 < s.desired → 1 ≤ s.iterations →
      (∀ t, s.start ≤ t → t ≤ s.stop → Covers f.defaults f.topology f.boundary t) →
      (∀ data d, draws data = Res.ok d → ∀ t, s.start ≤ t → t ≤ s.stop → ∃ b, d t = Res.ok b) → optimization draws mem lu fuel s every f b = Res.ok P →
      ∃ pos : Fin g.nodes.length → ℕ, (∀ v, ConstraintSink f.topology g.nodes[v].id → pos v < P.constraints) ∧
        (∀ v w, ConstraintSink f.topology g.nodes[v].id → ConstraintSink f.topology g.nodes[w].id → pos v = pos w → v = w) ∧
        ∀ x y θ, 0 ≤ θ → θ ≤ 1 → ∀ sx sy sz, P.simulation x = Res.ok sx → P.simulation y = Res.ok sy → P.simulation (mean θ x y) = Res.ok sz →
          none ∉ sx → none ∉ sy → none ∉ sz →
          ∃ a b c, P.constraintValues x = Res.ok a ∧ P.constraintValues y = Res.ok b ∧ P.constraintValues (mean θ x y) = Res.ok c ∧
            ∀ v, ConstraintSink f.topology g.nodes[v].id → ∀ i < P.constraintTimes.length, ∃ α β γ, a[i * P.constraints + pos v]? = some (some α) ∧
              b[i * P.constraints + pos v]? = some (some β) ∧ c[i * P.constraints + pos v]? = some (some γ) ∧
              |γ - (θ * α + (1 - θ) * β)| ≤ C * s.tolerance := by
  obtain ⟨hc', hadm, hcomp⟩ := C100_partial ho hs hd sb db hg hf
  obtain ⟨C, hC, hmain⟩ := C181 (toNet hc) hadm hso hcirc hway
  refine ⟨C, hC, fun lu fuel s every b P hlt hdes hmax hcov hdraw h => ?_⟩
  obtain ⟨g', hc'', hg', initial, w, pairs, p⟩ := parts_of ho hs hd sb db hf hlt hdes hmax hcov hdraw h
  rw [hg] at hg'
  injection hg' with hg'
  subst hg'
  change Parts s every f lu fuel hc initial w pairs P at p
  have sink : ∀ v : Fin g.nodes.length, ConstraintSink f.topology g.nodes[v].id → (goals hc f.topology).constrained v = true :=
    fun v hv => isConstraintSink_iff.mpr hv
  have hG : (goals hc f.topology).Attached := fun v hv =>
    ⟨p.flow v hv, (ends_ne_nil hadm).mpr (hatt v (isConstraintSink_iff.mp hv))⟩
  obtain ⟨hcn, hfirst, hlast⟩ := p.first
  have hin := p.good.bounds
  have hcompt : ∀ t ∈ P.times, Computable (toNet hc) t := fun t ht =>
    (hcomp t (hcov t (hin t ht).1 (hin t ht).2) fun data d hdd => hdraw data d hdd t (hin t ht).1 (hin t ht).2).1
  refine ⟨fun v => (constraintRange (goals hc f.topology) v).1.toNat, fun v hv => ?_, fun v w hv hw he => ?_, ?_⟩
  · have hb := (constraint_bounds (goals hc f.topology) (sink v hv)).1
    rw [p.constraints]
    show (constraintRange (goals hc f.topology) v).1.toNat < (constraints (goals hc f.topology)).toNat
    omega
  · have := (constraint_bounds (goals hc f.topology) (sink v hv)).1
    have := (constraint_bounds (goals hc f.topology) (sink w hw)).1
    have he' : (constraintRange (goals hc f.topology) v).1.toNat = (constraintRange (goals hc f.topology) w).1.toNat := he
    exact constraint_unique (goals hc f.topology) (sink v hv) (sink w hw) (by omega)
  intro x y θ h0 h1 sx sy sz hx hy hz nx ny nz
  -- one simulation
  have one : ∀ x sx, P.simulation x = Res.ok sx → none ∉ sx → x.length = (toNet hc).controlCount * P.controlTimes.length ∧
      ∃ Z : ℕ → Fin (toNet hc).stateCount → ℝ, ∃ a, P.constraintValues x = Res.ok a ∧
        (∀ v, ConstraintSink f.topology g.nodes[v].id → ∀ i j : ℕ, i < P.constraintTimes.length → P.constraintTimes[i]? = P.times[j]? → j < P.times.length →
          a[i * P.constraints + (constraintRange (goals hc f.topology) v).1.toNat]? = some (some (ext (Z j) (constrainedIndex (N := toNet hc) v)))) ∧
        ∀ i (hi : i + 1 < P.times.length), ∃ c, controlsAt P.controlTimes x P.times[i + 1] = Res.ok c ∧
          ∃ r, (toNet hc).residual P.times[i] P.times[i + 1] (Z i, Z (i + 1), c) = Res.ok r ∧ Real.sqrt (∑ i, r i ^ 2) ≤ s.tolerance := by
    intro x sx hx nx
    obtain ⟨hxl, -⟩ := p.simulated x sx hx
    have hxl' := hxl.trans (congrArg (· * _) p.controls)
    refine ⟨hxl', ?_⟩
    obtain ⟨z, hz, e1, e2, -⟩ := p.evaluations x hxl
    rw [hx] at e1
    obtain ⟨z', hz', e3⟩ := Res.bind_eq_ok.mp e1.symm
    injection e3 with e3
    subst hz'
    obtain ⟨hzl, -⟩ := p.simulation x z' hxl hz.symm
    have hsome : ∀ j, ∃ Z, j < P.times.length → z'[j]? = some (some Z) := by
      intro j
      by_cases hj : j < P.times.length
      · cases hzj : z'[j]'(by omega) with
        | none =>
          exfalso
          refine nx ?_
          rw [← e3]
          refine List.mem_map.mpr ⟨none, ?_, rfl⟩
          rw [← hzj]
          exact List.getElem_mem _
        | some Z => exact ⟨Z, fun _ => by rw [List.getElem?_eq_getElem (by omega), hzj]⟩
      · exact ⟨0, fun h => absurd h hj⟩
    choose Z hZ using hsome
    obtain ⟨values, q1, -, q3⟩ := constraints_eq hadm (goals hc f.topology) hG (x := x) p.good.1
      (fun t ht => List.mem_of_mem_tail (p.selected.2.2.1 t ht)) hzl fun t ht =>
      controls_ok hxl' p.increasing hcn (by rw [hfirst]; exact (hin t ht).1) (hlast t ht)
    refine ⟨Z, values, ?_, fun v hv i j hi hij hj => ?_, fun i hi => ?_⟩
    · rw [e2]
      exact q1
    · rw [p.constraints]
      exact q3 v (sink v hv) i j hi hij (Z j) (hZ j hj)
    · obtain ⟨-, -, h3⟩ := C85_simulation (toNet hc) hadm (lu (toNet hc)) s.tolerance s.iterations hmax fuel s.retries s.simplified
        (controlsAt P.controlTimes x) P.times hcompt (entriesOf initial) z' _ (Prod.ext hz.symm rfl)
      have f1 := hZ i (by omega)
      have f2 := hZ (i + 1) hi
      rw [List.getElem?_eq_getElem (by omega)] at f1 f2
      obtain ⟨c, hcc, hr, -⟩ := h3 i hi (by omega) (Z i) (Z (i + 1)) (Option.some.inj f1) (Option.some.inj f2)
        (fun k dx d r n he => absurd he hso.noPipe)
      exact ⟨c, hcc, hr⟩
  obtain ⟨lx, X, a, a1, a2, a3⟩ := one x sx hx nx
  obtain ⟨ly, Y, b', b1, b2, b3⟩ := one y sy hy ny
  obtain ⟨-, Z, c, c1, c2, c3⟩ := one _ sz hz nz
  refine ⟨a, b', c, a1, b1, c1, fun v hv i hi => ?_⟩
  -- the constraint time is a time of the states after the first
  have hmem := p.selected.2.2.1 _ (List.getElem_mem hi)
  obtain ⟨j, hj, ej⟩ := List.getElem_of_mem hmem
  have hj' : j + 1 < P.times.length := by simp at hj; omega
  have ej' : P.constraintTimes[i]? = P.times[j + 1]? := by
    rw [List.getElem?_eq_getElem hi, List.getElem?_eq_getElem hj', ← ej]
    simp
  refine ⟨_, _, _, a2 v hv i (j + 1) hi ej' hj', b2 v hv i (j + 1) hi ej' hj', c2 v hv i (j + 1) hi ej' hj', ?_⟩
  obtain ⟨cu, hu, rx, hrx, bx⟩ := a3 j hj'
  obtain ⟨cv, hv', ry, hry, bY⟩ := b3 j hj'
  obtain ⟨cw, hw', rz, hrz, bz⟩ := c3 j hj'
  have htm : P.times[j + 1] ∈ P.times := List.getElem_mem _
  obtain rfl := controls_mean p.increasing hcn (by rw [hfirst]; exact (hin _ htm).1) (hlast _ htm) (pairs_get p.pairing (j + 1) hj') lx ly hu hv' hw'
  have hall := hmain P.times[j] P.times[j + 1] (hcompt _ htm) _ _ _ _ _ _ cu cv θ s.tolerance h0 h1 rx ry rz hrx hry hrz bx bY bz
  have htol : 0 ≤ s.tolerance := (Real.sqrt_nonneg _).trans bx
  unfold Network.ext
  split
  · exact hall _
  · simpa using mul_nonneg hC htol

/-- **C181**, evaluations. With a linear solver that solves all regular systems, every choice of variables can be evaluated: simulation, objective and constraints have values. -/
theorem C181_total {draws : Json → Res (ℝ → Res (ℝ × ℝ))} {mem : ℕ → ℝ} {lu : Solve} {fuel : ℕ} {s : Settings} {every : ℤ} {f : Files} {b : Bounds}
    (ho : f.topology.isObj = true) (hs : Shaped f.topology) (hd : DistinctTypes f.topology) (sb : Shaped f.boundary) (db : DistinctTypes f.boundary)
    (hf : Fit f.defaults f.topology) (hlt : s.start < s.stop) (hdes : 0 < s.desired) (hmax : 1 ≤ s.iterations)
    (hcov : ∀ t, s.start ≤ t → t ≤ s.stop → Covers f.defaults f.topology f.boundary t)
    (hdraw : ∀ data d, draws data = Res.ok d → ∀ t, s.start ≤ t → t ≤ s.stop → ∃ b, d t = Res.ok b)
    {g : Graph Network.Node EdgeKind} (hg : readNet draws mem f.defaults f.topology f.boundary = Res.ok g) (hc : Consistent g)
    (hatt : ∀ v : Fin g.nodes.length, ConstraintSink f.topology g.nodes[v].id → ∃ k, ((toNet hc).edge k).isGas ∧ ((toNet hc).src k = v ∨ (toNet hc).dst k = v))
    (hso : ShortOnly (toNet hc)) (hcirc : NoShortCircles (toNet hc)) (hway : ∀ k, Supplied (toNet hc) ((toNet hc).src k))
    (factor : Option (Res (List (Verif.Handler.Contribution ℝ))) → Option (Option (Fin (toNet hc).stateCount → ℝ) → Option (Fin (toNet hc).stateCount → ℝ)))
    (hfac : Solves factor) (hlu : lu (toNet hc) = (toNet hc).factorized factor) (htol : 0 ≤ s.tolerance)
    {P : Nlp} (h : optimization draws mem lu fuel s every f b = Res.ok P) (x : List ℝ) (hx : x.length = P.controls * P.controlTimes.length) :
    ∃ states a values, P.simulation x = Res.ok states ∧ none ∉ states ∧ P.objective x = Res.ok a ∧ P.constraintValues x = Res.ok values := by
  classical
  obtain ⟨hc', hadm, hcomp⟩ := C100_partial ho hs hd sb db hg hf
  obtain ⟨g', hc'', hg', -, pos, hposes⟩ := C104_problem ho hs hd sb db hf hlt hdes hmax hcov hdraw h
  rw [hg] at hg'
  injection hg' with hg'
  subst hg'
  obtain ⟨g', hc3, hg', initial, w, pairs, p⟩ := parts_of ho hs hd sb db hf hlt hdes hmax hcov hdraw h
  rw [hg] at hg'
  injection hg' with hg'
  subst hg'
  change Parts s every f lu fuel hc initial w pairs P at p
  obtain ⟨hcn, hfirst, hlast⟩ := p.first
  have hin := p.good.bounds
  have h2 := p.good.2.2.2.1
  have hxl' := hx.trans (congrArg (· * _) p.controls)
  have hmem : ∀ i, i < P.times.length → P.times.getD i 0 ∈ P.times := by
    intro i hi
    rw [List.getD_eq_getElem?_getD, List.getElem?_eq_getElem hi]
    exact List.getElem_mem _
  have hctl : ∀ i, ∃ U : Fin (toNet hc).controlCount → ℝ, i < P.times.length → controlsAt P.controlTimes x (P.times.getD i 0) = Res.ok U := by
    intro i
    by_cases hi : i < P.times.length
    · obtain ⟨U, hU⟩ := controls_ok hxl' p.increasing hcn (by rw [hfirst]; exact (hin _ (hmem i hi)).1) (hlast _ (hmem i hi))
      exact ⟨U, fun _ => hU⟩
    · exact ⟨0, fun h => absurd h hi⟩
  choose U hU using hctl
  obtain ⟨states, trace, hsim, -⟩ := C180_simulation (toNet hc) hadm hso hcirc hway factor hfac (fun i => P.times.getD i 0) (P.times.length - 1) (by omega)
    (fun i hi => (hcomp _ (hcov _ (hin _ (hmem (i + 1) (by omega))).1 (hin _ (hmem (i + 1) (by omega))).2) fun data d hdd =>
      hdraw data d hdd _ (hin _ (hmem (i + 1) (by omega))).1 (hin _ (hmem (i + 1) (by omega))).2).1)
    (entriesOf initial) (controlsAt P.controlTimes x) U (fun i hi => hU (i + 1) (by omega)) s.tolerance htol s.iterations hmax s.retries s.simplified fuel
  have htimes : (List.range (P.times.length - 1 + 1)).map (fun i => P.times.getD i 0) = P.times := by
    rw [Nat.sub_add_cancel (by omega)]
    refine List.ext_getElem (by simp) fun i h1 h2 => ?_
    simp [h2]
  rw [htimes] at hsim
  obtain ⟨z, hz, e1, -⟩ := p.evaluations x hx
  rw [hlu] at hz
  have hz' : z = Res.ok ((List.range (P.times.length - 1 + 1)).map fun i => some (states i)) := hz.trans (congrArg Prod.fst hsim)
  subst hz'
  have hsim' : P.simulation x = Res.ok (((List.range (P.times.length - 1 + 1)).map fun i => some (states i)).map (Option.map Network.ext)) := e1
  obtain ⟨a, ha⟩ := hposes.objective.1 x _ hsim'
  obtain ⟨values, hv, -⟩ := hposes.constraintValues.2 hatt x _ hsim'
  exact ⟨_, a, values, hsim', by simp, ha, hv⟩

/-- **C181**, optima. If the equations are solved exactly, the problem Ipopt gets is convex: means of feasible points are feasible, and each local optimum is a global one. -/
theorem C181_global {draws : Json → Res (ℝ → Res (ℝ × ℝ))} {mem : ℕ → ℝ} {lu : Solve} {fuel : ℕ} {s : Settings} {every : ℤ} {f : Files} {b : Bounds}
    (ho : f.topology.isObj = true) (hs : Shaped f.topology) (hd : DistinctTypes f.topology) (sb : Shaped f.boundary) (db : DistinctTypes f.boundary)
    (hf : Fit f.defaults f.topology) (hlt : s.start < s.stop) (hdes : 0 < s.desired) (hmax : 1 ≤ s.iterations)
    (hcov : ∀ t, s.start ≤ t → t ≤ s.stop → Covers f.defaults f.topology f.boundary t)
    (hdraw : ∀ data d, draws data = Res.ok d → ∀ t, s.start ≤ t → t ≤ s.stop → ∃ b, d t = Res.ok b)
    {g : Graph Network.Node EdgeKind} (hg : readNet draws mem f.defaults f.topology f.boundary = Res.ok g) (hc : Consistent g)
    (hatt : ∀ v : Fin g.nodes.length, ConstraintSink f.topology g.nodes[v].id → ∃ k, ((toNet hc).edge k).isGas ∧ ((toNet hc).src k = v ∨ (toNet hc).dst k = v))
    (hso : ShortOnly (toNet hc)) (hcirc : NoShortCircles (toNet hc)) (hway : ∀ k, Supplied (toNet hc) ((toNet hc).src k))
    (factor : Option (Res (List (Verif.Handler.Contribution ℝ))) → Option (Option (Fin (toNet hc).stateCount → ℝ) → Option (Fin (toNet hc).stateCount → ℝ)))
    (hfac : Solves factor) (hlu : lu (toNet hc) = (toNet hc).factorized factor) (htol : s.tolerance = 0)
    {P : Nlp} (h : optimization draws mem lu fuel s every f b = Res.ok P) :
    (∀ x y θ, Feasible P x → Feasible P y → 0 ≤ θ → θ ≤ 1 → Feasible P (mean θ x y)) ∧ ∀ x, LocalOptimum P x → GlobalOptimum P x := by
  classical
  have total := C181_total ho hs hd sb db hf hlt hdes hmax hcov hdraw hg hc hatt hso hcirc hway factor hfac hlu htol.ge h
  obtain ⟨C, -, hcon⟩ := C181_constraints ho hs hd sb db hf hg hc hatt hso hcirc hway
  obtain ⟨pos, p1, p2, hcon⟩ := hcon lu fuel s every b P hlt hdes hmax hcov hdraw h
  obtain ⟨g', hc'', hg', -, pos', hposes⟩ := C104_problem ho hs hd sb db hf hlt hdes hmax hcov hdraw h
  rw [hg] at hg'
  injection hg' with hg'
  subst hg'
  obtain ⟨g', hc3, hg', hconv⟩ := C153_convex ho hs hd sb db hf hlt hdes hmax hcov hdraw h
  obtain ⟨-, -, -, hkl, hku⟩ := hposes.lengths
  -- every constraint is one of a sink
  have surj : ∀ r < P.constraints, ∃ v : Fin g.nodes.length, ConstraintSink f.topology g.nodes[v].id ∧ pos v = r := by
    have himg : (Finset.univ.filter fun v : Fin g.nodes.length => ConstraintSink f.topology g.nodes[v].id).image pos = Finset.range P.constraints := by
      refine Finset.eq_of_subset_of_card_le (fun r hr => ?_) ?_
      · obtain ⟨v, hv, rfl⟩ := Finset.mem_image.mp hr
        exact Finset.mem_range.mpr (p1 v (Finset.mem_filter.mp hv).2)
      · rw [Finset.card_range, Finset.card_image_of_injOn fun v hv w hw he =>
          p2 v w (Finset.mem_filter.mp hv).2 (Finset.mem_filter.mp hw).2 he]
        exact hposes.constraints.le
    intro r hr
    obtain ⟨v, hv, e⟩ := Finset.mem_image.mp (himg.ge (Finset.mem_range.mpr hr))
    exact ⟨v, (Finset.mem_filter.mp hv).2, e⟩
  have hconvex : ∀ x y θ, Feasible P x → Feasible P y → 0 ≤ θ → θ ≤ 1 → Feasible P (mean θ x y) := by
    intro x y θ fx fy h0 h1
    have hl : (mean θ x y).length = P.controls * P.controlTimes.length := by simp [mean, fx.length, fy.length]
    refine ⟨hl, fun k u lo up hu hlo hup => ?_, ?_⟩
    · have hk : k < (mean θ x y).length := (List.getElem?_eq_some_iff.mp hu).1
      have kx : k < x.length := by rw [fx.length, ← hl]; exact hk
      have ky : k < y.length := by rw [fy.length, ← hl]; exact hk
      have b1 := fx.bounds k x[k] lo up (List.getElem?_eq_getElem kx) hlo hup
      have b2 := fy.bounds k y[k] lo up (List.getElem?_eq_getElem ky) hlo hup
      have e : u = θ * x[k] + (1 - θ) * y[k] := by
        rw [List.getElem?_eq_getElem hk] at hu
        rw [← Option.some.inj hu]
        simp [mean]
      rw [e]
      constructor <;> nlinarith [b1.1, b1.2, b2.1, b2.2]
    · obtain ⟨sx, -, -, x1, x2, -, -⟩ := total x fx.length
      obtain ⟨sy, -, -, y1, y2, -, -⟩ := total y fy.length
      obtain ⟨sz, -, -, z1, z2, -, -⟩ := total _ hl
      obtain ⟨va, vb, vc, e1, e2, e3, hall⟩ := hcon x y θ h0 h1 sx sy sz x1 y1 z1 x2 y2 z2
      refine ⟨vc, e3, fun k lo up hlo hup => ?_⟩
      have hk : k < P.constraints * P.constraintTimes.length := by
        rw [← hkl]; exact (List.getElem?_eq_some_iff.mp hlo).1
      have hpos : 0 < P.constraints := Nat.pos_of_ne_zero fun e => by rw [e, zero_mul] at hk; omega
      obtain ⟨v, hv, hr⟩ := surj (k % P.constraints) (Nat.mod_lt _ hpos)
      obtain ⟨α, β, γ, k1, k2, k3, hle⟩ := hall v hv (k / P.constraints) (by rw [Nat.div_lt_iff_lt_mul hpos, mul_comm]; exact hk)
      rw [hr, Nat.div_add_mod'] at k1 k2 k3
      obtain ⟨_, e1', w1⟩ := fx.constraints
      obtain ⟨_, e2', w2⟩ := fy.constraints
      rw [e1] at e1'
      rw [e2] at e2'
      injection e1' with e1'
      injection e2' with e2'
      subst e1' e2'
      obtain ⟨α', k1', a1, a2⟩ := w1 k lo up hlo hup
      obtain ⟨β', k2', b1, b2⟩ := w2 k lo up hlo hup
      rw [k1] at k1'
      rw [k2] at k2'
      obtain rfl : α = α' := by injection k1' with e; injection e
      obtain rfl : β = β' := by injection k2' with e; injection e
      rw [htol, mul_zero] at hle
      have hγ : γ = θ * α + (1 - θ) * β := by linarith [abs_nonpos_iff.mp hle]
      exact ⟨γ, k3, by rw [hγ]; nlinarith, by rw [hγ]; nlinarith⟩
  refine ⟨hconvex, fun x ⟨fx, ε, hε, hloc⟩ => ⟨fx, ?_⟩⟩
  obtain ⟨-, a, -, -, -, ha, -⟩ := total x fx.length
  refine ⟨a, ha, fun y fy => ?_⟩
  obtain ⟨-, b, -, -, -, hb, -⟩ := total y fy.length
  refine ⟨b, hb, ?_⟩
  -- a mean close to `x`
  let D : ℝ := ∑ k ∈ Finset.range x.length, |y.getD k 0 - x.getD k 0|
  have hD : 0 ≤ D := Finset.sum_nonneg fun _ _ => abs_nonneg _
  have hDk : ∀ k, |y.getD k 0 - x.getD k 0| ≤ D := by
    intro k
    by_cases hk : k < x.length
    · exact Finset.single_le_sum (f := fun k => |y.getD k 0 - x.getD k 0|) (fun _ _ => abs_nonneg _) (Finset.mem_range.mpr hk)
    · have hky : ¬ k < y.length := by rw [fy.length, ← fx.length]; exact hk
      simpa [List.getD_eq_getElem?_getD, not_lt.mp hk, not_lt.mp hky] using hD
  let τ : ℝ := ε / (ε + D)
  have hτ0 : 0 < τ := by positivity
  have hτ1 : τ ≤ 1 := by rw [div_le_one (by positivity)]; linarith
  have hτD : τ * D < ε := by
    show ε / (ε + D) * D < ε
    rw [div_mul_eq_mul_div, div_lt_iff₀ (by positivity)]
    nlinarith
  have fm := hconvex x y (1 - τ) fx fy (by linarith) (by linarith)
  obtain ⟨-, c, -, -, -, hcv, -⟩ := total _ fm.length
  have hac := hloc _ fm (fun k => by
    have hget : (mean (1 - τ) x y).getD k 0 - x.getD k 0 = τ * (y.getD k 0 - x.getD k 0) := by
      by_cases hk : k < x.length
      · have hky : k < y.length := by rw [fy.length, ← fx.length]; exact hk
        simp [mean, List.getD_eq_getElem?_getD, hk, hky]
        ring
      · have hky : ¬ k < y.length := by rw [fy.length, ← fx.length]; exact hk
        have hkm : ¬ k < (mean (1 - τ) x y).length := by rw [fm.length, ← fx.length]; exact hk
        simp [List.getD_eq_getElem?_getD, not_lt.mp hk, not_lt.mp hky, not_lt.mp hkm]
    rw [hget, abs_mul, abs_of_pos hτ0]
    exact (mul_le_mul_of_nonneg_left (hDk k) hτ0.le).trans_lt hτD) a c ha hcv
  have hle := (hconv x a fx.length ha).2.1 y b c (1 - τ) fy.length (by linarith) (by linarith) hb hcv
  have : τ * a ≤ τ * b := by linarith
  exact le_of_mul_le_mul_left this hτ0

end Verif.Read
