import Verif.Read.Nlp

/-!
# Lemmas for C104
-/

set_option autoImplicit false

namespace Verif.Read

open Verif.Json Verif.Factory Verif.Interp Verif.Schema Verif.Initial Verif.Times Verif.OptTimes Verif.IndexLambda Verif.Weights
  Network Net

/-! ## Bounds -/

/-- A list with `width` values for each time has at position `index` the values of the last entry with the id, listed or interpolated. -/
def FixedBy (json : Json) (id : String) (times : List ℝ) (width index : ℕ) (values : List ℝ) : Prop :=
  ∃ e, LastEntry json id e ∧ ∀ l, Lists e l → (l.map Prod.fst).Pairwise (· < ·) →
    ∀ i (hi : i < times.length) b, ValueAt 1 l times[i] b → values[i * width + index]? = some b.1

theorem boundsOf_ok {cs : List (ControlComponent ℝ)} {mem : ℕ → ℝ} (hids : (cs.map ControlComponent.id).Nodup)
    (hdis : DisjointControls (fun _ => 1) cs) {n : ℕ}
    (hcs : ∀ c ∈ cs, c.read = Gas.readVector (accepts (boundaryOf 1)) mem ∧ c.start < n) {grid : List ℝ}
    (hs : grid.Pairwise (· < ·)) {json : Json} {u : IV ℝ} (h : boundsOf cs mem grid n json = Res.ok u) :
    u.points = grid ∧ u.inner = n ∧ u.values.length = n * grid.length ∧
      ∀ c ∈ cs, FixedBy json c.id grid n c.start u.values := by
  unfold boundsOf at h
  have hwf0 : (⟨grid, n, uninit mem (n * grid.length)⟩ : IV ℝ).WF := by
    simp [IV.WF, uninit, mul_comm]
  obtain ⟨hp, hin, hall⟩ := C64_network_controls hids hdis (by
    intro c hcm e v hr
    rw [(hcs c hcm).1] at hr
    exact (readVector_inner hr).le) hwf0 h
  simp only at hp hin
  have hwf : u.WF := by
    unfold setInitialControls at h
    obtain ⟨_, -, h⟩ := Res.bind_eq_ok.mp h
    exact fold_control_wf hwf0 h
  refine ⟨hp, hin, ?_, ?_⟩
  · have := hwf
    unfold IV.WF at this
    rw [this, hp, hin, mul_comm]
  · intro c hc
    obtain ⟨hr, hst⟩ := hcs c hc
    obtain ⟨before, e, after, v, f1, f2, f3, hread, hold⟩ := hall c hc
    rw [hr] at hread
    refine ⟨e, ⟨before, after, f1, f2, f3⟩, fun l hl hsort i hi b hb => ?_⟩
    obtain ⟨hne, hlen, hcon⟩ := readVector_ok hread hl
    have hinner : v.inner = 1 := readVector_inner hread
    subst hp
    obtain ⟨x, step, g1, g2, g3, g4⟩ := hold i u.points[i] (by simp)
    obtain ⟨-, w', g5, g6, g7⟩ := C01_eval_at_node u hwf hs i hi
    rw [g5] at g3
    injection g3 with g3
    subst g3
    obtain ⟨r, r1, r2, r3, -⟩ := eval_valueAt hne hlen hsort hcon hb
    rw [r1] at g1
    injection g1 with g1
    subst g1
    have hidx := g7 c.start (by rw [hin]; exact hst)
    rw [hin] at hidx
    rw [← hidx]
    have := g4 0 (by omega)
    simp only [add_zero] at this
    rw [this, r3 (by decide)]

/-! ## Indices -/

theorem sum_card {n : ℕ} (p : Fin n → Prop) [DecidablePred p] :
    (List.ofFn fun i => if p i then 1 else 0).sum = (Finset.univ.filter p).card := by
  rw [List.sum_ofFn, Finset.card_filter]

theorem controlCount_card (N : Net) : N.controlCount = (Finset.univ.filter fun k : Fin N.edges => (N.edge k).isControl = true).card := by
  unfold Net.controlCount Net.controls
  rw [setIndices_free]
  have : N.controlNeeds = List.ofFn fun k : Fin N.edges => if (N.edge k).isControl = true then 1 else 0 := rfl
  rw [this, sum_card]
  omega

theorem constraintCount_card {N : Net} (G : Goals N) :
    G.count = (Finset.univ.filter fun v : Fin N.nodes => G.constrained v = true).card := by
  unfold Goals.count Net.constraints
  rw [setIndices_free]
  have : Net.constraintNeeds G = List.ofFn fun v : Fin N.nodes => if G.constrained v = true then 1 else 0 := rfl
  rw [this, sum_card]
  omega

theorem control_unique {N : Net} {k l : Fin N.edges} (hk : (N.edge k).isControl) (hl : (N.edge l).isControl)
    (h : (N.controlRange k).1 = (N.controlRange l).1) : k = l := by
  obtain ⟨p1, p2⟩ := C40_partition 0 N.controlNeeds
  have hlt : ∀ k : Fin N.edges, k.val < (setIndices 0 N.controlNeeds).1.length := by
    intro k; rw [setIndices_length]; simp [Net.controlNeeds]
  have key : ∀ {k : Fin N.edges}, (N.edge k).isControl → (N.controlRange k).2 = (N.controlRange k).1 + 1 := by
    intro k hk
    have := (C40_contiguous 0 N.controlNeeds).2.1 k.val (by simp [Net.controlNeeds]) (hlt k)
    have hneed : N.controlNeeds[k.val]'(by simp [Net.controlNeeds]) = 1 := by
      simp only [Net.controlNeeds, edgeControls, List.getElem_ofFn]
      exact if_pos hk
    rw [hneed] at this
    exact this
  obtain ⟨b1, b2⟩ := p2 ⟨k.val, hlt k⟩ (N.controlRange k).1 le_rfl (by
    show (N.controlRange k).1 < (N.controlRange k).2
    rw [key hk]; omega)
  have := (p1 _ b1 b2).unique (y₁ := ⟨k.val, hlt k⟩) (y₂ := ⟨l.val, hlt l⟩) ⟨le_rfl, by
      show (N.controlRange k).1 < (N.controlRange k).2
      rw [key hk]; omega⟩ ⟨by rw [h]; exact le_rfl, by
      show (N.controlRange k).1 < (N.controlRange l).2
      rw [key hl]; omega⟩
  exact Fin.ext (by simpa using congrArg Fin.val this)

/-! ## Evaluations -/

/-- Controls at a time are affine between the values of the variables at neighbouring control times. -/
def Controlled (N : Net) (cgrid x : List ℝ) (t : ℝ) (c : Vec) : Prop :=
  ∀ k, (N.edge k).isControl → ∀ i (hi : i + 1 < cgrid.length), cgrid[i] ≤ t → t ≤ cgrid[i + 1] →
    ∃ a b, x[i * N.controlCount + (N.controlRange k).1.toNat]? = some a ∧
      x[(i + 1) * N.controlCount + (N.controlRange k).1.toNat]? = some b ∧
      c (N.controlRange k).1 = a + (t - cgrid[i]) / (cgrid[i + 1] - cgrid[i]) * (b - a)

section Evaluations
variable {N : Net} {times cgrid x : List ℝ}

theorem controls_interpolate (hx : x.length = N.controlCount * cgrid.length) (hs : cgrid.Pairwise (· < ·)) {t : ℝ}
    {c : Fin N.controlCount → ℝ} (h : controlsAt cgrid x t = Res.ok c) : Controlled N cgrid x t (ext c) := by
  intro k hk i hi h1 h2
  unfold controlsAt at h
  obtain ⟨w, hw, h⟩ := Res.bind_eq_ok.mp h
  injection h with h
  subst h
  have hwf : (⟨cgrid, N.controlCount, x⟩ : IV ℝ).WF := by
    show x.length = _
    rw [hx, mul_comm]
  obtain ⟨k0, k1⟩ := Admissible.control_bounds (N := N) hk
  obtain ⟨r, r1, r2, r3⟩ := C02_eval_affine ⟨cgrid, N.controlCount, x⟩ hwf hs i hi t h1 h2
  rw [hw] at r1
  injection r1 with r1
  subst r1
  obtain ⟨a, b, c, s1, s2, s3, s4, -⟩ := r3 (N.controlRange k).1.toNat (by
    show _ < N.controlCount
    unfold Net.controlCount; omega)
  refine ⟨a, b, s1, s2, ?_⟩
  rw [ext_entriesOf r2 s3 (by omega), s4]
  simp only
  ring

theorem controls_ok (hx : x.length = N.controlCount * cgrid.length) (hs : cgrid.Pairwise (· < ·)) (hn : 0 < cgrid.length) {t : ℝ}
    (h1 : cgrid[0] ≤ t) (h2 : t < cgrid[cgrid.length - 1] + EPSILON) :
    ∃ c : Fin N.controlCount → ℝ, controlsAt cgrid x t = Res.ok c := by
  have hwf : (⟨cgrid, N.controlCount, x⟩ : IV ℝ).WF := by
    show x.length = _
    rw [hx, mul_comm]
  obtain ⟨_, _, -, -, -, -, -, r, hr, -⟩ := C08_agrees_with_interpolation ⟨cgrid, N.controlCount, x⟩ hwf hs hn t
    (by show cgrid[0] - EPSILON ≤ t; linarith [EPSILON_pos (K := ℝ)]) h2
  exact ⟨entriesOf r, Res.bind_eq_ok.mpr ⟨r, hr, rfl⟩⟩

theorem fold_eq {α : Type} {l : List α} {body : ℝ → α → Res ℝ} {f : ℝ → α → ℝ} (h : ∀ a ∈ l, ∀ acc, body acc a = Res.ok (f acc a))
    (s : ℝ) : Res.fold l s body = Res.ok (l.foldl f s) := by
  induction l generalizing s with
  | nil => rfl
  | cons a l ih =>
    unfold Res.fold
    rw [h a (by simp), Res.ok_bind, ih (fun b hb => h b (by simp [hb])), List.foldl_cons]

theorem weighted_eq {value : Vec → Vec → ℝ} {w : List ℝ} {states : List (Option (Fin N.stateCount → ℝ))}
    (hw : w.length = times.length) (hst : states.length = times.length) {c : ℕ → Fin N.controlCount → ℝ}
    (hc : ∀ i, 1 ≤ i → ∀ hi : i < times.length, controlsAt cgrid x times[i] = Res.ok (c i)) :
    weighted times cgrid x value w states =
      Res.ok (accumulate (fun i => w.getD i 0) (fun i => value (ext ((states.getD i none).getD 0)) (ext (c i))) times.length) := by
  unfold weighted accumulate
  rw [hst]
  refine fold_eq (fun i hi acc => ?_) 0
  obtain ⟨h1, h2⟩ := List.mem_range'_1.mp hi
  have hi' : i < times.length := by omega
  rw [Res.get_eq_ok.mpr (List.getElem?_eq_getElem hi'), Res.ok_bind, hc i h1 hi', Res.ok_bind,
    Res.get_eq_ok.mpr (List.getElem?_eq_getElem (show i < states.length by omega)), Res.ok_bind,
    Res.get_eq_ok.mpr (List.getElem?_eq_getElem (show i < w.length by omega)), Res.ok_bind]
  simp [List.getD_eq_getElem?_getD, show i < states.length by omega, show i < w.length by omega]

theorem penalty_zero (G : Goals N) (a b : Vec) : Net.penalty G a b = 0 := by
  unfold Net.penalty
  rw [foldl_add_sum]
  simp

/-- The objective: the trapezoidal rule for the sum of the squares of the controls of the compressors, without the first time. -/
theorem objective_eq {G : Goals N} (hG : (∀ k, G.weight k = 1) ∧ G.netWeight = 1) (h2 : 2 ≤ times.length) {w : List ℝ}
    (hw : weights times = Res.ok w) {states : List (Option (Fin N.stateCount → ℝ))} (hst : states.length = times.length)
    {c : ℕ → Fin N.controlCount → ℝ}
    (hc : ∀ i, 1 ≤ i → ∀ hi : i < times.length, controlsAt cgrid x times[i] = Res.ok (c i)) :
    objectiveOf G times cgrid x w states = Res.ok (trapezoid times.length (fun i => times.getD i 0) fun i =>
      if i = 0 then 0 else ∑ k : Fin N.edges, if (N.edge k).isCompressor then ext (c i) (N.controlRange k).1 ^ 2 else 0) := by
  have hlen : w.length = times.length := by
    obtain ⟨w', h1, h3, -⟩ := weights_eq times h2
    rw [hw] at h1
    injection h1 with h1
    rw [h1]
    exact h3
  unfold objectiveOf
  rw [weighted_eq hlen hst hc, Res.ok_bind, weighted_eq hlen hst hc, Res.ok_bind]
  congr 1
  have e2 : accumulate (fun i => w.getD i 0) (fun i => Net.penalty G (ext ((states.getD i none).getD 0)) (ext (c i))) times.length = 0 := by
    unfold accumulate
    simp only [penalty_zero, mul_zero, add_zero]
    generalize List.range' 1 (times.length - 1) = l
    induction l with
    | nil => rfl
    | cons a l ih => simp
  rw [e2, add_zero]
  obtain ⟨w', h1, h3⟩ := C12_objective times h2 fun i =>
    if i = 0 then 0 else ∑ k : Fin N.edges, if (N.edge k).isCompressor then ext (c i) (N.controlRange k).1 ^ 2 else 0
  rw [hw] at h1
  injection h1 with h1
  subst h1
  rw [if_pos rfl, mul_zero, sub_zero] at h3
  rw [← h3]
  unfold accumulate
  have : ∀ (l : List ℕ), (∀ i ∈ l, 1 ≤ i) → ∀ s : ℝ, l.foldl (fun acc i => acc + w.getD i 0 *
      Net.cost G (ext ((states.getD i none).getD 0)) (ext (c i))) s = l.foldl (fun acc i => acc + w.getD i 0 *
      (if i = 0 then 0 else ∑ k : Fin N.edges, if (N.edge k).isCompressor then ext (c i) (N.controlRange k).1 ^ 2 else 0)) s := by
    intro l
    induction l with
    | nil => intro _ s; rfl
    | cons i l ih =>
      intro hl s
      rw [List.foldl_cons, List.foldl_cons, ih fun j hj => hl j (by simp [hj])]
      have hi := hl i (by simp)
      congr 2
      rw [if_neg (by omega)]
      have := C44_cost N G hG.2 ((states.getD i none).getD 0, c i)
      unfold Goals.objective at this
      rw [penalty_zero, add_zero] at this
      rw [this]
      simp [hG.1]
  exact this _ (fun i hi => (List.mem_range'_1.mp hi).1) 0

end Evaluations

/-! ## Constraints -/

section Constraints
variable {N : Net} (hN : Admissible N) (G : Goals N)
include hN

/-- The value of a constraint is an entry of the state. -/
theorem constraint_value (hG : G.Attached) (z : N.Now) :
    ∃ values, G.constraintVector z = Res.ok values ∧ ∀ v, G.constrained v = true → ∀ i : Fin G.count,
      (i.val : ℤ) = (Net.constraintRange G v).1 → values i = ext z.1 (constrainedIndex v) := by
  obtain ⟨h1, -, -⟩ := constraint_ok hN G hG (ext z.1) (ext z.2)
  refine ⟨_, by unfold Goals.constraintVector; rw [h1, Res.ok_bind], ?_⟩
  intro v hv i hi
  simp only [hi]
  rw [run_flatMap_single (x := v) (by simp [Net.constraintNodes, hv]) (w := fun _ => 0)]
  · simp only [run_cons, run_nil, Op.apply, Function.update_self]
  · intro w hw hne o ho
    simp only [List.mem_singleton] at ho
    subst ho
    intro he
    exact hne (constraint_unique G (List.mem_filter.mp hw).2 hv he)
  · intro u w
    simp only [run_cons, run_nil, Op.apply, Function.update_self]

/-- This entry is the pressure at the end of an edge, unless the edge is a pipe. -/
theorem constrained_pressure {v : Fin N.nodes} (hne : N.ends v ≠ []) (state : Vec) :
    ∃ k, (N.edge k).isGas ∧ (N.src k = v ∧ ((∀ dx d r n, N.edge k ≠ .gas (.pipe dx d r) n) →
        state (constrainedIndex v) = N.startPressure k state) ∨
      N.dst k = v ∧ ((∀ dx d r n, N.edge k ≠ .gas (.pipe dx d r) n) →
        state (constrainedIndex v) = N.endPressure k state)) := by
  obtain ⟨x, rest, hx⟩ := List.exists_cons_of_ne_nil hne
  have hc : constrainedIndex v = Gas.stateIndex x := by simp [constrainedIndex, hx]
  obtain ⟨k, e, he, hcase⟩ := hN.mem_ends.mp (show x ∈ N.ends v by rw [hx]; simp)
  obtain ⟨kind, n, hkk, rfl⟩ := Admissible.gasEdge_eq.mp he
  refine ⟨k, by rw [hkk]; rfl, ?_⟩
  rw [hc]
  rcases hcase with ⟨hs, rfl⟩ | ⟨hs, rfl⟩
  · refine .inl ⟨hs, fun hnp => ?_⟩
    unfold Net.startPressure Net.pressureOf
    rw [hkk]
    cases kind with
    | pipe dx d r => exact absurd hkk (hnp dx d r n)
    | _ => rfl
  · refine .inr ⟨hs, fun hnp => ?_⟩
    unfold Net.endPressure Net.pressureOf
    rw [hkk]
    cases kind with
    | pipe dx d r => exact absurd hkk (hnp dx d r n)
    | _ => rfl

/-- The nodes with ends are those with gas edges. -/
theorem ends_ne_nil {v : Fin N.nodes} : N.ends v ≠ [] ↔ ∃ k, (N.edge k).isGas ∧ (N.src k = v ∨ N.dst k = v) := by
  constructor
  · intro h
    obtain ⟨x, hx⟩ := List.exists_mem_of_ne_nil _ h
    obtain ⟨k, e, he, h⟩ := hN.mem_ends.mp hx
    obtain ⟨kind, n, hk, -⟩ := Admissible.gasEdge_eq.mp he
    exact ⟨k, by rw [hk]; rfl, h.imp And.left And.left⟩
  · rintro ⟨k, hk, h⟩
    obtain ⟨kind, n, hk⟩ := isGas_iff.mp hk
    have hg := Admissible.gasEdge_eq.mpr ⟨kind, n, hk, rfl⟩
    rcases h with h | h
    · exact List.ne_nil_of_mem (hN.mem_ends.mpr ⟨k, _, hg, .inl ⟨h, rfl⟩⟩)
    · exact List.ne_nil_of_mem (hN.mem_ends.mpr ⟨k, _, hg, .inr ⟨h, rfl⟩⟩)

end Constraints

end Verif.Read
