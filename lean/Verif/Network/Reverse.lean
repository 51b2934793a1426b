import Verif.Network.PipeExample

/-!
# Property C89: the direction of pipes and lines is a convention

If some pipes, short pipes and lines are entered in the other direction, the solutions are the same apart from the sign of the flows and
the order of the points in these pipes.
-/

set_option autoImplicit false

namespace Verif.Network

open Verif.Net Real

/-! ## Specification -/

/-- The edges that are the same from both ends: pipes, short pipes and transmission lines. -/
def EdgeKind.symmetric : EdgeKind → Bool
  | .gas (.pipe _ _ _) _ | .gas .shortpipe _ | .line _ _ => true
  | _ => false

/-- The network with start and end of the edges in `R` swapped. `starting` and `ending` are the new lists of attached edges, in any
order. -/
abbrev Net.reverse (N : Net) (R : Fin N.edges → Bool) (starting ending : Fin N.nodes → List (Fin N.edges)) : Net :=
  { N with
    src := fun k => if R k then N.dst k else N.src k
    dst := fun k => if R k then N.src k else N.dst k
    starting := starting
    ending := ending }

/-- `x'` is the state `x` seen with the edges in `R` turned round: the `j`-th point from the start is what was the `j`-th point from
the end, and its flow has the other sign. -/
structure Mirrored (N : Net) (R : Fin N.edges → Bool) (x x' : Vec) : Prop where
  nodes : ∀ v, (N.node v).kind.isPower → x' (N.nodeRange v).1 = x (N.nodeRange v).1 ∧
    x' ((N.nodeRange v).1 + 1) = x ((N.nodeRange v).1 + 1)
  kept : ∀ k, R k = false → ∀ i, (N.edgeRange k).1 ≤ i → i < (N.edgeRange k).2 → x' i = x i
  turned : ∀ k, R k = true → ∀ j : ℕ, (N.edgeRange k).1 + 2 * j + 1 < (N.edgeRange k).2 →
    x' ((N.edgeRange k).1 + 2 * j) = x ((N.edgeRange k).2 - 2 - 2 * j) ∧
    x' ((N.edgeRange k).1 + 2 * j + 1) = -x ((N.edgeRange k).2 - 1 - 2 * j)

/-! ## One cell of a pipe -/

/-- A point with its flow reversed. -/
def mirror (s : ℝ × ℝ) : ℝ × ℝ := (s.1, -s.2)

theorem flux_mirror (d : ℝ) (s : ℝ × ℝ) : Euler.flux d (mirror s) = -mirror (Euler.flux d s) := by
  unfold Euler.flux mirror
  ext
  · simp
  · simp

theorem source_mirror (d k : ℝ) (s : ℝ × ℝ) :
    Euler.source d k (mirror s) = (Euler.source d k s >>= fun v => Res.ok (mirror v)) := by
  have hre : Euler.reynolds (mirror s).2 d = Euler.reynolds s.2 d := by
    simp [Euler.reynolds, mirror]
  unfold Euler.source
  simp only [hre]
  split
  · rw [Res.ok_bind]
    congr 1
    ext
    · simp [mirror]
    · simp only [mirror]; ring
  · cases Euler.lambda (Euler.reynolds s.2 d) d k with
    | ok l =>
      simp only [Res.ok_bind]
      congr 1
      ext
      · simp [mirror]
      · simp only [mirror, abs_neg]; ring
    | throws => rfl
    | ub => rfl

theorem mirror_mirror (s : ℝ × ℝ) : mirror (mirror s) = s := by simp [mirror]

/-- A cell looks the same from both sides. -/
theorem cell_mirror (d k s t dx : ℝ) (a b c e : ℝ × ℝ) :
    Box.evaluatePoint (Box.eulerLaw d k) s t dx (mirror b) (mirror a) (mirror e) (mirror c) = Res.ok 0 ↔
      Box.evaluatePoint (Box.eulerLaw d k) s t dx a b c e = Res.ok 0 := by
  have key : ∀ a b c e : ℝ × ℝ, Box.evaluatePoint (Box.eulerLaw d k) s t dx a b c e = Res.ok 0 →
      Box.evaluatePoint (Box.eulerLaw d k) s t dx (mirror b) (mirror a) (mirror e) (mirror c) = Res.ok 0 := by
    intro a b c e h
    unfold Box.evaluatePoint at h ⊢
    obtain ⟨sr, hr, h⟩ := Res.bind_eq_ok.mp h
    obtain ⟨sl, hl, h⟩ := Res.bind_eq_ok.mp h
    injection h with h
    have hr : Euler.source d k e = Res.ok sr := hr
    have hl : Euler.source d k c = Res.ok sl := hl
    have hr' : (Box.eulerLaw d k).source (mirror e) = Res.ok (mirror sr) := by
      show Euler.source d k (mirror e) = _
      rw [source_mirror, hr, Res.ok_bind]
    have hl' : (Box.eulerLaw d k).source (mirror c) = Res.ok (mirror sl) := by
      show Euler.source d k (mirror c) = _
      rw [source_mirror, hl, Res.ok_bind]
    simp only [hr', hl', Res.ok_bind]
    congr 1
    have hf : ∀ x, (Box.eulerLaw d k).flux (mirror x) = -mirror ((Box.eulerLaw d k).flux x) := fun x => flux_mirror d x
    rw [hf, hf]
    have h1 := congrArg Prod.fst h
    have h2 := congrArg Prod.snd h
    simp only [Prod.fst_sub, Prod.smul_fst, Prod.fst_add, smul_eq_mul, Prod.fst_zero, Prod.snd_sub, Prod.smul_snd,
      Prod.snd_add, Prod.snd_zero] at h1 h2
    ext
    · simp only [mirror, Prod.fst_sub, Prod.smul_fst, Prod.fst_add, smul_eq_mul, Prod.fst_zero, Prod.fst_neg]
      linarith
    · simp only [mirror, Prod.snd_sub, Prod.smul_snd, Prod.snd_add, smul_eq_mul, Prod.snd_zero, Prod.snd_neg]
      linarith
  constructor
  · intro h
    have := key _ _ _ _ h
    simpa only [mirror_mirror] using this
  · exact key a b c e

/-! ## The whole network -/

section
variable {N : Net} {R : Fin N.edges → Bool} {starting ending : Fin N.nodes → List (Fin N.edges)} {x x' : Vec}

theorem gas_of_symmetric {e : EdgeKind} (hs : e.symmetric) (hg : e.isGas) :
    (∃ dx d r n, e = .gas (.pipe dx d r) n) ∨ ∃ n, e = .gas .shortpipe n := by
  match e, hs, hg with
  | .gas (.pipe dx d r) n, _, _ => exact Or.inl ⟨dx, d, r, n, rfl⟩
  | .gas .shortpipe n, _, _ => exact Or.inr ⟨n, rfl⟩

theorem symmetric_need (hN : Admissible N) {k : Fin N.edges} (hs : (N.edge k).symmetric) (hg : (N.edge k).isGas) :
    ∃ n : ℕ, 2 ≤ n ∧ (N.edgeRange k).2 = (N.edgeRange k).1 + 2 * n := by
  have hl := Admissible.edgeRange_length (N := N) (k := k)
  rcases gas_of_symmetric hs hg with ⟨dx, d, r, n, h⟩ | ⟨n, h⟩
  · have := hN.points k dx d r n h
    refine ⟨n, this, ?_⟩
    rw [hl, h]
    simp [edgeNeed]
  · refine ⟨2, le_rfl, ?_⟩
    rw [hl, h]
    simp [edgeNeed]

theorem gas_range (hN : Admissible N) {k : Fin N.edges} (hg : (N.edge k).isGas) : (N.edgeRange k).1 + 2 ≤ (N.edgeRange k).2 := by
  obtain ⟨kind, n, h⟩ := isGas_iff.mp hg
  have := (hN.gas_need h).1
  have := Admissible.edgeRange_length (N := N) (k := k)
  omega

/-- The four values at the ends of an edge. -/
theorem end_values (hN : Admissible N) (hR : ∀ k, R k → (N.edge k).symmetric) (hm : Mirrored N R x x') {k : Fin N.edges}
    (hg : (N.edge k).isGas) :
    (N.reverse R starting ending).startPressure k x' = (if R k then N.endPressure k x else N.startPressure k x) ∧
    (N.reverse R starting ending).endPressure k x' = (if R k then N.startPressure k x else N.endPressure k x) ∧
    (N.reverse R starting ending).startFlow k x' = (if R k then -N.endFlow k x else N.startFlow k x) ∧
    (N.reverse R starting ending).endFlow k x' = (if R k then -N.startFlow k x else N.endFlow k x) := by
  have e1 : (N.reverse R starting ending).startPressure k x' = N.startPressure k x' := rfl
  have e2 : (N.reverse R starting ending).endPressure k x' = N.endPressure k x' := rfl
  have e3 : (N.reverse R starting ending).startFlow k x' = N.startFlow k x' := rfl
  have e4 : (N.reverse R starting ending).endFlow k x' = N.endFlow k x' := rfl
  rw [e1, e2, e3, e4]
  unfold Net.startPressure Net.endPressure Net.startFlow Net.endFlow
  have hlen := gas_range hN hg
  cases hr : R k with
  | false =>
    have := hm.kept k hr
    simp only [Bool.false_eq_true, if_false]
    refine ⟨?_, ?_, ?_, ?_⟩
    · rw [this _ le_rfl (by omega)]
    · rw [this _ (by omega) (by omega)]
    · rw [this _ (by omega) (by omega)]
    · rw [this _ (by omega) (by omega)]
  | true =>
    obtain ⟨n, hn, hl⟩ := symmetric_need hN (hR k hr) hg
    obtain ⟨h1, h2⟩ := hm.turned k hr 0 (by push_cast; omega)
    obtain ⟨h3, h4⟩ := hm.turned k hr (n - 1) (by omega)
    simp only [Nat.cast_zero, mul_zero, add_zero, sub_zero] at h1 h2
    have i1 : (N.edgeRange k).1 + 2 * ((n - 1 : ℕ) : ℤ) = (N.edgeRange k).2 - 2 := by omega
    have i2 : (N.edgeRange k).2 - 2 - 2 * ((n - 1 : ℕ) : ℤ) = (N.edgeRange k).1 := by omega
    have i3 : (N.edgeRange k).2 - 2 + 1 = (N.edgeRange k).2 - 1 := by omega
    have i4 : (N.edgeRange k).2 - 1 - 2 * ((n - 1 : ℕ) : ℤ) = (N.edgeRange k).1 + 1 := by omega
    rw [i1, i2] at h3
    rw [i1, i3, i4] at h4
    simp only [if_true]
    exact ⟨by rw [h1], by rw [h3], h2, h4⟩

theorem outflow_reverse (hN : Admissible N) (hR : ∀ k, R k → (N.edge k).symmetric) (hm : Mirrored N R x x') (v : Fin N.nodes) :
    (N.reverse R starting ending).outflow v x' = N.outflow v x := by
  unfold Net.outflow
  rw [← Finset.sum_sub_distrib, ← Finset.sum_sub_distrib]
  refine Finset.sum_congr rfl fun k _ => ?_
  have e1 : (N.reverse R starting ending).edge k = N.edge k := rfl
  have e2 : (N.reverse R starting ending).src k = if R k then N.dst k else N.src k := rfl
  have e3 : (N.reverse R starting ending).dst k = if R k then N.src k else N.dst k := rfl
  rw [e1, e2, e3]
  by_cases hg : (N.edge k).isGas
  · obtain ⟨-, -, h3, h4⟩ := end_values (starting := starting) (ending := ending) hN hR hm hg
    rw [h3, h4]
    simp only [hg, if_true]
    cases R k with
    | false => simp only [Bool.false_eq_true, if_false]
    | true =>
      simp only [if_true]
      by_cases hs : N.src k = v <;> by_cases hd : N.dst k = v <;> simp only [hs, hd, if_true, if_false] <;> ring
  · simp [hg]

theorem sum_reverse (f : Fin N.edges → Fin N.nodes → ℝ) (v : Fin N.nodes) :
    ((∑ k, if (N.reverse R starting ending).src k = v then f k ((N.reverse R starting ending).dst k) else 0) +
      ∑ k, if (N.reverse R starting ending).dst k = v then f k ((N.reverse R starting ending).src k) else 0) =
    (∑ k, if N.src k = v then f k (N.dst k) else 0) + ∑ k, if N.dst k = v then f k (N.src k) else 0 := by
  rw [← Finset.sum_add_distrib, ← Finset.sum_add_distrib]
  refine Finset.sum_congr rfl fun k _ => ?_
  have e2 : (N.reverse R starting ending).src k = if R k then N.dst k else N.src k := rfl
  have e3 : (N.reverse R starting ending).dst k = if R k then N.src k else N.dst k := rfl
  rw [e2, e3]
  cases R k with
  | false => simp only [Bool.false_eq_true, if_false]
  | true => simp only [if_true]; rw [add_comm]

theorem voltage_eq (hm : Mirrored N R x x') {v : Fin N.nodes} (hv : (N.node v).kind.isPower) :
    N.voltage x' v = N.voltage x v ∧ N.angle x' v = N.angle x v := hm.nodes v hv

/-- Sums over the lines at a power node only look at voltages and angles of power nodes. -/
theorem active_mirror (hN : Admissible N) (hm : Mirrored N R x x') {v : Fin N.nodes} (hv : (N.node v).kind.isPower) :
    N.active v x' = N.active v x ∧ N.reactive v x' = N.reactive v x := by
  obtain ⟨hvv, hav⟩ := voltage_eq hm hv
  have key : ∀ k, (N.edge k).isGas ∨ ((N.voltage x' (N.src k) = N.voltage x (N.src k) ∧ N.angle x' (N.src k) = N.angle x (N.src k)) ∧
      N.voltage x' (N.dst k) = N.voltage x (N.dst k) ∧ N.angle x' (N.dst k) = N.angle x (N.dst k)) := by
    intro k
    cases h : N.edge k with
    | gas kind n => exact Or.inl rfl
    | line G B => exact Or.inr ⟨voltage_eq hm (hN.lines k G B h).1, voltage_eq hm (hN.lines k G B h).2⟩
  have hzero : ∀ k, (N.edge k).isGas → (N.edge k).conductance = 0 ∧ (N.edge k).susceptance = 0 := by
    intro k hk
    obtain ⟨kind, n, h⟩ := isGas_iff.mp hk
    rw [h]; exact ⟨rfl, rfl⟩
  constructor
  · unfold Net.active
    rw [hvv, hav]
    congr 2
    · refine Finset.sum_congr rfl fun k _ => ?_
      rcases key k with hg | ⟨⟨h1, h2⟩, h3, h4⟩
      · simp [hzero k hg]
      · rw [h3, h4]
    · refine Finset.sum_congr rfl fun k _ => ?_
      rcases key k with hg | ⟨⟨h1, h2⟩, h3, h4⟩
      · simp [hzero k hg]
      · rw [h1, h2]
  · unfold Net.reactive
    rw [hvv, hav]
    congr 2
    · refine Finset.sum_congr rfl fun k _ => ?_
      rcases key k with hg | ⟨⟨h1, h2⟩, h3, h4⟩
      · simp [hzero k hg]
      · rw [h3, h4]
    · refine Finset.sum_congr rfl fun k _ => ?_
      rcases key k with hg | ⟨⟨h1, h2⟩, h3, h4⟩
      · simp [hzero k hg]
      · rw [h1, h2]

theorem active_reverse (hN : Admissible N) (hm : Mirrored N R x x') {v : Fin N.nodes} (hv : (N.node v).kind.isPower) :
    (N.reverse R starting ending).active v x' = N.active v x ∧ (N.reverse R starting ending).reactive v x' = N.reactive v x := by
  obtain ⟨h1, h2⟩ := active_mirror hN hm hv
  rw [← h1, ← h2]
  constructor
  · exact congrArg (fun z => (N.node v).G * N.voltage x' v ^ 2 + z) (sum_reverse (N := N) (R := R) (starting := starting) (ending := ending)
      (fun k w => N.voltage x' v * N.voltage x' w * ((N.edge k).conductance * cos (N.angle x' v - N.angle x' w) +
        (N.edge k).susceptance * sin (N.angle x' v - N.angle x' w))) v)
  · exact congrArg (fun z => -((N.node v).B * N.voltage x' v ^ 2) + z) (sum_reverse (N := N) (R := R) (starting := starting) (ending := ending)
      (fun k w => N.voltage x' v * N.voltage x' w * ((N.edge k).conductance * sin (N.angle x' v - N.angle x' w) -
        (N.edge k).susceptance * cos (N.angle x' v - N.angle x' w))) v)

end

/-- The points of a pipe that is turned round. -/
theorem segment_turned {N : Net} {R : Fin N.edges → Bool} {x x' : Vec} (hm : Mirrored N R x x') {k : Fin N.edges} (hr : R k = true) {n : ℕ}
    (hl : (N.edgeRange k).2 = (N.edgeRange k).1 + 2 * n) (j : ℕ) (hj : j < n) :
    Net.segment x' ((N.edgeRange k).1 + 2 * j) = mirror (Net.segment x ((N.edgeRange k).1 + 2 * (n - 1 - j : ℕ))) := by
  obtain ⟨h1, h2⟩ := hm.turned k hr j (by omega)
  have i1 : (N.edgeRange k).2 - 2 - 2 * (j : ℤ) = (N.edgeRange k).1 + 2 * ((n - 1 - j : ℕ) : ℤ) := by omega
  have i2 : (N.edgeRange k).2 - 1 - 2 * (j : ℤ) = (N.edgeRange k).1 + 2 * ((n - 1 - j : ℕ) : ℤ) + 1 := by omega
  rw [i1] at h1
  rw [i2] at h2
  unfold Net.segment mirror
  rw [h1, h2]

/-- C89. Turning round any set of pipes, short pipes and lines changes nothing but the signs of flows and the order of points in them: the states
`last'` and `new'` obey all laws in the network with these edges reversed if and only if `last` and `new` do so in the original one. -/
theorem C89_direction (N : Net) (hN : Admissible N) (R : Fin N.edges → Bool) (hR : ∀ k, R k → (N.edge k).symmetric)
    (starting ending : Fin N.nodes → List (Fin N.edges)) (lastTime newTime : ℝ) (last last' new new' control : Vec)
    (hl : Mirrored N R last last') (hn : Mirrored N R new new') :
    Laws (N.reverse R starting ending) lastTime newTime ⟨last', new', control⟩ ↔
      Laws N lastTime newTime ⟨last, new, control⟩ := by
  have hends := fun k hg => end_values (starting := starting) (ending := ending) hN hR hn (k := k) hg
  have hnode : ∀ v, (N.reverse R starting ending).node v = N.node v := fun _ => rfl
  have hedge : ∀ k, (N.reverse R starting ending).edge k = N.edge k := fun _ => rfl
  have hsrc : ∀ k, (N.reverse R starting ending).src k = if R k then N.dst k else N.src k := fun _ => rfl
  have hdst : ∀ k, (N.reverse R starting ending).dst k = if R k then N.src k else N.dst k := fun _ => rfl
  have hgas : ∀ k, R k → (N.edge k).isGas → (N.node (N.src k)).kind.isGas ∧ (N.node (N.dst k)).kind.isGas := by
    intro k hr hg
    rcases gas_of_symmetric (hR k hr) hg with ⟨dx, d, r, n, h⟩ | ⟨n, h⟩
    · exact ⟨hN.gasStart k _ n h, hN.gasEnd k _ n h (by simp)⟩
    · exact ⟨hN.gasStart k _ n h, hN.gasEnd k _ n h (by simp)⟩
  -- pressures
  have hpress : (∃ P : Fin N.nodes → ℝ,
      (∀ k, (N.edge k).isGas → (N.reverse R starting ending).startPressure k new' = P ((N.reverse R starting ending).src k) ∧
        ((N.node ((N.reverse R starting ending).dst k)).kind.isGas →
          (N.reverse R starting ending).endPressure k new' = P ((N.reverse R starting ending).dst k))) ∧
      ∀ v b, (N.node v).kind = .pressure → (N.node v).boundary newTime = Res.ok b → P v = b.1) ↔
    ∃ P : Fin N.nodes → ℝ, (∀ k, (N.edge k).isGas → N.startPressure k new = P (N.src k) ∧
        ((N.node (N.dst k)).kind.isGas → N.endPressure k new = P (N.dst k))) ∧
      ∀ v b, (N.node v).kind = .pressure → (N.node v).boundary newTime = Res.ok b → P v = b.1 := by
    refine exists_congr fun P => and_congr_left fun _ => forall_congr' fun k => imp_congr_right fun hg => ?_
    obtain ⟨h1, h2, -, -⟩ := hends k hg
    rw [h1, h2, hsrc, hdst]
    cases hr : R k with
    | false => simp only [Bool.false_eq_true, if_false]
    | true =>
      obtain ⟨hs, hd⟩ := hgas k hr hg
      simp only [if_true, hs, hd, forall_const]
      exact and_comm
  -- flows
  have hattach : ∀ v, (∃ k, (N.edge k).isGas ∧ ((N.reverse R starting ending).src k = v ∨ (N.reverse R starting ending).dst k = v)) ↔
      ∃ k, (N.edge k).isGas ∧ (N.src k = v ∨ N.dst k = v) := by
    intro v
    refine exists_congr fun k => and_congr_right fun _ => ?_
    rw [hsrc, hdst]
    cases R k with
    | false => simp only [Bool.false_eq_true, if_false]
    | true => simp only [if_true]; exact or_comm
  have hflow : ∀ v, (N.reverse R starting ending).outflow v new' = N.outflow v new := fun v => outflow_reverse hN hR hn v
  -- short edges
  have hshort : ∀ k kind n, N.edge k = .gas kind n → kind.isShort →
      (((N.reverse R starting ending).endPressure k new' = (N.reverse R starting ending).startPressure k new' +
          Gas.demandedRise kind (control (N.controlRange k).1) ∧
        (N.reverse R starting ending).startFlow k new' = (N.reverse R starting ending).endFlow k new') ↔
      (N.endPressure k new = N.startPressure k new + Gas.demandedRise kind (control (N.controlRange k).1) ∧
        N.startFlow k new = N.endFlow k new)) := by
    intro k kind n hk hs
    have hg : (N.edge k).isGas := by rw [hk]; rfl
    obtain ⟨h1, h2, h3, h4⟩ := hends k hg
    rw [h1, h2, h3, h4]
    cases hr : R k with
    | false => simp only [Bool.false_eq_true, if_false]
    | true =>
      have : kind = .shortpipe := by
        rcases gas_of_symmetric (hR k hr) hg with ⟨dx, d, r, n', h⟩ | ⟨n', h⟩
        · rw [hk] at h; injection h with h; subst h; exact hs.elim
        · rw [hk] at h; injection h
      subst this
      simp only [if_true, Gas.demandedRise, add_zero]
      constructor
      · rintro ⟨p, q⟩; exact ⟨p.symm, by linarith⟩
      · rintro ⟨p, q⟩; exact ⟨p.symm, by linarith⟩
  -- pipes
  have hpipe : ∀ k dx d r n, N.edge k = .gas (.pipe dx d r) n →
      ((∀ j : ℕ, j + 1 < n → Box.evaluatePoint (Box.eulerLaw d r) lastTime newTime dx
        (Net.segment last' ((N.edgeRange k).1 + 2 * j)) (Net.segment last' ((N.edgeRange k).1 + 2 * (j + 1)))
        (Net.segment new' ((N.edgeRange k).1 + 2 * j)) (Net.segment new' ((N.edgeRange k).1 + 2 * (j + 1))) = Res.ok 0) ↔
      ∀ j : ℕ, j + 1 < n → Box.evaluatePoint (Box.eulerLaw d r) lastTime newTime dx
        (Net.segment last ((N.edgeRange k).1 + 2 * j)) (Net.segment last ((N.edgeRange k).1 + 2 * (j + 1)))
        (Net.segment new ((N.edgeRange k).1 + 2 * j)) (Net.segment new ((N.edgeRange k).1 + 2 * (j + 1))) = Res.ok 0) := by
    intro k dx d r n hk
    have hlen : (N.edgeRange k).2 = (N.edgeRange k).1 + 2 * n := by
      rw [Admissible.edgeRange_length, hk]; simp [edgeNeed]
    cases hr : R k with
    | false =>
      refine forall_congr' fun j => imp_congr_right fun hj => ?_
      have seg : ∀ {x x' : Vec}, Mirrored N R x x' → ∀ i : ℤ, (N.edgeRange k).1 ≤ i → i + 1 < (N.edgeRange k).2 →
          Net.segment x' i = Net.segment x i := by
        intro x x' hm i h1 h2
        unfold Net.segment
        rw [hm.kept k hr i h1 (by omega), hm.kept k hr (i + 1) (by omega) h2]
      rw [seg hl _ (by omega) (by omega), seg hl _ (by omega) (by omega), seg hn _ (by omega) (by omega),
        seg hn _ (by omega) (by omega)]
    | true =>
      have hcell : ∀ j : ℕ, j + 1 < n → (Box.evaluatePoint (Box.eulerLaw d r) lastTime newTime dx
          (Net.segment last' ((N.edgeRange k).1 + 2 * j)) (Net.segment last' ((N.edgeRange k).1 + 2 * (j + 1)))
          (Net.segment new' ((N.edgeRange k).1 + 2 * j)) (Net.segment new' ((N.edgeRange k).1 + 2 * (j + 1))) = Res.ok 0 ↔
        Box.evaluatePoint (Box.eulerLaw d r) lastTime newTime dx
          (Net.segment last ((N.edgeRange k).1 + 2 * (n - 2 - j : ℕ))) (Net.segment last ((N.edgeRange k).1 + 2 * ((n - 2 - j : ℕ) + 1)))
          (Net.segment new ((N.edgeRange k).1 + 2 * (n - 2 - j : ℕ)))
          (Net.segment new ((N.edgeRange k).1 + 2 * ((n - 2 - j : ℕ) + 1))) = Res.ok 0) := by
        intro j hj
        have t1 := fun {x x' : Vec} (hm : Mirrored N R x x') => segment_turned hm hr hlen j (by omega)
        have t2 := fun {x x' : Vec} (hm : Mirrored N R x x') => segment_turned hm hr hlen (j + 1) (by omega)
        have i1 : n - 1 - (j + 1) = n - 2 - j := by omega
        have i2 : ((n - 1 - j : ℕ) : ℤ) = (n - 2 - j : ℕ) + 1 := by omega
        push_cast [i1] at t2
        rw [t1 hl, t1 hn, t2 hl, t2 hn, cell_mirror, i2]
      constructor
      · intro h j hj
        have := (hcell (n - 2 - j) (by omega)).mp (h (n - 2 - j) (by omega))
        have i : n - 2 - (n - 2 - j) = j := by omega
        rwa [i] at this
      · intro h j hj
        exact (hcell j hj).mpr (h (n - 2 - j) (by omega))
  -- power
  have hpow := fun v hv => active_reverse (starting := starting) (ending := ending) hN hn (v := v) hv
  have hgrid : ∀ v b, (N.node v).boundary newTime = Res.ok b →
      ((match (N.node v).kind with
        | .power .pq => (N.reverse R starting ending).active v new' = b.1 ∧ (N.reverse R starting ending).reactive v new' = b.2
        | .power .pv => (N.reverse R starting ending).active v new' = b.1 ∧ N.voltage new' v = b.2
        | .power .vphi | .plant => N.voltage new' v = b.1 ∧ N.angle new' v = b.2
        | _ => True) ↔
      match (N.node v).kind with
        | .power .pq => N.active v new = b.1 ∧ N.reactive v new = b.2
        | .power .pv => N.active v new = b.1 ∧ N.voltage new v = b.2
        | .power .vphi | .plant => N.voltage new v = b.1 ∧ N.angle new v = b.2
        | _ => True) := by
    intro v b _
    cases hk : (N.node v).kind with
    | power k =>
      have hv : (N.node v).kind.isPower := by rw [hk]; rfl
      obtain ⟨h1, h2⟩ := hpow v hv
      obtain ⟨h3, h4⟩ := voltage_eq hn hv
      cases k <;> simp only [h1, h2, h3, h4]
    | plant =>
      have hv : (N.node v).kind.isPower := by rw [hk]; rfl
      obtain ⟨h3, h4⟩ := voltage_eq hn hv
      simp only [h3, h4]
    | _ => exact Iff.rfl
  have hplant : ∀ k g p n, N.edge k = .gas (.gaspower g p) n →
      (Power.generated ⟨g, p⟩ ((N.reverse R starting ending).startFlow k new') =
          Res.ok ((N.reverse R starting ending).active ((N.reverse R starting ending).dst k) new') ↔
        Power.generated ⟨g, p⟩ (N.startFlow k new) = Res.ok (N.active (N.dst k) new)) := by
    intro k g p n hk
    have hg : (N.edge k).isGas := by rw [hk]; rfl
    have hr : R k = false := by
      by_contra h
      have := hR k (by simpa using h)
      rw [hk] at this
      exact absurd this (by simp [EdgeKind.symmetric])
    obtain ⟨-, -, h3, -⟩ := hends k hg
    have hd : (N.reverse R starting ending).dst k = N.dst k := by rw [hdst, hr]; rfl
    rw [h3, hr, hd, (hpow _ (isPlant_power (hN.plantEnd k g p n hk))).1]
    simp only [Bool.false_eq_true, if_false]
  constructor
  · intro h
    refine ⟨hpress.mp h.pressures, fun v hv => ?_, fun k kind n hk hs => (hshort k kind n hk hs).mp (h.short k kind n hk hs),
      fun k dx d r n hk => (hpipe k dx d r n hk).mp (h.pipes k dx d r n hk), fun v b hb => (hgrid v b hb).mp (h.grid v b hb),
      fun k g p n hk => (hplant k g p n hk).mp (h.plants k g p n hk)⟩
    have := h.flows v ((hattach v).mpr hv)
    rw [hflow v] at this
    exact this
  · intro h
    refine ⟨hpress.mpr h.pressures, fun v hv => ?_, fun k kind n hk hs => (hshort k kind n hk hs).mpr (h.short k kind n hk hs),
      fun k dx d r n hk => (hpipe k dx d r n hk).mpr (h.pipes k dx d r n hk), fun v b hb => (hgrid v b hb).mpr (h.grid v b hb),
      fun k g p n hk => (hplant k g p n hk).mpr (h.plants k g p n hk)⟩
    have := h.flows v ((hattach v).mp hv)
    show (_ → (N.reverse R starting ending).outflow v new' = _) ∧ (_ → ∀ b, _ → (N.reverse R starting ending).outflow v new' = _)
    rw [hflow v]
    exact this

/-! ## Every state has a mirrored one -/

open Classical in
/-- The state seen with the edges in `R` turned round. -/
noncomputable def Net.turn (N : Net) (R : Fin N.edges → Bool) (x : Vec) : Vec := fun i =>
  if h : ∃ k, R k = true ∧ N.InRange (.inr k) i then
    if (i - (N.edgeRange h.choose).1) % 2 = 0 then x ((N.edgeRange h.choose).1 + (N.edgeRange h.choose).2 - 2 - i)
    else -x ((N.edgeRange h.choose).1 + (N.edgeRange h.choose).2 - i)
  else x i

theorem Net.turn_inside {N : Net} {R : Fin N.edges → Bool} {x : Vec} {k : Fin N.edges} (hr : R k = true) {i : ℤ} (h : N.InRange (.inr k) i) :
    N.turn R x i = if (i - (N.edgeRange k).1) % 2 = 0 then x ((N.edgeRange k).1 + (N.edgeRange k).2 - 2 - i)
      else -x ((N.edgeRange k).1 + (N.edgeRange k).2 - i) := by
  have hex : ∃ k, R k = true ∧ N.InRange (.inr k) i := ⟨k, hr, h⟩
  unfold Net.turn
  rw [dif_pos hex]
  have : hex.choose = k := Sum.inr_injective (hex.choose_spec.2.unique h)
  rw [this]

theorem Net.turn_outside {N : Net} {R : Fin N.edges → Bool} {x : Vec} {c : N.Component} (hc : ∀ k, c = .inr k → R k = false) {i : ℤ}
    (h : N.InRange c i) : N.turn R x i = x i := by
  unfold Net.turn
  rw [dif_neg]
  rintro ⟨k, hr, hk⟩
  rw [hc k (h.unique hk)] at hr
  exact absurd hr (by simp)

theorem power_need {N : Net} {v : Fin N.nodes} (hv : (N.node v).kind.isPower) : (N.nodeRange v).2 = (N.nodeRange v).1 + 2 := by
  have h := N.range_length (.inl v)
  have h : (N.nodeRange v).2 = (N.nodeRange v).1 + nodeNeed (N.node v).kind := h
  rw [h]
  cases hk : (N.node v).kind <;> simp_all [NodeKind.isPower, nodeNeed]

/-- Every vector of states has a mirrored one. -/
theorem C89_exists (N : Net) (R : Fin N.edges → Bool) (x : Fin N.stateCount → ℝ) :
    ∃ x' : Fin N.stateCount → ℝ, Mirrored N R (ext x) (ext x') := by
  refine ⟨fun i => N.turn R (ext x) i.val, ?_⟩
  have hin : ∀ {c : N.Component} {i : ℤ}, N.InRange c i → ext (fun j : Fin N.stateCount => N.turn R (ext x) j.val) i = N.turn R (ext x) i := by
    intro c i h
    obtain ⟨h0, h1⟩ := h.bounds
    have hb : 0 ≤ i ∧ i.toNat < N.stateCount := ⟨h0, by unfold Net.stateCount; omega⟩
    have : ∀ y : Fin N.stateCount → ℝ, ext y i = y ⟨i.toNat, hb.2⟩ := fun y => by unfold ext; rw [dif_pos hb]
    rw [this]
    show N.turn R _ ((i.toNat : ℕ) : ℤ) = _
    rw [Int.toNat_of_nonneg h0]
  constructor
  · intro v hv
    have hl := power_need hv
    have h1 : N.InRange (.inl v) (N.nodeRange v).1 := ⟨le_rfl, by show _ < (N.nodeRange v).2; omega⟩
    have h2 : N.InRange (.inl v) ((N.nodeRange v).1 + 1) :=
      ⟨by show (N.nodeRange v).1 ≤ _; omega, by show _ < (N.nodeRange v).2; omega⟩
    rw [hin h1, hin h2]
    exact ⟨Net.turn_outside (fun k h => by cases h) h1, Net.turn_outside (fun k h => by cases h) h2⟩
  · intro k hr i h0 h1
    have h : N.InRange (.inr k) i := ⟨h0, h1⟩
    rw [hin h]
    exact Net.turn_outside (fun k' h' => by cases h'; exact hr) h
  · intro k hr j hj
    have h1 : N.InRange (.inr k) ((N.edgeRange k).1 + 2 * j) :=
      ⟨by show (N.edgeRange k).1 ≤ _; omega, by show _ < (N.edgeRange k).2; omega⟩
    have h2 : N.InRange (.inr k) ((N.edgeRange k).1 + 2 * j + 1) :=
      ⟨by show (N.edgeRange k).1 ≤ _; omega, by show _ < (N.edgeRange k).2; omega⟩
    rw [hin h1, hin h2, Net.turn_inside hr h1, Net.turn_inside hr h2, if_pos (by omega), if_neg (by omega)]
    constructor
    · congr 1; omega
    · congr 2; omega

/-! ## What the program computes -/

/-- The reversed network is admissible, too. -/
theorem reverse_admissible {N : Net} (hN : Admissible N) {R : Fin N.edges → Bool} (hR : ∀ k, R k → (N.edge k).symmetric)
    {starting ending : Fin N.nodes → List (Fin N.edges)}
    (hs : ∀ v, (starting v).Nodup ∧ ∀ k, k ∈ starting v ↔ (if R k then N.dst k else N.src k) = v)
    (he : ∀ v, (ending v).Nodup ∧ ∀ k, k ∈ ending v ↔ (if R k then N.src k else N.dst k) = v) :
    Admissible (N.reverse R starting ending) where
  starting := hs
  ending := he
  noLoop := by
    intro k
    have := hN.noLoop k
    show (if R k then N.dst k else N.src k) ≠ if R k then N.src k else N.dst k
    cases R k
    · exact this
    · exact this.symm
  points := hN.points
  gasStart := by
    intro k kind n h
    show (N.node (if R k then N.dst k else N.src k)).kind.isGas
    have h : N.edge k = .gas kind n := h
    cases hr : R k with
    | false => exact hN.gasStart k kind n h
    | true =>
      refine hN.gasEnd k kind n h fun g p hk => ?_
      have := hR k hr
      rw [h, hk] at this
      exact absurd this (by simp [EdgeKind.symmetric])
  gasEnd := by
    intro k kind n h hk
    show (N.node (if R k then N.src k else N.dst k)).kind.isGas
    have h : N.edge k = .gas kind n := h
    cases hr : R k with
    | false => exact hN.gasEnd k kind n h hk
    | true => exact hN.gasStart k kind n h
  plantEnd := by
    intro k g p n h
    show (N.node (if R k then N.src k else N.dst k)).kind.isPlant
    have h : N.edge k = .gas (.gaspower g p) n := h
    cases hr : R k with
    | false => exact hN.plantEnd k g p n h
    | true =>
      have := hR k hr
      rw [h] at this
      exact absurd this (by simp [EdgeKind.symmetric])
  lines := by
    intro k G B h
    show (N.node (if R k then N.dst k else N.src k)).kind.isPower ∧ (N.node (if R k then N.src k else N.dst k)).kind.isPower
    have := hN.lines k G B h
    cases R k
    · exact this
    · exact this.symm

/-- C89, in terms of the residual the program computes: if the edges in `R` are entered in the other direction, a mirrored state is accepted
as a step from a mirrored state if and only if the state was accepted before. -/
theorem C89_residual (N : Net) (hN : Admissible N) (R : Fin N.edges → Bool) (hR : ∀ k, R k → (N.edge k).symmetric)
    (starting ending : Fin N.nodes → List (Fin N.edges))
    (hs : ∀ v, (starting v).Nodup ∧ ∀ k, k ∈ starting v ↔ (if R k then N.dst k else N.src k) = v)
    (he : ∀ v, (ending v).Nodup ∧ ∀ k, k ∈ ending v ↔ (if R k then N.src k else N.dst k) = v)
    (lastTime newTime : ℝ) (hc : Computable N newTime) (last last' new new' : Fin N.stateCount → ℝ) (control : Fin N.controlCount → ℝ)
    (hl : Mirrored N R (ext last) (ext last')) (hn : Mirrored N R (ext new) (ext new')) :
    (N.reverse R starting ending).residual lastTime newTime (last', new', control) = Res.ok 0 ↔
      N.residual lastTime newTime (last, new, control) = Res.ok 0 := by
  have hc' : Computable (N.reverse R starting ending) newTime := ⟨hc.boundary, hc.pipes⟩
  obtain ⟨r, hr, h⟩ := C72_residual_iff_laws N hN lastTime newTime hc (last, new, control)
  obtain ⟨r', hr', h'⟩ := C72_residual_iff_laws (N.reverse R starting ending) (reverse_admissible hN hR hs he) lastTime newTime hc'
    (last', new', control)
  rw [hr, hr']
  have e : ∀ {n : ℕ} (r : Fin n → ℝ), Res.ok r = Res.ok 0 ↔ r = 0 := fun r => ⟨fun h => by injection h, fun h => by rw [h]⟩
  rw [e, e]
  have := C89_direction N hN R hR starting ending lastTime newTime (ext last) (ext last') (ext new) (ext new') (ext control) hl hn
  exact h'.trans (this.trans h.symm)

/-- The pipe being filled, entered from the sink to the pressure node: the flow into it at the pressure node is now negative and stored
last. -/
example : ∃ last new : Fin pipeNet.stateCount → ℝ, ext new 3 = -0.01 ∧
    (pipeNet.reverse (fun _ => true) (fun v : Fin 2 => if v = 1 then [(0 : Fin 1)] else [])
      (fun v : Fin 2 => if v = 0 then [(0 : Fin 1)] else [])).residual
      0 60 (last, new, fun _ => 0) = Res.ok 0 := by
  obtain ⟨last, hl⟩ := C89_exists pipeNet (fun _ => true) pipePoint.1
  obtain ⟨new, hn⟩ := C89_exists pipeNet (fun _ => true) pipePoint.2.1
  refine ⟨last, new, ?_, ?_⟩
  · obtain ⟨-, h⟩ := hn.turned (0 : Fin 1) rfl 1 (show (3 : ℤ) < 4 by norm_num)
    have h : ext new 3 = -ext pipePoint.2.1 1 := h
    have h1 := pipe_new 1 (by norm_num)
    rw [h, show (1 : ℤ) = ((1 : ℕ) : ℤ) by rfl, h1]
    rfl
  · refine (C89_residual pipeNet pipe_admissible (fun _ => true) (fun _ _ => rfl) _ _ ?_ ?_ 0 60 (pipe_computable 60) pipePoint.1 last
      pipePoint.2.1 new _ hl hn).mpr pipe_residual
    · show ∀ v : Fin 2, (if v = 1 then [(0 : Fin 1)] else []).Nodup ∧
        ∀ k : Fin 1, k ∈ (if v = 1 then [(0 : Fin 1)] else []) ↔ (if True then (1 : Fin 2) else 0) = v
      decide
    · show ∀ v : Fin 2, (if v = 0 then [(0 : Fin 1)] else []).Nodup ∧
        ∀ k : Fin 1, k ∈ (if v = 0 then [(0 : Fin 1)] else []) ↔ (if True then (0 : Fin 2) else 1) = v
      decide

end Verif.Network
