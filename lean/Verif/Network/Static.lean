import Verif.Network.Floating
import Verif.Network.SimulateExample
import Verif.Network.ConvergeExample
import Mathlib.Analysis.Calculus.MeanValue
import Mathlib.LinearAlgebra.Matrix.NonsingularInverse

/-!
# Property C180: time steps of networks of short edges

In a gas network of short pipes, compressors and control valves a time step has exactly one solution, for all boundary values and controls, if there are no circles and every part is
supplied by a node with given pressure; otherwise it has none or infinitely many. Newton's method ends after one step, wherever it starts.
-/

set_option autoImplicit false

namespace Verif.Network

open Verif.Net Verif.Handler Verif.Newton Verif.Evolve Relation Matrix

/-! ## Specification -/

/-- The network consists of gas nodes, short pipes, compressors and control valves. -/
structure ShortOnly (N : Net) : Prop where
  edges : ∀ k, ShortEdge N k
  nodes : ∀ v, (N.node v).kind.isGas

/-! ## The matrix does not depend on the state -/

theorem dBoundaryPQ_const {e : Gas.Edge} (he : ∀ dx d r, e.kind ≠ .pipe dx d r) (dir : Gas.Dir) (fd : ℝ × ℝ) (row : ℤ) (s s' : Vec) :
    Gas.dBoundaryPQ e dir fd row s = Gas.dBoundaryPQ e dir fd row s' := by
  unfold Gas.dBoundaryPQ
  cases hk : e.kind with
  | pipe dx d r => exact absurd hk (he dx d r)
  | _ => rfl

theorem derivativeLoop_const (s s' : Vec) (lastRow : ℤ) :
    ∀ (l : List Gas.End) (oldRow : ℤ), (∀ x ∈ l, ∀ dx d r, x.2.kind ≠ .pipe dx d r) →
      Gas.derivativeLoop s lastRow oldRow l = Gas.derivativeLoop s' lastRow oldRow l
  | [], _, _ => rfl
  | (dir, e) :: rest, oldRow, h => by
    have he : ∀ dx d r, e.kind ≠ .pipe dx d r := h (dir, e) (by simp)
    unfold Gas.derivativeLoop
    simp only [dBoundaryPQ_const he dir _ _ s s', derivativeLoop_const s s' lastRow rest _ fun x hx => h x (by simp [hx])]

theorem flowDerivative_const {l : List Gas.End} (h : ∀ x ∈ l, ∀ dx d r, x.2.kind ≠ .pipe dx d r) (s s' : Vec) :
    Gas.flowDerivative l s = Gas.flowDerivative l s' := by
  match l, h with
  | [], _ => rfl
  | (dir, e) :: rest, h =>
    have he : ∀ dx d r, e.kind ≠ .pipe dx d r := h (dir, e) (by simp)
    have hl : ∀ dx d r, (List.getLast ((dir, e) :: rest) (by simp)).2.kind ≠ .pipe dx d r := h _ (List.getLast_mem _)
    unfold Gas.flowDerivative
    simp only [dBoundaryPQ_const he dir _ _ s s', dBoundaryPQ_const hl _ _ _ s s',
      derivativeLoop_const s s' _ rest.dropLast _ fun x hx => h x (List.mem_cons_of_mem _ (List.mem_of_mem_dropLast hx))]

section
variable {N : Net} (hN : Admissible N) (hs : ShortOnly N)
include hs

theorem ShortOnly.gas (k : Fin N.edges) : (N.edge k).isGas := by
  obtain ⟨kind, n, he, -⟩ := hs.edges k
  rw [he]; rfl

theorem ShortOnly.noPipe {k : Fin N.edges} {dx d r : ℝ} {n : ℕ} : N.edge k ≠ .gas (.pipe dx d r) n := by
  intro h
  obtain ⟨kind, m, he, hk⟩ := hs.edges k
  rw [h] at he
  injection he with he
  subst he
  exact hk

theorem ShortOnly.regular {t : ℝ} (hcomp : Computable N t) (state : Vec) : Regular N t state :=
  ⟨hcomp.boundary, fun _ _ _ _ _ h => absurd h hs.noPipe⟩

include hN

theorem ShortOnly.dNew_const (t0 t1 s0 s1 : ℝ) (a b : Args) : N.dNew t0 t1 a = N.dNew s0 s1 b := by
  have ends : ∀ v, ∀ x ∈ N.ends v, ∀ dx d r, x.2.kind ≠ .pipe dx d r := by
    intro v x hx dx d r h
    obtain ⟨k, e, he, hcase⟩ := hN.mem_ends.mp hx
    obtain ⟨kind, n, hk, rfl⟩ := Admissible.gasEdge_eq.mp he
    have hkind : x.2.kind = kind := by rcases hcase with ⟨_, rfl⟩ | ⟨_, rfl⟩ <;> rfl
    rw [hkind] at h
    subst h
    exact hs.noPipe hk
  have node : ∀ v, N.nodeNew v a = N.nodeNew v b := by
    intro v
    have hg := hs.nodes v
    unfold Net.nodeNew
    cases hk : (N.node v).kind with
    | innode => exact flowDerivative_const (ends v) _ _
    | flow => simp only [flowDerivative_const (ends v) a.new b.new]
    | pressure =>
      have : Gas.pressureDerivative (N.ends v) a.new = Gas.pressureDerivative (N.ends v) b.new :=
        forEach_congr fun x hx => dBoundaryPQ_const (ends v x hx) _ _ _ _ _
      simp only [this]
    | power k => rw [hk] at hg; cases hg
    | plant => rw [hk] at hg; cases hg
  have edge : ∀ k, N.edgeNew k t0 t1 a = N.edgeNew k s0 s1 b := by
    intro k
    obtain ⟨kind, n, he, hk⟩ := hs.edges k
    unfold Net.edgeNew
    rw [Admissible.gasEdge_eq.mpr ⟨kind, n, he, rfl⟩]
    cases kind with
    | pipe dx d r => exact absurd hk id
    | gaspower p q => exact absurd hk id
    | _ => rfl
  unfold Net.dNew
  rw [forEach_congr fun v _ => node v, forEach_congr (l := N.equationEdges) fun k _ => edge k, forEach_congr (l := N.controlEdges) fun k _ => edge k]

/-- The residual is affine in the new state, with the matrix of the solver. -/
theorem ShortOnly.affine {t0 t1 : ℝ} (hcomp : Computable N t1) {a : Args} {cs : List (Contribution ℝ)} (h : N.dNew t0 t1 a = Res.ok cs)
    (z : N.Point) (w : Fin N.stateCount → ℝ) : ∃ r, N.residual t0 t1 z = Res.ok r ∧
      N.residual t0 t1 (z.1, z.2.1 + w, z.2.2) = Res.ok (r + matrixOf N.stateCount N.stateCount cs *ᵥ w) := by
  choose g hg _ using C72_residual_iff_laws N hN t0 t1 hcomp
  have hd : ∀ z : N.Point, ∃ D : N.Point →L[ℝ] (Fin N.stateCount → ℝ), HasFDerivAt g D z ∧ ∀ b, D (0, b, 0) = matrixOf N.stateCount N.stateCount cs *ᵥ b := by
    intro z
    obtain ⟨last, new, control, -, h2, -, D, ⟨g', hg', hD⟩, hm⟩ := C69_network_derivative_partial N hN t0 t1 z (hs.regular hcomp _)
    rw [hs.dNew_const hN t0 t1 t0 t1 _ a, h] at h2
    injection h2 with h2
    subst h2
    refine ⟨D, hD.congr_of_eventuallyEq ?_, fun b => ?_⟩
    · filter_upwards [hg'] with y hy
      rw [hg y] at hy
      injection hy
    · rw [hm]; simp
  refine ⟨g z, hg z, ?_⟩
  rw [hg]
  congr 1
  -- along the line
  have hline : ∀ t : ℝ, HasDerivAt (fun t : ℝ => g (z.1, z.2.1 + t • w, z.2.2) - t • (matrixOf N.stateCount N.stateCount cs *ᵥ w)) 0 t := by
    intro t
    obtain ⟨D, hD, hm⟩ := hd (z.1, z.2.1 + t • w, z.2.2)
    have hw : HasDerivAt (fun t : ℝ => t • w) w t := by simpa using (hasDerivAt_id t).smul_const w
    have hM : HasDerivAt (fun t : ℝ => t • (matrixOf N.stateCount N.stateCount cs *ᵥ w)) (matrixOf N.stateCount N.stateCount cs *ᵥ w) t := by
      simpa using (hasDerivAt_id t).smul_const (matrixOf N.stateCount N.stateCount cs *ᵥ w)
    have hpath : HasDerivAt (fun t : ℝ => ((z.1, z.2.1 + t • w, z.2.2) : N.Point)) (0, w, 0) t :=
      (hasDerivAt_const t z.1).prodMk ((hw.const_add z.2.1).prodMk (hasDerivAt_const t z.2.2))
    have hcomp := hD.comp_hasDerivAt t hpath
    rw [hm] at hcomp
    have := hcomp.sub hM
    rwa [sub_self] at this
  have hconst := is_const_of_deriv_eq_zero (fun t => (hline t).differentiableAt) (fun t => (hline t).deriv) 1 0
  simp only [one_smul, zero_smul, add_zero, sub_zero] at hconst
  rw [← hconst]
  abel

end

/-! ## The kernel -/

/-- The same network with vanishing boundary values. -/
def still (N : Net) : Net := { N with node := fun v => { N.node v with boundary := fun _ => Res.ok (0, 0) } }

theorem still_admissible {N : Net} (hN : Admissible N) : Admissible (still N) :=
  ⟨hN.starting, hN.ending, hN.noLoop, hN.points, hN.gasStart, hN.gasEnd, hN.plantEnd, hN.lines⟩

theorem short_regular {N : Net} (hN : Admissible N) (hs : ShortOnly N) (hc : NoShortCircles N) (hway : ∀ k, Supplied N (N.src k)) {t0 t1 : ℝ} {a : Args}
    {cs : List (Contribution ℝ)} (h : N.dNew t0 t1 a = Res.ok cs) (w : Fin N.stateCount → ℝ) (hw : matrixOf N.stateCount N.stateCount cs *ᵥ w = 0) : w = 0 := by
  have hN' := still_admissible hN
  have hs' : ShortOnly (still N) := ⟨hs.edges, hs.nodes⟩
  have hcomp : Computable (still N) t1 := ⟨fun _ _ => ⟨_, rfl⟩, fun _ _ _ _ _ h => absurd h hs.noPipe⟩
  have hext : ∀ n : ℕ, ext (0 : Fin n → ℝ) = fun _ => 0 := by
    intro n; funext i; unfold ext; split <;> rfl
  -- the state of rest, and with it `w`, is a solution of the network without boundary values
  obtain ⟨r, hr, hr'⟩ := hs'.affine hN' hcomp (t0 := t0) (a := a) (cs := cs) h (0, 0, 0) w
  have hr0 : r = 0 := by
    obtain ⟨r', h', hl⟩ := C72_residual_iff_laws (still N) hN' t0 t1 hcomp (0, 0, 0)
    rw [hr] at h'
    injection h' with h'
    rw [h']
    refine hl.mpr ⟨⟨fun _ => 0, fun k _ => ?_, fun v b _ hb => ?_⟩, fun v _ => ⟨fun _ => ?_, fun _ b hb => ?_⟩, fun k kind n he hk => ?_,
      fun k dx d r n he => absurd he hs.noPipe, fun v b hb => ?_, fun k p q n he => ?_⟩
    · unfold Net.args Net.startPressure Net.endPressure Net.pressureOf
      obtain ⟨kind, n, he, hk⟩ := hs'.edges k
      rw [he]
      simp only [hext]
      cases kind <;> first | exact absurd hk id | exact ⟨rfl, fun _ => rfl⟩
    · injection hb with hb
      subst hb
      rfl
    · unfold Net.args Net.outflow Net.startFlow Net.endFlow
      simp [hext]
    · injection hb with hb
      subst hb
      unfold Net.args Net.outflow Net.startFlow Net.endFlow
      simp [hext]
    · unfold Net.args Net.startPressure Net.endPressure Net.pressureOf Net.startFlow Net.endFlow
      rw [he]
      simp only [hext]
      cases kind <;> first | exact absurd hk id | exact ⟨by simp [Gas.demandedRise], trivial⟩
    · have := hs'.nodes v
      cases hk : ((still N).node v).kind with
      | power k => rw [hk] at this; cases this
      | plant => rw [hk] at this; cases this
      | _ => trivial
    · obtain ⟨kind, m, he', hk⟩ := hs'.edges k
      rw [he] at he'
      injection he' with he'
      subst he'
      exact absurd hk id
  have hz : (still N).residual t0 t1 (0, w, 0) = Res.ok 0 := by
    have h0 : r + matrixOf (still N).stateCount (still N).stateCount cs *ᵥ w = 0 := by
      rw [hr0, zero_add]
      exact hw
    rw [h0] at hr'
    have hadd : ∀ w' : Fin (still N).stateCount → ℝ, (still N).residual t0 t1 (0, 0 + w', 0) = Res.ok 0 → (still N).residual t0 t1 (0, w', 0) = Res.ok 0 :=
      fun w' h => by rwa [zero_add] at h
    exact hadd w hr'
  obtain ⟨r', h', hl⟩ := C72_residual_iff_laws (still N) hN' t0 t1 hcomp (0, w, 0)
  rw [hz] at h'
  injection h' with h'
  have la := hl.mp h'.symm
  have lnew : ((still N).args (0, w, 0)).new = ext w := rfl
  obtain ⟨P, hP, hP0⟩ := la.pressures
  have short : ∀ k, N.endPressure k (ext w) = N.startPressure k (ext w) ∧ N.startFlow k (ext w) = N.endFlow k (ext w) := by
    intro k
    obtain ⟨kind, n, he, hk⟩ := hs.edges k
    obtain ⟨l1, l2⟩ := la.short k kind n he hk
    refine ⟨?_, l2⟩
    have hrise : Gas.demandedRise kind (((still N).args (0, w, 0)).control ((still N).controlRange k).1) = 0 := by
      unfold Net.args
      simp only [hext]
      cases kind <;> first | exact absurd hk id | simp [Gas.demandedRise]
    rw [hrise, add_zero] at l1
    exact l1
  have hgasEnd : ∀ k, (N.node (N.dst k)).kind.isGas := fun k => hs.nodes _
  have hends : ∀ k, N.startPressure k (ext w) = P (N.src k) ∧ N.endPressure k (ext w) = P (N.dst k) :=
    fun k => ⟨(hP k (hs.gas k)).1, (hP k (hs.gas k)).2 (hgasEnd k)⟩
  -- pressures
  have zero : ∀ v, Supplied N v → P v = 0 := by
    rintro v ⟨v0, hv0, way⟩
    induction way with
    | refl => exact hP0 v0 (0, 0) hv0 rfl
    | tail _ hstep ih =>
      obtain ⟨k, -, hk⟩ := hstep
      have := (hends k).1
      have h2 := (hends k).2
      rw [(short k).1, this] at h2
      rcases hk with ⟨rfl, rfl⟩ | ⟨rfl, rfl⟩
      · rw [← h2, ih]
      · rw [h2, ih]
  -- flows
  have flow := noShortCircles_zero hc (fun k => N.startFlow k (ext w)) (fun k hk => absurd (hs.edges k) hk) (by
    intro v hv
    have hout : N.outflow v (ext w) = netOut N (fun k => N.startFlow k (ext w)) v := by
      unfold Net.outflow netOut
      congr 1 <;> refine Finset.sum_congr rfl fun k _ => ?_
      · simp only [hs.gas k, if_true]
      · simp only [hs.gas k, if_true, (short k).2]
    rw [← hout]
    by_cases hk : ∃ k, N.src k = v ∨ N.dst k = v
    · obtain ⟨k, hk⟩ := hk
      obtain ⟨l1, l2⟩ := la.flows v ⟨k, hs.gas k, hk⟩
      have hg := hs.nodes v
      cases hkind : (N.node v).kind with
      | innode => exact l1 hkind
      | flow => exact l2 hkind (0, 0) rfl
      | pressure => exact absurd hkind hv
      | power k => rw [hkind] at hg; cases hg
      | plant => rw [hkind] at hg; cases hg
    · push Not at hk
      unfold Net.outflow
      rw [Finset.sum_eq_zero fun k _ => if_neg (hk k).1, Finset.sum_eq_zero fun k _ => if_neg (hk k).2, sub_zero])
  -- all values
  funext i
  have hi : (i.val : ℤ) < N.states := by
    have := i.isLt
    unfold Net.stateCount at this
    omega
  have hval : ext w i.val = w i := by
    unfold ext
    rw [dif_pos ⟨by omega, by simp⟩]
    simp
  rw [← hval]
  obtain ⟨c, hc'⟩ := N.exists_inRange (r := (i.val : ℤ)) (by omega) hi
  cases c with
  | inl v =>
    have hlen := N.range_length (.inl v)
    have hneed : N.need (.inl v) = 0 := by
      show nodeNeed (N.node v).kind = 0
      have hg := hs.nodes v
      cases hk : (N.node v).kind <;> rw [hk] at hg <;> first | rfl | cases hg
    rw [hneed] at hlen
    obtain ⟨h1, h2⟩ := hc'
    push_cast at hlen
    omega
  | inr k =>
    have hlen := Admissible.edgeRange_length (N := N) (k := k)
    obtain ⟨kind, n, he, hk⟩ := hs.edges k
    have hfour : edgeNeed (N.edge k) = 4 := by
      rw [he]
      cases kind <;> first | exact absurd hk id | rfl
    rw [hfour] at hlen
    obtain ⟨h1, h2⟩ := hc'
    simp only [Net.range] at h1 h2
    have hf1 := flow k
    have hf2 := (short k).2
    have hp1 := (hends k).1
    have hp2 := (short k).1
    rw [zero _ (hway k)] at hp1
    rw [hp1] at hp2
    rw [hf1] at hf2
    unfold Net.startFlow at hf1
    unfold Net.endFlow at hf2
    have hpo : ∀ x, N.pressureOf k x = x := by
      intro x
      unfold Net.pressureOf
      rw [he]
      cases kind <;> first | exact absurd hk id | rfl
    unfold Net.startPressure at hp1
    unfold Net.endPressure at hp2
    rw [hpo] at hp1 hp2
    have : (i.val : ℤ) = (N.edgeRange k).1 ∨ (i.val : ℤ) = (N.edgeRange k).1 + 1 ∨ (i.val : ℤ) = (N.edgeRange k).2 - 2 ∨ (i.val : ℤ) = (N.edgeRange k).2 - 1 := by
      push_cast at hlen
      omega
    rcases this with h | h | h | h <;> rw [h]
    · exact hp1
    · exact hf1
    · exact hp2
    · exact hf2.symm

/-! ## C180 -/

theorem short_floating {N : Net} (hs : ShortOnly N) {v : Fin N.nodes} (h : ¬ Supplied N v) : Floating N v := by
  intro w hw
  refine ⟨fun hk => h ⟨w, hk, ?_⟩, fun k dx d r n he => absurd he hs.noPipe⟩
  have hsym : ∀ x y, ReflTransGen (ShortJoined N) x y → ReflTransGen (Joined N) y x := by
    intro x y hxy
    induction hxy with
    | refl => exact ReflTransGen.refl
    | tail _ hstep ih =>
      obtain ⟨k, -, hk⟩ := hstep
      exact ReflTransGen.head ⟨k, hs.gas k, hk.symm⟩ ih
  exact hsym _ _ hw

/-- **C180** for the solver: in a network of short edges the matrix of the linear systems is the same in all time steps and states, and it is regular if and only if there are no circles and
no ways between pressure nodes, and every edge is joined to a pressure node. -/
theorem C180_regular (N : Net) (hN : Admissible N) (hs : ShortOnly N) (t0 t1 : ℝ) (a : Args) (cs : List (Contribution ℝ)) (h : N.dNew t0 t1 a = Res.ok cs) :
    (∀ s0 s1 b, N.dNew s0 s1 b = Res.ok cs) ∧
      ((matrixOf N.stateCount N.stateCount cs).det ≠ 0 ↔ NoShortCircles N ∧ ∀ k, Supplied N (N.src k)) := by
  refine ⟨fun s0 s1 b => (hs.dNew_const hN s0 s1 t0 t1 b a).trans h, fun hdet => ?_, fun ⟨hc, hway⟩ hdet => ?_⟩
  · refine ⟨?_, fun k => ?_⟩
    · by_contra hc
      exact hdet (C177_singular N hN hc t0 t1 a cs h)
    · by_contra hk
      exact hdet (C179_singular N hN k (hs.gas k) (short_floating hs hk) t0 t1 a cs h)
  · obtain ⟨w, hw, hz⟩ := Matrix.exists_mulVec_eq_zero_iff.mpr hdet
    exact hw (short_regular hN hs hc hway h w hz)

/-- **C180.** In a network of short edges a time step has exactly one solution if and only if there are no circles of edges and no ways between pressure nodes, and every edge is joined to a
pressure node. This does not depend on the boundary values, controls and times. -/
theorem C180 (N : Net) (hN : Admissible N) (hs : ShortOnly N) (t0 t1 : ℝ) (hcomp : Computable N t1) (last : Fin N.stateCount → ℝ) (control : Fin N.controlCount → ℝ) :
    (∃! y, N.residual t0 t1 (last, y, control) = Res.ok 0) ↔ NoShortCircles N ∧ ∀ k, Supplied N (N.src k) := by
  obtain ⟨-, cs, -, -, h, -⟩ := hN.network_exact t0 (a₀ := N.args (last, 0, control)) (hs.regular hcomp _)
  have haff := fun y w => hs.affine hN hcomp h (last, y, control) w
  rw [← (C180_regular N hN hs t0 t1 _ cs h).2]
  constructor
  · rintro ⟨y, hy, huniq⟩ hdet
    obtain ⟨w, hw, hz⟩ := Matrix.exists_mulVec_eq_zero_iff.mpr hdet
    obtain ⟨r, hr, hr'⟩ := haff y w
    rw [hz, add_zero, ← hr] at hr'
    have := huniq (y + w) (hr'.trans hy)
    exact hw (by simpa using this)
  · intro hdet
    have hunit : IsUnit (matrixOf N.stateCount N.stateCount cs).det := isUnit_iff_ne_zero.mpr hdet
    obtain ⟨r, hr, -⟩ := haff 0 0
    have hall : ∀ w, N.residual t0 t1 (last, w, control) = Res.ok (r + matrixOf N.stateCount N.stateCount cs *ᵥ w) := by
      intro w
      obtain ⟨r', h1, h2⟩ := haff 0 w
      rw [hr] at h1
      injection h1 with h1
      subst h1
      simpa using h2
    refine ⟨(matrixOf N.stateCount N.stateCount cs)⁻¹ *ᵥ (-r), ?_, fun y hy => ?_⟩
    · show N.residual t0 t1 _ = _
      rw [hall, Matrix.mulVec_mulVec, Matrix.mul_nonsing_inv _ hunit, Matrix.one_mulVec, add_neg_cancel]
    · simp only [hall] at hy
      injection hy with hy
      rw [← eq_neg_of_add_eq_zero_right hy, Matrix.mulVec_mulVec, Matrix.nonsing_inv_mul _ hunit, Matrix.one_mulVec]

/-- **C180** for Newton's method: in a network of short edges a full step of Newton's method ends in a solution, wherever it starts. -/
theorem C180_one_step (N : Net) (hN : Admissible N) (hs : ShortOnly N) (t0 t1 : ℝ) (hcomp : Computable N t1) (z : N.Point) (r step : Fin N.stateCount → ℝ)
    (cs : List (Contribution ℝ)) (hr : N.residual t0 t1 z = Res.ok r) (h : N.dNew t0 t1 (N.args z) = Res.ok cs)
    (hstep : matrixOf N.stateCount N.stateCount cs *ᵥ step = -r) : N.residual t0 t1 (z.1, z.2.1 + step, z.2.2) = Res.ok 0 := by
  obtain ⟨r', h1, h2⟩ := hs.affine hN hcomp h z step
  rw [hr] at h1
  injection h1 with h1
  subst h1
  rw [h2, hstep, add_neg_cancel]

/-! ## The Newton solver and the simulation -/

/-- **C180** for `Newtonsolver::solve`: in a network of short edges without circles, each joined to a pressure node, the solver succeeds after at most one iteration, from every guess, in both
modes, without damping. It returns the guess, if this meets the tolerance already, and the exact solution otherwise. -/
theorem C180_solver (N : Net) (hN : Admissible N) (hs : ShortOnly N) (hc : NoShortCircles N) (hway : ∀ k, Supplied N (N.src k))
    (factor : Option (Res (List (Contribution ℝ))) → Option (Option (Fin N.stateCount → ℝ) → Option (Fin N.stateCount → ℝ))) (hfac : Solves factor)
    (t0 t1 : ℝ) (hcomp : Computable N t1) (last guess : Fin N.stateCount → ℝ) (control : Fin N.controlCount → ℝ) (tol : ℝ) (htol : 0 ≤ tol) (maxIter : ℤ)
    (hmax : 1 ≤ maxIter) (full : Bool) (fuel : ℕ) :
    ∃ y sol, solve (N.newton factor t0 t1 (some last) control) tol maxIter full fuel (some guess) = some (Res.ok (some y, sol)) ∧ sol.success = true ∧ sol.used ≤ 1 ∧
      ((y = guess ∧ ∃ f, N.residual t0 t1 (last, y, control) = Res.ok f ∧ Real.sqrt (∑ i, f i ^ 2) ≤ tol) ∨ N.residual t0 t1 (last, y, control) = Res.ok 0) := by
  obtain ⟨-, cs, -, -, h, -⟩ := hN.network_exact t0 (a₀ := N.args (last, guess, control)) (hs.regular hcomp _)
  have hdet := (C180_regular N hN hs t0 t1 _ cs h).2.mpr ⟨hc, hway⟩
  obtain ⟨slv, hslv, hsol⟩ := hfac cs hdet
  have hinj : ∀ v, matrixOf N.stateCount N.stateCount cs *ᵥ v = 0 → v = 0 := short_regular hN hs hc hway h
  have hfin : ∀ y : Fin N.stateCount → ℝ, N.Finite (ext y) := fun y k dx d r n he => absurd he hs.noPipe
  obtain ⟨r, hr, -⟩ := hs.affine hN hcomp h (last, guess, control) 0
  have hev := (newton_evaluate N factor t0 t1 last guess control).1 (hfin guess) r hr
  obtain ⟨v, hv, hMv⟩ := hsol r
  have hone : N.residual t0 t1 (last, guess + (1 : ℝ) • (-v), control) = Res.ok 0 := by
    have := C180_one_step N hN hs t0 t1 hcomp (last, guess, control) r (-v) cs hr h (by rw [Matrix.mulVec_neg, hMv])
    simpa using this
  have hev' := (newton_evaluate N factor t0 t1 last (guess + (1 : ℝ) • (-v)) control).1 (hfin _) 0 hone
  obtain ⟨v0, hv0, hMv0⟩ := hsol 0
  obtain rfl := hinj v0 hMv0
  have hjac : (N.newton factor t0 t1 (some last) control).jac (some guess) = some slv := by
    show N.factorized factor t0 t1 (some last) control (some guess) = some slv
    unfold Net.factorized
    simp only [h, hslv]
  have hzero : Real.sqrt (∑ i : Fin N.stateCount, (0 : ℝ) ^ 2) = 0 := by simp
  unfold solve
  simp only [hev]
  by_cases hle : le ((N.newton factor t0 t1 (some last) control).normY (some r)) (some tol) = true
  · rw [if_pos hle]
    refine ⟨guess, _, rfl, rfl, by simp, Or.inl ⟨rfl, r, hr, ?_⟩⟩
    exact of_decide_eq_true hle
  · rw [if_neg hle]
    have hgt : gt ((N.newton factor t0 t1 (some last) control).normY (some r)) (some tol) = true := by
      have h1 : ¬ Real.sqrt (∑ i, r i ^ 2) ≤ tol := fun h => hle (decide_eq_true h)
      exact decide_eq_true (lt_of_not_ge h1)
    obtain ⟨n, hn⟩ : ∃ n, maxIter.toNat = n + 1 := ⟨maxIter.toNat - 1, by omega⟩
    have hfix : (if full = true then (N.newton factor t0 t1 (some last) control).jac (some guess)
        else if full = true then none else (N.newton factor t0 t1 (some last) control).jac (some guess)) = some slv := by
      cases full <;> simp [hjac]
    have hfixed : (!full && (if full = true then none else (N.newton factor t0 t1 (some last) control).jac (some guess)).isNone) = false := by
      cases full <;> simp [hjac]
    rw [hfixed, hn]
    simp only [Bool.false_eq_true, if_false]
    have hmove : (N.newton factor t0 t1 (some last) control).move (some guess) 1 ((N.newton factor t0 t1 (some last) control).neg (slv (some r))) =
        some (guess + (1 : ℝ) • (-v)) := by
      rw [hv]; rfl
    have hstop : ∀ f x step t, 0 ≤ t → lineSearch (N.newton factor t0 t1 (some last) control) slv x step (some t) f 1 (some (guess + (1 : ℝ) • (-v)))
        (some 0) ((N.newton factor t0 t1 (some last) control).normX ((N.newton factor t0 t1 (some last) control).neg (slv (some 0)))) =
          some (Res.ok (1, some (guess + (1 : ℝ) • (-v)), some 0)) := by
      intro f x step t ht
      have hn0 : (N.newton factor t0 t1 (some last) control).normX ((N.newton factor t0 t1 (some last) control).neg (slv (some 0))) = some 0 := by
        rw [hv0]
        show some (Real.sqrt (∑ i : Fin N.stateCount, (-(0 : Fin N.stateCount → ℝ)) i ^ 2)) = some 0
        simp
      rw [hn0]
      have hno : gt (some (0 : ℝ)) ((some t).map fun t => (1 - 1 / 2 * 1) * t) = false := by
        refine decide_eq_false ?_
        norm_num
        exact ht
      unfold lineSearch
      rw [hno]
      simp
    have hstep : (N.newton factor t0 t1 (some last) control).normX ((N.newton factor t0 t1 (some last) control).neg (slv (some r))) =
        some (Real.sqrt (∑ i, (-v) i ^ 2)) := by
      rw [hv]; rfl
    have hnorm0 : (N.newton factor t0 t1 (some last) control).normY (some 0) = some 0 := by
      show some (Real.sqrt (∑ i : Fin N.stateCount, (0 : Fin N.stateCount → ℝ) i ^ 2)) = some 0
      simp
    have hng : gt (some (0 : ℝ)) (some tol) = false := decide_eq_false (not_lt.mpr htol)
    have hit : iterate (N.newton factor t0 t1 (some last) control) tol full fuel
        (if full = true then none else (N.newton factor t0 t1 (some last) control).jac (some guess)) (n + 1) (some guess) (some r) Sol.default =
        some (Res.ok (some (guess + (1 : ℝ) • (-v)), ⟨false, some 0, 1⟩)) := by
      unfold iterate
      rw [hgt]
      simp only [if_true, hfix, hmove, hev', hstep, hstop _ _ _ _ (Real.sqrt_nonneg _)]
      cases n with
      | zero => simp [iterate, hnorm0, Sol.default]
      | succ n =>
        unfold iterate
        rw [hnorm0, hng]
        simp [Sol.default]
    rw [hit]
    refine ⟨_, _, rfl, ?_, le_rfl, Or.inr hone⟩
    simp [hng]

/-- **C180** for `Timeevolver::simulate`: in such a network every simulation succeeds, for all times, boundary values, controls and initial states, in both modes and without retries. -/
theorem C180_simulation (N : Net) (hN : Admissible N) (hs : ShortOnly N) (hc : NoShortCircles N) (hway : ∀ k, Supplied N (N.src k))
    (factor : Option (Res (List (Contribution ℝ))) → Option (Option (Fin N.stateCount → ℝ) → Option (Fin N.stateCount → ℝ))) (hfac : Solves factor)
    (time : ℕ → ℝ) (steps : ℕ) (hsteps : 1 ≤ steps) (hcomp : ∀ i < steps, Computable N (time (i + 1))) (initial : Fin N.stateCount → ℝ)
    (controls : ℝ → Res (Fin N.controlCount → ℝ)) (U : ℕ → Fin N.controlCount → ℝ) (hcontrols : ∀ i < steps, controls (time (i + 1)) = Res.ok (U (i + 1)))
    (tol : ℝ) (htol : 0 ≤ tol) (maxIter : ℤ) (hmax : 1 ≤ maxIter) (retries : ℤ) (simplified : Bool) (fuel : ℕ) :
    ∃ (states : ℕ → Fin N.stateCount → ℝ) (trace : List (Attempt ℝ (Option (Fin N.stateCount → ℝ)) (Fin N.controlCount → ℝ))),
      simulate retries simplified (newtonSolver (N.newton factor) tol maxIter fuel) controls ((List.range (steps + 1)).map time) (some initial) =
        (Res.ok ((List.range (steps + 1)).map fun i => some (states i)), trace) ∧ trace.length = steps := by
  let Good : ℕ → Option (Fin N.stateCount → ℝ) → Prop := fun _ x => ∃ v, x = some v
  obtain ⟨xs, trace, h1, h2, h3⟩ := loop_follows retries simplified (newtonSolver (N.newton factor) tol maxIter fuel) controls time Good steps
    0 (some initial) [] ⟨initial, rfl⟩ (by
      rintro i - hi x ⟨v, rfl⟩
      rw [zero_add] at hi
      refine ⟨_, hcontrols i hi, fun hist full => ?_⟩
      obtain ⟨y, sol, e1, e2, -⟩ := C180_solver N hN hs hc hway factor hfac (time i) (time (i + 1)) (hcomp i hi) v v (U (i + 1)) tol htol maxIter hmax full fuel
      refine ⟨some y, ?_, y, rfl⟩
      unfold newtonSolver
      simp only [e1, e2])
  have h4 : ∀ i, ∃ v, i < steps → xs i = some v := by
    intro i
    by_cases hi : i < steps
    · obtain ⟨v, hv⟩ := h3 i hi
      exact ⟨v, fun _ => hv⟩
    · exact ⟨0, fun h => absurd h hi⟩
  choose vs hvs using h4
  refine ⟨fun i => if i = 0 then initial else vs (i - 1), trace, ?_, by simpa using h2⟩
  obtain ⟨n, rfl⟩ : ∃ n, steps = n + 1 := ⟨steps - 1, by omega⟩
  have e1 : (List.range (n + 1 + 1)).map time = time 0 :: time 1 :: (List.range n).map fun i => time (i + 2) := by
    rw [List.range_succ_eq_map, List.map_cons, List.map_map, List.range_succ_eq_map, List.map_cons, List.map_map]
    rfl
  have e2 : time 1 :: (List.range n).map (fun i => time (i + 2)) = (List.range (n + 1)).map fun i => time (0 + i + 1) := by
    rw [List.range_succ_eq_map, List.map_cons, List.map_map]
    refine congrArg₂ List.cons rfl (List.map_congr_left fun i _ => ?_)
    show time (i + 2) = time (0 + (i + 1) + 1)
    congr 1
    omega
  rw [e1]
  unfold simulate
  simp only [show controls (time 1) = Res.ok (U 1) from hcontrols 0 (by omega), e2, h1]
  congr 2
  rw [List.range_succ_eq_map (n := n + 1), List.map_cons, List.map_map]
  refine congrArg₂ List.cons rfl (List.map_congr_left fun i hi => ?_)
  rw [hvs i (List.mem_range.mp hi)]
  show some (vs i) = some (if i + 1 = 0 then initial else vs (i + 1 - 1))
  rw [if_neg (by omega)]
  rfl

/-! ## Examples -/

theorem shortNet_shortOnly : ShortOnly shortNet where
  edges _ := ⟨.shortpipe, 0, rfl, trivial⟩
  nodes := by
    show ∀ v : Fin 2, _
    intro v
    match v with
    | 0 => rfl
    | 1 => rfl

theorem shortNet_noCircles : NoShortCircles shortNet := by
  intro k _ h
  have none : ∀ v w, ShortWay shortNet k v w → v = (0 : Fin 2) := by
    rintro v w (⟨e, he, -⟩ | ⟨hv, -⟩)
    · exact absurd (Subsingleton.elim (α := Fin 1) e k) he
    · revert v
      show ∀ v : Fin 2, _
      intro v
      match v with
      | 0 => intro _; rfl
      | 1 => intro hv; cases hv
  rcases ReflTransGen.cases_head h with h | ⟨w, hw, -⟩
  · exact absurd h (by show ¬ (1 : Fin 2) = 0; decide)
  · exact absurd (none _ _ hw) (by show ¬ (1 : Fin 2) = 0; decide)

/-- A short pipe from a pressure node to a sink: the time step has exactly one solution. -/
example : ShortOnly shortNet ∧ Admissible shortNet ∧ Computable shortNet 60 ∧ ∃! y, shortNet.residual 0 60 (shortState, y, noControl) = Res.ok 0 :=
  ⟨shortNet_shortOnly, short_admissible, short_computable 60,
    (C180 shortNet short_admissible shortNet_shortOnly 0 60 (short_computable 60) shortState noControl).mpr
      ⟨shortNet_noCircles, fun _ => ⟨(0 : Fin 2), rfl, ReflTransGen.refl⟩⟩⟩

/-- Simulations of it succeed, for example with a solver by Cramer's rule. -/
example : Solves (cramer shortNet.stateCount) ∧ ∃ (states : ℕ → Fin shortNet.stateCount → ℝ) (trace : List (Attempt ℝ (Option (Fin shortNet.stateCount → ℝ)) (Fin shortNet.controlCount → ℝ))), simulate 0 false (newtonSolver (shortNet.newton (cramer shortNet.stateCount)) 0 1 0)
    (fun _ => Res.ok noControl) ((List.range 6).map fun i : ℕ => (i : ℝ)) (some shortState) =
      (Res.ok ((List.range 6).map fun i => some (states i)), trace) ∧ trace.length = 5 :=
  ⟨cramer_solves _, C180_simulation shortNet short_admissible shortNet_shortOnly shortNet_noCircles (fun _ => ⟨(0 : Fin 2), rfl, ReflTransGen.refl⟩)
    _ (cramer_solves _) (fun i => (i : ℝ)) 5 (by norm_num) (fun _ _ => short_computable _) shortState (fun _ => Res.ok noControl) (fun _ => noControl)
    (fun _ _ => rfl) 0 le_rfl 1 le_rfl 0 false 0⟩

/-- Two short pipes side by side: it has not. -/
example (last : Fin loopNet.stateCount → ℝ) (control : Fin loopNet.controlCount → ℝ) :
    ¬ ∃! y, loopNet.residual 0 60 (last, y, control) = Res.ok 0 := fun h =>
  loop_circle ((C180 loopNet loop_admissible
    ⟨fun _ => ⟨.shortpipe, 0, rfl, trivial⟩, by
      show ∀ v : Fin 2, _
      intro v
      match v with
      | 0 => rfl
      | 1 => rfl⟩ 0 60 ⟨fun _ _ => ⟨_, rfl⟩, fun _ _ _ _ _ h => by injection h with h; cases h⟩ last control).mp h).1

end Verif.Network
