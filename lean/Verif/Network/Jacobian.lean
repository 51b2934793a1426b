import Verif.Network.Pattern
import Verif.Handler.Props
import Mathlib.LinearAlgebra.Matrix.ToLin
import Mathlib.Analysis.Calculus.FDeriv.Pi

/-! # Property C69: the derivative matrices of a whole network -/

set_option autoImplicit false

namespace Verif.Network

open Verif.Net Verif.Handler Filter Topology Matrix

/-! ## Specification -/

/-- The times and arguments are in the set where all equations are differentiable and their derivatives are right: the
boundary conditions have a value at the time, pipes have a real geometry, and at each point of a pipe the density is
positive and the flow is not fully turbulent (there the friction derivative is wrong, `C33`). -/
structure Regular (N : Net) (newTime : ℝ) (new : Vec) : Prop where
  boundary : ∀ v, (N.node v).kind ≠ .innode → ∃ b, (N.node v).boundary newTime = Res.ok b
  pipes : ∀ k dx d r n, N.edge k = .gas (.pipe dx d r) n → dx ≠ 0 ∧ Euler.RealPipe d r ∧
    ∀ j : ℤ, (N.edgeRange k).1 ≤ j → j + 1 < (N.edgeRange k).2 → (j - (N.edgeRange k).1) % 2 = 0 →
      0 < new j ∧ Euler.reynolds (new (j + 1)) d < 4000

/-- The vector of length `n` as a function of all indices. -/
def ext {n : ℕ} (v : Fin n → ℝ) : Vec := fun j => if h : 0 ≤ j ∧ j.toNat < n then v ⟨j.toNat, h.2⟩ else 0

/-- The number of states and of controls. -/
def Net.stateCount (N : Net) : ℕ := N.states.toNat

def Net.controlCount (N : Net) : ℕ := N.controls.toNat

/-- Last state, new state and control of a network. -/
abbrev Net.Point (N : Net) := (Fin N.stateCount → ℝ) × (Fin N.stateCount → ℝ) × (Fin N.controlCount → ℝ)

/-- The vectors as the arguments of the functions of the network. -/
def Net.args (N : Net) (z : N.Point) : Args := ⟨ext z.1, ext z.2.1, ext z.2.2⟩

/-- The vector `rootvalues` after `evaluate` was called on a zero vector (by C39 the result is the same for
any other vector). -/
noncomputable def Net.residual (N : Net) (lastTime newTime : ℝ) (z : N.Point) : Res (Fin N.stateCount → ℝ) := do
  let ops ← N.evaluate lastTime newTime (N.args z)
  Res.ok fun i => run (fun _ => 0) ops i.val

/-- The matrix the entries sum up to, which by C27 is the one both matrix handlers fill. -/
noncomputable def matrixOf (n m : ℕ) (cs : List (Contribution ℝ)) : Matrix (Fin n) (Fin m) ℝ :=
  Matrix.of fun i j => total cs i.val j.val

/-! ## The components -/

namespace Admissible
variable {N : Net} (hN : Admissible N)
include hN

/-- The lines at all nodes can be used. -/
theorem bus_ok (v : Fin N.nodes) : ∃ b, N.bus v = Res.ok b := by
  unfold Net.bus
  rw [if_pos]
  · exact ⟨_, rfl⟩
  · rw [List.all_eq_true]
    intro x hx
    unfold Net.attached at hx
    rcases List.mem_append.mp hx with hx | hx
    · obtain ⟨k, -, h⟩ := List.mem_filterMap.mp hx
      cases hk : N.edge k with
      | gas kind n => simp [hk] at h
      | line G B =>
        simp only [hk, Option.some.injEq] at h
        subst h
        exact (hN.lines k G B hk).2
    · obtain ⟨k, -, h⟩ := List.mem_filterMap.mp hx
      cases hk : N.edge k with
      | gas kind n => simp [hk] at h
      | line G B =>
        simp only [hk, Option.some.injEq] at h
        subst h
        exact (hN.lines k G B hk).1

/-- The pressure is defined at all ends of edges. -/
theorem ends_defined {newTime : ℝ} {new : Vec} (hr : Regular N newTime new) {v : Fin N.nodes}
    (hv : (N.node v).kind.isGas) : ∀ x ∈ N.ends v, Gas.Defined new x := by
  intro x hx dx d k hkind
  obtain ⟨l, e, he, hcase⟩ := hN.mem_ends.mp hx
  obtain ⟨kind, n, hl, rfl⟩ := gasEdge_eq.mp he
  have hlen := edgeRange_length (k := l)
  have hp : kind = .pipe dx d k := by rcases hcase with ⟨_, rfl⟩ | ⟨_, rfl⟩ <;> exact hkind
  subst hp
  have hn := hN.points l dx d k n hl
  rw [hl] at hlen
  simp only [edgeNeed] at hlen
  have hpos := (hr.pipes l dx d k n hl).2.2
  refine (Euler.C31_density_round_trip _).2 (le_of_lt ?_)
  rcases hcase with ⟨_, rfl⟩ | ⟨_, rfl⟩
  · exact (hpos (N.edgeRange l).1 le_rfl (by omega) (by simp)).1
  · exact (hpos ((N.edgeRange l).2 - 2) (by omega) (by omega) (by omega)).1

theorem node_jacobian {newTime : ℝ} {a₀ : Args} (hr : Regular N newTime a₀.new) (v : Fin N.nodes) :
    ∃ cs, N.nodeNew v a₀ = Res.ok cs ∧
      Exact (fun a => N.nodeEvaluate v newTime a) ⟨[], cs, []⟩ (N.rows (.inl v)) a₀ := by
  suffices h : ∃ cs, N.nodeNew v a₀ = Res.ok cs ∧ IsJacobian (fun a => N.nodeEvaluate v newTime a) ⟨[], cs, []⟩ a₀ by
    obtain ⟨cs, h1, h2⟩ := h
    exact ⟨cs, h1, fun a ops ho => (hN.node_fills ho).rows, h2⟩
  have hpower : ∀ k : Power.Kind, ((N.node v).kind ≠ .innode) → ∃ cs, (do
        let bus ← N.bus v
        Res.ok (Power.busNew k bus a₀.new)) = Res.ok cs ∧ IsJacobian (fun a => do
          let bus ← N.bus v
          let b ← (N.node v).boundary newTime
          Res.ok (Power.busEvaluate k bus b a.new)) ⟨[], cs, []⟩ a₀ := by
    intro k hk
    obtain ⟨b, hb⟩ := hN.bus_ok v
    obtain ⟨c, hc⟩ := hr.boundary v hk
    simp only [hb, hc, Res.ok_bind]
    exact ⟨_, rfl, (Power.C41_node k b c a₀).jacobian⟩
  have hnil : IsJacobian (fun _ => Res.ok []) ⟨[], [], []⟩ a₀ := (exact_nil a₀).jacobian
  unfold Net.nodeNew Net.nodeEvaluate
  cases hk : (N.node v).kind with
  | innode =>
    have hv : (N.node v).kind.isGas := by rw [hk]; rfl
    obtain ⟨cs, h1, h2⟩ := Gas.C36_flow_node (N.ends v) 0 a₀ (hN.ends_usable hv) (hN.ends_rows v) (hN.ends_ids v)
      (hN.ends_defined hr hv)
    exact ⟨cs, h1, h2.jacobian⟩
  | flow =>
    have hv : (N.node v).kind.isGas := by rw [hk]; rfl
    simp only
    split
    · exact ⟨[], rfl, hnil⟩
    · obtain ⟨b, hb⟩ := hr.boundary v (by rw [hk]; simp)
      obtain ⟨cs, h1, h2⟩ := Gas.C36_flow_node (N.ends v) b.1 a₀ (hN.ends_usable hv) (hN.ends_rows v) (hN.ends_ids v)
        (hN.ends_defined hr hv)
      simp only [hb, Res.ok_bind]
      exact ⟨cs, h1, h2.jacobian⟩
  | pressure =>
    have hv : (N.node v).kind.isGas := by rw [hk]; rfl
    simp only
    split
    · exact ⟨[], rfl, hnil⟩
    · obtain ⟨b, hb⟩ := hr.boundary v (by rw [hk]; simp)
      obtain ⟨cs, h1, h2⟩ := Gas.C36_pressure_node (N.ends v) b.1 a₀ (hN.ends_usable hv) (hN.ends_rows v)
        (hN.ends_defined hr hv)
      simp only [hb, Res.ok_bind]
      exact ⟨cs, h1, h2.jacobian⟩
  | power k => exact hpower k (by rw [hk]; simp)
  | plant => exact hpower .vphi (by rw [hk]; simp)

theorem edge_jacobian (lastTime : ℝ) {newTime : ℝ} {a₀ : Args} (hr : Regular N newTime a₀.new) (k : Fin N.edges) :
    ∃ last new control, N.edgeLast k = Res.ok last ∧ N.edgeNew k lastTime newTime a₀ = Res.ok new ∧
      N.edgeControl k = Res.ok control ∧ ((N.edge k).isControl = false → control = []) ∧
      Exact (N.edgeEvaluate k lastTime newTime) ⟨last, new, control⟩ (N.rows (.inr k)) a₀ := by
  suffices h : ∃ last new control, N.edgeLast k = Res.ok last ∧ N.edgeNew k lastTime newTime a₀ = Res.ok new ∧
      N.edgeControl k = Res.ok control ∧ ((N.edge k).isControl = false → control = []) ∧
      IsJacobian (N.edgeEvaluate k lastTime newTime) ⟨last, new, control⟩ a₀ by
    obtain ⟨last, new, control, h1, h2, h3, h4, h5⟩ := h
    exact ⟨last, new, control, h1, h2, h3, h4, fun a ops ho => (hN.edge_fills ho).rows, h5⟩
  have hlen := edgeRange_length (k := k)
  cases hk : N.edge k with
  | line G B =>
    have h0 : N.gasEdge k = none := by simp [Net.gasEdge, hk]
    refine ⟨[], [], [], by simp [Net.edgeLast, h0], by simp [Net.edgeNew, h0], by simp [Net.edgeControl, h0],
      fun _ => rfl, ?_⟩
    have : N.edgeEvaluate k lastTime newTime = fun _ => Res.ok [] := by
      funext a; simp [Net.edgeEvaluate, h0]
    rw [this]
    exact (exact_nil a₀).jacobian
  | gas kind n =>
    rw [hk] at hlen
    have hg : N.gasEdge k = some ⟨k.val, kind, (N.edgeRange k).1, (N.edgeRange k).2, (N.controlRange k).1⟩ :=
      gasEdge_eq.mpr ⟨kind, n, hk, rfl⟩
    have hgas : (∀ g p, kind ≠ .gaspower g p) →
        N.edgeEvaluate k lastTime newTime = Gas.edgeEvaluate ⟨k.val, kind, (N.edgeRange k).1, (N.edgeRange k).2,
          (N.controlRange k).1⟩ lastTime newTime ∧
        N.edgeNew k lastTime newTime = Gas.edgeNew ⟨k.val, kind, (N.edgeRange k).1, (N.edgeRange k).2,
          (N.controlRange k).1⟩ lastTime newTime := by
      intro h
      constructor <;> funext a
      · unfold Net.edgeEvaluate
        simp only [hg]
      · unfold Net.edgeNew
        simp only [hg]
    have hlast : N.edgeLast k = Gas.edgeLast ⟨k.val, kind, (N.edgeRange k).1, (N.edgeRange k).2,
          (N.controlRange k).1⟩ := by unfold Net.edgeLast; rw [hg]
    have hcontrol : N.edgeControl k = Gas.edgeControl ⟨k.val, kind, (N.edgeRange k).1, (N.edgeRange k).2,
          (N.controlRange k).1⟩ := by unfold Net.edgeControl; rw [hg]
    have hempty : (EdgeKind.gas kind n).isControl = false → N.edgeControl k = Res.ok [] := by
      intro h
      rw [hcontrol]
      cases kind <;> first | rfl | simp [EdgeKind.isControl] at h
    have hshort : kind.isShort → ∃ last new control, N.edgeLast k = Res.ok last ∧
        N.edgeNew k lastTime newTime a₀ = Res.ok new ∧ N.edgeControl k = Res.ok control ∧
        ((EdgeKind.gas kind n).isControl = false → control = []) ∧
        IsJacobian (N.edgeEvaluate k lastTime newTime) ⟨last, new, control⟩ a₀ := by
      intro hs
      have h1 := hgas (by intro g p e; subst e; exact hs.elim)
      have h4 : edgeNeed (.gas kind n) = 4 := by cases kind <;> first | rfl | exact hs.elim
      rw [h4] at hlen
      obtain ⟨last, new, control, e1, e2, e3, e4⟩ := Gas.C37_derivative ⟨k.val, kind, (N.edgeRange k).1,
        (N.edgeRange k).2, (N.controlRange k).1⟩ (by unfold Gas.Short; simp only; omega) hs lastTime newTime a₀
      rw [h1.1, h1.2, hlast, hcontrol]
      refine ⟨last, new, control, e1, e2, e3, ?_, e4.jacobian⟩
      intro hc
      have := hempty hc
      rw [hcontrol, e3] at this
      injection this
    cases kind with
    | shortpipe => exact hshort trivial
    | controlvalve => exact hshort trivial
    | compressor => exact hshort trivial
    | pipe dx d r =>
      have h1 := hgas (by simp)
      simp only [edgeNeed] at hlen
      have hn := hN.points k dx d r n hk
      obtain ⟨hdx, hpipe, hstate⟩ := hr.pipes k dx d r n hk
      obtain ⟨last, new, control, e1, e2, e3, e4⟩ := Gas.C38_derivative ⟨k.val, .pipe dx d r, (N.edgeRange k).1,
        (N.edgeRange k).2, (N.controlRange k).1⟩ dx d r rfl n (by omega)
        (by unfold Gas.HasPoints; simp only; omega) hdx hpipe lastTime newTime a₀ hstate
      rw [h1.1, h1.2, hlast, hcontrol]
      refine ⟨last, new, control, e1, e2, e3, ?_, e4.jacobian⟩
      intro hc
      have := hempty hc
      rw [hcontrol, e3] at this
      injection this
    | gaspower g p =>
      have hplant := hN.plantEnd k g p n hk
      obtain ⟨b, hb⟩ := hN.bus_ok (N.dst k)
      obtain ⟨cs, e1, e2⟩ := Power.C43_connection (N.edgeRange k).1 ⟨g, p⟩ b a₀
      refine ⟨[], cs, [], by rw [hlast]; rfl, ?_, hempty rfl, fun _ => rfl, ?_⟩
      · unfold Net.edgeNew
        simp only [hg, hplant, hb, if_true, Res.ok_bind]
        exact e1
      · have : N.edgeEvaluate k lastTime newTime = fun a => Power.connectionEvaluate (N.edgeRange k).1 ⟨g, p⟩ b a.new := by
          funext a
          unfold Net.edgeEvaluate
          simp only [hg, hplant, hb, if_true, Res.ok_bind]
        rw [this]
        exact e2.jacobian

/-- The whole network. -/
theorem network_exact (lastTime : ℝ) {newTime : ℝ} {a₀ : Args} (hr : Regular N newTime a₀.new) :
    ∃ last new control, N.dLast = Res.ok last ∧ N.dNew lastTime newTime a₀ = Res.ok new ∧
      N.dControl = Res.ok control ∧
      IsJacobian (fun a => N.evaluate lastTime newTime a) ⟨last, new, control⟩ a₀ := by
  choose nn hnn hnex using fun v => hN.node_jacobian hr v
  choose el en ec hel hen hec hc0 hex using fun k => hN.edge_jacobian lastTime hr k
  have hdis : ∀ {c c' : N.Component}, c ≠ c' → Disjoint (N.rows c) (N.rows c') := by
    intro c c' h
    rw [Set.disjoint_left]
    intro r h1 h2
    exact h (hN.rows_unique h1 h2)
  have hA := Exact.forEach (l := List.finRange N.nodes) (f := fun v a => N.nodeEvaluate v newTime a)
    (cs := fun v => ⟨[], nn v, []⟩) (R := fun v => N.rows (.inl v)) (fun v _ => hnex v)
    ((List.nodup_finRange _).imp fun h => hdis (by simpa using h))
  have hB : ∀ q : Fin N.edges → Bool, _ := fun q =>
    Exact.forEach (l := (List.finRange N.edges).filter q) (f := fun k a => N.edgeEvaluate k lastTime newTime a)
    (cs := fun k => ⟨el k, en k, ec k⟩) (R := fun k => N.rows (.inr k)) (fun k _ => hex k)
    (((List.nodup_finRange _).filter _).imp fun h => hdis (by simpa using h))
  have hsplit : ∀ k, (N.edge k).isEquation → (N.edge k).isControl → False := by
    intro k
    generalize N.edge k = e
    cases e with
    | line G B => simp [EdgeKind.isEquation]
    | gas kind n => cases kind <;> simp [EdgeKind.isEquation, EdgeKind.isControl]
  have hAB := hA.append (hB fun k => (N.edge k).isEquation) (by
    rw [Set.disjoint_left]
    rintro r ⟨v, -, h1⟩ ⟨k, -, h2⟩
    exact Set.disjoint_left.mp (hdis (by simp)) h1 h2)
  have hABC := hAB.append (hB fun k => (N.edge k).isControl) (by
    rw [Set.disjoint_left]
    rintro r (⟨v, -, h1⟩ | ⟨k, hk, h1⟩) ⟨k', hk', h2⟩
    · exact Set.disjoint_left.mp (hdis (by simp)) h1 h2
    · have := hN.rows_unique h1 h2
      injection this with this
      subst this
      exact hsplit k (List.mem_filter.mp hk).2 (List.mem_filter.mp hk').2)
  refine ⟨N.equationEdges.flatMap el ++ N.controlEdges.flatMap el,
    (List.finRange N.nodes).flatMap nn ++ N.equationEdges.flatMap en ++ N.controlEdges.flatMap en,
    N.controlEdges.flatMap ec, ?_, ?_, ?_, ?_⟩
  · unfold Net.dLast
    rw [forEach_ok (g := el) fun k _ => hel k, forEach_ok (g := el) fun k _ => hel k]
    rfl
  · unfold Net.dNew
    rw [forEach_ok (g := nn) fun k _ => hnn k, forEach_ok (g := en) fun k _ => hen k,
      forEach_ok (g := en) fun k _ => hen k]
    rfl
  · exact forEach_ok (g := ec) fun k _ => hec k
  · have h0 : N.equationEdges.flatMap ec = [] := by
      rw [List.flatMap_eq_nil_iff]
      intro k hk
      refine hc0 k ?_
      have := hsplit k (List.mem_filter.mp hk).2
      simpa using this
    have hj := hABC.jacobian
    have hnil : ∀ l : List (Fin N.nodes), l.flatMap (fun _ => ([] : List (Contribution ℝ))) = [] := by simp
    have e1 : N.equationEdges = (List.finRange N.edges).filter fun k => (N.edge k).isEquation := rfl
    rw [e1] at h0
    simp only [hnil, List.nil_append, h0] at hj
    have heq : (fun a => N.evaluate lastTime newTime a) = (fun a => do
        let x ← (do
          let x ← forEach (List.finRange N.nodes) fun v => N.nodeEvaluate v newTime a
          let y ← forEach ((List.finRange N.edges).filter fun k => (N.edge k).isEquation)
            fun k => N.edgeEvaluate k lastTime newTime a
          Res.ok (x ++ y))
        let y ← forEach ((List.finRange N.edges).filter fun k => (N.edge k).isControl)
          fun k => N.edgeEvaluate k lastTime newTime a
        Res.ok (x ++ y)) := by
      funext a
      unfold Net.evaluate Net.equationEdges Net.controlEdges
      cases forEach (List.finRange N.nodes) (fun v => N.nodeEvaluate v newTime a) with
      | throws => rfl
      | ub => rfl
      | ok x =>
        cases forEach ((List.finRange N.edges).filter fun k => (N.edge k).isEquation)
            (fun k => N.edgeEvaluate k lastTime newTime a) with
        | throws => rfl
        | ub => rfl
        | ok y => rfl
    rw [heq]
    exact hj

end Admissible

/-! ## From entries to matrices -/

/-- The derivative of an entry of the extended vector. -/
noncomputable def dExt {n : ℕ} {E : Type} [NormedAddCommGroup E] [NormedSpace ℝ E] (L : E →L[ℝ] (Fin n → ℝ)) (j : ℤ) :
    E →L[ℝ] ℝ :=
  if h : 0 ≤ j ∧ j.toNat < n then (ContinuousLinearMap.proj (R := ℝ) (φ := fun _ : Fin n => ℝ) ⟨j.toNat, h.2⟩).comp L
  else 0

theorem ext_hasFDerivAt {n : ℕ} {E : Type} [NormedAddCommGroup E] [NormedSpace ℝ E] (L : E →L[ℝ] (Fin n → ℝ)) (j : ℤ)
    (y : E) : HasFDerivAt (fun z => ext (L z) j) (dExt L j) y := by
  unfold ext dExt
  split
  · rename_i h
    exact ((ContinuousLinearMap.proj (R := ℝ) (φ := fun _ : Fin n => ℝ) ⟨j.toNat, h.2⟩).comp L).hasFDerivAt
  · exact hasFDerivAt_const _ _

theorem dExt_apply {n : ℕ} {E : Type} [NormedAddCommGroup E] [NormedSpace ℝ E] (L : E →L[ℝ] (Fin n → ℝ)) (j : ℤ)
    (w : E) : dExt L j w = ext (L w) j := by
  unfold ext dExt
  split <;> rfl

theorem applyRow_apply {E : Type} [NormedAddCommGroup E] [NormedSpace ℝ E] (cs : List (Contribution ℝ)) (r : ℤ)
    (l : ℤ → E →L[ℝ] ℝ) (w : E) : applyRow cs r l w = applyRow cs r fun j => l j w := by
  induction cs with
  | nil => rfl
  | cons c cs ih =>
    rw [applyRow_cons, applyRow_cons, _root_.add_apply, ih]
    split <;> rfl

theorem total_cons (c : Contribution ℝ) (cs : List (Contribution ℝ)) (r k : ℤ) :
    total (c :: cs) r k = (if c.1 = r ∧ c.2.1 = k then c.2.2 else 0) + total cs r k := by
  unfold total
  by_cases h : c.1 = r ∧ c.2.1 = k
  · rw [List.filter_cons_of_pos (by simpa using h)]; simp [h]
  · rw [List.filter_cons_of_neg (by simpa using h)]; simp [h]

theorem applyRow_ext {n m : ℕ} (cs : List (Contribution ℝ)) (h : ∀ c ∈ cs, 0 ≤ c.2.1 ∧ c.2.1 < m) (i : Fin n)
    (w : Fin m → ℝ) : applyRow cs i.val (ext w) = (matrixOf n m cs *ᵥ w) i := by
  induction cs with
  | nil => simp [matrixOf, Matrix.mulVec, dotProduct, total]
  | cons c cs ih =>
    rw [applyRow_cons, ih fun d hd => h d (by simp [hd])]
    obtain ⟨h0, h1⟩ := h c (by simp)
    have hlt : c.2.1.toNat < m := by omega
    have hext : ext w c.2.1 = w ⟨c.2.1.toNat, hlt⟩ := by unfold ext; rw [dif_pos ⟨h0, hlt⟩]
    simp only [matrixOf, Matrix.mulVec, dotProduct, Matrix.of_apply, total_cons, add_mul, Finset.sum_add_distrib]
    congr 1
    rw [Finset.sum_eq_single ⟨c.2.1.toNat, hlt⟩]
    · have hc : c.2.1 = ((c.2.1.toNat : ℕ) : ℤ) := by omega
      rw [hext]
      by_cases hr : c.1 = (i.val : ℤ)
      · rw [if_pos hr, if_pos ⟨hr, hc⟩]; rfl
      · rw [if_neg hr, if_neg (fun e => hr e.1), zero_mul]
    · intro j _ hj
      have : ¬ (c.1 = (i.val : ℤ) ∧ c.2.1 = (j.val : ℤ)) := by
        rintro ⟨-, e⟩
        exact hj (Fin.ext (by simp only; omega))
      rw [if_neg this, zero_mul]
    · intro hj; exact absurd (Finset.mem_univ _) hj

/-- C69, apart from points with turbulent flow in a pipe, where the statement is false because of `C33`. At every regular point of an admissible network, and near it, the residual is computed without exceptions,
and the three matrices given by the entries of `dLast`, `dNew` and `dControl` are its derivatives with
respect to last state, new state and control. -/
theorem C69_network_derivative_partial (N : Net) (hN : Admissible N) (lastTime newTime : ℝ) (z : N.Point)
    (hr : Regular N newTime (ext z.2.1)) :
    ∃ last new control, N.dLast = Res.ok last ∧ N.dNew lastTime newTime (N.args z) = Res.ok new ∧
      N.dControl = Res.ok control ∧
      ∃ D : N.Point →L[ℝ] (Fin N.stateCount → ℝ), Derives (N.residual lastTime newTime) D z ∧
        ∀ a b c, D (a, b, c) = matrixOf N.stateCount N.stateCount last *ᵥ a +
          matrixOf N.stateCount N.stateCount new *ᵥ b + matrixOf N.stateCount N.controlCount control *ᵥ c := by
  obtain ⟨last, new, control, h1, h2, h3, hj⟩ := hN.network_exact lastTime (a₀ := N.args z) hr
  refine ⟨last, new, control, h1, h2, h3, ?_⟩
  obtain ⟨hin, hil, hic⟩ := C70_inside N hN
  let L1 : N.Point →L[ℝ] (Fin N.stateCount → ℝ) := ContinuousLinearMap.fst ℝ _ _
  let L2 : N.Point →L[ℝ] (Fin N.stateCount → ℝ) := (ContinuousLinearMap.fst ℝ _ _).comp (ContinuousLinearMap.snd ℝ _ _)
  let L3 : N.Point →L[ℝ] (Fin N.controlCount → ℝ) :=
    (ContinuousLinearMap.snd ℝ _ _).comp (ContinuousLinearMap.snd ℝ _ _)
  have hs : Smooth N.args (dExt L1) (dExt L2) (dExt L3) z :=
    ⟨fun j => ext_hasFDerivAt L1 j z, fun j => ext_hasFDerivAt L2 j z, fun j => ext_hasFDerivAt L3 j z⟩
  choose g hg hd using fun i : Fin N.stateCount =>
    hj N.Point N.args (dExt L1) (dExt L2) (dExt L3) z rfl hs (fun _ => 0) i.val
  refine ⟨_, ⟨fun y i => g i y, ?_, hasFDerivAt_pi.mpr hd⟩, ?_⟩
  · obtain ⟨g0, hg0, -⟩ := hj N.Point N.args (dExt L1) (dExt L2) (dExt L3) z rfl hs (fun _ => 0) 0
    filter_upwards [eventually_all.mpr hg, hg0] with y hy hy0
    obtain ⟨ops, ho, -⟩ := Res.bind_eq_ok.mp hy0
    unfold Net.residual
    rw [ho]
    simp only [Res.ok_bind]
    congr 1
    funext i
    have := hy i
    rw [ho] at this
    simp only [Res.ok_bind] at this
    injection this
  · intro a b c
    funext i
    have e1 := applyRow_ext (n := N.stateCount) (m := N.stateCount) last
      (fun c hc => by have := (hil last h1 c hc).2; unfold Net.stateCount; omega) i a
    have e2 := applyRow_ext (n := N.stateCount) (m := N.stateCount) new
      (fun c hc => by have := (hin _ _ _ new h2 c hc).2; unfold Net.stateCount; omega) i b
    have e3 := applyRow_ext (n := N.stateCount) (m := N.controlCount) control
      (fun c hc => by have := (hic control h3 c hc).2; unfold Net.controlCount; omega) i c
    simp only [ContinuousLinearMap.coe_pi', Pi.add_apply, _root_.add_apply, applyRow_apply, dExt_apply]
    rw [← e1, ← e2, ← e3]
    rfl

/-- C70. The matrix with respect to the new state, filled for the first time through triplets and later — at any other
times and arguments — through references, keeps its pattern of stored entries, and its entries are the ones C69 speaks
about. The handlers never write outside of the matrix. -/
theorem C70_reuse (N : Net) (hN : Admissible N) (t₁ t₂ s₁ s₂ : ℝ) (a b : Args)
    (cs ds : List (Contribution ℝ)) (h : N.dNew t₁ t₂ a = Res.ok cs) (h' : N.dNew s₁ s₂ b = Res.ok ds) :
    ∃ m₁ m₂ : Sparse ℝ, fill .triplet false ⟨N.stateCount, N.stateCount, []⟩ cs = Res.ok m₁ ∧
      fill .coeffref false m₁ ds = Res.ok m₂ ∧ m₂.stored.map Prod.fst = m₁.stored.map Prod.fst ∧
      ∀ i j : Fin N.stateCount, m₁.coeff i.val j.val = matrixOf N.stateCount N.stateCount cs i j ∧
        m₂.coeff i.val j.val = matrixOf N.stateCount N.stateCount ds i j := by
  obtain ⟨hin, -, -⟩ := C70_inside N hN
  have hcs : AllInside false (⟨N.stateCount, N.stateCount, []⟩ : Sparse ℝ) cs := by
    intro c hc
    have := hin t₁ t₂ a cs h c hc
    simp only [Bool.false_eq_true, if_false]
    unfold Net.stateCount
    omega
  obtain ⟨m₁, e1, r1, c1, f1⟩ := C27_entries .triplet false _ cs hcs
  have hds : AllInside false m₁ ds := by
    intro c hc
    have := hin s₁ s₂ b ds h' c hc
    simp only [Bool.false_eq_true, if_false, r1, c1]
    unfold Net.stateCount
    omega
  obtain ⟨m₂, e2, -, -, f2⟩ := C27_entries .coeffref false m₁ ds hds
  have hpos : ∀ c ∈ ds, ∃ d ∈ cs, d.1 = c.1 ∧ d.2.1 = c.2.1 := by
    intro c hc
    have hmem : pos c ∈ cs.map pos := C70_same_positions N hN s₁ s₂ t₁ t₂ b a ds cs h' h ▸ List.mem_map_of_mem hc
    obtain ⟨d, hd, e⟩ := List.mem_map.mp hmem
    have := Prod.ext_iff.mp e
    exact ⟨d, hd, this.1, this.2⟩
  refine ⟨m₁, m₂, e1, e2, (C27_pattern_kept false _ m₁ m₂ cs ds hcs hpos e1 e2).1, fun i j => ⟨?_, ?_⟩⟩
  · simpa [matrixOf] using f1 i.val j.val
  · simpa [matrixOf] using f2 i.val j.val

end Verif.Network
