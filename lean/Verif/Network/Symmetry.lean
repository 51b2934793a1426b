import Verif.Evolve.Conjugate
import Verif.Network.Simulate
import Verif.Network.LawsExample
import Verif.Network.Reverse
import Verif.Network.Equilibrium

/-!
# Properties C91 and C92: the reference of the angles and the origin of time do not matter

C91: adding a constant to all angles of the power grid, also the prescribed ones, changes nothing else.
C92: starting the clock at another time changes nothing.

Both are shown for the equations and their derivatives, and for whole simulations with the Newton solver, with all failures.
-/

set_option autoImplicit false

namespace Verif.Network

open Verif.Net Verif.Handler Verif.Newton Verif.Evolve

/-! ## Specification -/

/-- The network with another reference of the angles: `c` is added to the prescribed angles. -/
abbrev Net.rotate (N : Net) (c : ℝ) : Net :=
  { N with node := fun v => { N.node v with boundary := fun t =>
      match (N.node v).kind with
      | .power .vphi | .plant => (N.node v).boundary t >>= fun b => Res.ok (b.1, b.2 + c)
      | _ => (N.node v).boundary t } }

/-- The network with boundary conditions that come by `d` later. -/
abbrev Net.delay (N : Net) (d : ℝ) : Net :=
  { N with node := fun v => { N.node v with boundary := fun t => (N.node v).boundary (t - d) } }

/-- Two states that differ in the angles of the power nodes, all by `c`, and in nothing else. -/
structure Rotated (N : Net) (c : ℝ) (x x' : Vec) : Prop where
  voltage : ∀ v, (N.node v).kind.isPower → N.voltage x' v = N.voltage x v
  angle : ∀ v, (N.node v).kind.isPower → N.angle x' v = N.angle x v + c
  edges : ∀ k i, (N.edgeRange k).1 ≤ i → i < (N.edgeRange k).2 → x' i = x i

/-! ## What the gas components read -/

/-- The two states are equal on the range of a gas edge. -/
def Agree (e : Gas.Edge) (x x' : Vec) : Prop := e.first + 2 ≤ e.after ∧ ∀ i, e.first ≤ i → i < e.after → x' i = x i

theorem boundary_segment {e : Gas.Edge} {x x' : Vec} (h : Agree e x x') {dir : Gas.Dir} {i : ℤ} (hi : Gas.boundaryState e dir = Res.ok i) :
    segment x' i = segment x i := by
  obtain ⟨h2, h⟩ := h
  unfold Net.segment
  cases dir with
  | start =>
    injection hi with hi
    subst hi
    rw [h _ le_rfl (by omega), h _ (by omega) (by omega)]
  | stop =>
    simp only [Gas.boundaryState] at hi
    by_cases h3 : e.after - e.first = 2
    · rw [if_pos h3] at hi; cases hi
    · rw [if_neg h3] at hi
      injection hi with hi
      subst hi
      rw [h _ (by omega) (by omega), h _ (by omega) (by omega)]

theorem boundaryPQ_congr {e : Gas.Edge} {x x' : Vec} (h : Agree e x x') (dir : Gas.Dir) :
    Gas.boundaryPQ e dir x' = Gas.boundaryPQ e dir x := by
  unfold Gas.boundaryPQ
  cases hi : Gas.boundaryState e dir with
  | throws => rfl
  | ub => rfl
  | ok i => simp only [Res.ok_bind, boundary_segment h hi]

theorem dBoundaryPQ_congr {e : Gas.Edge} {x x' : Vec} (h : Agree e x x') (dir : Gas.Dir) (fd : ℝ × ℝ) (row : ℤ) :
    Gas.dBoundaryPQ e dir fd row x' = Gas.dBoundaryPQ e dir fd row x := by
  unfold Gas.dBoundaryPQ
  cases hi : Gas.boundaryState e dir with
  | throws => rfl
  | ub => rfl
  | ok i => simp only [Res.ok_bind, boundary_segment h hi]

theorem balanceLoop_congr {x x' : Vec} (lastRow : ℤ) : ∀ (ends : List Gas.End) (_ : ∀ y ∈ ends, Agree y.2 x x') (oldRow : ℤ) (oldP : ℝ),
    Gas.balanceLoop x' lastRow oldRow oldP ends = Gas.balanceLoop x lastRow oldRow oldP ends := by
  intro ends
  induction ends with
  | nil => intros; rfl
  | cons y rest ih =>
    intro h oldRow oldP
    obtain ⟨dir, e⟩ := y
    unfold Gas.balanceLoop
    rw [boundaryPQ_congr (h (dir, e) (by simp))]
    simp only [ih fun y hy => h y (by simp [hy])]

theorem flowBalance_congr {x x' : Vec} {ends : List Gas.End} (h : ∀ y ∈ ends, Agree y.2 x x') (p : ℝ) :
    Gas.flowBalance ends x' p = Gas.flowBalance ends x p := by
  cases ends with
  | nil => rfl
  | cons y rest =>
    obtain ⟨dir, e⟩ := y
    unfold Gas.flowBalance
    simp only [boundaryPQ_congr (h (dir, e) (by simp)), balanceLoop_congr _ rest fun y hy => h y (by simp [hy])]

theorem derivativeLoop_congr {x x' : Vec} (lastRow : ℤ) : ∀ (ends : List Gas.End) (_ : ∀ y ∈ ends, Agree y.2 x x') (oldRow : ℤ),
    Gas.derivativeLoop x' lastRow oldRow ends = Gas.derivativeLoop x lastRow oldRow ends := by
  intro ends
  induction ends with
  | nil => intros; rfl
  | cons y rest ih =>
    intro h oldRow
    obtain ⟨dir, e⟩ := y
    unfold Gas.derivativeLoop
    simp only [dBoundaryPQ_congr (h (dir, e) (by simp)), ih fun y hy => h y (by simp [hy])]

theorem flowDerivative_congr {x x' : Vec} {ends : List Gas.End} (h : ∀ y ∈ ends, Agree y.2 x x') :
    Gas.flowDerivative ends x' = Gas.flowDerivative ends x := by
  cases ends with
  | nil => rfl
  | cons y rest =>
    obtain ⟨dir, e⟩ := y
    unfold Gas.flowDerivative
    simp only [dBoundaryPQ_congr (h (dir, e) (by simp)),
      dBoundaryPQ_congr (h (((dir, e) :: rest).getLast (by simp)) (List.getLast_mem _)),
      derivativeLoop_congr _ rest.dropLast fun y hy => h y (by simp [List.mem_of_mem_dropLast hy])]

theorem forEach_congr {α β : Type} {l : List α} {f g : α → Res (List β)} (h : ∀ a ∈ l, f a = g a) : forEach l f = forEach l g := by
  induction l with
  | nil => rfl
  | cons a l ih =>
    unfold forEach
    rw [h a (by simp), ih fun b hb => h b (by simp [hb])]

theorem cells_inside {e : Gas.Edge} {i : ℤ} (hi : i ∈ Gas.cells e) : e.first < i ∧ i + 2 < e.after := by
  unfold Gas.cells at hi
  obtain ⟨j, hj, rfl⟩ := List.mem_map.mp hi
  have hj := List.mem_range.mp hj
  unfold Gas.equationAfter Gas.equationStart at *
  omega

theorem cell_segments {e : Gas.Edge} {x x' : Vec} (h : Agree e x x') {i : ℤ} (hi : i ∈ Gas.cells e) :
    segment x' (i - 1) = segment x (i - 1) ∧ segment x' (i + 1) = segment x (i + 1) := by
  obtain ⟨h1, h2⟩ := cells_inside hi
  unfold Net.segment
  rw [h.2 _ (by omega) (by omega), h.2 _ (by omega) (by omega), h.2 (i + 1) (by omega) (by omega), h.2 (i + 1 + 1) (by omega) (by omega)]
  exact ⟨rfl, rfl⟩

/-- The equations of a gas edge at two times with the same difference, if the states agree. -/
theorem gasEvaluate_congr {e : Gas.Edge} {a a' : Args} (hl : Agree e a.last a'.last) (hn : Agree e a.new a'.new)
    (hc : a'.control = a.control) {s t s' t' : ℝ} (ht : t' - s' = t - s) :
    Gas.edgeEvaluate e s' t' a' = Gas.edgeEvaluate e s t a := by
  unfold Gas.edgeEvaluate
  cases e.kind with
  | pipe dx d k =>
    refine forEach_congr fun i hi => ?_
    unfold Gas.cellEvaluate Box.evaluatePoint
    rw [(cell_segments hl hi).1, (cell_segments hl hi).2, (cell_segments hn hi).1, (cell_segments hn hi).2, ht]
  | gaspower => rfl
  | _ =>
    simp only
    cases h1 : Gas.boundaryState e .start with
    | throws => rfl
    | ub => rfl
    | ok i =>
      cases h2 : Gas.boundaryState e .stop with
      | throws => rfl
      | ub => rfl
      | ok j => simp only [Res.ok_bind, boundary_segment hn h1, boundary_segment hn h2, hc]

theorem gasNew_congr {e : Gas.Edge} {a a' : Args} (hn : Agree e a.new a'.new) {s t s' t' : ℝ} (ht : t' - s' = t - s) :
    Gas.edgeNew e s' t' a' = Gas.edgeNew e s t a := by
  unfold Gas.edgeNew
  cases e.kind with
  | pipe dx d k =>
    refine forEach_congr fun i hi => ?_
    unfold Gas.cellNew Box.dNewLeft Box.dNewRight
    rw [(cell_segments hn hi).1, (cell_segments hn hi).2, ht]
  | _ => rfl

/-! ## The power nodes -/

/-- What a bus reads, rotated. -/
structure BusRotated (b : Power.Bus) (c : ℝ) (x x' : Vec) : Prop where
  voltage : x' b.first = x b.first
  angle : x' (b.first + 1) = x (b.first + 1) + c
  lines : ∀ l ∈ b.lines, x' l.other = x l.other ∧ x' (l.other + 1) = x (l.other + 1) + c

theorem foldl_congr {α β : Type} {l : List α} {f g : β → α → β} (h : ∀ b, ∀ a ∈ l, f b a = g b a) (b : β) : l.foldl f b = l.foldl g b := by
  induction l generalizing b with
  | nil => rfl
  | cons a l ih =>
    rw [List.foldl_cons, List.foldl_cons, h b a (by simp)]
    exact ih (fun b a ha => h b a (by simp [ha])) _

section
variable {b : Power.Bus} {c : ℝ} {x x' : Vec} (h : BusRotated b c x x')
include h

theorem activePower_rotated : Power.activePower b x' = Power.activePower b x := by
  unfold Power.activePower
  simp only [h.voltage, h.angle]
  exact foldl_congr (fun P l hl => by rw [(h.lines l hl).1, (h.lines l hl).2, add_sub_add_right_eq_sub]) _

theorem reactivePower_rotated : Power.reactivePower b x' = Power.reactivePower b x := by
  unfold Power.reactivePower
  simp only [h.voltage, h.angle]
  exact foldl_congr (fun P l hl => by rw [(h.lines l hl).1, (h.lines l hl).2, add_sub_add_right_eq_sub]) _

theorem dActive_rotated (row : ℤ) : Power.dActive b row x' = Power.dActive b row x := by
  unfold Power.dActive
  simp only [h.voltage, h.angle]
  congr 2
  simp only [List.flatMap_def]
  refine congrArg _ (List.map_congr_left fun l hl => ?_)
  rw [(h.lines l hl).1, (h.lines l hl).2, add_sub_add_right_eq_sub]

theorem dReactive_rotated (row : ℤ) : Power.dReactive b row x' = Power.dReactive b row x := by
  unfold Power.dReactive
  simp only [h.voltage, h.angle]
  congr 2
  simp only [List.flatMap_def]
  refine congrArg _ (List.map_congr_left fun l hl => ?_)
  rw [(h.lines l hl).1, (h.lines l hl).2, add_sub_add_right_eq_sub]

end

/-! ## C91 -/

section
variable {N : Net} (hN : Admissible N) {c : ℝ} {x x' : Vec}
include hN

theorem gas_agree (h : Rotated N c x x') {k : Fin N.edges} {e : Gas.Edge} (he : N.gasEdge k = some e) : Agree e x x' := by
  obtain ⟨kind, n, hk, rfl⟩ := Admissible.gasEdge_eq.mp he
  exact ⟨gas_range hN (isGas_iff.mpr ⟨kind, n, hk⟩), h.edges k⟩

theorem ends_agree (h : Rotated N c x x') (v : Fin N.nodes) : ∀ y ∈ N.ends v, Agree y.2 x x' := by
  intro y hy
  obtain ⟨k, e, he, hc⟩ := hN.mem_ends.mp hy
  have := gas_agree hN h he
  rcases hc with ⟨-, rfl⟩ | ⟨-, rfl⟩ <;> exact this

omit hN in
theorem bus_rotated (h : Rotated N c x x') {v : Fin N.nodes} (hv : (N.node v).kind.isPower) {b : Power.Bus} (hb : N.bus v = Res.ok b) :
    BusRotated b c x x' := by
  unfold Net.bus at hb
  split at hb
  · rename_i hall
    injection hb with hb
    subst hb
    refine ⟨h.voltage v hv, h.angle v hv, fun l hl => ?_⟩
    obtain ⟨y, hy, rfl⟩ := List.mem_map.mp hl
    have := List.all_eq_true.mp hall y hy
    exact ⟨h.voltage _ this, h.angle _ this⟩
  · cases hb

theorem node_rotated (v : Fin N.nodes) (t : ℝ) {a a' : Args} (h : Rotated N c a.new a'.new) :
    (N.rotate c).nodeEvaluate v t a' = N.nodeEvaluate v t a := by
  have he := ends_agree hN h v
  have e1 : (N.rotate c).ends v = N.ends v := rfl
  have e2 : (N.rotate c).bus v = N.bus v := rfl
  have e3 : ((N.rotate c).node v).kind = (N.node v).kind := rfl
  unfold Net.nodeEvaluate
  rw [e1, e2, e3]
  cases hk : (N.node v).kind with
  | innode => exact flowBalance_congr he 0
  | flow =>
    simp only [hk, flowBalance_congr he]
  | pressure =>
    simp only [hk]
    have : ∀ p, Gas.pressureBalance (N.ends v) a'.new p = Gas.pressureBalance (N.ends v) a.new p := fun p =>
      forEach_congr fun y hy => by rw [boundaryPQ_congr (he y hy)]
    simp only [this]
  | power kind =>
    cases hb : N.bus v with
    | throws => rfl
    | ub => rfl
    | ok b =>
      have hr := bus_rotated h (by rw [hk]; rfl) hb
      cases kind with
      | pq =>
        simp only [hk, Res.ok_bind, Power.busEvaluate, activePower_rotated hr, reactivePower_rotated hr]
      | pv =>
        simp only [hk, Res.ok_bind, Power.busEvaluate, activePower_rotated hr, hr.voltage]
      | vphi =>
        simp only [hk, Res.ok_bind, Power.busEvaluate, hr.voltage, hr.angle]
        cases (N.node v).boundary t with
        | throws => rfl
        | ub => rfl
        | ok b => simp only [Res.ok_bind, add_sub_add_right_eq_sub]
  | plant =>
    cases hb : N.bus v with
    | throws => rfl
    | ub => rfl
    | ok b =>
      have hr := bus_rotated h (by rw [hk]; rfl) hb
      simp only [hk, Res.ok_bind, Power.busEvaluate, hr.voltage, hr.angle]
      cases (N.node v).boundary t with
      | throws => rfl
      | ub => rfl
      | ok b => simp only [Res.ok_bind, add_sub_add_right_eq_sub]

theorem nodeNew_rotated (v : Fin N.nodes) {a a' : Args} (h : Rotated N c a.new a'.new) :
    (N.rotate c).nodeNew v a' = N.nodeNew v a := by
  have he := ends_agree hN h v
  have e1 : (N.rotate c).ends v = N.ends v := rfl
  have e2 : (N.rotate c).bus v = N.bus v := rfl
  have e3 : ((N.rotate c).node v).kind = (N.node v).kind := rfl
  unfold Net.nodeNew
  rw [e1, e2, e3]
  cases hk : (N.node v).kind with
  | innode => exact flowDerivative_congr he
  | flow => simp only [flowDerivative_congr he]
  | pressure =>
    have : Gas.pressureDerivative (N.ends v) a'.new = Gas.pressureDerivative (N.ends v) a.new :=
      forEach_congr fun y hy => by rw [dBoundaryPQ_congr (he y hy)]
    simp only [this]
  | power kind =>
    cases hb : N.bus v with
    | throws => rfl
    | ub => rfl
    | ok b =>
      have hr := bus_rotated h (by rw [hk]; rfl) hb
      cases kind <;> simp only [Res.ok_bind, Power.busNew, dActive_rotated hr, dReactive_rotated hr]
  | plant =>
    cases hb : N.bus v with
    | throws => rfl
    | ub => rfl
    | ok b => rfl

theorem edge_rotated (k : Fin N.edges) (s t : ℝ) {a a' : Args} (hl : Rotated N c a.last a'.last) (hn : Rotated N c a.new a'.new)
    (hc : a'.control = a.control) :
    (N.rotate c).edgeEvaluate k s t a' = N.edgeEvaluate k s t a ∧ (N.rotate c).edgeNew k s t a' = N.edgeNew k s t a := by
  have e1 : (N.rotate c).gasEdge k = N.gasEdge k := rfl
  have e2 : (N.rotate c).bus ((N.rotate c).dst k) = N.bus (N.dst k) := rfl
  have e3 : ((N.rotate c).node ((N.rotate c).dst k)).kind = (N.node (N.dst k)).kind := rfl
  unfold Net.edgeEvaluate Net.edgeNew
  rw [e1, e2, e3]
  cases he : N.gasEdge k with
  | none => exact ⟨rfl, rfl⟩
  | some e =>
    have ha := gas_agree hN hn he
    have hev := gasEvaluate_congr (gas_agree hN hl he) ha hc (rfl : t - s = t - s)
    have hew := gasNew_congr (a := a) (a' := a') ha (rfl : t - s = t - s)
    simp only
    cases hk : e.kind with
    | gaspower g p =>
      simp only
      by_cases hp : (N.node (N.dst k)).kind.isPlant
      · rw [if_pos hp, if_pos hp, if_pos hp, if_pos hp]
        cases hb : N.bus (N.dst k) with
        | throws => exact ⟨rfl, rfl⟩
        | ub => exact ⟨rfl, rfl⟩
        | ok b =>
          have hr := bus_rotated hn (isPlant_power hp) hb
          have hq : a'.new (e.first + 1) = a.new (e.first + 1) := ha.2 _ (by omega) (by have := ha.1; omega)
          simp only [Res.ok_bind, Power.connectionEvaluate, Power.connectionNew, hq, activePower_rotated hr, dActive_rotated hr]
          exact ⟨trivial, trivial⟩
      · rw [if_neg hp, if_neg hp, if_neg hp, if_neg hp]
        exact ⟨rfl, rfl⟩
    | _ => exact ⟨hev, hew⟩

end

/-- C91. If `c` is added to all angles, the prescribed ones and those of the state, the residual is the same in every row, and so is the
Jacobian; if one of them cannot be computed, neither can the other. -/
theorem C91_equations (N : Net) (hN : Admissible N) (c s t : ℝ) (a a' : Args) (hl : Rotated N c a.last a'.last)
    (hn : Rotated N c a.new a'.new) (hc : a'.control = a.control) :
    (N.rotate c).evaluate s t a' = N.evaluate s t a ∧ (N.rotate c).dNew s t a' = N.dNew s t a := by
  unfold Net.evaluate Net.dNew
  have h1 : forEach (List.finRange (N.rotate c).nodes) (fun v => (N.rotate c).nodeEvaluate v t a') =
      forEach (List.finRange N.nodes) fun v => N.nodeEvaluate v t a := forEach_congr fun v _ => node_rotated hN v t hn
  have h2 : ∀ l : List (Fin N.edges), forEach l (fun k => (N.rotate c).edgeEvaluate k s t a') = forEach l fun k => N.edgeEvaluate k s t a :=
    fun l => forEach_congr fun k _ => (edge_rotated hN k s t hl hn hc).1
  have h3 : forEach (List.finRange (N.rotate c).nodes) (fun v => (N.rotate c).nodeNew v a') =
      forEach (List.finRange N.nodes) fun v => N.nodeNew v a := forEach_congr fun v _ => nodeNew_rotated hN v hn
  have h4 : ∀ l : List (Fin N.edges), forEach l (fun k => (N.rotate c).edgeNew k s t a') = forEach l fun k => N.edgeNew k s t a :=
    fun l => forEach_congr fun k _ => (edge_rotated hN k s t hl hn hc).2
  have e5 : (N.rotate c).equationEdges = N.equationEdges := rfl
  have e6 : (N.rotate c).controlEdges = N.controlEdges := rfl
  rw [h1, h3, e5, e6, h2, h2, h4, h4]
  exact ⟨rfl, rfl⟩

/-- The vector with `c` at the places of the angles and zeros elsewhere. -/
noncomputable def Net.phase (N : Net) (c : ℝ) : Fin N.stateCount → ℝ := fun i =>
  open Classical in if ∃ v, (N.node v).kind.isPower ∧ (i.val : ℤ) = (N.nodeRange v).1 + 1 then c else 0

theorem ext_inside {n : ℕ} (x : Fin n → ℝ) {i : ℤ} (h0 : 0 ≤ i) (h1 : i.toNat < n) : ext x i = x ⟨i.toNat, h1⟩ := by
  unfold ext
  rw [dif_pos ⟨h0, h1⟩]

theorem state_inside {N : Net} {k : N.Component} {i : ℤ} (h : N.InRange k i) : 0 ≤ i ∧ i.toNat < N.stateCount := by
  have := h.bounds
  unfold Net.stateCount
  omega

theorem power_range {N : Net} {v : Fin N.nodes} (hv : (N.node v).kind.isPower) :
    N.InRange (.inl v) (N.nodeRange v).1 ∧ N.InRange (.inl v) ((N.nodeRange v).1 + 1) := by
  have h : (N.range (.inl v)).2 = (N.range (.inl v)).1 + 2 := power_need hv
  have e : N.nodeRange v = N.range (.inl v) := rfl
  unfold Net.InRange
  rw [e]
  omega

/-- Adding the vector rotates the state. -/
theorem C91_exists (N : Net) (c : ℝ) (x : Fin N.stateCount → ℝ) : Rotated N c (ext x) (ext (x + N.phase c)) := by
  classical
  refine ⟨fun v hv => ?_, fun v hv => ?_, fun k i h1 h2 => ?_⟩
  · obtain ⟨h0, hn⟩ := state_inside (power_range hv).1
    unfold Net.voltage
    rw [ext_inside _ h0 hn, ext_inside _ h0 hn, Pi.add_apply]
    unfold Net.phase
    rw [if_neg, add_zero]
    rintro ⟨w, hw, e⟩
    have e : (N.nodeRange v).1 = (N.nodeRange w).1 + 1 := by rw [← e]; exact (Int.toNat_of_nonneg h0).symm
    have hr := (power_range hv).1
    rw [e] at hr
    have := (power_range hw).2.unique hr
    injection this with this
    subst this
    omega
  · obtain ⟨h0, hn⟩ := state_inside (power_range hv).2
    unfold Net.angle
    rw [ext_inside _ h0 hn, ext_inside _ h0 hn, Pi.add_apply]
    unfold Net.phase
    rw [if_pos ⟨v, hv, Int.toNat_of_nonneg h0⟩]
  · have hr : N.InRange (.inr k) i := ⟨h1, h2⟩
    obtain ⟨h0, hn⟩ := state_inside hr
    rw [ext_inside _ h0 hn, ext_inside _ h0 hn, Pi.add_apply]
    unfold Net.phase
    rw [if_neg, add_zero]
    rintro ⟨w, hw, e⟩
    have e : i = (N.nodeRange w).1 + 1 := by rw [← e]; exact (Int.toNat_of_nonneg h0).symm
    subst e
    have := (power_range hw).2.unique hr
    cases this

/-- The factorization the Newton solver uses: any function of the Jacobian (`none` if a state is NaN). -/
noncomputable def Net.factorized (N : Net)
    (factor : Option (Res (List (Contribution ℝ))) → Option (Option (Fin N.stateCount → ℝ) → Option (Fin N.stateCount → ℝ)))
    (s t : ℝ) (last : Option (Fin N.stateCount → ℝ)) (control : Fin N.controlCount → ℝ) (new : Option (Fin N.stateCount → ℝ)) :
    Option (Option (Fin N.stateCount → ℝ) → Option (Fin N.stateCount → ℝ)) :=
  match last, new with
  | some x, some y => factor (some (N.dNew s t (N.args (x, y, control))))
  | _, _ => factor none

/-- The equations of a time step as the Newton solver sees them, with the Jacobian of the network. -/
noncomputable def Net.newton (N : Net)
    (factor : Option (Res (List (Contribution ℝ))) → Option (Option (Fin N.stateCount → ℝ) → Option (Fin N.stateCount → ℝ)))
    (s t : ℝ) (last : Option (Fin N.stateCount → ℝ)) (control : Fin N.controlCount → ℝ) :=
  N.system (N.factorized factor s t last control) s t last control

/-- What the Newton solver evaluates for states without NaN. -/
theorem newton_evaluate (N : Net)
    (factor : Option (Res (List (Contribution ℝ))) → Option (Option (Fin N.stateCount → ℝ) → Option (Fin N.stateCount → ℝ)))
    (s t : ℝ) (x y : Fin N.stateCount → ℝ) (u : Fin N.controlCount → ℝ) :
    (N.Finite (ext y) → ∀ r, N.residual s t (x, y, u) = Res.ok r → (N.newton factor s t (some x) u).evaluate (some y) = some r) ∧
    ((¬ N.Finite (ext y) ∨ ∀ r, N.residual s t (x, y, u) ≠ Res.ok r) → (N.newton factor s t (some x) u).evaluate (some y) = none) := by
  simp only [Net.newton, Net.system]
  constructor
  · intro hf r hr
    rw [if_pos hf, hr]
  · rintro (hf | hr)
    · rw [if_neg hf]
    · split_ifs
      · split
        · rename_i r h; exact absurd h (hr r)
        · rfl
      · rfl

/-- Two networks with the same residuals. -/
theorem newton_evaluate_eq {α : Type} {e e' : Option α} {p p' : Prop} {r r' : Res α}
    (h1 : (p → ∀ z, r = Res.ok z → e = some z) ∧ ((¬ p ∨ ∀ z, r ≠ Res.ok z) → e = none))
    (h2 : (p' → ∀ z, r' = Res.ok z → e' = some z) ∧ ((¬ p' ∨ ∀ z, r' ≠ Res.ok z) → e' = none)) (h : r' = r) (hp : p' ↔ p) : e' = e := by
  subst h
  by_cases h : p
  · cases hr : r' with
    | ok z => rw [h1.1 h z hr, h2.1 (hp.mpr h) z hr]
    | throws => rw [h1.2 (Or.inr (by simp [hr])), h2.2 (Or.inr (by simp [hr]))]
    | ub => rw [h1.2 (Or.inr (by simp [hr])), h2.2 (Or.inr (by simp [hr]))]
  · rw [h1.2 (Or.inl h), h2.2 (Or.inl fun h' => h (hp.mp h'))]

theorem residual_rotated {N : Net} (hN : Admissible N) (c s t : ℝ) (x y : Fin N.stateCount → ℝ) (u : Fin N.controlCount → ℝ) :
    (N.rotate c).residual s t (x + N.phase c, y + N.phase c, u) = N.residual s t (x, y, u) := by
  unfold Net.residual
  rw [(C91_equations N hN c s t (N.args (x, y, u)) ((N.rotate c).args (x + N.phase c, y + N.phase c, u)) (C91_exists N c x)
    (C91_exists N c y) rfl).1]
  rfl

theorem finite_rotated {N : Net} (c : ℝ) (y : Fin N.stateCount → ℝ) :
    (N.rotate c).Finite (ext (y + N.phase c)) ↔ N.Finite (ext y) := by
  have key : ∀ k dx d r n, N.edge k = .gas (.pipe dx d r) n → ∀ j : ℕ, j < n →
      ext (y + N.phase c) ((N.edgeRange k).1 + 2 * j) = ext y ((N.edgeRange k).1 + 2 * j) := by
    intro k dx d r n hk j hj
    refine (C91_exists N c y).edges k _ (by omega) ?_
    have := Admissible.edgeRange_length (N := N) (k := k)
    rw [hk] at this
    simp only [edgeNeed] at this
    omega
  constructor
  · intro h k dx d r n hk j hj
    rw [← key k dx d r n hk j hj]
    exact h k dx d r n hk j hj
  · intro h k dx d r n hk j hj
    have e : (N.rotate c).edgeRange k = N.edgeRange k := rfl
    rw [e, key k dx d r n hk j hj]
    exact h k dx d r n hk j hj

/-- C91 for whole simulations: if `c` is added to the prescribed angles and to those of the initial state, the simulation ends in the same
way, and if it returns, `c` is added to the angles of all states and nothing else is changed (see `C91_exists`). -/
theorem C91_simulation (N : Net) (hN : Admissible N) (c : ℝ)
    (factor : Option (Res (List (Contribution ℝ))) → Option (Option (Fin N.stateCount → ℝ) → Option (Fin N.stateCount → ℝ)))
    (tol : ℝ) (maxIter : ℤ) (fuel : ℕ) (retries : ℤ) (simplified : Bool) (controls : ℝ → Res (Fin N.controlCount → ℝ)) (times : List ℝ)
    (initial : Fin N.stateCount → ℝ) :
    (simulate retries simplified (newtonSolver ((N.rotate c).newton factor) tol maxIter fuel) controls times (some (initial + N.phase c))).1 =
      mapStates (Option.map (· + N.phase c))
        (simulate retries simplified (newtonSolver (N.newton factor) tol maxIter fuel) controls times (some initial)).1 := by
  have key := simulate_conj (sys := N.newton factor) (sys' := (N.rotate c).newton factor) (f := Option.map (· + N.phase c)) (g := id) ?_
    tol maxIter fuel retries simplified controls controls (fun _ => rfl) times (some initial)
  · rw [List.map_id] at key
    exact key
  · intro s t x u
    refine ⟨fun y => ?_, fun y => ?_, rfl, rfl, fun y lam z => ?_, rfl⟩
    · rcases x with _ | x
      · rfl
      rcases y with _ | y
      · rfl
      exact newton_evaluate_eq (newton_evaluate N factor s t x y u)
        (newton_evaluate (N.rotate c) factor s t (x + N.phase c) (y + N.phase c) u) (residual_rotated hN c s t x y u) (finite_rotated c y)
    · rcases x with _ | x
      · rfl
      rcases y with _ | y
      · rfl
      exact congrArg (fun r => factor (some r)) (C91_equations N hN c s t (N.args (x, y, u))
        ((N.rotate c).args (x + N.phase c, y + N.phase c, u)) (C91_exists N c x) (C91_exists N c y) rfl).2
    · rcases y with _ | y
      · rfl
      rcases z with _ | z
      · rfl
      show some (y + N.phase c + lam • z) = some (y + lam • z + N.phase c)
      rw [add_right_comm]

theorem rest_finite : restNet.Finite (ext restPoint.2.1) := by
  show ∀ k : Fin 4, _
  intro k dx d r n h j hj
  match k, h with
  | 1, h => injection h with h; cases h
  | 2, h => injection h with h; cases h
  | 3, h => cases h
  | 0, h =>
    injection h with h hn
    subst hn
    have e : ∀ j : ℕ, j < 2 → ext restPoint.2.1 ((restNet.edgeRange (0 : Fin 4)).1 + 2 * j) = 1 := by
      intro j hj
      have := rest_new (4 + 2 * j) (by omega)
      rw [rest_ranges.1]
      push_cast at this
      refine this.trans ?_
      rcases (by omega : j = 0 ∨ j = 1) with rfl | rfl <;> rfl
    rw [e j hj]
    refine ⟨one_ne_zero, ?_⟩
    have := (Euler.C31_density_round_trip 1).2 zero_le_one
    simpa using this

/-- The network of `LawsExample` at rest, with the angle 1 prescribed at the power plant: the simulation returns the states with both angles
moved by 1. -/
example (factor : Option (Res (List (Contribution ℝ))) → Option (Option (Fin restNet.stateCount → ℝ) → Option (Fin restNet.stateCount → ℝ))) :
    (simulate 1 true (newtonSolver ((restNet.rotate 1).newton factor) 0 10 100) (fun _ => Res.ok restPoint.2.2) [0, 3, 5]
      (some (restPoint.1 + restNet.phase 1))).1 = Res.ok (List.replicate 3 (some (restPoint.1 + restNet.phase 1))) ∧
    ext (restPoint.1 + restNet.phase 1) 1 = 1 ∧ ext (restPoint.1 + restNet.phase 1) 3 = 1 := by
  refine ⟨?_, ?_, ?_⟩
  · refine (C91_simulation restNet rest_admissible 1 factor 0 10 100 1 true (fun _ => Res.ok restPoint.2.2) [0, 3, 5] restPoint.1).trans ?_
    obtain ⟨trace, h⟩ := C88_equilibrium restNet rest_admissible (restNet.factorized factor) 0 le_rfl 10 100 1 true
      (fun _ => Res.ok restPoint.2.2) [0, 3, 5] (by simp) restPoint.2.2 (fun _ _ => rfl) (s := 0) (t := 3) (by norm_num) (rest_computable 3)
      (fun _ _ _ => rfl) restPoint.1 rest_finite (by
        obtain ⟨r, hr, h⟩ := C72_residual_iff_laws restNet rest_admissible 0 3 (rest_computable 3) restPoint
        rw [← h.mpr (rest_laws 0 3), ← hr]
        rfl)
    exact congrArg (fun r => mapStates (Option.map (· + restNet.phase 1)) r.1) h
  · have h := (C91_exists restNet 1 restPoint.1).angle (3 : Fin 5) rfl
    refine h.trans ?_
    have h1 : restNet.angle (ext restPoint.1) (3 : Fin 5) = 0 := rest_new 1 (by norm_num)
    rw [h1, zero_add]
  · have h := (C91_exists restNet 1 restPoint.1).angle (4 : Fin 5) rfl
    refine h.trans ?_
    have h1 : restNet.angle (ext restPoint.1) (4 : Fin 5) = 0 := rest_new 3 (by norm_num)
    rw [h1, zero_add]

/-! ## C92 -/

/-- C92. If the boundary conditions come by `d` later, the equations of a step that is made by `d` later are the same, and so are their
derivatives. -/
theorem C92_equations (N : Net) (hN : Admissible N) (d s t : ℝ) (a : Args) :
    (N.delay d).evaluate (s + d) (t + d) a = N.evaluate s t a ∧ (N.delay d).dNew (s + d) (t + d) a = N.dNew s t a := by
  have hagree : ∀ x : Vec, ∀ k e, N.gasEdge k = some e → Agree e x x := by
    intro x k e he
    obtain ⟨kind, n, hk, rfl⟩ := Admissible.gasEdge_eq.mp he
    exact ⟨gas_range hN (isGas_iff.mpr ⟨kind, n, hk⟩), fun _ _ _ => rfl⟩
  have ht : t + d - (s + d) = t - s := by ring
  have hb : t + d - d = t := by ring
  have hn : ∀ v : Fin N.nodes, (N.delay d).nodeEvaluate v (t + d) a = N.nodeEvaluate v t a := by
    intro v
    unfold Net.nodeEvaluate
    show (match (N.node v).kind with
      | .innode => Gas.flowBalance (N.ends v) a.new 0
      | .flow => if (N.ends v).isEmpty then Res.ok [] else ((N.node v).boundary (t + d - d) >>= fun b => Gas.flowBalance (N.ends v) a.new b.1)
      | .pressure =>
        if (N.ends v).isEmpty then Res.ok [] else ((N.node v).boundary (t + d - d) >>= fun b => Gas.pressureBalance (N.ends v) a.new b.1)
      | .power k => N.bus v >>= fun bus => (N.node v).boundary (t + d - d) >>= fun b => Res.ok (Power.busEvaluate k bus b a.new)
      | .plant => N.bus v >>= fun bus => (N.node v).boundary (t + d - d) >>= fun b => Res.ok (Power.busEvaluate .vphi bus b a.new)) = _
    rw [hb]
    cases (N.node v).kind <;> rfl
  have he : ∀ k : Fin N.edges, (N.delay d).edgeEvaluate k (s + d) (t + d) a = N.edgeEvaluate k s t a ∧
      (N.delay d).edgeNew k (s + d) (t + d) a = N.edgeNew k s t a := by
    intro k
    have e1 : (N.delay d).gasEdge k = N.gasEdge k := rfl
    have e2 : (N.delay d).bus ((N.delay d).dst k) = N.bus (N.dst k) := rfl
    have e3 : ((N.delay d).node ((N.delay d).dst k)).kind = (N.node (N.dst k)).kind := rfl
    unfold Net.edgeEvaluate Net.edgeNew
    rw [e1, e2, e3]
    cases he : N.gasEdge k with
    | none => exact ⟨rfl, rfl⟩
    | some e =>
      have hev := gasEvaluate_congr (a := a) (a' := a) (hagree _ k e he) (hagree _ k e he) rfl ht
      have hew := gasNew_congr (a := a) (a' := a) (hagree _ k e he) ht
      simp only
      cases hk : e.kind with
      | gaspower g p => exact ⟨rfl, rfl⟩
      | _ => exact ⟨hev, hew⟩
  unfold Net.evaluate Net.dNew
  have h1 : forEach (List.finRange (N.delay d).nodes) (fun v => (N.delay d).nodeEvaluate v (t + d) a) =
      forEach (List.finRange N.nodes) fun v => N.nodeEvaluate v t a := forEach_congr fun v _ => hn v
  have h2 : ∀ l : List (Fin N.edges), forEach l (fun k => (N.delay d).edgeEvaluate k (s + d) (t + d) a) =
      forEach l fun k => N.edgeEvaluate k s t a := fun l => forEach_congr fun k _ => (he k).1
  have h3 : forEach (List.finRange (N.delay d).nodes) (fun v => (N.delay d).nodeNew v a) =
      forEach (List.finRange N.nodes) fun v => N.nodeNew v a := rfl
  have h4 : ∀ l : List (Fin N.edges), forEach l (fun k => (N.delay d).edgeNew k (s + d) (t + d) a) =
      forEach l fun k => N.edgeNew k s t a := fun l => forEach_congr fun k _ => (he k).2
  have e5 : (N.delay d).equationEdges = N.equationEdges := rfl
  have e6 : (N.delay d).controlEdges = N.controlEdges := rfl
  rw [h1, h3, e5, e6, h2, h2, h4, h4]
  exact ⟨rfl, rfl⟩

/-- C92 for whole simulations: if boundary conditions, controls and the grid of times are moved by `d`, the simulation ends in the same way and
returns the same states. -/
theorem C92_simulation (N : Net) (hN : Admissible N) (d : ℝ)
    (factor : Option (Res (List (Contribution ℝ))) → Option (Option (Fin N.stateCount → ℝ) → Option (Fin N.stateCount → ℝ)))
    (tol : ℝ) (maxIter : ℤ) (fuel : ℕ) (retries : ℤ) (simplified : Bool) (controls : ℝ → Res (Fin N.controlCount → ℝ)) (times : List ℝ)
    (initial : Fin N.stateCount → ℝ) :
    (simulate retries simplified (newtonSolver ((N.delay d).newton factor) tol maxIter fuel) (fun t => controls (t - d))
      (times.map (· + d)) (some initial)).1 =
      (simulate retries simplified (newtonSolver (N.newton factor) tol maxIter fuel) controls times (some initial)).1 := by
  have key := simulate_conj (sys := N.newton factor) (sys' := (N.delay d).newton factor) (f := id) (g := (· + d)) ?_
    tol maxIter fuel retries simplified controls (fun t => controls (t - d)) (fun t => by simp) times (some initial)
  · refine key.trans ?_
    unfold mapStates
    simp only [List.map_id]
    generalize (simulate retries simplified (newtonSolver (N.newton factor) tol maxIter fuel) controls times (some initial)).1 = r
    rcases r with _ | _ | _ <;> rfl
  · intro s t x u
    refine ⟨fun y => ?_, fun y => ?_, rfl, rfl, fun y lam z => by rcases y with _ | y <;> rcases z with _ | z <;> rfl, rfl⟩
    · rcases x with _ | x
      · rfl
      rcases y with _ | y
      · rfl
      have e : (N.delay d).residual (s + d) (t + d) (x, y, u) = N.residual s t (x, y, u) := by
        unfold Net.residual
        have := (C92_equations N hN d s t (N.args (x, y, u))).1
        have e : (N.delay d).args (x, y, u) = N.args (x, y, u) := rfl
        rw [e, this]
        rfl
      exact newton_evaluate_eq (newton_evaluate N factor s t x y u) (newton_evaluate (N.delay d) factor (s + d) (t + d) x y u) e Iff.rfl
    · rcases x with _ | x
      · rfl
      rcases y with _ | y
      · rfl
      exact congrArg (fun r => factor (some r)) (C92_equations N hN d s t (N.args (x, y, u))).2

open Classical in
/-- Boundary values that exist up to time 1000 only. -/
noncomputable abbrev endingBoundary (v : Fin pipeNet.nodes) (t : ℝ) : Res (ℝ × ℝ) :=
  if t ≤ 1000 then (pipeNet.node v).boundary t else Res.throws

/-- `pipeNet` with these boundary values. -/
noncomputable abbrev endingNet : Net := { pipeNet with node := fun v => { pipeNet.node v with boundary := endingBoundary v } }

/-- The gas at rest, moved by 5000: the delayed network has boundary values at these times, the original one has not. -/
example (factor : Option (Res (List (Contribution ℝ))) → Option (Option (Fin pipeNet.stateCount → ℝ) → Option (Fin pipeNet.stateCount → ℝ))) :
    (simulate 1 true (newtonSolver ((endingNet.delay 5000).newton factor) 0 10 100) (fun _ => Res.ok fun _ => 0)
      [5000, 5003, 5060] (some calmState)).1 = Res.ok (List.replicate 3 (some calmState)) ∧
    (endingNet.node (0 : Fin 2)).boundary 5003 = Res.throws := by
  have hN : Admissible endingNet := ⟨pipe_admissible.starting, pipe_admissible.ending, pipe_admissible.noLoop, pipe_admissible.points,
    pipe_admissible.gasStart, pipe_admissible.gasEnd, pipe_admissible.plantEnd, pipe_admissible.lines⟩
  have hb : ∀ t : ℝ, t ≤ 1000 → ∀ v : Fin 2, (endingNet.node v).boundary t = (pipeNet.node v).boundary t := fun t ht v => if_pos ht
  have hc : Computable endingNet 60 := ⟨fun v hv => by
    obtain ⟨b, e⟩ := (pipe_computable 60).boundary v hv
    exact ⟨b, (hb 60 (by norm_num) v).trans e⟩, (pipe_computable 60).pipes⟩
  refine ⟨?_, if_neg (by norm_num)⟩
  have key := C92_simulation endingNet hN 5000 factor 0 10 100 1 true (fun _ => Res.ok fun _ => 0) [0, 3, 60] calmState
  have et : ([0, 3, 60] : List ℝ).map (· + 5000) = [5000, 5003, 5060] := by norm_num
  rw [et] at key
  refine key.trans ?_
  obtain ⟨trace, h⟩ := C88_equilibrium endingNet hN (endingNet.factorized factor) 0 le_rfl 10 100 1 true (fun _ => Res.ok fun _ => 0)
    [0, 3, 60] (by simp) (fun _ => 0) (fun _ _ => rfl) (s := 0) (t := 60) (by norm_num) hc (by
      intro t ht v
      have ht : t ≤ 1000 := by
        simp only [List.mem_cons, List.not_mem_nil, or_false] at ht
        rcases ht with rfl | rfl | rfl <;> norm_num
      exact (hb t ht v).trans (hb 60 (by norm_num) v).symm) calmState calm_finite (by
      obtain ⟨r, hr, h⟩ := C72_residual_iff_laws pipeNet pipe_admissible 0 60 (pipe_computable 60) (calmState, calmState, fun _ => 0)
      have e : endingNet.residual 0 60 (calmState, calmState, fun _ => 0) = pipeNet.residual 0 60 (calmState, calmState, fun _ => 0) := by
        unfold Net.residual Net.evaluate
        have : forEach (List.finRange endingNet.nodes) (fun v => endingNet.nodeEvaluate v 60 (endingNet.args (calmState, calmState, fun _ => 0))) =
            forEach (List.finRange pipeNet.nodes) fun v => pipeNet.nodeEvaluate v 60 (pipeNet.args (calmState, calmState, fun _ => 0)) := by
          refine forEach_congr fun v _ => ?_
          unfold Net.nodeEvaluate
          rw [hb 60 (by norm_num) v]
          rfl
        rw [this]
        rfl
      exact e.trans (hr.trans (congrArg Res.ok (h.mpr (calm_laws _)))))
  exact congrArg Prod.fst h

end Verif.Network
