import Verif.Network.ShortCircles

/-!
# Property C179: a part of short edges without prescribed pressure makes the equations of every time step ambiguous

If a part of the gas network consists of short pipes, compressors and control valves only (and possibly gas power plants), and there is no node with prescribed pressure in it, then the
pressure level in it is not determined: the equations of a time step have no solution or infinitely many, and the matrices of Newton's method are singular.
-/

set_option autoImplicit false

namespace Verif.Network

open Verif.Net Verif.Handler Relation

/-! ## Specification -/

/-- A short pipe, compressor or control valve joins the nodes. -/
def ShortJoined (N : Net) (v w : Fin N.nodes) : Prop :=
  ∃ k, ShortEdge N k ∧ (N.src k = v ∧ N.dst k = w ∨ N.src k = w ∧ N.dst k = v)

/-- No node that is reached from `v` through short edges has a prescribed pressure or touches a pipe. -/
def Floating (N : Net) (v : Fin N.nodes) : Prop :=
  ∀ w, ReflTransGen (ShortJoined N) v w → (N.node w).kind ≠ .pressure ∧ ∀ k dx d r n, N.edge k = .gas (.pipe dx d r) n → N.src k ≠ w ∧ N.dst k ≠ w

/-! ## Adding to pressures -/

/-- The state with something added to the pressures at the ends of the gas edges at each node. -/
def lift (N : Net) (g : Fin N.nodes → ℝ) (state : Vec) : Vec := fun i =>
  state i + ∑ k, if (N.edge k).isGas then
    (if i = (N.edgeRange k).1 then g (N.src k) else if i = (N.edgeRange k).2 - 2 then g (N.dst k) else 0) else 0

/-- The same is added at both ends of short edges, nothing at pipes and where the pressure is prescribed. -/
structure Lifts (N : Net) (g : Fin N.nodes → ℝ) : Prop where
  short : ∀ k, ShortEdge N k → g (N.src k) = g (N.dst k)
  pipe : ∀ k dx d r n, N.edge k = .gas (.pipe dx d r) n → g (N.src k) = 0 ∧ g (N.dst k) = 0
  pressure : ∀ v, (N.node v).kind = .pressure → g v = 0

section
variable {N : Net} (g : Fin N.nodes → ℝ) (hN : Admissible N)
include hN

theorem gas_inRange {k : Fin N.edges} (hk : (N.edge k).isGas) :
    N.InRange (.inr k) (N.edgeRange k).1 ∧ N.InRange (.inr k) ((N.edgeRange k).2 - 2) ∧ N.InRange (.inr k) ((N.edgeRange k).1 + 1) ∧
      N.InRange (.inr k) ((N.edgeRange k).2 - 1) := by
  cases he : N.edge k with
  | line G B => rw [he] at hk; cases hk
  | gas kind n =>
    have hlen := Admissible.edgeRange_length (N := N) (k := k)
    have hneed := (hN.gas_need he).1
    refine ⟨⟨?_, ?_⟩, ⟨?_, ?_⟩, ⟨?_, ?_⟩, ⟨?_, ?_⟩⟩ <;> simp only [Net.range] <;> omega

theorem lift_edge {k : Fin N.edges} (hk : (N.edge k).isGas) {i : ℤ} (hi : N.InRange (.inr k) i) (state : Vec) :
    lift N g state i = state i + if i = (N.edgeRange k).1 then g (N.src k) else if i = (N.edgeRange k).2 - 2 then g (N.dst k) else 0 := by
  unfold lift
  congr 1
  rw [Finset.sum_eq_single k]
  · rw [if_pos hk]
  · intro l _ hl
    split
    · rename_i hgas
      obtain ⟨r1, r2, -, -⟩ := gas_inRange hN hgas
      have no : ∀ j, N.InRange (.inr l) j → i ≠ j := by
        rintro j hj rfl
        have := hj.unique hi
        injection this with this
        exact hl this
      rw [if_neg (no _ r1), if_neg (no _ r2)]
    · rfl
  · intro h; exact absurd (Finset.mem_univ k) h

theorem lift_node {v : Fin N.nodes} {i : ℤ} (hi : N.InRange (.inl v) i) (state : Vec) : lift N g state i = state i := by
  unfold lift
  rw [Finset.sum_eq_zero, add_zero]
  intro l _
  split
  · rename_i hgas
    obtain ⟨r1, r2, -, -⟩ := gas_inRange hN hgas
    have no : ∀ j, N.InRange (.inr l) j → i ≠ j := by
      rintro j hj rfl
      have := hj.unique hi
      cases this
    rw [if_neg (no _ r1), if_neg (no _ r2)]
  · rfl

theorem lift_outside (state : Vec) {i : ℤ} (hi : ¬ (0 ≤ i ∧ i < N.states)) : lift N g state i = state i := by
  unfold lift
  rw [Finset.sum_eq_zero, add_zero]
  intro l _
  split
  · rename_i hgas
    obtain ⟨r1, r2, -, -⟩ := gas_inRange hN hgas
    have no : ∀ j, N.InRange (.inr l) j → i ≠ j := by
      rintro j hj rfl
      exact hi hj.bounds
    rw [if_neg (no _ r1), if_neg (no _ r2)]
  · rfl

theorem lift_ext (y : Fin N.stateCount → ℝ) : ext (fun i : Fin N.stateCount => lift N g (ext y) i.val) = lift N g (ext y) := by
  funext i
  unfold Net.stateCount
  by_cases hi : 0 ≤ i ∧ i < N.states
  · have h : 0 ≤ i ∧ i.toNat < N.states.toNat := ⟨hi.1, by omega⟩
    unfold ext
    rw [dif_pos h]
    simp only [Int.toNat_of_nonneg hi.1]
  · have h : ¬ (0 ≤ i ∧ i.toNat < N.states.toNat) := fun h => hi ⟨h.1, by omega⟩
    rw [lift_outside g hN _ hi]
    unfold ext
    rw [dif_neg h, dif_neg h]

theorem lift_voltage {v : Fin N.nodes} (hv : (N.node v).kind.isPower) (state : Vec) :
    N.voltage (lift N g state) v = N.voltage state v ∧ N.angle (lift N g state) v = N.angle state v := by
  have hlen := N.range_length (.inl v)
  have hneed : N.need (.inl v) = 2 := by
    show nodeNeed (N.node v).kind = 2
    unfold nodeNeed
    rw [if_pos hv]
  rw [hneed] at hlen
  push_cast at hlen
  simp only [Net.range] at hlen
  unfold Net.voltage Net.angle
  rw [lift_node g hN (v := v) ⟨by simp only [Net.range]; omega, by simp only [Net.range]; omega⟩,
    lift_node g hN (v := v) (i := (N.nodeRange v).1 + 1) ⟨by simp only [Net.range]; omega, by simp only [Net.range]; omega⟩]
  exact ⟨rfl, rfl⟩

/-- The values at the ends of a gas edge. -/
theorem lift_values {k : Fin N.edges} (hk : (N.edge k).isGas) (state : Vec) :
    lift N g state (N.edgeRange k).1 = state (N.edgeRange k).1 + g (N.src k) ∧
    ((N.node (N.dst k)).kind.isGas → lift N g state ((N.edgeRange k).2 - 2) = state ((N.edgeRange k).2 - 2) + g (N.dst k)) ∧
    N.startFlow k (lift N g state) = N.startFlow k state ∧ N.endFlow k (lift N g state) = N.endFlow k state := by
  obtain ⟨r1, r2, r3, r4⟩ := gas_inRange hN hk
  have hlen := Admissible.edgeRange_length (N := N) (k := k)
  have heven : edgeNeed (N.edge k) % 2 = 0 := by
    cases he : N.edge k with
    | line G B => rfl
    | gas kind n => cases kind <;> simp [edgeNeed]
  have hpos : 2 ≤ edgeNeed (N.edge k) := by
    cases he : N.edge k with
    | line G B => rw [he] at hk; cases hk
    | gas kind n => rw [← he]; exact (hN.gas_need he).1
  unfold Net.startFlow Net.endFlow
  refine ⟨?_, fun hgas => ?_, ?_, ?_⟩
  · rw [lift_edge g hN hk r1, if_pos rfl]
  · have hfour : 4 ≤ edgeNeed (N.edge k) := by
      cases he : N.edge k with
      | line G B => rw [he] at hk; cases hk
      | gas kind n =>
        rw [← he]
        refine (hN.gas_need he).2 fun p q hpq => ?_
        subst hpq
        have := hN.plantEnd k p q n he
        cases hd : (N.node (N.dst k)).kind <;> rw [hd] at this hgas <;> first | (cases this; done) | cases hgas
    rw [lift_edge g hN hk r2, if_neg (by omega), if_pos rfl]
  · rw [lift_edge g hN hk r3, if_neg (by omega), if_neg (by omega), add_zero]
  · rw [lift_edge g hN hk r4, if_neg (by omega), if_neg (by omega), add_zero]

theorem lift_outflow (state : Vec) (v : Fin N.nodes) : N.outflow v (lift N g state) = N.outflow v state := by
  unfold Net.outflow
  congr 1 <;> refine Finset.sum_congr rfl fun k _ => ?_ <;> split <;> try rfl
  · split
    · rename_i h; exact (lift_values g hN h state).2.2.1
    · rfl
  · split
    · rename_i h; exact (lift_values g hN h state).2.2.2
    · rfl

theorem lift_active {v : Fin N.nodes} (hv : (N.node v).kind.isPower) (state : Vec) :
    N.active v (lift N g state) = N.active v state ∧ N.reactive v (lift N g state) = N.reactive v state := by
  have hv' := lift_voltage g hN hv state
  have line : ∀ k, ((N.node (N.src k)).kind.isPower ∧ (N.node (N.dst k)).kind.isPower) ∨ (N.edge k).conductance = 0 ∧ (N.edge k).susceptance = 0 := by
    intro k
    cases he : N.edge k with
    | line G B => exact Or.inl (hN.lines k G B he)
    | gas kind n => exact Or.inr ⟨rfl, rfl⟩
  unfold Net.active Net.reactive
  rw [hv'.1, hv'.2]
  refine ⟨?_, ?_⟩ <;> congr 2 <;> refine Finset.sum_congr rfl fun k _ => ?_ <;> split <;> try rfl
  all_goals
    rcases line k with ⟨h1, h2⟩ | ⟨h1, h2⟩
    · first
        | rw [(lift_voltage g hN h1 state).1, (lift_voltage g hN h1 state).2]
        | rw [(lift_voltage g hN h2 state).1, (lift_voltage g hN h2 state).2]
    · rw [h1, h2]; ring

variable (hg : Lifts N g)
include hg

theorem lift_pressure {k : Fin N.edges} (hk : (N.edge k).isGas) (state : Vec) :
    N.startPressure k (lift N g state) = N.startPressure k state + g (N.src k) ∧
    ((N.node (N.dst k)).kind.isGas → N.endPressure k (lift N g state) = N.endPressure k state + g (N.dst k)) := by
  obtain ⟨h1, h2, -, -⟩ := lift_values g hN hk state
  unfold Net.startPressure Net.endPressure
  cases he : N.edge k with
  | line G B => rw [he] at hk; cases hk
  | gas kind n =>
    cases kind with
    | pipe dx d r =>
      obtain ⟨g1, g2⟩ := hg.pipe k dx d r n he
      rw [g1, add_zero] at h1 ⊢
      rw [g2, add_zero] at h2 ⊢
      exact ⟨by rw [h1], fun h => by rw [h2 h]⟩
    | _ =>
      simp only [Net.pressureOf, he]
      exact ⟨h1, h2⟩

theorem lift_pipe {k : Fin N.edges} {dx d r : ℝ} {n : ℕ} (he : N.edge k = .gas (.pipe dx d r) n) {i : ℤ} (hi : N.InRange (.inr k) i) (state : Vec) :
    lift N g state i = state i := by
  obtain ⟨g1, g2⟩ := hg.pipe k dx d r n he
  rw [lift_edge g hN (by rw [he]; rfl) hi, g1, g2]
  simp

/-- The pressures may be raised in every solution. -/
theorem lift_laws {t0 t1 : ℝ} {a : Args} (la : Laws N t0 t1 a) : Laws N t0 t1 ⟨a.last, lift N g a.new, a.control⟩ := by
  refine ⟨?_, ?_, ?_, ?_, ?_, ?_⟩
  · obtain ⟨P, hP, P0⟩ := la.pressures
    refine ⟨fun v => P v + g v, fun k hk => ?_, fun v b hv hb => ?_⟩
    · obtain ⟨h1, h2⟩ := lift_pressure g hN hg hk a.new
      exact ⟨by rw [h1, (hP k hk).1], fun h => by rw [h2 h, (hP k hk).2 h]⟩
    · show P v + g v = b.1
      rw [hg.pressure v hv, add_zero, P0 v b hv hb]
  · intro v hv
    obtain ⟨h1, h2⟩ := la.flows v hv
    exact ⟨fun h => (lift_outflow g hN a.new v).trans (h1 h), fun h b hb => (lift_outflow g hN a.new v).trans (h2 h b hb)⟩
  · intro k kind n he hs
    have hk : (N.edge k).isGas := by rw [he]; rfl
    have hdst := hN.gasEnd k kind n he (by rintro p q rfl; exact hs)
    obtain ⟨-, -, h3, h4⟩ := lift_values g hN hk a.new
    obtain ⟨h1, h2⟩ := lift_pressure g hN hg hk a.new
    obtain ⟨l1, l2⟩ := la.short k kind n he hs
    refine ⟨?_, ?_⟩
    · show N.endPressure k (lift N g a.new) = N.startPressure k (lift N g a.new) + _
      rw [h1, h2 hdst, l1, hg.short k ⟨kind, n, he, hs⟩]
      ring
    · show N.startFlow k (lift N g a.new) = N.endFlow k (lift N g a.new)
      rw [h3, h4, l2]
  · intro k dx d r n he j hj
    have hlen := Admissible.edgeRange_length (N := N) (k := k)
    rw [he] at hlen
    simp only [edgeNeed] at hlen
    push_cast at hlen
    have seg : ∀ m : ℕ, m < n → Net.segment (lift N g a.new) ((N.edgeRange k).1 + 2 * (m : ℤ)) = Net.segment a.new ((N.edgeRange k).1 + 2 * (m : ℤ)) := by
      intro m hm
      have inr : ∀ i, (N.edgeRange k).1 ≤ i → i < (N.edgeRange k).2 → N.InRange (.inr k) i := fun i h1 h2 => ⟨h1, h2⟩
      unfold Net.segment
      rw [lift_pipe g hN hg he (inr _ (by omega) (by omega)), lift_pipe g hN hg he (inr _ (by omega) (by omega))]
    have s1 := seg j (by omega)
    have s2 := seg (j + 1) hj
    push_cast at s2
    show Box.evaluatePoint _ _ _ _ _ _ (Net.segment (lift N g a.new) _) (Net.segment (lift N g a.new) _) = _
    rw [s1, s2]
    exact la.pipes k dx d r n he j hj
  · intro v b hb
    have := la.grid v b hb
    cases hk : (N.node v).kind with
    | power kind =>
      have hp : (N.node v).kind.isPower := by rw [hk]; rfl
      obtain ⟨s1, s2⟩ := lift_active g hN hp a.new
      obtain ⟨s3, s4⟩ := lift_voltage g hN hp a.new
      rw [hk] at this
      cases kind <;> simp only [s1, s2, s3, s4] <;> exact this
    | plant =>
      have hp : (N.node v).kind.isPower := by rw [hk]; rfl
      obtain ⟨s3, s4⟩ := lift_voltage g hN hp a.new
      rw [hk] at this
      simp only [s3, s4]
      exact this
    | _ => trivial
  · intro k p q n he
    obtain ⟨-, -, h3, -⟩ := lift_values g hN (k := k) (by rw [he]; rfl) a.new
    show Power.generated ⟨p, q⟩ (N.startFlow k (lift N g a.new)) = Res.ok (N.active (N.dst k) (lift N g a.new))
    rw [h3, (lift_active g hN (isPlant_power (hN.plantEnd k p q n he)) a.new).1]
    exact la.plants k p q n he

/-! ## The matrix of the solver -/

omit hg in
theorem lift_bus {v : Fin N.nodes} (hv : (N.node v).kind.isPower) {b : Power.Bus} (hb : N.bus v = Res.ok b) :
    (lift N g (fun _ => 0) b.first = 0 ∧ lift N g (fun _ => 0) (b.first + 1) = 0) ∧
      ∀ l ∈ b.lines, lift N g (fun _ => 0) l.other = 0 ∧ lift N g (fun _ => 0) (l.other + 1) = 0 := by
  unfold Net.bus at hb
  split at hb
  · rename_i hall
    injection hb with hb
    subst hb
    refine ⟨lift_voltage g hN hv (fun _ => 0), ?_⟩
    intro l hl
    obtain ⟨x, hx, rfl⟩ := List.mem_map.mp hl
    exact lift_voltage g hN (List.all_eq_true.mp hall x hx) (fun _ => 0)
  · cases hb

omit hg in
theorem lift_dActive {v : Fin N.nodes} (hv : (N.node v).kind.isPower) {b : Power.Bus} (hb : N.bus v = Res.ok b) (row : ℤ) (state : Vec) (r : ℤ) :
    applyRow (Power.dActive b row state) r (lift N g fun _ => 0) = 0 := by
  obtain ⟨⟨h1, h2⟩, hl⟩ := lift_bus g hN hv hb
  refine applyRow_columns (fun c hc => ?_) r
  simp only [Power.dActive, List.mem_cons, List.mem_flatMap, List.not_mem_nil, or_false] at hc
  rcases hc with rfl | rfl | ⟨l, hlm, rfl | rfl | rfl | rfl⟩ <;> simp only [h1, h2] <;> first | exact (hl l hlm).1 | exact (hl l hlm).2

omit hg in
theorem lift_busNew {v : Fin N.nodes} (hv : (N.node v).kind.isPower) {b : Power.Bus} (hb : N.bus v = Res.ok b) (k : Power.Kind) (state : Vec) (r : ℤ) :
    applyRow (Power.busNew k b state) r (lift N g fun _ => 0) = 0 := by
  obtain ⟨⟨h1, h2⟩, hl⟩ := lift_bus g hN hv hb
  refine applyRow_columns (fun c hc => ?_) r
  cases k <;> simp only [Power.busNew, Power.dActive, Power.dReactive, List.mem_append, List.mem_cons, List.mem_flatMap, List.not_mem_nil, or_false] at hc
  · rcases hc with (rfl | rfl | ⟨l, hlm, rfl | rfl | rfl | rfl⟩) | (rfl | rfl | ⟨l, hlm, rfl | rfl | rfl | rfl⟩) <;> simp only [h1, h2] <;>
      first | exact (hl l hlm).1 | exact (hl l hlm).2
  · rcases hc with (rfl | rfl | ⟨l, hlm, rfl | rfl | rfl | rfl⟩) | rfl <;> simp only [h1, h2] <;> first | exact (hl l hlm).1 | exact (hl l hlm).2
  · rcases hc with rfl | rfl <;> simp only [h1, h2]

theorem lift_ends {v : Fin N.nodes} (hv : (N.node v).kind.isGas) (state : Vec) :
    ∀ x ∈ N.ends v, Gas.dPressure state (lift N g fun _ => 0) x = g v ∧ Gas.dFlow (lift N g fun _ => 0) x = 0 := by
  intro x hx
  obtain ⟨k, e, he, hcase⟩ := hN.mem_ends.mp hx
  obtain ⟨kind, n, hk, rfl⟩ := Admissible.gasEdge_eq.mp he
  have hgas : (N.edge k).isGas := by rw [hk]; rfl
  obtain ⟨h1, h2, h3, h4⟩ := lift_values g hN hgas fun _ => 0
  have hz : lift N g (fun _ => 0) (Gas.stateIndex x) = g v ∧ lift N g (fun _ => 0) (Gas.stateIndex x + 1) = 0 ∧
      (∀ dx d r, kind = .pipe dx d r → g v = 0) := by
    rcases hcase with ⟨rfl, rfl⟩ | ⟨rfl, rfl⟩
    · exact ⟨h1.trans (zero_add _), h3, fun dx d r h => (hg.pipe k dx d r n (h ▸ hk)).1⟩
    · refine ⟨(h2 hv).trans (zero_add _), ?_, fun dx d r h => (hg.pipe k dx d r n (h ▸ hk)).2⟩
      show lift N g (fun _ => 0) ((N.edgeRange k).2 - 2 + 1) = 0
      rw [show (N.edgeRange k).2 - 2 + 1 = (N.edgeRange k).2 - 1 by ring]
      exact h4
  refine ⟨?_, hz.2.1⟩
  unfold Gas.dPressure
  have hkind : x.2.kind = kind := by rcases hcase with ⟨_, rfl⟩ | ⟨_, rfl⟩ <;> rfl
  rw [hkind]
  cases kind with
  | pipe dx d r =>
    have := hz.2.2 dx d r rfl
    simp only [hz.1, this, smul_zero]
  | _ => exact hz.1

omit hN hg in
theorem pressures_same {row : Gas.End → ℤ} {p : Gas.End → ℝ} {r : ℤ} {c : ℝ} :
    ∀ {rest : List Gas.End} {oldRow : ℤ}, (∀ x ∈ rest, p x = c) → Gas.pressures row p oldRow c rest r = 0
  | [], _, _ => rfl
  | x :: rest, oldRow, h => by
    unfold Gas.pressures
    rw [h x (by simp), sub_self, ite_self, zero_add]
    exact pressures_same fun y hy => h y (by simp [hy])

theorem lift_flowNode {v : Fin N.nodes} (hv : (N.node v).kind.isGas) (state : Vec) {cs : List (Contribution ℝ)}
    (h : Gas.flowDerivative (N.ends v) state = Res.ok cs) (r : ℤ) : applyRow cs r (lift N g fun _ => 0) = 0 := by
  have hz := lift_ends g hN hg hv state
  have hu := hN.ends_usable hv
  have hid := hN.ends_ids v
  revert h hz hu hid
  cases N.ends v with
  | nil =>
    intro h _ _ _
    injection h with h
    subst h
    rfl
  | cons x rest =>
    intro h hz hu hid
    obtain ⟨cs', h', spec⟩ := Gas.flowDerivative_spec x rest state hu hid
    rw [h] at h'
    injection h' with h'
    subst h'
    rw [spec ℝ r, (hz x (by simp)).1, pressures_same (fun y hy => (hz y (by simp [hy])).1), zero_add]
    split
    · refine List.sum_eq_zero fun y hy => ?_
      obtain ⟨z, hz', rfl⟩ := List.mem_map.mp hy
      rw [(hz z hz').2, smul_zero]
    · rfl

theorem lift_node_row {v : Fin N.nodes} (a : Args) {cs : List (Contribution ℝ)} (h : N.nodeNew v a = Res.ok cs) (r : ℤ) :
    applyRow cs r (lift N g fun _ => 0) = 0 := by
  unfold Net.nodeNew at h
  cases hk : (N.node v).kind with
  | innode =>
    rw [hk] at h
    exact lift_flowNode g hN hg (by rw [hk]; rfl) a.new h r
  | flow =>
    rw [hk] at h
    simp only at h
    split at h
    · injection h with h
      subst h
      rfl
    · exact lift_flowNode g hN hg (by rw [hk]; rfl) a.new h r
  | pressure =>
    rw [hk] at h
    simp only at h
    split at h
    · injection h with h
      subst h
      rfl
    · have hv : (N.node v).kind.isGas := by rw [hk]; rfl
      refine applyRow_forEach h fun x hx c hc => ?_
      obtain ⟨c', hc', spec⟩ := Gas.dBoundaryPQ_ok (hN.ends_usable hv x hx) (1, 0) (Gas.boundaryEquation x.2 x.1) a.new
      rw [hc] at hc'
      injection hc' with hc'
      subst hc'
      rw [spec ℝ r, (lift_ends g hN hg hv a.new x hx).1, hg.pressure v hk]
      simp
  | power k =>
    rw [hk] at h
    obtain ⟨b, hb, h⟩ := Res.bind_eq_ok.mp h
    injection h with h
    subst h
    exact lift_busNew g hN (by rw [hk]; rfl) hb k a.new r
  | plant =>
    rw [hk] at h
    obtain ⟨b, hb, h⟩ := Res.bind_eq_ok.mp h
    injection h with h
    subst h
    exact lift_busNew g hN (by rw [hk]; rfl) hb _ a.new r

theorem lift_edge_row {k : Fin N.edges} (t0 t1 : ℝ) (a : Args) {cs : List (Contribution ℝ)} (h : N.edgeNew k t0 t1 a = Res.ok cs) (r : ℤ) :
    applyRow cs r (lift N g fun _ => 0) = 0 := by
  unfold Net.edgeNew at h
  cases hk : N.edge k with
  | line G B =>
    have : N.gasEdge k = none := by unfold Net.gasEdge; rw [hk]
    rw [this] at h
    injection h with h
    subst h
    rfl
  | gas kind n =>
    rw [Admissible.gasEdge_eq.mpr ⟨kind, n, hk, rfl⟩] at h
    simp only at h
    have hlen := Admissible.edgeRange_length (N := N) (k := k)
    rw [hk] at hlen
    have hgas : (N.edge k).isGas := by rw [hk]; rfl
    obtain ⟨h1, h2, h3, h4⟩ := lift_values g hN hgas fun _ => 0
    rw [zero_add] at h1 h2
    unfold Net.startFlow at h3
    unfold Net.endFlow at h4
    cases kind with
    | pipe dx d rr =>
      have hn2 := hN.points k dx d rr n hk
      simp only [edgeNeed] at hlen
      push_cast at hlen
      refine applyRow_forEach h fun i hi c hc => ?_
      obtain ⟨l, -, hc⟩ := Res.bind_eq_ok.mp hc
      obtain ⟨r', -, hc⟩ := Res.bind_eq_ok.mp hc
      injection hc with hc
      subst hc
      rw [Gas.cells_eq (n := n) (by unfold Gas.HasPoints; simpa using hlen)] at hi
      obtain ⟨j, hj, rfl⟩ := List.mem_map.mp hi
      rw [List.mem_range] at hj
      have none : ∀ i, (N.edgeRange k).1 ≤ i → i < (N.edgeRange k).2 → lift N g (fun _ => 0) i = 0 :=
        fun i h1 h2 => lift_pipe g hN hg hk (i := i) ⟨h1, h2⟩ _
      refine applyRow_columns (fun c hc => ?_) r
      simp only [Gas.cellEntries, List.mem_cons, List.not_mem_nil, or_false] at hc
      rcases hc with rfl | rfl | rfl | rfl | rfl | rfl | rfl | rfl <;> exact none _ (by simp only; omega) (by simp only; omega)
    | gaspower p q =>
      simp only at h
      simp only [edgeNeed] at hlen
      push_cast at hlen
      split at h
      · rename_i hpl
        obtain ⟨b, hb, h⟩ := Res.bind_eq_ok.mp h
        obtain ⟨x, -, h⟩ := Res.bind_eq_ok.mp h
        injection h with h
        subst h
        simp only [List.cons_append, applyRow_cons, applyRow_append, applyRow_nil, lift_dActive g hN (isPlant_power hpl) hb _ a.new r,
          h1, h3, smul_eq_mul, mul_zero, zero_mul, ite_self, add_zero]
      · cases h
    | _ =>
      have hend : (N.node (N.dst k)).kind.isGas := hN.gasEnd k _ n hk (by rintro p q ⟨⟩)
      have hsame := hg.short k ⟨_, n, hk, trivial⟩
      have h2 := h2 hend
      have h4' : (N.edgeRange k).2 - (N.edgeRange k).1 ≠ 2 := by simp only [edgeNeed] at hlen; push_cast at hlen; omega
      simp only [Gas.edgeNew, Gas.boundaryState, if_neg h4', Res.ok_bind] at h
      injection h with h
      subst h
      rw [show (N.edgeRange k).2 - 1 = (N.edgeRange k).2 - 2 + 1 by ring] at h4
      simp only [applyRow_cons, applyRow_nil, h1, h2, h3, h4, hsame, smul_eq_mul, mul_zero, ite_self, add_zero]
      split <;> ring

/-- The direction of the raise is in the kernel of the matrix. -/
theorem lift_row {t0 t1 : ℝ} {a : Args} {cs : List (Contribution ℝ)} (h : N.dNew t0 t1 a = Res.ok cs) (r : ℤ) :
    applyRow cs r (lift N g fun _ => 0) = 0 := by
  obtain ⟨x, hx, h⟩ := Res.bind_eq_ok.mp h
  obtain ⟨y, hy, h⟩ := Res.bind_eq_ok.mp h
  obtain ⟨z, hz, h⟩ := Res.bind_eq_ok.mp h
  injection h with h
  subst h
  rw [applyRow_append, applyRow_append, applyRow_forEach hx fun v _ c hc => lift_node_row g hN hg a hc r,
    applyRow_forEach hy fun k _ c hc => lift_edge_row g hN hg t0 t1 a hc r, applyRow_forEach hz fun k _ c hc => lift_edge_row g hN hg t0 t1 a hc r]
  simp

end

/-! ## C179 -/

open Classical in
theorem lifts_part {N : Net} {v : Fin N.nodes} (hv : Floating N v) (c : ℝ) : Lifts N fun w => if ReflTransGen (ShortJoined N) v w then c else 0 where
  short k hk := by
    have : ReflTransGen (ShortJoined N) v (N.src k) ↔ ReflTransGen (ShortJoined N) v (N.dst k) :=
      ⟨fun h => h.tail ⟨k, hk, Or.inl ⟨rfl, rfl⟩⟩, fun h => h.tail ⟨k, hk, Or.inr ⟨rfl, rfl⟩⟩⟩
    simp only [this]
  pipe k dx d r n hk := ⟨if_neg fun h => ((hv _ h).2 k dx d r n hk).1 rfl, if_neg fun h => ((hv _ h).2 k dx d r n hk).2 rfl⟩
  pressure w hw := if_neg fun h => (hv w h).1 hw

open Classical in
/-- **C179.** If no pressure is prescribed in a part of the gas network that is made of short edges only, the equations of a time step do not determine its pressures: with every solution
there is, for each number, another one in which this number is added to all pressures of the part, with the same other pressures, flows, voltages and angles. -/
theorem C179 (N : Net) (hN : Admissible N) (v : Fin N.nodes) (hv : Floating N v) (t0 t1 : ℝ) (a : Args) (la : Laws N t0 t1 a) (c : ℝ) :
    ∃ new, Laws N t0 t1 ⟨a.last, new, a.control⟩ ∧
      (∀ k, (N.edge k).isGas →
        N.startPressure k new = N.startPressure k a.new + (if ReflTransGen (ShortJoined N) v (N.src k) then c else 0) ∧
        ((N.node (N.dst k)).kind.isGas →
          N.endPressure k new = N.endPressure k a.new + if ReflTransGen (ShortJoined N) v (N.dst k) then c else 0) ∧
        N.startFlow k new = N.startFlow k a.new ∧ N.endFlow k new = N.endFlow k a.new) ∧
      ∀ w, (N.node w).kind.isPower → N.voltage new w = N.voltage a.new w ∧ N.angle new w = N.angle a.new w :=
  ⟨lift N (fun w => if ReflTransGen (ShortJoined N) v w then c else 0) a.new, lift_laws _ hN (lifts_part hv c) la,
    fun _ hk => ⟨(lift_pressure _ hN (lifts_part hv c) hk a.new).1, (lift_pressure _ hN (lifts_part hv c) hk a.new).2, (lift_values _ hN hk a.new).2.2⟩,
    fun _ hw => lift_voltage _ hN hw a.new⟩

/-- **C179** for what the program solves: a time step that has a solution has one for every pressure at the start of an edge at the node. -/
theorem C179_residual (N : Net) (hN : Admissible N) (v : Fin N.nodes) (hv : Floating N v) (t0 t1 : ℝ) (hcomp : Computable N t1) (z : N.Point)
    (hz : N.residual t0 t1 z = Res.ok 0) (c : ℝ) : ∃ y, N.residual t0 t1 (z.1, y, z.2.2) = Res.ok 0 ∧
      (∀ k, (N.edge k).isGas → N.src k = v → N.startPressure k (ext y) = N.startPressure k (ext z.2.1) + c) ∧
      ∀ k, (N.edge k).isGas → N.dst k = v → (N.node v).kind.isGas → N.endPressure k (ext y) = N.endPressure k (ext z.2.1) + c := by
  classical
  have hg := lifts_part hv c
  set g : Fin N.nodes → ℝ := fun w => if ReflTransGen (ShortJoined N) v w then c else 0 with hgdef
  have hgv : g v = c := if_pos ReflTransGen.refl
  obtain ⟨r, hr, hl⟩ := C72_residual_iff_laws N hN t0 t1 hcomp z
  rw [hz] at hr
  injection hr with hr
  have la := lift_laws g hN hg (hl.mp hr.symm)
  refine ⟨fun i => lift N g (ext z.2.1) i.val, ?_, ?_, ?_⟩
  · obtain ⟨r', hr', hl'⟩ := C72_residual_iff_laws N hN t0 t1 hcomp (z.1, (fun i : Fin N.stateCount => lift N g (ext z.2.1) i.val), z.2.2)
    rw [hr', hl'.mpr]
    unfold Net.args
    simp only [lift_ext g hN]
    exact la
  · intro k hk hs
    rw [lift_ext g hN, (lift_pressure g hN hg hk _).1, hs, hgv]
  · intro k hk hs hgas
    rw [lift_ext g hN, (lift_pressure g hN hg hk _).2 (by rw [hs]; exact hgas), hs, hgv]

/-- **C179** for the solver: if the part has an edge, the matrix of the linear systems of Newton's method is singular, at every time and in every state. -/
theorem C179_singular (N : Net) (hN : Admissible N) (k : Fin N.edges) (hk : (N.edge k).isGas) (hv : Floating N (N.src k)) (t0 t1 : ℝ) (a : Args)
    (cs : List (Contribution ℝ)) (h : N.dNew t0 t1 a = Res.ok cs) : (matrixOf N.stateCount N.stateCount cs).det = 0 := by
  classical
  have hg := lifts_part hv 1
  set g : Fin N.nodes → ℝ := fun w => if ReflTransGen (ShortJoined N) (N.src k) w then 1 else 0 with hgdef
  have hext : ext (fun _ : Fin N.stateCount => (0 : ℝ)) = fun _ => 0 := by
    funext i; unfold ext; split <;> rfl
  have he := lift_ext (N := N) g hN fun _ => 0
  rw [hext] at he
  refine Matrix.exists_mulVec_eq_zero_iff.mp ⟨fun i => lift N g (fun _ => 0) i.val, ?_, ?_⟩
  · intro h0
    rw [h0] at he
    have h1 := (lift_values g hN hk fun _ => 0).1
    rw [← he, show ext (0 : Fin N.stateCount → ℝ) = fun _ => 0 from hext, hgdef] at h1
    simp only [if_pos ReflTransGen.refl] at h1
    norm_num at h1
  · funext i
    rw [← applyRow_ext cs (fun c hcs => by
      have := ((C70_inside N hN).1 t0 t1 a cs h c hcs).2
      unfold Net.stateCount
      omega) i, he]
    exact lift_row g hN hg h _

/-! ## An example -/

noncomputable section

/-- A compressor between a source and a sink. -/
def levelNet : Net where
  nodes := 2
  edges := 1
  node v := ⟨.flow, fun _ => Res.ok (if v = 0 then 10 else -10, 0), 0, 0⟩
  edge _ := .gas .compressor 0
  src _ := 0
  dst _ := 1
  starting v := if v = 0 then [0] else []
  ending v := if v = 1 then [0] else []

/-- 40 bar before and 45 bar behind the compressor. -/
def levelState : Vec := fun i => if i = 0 then 40 else if i = 2 then 45 else 10

end

theorem level_admissible : Admissible levelNet where
  starting := by
    show ∀ v : Fin 2, (if v = 0 then [(0 : Fin 1)] else []).Nodup ∧
      ∀ k : Fin 1, k ∈ (if v = 0 then [(0 : Fin 1)] else []) ↔ (0 : Fin 2) = v
    decide
  ending := by
    show ∀ v : Fin 2, (if v = 1 then [(0 : Fin 1)] else []).Nodup ∧
      ∀ k : Fin 1, k ∈ (if v = 1 then [(0 : Fin 1)] else []) ↔ (1 : Fin 2) = v
    decide
  noLoop := by show ∀ _ : Fin 1, (0 : Fin 2) ≠ 1; decide
  points := by intro k dx d r n h; injection h with h; cases h
  gasStart := by intro k kind n h; rfl
  gasEnd := by intro k kind n h _; rfl
  plantEnd := by intro k g p n h; injection h with h; cases h
  lines := by intro k G B h; cases h

theorem level_floating : Floating levelNet (0 : Fin 2) := fun _ _ =>
  ⟨(by intro h; cases h), fun k dx d r n h => (by injection h with h; cases h)⟩

theorem level_laws (t0 t1 : ℝ) : Laws levelNet t0 t1 ⟨levelState, levelState, fun _ => 5⟩ := by
  have flow : ∀ v : Fin 2, levelNet.outflow v levelState = if v = 0 then 10 else -10 := by
    intro v
    have e1 : levelNet.startFlow (0 : Fin 1) levelState = 10 := by show levelState 1 = 10; simp [levelState]
    have e2 : levelNet.endFlow (0 : Fin 1) levelState = 10 := by show levelState 3 = 10; simp [levelState]
    have : levelNet.outflow v levelState = (if (0 : Fin 2) = v then levelNet.startFlow (0 : Fin 1) levelState else 0) -
        (if (1 : Fin 2) = v then levelNet.endFlow (0 : Fin 1) levelState else 0) := by
      unfold Net.outflow
      show (∑ k : Fin 1, _) - (∑ k : Fin 1, _) = _
      rw [Fin.sum_univ_one, Fin.sum_univ_one]
      match v with
      | 0 => rfl
      | 1 => rfl
    rw [this, e1, e2]
    match v with
    | 0 => simp
    | 1 => simp
  refine ⟨⟨fun v : Fin 2 => if v = 0 then 40 else 45, ?_, ?_⟩, ?_, ?_, ?_, ?_, ?_⟩
  · show ∀ k : Fin 1, _
    intro k hk
    match k with
    | 0 => exact ⟨show levelState 0 = 40 by simp [levelState], fun _ => show levelState 2 = 45 by simp [levelState]⟩
  · intro v b hv; cases hv
  · intro v _
    refine ⟨fun h => (by cases h), fun _ b hb => ?_⟩
    injection hb with hb
    subst hb
    exact flow v
  · show ∀ k : Fin 1, _
    intro k kind n h hs
    injection h with h
    subst h
    match k with
    | 0 =>
      refine ⟨show levelState 2 = levelState 0 + Gas.demandedRise .compressor 5 by simp [levelState, Gas.demandedRise]; norm_num, ?_⟩
      show levelState 1 = levelState 3
      simp [levelState]
  · intro k dx d r n h; injection h with h; cases h
  · intro v b hb; trivial
  · intro k g p n h; injection h with h; cases h

/-- The hypotheses of `C179` and `C179_residual` can be met. -/
example : Admissible levelNet ∧ Floating levelNet (0 : Fin 2) ∧ Computable levelNet 60 ∧ Laws levelNet 0 60 ⟨levelState, levelState, fun _ => 5⟩ :=
  ⟨level_admissible, level_floating, ⟨fun _ _ => ⟨_, rfl⟩, fun _ _ _ _ _ h => by injection h with h; cases h⟩, level_laws 0 60⟩

/-- The matrix is computed for this network. -/
example : ∃ cs, levelNet.dNew 0 60 ⟨levelState, levelState, fun _ => 5⟩ = Res.ok cs ∧ (matrixOf levelNet.stateCount levelNet.stateCount cs).det = 0 := by
  have hr : Regular levelNet 60 levelState := ⟨fun v _ => ⟨_, rfl⟩, fun k dx d r n h => by injection h with h; cases h⟩
  obtain ⟨-, cs, -, -, h2, -⟩ := level_admissible.network_exact 0 (a₀ := ⟨levelState, levelState, fun _ => 5⟩) hr
  exact ⟨cs, h2, C179_singular levelNet level_admissible (0 : Fin 1) rfl level_floating 0 60 _ cs h2⟩

end Verif.Network
