import Verif.Network.ShortCircles
import Verif.Network.Losses

/-!
# Property C178: a grid without prescribed angle makes the equations of every time step ambiguous

If no node of a connected part of the power grid has a prescribed angle (there is no `Vphinode` and no power plant in it), the equations of a time step have no solution or infinitely
many, and the matrices of Newton's method are singular.
-/

set_option autoImplicit false

namespace Verif.Network

open Verif.Net Verif.Handler Relation Real

/-! ## Specification -/

/-- A transmission line joins the nodes. -/
def Wired (N : Net) (v w : Fin N.nodes) : Prop :=
  ∃ k G B, N.edge k = .line G B ∧ (N.src k = v ∧ N.dst k = w ∨ N.src k = w ∧ N.dst k = v)

/-- The node is a node of the power grid, and nowhere in its part of the grid the angle is prescribed. -/
def NoReference (N : Net) (v : Fin N.nodes) : Prop :=
  (N.node v).kind.isPower ∧ ∀ w, ReflTransGen (Wired N) v w → (N.node w).kind ≠ .power .vphi ∧ (N.node w).kind ≠ .plant

/-! ## Adding to angles -/

/-- The state with something added to angles. -/
def turn (N : Net) (g : Fin N.nodes → ℝ) (state : Vec) : Vec := fun i =>
  state i + ∑ v, if (N.node v).kind.isPower ∧ i = (N.nodeRange v).1 + 1 then g v else 0

/-- The same is added at both ends of a line, nothing where the angle is prescribed. -/
structure Turns (N : Net) (g : Fin N.nodes → ℝ) : Prop where
  lines : ∀ k G B, N.edge k = .line G B → g (N.src k) = g (N.dst k)
  vphi : ∀ v, (N.node v).kind = .power .vphi → g v = 0
  plant : ∀ v, (N.node v).kind = .plant → g v = 0

section
variable {N : Net} (g : Fin N.nodes → ℝ)

theorem power_inRange {v : Fin N.nodes} (hv : (N.node v).kind.isPower) :
    N.InRange (.inl v) (N.nodeRange v).1 ∧ N.InRange (.inl v) ((N.nodeRange v).1 + 1) := by
  have hlen := N.range_length (.inl v)
  have hneed : N.need (.inl v) = 2 := by
    show nodeNeed (N.node v).kind = 2
    unfold nodeNeed
    rw [if_pos hv]
  rw [hneed] at hlen
  push_cast at hlen
  exact ⟨⟨le_rfl, by show (N.range (.inl v)).1 < _; omega⟩, ⟨by show (N.range (.inl v)).1 ≤ (N.range (.inl v)).1 + 1; omega, by
    show (N.range (.inl v)).1 + 1 < _; omega⟩⟩

theorem turn_edge {k : Fin N.edges} {i : ℤ} (hi : N.InRange (.inr k) i) (state : Vec) : turn N g state i = state i := by
  unfold turn
  rw [Finset.sum_eq_zero, add_zero]
  intro v _
  split
  · rename_i h
    have := (h.2 ▸ (power_inRange h.1).2 : N.InRange (.inl v) i).unique hi
    cases this
  · rfl

theorem turn_node {v : Fin N.nodes} (hv : (N.node v).kind.isPower) {i : ℤ} (hi : N.InRange (.inl v) i) (state : Vec) :
    turn N g state i = state i + if i = (N.nodeRange v).1 + 1 then g v else 0 := by
  unfold turn
  congr 1
  rw [Finset.sum_eq_single v]
  · simp [hv]
  · intro w _ hw
    split
    · rename_i h
      have := (h.2 ▸ (power_inRange h.1).2 : N.InRange (.inl w) i).unique hi
      injection this with this
      exact absurd this hw
    · rfl
  · intro h; exact absurd (Finset.mem_univ v) h

theorem turn_voltage {v : Fin N.nodes} (hv : (N.node v).kind.isPower) (state : Vec) :
    N.voltage (turn N g state) v = N.voltage state v ∧ N.angle (turn N g state) v = N.angle state v + g v := by
  unfold Net.voltage Net.angle
  rw [turn_node g hv (power_inRange hv).1, turn_node g hv (power_inRange hv).2, if_neg (by omega), if_pos rfl, add_zero]
  exact ⟨rfl, rfl⟩

theorem turn_outside (state : Vec) {i : ℤ} (hi : ¬ (0 ≤ i ∧ i < N.states)) : turn N g state i = state i := by
  unfold turn
  rw [Finset.sum_eq_zero, add_zero]
  intro v _
  split
  · rename_i h
    exact absurd (h.2 ▸ (power_inRange h.1).2 : N.InRange (.inl v) i).bounds hi
  · rfl

theorem turn_ext (y : Fin N.stateCount → ℝ) : ext (fun i : Fin N.stateCount => turn N g (ext y) i.val) = turn N g (ext y) := by
  funext i
  unfold Net.stateCount
  by_cases hi : 0 ≤ i ∧ i < N.states
  · have h : 0 ≤ i ∧ i.toNat < N.states.toNat := ⟨hi.1, by omega⟩
    unfold ext
    rw [dif_pos h]
    simp only [Int.toNat_of_nonneg hi.1]
  · have h : ¬ (0 ≤ i ∧ i.toNat < N.states.toNat) := fun h => hi ⟨h.1, by omega⟩
    rw [turn_outside g _ hi]
    unfold ext
    rw [dif_neg h, dif_neg h]

variable (hN : Admissible N)
include hN

theorem turn_gas {k : Fin N.edges} (hk : (N.edge k).isGas) (state : Vec) :
    N.startPressure k (turn N g state) = N.startPressure k state ∧ N.endPressure k (turn N g state) = N.endPressure k state ∧
    N.startFlow k (turn N g state) = N.startFlow k state ∧ N.endFlow k (turn N g state) = N.endFlow k state := by
  cases he : N.edge k with
  | line G B => rw [he] at hk; cases hk
  | gas kind n =>
    have hlen := Admissible.edgeRange_length (N := N) (k := k)
    have hneed := (hN.gas_need he).1
    have inr : ∀ i, (N.edgeRange k).1 ≤ i → i < (N.edgeRange k).2 → N.InRange (.inr k) i := fun i h1 h2 => ⟨h1, h2⟩
    unfold Net.startPressure Net.endPressure Net.startFlow Net.endFlow
    rw [turn_edge g (inr _ le_rfl (by omega)), turn_edge g (inr ((N.edgeRange k).2 - 2) (by omega) (by omega)),
      turn_edge g (inr ((N.edgeRange k).1 + 1) (by omega) (by omega)), turn_edge g (inr ((N.edgeRange k).2 - 1) (by omega) (by omega))]
    exact ⟨rfl, rfl, rfl, rfl⟩

theorem turn_outflow (state : Vec) (v : Fin N.nodes) : N.outflow v (turn N g state) = N.outflow v state := by
  unfold Net.outflow
  congr 1 <;> refine Finset.sum_congr rfl fun k _ => ?_ <;> split <;> try rfl
  · split
    · rename_i h; exact (turn_gas g hN h state).2.2.1
    · rfl
  · split
    · rename_i h; exact (turn_gas g hN h state).2.2.2
    · rfl

variable (hg : Turns N g)
include hg

theorem turn_active {v : Fin N.nodes} (hv : (N.node v).kind.isPower) (state : Vec) :
    N.active v (turn N g state) = N.active v state ∧ N.reactive v (turn N g state) = N.reactive v state := by
  have hv' := turn_voltage g hv state
  have key : ∀ k w, (∃ G B, N.edge k = .line G B) → (N.src k = v ∧ w = N.dst k ∨ N.dst k = v ∧ w = N.src k) →
      N.voltage (turn N g state) w = N.voltage state w ∧
        N.angle (turn N g state) v - N.angle (turn N g state) w = N.angle state v - N.angle state w := by
    rintro k w ⟨G, B, hk⟩ (⟨h, rfl⟩ | ⟨h, rfl⟩)
    · have := turn_voltage g (hN.lines k G B hk).2 state
      refine ⟨this.1, ?_⟩
      rw [hv'.2, this.2, ← hg.lines k G B hk, h]
      ring
    · have := turn_voltage g (hN.lines k G B hk).1 state
      refine ⟨this.1, ?_⟩
      rw [hv'.2, this.2, hg.lines k G B hk, h]
      ring
  have line : ∀ k, (∃ G B, N.edge k = .line G B) ∨ (N.edge k).conductance = 0 ∧ (N.edge k).susceptance = 0 := by
    intro k
    cases N.edge k with
    | line G B => exact Or.inl ⟨G, B, rfl⟩
    | gas kind n => exact Or.inr ⟨rfl, rfl⟩
  unfold Net.active Net.reactive
  rw [hv'.1]
  refine ⟨?_, ?_⟩ <;> congr 2 <;> refine Finset.sum_congr rfl fun k _ => ?_ <;> split <;> try rfl
  all_goals
    rename_i hsrc
    rcases line k with h | ⟨h1, h2⟩
    · first
        | rw [(key k _ h (Or.inl ⟨hsrc, rfl⟩)).1, (key k _ h (Or.inl ⟨hsrc, rfl⟩)).2]
        | rw [(key k _ h (Or.inr ⟨hsrc, rfl⟩)).1, (key k _ h (Or.inr ⟨hsrc, rfl⟩)).2]
    · rw [h1, h2]; ring

/-- The angles may be turned in every solution. -/
theorem turn_laws {t0 t1 : ℝ} {a : Args} (la : Laws N t0 t1 a) : Laws N t0 t1 ⟨a.last, turn N g a.new, a.control⟩ := by
  refine ⟨?_, ?_, ?_, ?_, ?_, ?_⟩
  · obtain ⟨P, hP, P0⟩ := la.pressures
    refine ⟨P, fun k hk => ?_, P0⟩
    obtain ⟨h1, h2, -, -⟩ := turn_gas g hN hk a.new
    exact ⟨h1.trans (hP k hk).1, fun h => h2.trans ((hP k hk).2 h)⟩
  · intro v hv
    obtain ⟨h1, h2⟩ := la.flows v hv
    exact ⟨fun h => (turn_outflow g hN a.new v).trans (h1 h), fun h b hb => (turn_outflow g hN a.new v).trans (h2 h b hb)⟩
  · intro k kind n he hs
    obtain ⟨h1, h2, h3, h4⟩ := turn_gas g hN (k := k) (by rw [he]; rfl) a.new
    obtain ⟨l1, l2⟩ := la.short k kind n he hs
    exact ⟨by show N.endPressure k (turn N g a.new) = N.startPressure k (turn N g a.new) + _; rw [h1, h2, l1],
      by show N.startFlow k (turn N g a.new) = N.endFlow k (turn N g a.new); rw [h3, h4, l2]⟩
  · intro k dx d r n he j hj
    have hlen := Admissible.edgeRange_length (N := N) (k := k)
    rw [he] at hlen
    simp only [edgeNeed] at hlen
    push_cast at hlen
    have seg : ∀ m : ℕ, m < n → Net.segment (turn N g a.new) ((N.edgeRange k).1 + 2 * (m : ℤ)) = Net.segment a.new ((N.edgeRange k).1 + 2 * (m : ℤ)) := by
      intro m hm
      have inr : ∀ i, (N.edgeRange k).1 ≤ i → i < (N.edgeRange k).2 → N.InRange (.inr k) i := fun i h1 h2 => ⟨h1, h2⟩
      unfold Net.segment
      rw [turn_edge g (inr _ (by omega) (by omega)), turn_edge g (inr _ (by omega) (by omega))]
    have s1 := seg j (by omega)
    have s2 := seg (j + 1) hj
    push_cast at s2
    show Box.evaluatePoint _ _ _ _ _ _ (Net.segment (turn N g a.new) _) (Net.segment (turn N g a.new) _) = _
    rw [s1, s2]
    exact la.pipes k dx d r n he j hj
  · intro v b hb
    have := la.grid v b hb
    cases hk : (N.node v).kind with
    | power kind =>
      have hp : (N.node v).kind.isPower := by rw [hk]; rfl
      obtain ⟨s1, s2⟩ := turn_active g hN hg hp a.new
      obtain ⟨s3, s4⟩ := turn_voltage g hp a.new
      rw [hk] at this
      cases kind with
      | vphi =>
        rw [hg.vphi v hk, add_zero] at s4
        simp only [s3, s4]; exact this
      | pq => simp only [s1, s2]; exact this
      | pv => simp only [s1, s3]; exact this
    | plant =>
      have hp : (N.node v).kind.isPower := by rw [hk]; rfl
      obtain ⟨s3, s4⟩ := turn_voltage g hp a.new
      rw [hg.plant v hk, add_zero] at s4
      rw [hk] at this
      simp only [s3, s4]
      exact this
    | _ => trivial
  · intro k p q n he
    obtain ⟨-, -, h3, -⟩ := turn_gas g hN (k := k) (by rw [he]; rfl) a.new
    show Power.generated ⟨p, q⟩ (N.startFlow k (turn N g a.new)) = Res.ok (N.active (N.dst k) (turn N g a.new))
    rw [h3, (turn_active g hN hg (isPlant_power (hN.plantEnd k p q n he)) a.new).1]
    exact la.plants k p q n he

/-! ## The matrix of the solver -/

omit hN hg in
theorem turn_edgeColumns {k : Fin N.edges} {i : ℤ} (h1 : (N.edgeRange k).1 ≤ i) (h2 : i < (N.edgeRange k).2) : turn N g (fun _ => 0) i = 0 :=
  turn_edge g (k := k) ⟨h1, h2⟩ _

theorem turn_dActive {v : Fin N.nodes} (hv : (N.node v).kind.isPower) {b : Power.Bus} (hb : N.bus v = Res.ok b) (row : ℤ) (state : Vec) (r : ℤ) :
    applyRow (Power.dActive b row state) r (turn N g fun _ => 0) = 0 ∧ applyRow (Power.dReactive b row state) r (turn N g fun _ => 0) = 0 := by
  obtain ⟨h1, h2, hl⟩ : turn N g (fun _ => 0) b.first = 0 ∧ turn N g (fun _ => 0) (b.first + 1) = g v ∧
      ∀ l ∈ b.lines, turn N g (fun _ => 0) l.other = 0 ∧ turn N g (fun _ => 0) (l.other + 1) = g v := by
    unfold Net.bus at hb
    split at hb
    · rename_i hall
      injection hb with hb
      subst hb
      have hz := turn_voltage g hv fun _ => 0
      refine ⟨hz.1, hz.2.trans (zero_add _), ?_⟩
      intro l hl
      obtain ⟨x, hx, rfl⟩ := List.mem_map.mp hl
      have hz' := turn_voltage g (List.all_eq_true.mp hall x hx) fun _ => 0
      have hsame : g x.2.2 = g v := by
        unfold Net.attached at hx
        rcases List.mem_append.mp hx with hx | hx
        · obtain ⟨k, hks, h⟩ := List.mem_filterMap.mp hx
          have hs := ((hN.starting v).2 k).mp hks
          cases hk : N.edge k with
          | gas kind n => rw [hk] at h; cases h
          | line G B =>
            rw [hk] at h
            injection h with h
            subst h
            show g (N.dst k) = g v
            rw [← hg.lines k G B hk, hs]
        · obtain ⟨k, hks, h⟩ := List.mem_filterMap.mp hx
          have hs := ((hN.ending v).2 k).mp hks
          cases hk : N.edge k with
          | gas kind n => rw [hk] at h; cases h
          | line G B =>
            rw [hk] at h
            injection h with h
            subst h
            show g (N.src k) = g v
            rw [hg.lines k G B hk, hs]
      exact ⟨hz'.1, (hz'.2.trans (zero_add _)).trans hsame⟩
    · cases hb
  have lines : ∀ (ls : List Power.Line) (c1 c2 c3 c4 : Power.Line → ℝ), (∀ l ∈ ls, l ∈ b.lines) → (∀ l, c2 l + c4 l = 0) →
      applyRow (ls.flatMap fun l => [(row, b.first, c1 l), (row, b.first + 1, c2 l), (row, l.other, c3 l), (row, l.other + 1, c4 l)]) r (turn N g fun _ => 0) = 0 := by
    intro ls c1 c2 c3 c4 hls hc
    induction ls with
    | nil => rfl
    | cons l ls ih =>
      obtain ⟨l1, l2⟩ := hl l (hls l (by simp))
      rw [List.flatMap_cons, applyRow_append, ih fun l hl => hls l (by simp [hl])]
      simp only [applyRow_cons, applyRow_nil, h1, h2, l1, l2, smul_eq_mul, mul_zero, ite_self, zero_add, add_zero]
      split
      · rw [← add_mul, hc, zero_mul]
      · simp
  refine ⟨?_, ?_⟩
  · unfold Power.dActive
    simp only [applyRow_cons, h1, h2, smul_eq_mul, mul_zero, zero_mul, ite_self, zero_add]
    exact lines b.lines _ _ _ _ (fun _ h => h) (fun l => by ring)
  · unfold Power.dReactive
    simp only [applyRow_cons, h1, h2, smul_eq_mul, mul_zero, zero_mul, ite_self, zero_add]
    exact lines b.lines _ _ _ _ (fun _ h => h) (fun l => by ring)

theorem turn_busNew {v : Fin N.nodes} (hv : (N.node v).kind.isPower) {b : Power.Bus} (hb : N.bus v = Res.ok b) (k : Power.Kind)
    (hk : k = .vphi → g v = 0) (state : Vec) (r : ℤ) : applyRow (Power.busNew k b state) r (turn N g fun _ => 0) = 0 := by
  have hd := fun row => turn_dActive g hN hg hv hb row state r
  have h12 : turn N g (fun _ => 0) b.first = 0 ∧ turn N g (fun _ => 0) (b.first + 1) = g v := by
    have hz := turn_voltage g hv fun _ => 0
    unfold Net.bus at hb
    split at hb
    · injection hb with hb
      subst hb
      exact ⟨hz.1, hz.2.trans (zero_add _)⟩
    · cases hb
  cases k with
  | pq =>
    show applyRow (_ ++ _) r _ = 0
    rw [applyRow_append, (hd _).1, (hd _).2, add_zero]
  | pv =>
    show applyRow (_ ++ _) r _ = 0
    rw [applyRow_append, (hd _).1, zero_add]
    simp [applyRow_cons, h12.1]
  | vphi =>
    show applyRow [_, _] r _ = 0
    simp [applyRow_cons, h12.1, h12.2, hk rfl]

omit hg in
theorem turn_ends {v : Fin N.nodes} (state : Vec) :
    ∀ x ∈ N.ends v, Gas.dPressure state (turn N g fun _ => 0) x = 0 ∧ Gas.dFlow (turn N g fun _ => 0) x = 0 := by
  intro x hx
  obtain ⟨k, e, he, hcase⟩ := hN.mem_ends.mp hx
  obtain ⟨kind, n, hk, rfl⟩ := Admissible.gasEdge_eq.mp he
  have hlen := Admissible.edgeRange_length (N := N) (k := k)
  have hneed := (hN.gas_need hk).1
  have hz : turn N g (fun _ => 0) (Gas.stateIndex x) = 0 ∧ turn N g (fun _ => 0) (Gas.stateIndex x + 1) = 0 := by
    rcases hcase with ⟨_, rfl⟩ | ⟨_, rfl⟩
    · exact ⟨turn_edgeColumns g (k := k) (i := (N.edgeRange k).1) (by omega) (by omega), turn_edgeColumns g (k := k) (i := (N.edgeRange k).1 + 1) (by omega) (by omega)⟩
    · exact ⟨turn_edgeColumns g (k := k) (i := (N.edgeRange k).2 - 2) (by omega) (by omega),
        turn_edgeColumns g (k := k) (i := (N.edgeRange k).2 - 2 + 1) (by omega) (by omega)⟩
  refine ⟨?_, hz.2⟩
  unfold Gas.dPressure
  split <;> simp [hz.1]

omit hg in
theorem turn_flowNode {v : Fin N.nodes} (hv : (N.node v).kind.isGas) (state : Vec) {cs : List (Contribution ℝ)}
    (h : Gas.flowDerivative (N.ends v) state = Res.ok cs) (r : ℤ) : applyRow cs r (turn N g fun _ => 0) = 0 := by
  have hz := turn_ends g hN (v := v) state
  have hu := hN.ends_usable hv
  have hid := hN.ends_ids v
  revert h hz hu hid
  cases N.ends v with
  | nil =>
    intro h _ _ _
    injection h with h
    subst h
    rfl
  | cons x rest =>
    intro h hz hu hid
    obtain ⟨cs', h', spec⟩ := Gas.flowDerivative_spec x rest state hu hid
    rw [h] at h'
    injection h' with h'
    subst h'
    rw [spec ℝ r, (hz x (by simp)).1, pressures_none (fun y hy => (hz y (by simp [hy])).1), zero_add]
    split
    · refine List.sum_eq_zero fun y hy => ?_
      obtain ⟨z, hz', rfl⟩ := List.mem_map.mp hy
      rw [(hz z hz').2, smul_zero]
    · rfl

theorem turn_node_row {v : Fin N.nodes} (a : Args) {cs : List (Contribution ℝ)} (h : N.nodeNew v a = Res.ok cs) (r : ℤ) :
    applyRow cs r (turn N g fun _ => 0) = 0 := by
  unfold Net.nodeNew at h
  cases hk : (N.node v).kind with
  | innode =>
    rw [hk] at h
    exact turn_flowNode g hN (by rw [hk]; rfl) a.new h r
  | flow =>
    rw [hk] at h
    simp only at h
    split at h
    · injection h with h
      subst h
      rfl
    · exact turn_flowNode g hN (by rw [hk]; rfl) a.new h r
  | pressure =>
    rw [hk] at h
    simp only at h
    split at h
    · injection h with h
      subst h
      rfl
    · have hv : (N.node v).kind.isGas := by rw [hk]; rfl
      refine applyRow_forEach h fun x hx c hc => ?_
      obtain ⟨c', hc', spec⟩ := Gas.dBoundaryPQ_ok (hN.ends_usable hv x hx) (1, 0) (Gas.boundaryEquation x.2 x.1) a.new
      rw [hc] at hc'
      injection hc' with hc'
      subst hc'
      rw [spec ℝ r, (turn_ends g hN (v := v) a.new x hx).1]
      simp
  | power k =>
    rw [hk] at h
    obtain ⟨b, hb, h⟩ := Res.bind_eq_ok.mp h
    injection h with h
    subst h
    exact turn_busNew g hN hg (by rw [hk]; rfl) hb k (fun hkind => hg.vphi v (by rw [hk, hkind])) a.new r
  | plant =>
    rw [hk] at h
    obtain ⟨b, hb, h⟩ := Res.bind_eq_ok.mp h
    injection h with h
    subst h
    exact turn_busNew g hN hg (by rw [hk]; rfl) hb _ (fun _ => hg.plant v hk) a.new r

theorem turn_edge_row {k : Fin N.edges} (t0 t1 : ℝ) (a : Args) {cs : List (Contribution ℝ)} (h : N.edgeNew k t0 t1 a = Res.ok cs) (r : ℤ) :
    applyRow cs r (turn N g fun _ => 0) = 0 := by
  unfold Net.edgeNew at h
  cases hk : N.edge k with
  | line G B =>
    have : N.gasEdge k = none := by unfold Net.gasEdge; rw [hk]
    rw [this] at h
    injection h with h
    subst h
    rfl
  | gas kind n =>
    rw [Admissible.gasEdge_eq.mpr ⟨kind, n, hk, rfl⟩] at h
    simp only at h
    have hlen := Admissible.edgeRange_length (N := N) (k := k)
    rw [hk] at hlen
    have none : ∀ i, (N.edgeRange k).1 ≤ i → i < (N.edgeRange k).2 → turn N g (fun _ => 0) i = 0 := fun i h1 h2 => turn_edgeColumns g h1 h2
    cases kind with
    | pipe dx d rr =>
      have hn2 := hN.points k dx d rr n hk
      simp only [edgeNeed] at hlen
      push_cast at hlen
      refine applyRow_forEach h fun i hi c hc => ?_
      obtain ⟨l, -, hc⟩ := Res.bind_eq_ok.mp hc
      obtain ⟨r', -, hc⟩ := Res.bind_eq_ok.mp hc
      injection hc with hc
      subst hc
      rw [Gas.cells_eq (n := n) (by unfold Gas.HasPoints; simpa using hlen)] at hi
      obtain ⟨j, hj, rfl⟩ := List.mem_map.mp hi
      rw [List.mem_range] at hj
      refine applyRow_columns (fun c hc => ?_) r
      simp only [Gas.cellEntries, List.mem_cons, List.not_mem_nil, or_false] at hc
      rcases hc with rfl | rfl | rfl | rfl | rfl | rfl | rfl | rfl <;> exact none _ (by simp only; omega) (by simp only; omega)
    | gaspower p q =>
      simp only at h
      simp only [edgeNeed] at hlen
      push_cast at hlen
      split at h
      · rename_i hpl
        obtain ⟨b, hb, h⟩ := Res.bind_eq_ok.mp h
        obtain ⟨x, -, h⟩ := Res.bind_eq_ok.mp h
        injection h with h
        subst h
        simp only [List.cons_append, applyRow_cons, applyRow_append, applyRow_nil, (turn_dActive g hN hg (isPlant_power hpl) hb _ a.new r).1,
          none _ le_rfl (by omega), none ((N.edgeRange k).1 + 1) (by omega) (by omega), smul_eq_mul, mul_zero, ite_self, add_zero]
      · cases h
    | _ =>
      have h4 : (N.edgeRange k).2 - (N.edgeRange k).1 ≠ 2 := by simp only [edgeNeed] at hlen; push_cast at hlen; omega
      simp only [Gas.edgeNew, Gas.boundaryState, if_neg h4, Res.ok_bind] at h
      injection h with h
      subst h
      simp only [edgeNeed] at hlen
      push_cast at hlen
      refine applyRow_columns (fun c hc => ?_) r
      simp only [List.mem_cons, List.not_mem_nil, or_false] at hc
      rcases hc with rfl | rfl | rfl | rfl <;> exact none _ (by simp only; omega) (by simp only; omega)

/-- The direction of the turn is in the kernel of the matrix. -/
theorem turn_row {t0 t1 : ℝ} {a : Args} {cs : List (Contribution ℝ)} (h : N.dNew t0 t1 a = Res.ok cs) (r : ℤ) :
    applyRow cs r (turn N g fun _ => 0) = 0 := by
  obtain ⟨x, hx, h⟩ := Res.bind_eq_ok.mp h
  obtain ⟨y, hy, h⟩ := Res.bind_eq_ok.mp h
  obtain ⟨z, hz, h⟩ := Res.bind_eq_ok.mp h
  injection h with h
  subst h
  rw [applyRow_append, applyRow_append, applyRow_forEach hx fun v _ c hc => turn_node_row g hN hg a hc r,
    applyRow_forEach hy fun k _ c hc => turn_edge_row g hN hg t0 t1 a hc r, applyRow_forEach hz fun k _ c hc => turn_edge_row g hN hg t0 t1 a hc r]
  simp

end

/-! ## C178 -/

open Classical in
theorem turns_part {N : Net} {v : Fin N.nodes} (hv : NoReference N v) (c : ℝ) : Turns N fun w => if ReflTransGen (Wired N) v w then c else 0 where
  lines k G B hk := by
    have : ReflTransGen (Wired N) v (N.src k) ↔ ReflTransGen (Wired N) v (N.dst k) :=
      ⟨fun h => h.tail ⟨k, G, B, hk, Or.inl ⟨rfl, rfl⟩⟩, fun h => h.tail ⟨k, G, B, hk, Or.inr ⟨rfl, rfl⟩⟩⟩
    simp only [this]
  vphi w hw := if_neg fun h => (hv.2 w h).1 hw
  plant w hw := if_neg fun h => (hv.2 w h).2 hw

open Classical in
/-- **C178.** If in a part of the power grid no angle is prescribed, the equations of a time step do not determine the angles: with every solution there is, for each number, another one
in which this number is added to all angles of the part, with the same voltages, other angles, pressures and flows. -/
theorem C178 (N : Net) (hN : Admissible N) (v : Fin N.nodes) (hv : NoReference N v) (t0 t1 : ℝ) (a : Args) (la : Laws N t0 t1 a) (c : ℝ) :
    ∃ new, Laws N t0 t1 ⟨a.last, new, a.control⟩ ∧
      (∀ w, (N.node w).kind.isPower → N.voltage new w = N.voltage a.new w ∧
        N.angle new w = N.angle a.new w + if ReflTransGen (Wired N) v w then c else 0) ∧
      ∀ k i, (N.edgeRange k).1 ≤ i → i < (N.edgeRange k).2 → new i = a.new i :=
  ⟨turn N (fun w => if ReflTransGen (Wired N) v w then c else 0) a.new, turn_laws _ hN (turns_part hv c) la,
    fun _ hw => turn_voltage _ hw a.new, fun k _ h1 h2 => turn_edge _ (k := k) ⟨h1, h2⟩ a.new⟩

/-- **C178** for what the program solves: a time step that has a solution has one for every angle at the node. -/
theorem C178_residual (N : Net) (hN : Admissible N) (v : Fin N.nodes) (hv : NoReference N v) (t0 t1 : ℝ) (hcomp : Computable N t1) (z : N.Point)
    (hz : N.residual t0 t1 z = Res.ok 0) (angle : ℝ) : ∃ y, N.residual t0 t1 (z.1, y, z.2.2) = Res.ok 0 ∧ N.angle (ext y) v = angle := by
  classical
  have hg := turns_part hv (angle - N.angle (ext z.2.1) v)
  set g : Fin N.nodes → ℝ := fun w => if ReflTransGen (Wired N) v w then angle - N.angle (ext z.2.1) v else 0 with hgdef
  obtain ⟨r, hr, hl⟩ := C72_residual_iff_laws N hN t0 t1 hcomp z
  rw [hz] at hr
  injection hr with hr
  have la := turn_laws g hN hg (hl.mp hr.symm)
  refine ⟨fun i => turn N g (ext z.2.1) i.val, ?_, ?_⟩
  · obtain ⟨r', hr', hl'⟩ := C72_residual_iff_laws N hN t0 t1 hcomp (z.1, (fun i : Fin N.stateCount => turn N g (ext z.2.1) i.val), z.2.2)
    rw [hr', hl'.mpr]
    unfold Net.args
    simp only [turn_ext g]
    exact la
  · rw [turn_ext g, (turn_voltage g hv.1 _).2, hgdef]
    simp only [if_pos ReflTransGen.refl]
    ring

/-- **C178** for the solver: the matrix of the linear systems of Newton's method is singular, at every time and in every state. -/
theorem C178_singular (N : Net) (hN : Admissible N) (v : Fin N.nodes) (hv : NoReference N v) (t0 t1 : ℝ) (a : Args) (cs : List (Contribution ℝ))
    (h : N.dNew t0 t1 a = Res.ok cs) : (matrixOf N.stateCount N.stateCount cs).det = 0 := by
  classical
  have hg := turns_part hv 1
  set g : Fin N.nodes → ℝ := fun w => if ReflTransGen (Wired N) v w then 1 else 0 with hgdef
  have hext : ext (fun _ : Fin N.stateCount => (0 : ℝ)) = fun _ => 0 := by
    funext i; unfold ext; split <;> rfl
  have he := turn_ext (N := N) g fun _ => 0
  rw [hext] at he
  refine Matrix.exists_mulVec_eq_zero_iff.mp ⟨fun i => turn N g (fun _ => 0) i.val, ?_, ?_⟩
  · intro h0
    rw [h0] at he
    have h1 := (turn_voltage g hv.1 fun _ => 0).2
    rw [← he, show ext (0 : Fin N.stateCount → ℝ) = fun _ => 0 from hext] at h1
    unfold Net.angle at h1
    rw [hgdef] at h1
    simp only [if_pos ReflTransGen.refl] at h1
    norm_num at h1
  · funext i
    rw [← applyRow_ext cs (fun c hcs => by
      have := ((C70_inside N hN).1 t0 t1 a cs h c hcs).2
      unfold Net.stateCount
      omega) i, he]
    exact turn_row g hN hg h _

/-! ## An example -/

noncomputable section

/-- Two power nodes joined by a line; at one of them active and reactive power are prescribed, at the other active power and voltage. -/
def freeNet : Net where
  nodes := 2
  edges := 1
  node v := ⟨if v = 0 then .power .pq else .power .pv, fun _ => Res.ok (if v = 0 then (1, 0) else (0, 1)), if v = 0 then 4 else 3, -10⟩
  edge _ := .line (-3) 10
  src _ := 0
  dst _ := 1
  starting v := if v = 0 then [0] else []
  ending v := if v = 1 then [0] else []

/-- Voltages 1 and angles 0. -/
def freeState : Vec := fun i => if i = 0 ∨ i = 2 then 1 else 0

end

theorem free_admissible : Admissible freeNet where
  starting := grid_admissible.starting
  ending := grid_admissible.ending
  noLoop := grid_admissible.noLoop
  points := by intro k dx d r n h; cases h
  gasStart := by intro k kind n h; cases h
  gasEnd := by intro k kind n h; cases h
  plantEnd := by intro k g p n h; cases h
  lines := by
    show ∀ k : Fin 1, _
    intro k G B h; exact ⟨rfl, rfl⟩

theorem free_noReference : NoReference freeNet (0 : Fin 2) := by
  refine ⟨rfl, ?_⟩
  show ∀ w : Fin 2, _
  intro w _
  match w with
  | 0 => exact ⟨(by intro h; cases h), (by intro h; cases h)⟩
  | 1 => exact ⟨(by intro h; cases h), (by intro h; cases h)⟩

theorem free_laws (t0 t1 : ℝ) (c : Vec) : Laws freeNet t0 t1 ⟨freeState, freeState, c⟩ := by
  have v0 : freeNet.voltage freeState (0 : Fin 2) = 1 := by show freeState 0 = 1; simp [freeState]
  have a0 : freeNet.angle freeState (0 : Fin 2) = 0 := by show freeState 1 = 0; simp [freeState]
  have v1 : freeNet.voltage freeState (1 : Fin 2) = 1 := by show freeState 2 = 1; simp [freeState]
  have a1 : freeNet.angle freeState (1 : Fin 2) = 0 := by show freeState 3 = 0; simp [freeState]
  have e0 : freeNet.active (0 : Fin 2) freeState = 1 := by
    unfold Net.active
    rw [v0, a0]
    show (4 : ℝ) * 1 ^ 2 + ((∑ k : Fin 1, _) + (∑ k : Fin 1, _)) = 1
    rw [Fin.sum_univ_one, Fin.sum_univ_one, if_pos (show freeNet.src (0 : Fin 1) = (0 : Fin 2) from rfl), if_neg (show ¬ freeNet.dst (0 : Fin 1) = (0 : Fin 2) from (by decide : ¬ (1 : Fin 2) = 0))]
    show (4 : ℝ) * 1 ^ 2 + (1 * freeNet.voltage freeState (1 : Fin 2) * (-3 * cos (0 - freeNet.angle freeState (1 : Fin 2)) + 10 * sin (0 - freeNet.angle freeState (1 : Fin 2))) + 0) = 1
    rw [v1, a1]
    norm_num
  have q0 : freeNet.reactive (0 : Fin 2) freeState = 0 := by
    unfold Net.reactive
    rw [v0, a0]
    show -((-10 : ℝ) * 1 ^ 2) + ((∑ k : Fin 1, _) + (∑ k : Fin 1, _)) = 0
    rw [Fin.sum_univ_one, Fin.sum_univ_one, if_pos (show freeNet.src (0 : Fin 1) = (0 : Fin 2) from rfl), if_neg (show ¬ freeNet.dst (0 : Fin 1) = (0 : Fin 2) from (by decide : ¬ (1 : Fin 2) = 0))]
    show -((-10 : ℝ) * 1 ^ 2) + (1 * freeNet.voltage freeState (1 : Fin 2) * (-3 * sin (0 - freeNet.angle freeState (1 : Fin 2)) - 10 * cos (0 - freeNet.angle freeState (1 : Fin 2))) + 0) = 0
    rw [v1, a1]
    norm_num
  have e1 : freeNet.active (1 : Fin 2) freeState = 0 := by
    unfold Net.active
    rw [v1, a1]
    show (3 : ℝ) * 1 ^ 2 + ((∑ k : Fin 1, _) + (∑ k : Fin 1, _)) = 0
    rw [Fin.sum_univ_one, Fin.sum_univ_one, if_neg (show ¬ freeNet.src (0 : Fin 1) = (1 : Fin 2) from (by decide : ¬ (0 : Fin 2) = 1)), if_pos (show freeNet.dst (0 : Fin 1) = (1 : Fin 2) from rfl)]
    show (3 : ℝ) * 1 ^ 2 + (0 + 1 * freeNet.voltage freeState (0 : Fin 2) * (-3 * cos (0 - freeNet.angle freeState (0 : Fin 2)) + 10 * sin (0 - freeNet.angle freeState (0 : Fin 2)))) = 0
    rw [v0, a0]
    norm_num
  refine ⟨⟨fun _ => 0, ?_, ?_⟩, ?_, ?_, ?_, ?_, ?_⟩
  · intro k hk; cases hk
  · show ∀ v : Fin 2, _
    intro v b hv
    match v with
    | 0 => cases hv
    | 1 => cases hv
  · rintro v ⟨k, hk, -⟩; cases hk
  · intro k kind n h; cases h
  · intro k dx d r n h; cases h
  · show ∀ v : Fin 2, _
    intro v b hb
    match v with
    | 0 =>
      injection hb with hb
      subst hb
      exact ⟨e0, q0⟩
    | 1 =>
      injection hb with hb
      subst hb
      exact ⟨e1, v1⟩
  · intro k g p n h; cases h

/-- The hypotheses of `C178` and `C178_residual` can be met. -/
example : Admissible freeNet ∧ NoReference freeNet (0 : Fin 2) ∧ Computable freeNet 60 ∧ Laws freeNet 0 60 ⟨freeState, freeState, fun _ => 0⟩ :=
  ⟨free_admissible, free_noReference, ⟨fun _ _ => ⟨_, rfl⟩, fun _ _ _ _ _ h => by cases h⟩, free_laws 0 60 _⟩

/-- The matrix is computed for this network. -/
example : ∃ cs, freeNet.dNew 0 60 ⟨freeState, freeState, fun _ => 0⟩ = Res.ok cs ∧ (matrixOf freeNet.stateCount freeNet.stateCount cs).det = 0 := by
  have hr : Regular freeNet 60 freeState := ⟨fun v _ => ⟨_, rfl⟩, fun k dx d r n h => by cases h⟩
  obtain ⟨-, cs, -, -, h2, -⟩ := free_admissible.network_exact 0 (a₀ := ⟨freeState, freeState, fun _ => 0⟩) hr
  exact ⟨cs, h2, C178_singular freeNet free_admissible _ free_noReference 0 60 _ cs h2⟩

end Verif.Network
