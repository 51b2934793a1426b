import Verif.Network.Tree
import Verif.Box.Flow

/-!
# Properties C175 and C176: the stationary state of a gas network is determined by its boundary values and controls, and more inflow means more pressure

Networks may contain circles and any number of pressure nodes. The flow in circles of short pipes, compressors and control valves alone (or in ways of these between two pressure
nodes) is not determined by any law, so that these must not occur.
-/

set_option autoImplicit false

namespace Verif.Network

open Verif.Net Relation

/-! ## Specification -/

/-- The node is joined to a pressure node. -/
def Supplied (N : Net) (v : Fin N.nodes) : Prop :=
  ∃ v0, (N.node v0).kind = .pressure ∧ ReflTransGen (Joined N) v0 v

/-- The edge is a short pipe, a compressor or a control valve. -/
def ShortEdge (N : Net) (k : Fin N.edges) : Prop := ∃ kind n, N.edge k = .gas kind n ∧ kind.isShort

/-- A short edge other than `k` joins the nodes, or both are pressure nodes. -/
def ShortWay (N : Net) (k : Fin N.edges) (v w : Fin N.nodes) : Prop :=
  (∃ e, e ≠ k ∧ ShortEdge N e ∧ (N.src e = v ∧ N.dst e = w ∨ N.src e = w ∧ N.dst e = v)) ∨
  (N.node v).kind = .pressure ∧ (N.node w).kind = .pressure

/-- There are no circles of short edges alone, and no ways of short edges alone between two pressure nodes. -/
def NoShortCircles (N : Net) : Prop :=
  ∀ k, ShortEdge N k → ¬ ReflTransGen (ShortWay N k) (N.dst k) (N.src k)

/-! ## Pressures -/

theorem supplied_joined {N : Net} {k : Fin N.edges} (hk : (N.edge k).isGas) : Supplied N (N.src k) ↔ Supplied N (N.dst k) :=
  ⟨fun ⟨v0, h, w⟩ => ⟨v0, h, w.tail ⟨k, hk, Or.inl ⟨rfl, rfl⟩⟩⟩, fun ⟨v0, h, w⟩ => ⟨v0, h, w.tail ⟨k, hk, Or.inr ⟨rfl, rfl⟩⟩⟩⟩

theorem pipe_stationary {N : Net} {t0 t1 : ℝ} (ht : t0 < t1) {c : Args} (sc : c.last = c.new) (lc : Laws N t0 t1 c) (hc : SlowCells N c.new)
    {k : Fin N.edges} {dx d r : ℝ} {n : ℕ} (he : N.edge k = .gas (.pipe dx d r) n) (hdx : 0 < dx) (hp : Euler.RealPipe d r) (hn : 2 ≤ n) :
    Box.Stationary d r dx (n - 1) (fun j => segment c.new ((N.edgeRange k).1 + 2 * (j : ℕ))) := by
  refine ⟨fun j hj => (hc k dx d r n he j (by omega)).1, fun j hj s0 s1 hs => ?_⟩
  have := lc.pipes k dx d r n he j (by omega)
  rw [sc, Box.cell_iff hp ht hdx] at this
  rw [Box.cell_iff hp hs hdx]
  push_cast
  exact this

/-- In a pipe the flow grows with the pressure at the start and falls with the pressure at the end; the pressures determine the state. -/
theorem pipe_compare {N : Net} (hN : Admissible N) (hreal : RealPipes N) {t0 t1 t0' t1' : ℝ} (ht : t0 < t1) (ht' : t0' < t1') {a b : Args} (sa : a.last = a.new)
    (sb : b.last = b.new) (la : Laws N t0 t1 a) (lb : Laws N t0' t1' b) (ha : SlowCells N a.new) (hb : SlowCells N b.new) {k : Fin N.edges} {dx d r : ℝ} {n : ℕ}
    (he : N.edge k = .gas (.pipe dx d r) n) :
    (N.startPressure k a.new ≤ N.startPressure k b.new → N.endPressure k b.new ≤ N.endPressure k a.new →
      (N.startPressure k a.new < N.startPressure k b.new ∨ N.endPressure k b.new < N.endPressure k a.new) → N.startFlow k a.new < N.startFlow k b.new) ∧
    (N.startPressure k a.new = N.startPressure k b.new → N.endPressure k a.new = N.endPressure k b.new → N.startFlow k a.new = N.startFlow k b.new) := by
  obtain ⟨hdx, hp⟩ := hreal k dx d r n he
  have hn := hN.points k dx d r n he
  have hrange := Admissible.edgeRange_length (N := N) (k := k)
  rw [he] at hrange
  simp only [edgeNeed] at hrange
  have e1 : (N.edgeRange k).1 + 2 * ((n - 1 : ℕ) : ℤ) = (N.edgeRange k).2 - 2 := by
    rw [hrange]; push_cast [Nat.cast_sub (by omega : 1 ≤ n)]; ring
  obtain ⟨c1, c2⟩ := Box.C174 hp hdx (by omega : 0 < n - 1) (pipe_stationary ht sa la ha he hdx hp hn) (pipe_stationary ht' sb lb hb he hdx hp hn)
    (fun j hj => (ha k dx d r n he j (by omega)).2) (fun j hj => (hb k dx d r n he j (by omega)).2)
  have conv : ∀ (s : Vec), N.startPressure k s = Euler.p (segment s ((N.edgeRange k).1 + 2 * ((0 : ℕ) : ℤ))).1 / 100000 ∧
      N.endPressure k s = Euler.p (segment s ((N.edgeRange k).1 + 2 * ((n - 1 : ℕ) : ℤ))).1 / 100000 ∧
      N.startFlow k s = (segment s ((N.edgeRange k).1 + 2 * ((0 : ℕ) : ℤ))).2 := by
    intro s
    refine ⟨?_, ?_, ?_⟩
    · unfold Net.startPressure Net.pressureOf Net.segment; rw [he]; simp
    · unfold Net.endPressure Net.pressureOf Net.segment; rw [he, e1]
    · unfold Net.startFlow Net.segment; simp
  obtain ⟨a1, a2, a3⟩ := conv a.new
  obtain ⟨b1, b2, b3⟩ := conv b.new
  rw [a1, a2, a3, b1, b2, b3]
  simp only [div_le_div_iff_of_pos_right (by norm_num : (0 : ℝ) < 100000), div_lt_div_iff_of_pos_right (by norm_num : (0 : ℝ) < 100000),
    div_left_inj' (by norm_num : (100000 : ℝ) ≠ 0)]
  exact ⟨fun h1 h2 h3 => (c1 h1 h2).2 h3, fun h1 h2 => by rw [c2 h1 h2 0 (Nat.zero_le _)]⟩

/-- The differences of the flows of two states have as sources the differences of the inflows. -/
theorem netOut_diff {N : Net} (hN : Admissible N) (hplants : NoPlants N) {t0 t1 t0' t1' : ℝ} (ht : t0 < t1) (ht' : t0' < t1') (hreal : RealPipes N)
    {a b : Args} (sa : a.last = a.new) (sb : b.last = b.new) (la : Laws N t0 t1 a) (lb : Laws N t0' t1' b) (v : Fin N.nodes) :
    netOut N (fun k => if (N.edge k).isGas then N.startFlow k b.new - N.startFlow k a.new else 0) v = N.outflow v b.new - N.outflow v a.new := by
  have fa := same_flow hN hplants hreal ht sa la
  have fb := same_flow hN hplants hreal ht' sb lb
  set f : Fin N.edges → ℝ := fun k => if (N.edge k).isGas then N.startFlow k b.new - N.startFlow k a.new else 0 with hf
  unfold netOut Net.outflow
  have e1 : ∀ k, (if N.src k = v then f k else 0) =
      (if N.src k = v then (if (N.edge k).isGas then N.startFlow k b.new else 0) else 0) -
      (if N.src k = v then (if (N.edge k).isGas then N.startFlow k a.new else 0) else 0) := by
    intro k; simp only [hf]; split_ifs <;> simp
  have e2 : ∀ k, (if N.dst k = v then f k else 0) =
      (if N.dst k = v then (if (N.edge k).isGas then N.endFlow k b.new else 0) else 0) -
      (if N.dst k = v then (if (N.edge k).isGas then N.endFlow k a.new else 0) else 0) := by
    intro k; simp only [hf]
    split_ifs with _ h
    · rw [fa k h, fb k h]
    · simp
    · simp
  simp only [e1, e2, Finset.sum_sub_distrib]
  ring

/-- They are not positive where the second state has no larger inflow. -/
theorem netOut_le {N : Net} (hN : Admissible N) (hplants : NoPlants N) {t0 t1 t0' t1' : ℝ} (ht : t0 < t1) (ht' : t0' < t1') (hcomp : Computable N t1)
    (hcomp' : Computable N t1') (hreal : RealPipes N) {a b : Args} (sa : a.last = a.new) (sb : b.last = b.new) (la : Laws N t0 t1 a) (lb : Laws N t0' t1' b)
    (hin : ∀ v x y, (N.node v).kind = .flow → (N.node v).boundary t1 = Res.ok x → (N.node v).boundary t1' = Res.ok y → y.1 ≤ x.1)
    {v : Fin N.nodes} (hv : (N.node v).kind ≠ .pressure) :
    netOut N (fun k => if (N.edge k).isGas then N.startFlow k b.new - N.startFlow k a.new else 0) v ≤ 0 := by
  by_cases hex : ∃ k, (N.edge k).isGas ∧ (N.src k = v ∨ N.dst k = v)
  · rw [netOut_diff hN hplants ht ht' hreal sa sb la lb]
    obtain ⟨ia, qa⟩ := la.flows v hex
    obtain ⟨ib, qb⟩ := lb.flows v hex
    have hgas : (N.node v).kind.isGas := by
      obtain ⟨k, hk, h⟩ := hex
      cases he : N.edge k with
      | line G B => rw [he] at hk; cases hk
      | gas kind n =>
        rcases h with h | h
        · rw [← h]; exact hN.gasStart k kind n he
        · rw [← h]; exact hN.gasEnd k kind n he (by rintro g p rfl; exact hplants k g p n he)
    cases hkind : (N.node v).kind with
    | innode => rw [ia hkind, ib hkind, sub_self]
    | flow =>
      obtain ⟨x, hx⟩ := hcomp.boundary v (by rw [hkind]; simp)
      obtain ⟨y, hy⟩ := hcomp'.boundary v (by rw [hkind]; simp)
      rw [qa hkind x hx, qb hkind y hy]
      linarith [hin v x y hkind hx hy]
    | pressure => exact absurd hkind hv
    | power k => rw [hkind] at hgas; cases hgas
    | plant => rw [hkind] at hgas; cases hgas
  · push Not at hex
    unfold netOut
    rw [Finset.sum_eq_zero, Finset.sum_eq_zero, sub_zero]
    · intro k _
      split
      · rename_i h
        beta_reduce
        split
        · rename_i hk; exact absurd h (hex k hk).2
        · rfl
      · rfl
    · intro k _
      split
      · rename_i h
        beta_reduce
        split
        · rename_i hk; exact absurd h (hex k hk).1
        · rfl
      · rfl

/-- The differences of the flows of two states with the same boundary values have no sources except at pressure nodes. -/
theorem netOut_zero {N : Net} (hN : Admissible N) (hplants : NoPlants N) {t0 t1 : ℝ} (ht : t0 < t1) (hcomp : Computable N t1) (hreal : RealPipes N)
    {a b : Args} (sa : a.last = a.new) (sb : b.last = b.new) (la : Laws N t0 t1 a) (lb : Laws N t0 t1 b) {v : Fin N.nodes} (hv : (N.node v).kind ≠ .pressure) :
    netOut N (fun k => if (N.edge k).isGas then N.startFlow k b.new - N.startFlow k a.new else 0) v = 0 := by
  have same : ∀ v x y, (N.node v).kind = .flow → (N.node v).boundary t1 = Res.ok x → (N.node v).boundary t1 = Res.ok y → y.1 ≤ x.1 := by
    intro v x y _ hx hy
    rw [hx] at hy
    injection hy with hy
    rw [hy]
  refine le_antisymm (netOut_le hN hplants ht ht hcomp hcomp hreal sa sb la lb same hv) ?_
  have := netOut_le hN hplants ht ht hcomp hcomp hreal sb sa lb la same hv
  rw [netOut_diff hN hplants ht ht hreal sb sa lb la] at this
  rw [netOut_diff hN hplants ht ht hreal sa sb la lb]
  linarith

theorem gas_end {N : Net} (hN : Admissible N) (hplants : NoPlants N) {k : Fin N.edges} (hk : (N.edge k).isGas) : (N.node (N.dst k)).kind.isGas := by
  cases he : N.edge k with
  | line G B => rw [he] at hk; cases hk
  | gas kind n => exact hN.gasEnd k kind n he (by rintro g p rfl; exact hplants k g p n he)

/-- A gas edge is a pipe or a short edge. -/
theorem pipe_or_short {N : Net} (hplants : NoPlants N) {k : Fin N.edges} (hk : (N.edge k).isGas) :
    (∃ dx d r n, N.edge k = .gas (.pipe dx d r) n) ∨ ShortEdge N k := by
  cases he : N.edge k with
  | line G B => rw [he] at hk; cases hk
  | gas kind n =>
    cases kind with
    | gaspower g p => exact absurd he (hplants k g p n)
    | shortpipe => exact Or.inr ⟨_, n, he, trivial⟩
    | compressor => exact Or.inr ⟨_, n, he, trivial⟩
    | controlvalve => exact Or.inr ⟨_, n, he, trivial⟩
    | pipe dx d r => exact Or.inl ⟨dx, d, r, n, rfl⟩

/-- With no more inflow and no more pressure at the pressure nodes the second state has nowhere more pressure. -/
theorem pressure_le {N : Net} (hN : Admissible N) (hplants : NoPlants N) {t0 t1 t0' t1' : ℝ} (ht : t0 < t1) (ht' : t0' < t1') (hcomp : Computable N t1)
    (hcomp' : Computable N t1') (hreal : RealPipes N)
    {a b : Args} (sa : a.last = a.new) (sb : b.last = b.new) (la : Laws N t0 t1 a) (lb : Laws N t0' t1' b) (hcon : a.control = b.control)
    (hin : ∀ v x y, (N.node v).kind = .flow → (N.node v).boundary t1 = Res.ok x → (N.node v).boundary t1' = Res.ok y → y.1 ≤ x.1)
    (ha : SlowCells N a.new) (hb : SlowCells N b.new) {P Q : Fin N.nodes → ℝ}
    (hP : ∀ k, (N.edge k).isGas → N.startPressure k a.new = P (N.src k) ∧ N.endPressure k a.new = P (N.dst k))
    (hQ : ∀ k, (N.edge k).isGas → N.startPressure k b.new = Q (N.src k) ∧ N.endPressure k b.new = Q (N.dst k))
    (h0 : ∀ v, (N.node v).kind = .pressure → Q v ≤ P v) (v : Fin N.nodes) (hv : Supplied N v) : Q v ≤ P v := by
  classical
  by_contra hlt
  set f : Fin N.edges → ℝ := fun k => if (N.edge k).isGas then N.startFlow k b.new - N.startFlow k a.new else 0 with hf
  set S : Finset (Fin N.nodes) := Finset.univ.filter fun v => P v < Q v ∧ Supplied N v with hS
  have mem : ∀ w, w ∈ S ↔ P w < Q w ∧ Supplied N w := fun w => by simp [hS]
  have hsum := sum_netOut N f S
  have hneg : ∑ w ∈ S, netOut N f w ≤ 0 := Finset.sum_nonpos fun w hw => netOut_le hN hplants ht ht' hcomp hcomp' hreal sa sb la lb hin
    fun hk => absurd ((mem w).mp hw).1 (not_lt.mpr (h0 w hk))
  -- an edge between a node in S and a node outside carries more flow out of S
  have cross : ∀ k, (0 ≤ (if N.src k ∈ S then f k else 0) - if N.dst k ∈ S then f k else 0) ∧
      ((N.edge k).isGas → ¬ (N.src k ∈ S ↔ N.dst k ∈ S) → 0 < (if N.src k ∈ S then f k else 0) - if N.dst k ∈ S then f k else 0) := by
    intro k
    by_cases hk : (N.edge k).isGas
    swap
    · have : f k = 0 := by simp only [hf]; exact if_neg hk
      rw [this]; simp [hk]
    by_cases hiff : (N.src k ∈ S ↔ N.dst k ∈ S)
    · refine ⟨?_, fun _ h => absurd hiff h⟩
      by_cases h : N.src k ∈ S
      · rw [if_pos h, if_pos (hiff.mp h), sub_self]
      · rw [if_neg h, if_neg fun h' => h (hiff.mpr h'), sub_self]
    suffices key : 0 < (if N.src k ∈ S then f k else 0) - if N.dst k ∈ S then f k else 0 from ⟨key.le, fun _ _ => key⟩
    obtain ⟨p1, p2⟩ := hP k hk
    obtain ⟨q1, q2⟩ := hQ k hk
    rcases pipe_or_short hplants hk with ⟨dx, d, r, n, he⟩ | ⟨kind, n, he, hs⟩
    · have hfk : f k = N.startFlow k b.new - N.startFlow k a.new := by simp only [hf]; exact if_pos hk
      by_cases hsrc : N.src k ∈ S
      · have hdst : N.dst k ∉ S := fun h => hiff ⟨fun _ => h, fun _ => hsrc⟩
        rw [if_pos hsrc, if_neg hdst, sub_zero, hfk, sub_pos]
        have m1 := (mem _).mp hsrc
        have m2 : Q (N.dst k) ≤ P (N.dst k) := by
          by_contra hc
          exact hdst ((mem _).mpr ⟨not_le.mp hc, (supplied_joined hk).mp m1.2⟩)
        refine (pipe_compare hN hreal ht ht' sa sb la lb ha hb he).1 ?_ ?_ (Or.inl ?_)
        · rw [p1, q1]; exact m1.1.le
        · rw [p2, q2]; exact m2
        · rw [p1, q1]; exact m1.1
      · have hdst : N.dst k ∈ S := by
          by_contra h
          exact hiff ⟨fun h' => absurd h' hsrc, fun h' => absurd h' h⟩
        rw [if_neg hsrc, if_pos hdst, zero_sub, hfk, neg_sub, sub_pos]
        have m1 := (mem _).mp hdst
        have m2 : Q (N.src k) ≤ P (N.src k) := by
          by_contra hc
          exact hsrc ((mem _).mpr ⟨not_le.mp hc, (supplied_joined hk).mpr m1.2⟩)
        refine (pipe_compare hN hreal ht' ht sb sa lb la hb ha he).1 ?_ ?_ (Or.inr ?_)
        · rw [p1, q1]; exact m2
        · rw [p2, q2]; exact m1.1.le
        · rw [p2, q2]; exact m1.1
    · -- both ends of a short edge lie in S or none
      exfalso
      have e1 := (la.short k kind n he hs).1
      have e2 := (lb.short k kind n he hs).1
      rw [p1, p2, hcon] at e1
      rw [q1, q2] at e2
      apply hiff
      rw [mem, mem, supplied_joined hk]
      exact and_congr_left fun _ => ⟨fun h => by linarith, fun h => by linarith⟩
  have closed : ∀ k, (N.edge k).isGas → (N.src k ∈ S ↔ N.dst k ∈ S) := by
    intro k hk
    by_contra h
    have hz := le_antisymm (hsum ▸ hneg) (Finset.sum_nonneg fun k _ => (cross k).1)
    have := (Finset.sum_eq_zero_iff_of_nonneg fun k _ => (cross k).1).mp hz k (Finset.mem_univ k)
    exact absurd this ((cross k).2 hk h).ne'
  obtain ⟨v0, hk0, hway⟩ := hv
  have all : ∀ w, ReflTransGen (Joined N) v0 w → (v0 ∈ S ↔ w ∈ S) := by
    intro w hw
    induction hw with
    | refl => exact Iff.rfl
    | tail _ hj ih =>
      obtain ⟨e, he, ⟨rfl, rfl⟩ | ⟨rfl, rfl⟩⟩ := hj
      · exact ih.trans (closed e he)
      · exact ih.trans (closed e he).symm
  have : v0 ∈ S := (all v hway).mpr ((mem v).mpr ⟨not_le.mp hlt, v0, hk0, hway⟩)
  exact absurd ((mem v0).mp this).1 (not_lt.mpr (h0 v0 hk0))

/-- **C175**, pressures and pipes. Two stationary states of a gas network in which every edge is joined to a pressure node, which obey the laws for the same boundary values and controls
and are slower than sound with the friction over half a cell to spare: the pressures at both ends of every gas edge are the same, and so is the flow in every pipe. Circles and
several pressure nodes are allowed. -/
theorem C175_pressures (N : Net) (hN : Admissible N) (hplants : NoPlants N) (hway : ∀ k, (N.edge k).isGas → Supplied N (N.src k)) {t0 t1 : ℝ} (ht : t0 < t1)
    (hcomp : Computable N t1) (hreal : RealPipes N) (a b : Args) (sa : a.last = a.new) (sb : b.last = b.new)
    (la : Laws N t0 t1 a) (lb : Laws N t0 t1 b) (hcon : a.control = b.control) (ha : SlowCells N a.new) (hb : SlowCells N b.new) :
    (∀ k, (N.edge k).isGas → N.startPressure k a.new = N.startPressure k b.new ∧ N.endPressure k a.new = N.endPressure k b.new) ∧
    ∀ k dx d r n, N.edge k = .gas (.pipe dx d r) n → N.startFlow k a.new = N.startFlow k b.new := by
  obtain ⟨P, hP, P0⟩ := la.pressures
  obtain ⟨Q, hQ, Q0⟩ := lb.pressures
  have hP' : ∀ k, (N.edge k).isGas → N.startPressure k a.new = P (N.src k) ∧ N.endPressure k a.new = P (N.dst k) :=
    fun k hk => ⟨(hP k hk).1, (hP k hk).2 (gas_end hN hplants hk)⟩
  have hQ' : ∀ k, (N.edge k).isGas → N.startPressure k b.new = Q (N.src k) ∧ N.endPressure k b.new = Q (N.dst k) :=
    fun k hk => ⟨(hQ k hk).1, (hQ k hk).2 (gas_end hN hplants hk)⟩
  have h0 : ∀ v, (N.node v).kind = .pressure → P v = Q v := by
    intro v hv
    obtain ⟨c, hc⟩ := hcomp.boundary v (by rw [hv]; simp)
    rw [P0 v c hv hc, Q0 v c hv hc]
  have same : ∀ v x y, (N.node v).kind = .flow → (N.node v).boundary t1 = Res.ok x → (N.node v).boundary t1 = Res.ok y → y.1 ≤ x.1 := by
    intro v x y _ hx hy
    rw [hx] at hy
    injection hy with hy
    rw [hy]
  have eq : ∀ v, Supplied N v → P v = Q v := fun v hv =>
    le_antisymm (pressure_le hN hplants ht ht hcomp hcomp hreal sb sa lb la hcon.symm same hb ha hQ' hP' (fun v hv => (h0 v hv).le) v hv)
      (pressure_le hN hplants ht ht hcomp hcomp hreal sa sb la lb hcon same ha hb hP' hQ' (fun v hv => (h0 v hv).ge) v hv)
  have main : ∀ k, (N.edge k).isGas → N.startPressure k a.new = N.startPressure k b.new ∧ N.endPressure k a.new = N.endPressure k b.new := by
    intro k hk
    rw [(hP' k hk).1, (hP' k hk).2, (hQ' k hk).1, (hQ' k hk).2]
    exact ⟨eq _ (hway k hk), eq _ ((supplied_joined hk).mp (hway k hk))⟩
  refine ⟨main, fun k dx d r n he => ?_⟩
  obtain ⟨e1, e2⟩ := main k (by rw [he]; rfl)
  exact (pipe_compare hN hreal ht ht sa sb la lb ha hb he).2 e1 e2

/-! ## More inflow -/

/-- **C176.** Two stationary states of a gas network in which every edge is joined to a pressure node, for the boundary values of two times and the same controls, slower than sound with
the friction over half a cell to spare. If at the second time no prescribed pressure and no prescribed inflow is smaller than at the first, then no pressure at an end of a gas edge
is smaller. -/
theorem C176 (N : Net) (hN : Admissible N) (hplants : NoPlants N) (hway : ∀ k, (N.edge k).isGas → Supplied N (N.src k)) {t0 t1 t0' t1' : ℝ} (ht : t0 < t1)
    (ht' : t0' < t1') (hcomp : Computable N t1) (hcomp' : Computable N t1') (hreal : RealPipes N) (a b : Args) (sa : a.last = a.new) (sb : b.last = b.new)
    (la : Laws N t0 t1 a) (lb : Laws N t0' t1' b) (hcon : a.control = b.control) (ha : SlowCells N a.new) (hb : SlowCells N b.new)
    (hmore : ∀ v x y, (N.node v).kind = .flow ∨ (N.node v).kind = .pressure → (N.node v).boundary t1 = Res.ok x → (N.node v).boundary t1' = Res.ok y → x.1 ≤ y.1) :
    ∀ k, (N.edge k).isGas → N.startPressure k a.new ≤ N.startPressure k b.new ∧ N.endPressure k a.new ≤ N.endPressure k b.new := by
  obtain ⟨P, hP, P0⟩ := la.pressures
  obtain ⟨Q, hQ, Q0⟩ := lb.pressures
  have hP' : ∀ k, (N.edge k).isGas → N.startPressure k a.new = P (N.src k) ∧ N.endPressure k a.new = P (N.dst k) :=
    fun k hk => ⟨(hP k hk).1, (hP k hk).2 (gas_end hN hplants hk)⟩
  have hQ' : ∀ k, (N.edge k).isGas → N.startPressure k b.new = Q (N.src k) ∧ N.endPressure k b.new = Q (N.dst k) :=
    fun k hk => ⟨(hQ k hk).1, (hQ k hk).2 (gas_end hN hplants hk)⟩
  have h0 : ∀ v, (N.node v).kind = .pressure → P v ≤ Q v := by
    intro v hv
    obtain ⟨x, hx⟩ := hcomp.boundary v (by rw [hv]; simp)
    obtain ⟨y, hy⟩ := hcomp'.boundary v (by rw [hv]; simp)
    rw [P0 v x hv hx, Q0 v y hv hy]
    exact hmore v x y (Or.inr hv) hx hy
  have le := pressure_le hN hplants ht' ht hcomp' hcomp hreal sb sa lb la hcon.symm (fun v x y hv hx hy => hmore v y x (Or.inl hv) hy hx) hb ha hQ' hP' h0
  intro k hk
  rw [(hP' k hk).1, (hP' k hk).2, (hQ' k hk).1, (hQ' k hk).2]
  exact ⟨le _ (hway k hk), le _ ((supplied_joined hk).mp (hway k hk))⟩

/-! ## Flows in short edges -/

/-- A flow in short edges only, with sources at pressure nodes only, vanishes if there are no circles of short edges. -/
theorem noShortCircles_zero {N : Net} (hc : NoShortCircles N) (f : Fin N.edges → ℝ) (hf : ∀ k, ¬ ShortEdge N k → f k = 0)
    (hn : ∀ v, (N.node v).kind ≠ .pressure → netOut N f v = 0) (k : Fin N.edges) : f k = 0 := by
  classical
  by_cases hk : ShortEdge N k
  swap
  · exact hf k hk
  set R : Fin N.nodes → Prop := fun v => ReflTransGen (ShortWay N k) (N.dst k) v with hR
  have hsrc : ¬ R (N.src k) := hc k hk
  have hdst : R (N.dst k) := ReflTransGen.refl
  have same : ∀ e, e ≠ k → ShortEdge N e → (R (N.src e) ↔ R (N.dst e)) := fun e he hs =>
    ⟨fun h => h.tail (Or.inl ⟨e, he, hs, Or.inl ⟨rfl, rfl⟩⟩), fun h => h.tail (Or.inl ⟨e, he, hs, Or.inr ⟨rfl, rfl⟩⟩)⟩
  -- a set of nodes without pressure nodes that only `k` leaves or enters
  have zero : ∀ S : Finset (Fin N.nodes), (∀ v ∈ S, (N.node v).kind ≠ .pressure) → (∀ e, e ≠ k → ShortEdge N e → (N.src e ∈ S ↔ N.dst e ∈ S)) →
      (if N.src k ∈ S then f k else 0) - (if N.dst k ∈ S then f k else 0) = 0 := by
    intro S hS hcl
    have hsum := sum_netOut N f S
    rw [Finset.sum_eq_zero fun v hv => hn v (hS v hv)] at hsum
    rw [Finset.sum_eq_single k ?_ fun h => absurd (Finset.mem_univ k) h] at hsum
    · exact hsum.symm
    · intro e _ he
      by_cases hs : ShortEdge N e
      · by_cases h : N.src e ∈ S
        · rw [if_pos h, if_pos ((hcl e he hs).mp h), sub_self]
        · rw [if_neg h, if_neg (fun h' => h ((hcl e he hs).mpr h')), sub_self]
      · rw [hf e hs]; simp
  by_cases hpres : ∃ v, R v ∧ (N.node v).kind = .pressure
  · obtain ⟨v, hv, hkv⟩ := hpres
    have := zero (Finset.univ.filter fun v => ¬ R v) (by
      intro w hw hkw
      simp only [Finset.mem_filter, Finset.mem_univ, true_and] at hw
      exact hw (hv.tail (Or.inr ⟨hkv, hkw⟩))) (by
      intro e he hs
      simp only [Finset.mem_filter, Finset.mem_univ, true_and]
      exact not_congr (same e he hs))
    simp only [Finset.mem_filter, Finset.mem_univ, true_and, hsrc, hdst, not_true, not_false_eq_true, if_true, if_false, sub_zero] at this
    exact this
  · push Not at hpres
    have := zero (Finset.univ.filter R) (by
      intro w hw
      simp only [Finset.mem_filter, Finset.mem_univ, true_and] at hw
      exact hpres w hw) (by
      intro e he hs
      simp only [Finset.mem_filter, Finset.mem_univ, true_and]
      exact same e he hs)
    simp only [Finset.mem_filter, Finset.mem_univ, true_and, hsrc, hdst, if_true, if_false, zero_sub, neg_eq_zero] at this
    exact this

/-- **C175.** Two stationary states of a gas network in which every edge is joined to a pressure node and without circles of short pipes, compressors and control valves alone, which obey
the laws for the same boundary values and controls and are slower than sound with the friction over half a cell to spare: the states are the same in every gas edge, at every point, in
density or pressure and in flow. Circles with pipes and several pressure nodes are allowed. -/
theorem C175 (N : Net) (hN : Admissible N) (hplants : NoPlants N) (hc : NoShortCircles N) (hway : ∀ k, (N.edge k).isGas → Supplied N (N.src k))
    {t0 t1 : ℝ} (ht : t0 < t1) (hcomp : Computable N t1) (hreal : RealPipes N) (a b : Args) (sa : a.last = a.new) (sb : b.last = b.new)
    (la : Laws N t0 t1 a) (lb : Laws N t0 t1 b) (hcon : a.control = b.control) (ha : SlowCells N a.new) (hb : SlowCells N b.new) :
    ∀ k, (N.edge k).isGas → ∀ i, (N.edgeRange k).1 ≤ i → i < (N.edgeRange k).2 → a.new i = b.new i := by
  obtain ⟨hp, hq⟩ := C175_pressures N hN hplants hway ht hcomp hreal a b sa sb la lb hcon ha hb
  have fa := same_flow hN hplants hreal ht sa la
  have fb := same_flow hN hplants hreal ht sb lb
  have hzero := noShortCircles_zero hc (fun k => if (N.edge k).isGas then N.startFlow k b.new - N.startFlow k a.new else 0) (by
    intro k hk
    split
    · next hg =>
      rcases pipe_or_short hplants hg with ⟨dx, d, r, n, he⟩ | hs
      · rw [hq k dx d r n he, sub_self]
      · exact absurd hs hk
    · rfl) (fun v hv => netOut_zero hN hplants ht hcomp hreal sa sb la lb hv)
  intro k hk
  have hflow : N.startFlow k a.new = N.startFlow k b.new := by
    have := hzero k
    simp only [if_pos hk] at this
    linarith
  exact edge_unique hN hplants hreal ht sa sb la lb ha hb hcon k hk ⟨hflow, by rw [← fa k hk, ← fb k hk, hflow]⟩ (Or.inl (hp k hk).1)

/-! ## Example: a circle of two pipes -/

noncomputable section

/-- The network: two pipes of one cell, both from a node with given pressure to a sink. -/
def ringNet (dx : ℝ) : Net where
  nodes := 2
  edges := 2
  node v := ⟨if v = 0 then .pressure else .flow,
    fun _ => Res.ok (if v = 0 then Euler.p 2 / 100000 else -(1 / 500), 0), 0, 0⟩
  edge _ := .gas (.pipe dx 1 0) 2
  src _ := 0
  dst _ := 1
  starting v := if v = 0 then [0, 1] else []
  ending v := if v = 1 then [0, 1] else []

/-- The state: in both pipes densities 2 and 1, and the same flow at both ends. -/
def ringState : Vec := fun i => if i = 0 ∨ i = 4 then 2 else if i = 2 ∨ i = 6 then 1 else 1 / 1000

end

theorem ring_admissible (dx : ℝ) : Admissible (ringNet dx) where
  starting := by
    show ∀ v : Fin 2, (if v = 0 then [(0 : Fin 2), 1] else []).Nodup ∧
      ∀ k : Fin 2, k ∈ (if v = 0 then [(0 : Fin 2), 1] else []) ↔ (0 : Fin 2) = v
    decide
  ending := by
    show ∀ v : Fin 2, (if v = 1 then [(0 : Fin 2), 1] else []).Nodup ∧
      ∀ k : Fin 2, k ∈ (if v = 1 then [(0 : Fin 2), 1] else []) ↔ (1 : Fin 2) = v
    decide
  noLoop := by show ∀ _ : Fin 2, (0 : Fin 2) ≠ 1; decide
  points := by intro k dx d r n h; injection h with _ h; omega
  gasStart := by intro k kind n h; rfl
  gasEnd := by intro k kind n h _; rfl
  plantEnd := by intro k g p n h; injection h with h; cases h
  lines := by intro k G B h; cases h

theorem ring_laws {dx : ℝ} (t0 t1 : ℝ) (h : Box.evaluatePoint (Box.eulerLaw 1 0) t0 t1 dx (2, 1 / 1000) (1, 1 / 1000)
    (2, 1 / 1000) (1, 1 / 1000) = Res.ok 0) (c : Vec) : Laws (ringNet dx) t0 t1 ⟨ringState, ringState, c⟩ := by
  refine ⟨⟨fun v : Fin 2 => if v = 0 then Euler.p 2 / 100000 else Euler.p 1 / 100000, ?_, ?_⟩, ?_, ?_, ?_, ?_, ?_⟩
  · show ∀ k : Fin 2, _
    intro k hk
    match k with
    | 0 =>
      refine ⟨?_, fun _ => ?_⟩
      · show Euler.p (ringState 0) / 100000 = Euler.p 2 / 100000
        simp [ringState]
      · show Euler.p (ringState 2) / 100000 = Euler.p 1 / 100000
        simp [ringState]
    | 1 =>
      refine ⟨?_, fun _ => ?_⟩
      · show Euler.p (ringState 4) / 100000 = Euler.p 2 / 100000
        simp [ringState]
      · show Euler.p (ringState 6) / 100000 = Euler.p 1 / 100000
        simp [ringState]
  · show ∀ v : Fin 2, _
    intro v b hv hb
    match v, hv with
    | 0, _ => injection hb with hb; subst hb; rfl
    | 1, h => cases h
  · show ∀ v : Fin 2, _
    intro v _
    match v with
    | 0 => exact ⟨fun h => (by cases h), fun h => (by cases h)⟩
    | 1 =>
      refine ⟨fun h => (by cases h), fun _ b hb => ?_⟩
      injection hb with hb
      subst hb
      have : (ringNet dx).outflow (1 : Fin 2) ringState = (0 + 0) - (ringState 3 + ringState 7) := by
        unfold Net.outflow
        show (∑ k : Fin 2, _) - (∑ k : Fin 2, _) = _
        rw [Fin.sum_univ_two, Fin.sum_univ_two]
        rfl
      rw [this]
      show (0 : ℝ) + 0 - (ringState 3 + ringState 7) = -(1 / 500)
      norm_num [ringState]
  · intro k kind n h hs
    injection h with h
    subst h
    exact hs.elim
  · show ∀ k : Fin 2, _
    intro k dx d r n hk j hj
    injection hk with hk hn
    injection hk with e1 e2 e3
    subst e1 e2 e3 hn
    obtain rfl : j = 0 := by omega
    match k with
    | 0 =>
      show Box.evaluatePoint _ t0 t1 _ (ringState 0, ringState 1) (ringState 2, ringState 3)
        (ringState 0, ringState 1) (ringState 2, ringState 3) = Res.ok 0
      simpa [ringState] using h
    | 1 =>
      show Box.evaluatePoint _ t0 t1 _ (ringState 4, ringState 5) (ringState 6, ringState 7)
        (ringState 4, ringState 5) (ringState 6, ringState 7) = Res.ok 0
      simpa [ringState] using h
  · show ∀ v : Fin 2, _
    intro v b hb
    match v with
    | 0 => trivial
    | 1 => trivial
  · intro k g p n h
    injection h with h
    cases h

/-- The circle of two pipes meets the hypotheses of `C175`, with a state with flow. It does not meet those of `C167`. -/
example : ∃ (N : Net) (a : Args), Admissible N ∧ NoPlants N ∧ ¬ NoCircles N ∧ NoShortCircles N ∧ (∀ k, (N.edge k).isGas → Supplied N (N.src k)) ∧
    Computable N 60 ∧ RealPipes N ∧ a.last = a.new ∧ Laws N 0 60 a ∧ SlowCells N a.new ∧ ∃ v w, FlowsInPipe N a.new v w := by
  have hp : Euler.RealPipe 1 0 := by constructor <;> norm_num
  obtain ⟨dx, h0, h⟩ := Box.exists_width (d := 1) (k := 0) hp one_pos (y := 2) (by norm_num)
    (by norm_num : (0 : ℝ) < 1 / 1000) (Box.subsonic_small le_rfl (by norm_num)) (Box.subsonic_small (by norm_num) le_rfl)
  obtain ⟨s2, s1⟩ := Box.slow_small h0 (h 0 60)
  refine ⟨ringNet dx, ⟨ringState, ringState, fun _ => 0⟩, ring_admissible dx, ?_, ?_, ?_, ?_, ?_, ?_, rfl, ring_laws 0 60 (h 0 60) _, ?_, ?_⟩
  · intro k g p n hk; injection hk with hk; cases hk
  · intro hc
    exact hc (0 : Fin 2) rfl (ReflTransGen.single ⟨(1 : Fin 2), (show (1 : Fin 2) ≠ 0 by decide), rfl, Or.inr ⟨rfl, rfl⟩⟩)
  · rintro k ⟨kind, n, hk, hs⟩
    injection hk with hk
    subst hk
    exact hs.elim
  · intro k _; exact ⟨(0 : Fin 2), rfl, ReflTransGen.refl⟩
  · refine ⟨fun v _ => ⟨_, rfl⟩, fun k dx' d r n hk => ?_⟩
    injection hk with hk hn
    injection hk with e1 e2 e3
    subst e1 e2 e3 hn
    exact ⟨h0.ne', hp⟩
  · intro k dx' d r n hk
    injection hk with hk hn
    injection hk with e1 e2 e3
    subst e1 e2 e3 hn
    exact ⟨h0, hp⟩
  · show ∀ k : Fin 2, _
    intro k dx' d r n hk j hj
    injection hk with hk hn
    injection hk with e1 e2 e3
    subst e1 e2 e3 hn
    match k, j, hj with
    | 0, 0, _ =>
      show 0 < ringState 0 ∧ Box.Slow 1 0 dx (ringState 0, ringState 1)
      simpa [ringState] using s2
    | 0, 1, _ =>
      show 0 < ringState 2 ∧ Box.Slow 1 0 dx (ringState 2, ringState 3)
      simpa [ringState] using s1
    | 1, 0, _ =>
      show 0 < ringState 4 ∧ Box.Slow 1 0 dx (ringState 4, ringState 5)
      simpa [ringState] using s2
    | 1, 1, _ =>
      show 0 < ringState 6 ∧ Box.Slow 1 0 dx (ringState 6, ringState 7)
      simpa [ringState] using s1
  · refine ⟨(0 : Fin 2), (1 : Fin 2), (0 : Fin 2), dx, 1, 0, 2, rfl, Or.inl ⟨rfl, rfl, ?_⟩⟩
    show 0 < ringState 1
    norm_num [ringState]

/-! ## Example: a sink that closes -/

noncomputable section

/-- The network: a pipe of one cell from a node with given pressure to a sink, which takes gas up to the time 60 and nothing later. -/
def closeNet (dx : ℝ) : Net where
  nodes := 2
  edges := 1
  node v := ⟨if v = 0 then .pressure else .flow,
    fun t => Res.ok (if v = 0 then Euler.p 2 / 100000 else if t ≤ 60 then -(1 / 1000) else 0, 0), 0, 0⟩
  edge _ := .gas (.pipe dx 1 0) 2
  src _ := 0
  dst _ := 1
  starting v := if v = 0 then [0] else []
  ending v := if v = 1 then [0] else []

/-- A state of the pipe: density 2 at its start, `x` at its end, and the flow `q`. -/
def closeState (x q : ℝ) : Vec := fun i => if i = 0 then 2 else if i = 2 then x else q

end

theorem close_admissible (dx : ℝ) : Admissible (closeNet dx) where
  starting := by
    show ∀ v : Fin 2, (if v = 0 then [(0 : Fin 1)] else []).Nodup ∧
      ∀ k : Fin 1, k ∈ (if v = 0 then [(0 : Fin 1)] else []) ↔ (0 : Fin 2) = v
    decide
  ending := by
    show ∀ v : Fin 2, (if v = 1 then [(0 : Fin 1)] else []).Nodup ∧
      ∀ k : Fin 1, k ∈ (if v = 1 then [(0 : Fin 1)] else []) ↔ (1 : Fin 2) = v
    decide
  noLoop := by show ∀ _ : Fin 1, (0 : Fin 2) ≠ 1; decide
  points := by intro k dx d r n h; injection h with _ h; omega
  gasStart := by intro k kind n h; rfl
  gasEnd := by intro k kind n h _; rfl
  plantEnd := by intro k g p n h; injection h with h; cases h
  lines := by intro k G B h; cases h

theorem close_laws {dx : ℝ} (t0 t1 x q : ℝ) (hq : (if t1 ≤ 60 then -(1 / 1000) else 0) = -q) (h : Box.evaluatePoint (Box.eulerLaw 1 0) t0 t1 dx (2, q) (x, q)
    (2, q) (x, q) = Res.ok 0) (c : Vec) : Laws (closeNet dx) t0 t1 ⟨closeState x q, closeState x q, c⟩ := by
  refine ⟨⟨fun v : Fin 2 => if v = 0 then Euler.p 2 / 100000 else Euler.p x / 100000, ?_, ?_⟩, ?_, ?_, ?_, ?_, ?_⟩
  · show ∀ k : Fin 1, _
    intro k hk
    match k with
    | 0 =>
      refine ⟨?_, fun _ => ?_⟩
      · show Euler.p (closeState x q 0) / 100000 = Euler.p 2 / 100000
        simp [closeState]
      · show Euler.p (closeState x q 2) / 100000 = Euler.p x / 100000
        simp [closeState]
  · show ∀ v : Fin 2, _
    intro v b hv hb
    match v, hv with
    | 0, _ => injection hb with hb; subst hb; rfl
    | 1, h => cases h
  · show ∀ v : Fin 2, _
    intro v _
    match v with
    | 0 => exact ⟨fun h => (by cases h), fun h => (by cases h)⟩
    | 1 =>
      refine ⟨fun h => (by cases h), fun _ b hb => ?_⟩
      injection hb with hb
      subst hb
      have : (closeNet dx).outflow (1 : Fin 2) (closeState x q) = 0 - closeState x q 3 := by
        unfold Net.outflow
        show (∑ k : Fin 1, _) - (∑ k : Fin 1, _) = _
        rw [Fin.sum_univ_one, Fin.sum_univ_one]
        rfl
      rw [this]
      show 0 - closeState x q 3 = if t1 ≤ 60 then -(1 / 1000) else 0
      rw [hq]
      simp [closeState]
  · intro k kind n h hs
    injection h with h
    subst h
    exact hs.elim
  · show ∀ k : Fin 1, _
    intro k dx d r n hk j hj
    injection hk with hk hn
    injection hk with e1 e2 e3
    subst e1 e2 e3 hn
    obtain rfl : j = 0 := by omega
    match k with
    | 0 =>
      show Box.evaluatePoint _ t0 t1 _ (closeState x q 0, closeState x q 1) (closeState x q 2, closeState x q 3)
        (closeState x q 0, closeState x q 1) (closeState x q 2, closeState x q 3) = Res.ok 0
      simpa [closeState] using h
  · show ∀ v : Fin 2, _
    intro v b hb
    match v with
    | 0 => trivial
    | 1 => trivial
  · intro k g p n h
    injection h with h
    cases h

theorem close_slow {dx x q : ℝ} (s2 : 0 < (2 : ℝ) ∧ Box.Slow 1 0 dx (2, q)) (s1 : 0 < x ∧ Box.Slow 1 0 dx (x, q)) : SlowCells (closeNet dx) (closeState x q) := by
  show ∀ k : Fin 1, _
  intro k dx' d r n hk j hj
  injection hk with hk hn
  injection hk with e1 e2 e3
  subst e1 e2 e3 hn
  match k, j, hj with
  | 0, 0, _ =>
    show 0 < closeState x q 0 ∧ Box.Slow 1 0 dx (closeState x q 0, closeState x q 1)
    simpa [closeState] using s2
  | 0, 1, _ =>
    show 0 < closeState x q 2 ∧ Box.Slow 1 0 dx (closeState x q 2, closeState x q 3)
    simpa [closeState] using s1

/-- The sink that closes meets the hypotheses of `C176`: a state with flow before, gas at rest after, and the pressure at the sink is larger after. -/
example : ∃ (N : Net) (a b : Args), Admissible N ∧ NoPlants N ∧ (∀ k, (N.edge k).isGas → Supplied N (N.src k)) ∧
    Computable N 60 ∧ Computable N 120 ∧ RealPipes N ∧ a.last = a.new ∧ b.last = b.new ∧ Laws N 0 60 a ∧ Laws N 60 120 b ∧ a.control = b.control ∧
    SlowCells N a.new ∧ SlowCells N b.new ∧
    (∀ v x y, (N.node v).kind = .flow ∨ (N.node v).kind = .pressure → (N.node v).boundary 60 = Res.ok x → (N.node v).boundary 120 = Res.ok y → x.1 ≤ y.1) ∧
    ∃ k, (N.edge k).isGas ∧ N.endPressure k a.new < N.endPressure k b.new := by
  have hp : Euler.RealPipe 1 0 := by constructor <;> norm_num
  obtain ⟨dx, h0, h⟩ := Box.exists_width (d := 1) (k := 0) hp one_pos (y := 2) (by norm_num)
    (by norm_num : (0 : ℝ) < 1 / 1000) (Box.subsonic_small le_rfl (by norm_num)) (Box.subsonic_small (by norm_num) le_rfl)
  obtain ⟨s2, s1⟩ := Box.slow_small h0 (h 0 60)
  have hrest := (Box.stationary_rest hp h0 1 (x := 2) two_pos).solves 0 one_pos 60 120 (by norm_num)
  have comp : ∀ t, Computable (closeNet dx) t := by
    intro t
    refine ⟨fun v _ => ⟨_, rfl⟩, fun k dx' d r n hk => ?_⟩
    injection hk with hk hn
    injection hk with e1 e2 e3
    subst e1 e2 e3 hn
    exact ⟨h0.ne', hp⟩
  refine ⟨closeNet dx, ⟨closeState 1 (1 / 1000), closeState 1 (1 / 1000), fun _ => 0⟩, ⟨closeState 2 0, closeState 2 0, fun _ => 0⟩,
    close_admissible dx, ?_, ?_, comp 60, comp 120, ?_, rfl, rfl, close_laws 0 60 _ _ (by norm_num) (h 0 60) _,
    close_laws 60 120 _ _ (by norm_num) hrest _, rfl, close_slow ⟨two_pos, s2⟩ ⟨one_pos, s1⟩,
    close_slow ⟨two_pos, Box.slow_rest hp two_pos⟩ ⟨two_pos, Box.slow_rest hp two_pos⟩, ?_, ?_⟩
  · intro k g p n hk; injection hk with hk; cases hk
  · intro k _; exact ⟨(0 : Fin 2), rfl, ReflTransGen.refl⟩
  · intro k dx' d r n hk
    injection hk with hk hn
    injection hk with e1 e2 e3
    subst e1 e2 e3 hn
    exact ⟨h0, hp⟩
  · show ∀ v : Fin 2, _
    intro v x y _ hx hy
    injection hx with hx
    injection hy with hy
    subst hx hy
    match v with
    | 0 => exact le_rfl
    | 1 =>
      show (if (60 : ℝ) ≤ 60 then -(1 / 1000) else 0) ≤ (if (120 : ℝ) ≤ 60 then -(1 / 1000) else (0 : ℝ))
      norm_num
  · refine ⟨(0 : Fin 1), rfl, ?_⟩
    show Euler.p (closeState 1 (1 / 1000) 2) / 100000 < Euler.p (closeState 2 0 2) / 100000
    have : Euler.p 1 < Euler.p 2 := Box.p_lt one_pos one_lt_two
    simpa [closeState] using div_lt_div_of_pos_right this (by norm_num : (0 : ℝ) < 100000)

/-! ## The equations of the program -/

/-- **C175** for what the program solves: two stationary solutions of the equations of a time step, for the same controls, are the same in every gas edge. -/
theorem C175_residual (N : Net) (hN : Admissible N) (hplants : NoPlants N) (hc : NoShortCircles N) (hway : ∀ k, (N.edge k).isGas → Supplied N (N.src k))
    {t0 t1 : ℝ} (ht : t0 < t1) (hcomp : Computable N t1) (hreal : RealPipes N) (z z' : N.Point)
    (hz : N.residual t0 t1 z = Res.ok 0) (hz' : N.residual t0 t1 z' = Res.ok 0)
    (sz : (N.args z).last = (N.args z).new) (sz' : (N.args z').last = (N.args z').new) (hcon : (N.args z).control = (N.args z').control)
    (ha : SlowCells N (N.args z).new) (hb : SlowCells N (N.args z').new) :
    ∀ k, (N.edge k).isGas → ∀ i, (N.edgeRange k).1 ≤ i → i < (N.edgeRange k).2 → (N.args z).new i = (N.args z').new i := by
  have laws : ∀ w : N.Point, N.residual t0 t1 w = Res.ok 0 → Laws N t0 t1 (N.args w) := by
    intro w hw
    obtain ⟨r, hr, hl⟩ := C72_residual_iff_laws N hN t0 t1 hcomp w
    rw [hw] at hr
    injection hr with hr
    exact hl.mp hr.symm
  exact C175 N hN hplants hc hway ht hcomp hreal _ _ sz sz' (laws z hz) (laws z' hz') hcon ha hb

/-- **C176** for what the program solves. -/
theorem C176_residual (N : Net) (hN : Admissible N) (hplants : NoPlants N) (hway : ∀ k, (N.edge k).isGas → Supplied N (N.src k))
    {t0 t1 t0' t1' : ℝ} (ht : t0 < t1) (ht' : t0' < t1') (hcomp : Computable N t1) (hcomp' : Computable N t1') (hreal : RealPipes N) (z z' : N.Point)
    (hz : N.residual t0 t1 z = Res.ok 0) (hz' : N.residual t0' t1' z' = Res.ok 0)
    (sz : (N.args z).last = (N.args z).new) (sz' : (N.args z').last = (N.args z').new) (hcon : (N.args z).control = (N.args z').control)
    (ha : SlowCells N (N.args z).new) (hb : SlowCells N (N.args z').new)
    (hmore : ∀ v x y, (N.node v).kind = .flow ∨ (N.node v).kind = .pressure → (N.node v).boundary t1 = Res.ok x → (N.node v).boundary t1' = Res.ok y → x.1 ≤ y.1) :
    ∀ k, (N.edge k).isGas → N.startPressure k (N.args z).new ≤ N.startPressure k (N.args z').new ∧
      N.endPressure k (N.args z).new ≤ N.endPressure k (N.args z').new := by
  have laws : ∀ (s0 s1 : ℝ) (w : N.Point), Computable N s1 → N.residual s0 s1 w = Res.ok 0 → Laws N s0 s1 (N.args w) := by
    intro s0 s1 w hc hw
    obtain ⟨r, hr, hl⟩ := C72_residual_iff_laws N hN s0 s1 hc w
    rw [hw] at hr
    injection hr with hr
    exact hl.mp hr.symm
  exact C176 N hN hplants hway ht ht' hcomp hcomp' hreal _ _ sz sz' (laws t0 t1 z hcomp hz) (laws t0' t1' z' hcomp' hz') hcon ha hb hmore

/-! ## A circle of short pipes -/

noncomputable section

/-- The network: two short pipes, both from a node with given pressure to a sink. -/
def loopNet : Net where
  nodes := 2
  edges := 2
  node v := ⟨if v = 0 then .pressure else .flow, fun _ => Res.ok (if v = 0 then 50 else -10, 0), 0, 0⟩
  edge _ := .gas .shortpipe 0
  src _ := 0
  dst _ := 1
  starting v := if v = 0 then [0, 1] else []
  ending v := if v = 1 then [0, 1] else []

/-- The states: `x` flows through the first short pipe and the rest through the second. -/
def loopState (x : ℝ) : Vec := fun i => if i = 1 ∨ i = 3 then x else if i = 5 ∨ i = 7 then 10 - x else 50

end

theorem loop_admissible : Admissible loopNet where
  starting := by
    show ∀ v : Fin 2, (if v = 0 then [(0 : Fin 2), 1] else []).Nodup ∧
      ∀ k : Fin 2, k ∈ (if v = 0 then [(0 : Fin 2), 1] else []) ↔ (0 : Fin 2) = v
    decide
  ending := by
    show ∀ v : Fin 2, (if v = 1 then [(0 : Fin 2), 1] else []).Nodup ∧
      ∀ k : Fin 2, k ∈ (if v = 1 then [(0 : Fin 2), 1] else []) ↔ (1 : Fin 2) = v
    decide
  noLoop := by show ∀ _ : Fin 2, (0 : Fin 2) ≠ 1; decide
  points := by intro k dx d r n h; injection h with h; cases h
  gasStart := by intro k kind n h; rfl
  gasEnd := by intro k kind n h _; rfl
  plantEnd := by intro k g p n h; injection h with h; cases h
  lines := by intro k G B h; cases h

theorem loop_laws (t0 t1 x : ℝ) (c : Vec) : Laws loopNet t0 t1 ⟨loopState x, loopState x, c⟩ := by
  refine ⟨⟨fun _ => 50, ?_, ?_⟩, ?_, ?_, ?_, ?_, ?_⟩
  · show ∀ k : Fin 2, _
    intro k hk
    match k with
    | 0 => exact ⟨show loopState x 0 = 50 by simp [loopState], fun _ => show loopState x 2 = 50 by simp [loopState]⟩
    | 1 => exact ⟨show loopState x 4 = 50 by simp [loopState], fun _ => show loopState x 6 = 50 by simp [loopState]⟩
  · show ∀ v : Fin 2, _
    intro v b hv hb
    match v, hv with
    | 0, _ => injection hb with hb; subst hb; rfl
    | 1, h => cases h
  · show ∀ v : Fin 2, _
    intro v _
    match v with
    | 0 => exact ⟨fun h => (by cases h), fun h => (by cases h)⟩
    | 1 =>
      refine ⟨fun h => (by cases h), fun _ b hb => ?_⟩
      injection hb with hb
      subst hb
      have : loopNet.outflow (1 : Fin 2) (loopState x) = (0 + 0) - (loopState x 3 + loopState x 7) := by
        unfold Net.outflow
        show (∑ k : Fin 2, _) - (∑ k : Fin 2, _) = _
        rw [Fin.sum_univ_two, Fin.sum_univ_two]
        rfl
      rw [this]
      show (0 : ℝ) + 0 - (loopState x 3 + loopState x 7) = -10
      simp [loopState]
  · show ∀ k : Fin 2, _
    intro k kind n h hs
    injection h with h
    subst h
    match k with
    | 0 =>
      refine ⟨show loopState x 2 = loopState x 0 + Gas.demandedRise .shortpipe _ by simp [loopState, Gas.demandedRise], ?_⟩
      show loopState x 1 = loopState x 3
      simp [loopState]
    | 1 =>
      refine ⟨show loopState x 6 = loopState x 4 + Gas.demandedRise .shortpipe _ by simp [loopState, Gas.demandedRise], ?_⟩
      show loopState x 5 = loopState x 7
      simp [loopState]
  · intro k dx d r n hk j hj
    injection hk with hk
    cases hk
  · show ∀ v : Fin 2, _
    intro v b hb
    match v with
    | 0 => trivial
    | 1 => trivial
  · intro k g p n h
    injection h with h
    cases h

/-- Without the condition on circles of short edges C175 is false: two short pipes side by side have a stationary state for every distribution of the flow. -/
theorem C175_short_circles_false : ∃ (N : Net) (a b : Args), Admissible N ∧ NoPlants N ∧ (∀ k, (N.edge k).isGas → Supplied N (N.src k)) ∧ Computable N 60 ∧ RealPipes N ∧
    a.last = a.new ∧ b.last = b.new ∧ Laws N 0 60 a ∧ Laws N 0 60 b ∧ a.control = b.control ∧ SlowCells N a.new ∧ SlowCells N b.new ∧
    ∃ k, (N.edge k).isGas ∧ N.startFlow k a.new ≠ N.startFlow k b.new := by
  have nopipe : ∀ k dx d r n, loopNet.edge k ≠ .gas (.pipe dx d r) n := by
    intro k dx d r n hk
    injection hk with hk
    cases hk
  refine ⟨loopNet, ⟨loopState 5, loopState 5, fun _ => 0⟩, ⟨loopState 100, loopState 100, fun _ => 0⟩, loop_admissible, ?_, ?_, ?_, ?_, rfl, rfl,
    loop_laws 0 60 5 _, loop_laws 0 60 100 _, rfl, ?_, ?_, (0 : Fin 2), rfl, ?_⟩
  · intro k g p n hk; injection hk with hk; cases hk
  · intro k _; exact ⟨(0 : Fin 2), rfl, ReflTransGen.refl⟩
  · exact ⟨fun v _ => ⟨_, rfl⟩, fun k dx d r n hk => absurd hk (nopipe k dx d r n)⟩
  · intro k dx d r n hk; exact absurd hk (nopipe k dx d r n)
  · intro k dx d r n hk; exact absurd hk (nopipe k dx d r n)
  · intro k dx d r n hk; exact absurd hk (nopipe k dx d r n)
  · show loopState 5 1 ≠ loopState 100 1
    simp [loopState]

end Verif.Network
