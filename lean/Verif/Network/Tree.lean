import Verif.Network.Circulation
import Verif.Box.Unique

/-!
# Property C167: the stationary state of a gas network without circles is determined by its boundary values

In a network without circles the boundary values determine the flow in every edge of a stationary state. If there is one
pressure node and the cells are short, they determine the whole state.
-/

set_option autoImplicit false

namespace Verif.Network

open Verif.Net Relation

/-! ## Specification -/

/-- A gas edge other than `k` joins the nodes. -/
def JoinedWithout (N : Net) (k : Fin N.edges) (v w : Fin N.nodes) : Prop :=
  ∃ e, e ≠ k ∧ (N.edge e).isGas ∧ (N.src e = v ∧ N.dst e = w ∨ N.src e = w ∧ N.dst e = v)

/-- A gas edge joins the nodes. -/
def Joined (N : Net) (v w : Fin N.nodes) : Prop :=
  ∃ e, (N.edge e).isGas ∧ (N.src e = v ∧ N.dst e = w ∨ N.src e = w ∧ N.dst e = v)

/-- There are no circles: no way leads from the end of a gas edge to its start without this edge. -/
def NoCircles (N : Net) : Prop :=
  ∀ k, (N.edge k).isGas → ¬ ReflTransGen (JoinedWithout N k) (N.dst k) (N.src k)

/-- The gas edges are pipes, short pipes, compressors and control valves: no plant takes gas. -/
def NoPlants (N : Net) : Prop := ∀ k g p n, N.edge k ≠ .gas (.gaspower g p) n

/-- The only pressure node is `v0`. -/
def OnePressure (N : Net) (v0 : Fin N.nodes) : Prop := ∀ v, (N.node v).kind = .pressure → v = v0

/-- Pipes have a positive length and a real cross section. -/
def RealPipes (N : Net) : Prop := ∀ k dx d r n, N.edge k = .gas (.pipe dx d r) n → 0 < dx ∧ Euler.RealPipe d r

/-- In pipes densities are positive and the gas is slower than sound, with the friction over half a cell to spare. -/
def SlowCells (N : Net) (state : Vec) : Prop :=
  ∀ k dx d r n, N.edge k = .gas (.pipe dx d r) n → ∀ j : ℕ, j < n →
    0 < (segment state ((N.edgeRange k).1 + 2 * j)).1 ∧
      Box.Slow d r dx (segment state ((N.edgeRange k).1 + 2 * j))

/-! ## Flows -/

theorem same_flow {N : Net} (hN : Admissible N) (hplants : NoPlants N) (hreal : RealPipes N) {t0 t1 : ℝ} (ht : t0 < t1)
    {a : Args} (hstat : a.last = a.new) (hl : Laws N t0 t1 a) (k : Fin N.edges) (hk : (N.edge k).isGas) :
    N.startFlow k a.new = N.endFlow k a.new := by
  cases he : N.edge k with
  | line G B => rw [he] at hk; cases hk
  | gas kind n =>
    cases kind with
    | gaspower g p => exact absurd he (hplants k g p n)
    | shortpipe => exact (hl.short k _ n he trivial).2
    | compressor => exact (hl.short k _ n he trivial).2
    | controlvalve => exact (hl.short k _ n he trivial).2
    | pipe dx d r =>
      obtain ⟨hdx, hp⟩ := hreal k dx d r n he
      have hn := hN.points k dx d r n he
      have hrange := Admissible.edgeRange_length (N := N) (k := k)
      rw [he] at hrange
      simp only [edgeNeed] at hrange
      have key : ∀ j : ℕ, j < n → a.new ((N.edgeRange k).1 + 2 * j + 1) = a.new ((N.edgeRange k).1 + 1) := by
        intro j
        induction j with
        | zero => intro; simp
        | succ j ih =>
          intro hj
          have h := hl.pipes k dx d r n he j hj
          rw [hstat] at h
          have := ((Box.cell_iff hp ht hdx _ _).mp h).1
          rw [← ih (by omega)]
          simp only [Net.segment] at this
          rw [this]
          congr 1
      have := key (n - 1) (by omega)
      unfold Net.startFlow Net.endFlow
      rw [← this]
      congr 1
      rw [hrange]; push_cast [Nat.cast_sub (by omega : 1 ≤ n)]; ring

/-- What flows out of a node, for any numbers on the edges. -/
noncomputable def netOut (N : Net) (f : Fin N.edges → ℝ) (v : Fin N.nodes) : ℝ :=
  (∑ k, if N.src k = v then f k else 0) - ∑ k, if N.dst k = v then f k else 0

theorem sum_netOut (N : Net) (f : Fin N.edges → ℝ) (S : Finset (Fin N.nodes)) :
    ∑ v ∈ S, netOut N f v = ∑ k, ((if N.src k ∈ S then f k else 0) - if N.dst k ∈ S then f k else 0) := by
  unfold netOut
  rw [Finset.sum_sub_distrib, Finset.sum_comm, Finset.sum_comm (s := S), ← Finset.sum_sub_distrib]
  refine Finset.sum_congr rfl fun k _ => ?_
  rw [Finset.sum_ite_eq, Finset.sum_ite_eq]

/-- A flow without sources in a network without circles vanishes. -/
theorem noCircles_zero {N : Net} (hc : NoCircles N) (f : Fin N.edges → ℝ) (hf : ∀ k, ¬ (N.edge k).isGas → f k = 0)
    (hn : ∀ v, netOut N f v = 0) (k : Fin N.edges) : f k = 0 := by
  classical
  by_cases hk : (N.edge k).isGas
  swap
  · exact hf k hk
  set S : Finset (Fin N.nodes) := Finset.univ.filter fun v => ReflTransGen (JoinedWithout N k) (N.dst k) v with hS
  have hsum := sum_netOut N f S
  rw [Finset.sum_eq_zero fun v _ => hn v] at hsum
  have hterm : ∀ e, e ≠ k → ((if N.src e ∈ S then f e else 0) - if N.dst e ∈ S then f e else 0) = 0 := by
    intro e he
    by_cases hg : (N.edge e).isGas
    · have : N.src e ∈ S ↔ N.dst e ∈ S := by
        simp only [hS, Finset.mem_filter, Finset.mem_univ, true_and]
        exact ⟨fun h => h.tail ⟨e, he, hg, Or.inl ⟨rfl, rfl⟩⟩, fun h => h.tail ⟨e, he, hg, Or.inr ⟨rfl, rfl⟩⟩⟩
      by_cases h : N.src e ∈ S
      · rw [if_pos h, if_pos (this.mp h), sub_self]
      · rw [if_neg h, if_neg (fun h' => h (this.mpr h')), sub_self]
    · rw [hf e hg]; simp
  rw [Finset.sum_eq_single k (fun e _ he => hterm e he) (fun h => absurd (Finset.mem_univ k) h)] at hsum
  have h1 : N.src k ∉ S := by
    simp only [hS, Finset.mem_filter, Finset.mem_univ, true_and]; exact hc k hk
  have h2 : N.dst k ∈ S := by
    simp only [hS, Finset.mem_filter, Finset.mem_univ, true_and]; exact ReflTransGen.refl
  rw [if_neg h1, if_pos h2] at hsum
  linarith

/-- C167. Two stationary states of a gas network without circles and with at most one pressure node, which obey the laws
for the same boundary values, have the same flow in every edge, whatever the controls. -/
theorem C167_flows (N : Net) (hN : Admissible N) (hplants : NoPlants N) (hc : NoCircles N) (v0 : Fin N.nodes)
    (h1 : OnePressure N v0) {t0 t1 : ℝ} (ht : t0 < t1) (hcomp : Computable N t1) (hreal : RealPipes N)
    (a b : Args) (sa : a.last = a.new) (sb : b.last = b.new) (la : Laws N t0 t1 a) (lb : Laws N t0 t1 b) :
    ∀ k, (N.edge k).isGas → N.startFlow k a.new = N.startFlow k b.new ∧ N.endFlow k a.new = N.endFlow k b.new := by
  have fa := same_flow hN hplants hreal ht sa la
  have fb := same_flow hN hplants hreal ht sb lb
  set f : Fin N.edges → ℝ :=
    fun k => if (N.edge k).isGas then N.startFlow k a.new - N.startFlow k b.new else 0 with hf
  have hnet : ∀ v, netOut N f v = N.outflow v a.new - N.outflow v b.new := by
    intro v
    unfold netOut Net.outflow
    have e1 : ∀ k, (if N.src k = v then f k else 0) =
        (if N.src k = v then (if (N.edge k).isGas then N.startFlow k a.new else 0) else 0) -
        (if N.src k = v then (if (N.edge k).isGas then N.startFlow k b.new else 0) else 0) := by
      intro k; simp only [hf]; split_ifs <;> simp
    have e2 : ∀ k, (if N.dst k = v then f k else 0) =
        (if N.dst k = v then (if (N.edge k).isGas then N.endFlow k a.new else 0) else 0) -
        (if N.dst k = v then (if (N.edge k).isGas then N.endFlow k b.new else 0) else 0) := by
      intro k; simp only [hf]
      split_ifs with _ h
      · rw [fa k h, fb k h]
      · simp
      · simp
    simp only [e1, e2, Finset.sum_sub_distrib]
    ring
  have hother : ∀ v, v ≠ v0 → netOut N f v = 0 := by
    intro v hv
    by_cases hex : ∃ k, (N.edge k).isGas ∧ (N.src k = v ∨ N.dst k = v)
    · rw [hnet]
      obtain ⟨ia, qa⟩ := la.flows v hex
      obtain ⟨ib, qb⟩ := lb.flows v hex
      have hgas : (N.node v).kind.isGas := by
        obtain ⟨k, hk, h⟩ := hex
        cases he : N.edge k with
        | line G B => rw [he] at hk; cases hk
        | gas kind n =>
          rcases h with h | h
          · rw [← h]; exact hN.gasStart k kind n he
          · rw [← h]; exact hN.gasEnd k kind n he (by rintro g p rfl; exact hplants k g p n he)
      cases hkind : (N.node v).kind with
      | innode => rw [ia hkind, ib hkind, sub_self]
      | flow =>
        obtain ⟨c, hb⟩ := hcomp.boundary v (by rw [hkind]; simp)
        rw [qa hkind c hb, qb hkind c hb, sub_self]
      | pressure => exact absurd (h1 v hkind) hv
      | power k => rw [hkind] at hgas; cases hgas
      | plant => rw [hkind] at hgas; cases hgas
    · push Not at hex
      unfold netOut
      rw [Finset.sum_eq_zero, Finset.sum_eq_zero, sub_zero]
      · intro k _
        split
        · rename_i h
          simp only [hf]
          split
          · rename_i hk; exact absurd h (hex k hk).2
          · rfl
        · rfl
      · intro k _
        split
        · rename_i h
          simp only [hf]
          split
          · rename_i hk; exact absurd h (hex k hk).1
          · rfl
        · rfl
  have hall : ∀ v, netOut N f v = 0 := by
    intro v
    by_cases hv : v = v0
    · subst hv
      have := sum_netOut N f Finset.univ
      simp only [Finset.mem_univ, if_true, sub_self, Finset.sum_const_zero] at this
      rwa [Finset.sum_eq_single v (fun w _ hw => hother w hw) (fun h => absurd (Finset.mem_univ v) h)] at this
    · exact hother v hv
  intro k hk
  have h0 := noCircles_zero hc f (fun k hk => by simp only [hf]; exact if_neg hk) hall k
  simp only [hf, if_pos hk] at h0
  exact ⟨by linarith, by rw [← fa k hk, ← fb k hk]; linarith⟩

/-! ## States -/

theorem p_of_pressure {N : Net} {k : Fin N.edges} {dx d r : ℝ} {n : ℕ} (hk : N.edge k = .gas (.pipe dx d r) n) {x y : ℝ}
    (h : N.pressureOf k x = N.pressureOf k y) : Euler.p x = Euler.p y := by
  unfold Net.pressureOf at h
  rw [hk] at h
  simp only at h
  linarith

/-- An edge with the same flow and the same pressure at one end has the same state everywhere. -/
theorem edge_unique {N : Net} (hN : Admissible N) (hplants : NoPlants N) (hreal : RealPipes N) {t0 t1 : ℝ} (ht : t0 < t1)
    {a b : Args} (sa : a.last = a.new) (sb : b.last = b.new) (la : Laws N t0 t1 a) (lb : Laws N t0 t1 b)
    (ha : SlowCells N a.new) (hb : SlowCells N b.new) (hcon : a.control = b.control) (k : Fin N.edges)
    (hk : (N.edge k).isGas) (hq : N.startFlow k a.new = N.startFlow k b.new ∧ N.endFlow k a.new = N.endFlow k b.new)
    (h : N.startPressure k a.new = N.startPressure k b.new ∨ N.endPressure k a.new = N.endPressure k b.new) :
    ∀ i, (N.edgeRange k).1 ≤ i → i < (N.edgeRange k).2 → a.new i = b.new i := by
  have hrange := Admissible.edgeRange_length (N := N) (k := k)
  have hshort : ∀ kind n, N.edge k = .gas kind n → kind.isShort →
      ∀ i, (N.edgeRange k).1 ≤ i → i < (N.edgeRange k).2 → a.new i = b.new i := by
    intro kind n he hs
    have e1 := (la.short k kind n he hs).1
    have e2 := (lb.short k kind n he hs).1
    rw [hcon] at e1
    have hp1 : N.startPressure k a.new = N.startPressure k b.new := by rcases h with h | h <;> linarith
    have hp2 : N.endPressure k a.new = N.endPressure k b.new := by rw [e1, e2, hp1]
    have hneed : edgeNeed (N.edge k) = 4 := by
      rw [he]
      cases kind with
      | pipe dx d r => exact hs.elim
      | gaspower g p => exact hs.elim
      | shortpipe => rfl
      | compressor => rfl
      | controlvalve => rfl
    rw [hneed] at hrange
    have hid : ∀ x, N.pressureOf k x = x := by
      intro x; unfold Net.pressureOf; rw [he]
      cases kind with
      | pipe dx d r => exact hs.elim
      | gaspower g p => exact hs.elim
      | shortpipe => rfl
      | compressor => rfl
      | controlvalve => rfl
    unfold Net.startPressure at hp1
    unfold Net.endPressure at hp2
    obtain ⟨q1, q2⟩ := hq
    unfold Net.startFlow at q1
    unfold Net.endFlow at q2
    rw [hid, hid] at hp1 hp2
    intro i h0 h1
    obtain rfl | rfl | rfl | rfl : i = (N.edgeRange k).1 ∨ i = (N.edgeRange k).1 + 1 ∨ i = (N.edgeRange k).2 - 2 ∨
        i = (N.edgeRange k).2 - 1 := by push_cast at hrange; omega
    · exact hp1
    · exact q1
    · exact hp2
    · exact q2
  cases he : N.edge k with
  | line G B => rw [he] at hk; cases hk
  | gas kind n =>
    cases kind with
    | gaspower g p => exact absurd he (hplants k g p n)
    | shortpipe => exact hshort _ n he trivial
    | compressor => exact hshort _ n he trivial
    | controlvalve => exact hshort _ n he trivial
    | pipe dx d r =>
      obtain ⟨hdx, hp⟩ := hreal k dx d r n he
      have hn := hN.points k dx d r n he
      rw [he] at hrange
      simp only [edgeNeed] at hrange
      have stat : ∀ {c : Args}, c.last = c.new → Laws N t0 t1 c → SlowCells N c.new →
          Box.Stationary d r dx (n - 1) (fun j => segment c.new ((N.edgeRange k).1 + 2 * (j : ℕ))) := by
        intro c sc lc hc
        refine ⟨fun j hj => (hc k dx d r n he j (by omega)).1, fun j hj s0 s1 hs => ?_⟩
        have := lc.pipes k dx d r n he j (by omega)
        rw [sc, Box.cell_iff hp ht hdx] at this
        rw [Box.cell_iff hp hs hdx]
        push_cast
        exact this
      have e1 : (N.edgeRange k).1 + 2 * ((n - 1 : ℕ) : ℤ) = (N.edgeRange k).2 - 2 := by
        rw [hrange]; push_cast [Nat.cast_sub (by omega : 1 ≤ n)]; ring
      have e2 : (N.edgeRange k).2 - 2 + 1 = (N.edgeRange k).2 - 1 := by ring
      obtain ⟨u1, u2⟩ := Box.C166_partial hp hdx (stat sa la ha) (stat sb lb hb)
        (fun j hj => (ha k dx d r n he j (by omega)).2) (fun j hj => (hb k dx d r n he j (by omega)).2)
      have key : ∀ j ≤ n - 1, segment a.new ((N.edgeRange k).1 + 2 * (j : ℕ)) =
          segment b.new ((N.edgeRange k).1 + 2 * (j : ℕ)) := by
        rcases h with h | h
        · refine u1 ?_ ?_
          · simpa [Net.segment, Net.startFlow] using hq.1
          · have := p_of_pressure he h
            simpa [Net.segment] using this
        · refine u2 ?_ ?_
          · simp only [Net.segment, e1, e2]; exact hq.2
          · have := p_of_pressure he h
            simp only [Net.segment, e1]; exact this
      intro i h0 h1
      obtain ⟨j, hj⟩ : ∃ j : ℕ, i - (N.edgeRange k).1 = j := ⟨(i - (N.edgeRange k).1).toNat, by omega⟩
      have hlt : j < 2 * n := by push_cast at hrange; omega
      have := key (j / 2) (by omega)
      simp only [Net.segment, Prod.mk.injEq] at this
      rcases Nat.mod_two_eq_zero_or_one j with hm | hm
      · have e : (N.edgeRange k).1 + 2 * ((j / 2 : ℕ) : ℤ) = i := by omega
        rw [e] at this; exact this.1
      · have e : (N.edgeRange k).1 + 2 * ((j / 2 : ℕ) : ℤ) + 1 = i := by omega
        rw [e] at this; exact this.2

/-- C167. Two stationary states of a gas network without circles, in which ways lead from its one pressure node to all
edges, which obey the laws for the same boundary values and controls and are slower than sound with the friction over
half a cell to spare: the states are the same in every edge, at every point, in density or pressure and in flow. -/
theorem C167 (N : Net) (hN : Admissible N) (hplants : NoPlants N) (hc : NoCircles N) (v0 : Fin N.nodes)
    (h0 : (N.node v0).kind = .pressure) (h1 : OnePressure N v0)
    (hway : ∀ k, (N.edge k).isGas → ReflTransGen (Joined N) v0 (N.src k)) {t0 t1 : ℝ} (ht : t0 < t1)
    (hcomp : Computable N t1) (hreal : RealPipes N) (a b : Args) (sa : a.last = a.new) (sb : b.last = b.new)
    (la : Laws N t0 t1 a) (lb : Laws N t0 t1 b) (hcon : a.control = b.control)
    (ha : SlowCells N a.new) (hb : SlowCells N b.new) :
    ∀ k, (N.edge k).isGas → ∀ i, (N.edgeRange k).1 ≤ i → i < (N.edgeRange k).2 → a.new i = b.new i := by
  have hq := C167_flows N hN hplants hc v0 h1 ht hcomp hreal a b sa sb la lb
  obtain ⟨P, hP, P0⟩ := la.pressures
  obtain ⟨Q, hQ, Q0⟩ := lb.pressures
  obtain ⟨c, hb0⟩ := hcomp.boundary v0 (by rw [h0]; simp)
  have hends : ∀ k, (N.edge k).isGas → (N.node (N.dst k)).kind.isGas := by
    intro k hk
    cases he : N.edge k with
    | line G B => rw [he] at hk; cases hk
    | gas kind n => exact hN.gasEnd k kind n he (by rintro g p rfl; exact hplants k g p n he)
  have edge := edge_unique hN hplants hreal ht sa sb la lb ha hb hcon
  have hlen : ∀ k, (N.edge k).isGas → (N.edgeRange k).1 + 2 ≤ (N.edgeRange k).2 := by
    intro k hk
    have hrange := Admissible.edgeRange_length (N := N) (k := k)
    cases he : N.edge k with
    | line G B => rw [he] at hk; cases hk
    | gas kind n =>
      rw [he] at hrange
      cases kind with
      | gaspower g p => exact absurd he (hplants k g p n)
      | shortpipe => simp only [edgeNeed] at hrange; omega
      | compressor => simp only [edgeNeed] at hrange; omega
      | controlvalve => simp only [edgeNeed] at hrange; omega
      | pipe dx d r =>
        have := hN.points k dx d r n he
        simp only [edgeNeed] at hrange; omega
  have step : ∀ k, (N.edge k).isGas → (P (N.src k) = Q (N.src k) ∨ P (N.dst k) = Q (N.dst k)) →
      (∀ i, (N.edgeRange k).1 ≤ i → i < (N.edgeRange k).2 → a.new i = b.new i) ∧
        P (N.src k) = Q (N.src k) ∧ P (N.dst k) = Q (N.dst k) := by
    intro k hk h
    obtain ⟨p1, p2⟩ := hP k hk
    obtain ⟨q1, q2⟩ := hQ k hk
    have p2 := p2 (hends k hk)
    have q2 := q2 (hends k hk)
    have hl := hlen k hk
    have he := edge k hk (hq k hk) (by rw [p1, p2, q1, q2]; exact h)
    refine ⟨he, ?_, ?_⟩
    · rw [← p1, ← q1]; unfold Net.startPressure; rw [he _ le_rfl (by omega)]
    · rw [← p2, ← q2]; unfold Net.endPressure; rw [he _ (by omega) (by omega)]
  have hnodes : ∀ v, ReflTransGen (Joined N) v0 v → P v = Q v := by
    intro v hv
    induction hv with
    | refl => rw [P0 v0 c h0 hb0, Q0 v0 c h0 hb0]
    | tail _ hj ih =>
      obtain ⟨e, he, ⟨rfl, rfl⟩ | ⟨rfl, rfl⟩⟩ := hj
      · exact (step e he (Or.inl ih)).2.2
      · exact (step e he (Or.inr ih)).2.1
  intro k hk
  exact (step k hk (Or.inl (hnodes _ (hway k hk)))).1

/-- The network with one pipe, from a pressure node to a sink, in `Circulation.lean` meets the hypotheses of `C167`, with a
state with flow. -/
example : ∃ (N : Net) (v0 : Fin N.nodes) (a : Args), Admissible N ∧ NoPlants N ∧ NoCircles N ∧
    (N.node v0).kind = .pressure ∧ OnePressure N v0 ∧ (∀ k, (N.edge k).isGas → ReflTransGen (Joined N) v0 (N.src k)) ∧
    Computable N 60 ∧ RealPipes N ∧ a.last = a.new ∧ Laws N 0 60 a ∧ SlowCells N a.new ∧
    ∃ v w, FlowsInPipe N a.new v w := by
  have hp : Euler.RealPipe 1 0 := by constructor <;> norm_num
  obtain ⟨dx, h0, h⟩ := Box.exists_width (d := 1) (k := 0) hp one_pos (y := 2) (by norm_num)
    (by norm_num : (0 : ℝ) < 1 / 1000) (Box.subsonic_small le_rfl (by norm_num)) (Box.subsonic_small (by norm_num) le_rfl)
  obtain ⟨s2, s1⟩ := Box.slow_small h0 (h 0 60)
  have hedge : ∀ k : Fin (flowNet dx).edges, k = (0 : Fin 1) := fun k => Subsingleton.elim (α := Fin 1) _ _
  refine ⟨flowNet dx, (0 : Fin 2), ⟨flowState, flowState, fun _ => 0⟩, flow_admissible dx, ?_, ?_, rfl, ?_, ?_, ?_, ?_, rfl,
    flow_laws 0 60 (h 0 60) _, ?_, ?_⟩
  · intro k g p n hk; injection hk with hk; cases hk
  · intro k _ hway
    have none : ∀ w, ReflTransGen (JoinedWithout (flowNet dx) k) ((flowNet dx).dst k) w → w = (flowNet dx).dst k := by
      intro w hw
      induction hw with
      | refl => rfl
      | tail _ hj _ =>
        obtain ⟨e, he, -⟩ := hj
        exact absurd ((hedge e).trans (hedge k).symm) he
    have := none _ hway
    exact absurd this ((flow_admissible dx).noLoop k)
  · show ∀ v : Fin 2, _
    intro v hv
    match v, hv with
    | 0, _ => rfl
    | 1, h => cases h
  · intro k _; exact ReflTransGen.refl
  · refine ⟨fun v _ => ⟨_, rfl⟩, fun k dx' d r n hk => ?_⟩
    injection hk with hk hn
    injection hk with e1 e2 e3
    subst e1 e2 e3 hn
    exact ⟨h0.ne', hp⟩
  · intro k dx' d r n hk
    injection hk with hk hn
    injection hk with e1 e2 e3
    subst e1 e2 e3 hn
    exact ⟨h0, hp⟩
  · intro k dx' d r n hk j hj
    obtain rfl := hedge k
    injection hk with hk hn
    injection hk with e1 e2 e3
    subst e1 e2 e3 hn
    match j, hj with
    | 0, _ =>
      show 0 < flowState 0 ∧ Box.Slow 1 0 dx (flowState 0, flowState 1)
      simpa [flowState] using s2
    | 1, _ =>
      show 0 < flowState 2 ∧ Box.Slow 1 0 dx (flowState 2, flowState 3)
      simpa [flowState] using s1
  · refine ⟨(0 : Fin 2), (1 : Fin 2), (0 : Fin 1), dx, 1, 0, 2, rfl, Or.inl ⟨rfl, rfl, ?_⟩⟩
    show 0 < flowState 1
    norm_num [flowState]

end Verif.Network
