import Verif.Network.Circles
import Mathlib.LinearAlgebra.Matrix.ToLinearEquiv

/-!
# Property C177: circles of short edges make the equations of every time step ambiguous

The condition of C175 on circles of short pipes, compressors and control valves is needed in every network: if there is such a circle, or such a way between two pressure nodes,
the equations of a time step have no solution or infinitely many.
-/

set_option autoImplicit false

namespace Verif.Network

open Verif.Net Verif.Handler Relation

/-! ## Flows along ways -/

theorem netOut_add (N : Net) (f g : Fin N.edges → ℝ) (v : Fin N.nodes) : netOut N (fun k => f k + g k) v = netOut N f v + netOut N g v := by
  unfold netOut
  have : ∀ (p : Fin N.edges → Prop) [DecidablePred p], (∑ k, if p k then f k + g k else 0) = (∑ k, if p k then f k else 0) + ∑ k, if p k then g k else 0 := by
    intro p _
    rw [← Finset.sum_add_distrib]
    refine Finset.sum_congr rfl fun k _ => ?_
    split <;> simp
  rw [this, this]
  ring

theorem netOut_mul (N : Net) (s : ℝ) (f : Fin N.edges → ℝ) (v : Fin N.nodes) : netOut N (fun k => s * f k) v = s * netOut N f v := by
  unfold netOut
  rw [mul_sub, Finset.mul_sum, Finset.mul_sum]
  congr 1 <;> exact Finset.sum_congr rfl fun k _ => by split <;> simp

theorem netOut_single (N : Net) (e : Fin N.edges) (s : ℝ) (v : Fin N.nodes) :
    netOut N (fun k => if k = e then s else 0) v = (if v = N.src e then s else 0) - if v = N.dst e then s else 0 := by
  unfold netOut
  congr 1
  · rw [Finset.sum_eq_single e]
    · simp [eq_comm]
    · intro k _ hk; simp [hk]
    · intro h; exact absurd (Finset.mem_univ e) h
  · rw [Finset.sum_eq_single e]
    · simp [eq_comm]
    · intro k _ hk; simp [hk]
    · intro h; exact absurd (Finset.mem_univ e) h

/-- One unit of flow along a way of short edges. -/
theorem way_flow {N : Net} {k : Fin N.edges} {u v : Fin N.nodes} (h : ReflTransGen (ShortWay N k) u v) :
    ∃ g : Fin N.edges → ℝ, g k = 0 ∧ (∀ e, ¬ ShortEdge N e → g e = 0) ∧
      ∀ w, (N.node w).kind ≠ .pressure → netOut N g w = (if w = u then 1 else 0) - if w = v then 1 else 0 := by
  induction h with
  | refl => exact ⟨fun _ => 0, rfl, fun _ _ => rfl, fun w _ => by simp [netOut]⟩
  | @tail x y _ hxy ih =>
    obtain ⟨g, gk, gs, gn⟩ := ih
    rcases hxy with ⟨e, hek, hes, ⟨hx, hy⟩ | ⟨hx, hy⟩⟩ | ⟨hx, hy⟩
    · refine ⟨fun k => g k + if k = e then 1 else 0, by simp [gk, hek.symm], ?_, ?_⟩
      · intro e' he'
        have : e' ≠ e := fun h => he' (h ▸ hes)
        simp [gs e' he', this]
      · intro w hw
        rw [netOut_add, gn w hw, netOut_single, hx, hy]
        ring
    · refine ⟨fun k => g k + if k = e then -1 else 0, by simp [gk, hek.symm], ?_, ?_⟩
      · intro e' he'
        have : e' ≠ e := fun h => he' (h ▸ hes)
        simp [gs e' he', this]
      · intro w hw
        rw [netOut_add, gn w hw, netOut_single, hx, hy]
        split_ifs <;> norm_num
    · refine ⟨g, gk, gs, fun w hw => ?_⟩
      have h1 : w ≠ x := by rintro rfl; exact hw hx
      have h2 : w ≠ y := by rintro rfl; exact hw hy
      rw [gn w hw, if_neg h1, if_neg h2]

/-- A flow in circles of short edges. -/
theorem circle_flow {N : Net} (h : ¬ NoShortCircles N) :
    ∃ k, ShortEdge N k ∧ ∃ f : Fin N.edges → ℝ, f k = 1 ∧ (∀ e, ¬ ShortEdge N e → f e = 0) ∧ ∀ w, (N.node w).kind ≠ .pressure → netOut N f w = 0 := by
  unfold NoShortCircles at h
  push Not at h
  obtain ⟨k, hk, hw⟩ := h
  obtain ⟨g, gk, gs, gn⟩ := way_flow hw
  refine ⟨k, hk, fun e => g e + if e = k then 1 else 0, by simp [gk], ?_, ?_⟩
  · intro e he
    have : e ≠ k := fun h => he (h ▸ hk)
    simp [gs e he, this]
  · intro w hw
    rw [netOut_add, gn w hw, netOut_single]
    ring

/-! ## Adding flows to a state -/

/-- The state with additional flows in edges. -/
def shift (N : Net) (f : Fin N.edges → ℝ) (state : Vec) : Vec := fun i =>
  state i + ∑ k, if i = (N.edgeRange k).1 + 1 ∨ i = (N.edgeRange k).2 - 1 then f k else 0

theorem short_inRange {N : Net} {k : Fin N.edges} (hk : ShortEdge N k) {i : ℤ} (hi : i = (N.edgeRange k).1 + 1 ∨ i = (N.edgeRange k).2 - 1) : N.InRange (.inr k) i := by
  obtain ⟨kind, n, he, hs⟩ := hk
  have hlen := Admissible.edgeRange_length (N := N) (k := k)
  rw [he] at hlen
  have : edgeNeed (.gas kind n) = 4 := by
    cases kind <;> first | rfl | exact hs.elim
  rw [this] at hlen
  show (N.edgeRange k).1 ≤ i ∧ i < (N.edgeRange k).2
  push_cast at hlen
  omega

section
variable {N : Net} (hN : Admissible N) {f : Fin N.edges → ℝ} (hf : ∀ e, ¬ ShortEdge N e → f e = 0)
include hf

theorem shift_edge {k : Fin N.edges} {i : ℤ} (hi : N.InRange (.inr k) i) (state : Vec) :
    shift N f state i = state i + if i = (N.edgeRange k).1 + 1 ∨ i = (N.edgeRange k).2 - 1 then f k else 0 := by
  unfold shift
  congr 1
  rw [Finset.sum_eq_single k]
  · intro l _ hl
    split
    · rename_i h
      by_contra hne
      have hs : ShortEdge N l := by
        by_contra hs; exact hne (hf l hs)
      have := (short_inRange hs h).unique hi
      injection this with this
      exact hl this
    · rfl
  · intro h; exact absurd (Finset.mem_univ k) h

theorem shift_node {v : Fin N.nodes} {i : ℤ} (hi : N.InRange (.inl v) i) (state : Vec) : shift N f state i = state i := by
  unfold shift
  rw [Finset.sum_eq_zero, add_zero]
  intro l _
  split
  · rename_i h
    by_contra hne
    have hs : ShortEdge N l := by
      by_contra hs; exact hne (hf l hs)
    have := (short_inRange hs h).unique hi
    cases this
  · rfl

theorem shift_voltage {v : Fin N.nodes} (hv : (N.node v).kind.isPower) (state : Vec) :
    N.voltage (shift N f state) v = N.voltage state v ∧ N.angle (shift N f state) v = N.angle state v := by
  have hlen := N.range_length (.inl v)
  have hneed : N.need (.inl v) = 2 := by
    show nodeNeed (N.node v).kind = 2
    unfold nodeNeed
    rw [if_pos hv]
  rw [hneed] at hlen
  push_cast at hlen
  have h0 : N.InRange (.inl v) (N.nodeRange v).1 := ⟨le_rfl, by show (N.range (.inl v)).1 < _; omega⟩
  have h1 : N.InRange (.inl v) ((N.nodeRange v).1 + 1) := ⟨by show (N.range (.inl v)).1 ≤ (N.range (.inl v)).1 + 1; omega, by
    show (N.range (.inl v)).1 + 1 < _; omega⟩
  exact ⟨shift_node hf h0 state, shift_node hf h1 state⟩

include hN

theorem shift_active {v : Fin N.nodes} (hv : (N.node v).kind.isPower) (state : Vec) :
    N.active v (shift N f state) = N.active v state ∧ N.reactive v (shift N f state) = N.reactive v state := by
  have hv' := shift_voltage hf hv state
  have key : ∀ k w, (∃ G B, N.edge k = .line G B) → (w = N.src k ∨ w = N.dst k) →
      N.voltage (shift N f state) w = N.voltage state w ∧ N.angle (shift N f state) w = N.angle state w := by
    rintro k w ⟨G, B, hk⟩ (rfl | rfl)
    · exact shift_voltage hf (hN.lines k G B hk).1 state
    · exact shift_voltage hf (hN.lines k G B hk).2 state
  have line : ∀ k, (∃ G B, N.edge k = .line G B) ∨ (N.edge k).conductance = 0 ∧ (N.edge k).susceptance = 0 := by
    intro k
    cases N.edge k with
    | line G B => exact Or.inl ⟨G, B, rfl⟩
    | gas kind n => exact Or.inr ⟨rfl, rfl⟩
  unfold Net.active Net.reactive
  rw [hv'.1, hv'.2]
  refine ⟨?_, ?_⟩ <;> congr 2 <;> refine Finset.sum_congr rfl fun k _ => ?_ <;> split <;> try rfl
  all_goals
    rcases line k with h | ⟨h1, h2⟩
    · first
        | rw [(key k _ h (Or.inr rfl)).1, (key k _ h (Or.inr rfl)).2]
        | rw [(key k _ h (Or.inl rfl)).1, (key k _ h (Or.inl rfl)).2]
    · rw [h1, h2]; ring

theorem shift_pressure {k : Fin N.edges} (hk : (N.edge k).isGas) (state : Vec) :
    N.startPressure k (shift N f state) = N.startPressure k state ∧ N.endPressure k (shift N f state) = N.endPressure k state ∧
    N.startFlow k (shift N f state) = N.startFlow k state + f k ∧ N.endFlow k (shift N f state) = N.endFlow k state + f k := by
  cases he : N.edge k with
  | line G B => rw [he] at hk; cases hk
  | gas kind n =>
    have hlen := Admissible.edgeRange_length (N := N) (k := k)
    have hneed := (hN.gas_need he).1
    have heven : edgeNeed (N.edge k) % 2 = 0 := by
      rw [he]; cases kind <;> simp [edgeNeed]
    have inr : ∀ i, (N.edgeRange k).1 ≤ i → i < (N.edgeRange k).2 → N.InRange (.inr k) i := fun i h1 h2 => ⟨h1, h2⟩
    unfold Net.startPressure Net.endPressure Net.startFlow Net.endFlow
    rw [shift_edge hf (inr _ le_rfl (by omega)), shift_edge hf (inr ((N.edgeRange k).2 - 2) (by omega) (by omega)),
      shift_edge hf (inr ((N.edgeRange k).1 + 1) (by omega) (by omega)), shift_edge hf (inr ((N.edgeRange k).2 - 1) (by omega) (by omega)),
      if_neg (by omega), if_neg (by omega), if_pos (Or.inl rfl), if_pos (Or.inr rfl), add_zero, add_zero]
    exact ⟨rfl, rfl, rfl, rfl⟩

theorem shift_outflow (state : Vec) (v : Fin N.nodes) : N.outflow v (shift N f state) = N.outflow v state + netOut N f v := by
  have hgas : ∀ k, ¬ (N.edge k).isGas → f k = 0 := by
    intro k hk
    refine hf k ?_
    rintro ⟨kind, n, he, -⟩
    rw [he] at hk
    exact hk rfl
  unfold Net.outflow netOut
  have e1 : ∀ k, (if N.src k = v then (if (N.edge k).isGas then N.startFlow k (shift N f state) else 0) else 0) =
      (if N.src k = v then (if (N.edge k).isGas then N.startFlow k state else 0) else 0) + if N.src k = v then f k else 0 := by
    intro k
    split_ifs with h1 h2
    · exact (shift_pressure hN hf h2 state).2.2.1
    · rw [hgas k h2, add_zero]
    · simp
  have e2 : ∀ k, (if N.dst k = v then (if (N.edge k).isGas then N.endFlow k (shift N f state) else 0) else 0) =
      (if N.dst k = v then (if (N.edge k).isGas then N.endFlow k state else 0) else 0) + if N.dst k = v then f k else 0 := by
    intro k
    split_ifs with h1 h2
    · exact (shift_pressure hN hf h2 state).2.2.2
    · rw [hgas k h2, add_zero]
    · simp
  simp only [e1, e2, Finset.sum_add_distrib]
  ring

omit hN in
/-- Pipes are not changed. -/
theorem shift_segment {k : Fin N.edges} {dx d r : ℝ} {n : ℕ} (he : N.edge k = .gas (.pipe dx d r) n) (state : Vec) {m : ℕ} (hm : m < n) :
    Net.segment (shift N f state) ((N.edgeRange k).1 + 2 * (m : ℤ)) = Net.segment state ((N.edgeRange k).1 + 2 * (m : ℤ)) := by
  have hlen := Admissible.edgeRange_length (N := N) (k := k)
  rw [he] at hlen
  simp only [edgeNeed] at hlen
  push_cast at hlen
  have fk : f k = 0 := hf k (by
    rintro ⟨kind, m, he', hs⟩
    rw [he] at he'
    injection he' with he' _
    subst he'
    exact hs)
  have same : ∀ i, (N.edgeRange k).1 ≤ i → i < (N.edgeRange k).2 → shift N f state i = state i := by
    intro i h1 h2
    rw [shift_edge hf (k := k) ⟨h1, h2⟩, fk]
    simp
  unfold Net.segment
  rw [same _ (by omega) (by omega), same _ (by omega) (by omega)]

/-- Flows in circles of short edges may be added to every solution. -/
theorem shift_laws {t0 t1 : ℝ} {a : Args} (la : Laws N t0 t1 a) (hn : ∀ w, (N.node w).kind ≠ .pressure → netOut N f w = 0) {last : Vec}
    (hlast : last = a.last ∨ last = shift N f a.last) : Laws N t0 t1 ⟨last, shift N f a.new, a.control⟩ := by
  refine ⟨?_, ?_, ?_, ?_, ?_, ?_⟩
  · obtain ⟨P, hP, P0⟩ := la.pressures
    refine ⟨P, fun k hk => ?_, P0⟩
    obtain ⟨h1, h2, -, -⟩ := shift_pressure hN hf hk a.new
    exact ⟨h1.trans (hP k hk).1, fun h => h2.trans ((hP k hk).2 h)⟩
  · intro v hv
    obtain ⟨h1, h2⟩ := la.flows v hv
    have hout := shift_outflow hN hf a.new v
    refine ⟨fun h => ?_, fun h b hb => ?_⟩
    · show N.outflow v (shift N f a.new) = 0
      rw [hout, hn v (by rw [h]; simp), h1 h, add_zero]
    · show N.outflow v (shift N f a.new) = b.1
      rw [hout, hn v (by rw [h]; simp), h2 h b hb, add_zero]
  · intro k kind n he hs
    obtain ⟨h1, h2, h3, h4⟩ := shift_pressure hN hf (k := k) (by rw [he]; rfl) a.new
    obtain ⟨l1, l2⟩ := la.short k kind n he hs
    exact ⟨by show N.endPressure k (shift N f a.new) = N.startPressure k (shift N f a.new) + _; rw [h1, h2, l1],
      by show N.startFlow k (shift N f a.new) = N.endFlow k (shift N f a.new); rw [h3, h4, l2]⟩
  · intro k dx d r n he j hj
    have l1 : ∀ m : ℕ, m < n → Net.segment last ((N.edgeRange k).1 + 2 * (m : ℤ)) = Net.segment a.last ((N.edgeRange k).1 + 2 * (m : ℤ)) := by
      intro m hm
      rcases hlast with rfl | rfl
      · rfl
      · exact shift_segment hf he a.last hm
    have s1 := shift_segment hf he a.new (m := j) (by omega)
    have s2 := shift_segment hf he a.new (m := j + 1) hj
    have s3 := l1 j (by omega)
    have s4 := l1 (j + 1) hj
    push_cast at s2 s4
    show Box.evaluatePoint _ _ _ _ (Net.segment last _) (Net.segment last _) (Net.segment (shift N f a.new) _) (Net.segment (shift N f a.new) _) = _
    rw [s1, s2, s3, s4]
    exact la.pipes k dx d r n he j hj
  · intro v b hb
    have := la.grid v b hb
    cases hk : (N.node v).kind with
    | power kind =>
      have hp : (N.node v).kind.isPower := by rw [hk]; rfl
      obtain ⟨s1, s2⟩ := shift_active hN hf hp a.new
      obtain ⟨s3, s4⟩ := shift_voltage hf hp a.new
      rw [hk] at this
      cases kind <;> simp only [s1, s2, s3, s4] <;> exact this
    | plant =>
      have hp : (N.node v).kind.isPower := by rw [hk]; rfl
      obtain ⟨s3, s4⟩ := shift_voltage hf hp a.new
      rw [hk] at this
      simp only [s3, s4]
      exact this
    | _ => trivial
  · intro k g p n he
    obtain ⟨-, -, h3, -⟩ := shift_pressure hN hf (k := k) (by rw [he]; rfl) a.new
    have fk : f k = 0 := hf k (by
      rintro ⟨kind, m, he', hs⟩
      rw [he] at he'
      injection he' with he' _
      subst he'
      exact hs)
    show Power.generated ⟨g, p⟩ (N.startFlow k (shift N f a.new)) = Res.ok (N.active (N.dst k) (shift N f a.new))
    rw [h3, fk, add_zero, (shift_active hN hf (isPlant_power (hN.plantEnd k g p n he)) a.new).1]
    exact la.plants k g p n he

end

/-! ## The matrix of the solver -/

theorem applyRow_columns {cs : List (Contribution ℝ)} {w : Vec} (h : ∀ c ∈ cs, w c.2.1 = 0) (r : ℤ) : applyRow cs r w = 0 := by
  induction cs with
  | nil => rfl
  | cons c cs ih =>
    rw [applyRow_cons, ih fun d hd => h d (by simp [hd]), h c (by simp)]
    simp

theorem applyRow_forEach {α : Type} {l : List α} {body : α → Res (List (Contribution ℝ))} {cs : List (Contribution ℝ)} {r : ℤ} {w : Vec}
    (h : forEach l body = Res.ok cs) (hz : ∀ x ∈ l, ∀ c, body x = Res.ok c → applyRow c r w = 0) : applyRow cs r w = 0 := by
  obtain ⟨g, hg, rfl⟩ := forEach_eq_ok h
  clear h
  induction l with
  | nil => rfl
  | cons x l ih =>
    rw [List.flatMap_cons, applyRow_append, hz x (by simp) _ (hg x (by simp)), zero_add]
    exact ih (fun y hy => hz y (by simp [hy])) fun y hy => hg y (by simp [hy])

theorem pressures_none {row : Gas.End → ℤ} {p : Gas.End → ℝ} {r : ℤ} :
    ∀ {rest : List Gas.End} {oldRow : ℤ}, (∀ x ∈ rest, p x = 0) → Gas.pressures row p oldRow 0 rest r = 0
  | [], _, _ => rfl
  | x :: rest, oldRow, h => by
    unfold Gas.pressures
    rw [h x (by simp), sub_self, ite_self, zero_add]
    exact pressures_none fun y hy => h y (by simp [hy])

section
variable {N : Net} (hN : Admissible N) {f : Fin N.edges → ℝ} (hf : ∀ e, ¬ ShortEdge N e → f e = 0)
include hf

theorem shift_bus {v : Fin N.nodes} (hv : (N.node v).kind.isPower) {b : Power.Bus} (hb : N.bus v = Res.ok b) :
    (shift N f (fun _ => 0) b.first = 0 ∧ shift N f (fun _ => 0) (b.first + 1) = 0) ∧
      ∀ l ∈ b.lines, shift N f (fun _ => 0) l.other = 0 ∧ shift N f (fun _ => 0) (l.other + 1) = 0 := by
  unfold Net.bus at hb
  split at hb
  · rename_i hall
    injection hb with hb
    subst hb
    refine ⟨shift_voltage hf hv (fun _ => 0), ?_⟩
    intro l hl
    obtain ⟨x, hx, rfl⟩ := List.mem_map.mp hl
    exact shift_voltage hf (List.all_eq_true.mp hall x hx) (fun _ => 0)
  · cases hb

theorem shift_dActive {v : Fin N.nodes} (hv : (N.node v).kind.isPower) {b : Power.Bus} (hb : N.bus v = Res.ok b) (row : ℤ) (state : Vec) :
    (∀ c ∈ Power.dActive b row state, shift N f (fun _ => 0) c.2.1 = 0) ∧ ∀ c ∈ Power.dReactive b row state, shift N f (fun _ => 0) c.2.1 = 0 := by
  obtain ⟨h, hl⟩ := shift_bus hf hv hb
  have := powerPositions_in (Q := fun p => shift N f (fun _ => 0) p.2 = 0) (b := b) (row := row) h hl
  refine ⟨fun c hc => ?_, fun c hc => ?_⟩
  · exact this (pos c) (dActive_positions b row state ▸ List.mem_map_of_mem hc)
  · exact this (pos c) (dReactive_positions b row state ▸ List.mem_map_of_mem hc)

theorem shift_busNew {v : Fin N.nodes} (hv : (N.node v).kind.isPower) {b : Power.Bus} (hb : N.bus v = Res.ok b) (k : Power.Kind) (state : Vec) (r : ℤ) :
    applyRow (Power.busNew k b state) r (shift N f fun _ => 0) = 0 := by
  obtain ⟨⟨h1, h2⟩, -⟩ := shift_bus hf hv hb
  refine applyRow_columns (fun c hc => ?_) r
  cases k with
  | pq =>
    rcases List.mem_append.mp hc with hc | hc
    · exact (shift_dActive hf hv hb _ state).1 c hc
    · exact (shift_dActive hf hv hb _ state).2 c hc
  | pv =>
    rcases List.mem_append.mp hc with hc | hc
    · exact (shift_dActive hf hv hb _ state).1 c hc
    · rw [List.mem_singleton] at hc
      subst hc
      exact h1
  | vphi =>
    simp only [Power.busNew, List.mem_cons, List.not_mem_nil, or_false] at hc
    rcases hc with rfl | rfl
    · exact h1
    · exact h2

include hN

theorem shift_dPressure (v : Fin N.nodes) (state : Vec) :
    ∀ x ∈ N.ends v, Gas.dPressure state (shift N f fun _ => 0) x = 0 := by
  intro x hx
  obtain ⟨k, e, he, hcase⟩ := hN.mem_ends.mp hx
  obtain ⟨kind, n, hk, rfl⟩ := Admissible.gasEdge_eq.mp he
  have hlen := Admissible.edgeRange_length (N := N) (k := k)
  have hneed := (hN.gas_need hk).1
  have heven : edgeNeed (N.edge k) % 2 = 0 := by
    rw [hk]; cases kind <;> simp [edgeNeed]
  have hz : shift N f (fun _ => 0) (Gas.stateIndex x) = 0 := by
    rcases hcase with ⟨_, rfl⟩ | ⟨_, rfl⟩
    · show shift N f (fun _ => 0) (N.edgeRange k).1 = 0
      rw [shift_edge hf (k := k) (i := (N.edgeRange k).1) ⟨le_rfl, by show (N.edgeRange k).1 < (N.edgeRange k).2; omega⟩, if_neg (by omega), add_zero]
    · show shift N f (fun _ => 0) ((N.edgeRange k).2 - 2) = 0
      rw [shift_edge hf (k := k) ⟨by show (N.edgeRange k).1 ≤ (N.edgeRange k).2 - 2; omega, by show (N.edgeRange k).2 - 2 < (N.edgeRange k).2; omega⟩,
        if_neg (by omega), add_zero]
  unfold Gas.dPressure
  split <;> simp [hz]

theorem shift_flowNode {v : Fin N.nodes} (hv : (N.node v).kind.isGas) (hp : (N.node v).kind ≠ .pressure)
    (hn : ∀ w, (N.node w).kind ≠ .pressure → netOut N f w = 0) (state : Vec) {cs : List (Contribution ℝ)}
    (h : Gas.flowDerivative (N.ends v) state = Res.ok cs) (r : ℤ) : applyRow cs r (shift N f fun _ => 0) = 0 := by
  have hz := shift_dPressure hN hf v state
  have hsum := ends_sum hN v (shift N f fun _ => 0)
  have hout : N.outflow v (shift N f fun _ => 0) = 0 := by
    rw [shift_outflow hN hf, hn v hp, add_zero]
    unfold Net.outflow Net.startFlow Net.endFlow
    simp
  rw [hout] at hsum
  have hu := hN.ends_usable hv
  have hid := hN.ends_ids v
  revert h hz hsum hu hid
  cases N.ends v with
  | nil =>
    intro h _ _ _ _
    injection h with h
    subst h
    rfl
  | cons x rest =>
    intro h hz hsum hu hid
    obtain ⟨cs', h', spec⟩ := Gas.flowDerivative_spec x rest state hu hid
    rw [h] at h'
    injection h' with h'
    subst h'
    rw [spec ℝ r, hz x (by simp), pressures_none (fun y hy => hz y (by simp [hy])), zero_add]
    split
    · exact hsum
    · rfl

theorem shift_node_row {v : Fin N.nodes} (hn : ∀ w, (N.node w).kind ≠ .pressure → netOut N f w = 0) (a : Args) {cs : List (Contribution ℝ)}
    (h : N.nodeNew v a = Res.ok cs) (r : ℤ) : applyRow cs r (shift N f fun _ => 0) = 0 := by
  unfold Net.nodeNew at h
  cases hk : (N.node v).kind with
  | innode =>
    rw [hk] at h
    exact shift_flowNode hN hf (by rw [hk]; rfl) (by rw [hk]; simp) hn a.new h r
  | flow =>
    rw [hk] at h
    simp only at h
    split at h
    · injection h with h
      subst h
      rfl
    · exact shift_flowNode hN hf (by rw [hk]; rfl) (by rw [hk]; simp) hn a.new h r
  | pressure =>
    rw [hk] at h
    simp only at h
    split at h
    · injection h with h
      subst h
      rfl
    · have hv : (N.node v).kind.isGas := by rw [hk]; rfl
      refine applyRow_forEach h fun x hx c hc => ?_
      obtain ⟨c', hc', spec⟩ := Gas.dBoundaryPQ_ok (hN.ends_usable hv x hx) (1, 0) (Gas.boundaryEquation x.2 x.1) a.new
      rw [hc] at hc'
      injection hc' with hc'
      subst hc'
      rw [spec ℝ r, shift_dPressure hN hf v a.new x hx]
      simp
  | power k =>
    rw [hk] at h
    obtain ⟨b, hb, h⟩ := Res.bind_eq_ok.mp h
    injection h with h
    subst h
    exact shift_busNew hf (by rw [hk]; rfl) hb k a.new r
  | plant =>
    rw [hk] at h
    obtain ⟨b, hb, h⟩ := Res.bind_eq_ok.mp h
    injection h with h
    subst h
    exact shift_busNew hf (by rw [hk]; rfl) hb _ a.new r

theorem shift_edge_row {k : Fin N.edges} (t0 t1 : ℝ) (a : Args) {cs : List (Contribution ℝ)} (h : N.edgeNew k t0 t1 a = Res.ok cs) (r : ℤ) :
    applyRow cs r (shift N f fun _ => 0) = 0 := by
  unfold Net.edgeNew at h
  cases hk : N.edge k with
  | line G B =>
    have : N.gasEdge k = none := by unfold Net.gasEdge; rw [hk]
    rw [this] at h
    injection h with h
    subst h
    rfl
  | gas kind n =>
    rw [Admissible.gasEdge_eq.mpr ⟨kind, n, hk, rfl⟩] at h
    simp only at h
    have hlen := Admissible.edgeRange_length (N := N) (k := k)
    have inr : ∀ i, (N.edgeRange k).1 ≤ i → i < (N.edgeRange k).2 → N.InRange (.inr k) i := fun i h1 h2 => ⟨h1, h2⟩
    rw [hk] at hlen
    have none : ¬ kind.isShort → ∀ i, (N.edgeRange k).1 ≤ i → i < (N.edgeRange k).2 → shift N f (fun _ => 0) i = 0 := by
      intro hs i h1 h2
      rw [shift_edge hf (inr i h1 h2), hf k]
      · simp
      · rintro ⟨kind', m, hk', hs'⟩
        rw [hk] at hk'
        injection hk' with hk' _
        subst hk'
        exact hs hs'
    have short : edgeNeed (.gas kind n) = 4 → (shift N f (fun _ => 0) (N.edgeRange k).1 = 0 ∧ shift N f (fun _ => 0) ((N.edgeRange k).2 - 2) = 0) ∧
        shift N f (fun _ => 0) ((N.edgeRange k).1 + 1) = f k ∧ shift N f (fun _ => 0) ((N.edgeRange k).2 - 2 + 1) = f k := by
      intro h4
      rw [h4] at hlen
      push_cast at hlen
      rw [shift_edge hf (inr _ le_rfl (by omega)), shift_edge hf (inr ((N.edgeRange k).2 - 2) (by omega) (by omega)),
        shift_edge hf (inr ((N.edgeRange k).1 + 1) (by omega) (by omega)), shift_edge hf (inr ((N.edgeRange k).2 - 2 + 1) (by omega) (by omega)),
        if_neg (by omega), if_neg (by omega), if_pos (Or.inl rfl), if_pos (Or.inr (by ring))]
      simp
    have shortRow : ∀ (row : ℤ) (s : ℝ), edgeNeed (.gas kind n) = 4 →
        applyRow [(row, (N.edgeRange k).1, s), (row, (N.edgeRange k).2 - 2, -s), (row + 1, (N.edgeRange k).1 + 1, s),
          (row + 1, (N.edgeRange k).2 - 2 + 1, -s)] r (shift N f fun _ => 0) = 0 := by
      intro row s h4
      obtain ⟨⟨s1, s2⟩, s3, s4⟩ := short h4
      simp only [applyRow_cons, applyRow_nil, s1, s2, s3, s4, smul_eq_mul, mul_zero, ite_self, zero_add, add_zero]
      split <;> ring
    cases kind with
    | pipe dx d rr =>
      have hn2 := hN.points k dx d rr n hk
      simp only [edgeNeed] at hlen
      push_cast at hlen
      refine applyRow_forEach h fun i hi c hc => ?_
      obtain ⟨l, -, hc⟩ := Res.bind_eq_ok.mp hc
      obtain ⟨r', -, hc⟩ := Res.bind_eq_ok.mp hc
      injection hc with hc
      subst hc
      rw [Gas.cells_eq (n := n) (by unfold Gas.HasPoints; simpa using hlen)] at hi
      obtain ⟨j, hj, rfl⟩ := List.mem_map.mp hi
      rw [List.mem_range] at hj
      have z := none (fun h => h)
      refine applyRow_columns (fun c hc => ?_) r
      simp only [Gas.cellEntries, List.mem_cons, List.not_mem_nil, or_false] at hc
      rcases hc with rfl | rfl | rfl | rfl | rfl | rfl | rfl | rfl <;> exact z _ (by simp only; omega) (by simp only; omega)
    | gaspower g p =>
      simp only at h
      simp only [edgeNeed] at hlen
      push_cast at hlen
      split at h
      · rename_i hpl
        obtain ⟨b, hb, h⟩ := Res.bind_eq_ok.mp h
        obtain ⟨x, -, h⟩ := Res.bind_eq_ok.mp h
        injection h with h
        subst h
        have z := none (fun h => h)
        refine applyRow_columns (fun c hc => ?_) r
        simp only [List.cons_append, List.mem_cons, List.mem_append, List.not_mem_nil, or_false] at hc
        rcases hc with rfl | hc | rfl
        · exact z _ (by simp only; omega) (by simp only; omega)
        · exact (shift_dActive hf (isPlant_power hpl) hb _ a.new).1 c hc
        · exact z _ le_rfl (by simp only; omega)
      · cases h
    | shortpipe =>
      have h4 : (N.edgeRange k).2 - (N.edgeRange k).1 ≠ 2 := by simp only [edgeNeed] at hlen; push_cast at hlen; omega
      simp only [Gas.edgeNew, Gas.boundaryState, if_neg h4, Res.ok_bind] at h
      injection h with h
      subst h
      exact shortRow _ 1 rfl
    | controlvalve =>
      have h4 : (N.edgeRange k).2 - (N.edgeRange k).1 ≠ 2 := by simp only [edgeNeed] at hlen; push_cast at hlen; omega
      simp only [Gas.edgeNew, Gas.boundaryState, if_neg h4, Res.ok_bind] at h
      injection h with h
      subst h
      simpa using shortRow (Gas.equationStart ⟨k.val, .controlvalve, (N.edgeRange k).1, (N.edgeRange k).2, (N.controlRange k).1⟩) (-1) rfl
    | compressor =>
      have h4 : (N.edgeRange k).2 - (N.edgeRange k).1 ≠ 2 := by simp only [edgeNeed] at hlen; push_cast at hlen; omega
      simp only [Gas.edgeNew, Gas.boundaryState, if_neg h4, Res.ok_bind] at h
      injection h with h
      subst h
      simpa using shortRow (Gas.equationStart ⟨k.val, .compressor, (N.edgeRange k).1, (N.edgeRange k).2, (N.controlRange k).1⟩) (-1) rfl

/-- The direction of a flow in circles is in the kernel of the matrix. -/
theorem shift_row (hn : ∀ w, (N.node w).kind ≠ .pressure → netOut N f w = 0) {t0 t1 : ℝ} {a : Args} {cs : List (Contribution ℝ)}
    (h : N.dNew t0 t1 a = Res.ok cs) (r : ℤ) : applyRow cs r (shift N f fun _ => 0) = 0 := by
  obtain ⟨x, hx, h⟩ := Res.bind_eq_ok.mp h
  obtain ⟨y, hy, h⟩ := Res.bind_eq_ok.mp h
  obtain ⟨z, hz, h⟩ := Res.bind_eq_ok.mp h
  injection h with h
  subst h
  rw [applyRow_append, applyRow_append, applyRow_forEach hx fun v _ c hc => shift_node_row hN hf hn a hc r,
    applyRow_forEach hy fun k _ c hc => shift_edge_row hN hf t0 t1 a hc r, applyRow_forEach hz fun k _ c hc => shift_edge_row hN hf t0 t1 a hc r]
  simp

omit hN in
/-- Outside of the vector nothing is added. -/
theorem shift_outside (state : Vec) {i : ℤ} (hi : ¬ (0 ≤ i ∧ i < N.states)) : shift N f state i = state i := by
  unfold shift
  rw [Finset.sum_eq_zero, add_zero]
  intro l _
  split
  · rename_i h
    by_contra hne
    have hs : ShortEdge N l := by
      by_contra hs; exact hne (hf l hs)
    exact hi (short_inRange hs h).bounds
  · rfl

omit hN in
theorem shift_ext (y : Fin N.stateCount → ℝ) : ext (fun i : Fin N.stateCount => shift N f (ext y) i.val) = shift N f (ext y) := by
  funext i
  unfold Net.stateCount
  by_cases hi : 0 ≤ i ∧ i < N.states
  · have h : 0 ≤ i ∧ i.toNat < N.states.toNat := ⟨hi.1, by omega⟩
    unfold ext
    rw [dif_pos h]
    simp only [Int.toNat_of_nonneg hi.1]
  · have h : ¬ (0 ≤ i ∧ i.toNat < N.states.toNat) := fun h => hi ⟨h.1, by omega⟩
    rw [shift_outside hf _ hi]
    unfold ext
    rw [dif_neg h, dif_neg h]

end

/-! ## C177 -/

/-- **C177.** In a network with a circle of short pipes, compressors and control valves alone, or with a way of these between two pressure nodes, there is one of these edges in which
the equations of no time step determine the flow: if a time step has a solution, it has one with any given flow in this edge and with the same pressures everywhere. -/
theorem C177 (N : Net) (hN : Admissible N) (hc : ¬ NoShortCircles N) : ∃ k, ShortEdge N k ∧ ∀ t0 t1 a, Laws N t0 t1 a → ∀ q : ℝ,
    ∃ new, Laws N t0 t1 ⟨a.last, new, a.control⟩ ∧ N.startFlow k new = q ∧
      ∀ l, (N.edge l).isGas → N.startPressure l new = N.startPressure l a.new ∧ N.endPressure l new = N.endPressure l a.new := by
  obtain ⟨k, hk, f, fk, fs, fn⟩ := circle_flow hc
  refine ⟨k, hk, fun t0 t1 a la q => ?_⟩
  have hg : ∀ e, ¬ ShortEdge N e → (fun e => (q - N.startFlow k a.new) * f e) e = 0 := fun e he => by simp [fs e he]
  refine ⟨shift N (fun e => (q - N.startFlow k a.new) * f e) a.new, shift_laws hN hg la (fun w hw => ?_) (Or.inl rfl), ?_, fun l hl => ?_⟩
  · rw [netOut_mul, fn w hw, mul_zero]
  · obtain ⟨kind, n, he, -⟩ := hk
    rw [(shift_pressure hN hg (k := k) (by rw [he]; rfl) a.new).2.2.1, fk]
    ring
  · exact ⟨(shift_pressure hN hg hl a.new).1, (shift_pressure hN hg hl a.new).2.1⟩

/-- **C177** for what the program solves: a time step that has a solution has one for every flow in the edge. -/
theorem C177_residual (N : Net) (hN : Admissible N) (hc : ¬ NoShortCircles N) : ∃ k, ShortEdge N k ∧ ∀ t0 t1, Computable N t1 → ∀ z : N.Point,
    N.residual t0 t1 z = Res.ok 0 → ∀ q : ℝ, ∃ y, N.residual t0 t1 (z.1, y, z.2.2) = Res.ok 0 ∧ N.startFlow k (ext y) = q := by
  obtain ⟨k, hk, f, fk, fs, fn⟩ := circle_flow hc
  refine ⟨k, hk, fun t0 t1 hcomp z hz q => ?_⟩
  have hg : ∀ e, ¬ ShortEdge N e → (fun e => (q - N.startFlow k (ext z.2.1)) * f e) e = 0 := fun e he => by simp [fs e he]
  obtain ⟨r, hr, hl⟩ := C72_residual_iff_laws N hN t0 t1 hcomp z
  rw [hz] at hr
  injection hr with hr
  have la := shift_laws hN hg (hl.mp hr.symm) (fun w hw => by rw [netOut_mul, fn w hw, mul_zero]) (Or.inl rfl)
  refine ⟨fun i => shift N (fun e => (q - N.startFlow k (ext z.2.1)) * f e) (ext z.2.1) i.val, ?_, ?_⟩
  · obtain ⟨r', hr', hl'⟩ := C72_residual_iff_laws N hN t0 t1 hcomp
      (z.1, (fun i : Fin N.stateCount => shift N (fun e => (q - N.startFlow k (ext z.2.1)) * f e) (ext z.2.1) i.val), z.2.2)
    rw [hr', hl'.mpr]
    unfold Net.args
    simp only [shift_ext hg]
    exact la
  · rw [shift_ext hg]
    obtain ⟨kind, n, he, -⟩ := hk
    rw [(shift_pressure hN hg (k := k) (by rw [he]; rfl) _).2.2.1, fk]
    ring

/-- **C177** for the solver: in such a network the matrix of the linear systems of Newton's method is singular, at every time and in every state. -/
theorem C177_singular (N : Net) (hN : Admissible N) (hc : ¬ NoShortCircles N) (t0 t1 : ℝ) (a : Args) (cs : List (Contribution ℝ)) (h : N.dNew t0 t1 a = Res.ok cs) :
    (matrixOf N.stateCount N.stateCount cs).det = 0 := by
  obtain ⟨k, hk, f, fk, fs, fn⟩ := circle_flow hc
  have hext : ext (fun _ : Fin N.stateCount => (0 : ℝ)) = fun _ => 0 := by
    funext i; unfold ext; split <;> rfl
  have he := shift_ext (N := N) fs fun _ => 0
  rw [hext] at he
  refine Matrix.exists_mulVec_eq_zero_iff.mp ⟨fun i => shift N f (fun _ => 0) i.val, ?_, ?_⟩
  · intro h0
    rw [h0] at he
    have h1 := congrFun he ((N.edgeRange k).1 + 1)
    have hk' := hk
    obtain ⟨kind, n, hk', -⟩ := hk'
    have := (shift_pressure hN fs (k := k) (by rw [hk']; rfl) fun _ => 0).2.2.1
    unfold Net.startFlow at this
    rw [← h1, fk] at this
    have hz : ext (0 : Fin N.stateCount → ℝ) = fun _ => 0 := hext
    rw [hz] at this
    norm_num at this
  · funext i
    rw [← applyRow_ext cs (fun c hcs => by
      have := ((C70_inside N hN).1 t0 t1 a cs h c hcs).2
      unfold Net.stateCount
      omega) i, he]
    exact shift_row hN fs fn h _

/-- **C175** and **C177**: if there is a stationary state as in C175, it is the only one if and only if there are no circles of short edges. -/
theorem C177_unique_iff (N : Net) (hN : Admissible N) (hplants : NoPlants N) (hway : ∀ k, (N.edge k).isGas → Supplied N (N.src k))
    {t0 t1 : ℝ} (ht : t0 < t1) (hcomp : Computable N t1) (hreal : RealPipes N) (a : Args) (sa : a.last = a.new) (la : Laws N t0 t1 a) (ha : SlowCells N a.new) :
    (∀ b : Args, b.last = b.new → Laws N t0 t1 b → b.control = a.control → SlowCells N b.new →
      ∀ k, (N.edge k).isGas → ∀ i, (N.edgeRange k).1 ≤ i → i < (N.edgeRange k).2 → b.new i = a.new i) ↔ NoShortCircles N := by
  constructor
  · intro h
    by_contra hc
    obtain ⟨k, hk, f, fk, fs, fn⟩ := circle_flow hc
    have hg : (N.edge k).isGas := by
      obtain ⟨kind, n, he, -⟩ := hk
      rw [he]; rfl
    have hr := short_inRange hk (Or.inl rfl)
    have := h ⟨shift N f a.last, shift N f a.new, a.control⟩ (by rw [sa]) (shift_laws hN fs la fn (Or.inr rfl)) rfl
      (fun l dx d r n he j hj => by
        show 0 < (Net.segment (shift N f a.new) _).1 ∧ Box.Slow d r dx (Net.segment (shift N f a.new) _)
        rw [shift_segment fs he a.new hj]
        exact ha l dx d r n he j hj) k hg _ hr.1 hr.2
    have h1 := (shift_pressure hN fs hg a.new).2.2.1
    unfold Net.startFlow at h1
    rw [show shift N f a.new ((N.edgeRange k).1 + 1) = a.new ((N.edgeRange k).1 + 1) from this, fk] at h1
    linarith
  · intro hc b sb lb hcon hb
    exact C175 N hN hplants hc hway ht hcomp hreal b a sb sa lb la hcon hb ha

/-! ## Example -/

theorem loop_circle : ¬ NoShortCircles loopNet := fun h =>
  h (0 : Fin 2) ⟨.shortpipe, 0, rfl, trivial⟩ (ReflTransGen.single (Or.inl ⟨(1 : Fin 2), (show (1 : Fin 2) ≠ 0 by decide), ⟨.shortpipe, 0, rfl, trivial⟩, Or.inr ⟨rfl, rfl⟩⟩))

/-- Two short pipes side by side meet the hypotheses of `C177`; the time step has a solution. -/
example : Admissible loopNet ∧ ¬ NoShortCircles loopNet ∧ Laws loopNet 0 60 ⟨loopState 3, loopState 3, fun _ => 0⟩ :=
  ⟨loop_admissible, loop_circle, loop_laws 0 60 3 _⟩

/-- The matrix is computed for this network. -/
example : ∃ cs, loopNet.dNew 0 60 ⟨loopState 3, loopState 3, fun _ => 0⟩ = Res.ok cs ∧ cs ≠ [] ∧ (matrixOf loopNet.stateCount loopNet.stateCount cs).det = 0 := by
  have hr : Regular loopNet 60 (loopState 3) := ⟨fun v _ => ⟨_, rfl⟩, fun k dx d r n h => by injection h with h; cases h⟩
  obtain ⟨-, cs, -, -, h2, -⟩ := loop_admissible.network_exact 0 (a₀ := ⟨loopState 3, loopState 3, fun _ => 0⟩) hr
  refine ⟨cs, h2, ?_, C177_singular loopNet loop_admissible loop_circle 0 60 _ cs h2⟩
  rintro rfl
  have : (loopNet.dNew 0 60 ⟨loopState 3, loopState 3, fun _ => 0⟩ = Res.ok []) → False := by
    intro h
    obtain ⟨x, hx, h⟩ := Res.bind_eq_ok.mp h
    obtain ⟨y, hy, h⟩ := Res.bind_eq_ok.mp h
    obtain ⟨z, hz, h⟩ := Res.bind_eq_ok.mp h
    injection h with h
    have hy0 : y = [] := by
      simp only [List.append_eq_nil_iff] at h
      exact h.1.2
    subst hy0
    obtain ⟨g, hg, he⟩ := forEach_eq_ok hy
    have hmem : (0 : Fin 2) ∈ loopNet.equationEdges := by
      unfold Net.equationEdges
      exact List.mem_filter.mpr ⟨List.mem_finRange _, rfl⟩
    have h0 := hg _ hmem
    have hne : g (0 : Fin 2) = [] := by
      have := List.flatMap_eq_nil_iff.mp he.symm
      exact this _ hmem
    rw [hne] at h0
    injection h0 with h0
    cases h0
  exact this h2

end Verif.Network
