import Verif.Gas.Ends

/-! # Properties C35 and C36: equations of the gas nodes -/

set_option autoImplicit false

namespace Verif.Gas

open Verif.Net Verif.Euler Verif.Handler Filter Topology

/-! ## C35 -/

theorem pressures_zero_iff {p : End → ℝ} :
    ∀ {rest : List End} {oldRow : ℤ} {oldP : ℝ}, (oldRow :: rest.map rowOf).Nodup →
      ((∀ r ∈ oldRow :: rest.map rowOf, pressures rowOf p oldRow oldP rest r = 0) ↔ ∀ x ∈ rest, p x = oldP)
  | [], _, _, _ => by simp [pressures]
  | x :: rest, oldRow, oldP, hn => by
    have hn' := List.nodup_cons.mp hn
    have ih := pressures_zero_iff (p := p) (oldRow := rowOf x) (oldP := p x) hn'.2
    have h0 : pressures rowOf p (rowOf x) (p x) rest oldRow = 0 := by
      refine pressures_eq_zero (fun e => hn'.1 (by simp [e])) ?_
      intro z hz e
      exact hn'.1 (List.mem_cons_of_mem _ (e ▸ List.mem_map_of_mem hz))
    constructor
    · intro h
      have h1 := h oldRow (by simp)
      simp only [pressures, if_true, h0, add_zero] at h1
      have h2 : ∀ r ∈ rowOf x :: rest.map rowOf, pressures rowOf p (rowOf x) (p x) rest r = 0 := by
        intro r hr
        have h3 := h r (List.mem_cons_of_mem _ hr)
        have : oldRow ≠ r := fun e => hn'.1 (e ▸ hr)
        simpa [pressures, this] using h3
      intro z hz
      rcases List.mem_cons.mp hz with rfl | hz
      · linarith
      · rw [ih.mp h2 z hz]; linarith
    · intro h r hr
      have hx := h x (by simp)
      have h2 := ih.mpr fun z hz => by rw [h z (by simp [hz]), hx]
      rcases List.mem_cons.mp hr with rfl | hr
      · simp only [pressures, if_true]; rw [h0, hx]; ring
      · have : oldRow ≠ r := fun e => hn'.1 (e ▸ hr)
        simp only [pressures, if_neg this, zero_add]
        exact h2 r hr

/-- C35. Consider a flow node with the attached ends `ends` (of any number and any types, at least one), each with
its own row. Its residual is computed, it changes no other rows, and the rows of the attached ends all vanish if
and only if the pressures at all these ends are equal and the flows out of the node (positive at the
start of an edge, negative at the end) sum up to the prescribed flow. The values in the residual vector
before do not matter. -/
theorem C35_flow_node (ends : List End) (hne : ends ≠ []) (state : Vec) (prescribed : ℝ)
    (hu : ∀ x ∈ ends, Usable x) (hn : (ends.map rowOf).Nodup) :
    ∃ ops, flowBalance ends state prescribed = Res.ok ops ∧
      ∀ v : Vec,
        ((∀ x ∈ ends, run v ops (rowOf x) = 0) ↔
          (∀ x ∈ ends, ∀ y ∈ ends, pressureAt state x = pressureAt state y) ∧
            (ends.map fun x => x.1.sign * flowAt state x).sum = prescribed) ∧
        ∀ r, (∀ x ∈ ends, rowOf x ≠ r) → run v ops r = v r := by
  obtain ⟨x, rest, rfl⟩ := List.exists_cons_of_ne_nil hne
  obtain ⟨ops, ho, hrows, hrun⟩ := flowBalance_spec x rest state prescribed hu hn
  refine ⟨ops, ho, fun v => ⟨?_, ?_⟩⟩
  · have hlast : rowOf ((x :: rest).getLast (by simp)) = (rowOf x :: rest.map rowOf).getLast (by simp) :=
      mapLast x rest
    have hL0 := pressures_last (p := pressureAt state) (oldP := pressureAt state x) (row := rowOf) hn
    have key := pressures_zero_iff (p := pressureAt state) (oldP := pressureAt state x) (oldRow := rowOf x)
      (rest := rest) hn
    constructor
    · intro h
      have hz : ∀ r ∈ rowOf x :: rest.map rowOf,
          pressures rowOf (pressureAt state) (rowOf x) (pressureAt state x) rest r = 0 := by
        intro r hr
        by_cases hrL : r = rowOf ((x :: rest).getLast (by simp))
        · rw [hrL, hlast]; exact hL0
        · have hr' : r ∈ (x :: rest).map rowOf := hr
          obtain ⟨z, hz, rfl⟩ := List.mem_map.mp hr'
          have := h z hz
          rwa [hrun, if_neg hrL, if_pos hr'] at this
      have hp := key.mp hz
      have hall : ∀ z ∈ x :: rest, pressureAt state z = pressureAt state x := by
        intro z hz
        rcases List.mem_cons.mp hz with rfl | hz
        · rfl
        · exact hp z hz
      refine ⟨fun a ha b hb => by rw [hall a ha, hall b hb], ?_⟩
      have := h _ (List.getLast_mem (by simp : x :: rest ≠ []))
      rw [hrun, if_pos rfl] at this
      linarith
    · rintro ⟨hp, hq⟩ z hz
      rw [hrun]
      by_cases hzL : rowOf z = rowOf ((x :: rest).getLast (by simp))
      · rw [if_pos hzL, hq]; ring
      · rw [if_neg hzL, if_pos (List.mem_map_of_mem hz)]
        exact key.mpr (fun a ha => hp a (by simp [ha]) x (by simp)) _ (List.mem_map_of_mem hz)
  · intro r hr
    exact run_of_not_mem (fun o ho e => by
      obtain ⟨z, hz, hzr⟩ := List.mem_map.mp (hrows o ho)
      exact hr z hz (hzr.trans e)) v

/-- C35. Consider a pressure node: its residual vanishes if and only if all attached ends have the prescribed
pressure. -/
theorem C35_pressure_node (ends : List End) (state : Vec) (prescribed : ℝ)
    (hu : ∀ x ∈ ends, Usable x) (hn : (ends.map rowOf).Nodup) :
    ∃ ops, pressureBalance ends state prescribed = Res.ok ops ∧
      ∀ v : Vec,
        (∀ x ∈ ends, run v ops (rowOf x) = pressureAt state x - prescribed) ∧
        ((∀ x ∈ ends, run v ops (rowOf x) = 0) ↔ ∀ x ∈ ends, pressureAt state x = prescribed) ∧
        ∀ r, (∀ x ∈ ends, rowOf x ≠ r) → run v ops r = v r := by
  refine ⟨ends.flatMap fun x => [.set (rowOf x) (pressureAt state x - prescribed)], ?_, fun v => ?_⟩
  · unfold pressureBalance
    exact forEach_ok fun x hx => by rw [boundaryPQ_ok (hu x hx)]; rfl
  · have hval : ∀ (l : List End) (v : Vec), (l.map rowOf).Nodup → ∀ x ∈ l,
        run v (l.flatMap fun x => [.set (rowOf x) (pressureAt state x - prescribed)]) (rowOf x) =
          pressureAt state x - prescribed := by
      intro l
      induction l with
      | nil => intro v _ x hx; simp at hx
      | cons z l ih =>
        intro v hn x hx
        have hn' := List.nodup_cons.mp hn
        rw [List.flatMap_cons, run_append]
        rcases List.mem_cons.mp hx with rfl | hx
        · rw [run_of_not_mem]
          · simp [run_cons, Op.apply]
          · intro o ho e
            obtain ⟨w, hw, ho⟩ := List.mem_flatMap.mp ho
            simp only [List.mem_singleton] at ho
            subst ho
            have hw' : rowOf w ∈ l.map rowOf := List.mem_map_of_mem hw
            simp only [Op.row] at e
            exact hn'.1 (e ▸ hw')
        · exact ih _ hn'.2 x hx
    have hv := hval ends v hn
    refine ⟨hv, ⟨fun h x hx => ?_, fun h x hx => ?_⟩, fun r hr => ?_⟩
    · have h1 := h x hx; rw [hv x hx] at h1; linarith
    · rw [hv x hx, h x hx, sub_self]
    · refine run_of_not_mem (fun o ho e => ?_) v
      obtain ⟨w, hw, ho⟩ := List.mem_flatMap.mp ho
      simp only [List.mem_singleton] at ho
      subst ho
      exact hr w hw e

/-! ## C36 -/

section
variable {E : Type} [NormedAddCommGroup E] [NormedSpace ℝ E] {y : E}

theorem pressures_hasFDerivAt {p : E → End → ℝ} {p' : End → E →L[ℝ] ℝ} (r : ℤ) :
    ∀ (rest : List End) (oldRow : ℤ) (oldP : E → ℝ) (oldP' : E →L[ℝ] ℝ),
      HasFDerivAt oldP oldP' y → (∀ x ∈ rest, HasFDerivAt (fun z => p z x) (p' x) y) →
      HasFDerivAt (fun z => pressures rowOf (p z) oldRow (oldP z) rest r)
        (pressures rowOf p' oldRow oldP' rest r) y
  | [], _, _, _, _, _ => by simpa [pressures] using hasFDerivAt_const (0 : ℝ) y
  | x :: rest, oldRow, oldP, oldP', ho, h => by
    have hx := h x (by simp)
    have ih := pressures_hasFDerivAt r rest (rowOf x) (fun z => p z x) (p' x) hx
      fun z hz => h z (by simp [hz])
    simp only [pressures]
    by_cases hr : oldRow = r
    · simp only [if_pos hr]; exact (hx.sub ho).add ih
    · simp only [if_neg hr, zero_add]; exact ih

theorem flows_hasFDerivAt {q : E → End → ℝ} {q' : End → E →L[ℝ] ℝ} (l : List End)
    (h : ∀ x ∈ l, HasFDerivAt (fun z => q z x) (q' x) y) :
    HasFDerivAt (fun z => (l.map fun x => x.1.sign * q z x).sum)
      ((l.map fun x => x.1.sign • q' x).sum) y := by
  induction l with
  | nil => simpa using hasFDerivAt_const (0 : ℝ) y
  | cons x l ih =>
    simp only [List.map_cons, List.sum_cons]
    exact ((h x (by simp)).const_mul x.1.sign).add (ih fun z hz => h z (by simp [hz]))
end

/-- C36. Consider a flow node with any number of attached ends of any types, each with its own row, no edge
attached twice, and positive densities (or otherwise defined pressures) at ends of pipes. Then the
derivative entries of the node are computed, and they are exactly the derivative of its residual with respect
to all states. -/
theorem C36_flow_node (ends : List End) (prescribed : ℝ) (a₀ : Args)
    (hu : ∀ x ∈ ends, Usable x) (hn : (ends.map rowOf).Nodup) (hid : (ends.map fun x => x.2.id).Nodup)
    (hd : ∀ x ∈ ends, Defined a₀.new x) :
    ∃ cs, flowDerivative ends a₀.new = Res.ok cs ∧
      Exact (fun a => flowBalance ends a.new prescribed) ⟨[], cs, []⟩ {r | ∃ x ∈ ends, r = rowOf x} a₀ := by
  cases ends with
  | nil => exact ⟨[], rfl, (exact_nil a₀).mono (by simp)⟩
  | cons x rest =>
    obtain ⟨cs, hcs, happ⟩ := flowDerivative_spec x rest a₀.new hu hid
    refine ⟨cs, hcs, ?_, ?_⟩
    · intro a ops ho o hm
      obtain ⟨ops', ho', hrows, -⟩ := flowBalance_spec x rest a.new prescribed hu hn
      rw [ho'] at ho
      injection ho with ho
      subst ho
      obtain ⟨z, hz, e⟩ := List.mem_map.mp (hrows o hm)
      exact ⟨z, hz, e.symm⟩
    · intro E _ _ a l' n' c' y hy hs v r
      simp only [applyRow_nil, zero_add, add_zero]
      rw [happ]
      have hfun : ∀ z, (do let ops ← flowBalance (x :: rest) (a z).new prescribed; Res.ok (run v ops r)) =
          Res.ok (if r = rowOf ((x :: rest).getLast (by simp)) then
            -prescribed + ((x :: rest).map fun w => w.1.sign * flowAt (a z).new w).sum
          else if r ∈ (x :: rest).map rowOf then
            pressures rowOf (pressureAt (a z).new) (rowOf x) (pressureAt (a z).new x) rest r
          else v r) := by
        intro z
        obtain ⟨ops, ho, -, hrun⟩ := flowBalance_spec x rest (a z).new prescribed hu hn
        rw [ho]
        exact congrArg _ (hrun v r)
      refine Derives.of_eq hfun ?_
      have hp : ∀ w ∈ x :: rest, HasFDerivAt (fun z => pressureAt (a z).new w) (dPressure a₀.new n' w) y := by
        intro w hw
        have := pressureAt_hasFDerivAt (s := fun z => (a z).new) hs.new (x := w) (by rw [hy]; exact hd w hw)
        simpa only [hy] using this
      by_cases hr : r = rowOf ((x :: rest).getLast (by simp))
      · simp only [if_pos hr, if_pos hr.symm]
        have h0 : pressures rowOf (dPressure a₀.new n') (rowOf x) (dPressure a₀.new n' x) rest r = 0 := by
          rw [hr, mapLast (row := rowOf) x rest]; exact pressures_last hn
        rw [h0, zero_add]
        exact (flows_hasFDerivAt (x :: rest) fun w _ =>
          flowAt_hasFDerivAt (s := fun z => (a z).new) hs.new w).const_add _
      · have hr' : rowOf ((x :: rest).getLast (by simp)) ≠ r := fun e => hr e.symm
        simp only [if_neg hr, if_neg hr', add_zero]
        by_cases hm : r ∈ (x :: rest).map rowOf
        · simp only [if_pos hm]
          exact pressures_hasFDerivAt r rest (rowOf x) _ _ (hp x (by simp))
            fun w hw => hp w (by simp [hw])
        · simp only [if_neg hm]
          have h0 : pressures rowOf (dPressure a₀.new n') (rowOf x) (dPressure a₀.new n' x) rest r = 0 := by
            refine pressures_eq_zero (fun e => hm (by simp [e])) fun w hw e => hm ?_
            exact List.mem_cons_of_mem _ (e ▸ List.mem_map_of_mem hw)
          rw [h0]
          exact hasFDerivAt_const _ _

/-- C36 for pressure nodes. -/
theorem C36_pressure_node (ends : List End) (prescribed : ℝ) (a₀ : Args)
    (hu : ∀ x ∈ ends, Usable x) (hn : (ends.map rowOf).Nodup) (hd : ∀ x ∈ ends, Defined a₀.new x) :
    ∃ cs, pressureDerivative ends a₀.new = Res.ok cs ∧
      Exact (fun a => pressureBalance ends a.new prescribed) ⟨[], cs, []⟩ {r | ∃ x ∈ ends, r = rowOf x}
        a₀ := by
  have hcs : ∀ x ∈ ends, ∃ cs, dBoundaryPQ x.2 x.1 (1, 0) (rowOf x) a₀.new = Res.ok cs ∧
      ∀ (M : Type) [AddCommGroup M] [Module ℝ M] (r : ℤ) (v : ℤ → M), applyRow cs r v =
        if rowOf x = r then (1 : ℝ) • dPressure a₀.new v x + (0 : ℝ) • dFlow v x else 0 :=
    fun x hx => dBoundaryPQ_ok (hu x hx) (1, 0) (rowOf x) a₀.new
  classical
  choose! cs hok happ using hcs
  refine ⟨ends.flatMap cs, forEach_ok fun x hx => hok x hx, ?_⟩
  have hex : ∀ x ∈ ends, Exact (fun a => do
      let pq ← boundaryPQ x.2 x.1 a.new
      Res.ok [Op.set (boundaryEquation x.2 x.1) (pq.1 - prescribed)]) ⟨[], cs x, []⟩ {rowOf x} a₀ := by
    intro x hx
    constructor
    · intro a ops ho o hm
      rw [boundaryPQ_ok (hu x hx)] at ho
      injection ho with ho
      subst ho
      simp only [List.mem_singleton] at hm
      subst hm; rfl
    · intro E _ _ a l' n' c' y hy hs v r
      simp only [applyRow_nil, zero_add, add_zero]
      rw [happ x hx]
      have hp := pressureAt_hasFDerivAt (s := fun z => (a z).new) hs.new (x := x)
        (by rw [hy]; exact hd x hx)
      simp only [hy] at hp
      by_cases hr : rowOf x = r
      · refine Derives.of_eq (g := fun z => pressureAt (a z).new x - prescribed) ?_ ?_
        · intro z
          rw [boundaryPQ_ok (hu x hx)]
          simp only [Res.ok_bind, run_cons, run_nil, Op.apply]
          have : boundaryEquation x.2 x.1 = r := hr
          rw [this, Function.update_self]
        · simp only [if_pos hr, one_smul, zero_smul, add_zero]
          exact hp.sub_const _
      · refine Derives.of_eq (g := fun z => v r) ?_ ?_
        · intro z
          rw [boundaryPQ_ok (hu x hx)]
          simp only [Res.ok_bind, run_cons, run_nil, Op.apply]
          have : r ≠ boundaryEquation x.2 x.1 := fun e => hr e.symm
          rw [Function.update_of_ne this]
        · simp only [if_neg hr]
          exact hasFDerivAt_const _ _
  have hdis : ends.Pairwise fun x y => Disjoint ({rowOf x} : Set ℤ) {rowOf y} := by
    refine (List.pairwise_map.mp hn).imp fun {x y} h => ?_
    simpa using h
  have h := Exact.forEach hex hdis
  have e1 : (ends.flatMap fun _ : End => ([] : List (Contribution ℝ))) = [] := by simp
  simp only [e1] at h
  exact h.mono fun r hr => by
    obtain ⟨x, hx, hr⟩ := hr
    exact ⟨x, hx, hr⟩

/-! ## A concrete node -/

/-- A node where a pipe with two points and a compressor start and a short pipe ends. -/
def exampleEnds : List End :=
  [(.start, ⟨0, .pipe 100 1 0, 0, 4, 0⟩), (.start, ⟨1, .compressor, 8, 12, 0⟩), (.stop, ⟨2, .shortpipe, 4, 8, 0⟩)]

/-- It meets the hypotheses of C35 and C36 (in a state with all entries 40), its rows are 0, 8 and 7. -/
example : (∀ x ∈ exampleEnds, Usable x) ∧ exampleEnds.map rowOf = [0, 8, 7] ∧
    (exampleEnds.map rowOf).Nodup ∧ (exampleEnds.map fun x => x.2.id).Nodup ∧
    ∀ x ∈ exampleEnds, Defined (fun _ => 40) x := by
  refine ⟨?_, rfl, by decide, by decide, ?_⟩
  · intro x hx h
    simp only [exampleEnds, List.mem_cons, List.not_mem_nil, or_false] at hx
    rcases hx with rfl | rfl | rfl <;> simp at h ⊢
  · intro x hx dx d k _
    exact (C31_density_round_trip 40).2 (by norm_num)

/-- In this example with flows 3, 4 and 5 the balance is 3 + 4 - 5. -/
example : (exampleEnds.map fun x => x.1.sign * flowAt (fun j => if j = 1 then 3 else if j = 9 then 4 else 5) x).sum
    = 2 := by
  norm_num [exampleEnds, flowAt, stateIndex, Dir.sign]

end Verif.Gas
