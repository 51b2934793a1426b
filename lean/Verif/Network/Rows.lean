import Verif.Network.Ranges
import Verif.Net.Fills
import Verif.Gas.Edges
import Verif.Gas.Nodes
import Verif.Power.Props

/-! # Property C39: every row of the residual is written by exactly one component -/

set_option autoImplicit false

namespace Verif.Network

open Verif.Net Verif.Handler

namespace Admissible
variable {N : Net} (hN : Admissible N)
include hN

theorem inRange_first {k : Fin N.edges} {kind : Gas.Kind} {n : ℕ} (hk : N.edge k = .gas kind n) :
    N.InRange (.inr k) (N.edgeRange k).1 := by
  have h1 := edgeRange_length (k := k)
  have h2 := (hN.gas_need hk).1
  exact ⟨le_rfl, by show _ < (N.edgeRange k).2; omega⟩

theorem inRange_last {k : Fin N.edges} {kind : Gas.Kind} {n : ℕ} (hk : N.edge k = .gas kind n) :
    N.InRange (.inr k) ((N.edgeRange k).2 - 1) := by
  have h1 := edgeRange_length (k := k)
  have h2 := (hN.gas_need hk).1
  exact ⟨by show (N.edgeRange k).1 ≤ _; omega, by show _ < (N.edgeRange k).2; omega⟩

/-- The ends at a node have different rows. -/
theorem ends_rows (v : Fin N.nodes) : ((N.ends v).map Gas.rowOf).Nodup := by
  unfold Net.ends
  rw [List.map_append, List.map_filterMap, List.map_filterMap, List.nodup_append]
  have hmem : ∀ {k : Fin N.edges} {dir : Gas.Dir} {r : ℤ},
      r ∈ ((N.gasEdge k).map fun e => (dir, e)).map Gas.rowOf →
      ∃ kind n, N.edge k = .gas kind n ∧ N.InRange (.inr k) r ∧
        r = match dir with | .start => (N.edgeRange k).1 | .stop => (N.edgeRange k).2 - 1 := by
    intro k dir r h
    simp only [Option.map_map, Option.mem_def, Option.map_eq_some_iff, Function.comp] at h
    obtain ⟨e, he, rfl⟩ := h
    obtain ⟨kind, n, hk, rfl⟩ := gasEdge_eq.mp he
    refine ⟨kind, n, hk, ?_, ?_⟩
    · cases dir
      · exact hN.inRange_first hk
      · exact hN.inRange_last hk
    · cases dir <;> rfl
  refine ⟨(hN.starting v).1.filterMap ?_, (hN.ending v).1.filterMap ?_, ?_⟩
  · intro k k' r h h'
    obtain ⟨_, _, _, h1, _⟩ := hmem h
    obtain ⟨_, _, _, h2, _⟩ := hmem h'
    injection h1.unique h2
  · intro k k' r h h'
    obtain ⟨_, _, _, h1, _⟩ := hmem h
    obtain ⟨_, _, _, h2, _⟩ := hmem h'
    injection h1.unique h2
  · intro r hr r' hr' e
    subst e
    obtain ⟨k, -, h⟩ := List.mem_filterMap.mp hr
    obtain ⟨k', -, h'⟩ := List.mem_filterMap.mp hr'
    obtain ⟨kind, n, hk, h1, h2⟩ := hmem h
    obtain ⟨_, _, _, h1', h2'⟩ := hmem h'
    injection h1.unique h1' with e
    subst e
    have h3 := edgeRange_length (k := k)
    have h4 := (hN.gas_need hk).1
    simp only at h2 h2'
    omega

/-- The ends at a node belong to different edges. -/
theorem ends_ids (v : Fin N.nodes) : ((N.ends v).map fun x => x.2.id).Nodup := by
  unfold Net.ends
  rw [List.map_append, List.map_filterMap, List.map_filterMap, List.nodup_append]
  have hmem : ∀ {k : Fin N.edges} {dir : Gas.Dir} {i : ℕ},
      i ∈ ((N.gasEdge k).map fun e => (dir, e)).map (fun x : Gas.End => x.2.id) → i = k.val := by
    intro k dir r h
    simp only [Option.map_map, Option.mem_def, Option.map_eq_some_iff, Function.comp] at h
    obtain ⟨e, he, rfl⟩ := h
    obtain ⟨kind, n, hk, rfl⟩ := gasEdge_eq.mp he
    rfl
  refine ⟨(hN.starting v).1.filterMap ?_, (hN.ending v).1.filterMap ?_, ?_⟩
  · intro k k' r h h'
    exact Fin.ext ((hmem h).symm.trans (hmem h'))
  · intro k k' r h h'
    exact Fin.ext ((hmem h).symm.trans (hmem h'))
  · intro r hr r' hr' e
    subst e
    obtain ⟨k, hk, h⟩ := List.mem_filterMap.mp hr
    obtain ⟨k', hk', h'⟩ := List.mem_filterMap.mp hr'
    obtain rfl : k = k' := Fin.ext ((hmem h).symm.trans (hmem h'))
    exact hN.noLoop k ((((hN.starting v).2 k).mp hk).trans (((hN.ending v).2 k).mp hk').symm)

/-- All ends at a gas node can be used. -/
theorem ends_usable {v : Fin N.nodes} (hv : (N.node v).kind.isGas) : ∀ x ∈ N.ends v, Gas.Usable x := by
  intro x hx
  obtain ⟨k, e, he, ⟨h1, rfl⟩ | ⟨h1, rfl⟩⟩ := hN.mem_ends.mp hx
  · intro h; simp at h
  · intro _
    obtain ⟨kind, n, hk, rfl⟩ := gasEdge_eq.mp he
    have h2 := (hN.gas_need hk).2 fun g p => hN.not_gaspower hk (h1 ▸ hv) g p
    have h3 := edgeRange_length (k := k)
    show (N.edgeRange k).2 - (N.edgeRange k).1 ≠ 2
    omega

omit hN in
theorem flow_fills {ends : List Gas.End} {state : Vec} {prescribed : ℝ} {ops : List Op}
    (hu : ∀ x ∈ ends, Gas.Usable x) (hn : (ends.map Gas.rowOf).Nodup)
    (h : Gas.flowBalance ends state prescribed = Res.ok ops) :
    Fills ops {r | ∃ x ∈ ends, r = Gas.rowOf x} := by
  cases ends with
  | nil =>
    injection h with h; subst h
    exact Fills.nil.congr (by simp)
  | cons x rest =>
    obtain ⟨ops', ho, hrows, hrun⟩ := Gas.flowBalance_spec x rest state prescribed hu hn
    rw [ho] at h
    injection h with h
    subst h
    have hmem : ∀ r, r ∈ (x :: rest).map Gas.rowOf ↔ ∃ z ∈ x :: rest, r = Gas.rowOf z := by
      intro r; simp only [List.mem_map, eq_comm]
    refine ⟨fun o ho => (hmem _).mp (hrows o ho), fun r hr v w => ?_⟩
    rw [hrun, hrun, if_pos ((hmem r).mpr hr), if_pos ((hmem r).mpr hr)]

omit hN in
theorem pressure_fills {ends : List Gas.End} {state : Vec} {prescribed : ℝ} {ops : List Op}
    (h : Gas.pressureBalance ends state prescribed = Res.ok ops) :
    Fills ops {r | ∃ x ∈ ends, r = Gas.rowOf x} := by
  obtain ⟨g, hg, rfl⟩ := forEach_eq_ok h
  refine Fills.flatMap (R := fun x => {Gas.rowOf x}) fun x hx => ?_
  obtain ⟨pq, -, h⟩ := Res.bind_eq_ok.mp (hg x hx)
  injection h with h
  rw [← h]
  exact fills_one _ _

omit hN in
theorem bus_fills (k : Power.Kind) (b : Power.Bus) (boundary : ℝ × ℝ) (state : Vec) :
    Fills (Power.busEvaluate k b boundary state) {b.first, b.first + 1} := by
  cases k <;> exact fills_two _ _ _ _

/-- The writes of a node fill its rows. -/
theorem node_fills {v : Fin N.nodes} {newTime : ℝ} {a : Args} {ops : List Op}
    (h : N.nodeEvaluate v newTime a = Res.ok ops) : Fills ops (N.rows (.inl v)) := by
  have hflow : ∀ {q : ℝ} {ops : List Op}, (N.node v).kind.isGas →
      Gas.flowBalance (N.ends v) a.new q = Res.ok ops → Fills ops (N.rows (.inl v)) := by
    intro q ops hv h
    refine (flow_fills (hN.ends_usable hv) (hN.ends_rows v) h).congr fun r => ?_
    simp [Net.rows, hv]
  have hempty : ∀ {ops : List Op}, (N.node v).kind.isGas → (N.ends v).isEmpty → Res.ok [] = Res.ok ops →
      Fills ops (N.rows (.inl v)) := by
    intro ops hv he h
    injection h with h; subst h
    refine Fills.nil.congr fun r => ?_
    simp [Net.rows, hv, List.isEmpty_iff.mp he]
  have hpower : ∀ {k : Power.Kind} {ops : List Op}, (N.node v).kind.isGas = false → (do
      let bus ← N.bus v
      let b ← (N.node v).boundary newTime
      Res.ok (Power.busEvaluate k bus b a.new)) = Res.ok ops → Fills ops (N.rows (.inl v)) := by
    intro k ops hv h
    obtain ⟨b, hb, h⟩ := Res.bind_eq_ok.mp h
    obtain ⟨c, -, h⟩ := Res.bind_eq_ok.mp h
    injection h with h; subst h
    refine (bus_fills k b c a.new).congr fun r => ?_
    have hf : b.first = (N.nodeRange v).1 := by
      unfold Net.bus at hb
      split at hb
      · injection hb with hb; rw [← hb]
      · cases hb
    have hl := N.range_length (.inl v)
    have hneed : N.need (.inl v) = 2 := by simp [Net.need, nodeNeed, not_isGas_power hv]
    simp only [Net.rows, hv, Set.mem_insert_iff, Set.mem_singleton_iff, Net.InRange]
    show r = b.first ∨ r = b.first + 1 ↔ (N.range (.inl v)).1 ≤ r ∧ r < (N.range (.inl v)).2
    have : (N.range (.inl v)).1 = b.first := hf.symm
    omega
  unfold Net.nodeEvaluate at h
  cases hk : (N.node v).kind with
  | innode => simp only [hk] at h; exact hflow (by rw [hk]; rfl) h
  | flow =>
    have hv : (N.node v).kind.isGas := by rw [hk]; rfl
    simp only [hk] at h
    split at h
    · rename_i he; exact hempty hv he h
    · obtain ⟨b, -, h⟩ := Res.bind_eq_ok.mp h
      exact hflow hv h
  | pressure =>
    have hv : (N.node v).kind.isGas := by rw [hk]; rfl
    simp only [hk] at h
    split at h
    · rename_i he; exact hempty hv he h
    · obtain ⟨b, -, h⟩ := Res.bind_eq_ok.mp h
      refine (pressure_fills h).congr fun r => ?_
      simp [Net.rows, hv]
  | power k => simp only [hk] at h; exact hpower (by rw [hk]; rfl) h
  | plant => simp only [hk] at h; exact hpower (by rw [hk]; rfl) h

omit hN in
theorem short_fills {e : Gas.Edge} (hs : e.kind.isShort) {t t' : ℝ} {a : Args} {ops : List Op}
    (h : Gas.edgeEvaluate e t t' a = Res.ok ops) : Fills ops {e.first + 1, e.first + 1 + 1} := by
  unfold Gas.edgeEvaluate at h
  cases hk : e.kind with
  | pipe dx d k => rw [hk] at hs; exact hs.elim
  | gaspower g p => rw [hk] at hs; exact hs.elim
  | shortpipe =>
    simp only [hk] at h
    obtain ⟨s, -, h⟩ := Res.bind_eq_ok.mp h
    obtain ⟨t, -, h⟩ := Res.bind_eq_ok.mp h
    injection h with h; subst h
    exact fills_two _ _ _ _
  | controlvalve =>
    simp only [hk] at h
    obtain ⟨s, -, h⟩ := Res.bind_eq_ok.mp h
    obtain ⟨t, -, h⟩ := Res.bind_eq_ok.mp h
    injection h with h; subst h
    exact fills_two _ _ _ _
  | compressor =>
    simp only [hk] at h
    obtain ⟨s, -, h⟩ := Res.bind_eq_ok.mp h
    obtain ⟨t, -, h⟩ := Res.bind_eq_ok.mp h
    injection h with h; subst h
    exact fills_two _ _ _ _

omit hN in
theorem pipe_fills {e : Gas.Edge} {dx d k : ℝ} (hk : e.kind = .pipe dx d k) {n : ℕ} (hp : Gas.HasPoints e n)
    {t t' : ℝ} {a : Args} {ops : List Op}
    (h : Gas.edgeEvaluate e t t' a = Res.ok ops) : Fills ops {r | e.first + 1 ≤ r ∧ r + 1 < e.after} := by
  unfold Gas.edgeEvaluate at h
  simp only [hk] at h
  obtain ⟨g, hg, rfl⟩ := forEach_eq_ok h
  refine (Fills.flatMap (R := fun i => {i, i + 1}) fun i hi => ?_).congr fun r => ?_
  · obtain ⟨v, -, h⟩ := Res.bind_eq_ok.mp (hg i hi)
    injection h with h
    rw [← h]
    exact fills_two _ _ _ _
  · rw [Gas.cells_eq hp]
    have hp' : e.after = e.first + 2 * n := hp
    simp only [List.mem_map, List.mem_range, Set.mem_ofPred_eq, Set.mem_insert_iff, Set.mem_singleton_iff]
    constructor
    · rintro ⟨i, ⟨j, hj, rfl⟩, h⟩
      omega
    · rintro ⟨h1, h2⟩
      refine ⟨e.first + 1 + 2 * (((r - e.first - 1) / 2).toNat : ℤ), ⟨_, ?_, rfl⟩, ?_⟩ <;> omega

/-- The writes of an edge fill its rows. -/
theorem edge_fills {k : Fin N.edges} {lastTime newTime : ℝ} {a : Args} {ops : List Op}
    (h : N.edgeEvaluate k lastTime newTime a = Res.ok ops) : Fills ops (N.rows (.inr k)) := by
  have hl := edgeRange_length (k := k)
  unfold Net.edgeEvaluate at h
  cases hk : N.edge k with
  | line G B =>
    simp only [Net.gasEdge, hk] at h
    injection h with h; subst h
    refine Fills.nil.congr fun r => ?_
    simp [Net.rows, Net.edgeRows, hk]
  | gas kind n =>
    have hrows : N.rows (.inr k) = Net.edgeRows (N.edgeRange k) (.gas kind n) := by
      show Net.edgeRows (N.edgeRange k) (N.edge k) = _
      rw [hk]
    rw [hrows]
    rw [hk] at hl
    simp only [Net.gasEdge, hk] at h
    cases kind with
    | gaspower g p =>
      simp only at h
      split at h
      · obtain ⟨b, -, h⟩ := Res.bind_eq_ok.mp h
        obtain ⟨x, -, h⟩ := Res.bind_eq_ok.mp h
        injection h with h; subst h
        exact fills_one _ _
      · cases h
    | pipe dx d r =>
      have hp := hN.points k dx d r n hk
      simp only [edgeNeed] at hl
      exact pipe_fills (e := ⟨k.val, .pipe dx d r, (N.edgeRange k).1, (N.edgeRange k).2,
        (N.controlRange k).1⟩) rfl (n := n) (by unfold Gas.HasPoints; simp only; omega) h
    | shortpipe =>
      simp only [edgeNeed] at hl
      refine (short_fills (e := ⟨k.val, .shortpipe, (N.edgeRange k).1, (N.edgeRange k).2,
        (N.controlRange k).1⟩) trivial h).congr fun r => ?_
      simp only [Net.edgeRows, Set.mem_insert_iff, Set.mem_singleton_iff, Set.mem_ofPred_eq]
      omega
    | controlvalve =>
      simp only [edgeNeed] at hl
      refine (short_fills (e := ⟨k.val, .controlvalve, (N.edgeRange k).1, (N.edgeRange k).2,
        (N.controlRange k).1⟩) trivial h).congr fun r => ?_
      simp only [Net.edgeRows, Set.mem_insert_iff, Set.mem_singleton_iff, Set.mem_ofPred_eq]
      omega
    | compressor =>
      simp only [edgeNeed] at hl
      refine (short_fills (e := ⟨k.val, .compressor, (N.edgeRange k).1, (N.edgeRange k).2,
        (N.controlRange k).1⟩) trivial h).congr fun r => ?_
      simp only [Net.edgeRows, Set.mem_insert_iff, Set.mem_singleton_iff, Set.mem_ofPred_eq]
      omega

end Admissible

/-- What a component writes to the residual. -/
noncomputable def Net.componentEvaluate (N : Net) (c : N.Component) (lastTime newTime : ℝ) (a : Args) : Res (List Op) :=
  match c with
  | .inl v => N.nodeEvaluate v newTime a
  | .inr k => N.edgeEvaluate k lastTime newTime a

theorem Admissible.component_fills {N : Net} (hN : Admissible N) {c : N.Component} {lastTime newTime : ℝ}
    {a : Args} {ops : List Op} (h : N.componentEvaluate c lastTime newTime a = Res.ok ops) :
    Fills ops (N.rows c) := by
  cases c with
  | inl v => exact hN.node_fills h
  | inr k => exact hN.edge_fills h

/-- Every edge with rows is in one of the two lists. -/
theorem Net.edge_listed {N : Net} {k : Fin N.edges} {r : ℤ} (h : r ∈ N.rows (.inr k)) :
    k ∈ N.equationEdges ∨ k ∈ N.controlEdges := by
  obtain ⟨kind, n, hk, -⟩ := Admissible.mem_edgeRows.mp h
  simp only [Net.equationEdges, Net.controlEdges, List.mem_filter, List.mem_finRange, true_and, hk]
  cases kind <;> simp [EdgeKind.isEquation, EdgeKind.isControl]

/-- C39. In an admissible network, whenever the residual is computed, each of its rows is written by exactly one
component; afterwards no row depends on what was in the vector before, and nothing outside of the
vector is written. -/
theorem C39_each_row_once (N : Net) (hN : Admissible N) (lastTime newTime : ℝ) (a : Args) (ops : List Op)
    (h : N.evaluate lastTime newTime a = Res.ok ops) :
    (∀ r, 0 ≤ r → r < N.states → ∃! c : N.Component, ∃ xs, N.componentEvaluate c lastTime newTime a = Res.ok xs ∧
      ∃ o ∈ xs, o.row = r) ∧
    (∀ r, 0 ≤ r → r < N.states → ∀ v w : Vec, run v ops r = run w ops r) ∧
    ∀ o ∈ ops, 0 ≤ o.row ∧ o.row < N.states := by
  unfold Net.evaluate at h
  obtain ⟨x, hx, h⟩ := Res.bind_eq_ok.mp h
  obtain ⟨y, hy, h⟩ := Res.bind_eq_ok.mp h
  obtain ⟨z, hz, h⟩ := Res.bind_eq_ok.mp h
  injection h with h
  subst h
  obtain ⟨f, hf, rfl⟩ := forEach_eq_ok hx
  obtain ⟨g, hg, rfl⟩ := forEach_eq_ok hy
  obtain ⟨g', hg', rfl⟩ := forEach_eq_ok hz
  have hfill := ((Fills.flatMap fun v hv => hN.node_fills (hf v hv)).append
    (Fills.flatMap fun k hk => hN.edge_fills (hg k hk))).append
    (Fills.flatMap fun k hk => hN.edge_fills (hg' k hk))
  have hmem : ∀ r, (r ∈ ({r | ∃ x ∈ List.finRange N.nodes, r ∈ N.rows (.inl x)} ∪
      {r | ∃ k ∈ N.equationEdges, r ∈ N.rows (.inr k)} ∪ {r | ∃ k ∈ N.controlEdges, r ∈ N.rows (.inr k)} : Set ℤ)) ↔
      0 ≤ r ∧ r < N.states := by
    intro r
    rw [hN.rows_cover]
    constructor
    · rintro ((⟨v, -, h⟩ | ⟨k, -, h⟩) | ⟨k, -, h⟩) <;> exact ⟨_, h⟩
    · rintro ⟨v | k, h⟩
      · exact Or.inl (Or.inl ⟨v, List.mem_finRange v, h⟩)
      · rcases Net.edge_listed h with hk | hk
        · exact Or.inl (Or.inr ⟨k, hk, h⟩)
        · exact Or.inr ⟨k, hk, h⟩
  refine ⟨?_, ?_, ?_⟩
  · intro r h0 h1
    obtain ⟨c, hc⟩ := hN.rows_cover.mp ⟨h0, h1⟩
    have hok : ∃ xs, N.componentEvaluate c lastTime newTime a = Res.ok xs := by
      cases c with
      | inl v => exact ⟨_, hf v (List.mem_finRange v)⟩
      | inr k =>
        rcases Net.edge_listed hc with hk | hk
        · exact ⟨_, hg k hk⟩
        · exact ⟨_, hg' k hk⟩
    obtain ⟨xs, hxs⟩ := hok
    refine ⟨c, ⟨xs, hxs, (hN.component_fills hxs).written hc⟩, ?_⟩
    rintro c' ⟨xs', hxs', o, ho, rfl⟩
    exact hN.rows_unique ((hN.component_fills hxs').rows o ho) hc
  · intro r h0 h1 v w
    exact hfill.sets r ((hmem r).mpr ⟨h0, h1⟩) v w
  · intro o ho
    exact (hmem _).mp (hfill.rows o ho)

end Verif.Network
