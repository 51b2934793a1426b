import Verif.Network.Model
import Verif.Gas.Ends

/-! # The index ranges and the rows of the components of a network -/

set_option autoImplicit false

namespace Verif.Network

open Verif.Net Verif.Handler

/-- Admissible networks. The lists of attached edges are right, no edge joins a node with itself (both are C48),
pipes have at least two points (C38), gas edges join gas nodes (apart from the end of a connection to the
grid, which has to be a power plant) and lines join power nodes. -/
structure Admissible (N : Net) : Prop where
  starting : ∀ v, (N.starting v).Nodup ∧ ∀ k, k ∈ N.starting v ↔ N.src k = v
  ending : ∀ v, (N.ending v).Nodup ∧ ∀ k, k ∈ N.ending v ↔ N.dst k = v
  noLoop : ∀ k, N.src k ≠ N.dst k
  points : ∀ k dx d r n, N.edge k = .gas (.pipe dx d r) n → 2 ≤ n
  gasStart : ∀ k kind n, N.edge k = .gas kind n → (N.node (N.src k)).kind.isGas
  gasEnd : ∀ k kind n, N.edge k = .gas kind n → (∀ g p, kind ≠ .gaspower g p) →
    (N.node (N.dst k)).kind.isGas
  plantEnd : ∀ k g p n, N.edge k = .gas (.gaspower g p) n → (N.node (N.dst k)).kind.isPlant
  lines : ∀ k G B, N.edge k = .line G B →
    (N.node (N.src k)).kind.isPower ∧ (N.node (N.dst k)).kind.isPower

/-- Nodes and edges. -/
abbrev Net.Component (N : Net) := Fin N.nodes ⊕ Fin N.edges

namespace Net
variable (N : Net)

/-- The index range of a component. -/
def range : N.Component → ℤ × ℤ
  | .inl v => N.nodeRange v
  | .inr k => N.edgeRange k

/-- The number of states of a component. -/
def need : N.Component → ℕ
  | .inl v => nodeNeed (N.node v).kind
  | .inr k => edgeNeed (N.edge k)

/-- The place of a component in the list of all components. -/
def place : N.Component → ℕ
  | .inl v => v.val
  | .inr k => N.nodes + k.val

theorem place_injective : Function.Injective N.place := by
  rintro (v | k) (w | l) h <;> simp only [place] at h
  · exact congrArg _ (Fin.ext h)
  · omega
  · omega
  · exact congrArg _ (Fin.ext (by omega))

theorem place_lt (c : N.Component) : N.place c < N.stateNeeds.length := by
  cases c <;> simp only [place, stateNeeds, List.length_append, List.length_ofFn] <;> omega

theorem exists_place {i : ℕ} (h : i < N.stateNeeds.length) : ∃ c, N.place c = i := by
  simp only [stateNeeds, List.length_append, List.length_ofFn] at h
  by_cases hi : i < N.nodes
  · exact ⟨.inl ⟨i, hi⟩, rfl⟩
  · exact ⟨.inr ⟨i - N.nodes, by omega⟩, by simp only [place]; omega⟩

theorem need_eq (c : N.Component) : N.stateNeeds[N.place c]'(N.place_lt c) = N.need c := by
  cases c with
  | inl v =>
    simp only [place, stateNeeds, need]
    rw [List.getElem_append_left (by simp)]
    simp
  | inr k =>
    simp only [place, stateNeeds, need]
    rw [List.getElem_append_right (by simp)]
    simp

theorem range_eq (c : N.Component) :
    N.range c = (setIndices 0 N.stateNeeds).1[N.place c]'(by rw [setIndices_length]; exact N.place_lt c) := by
  cases c <;> rfl

theorem range_length (c : N.Component) : (N.range c).2 = (N.range c).1 + N.need c := by
  have h := (C40_contiguous 0 N.stateNeeds).2.1 (N.place c) (N.place_lt c)
    (by rw [setIndices_length]; exact N.place_lt c)
  rw [range_eq, ← need_eq]
  exact h

/-- The index belongs to the component. -/
def InRange (c : N.Component) (r : ℤ) : Prop := (N.range c).1 ≤ r ∧ r < (N.range c).2

variable {N}

theorem InRange.unique {c c' : N.Component} {r : ℤ} (h : N.InRange c r) (h' : N.InRange c' r) : c = c' := by
  unfold InRange at h h'
  have hin := (C40_partition 0 N.stateNeeds).2 ⟨N.place c, by rw [setIndices_length]; exact N.place_lt c⟩ r
  rw [range_eq] at h h'
  have hr := hin h.1 h.2
  have := ((C40_partition 0 N.stateNeeds).1 r hr.1 hr.2).unique
    (y₁ := ⟨N.place c, by rw [setIndices_length]; exact N.place_lt c⟩)
    (y₂ := ⟨N.place c', by rw [setIndices_length]; exact N.place_lt c'⟩) h h'
  exact N.place_injective (by simpa using this)

theorem InRange.bounds {c : N.Component} {r : ℤ} (h : N.InRange c r) : 0 ≤ r ∧ r < N.states := by
  unfold InRange at h
  rw [range_eq] at h
  exact (C40_partition 0 N.stateNeeds).2 ⟨N.place c, by rw [setIndices_length]; exact N.place_lt c⟩ r h.1 h.2

theorem exists_inRange {r : ℤ} (h0 : 0 ≤ r) (h1 : r < N.states) : ∃ c, N.InRange c r := by
  obtain ⟨i, hi, -⟩ := (C40_partition 0 N.stateNeeds).1 r h0 h1
  have hlt : i.val < N.stateNeeds.length := lt_of_lt_of_eq i.isLt (setIndices_length _ _)
  obtain ⟨c, hc⟩ := N.exists_place hlt
  refine ⟨c, ?_⟩
  unfold InRange
  rw [range_eq]
  simp only [hc]
  exact hi

variable (N)

/-- The rows an edge is responsible for: all in its range apart from those of its ends. -/
def edgeRows (range : ℤ × ℤ) : EdgeKind → Set ℤ
  | .gas (.gaspower _ _) _ => {range.1 + 1}
  | .gas _ _ => {r | range.1 + 1 ≤ r ∧ r + 1 < range.2}
  | .line _ _ => ∅

/-- The rows a component is responsible for. -/
def rows : N.Component → Set ℤ
  | .inl v =>
    if (N.node v).kind.isGas then {r | ∃ x ∈ N.ends v, r = Gas.rowOf x}
    else {r | N.InRange (.inl v) r}
  | .inr k => edgeRows (N.edgeRange k) (N.edge k)

end Net

theorem isGas_not_power {k : NodeKind} (h : k.isGas) : k.isPower = false := by
  cases k <;> simp_all [NodeKind.isGas, NodeKind.isPower]

theorem not_isGas_power {k : NodeKind} (h : k.isGas = false) : k.isPower := by
  cases k <;> simp_all [NodeKind.isGas, NodeKind.isPower]

theorem isPlant_not_gas {k : NodeKind} (h : k.isPlant) : k.isGas = false := by
  cases k <;> simp_all [NodeKind.isGas, NodeKind.isPlant]

theorem isPlant_power {k : NodeKind} (h : k.isPlant) : k.isPower := by
  cases k <;> simp_all [NodeKind.isPower, NodeKind.isPlant]

namespace Admissible
variable {N : Net} (hN : Admissible N)
include hN

/-- A gas edge has at least two states, and at least four if it is no connection to the grid. -/
theorem gas_need {k : Fin N.edges} {kind : Gas.Kind} {n : ℕ} (h : N.edge k = .gas kind n) :
    2 ≤ edgeNeed (N.edge k) ∧ ((∀ g p, kind ≠ .gaspower g p) → 4 ≤ edgeNeed (N.edge k)) := by
  rw [h]
  cases kind with
  | pipe dx d r => have := hN.points k dx d r n h; simp only [edgeNeed]; omega
  | gaspower g p => exact ⟨le_rfl, fun h' => absurd rfl (h' g p)⟩
  | _ => simp [edgeNeed]

omit hN in
theorem edgeRange_length {k : Fin N.edges} : (N.edgeRange k).2 = (N.edgeRange k).1 + edgeNeed (N.edge k) :=
  N.range_length (.inr k)

/-- The ends at a node are those of the gas edges that start or end there. -/
theorem mem_ends {v : Fin N.nodes} {x : Gas.End} :
    x ∈ N.ends v ↔ ∃ k e, N.gasEdge k = some e ∧
      ((N.src k = v ∧ x = (.start, e)) ∨ (N.dst k = v ∧ x = (.stop, e))) := by
  unfold Net.ends
  simp only [List.mem_append, List.mem_filterMap, Option.map_eq_some_iff, (hN.starting v).2, (hN.ending v).2]
  constructor
  · rintro (⟨k, hk, e, he, rfl⟩ | ⟨k, hk, e, he, rfl⟩)
    · exact ⟨k, e, he, Or.inl ⟨hk, rfl⟩⟩
    · exact ⟨k, e, he, Or.inr ⟨hk, rfl⟩⟩
  · rintro ⟨k, e, he, ⟨hk, rfl⟩ | ⟨hk, rfl⟩⟩
    · exact Or.inl ⟨k, hk, e, he, rfl⟩
    · exact Or.inr ⟨k, hk, e, he, rfl⟩

omit hN in
theorem gasEdge_eq {k : Fin N.edges} {e : Gas.Edge} :
    N.gasEdge k = some e ↔ ∃ kind n, N.edge k = .gas kind n ∧
      e = ⟨k.val, kind, (N.edgeRange k).1, (N.edgeRange k).2, (N.controlRange k).1⟩ := by
  unfold Net.gasEdge
  cases h : N.edge k with
  | gas kind n =>
    simp only [Option.some.injEq, EdgeKind.gas.injEq]
    constructor
    · rintro rfl; exact ⟨kind, n, ⟨rfl, rfl⟩, rfl⟩
    · rintro ⟨kind', n', ⟨rfl, rfl⟩, rfl⟩; rfl
  | line G B => simp

/-- The rows of a gas node: the first row of the edges starting there, the last row of those ending there. -/
theorem mem_gasRows {v : Fin N.nodes} (hv : (N.node v).kind.isGas) {r : ℤ} :
    r ∈ N.rows (.inl v) ↔ ∃ k kind n, N.edge k = .gas kind n ∧
      ((N.src k = v ∧ r = (N.edgeRange k).1) ∨ (N.dst k = v ∧ r = (N.edgeRange k).2 - 1)) := by
  simp only [Net.rows, hv, if_true, Set.mem_ofPred_eq, hN.mem_ends, gasEdge_eq]
  constructor
  · rintro ⟨x, ⟨k, e, ⟨kind, n, hk, rfl⟩, ⟨h1, rfl⟩ | ⟨h1, rfl⟩⟩, rfl⟩
    · exact ⟨k, kind, n, hk, Or.inl ⟨h1, rfl⟩⟩
    · exact ⟨k, kind, n, hk, Or.inr ⟨h1, rfl⟩⟩
  · rintro ⟨k, kind, n, hk, ⟨h1, rfl⟩ | ⟨h1, rfl⟩⟩
    · exact ⟨_, ⟨k, _, ⟨kind, n, hk, rfl⟩, Or.inl ⟨h1, rfl⟩⟩, rfl⟩
    · exact ⟨_, ⟨k, _, ⟨kind, n, hk, rfl⟩, Or.inr ⟨h1, rfl⟩⟩, rfl⟩

/-- At a gas node no connection to the grid ends. -/
theorem not_gaspower {k : Fin N.edges} {kind : Gas.Kind} {n : ℕ} (hk : N.edge k = .gas kind n)
    (hv : (N.node (N.dst k)).kind.isGas) (g p : ℝ) : kind ≠ .gaspower g p := by
  rintro rfl
  have := isPlant_not_gas (hN.plantEnd k g p n hk)
  simp [this] at hv

omit hN in
theorem mem_edgeRows {k : Fin N.edges} {r : ℤ} : r ∈ N.rows (.inr k) ↔
    ∃ kind n, N.edge k = .gas kind n ∧
      ((∃ g p, kind = .gaspower g p) ∧ r = (N.edgeRange k).1 + 1 ∨
      (∀ g p, kind ≠ .gaspower g p) ∧ (N.edgeRange k).1 + 1 ≤ r ∧ r + 1 < (N.edgeRange k).2) := by
  show r ∈ Net.edgeRows (N.edgeRange k) (N.edge k) ↔ _
  generalize N.edge k = ek
  cases ek with
  | line G B => simp [Net.edgeRows]
  | gas kind n => cases kind <;> simp [Net.edgeRows]

/-- Where a row of a component lies. -/
theorem mem_rows_location {c : N.Component} {r : ℤ} (h : r ∈ N.rows c) :
    ∃ c', N.InRange c' r ∧
      match c with
      | .inl v => if (N.node v).kind.isGas then ∃ k kind n, c' = .inr k ∧ N.edge k = .gas kind n ∧
          (N.src k = v ∧ r = (N.edgeRange k).1 ∨
            (∀ g p, kind ≠ .gaspower g p) ∧ N.dst k = v ∧ r = (N.edgeRange k).2 - 1) else c' = .inl v
      | .inr k => c' = .inr k ∧ r ∈ N.rows (.inr k) := by
  cases c with
  | inl v =>
    by_cases hv : (N.node v).kind.isGas
    · obtain ⟨k, kind, n, hk, hr⟩ := (hN.mem_gasRows hv).mp h
      have h1 := edgeRange_length (k := k)
      have h2 := (hN.gas_need hk).1
      refine ⟨.inr k, ?_, ?_⟩
      · show (N.edgeRange k).1 ≤ r ∧ r < (N.edgeRange k).2
        rcases hr with ⟨_, rfl⟩ | ⟨_, rfl⟩ <;> omega
      · simp only [hv, if_true]
        refine ⟨k, kind, n, rfl, hk, ?_⟩
        rcases hr with hr | hr
        · exact Or.inl hr
        · exact Or.inr ⟨fun g p => hN.not_gaspower hk (hr.1 ▸ hv) g p, hr⟩
    · refine ⟨.inl v, ?_, by simp [hv]⟩
      simpa [Net.rows, hv] using h
  | inr k =>
    refine ⟨.inr k, ?_, rfl, h⟩
    obtain ⟨kind, n, hk, hr⟩ := mem_edgeRows.mp h
    have h1 := edgeRange_length (k := k)
    have h2 := (hN.gas_need hk).1
    show (N.edgeRange k).1 ≤ r ∧ r < (N.edgeRange k).2
    rcases hr with ⟨_, rfl⟩ | ⟨_, h3, h4⟩ <;> omega

/-- No row has two components. -/
theorem rows_unique {c c' : N.Component} {r : ℤ} (h : r ∈ N.rows c) (h' : r ∈ N.rows c') : c = c' := by
  obtain ⟨d, hd, hc⟩ := hN.mem_rows_location h
  obtain ⟨d', hd', hc'⟩ := hN.mem_rows_location h'
  obtain rfl := hd.unique hd'
  have key : ∀ {v : Fin N.nodes} {k : Fin N.edges} {kind : Gas.Kind} {n : ℕ}, N.edge k = .gas kind n →
      (N.src k = v ∧ r = (N.edgeRange k).1 ∨
            (∀ g p, kind ≠ .gaspower g p) ∧ N.dst k = v ∧ r = (N.edgeRange k).2 - 1) →
      r ∉ N.rows (.inr k) := by
    intro v k kind n hk hv hr
    obtain ⟨kind', n', hk', hr⟩ := mem_edgeRows.mp hr
    rw [hk] at hk'
    injection hk' with e1 e2
    subst e1
    have h1 := edgeRange_length (k := k)
    have h2 := (hN.gas_need hk).1
    rcases hr with ⟨⟨g, p, hg⟩, rfl⟩ | ⟨_, h3, h4⟩
    · rcases hv with ⟨_, h⟩ | ⟨h, _⟩
      · omega
      · exact h g p hg
    · rcases hv with ⟨_, h⟩ | ⟨_, _, h⟩ <;> omega
  cases c with
  | inl v =>
    cases c' with
    | inl w =>
      by_cases hv : (N.node v).kind.isGas
      · simp only [hv, if_true] at hc
        obtain ⟨k, kind, n, rfl, hk, hr⟩ := hc
        by_cases hw : (N.node w).kind.isGas
        · simp only [hw, if_true] at hc'
          obtain ⟨k', kind', n', e, hk', hr'⟩ := hc'
          injection e with e
          subst e
          have h1 := edgeRange_length (k := k)
          have h2 := (hN.gas_need hk).1
          rcases hr with ⟨rfl, h3⟩ | ⟨_, rfl, h3⟩ <;> rcases hr' with ⟨rfl, h4⟩ | ⟨_, rfl, h4⟩
          · rfl
          · omega
          · omega
          · rfl
        · simp only [hw] at hc'; exact absurd hc' (by simp)
      · simp only [hv] at hc
        have hc : d = .inl v := by simpa using hc
        subst hc
        by_cases hw : (N.node w).kind.isGas
        · simp only [hw, if_true] at hc'
          obtain ⟨k', kind', n', e, -⟩ := hc'
          cases e
        · simpa [hw] using hc'
    | inr k' =>
      obtain ⟨rfl, hr'⟩ := hc'
      by_cases hv : (N.node v).kind.isGas
      · simp only [hv, if_true] at hc
        obtain ⟨k, kind, n, e, hk, hr⟩ := hc
        injection e with e
        subst e
        exact absurd hr' (key hk hr)
      · simp [hv] at hc
  | inr k =>
    obtain ⟨rfl, hr⟩ := hc
    cases c' with
    | inl w =>
      by_cases hw : (N.node w).kind.isGas
      · simp only [hw, if_true] at hc'
        obtain ⟨k', kind', n', e, hk', hr'⟩ := hc'
        injection e with e
        subst e
        exact absurd hr (key hk' hr')
      · simp [hw] at hc'
    | inr k' => exact hc'.1

/-- Every row has a component, and only those in the vector. -/
theorem rows_cover {r : ℤ} : (0 ≤ r ∧ r < N.states) ↔ ∃ c, r ∈ N.rows c := by
  constructor
  · rintro ⟨h0, h1⟩
    obtain ⟨c, hc⟩ := N.exists_inRange h0 h1
    cases c with
    | inl v =>
      refine ⟨.inl v, ?_⟩
      by_cases hv : (N.node v).kind.isGas
      · exfalso
        have h2 := N.range_length (.inl v)
        have h3 : N.need (.inl v) = 0 := by
          simp [Net.need, nodeNeed, isGas_not_power hv]
        unfold Net.InRange at hc
        omega
      · simpa [Net.rows, hv] using hc
    | inr k =>
      have hc' : (N.edgeRange k).1 ≤ r ∧ r < (N.edgeRange k).2 := hc
      have h2 := edgeRange_length (k := k)
      cases hk : N.edge k with
      | line G B => rw [hk] at h2; simp only [edgeNeed] at h2; omega
      | gas kind n =>
        by_cases hs : r = (N.edgeRange k).1
        · exact ⟨.inl (N.src k), (hN.mem_gasRows (hN.gasStart k kind n hk)).mpr
            ⟨k, kind, n, hk, Or.inl ⟨rfl, hs⟩⟩⟩
        by_cases hg : ∃ g p, kind = .gaspower g p
        · refine ⟨.inr k, mem_edgeRows.mpr ⟨kind, n, hk, Or.inl ⟨hg, ?_⟩⟩⟩
          obtain ⟨g, p, rfl⟩ := hg
          rw [hk] at h2; simp only [edgeNeed] at h2; omega
        · push Not at hg
          by_cases ht : r = (N.edgeRange k).2 - 1
          · exact ⟨.inl (N.dst k), (hN.mem_gasRows (hN.gasEnd k kind n hk hg)).mpr
              ⟨k, kind, n, hk, Or.inr ⟨rfl, ht⟩⟩⟩
          · exact ⟨.inr k, mem_edgeRows.mpr ⟨kind, n, hk, Or.inr ⟨hg, by omega, by omega⟩⟩⟩
  · rintro ⟨c, hc⟩
    obtain ⟨d, hd, -⟩ := hN.mem_rows_location hc
    exact hd.bounds

end Admissible
end Verif.Network
