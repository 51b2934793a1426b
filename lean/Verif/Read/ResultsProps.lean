import Verif.Read.ResultsLaws

/-!
# What the file of results shows

Lemmas for C108 and C109: the file that is written shows the results, by the ids of components.
-/

set_option autoImplicit false

namespace Verif.Read

open Verif.Json Verif.Factory Verif.Interp Verif.Schema Verif.Initial Verif.Times Verif.Newton Verif.Evolve Network Net
open Verif.Output (Printed)

/-! ## Lists of states -/

theorem listOf_getD (n : ℕ) (x : Vec) {i : ℕ} (h : i < n) : (listOf n x).getD i 0 = x (i : ℤ) := by
  unfold listOf
  simp [h]

theorem ext_listOf {n : ℕ} (y : Fin n → ℝ) : ext (entriesOf (listOf n (ext y)) : Fin n → ℝ) = ext y := by
  congr 1
  funext i
  unfold entriesOf
  rw [listOf_getD n _ i.isLt]
  unfold ext
  rw [dif_pos ⟨by omega, by omega⟩]
  congr

theorem allSome_eq {α : Type} {l : List (Option α)} {m : List α} (h : allSome l = some m) : l = m.map some := by
  induction l generalizing m with
  | nil => injection h with h; subst h; rfl
  | cons a l ih =>
    cases a with
    | none => cases h
    | some a =>
      unfold allSome at h
      rw [Option.map_eq_some_iff] at h
      obtain ⟨m', h1, rfl⟩ := h
      rw [ih h1]
      rfl

theorem allSome_some {α : Type} (m : List α) : allSome (m.map some) = some m := by
  induction m with
  | nil => rfl
  | cons a m ih => simp [allSome, ih]

/-! ## What the file shows -/

section
variable [Printed ℝ] {f : Files} {g : Graph Network.Node EdgeKind} {hc : Consistent g}
  {node : Fin g.nodes.length → String × Json} {edge : Fin g.edges.length → String × Json}
  (S : Sited f.defaults f.topology hc node edge) (last : ℝ) (times : List ℝ) (states : List Vec)
include S

namespace Sited

omit S [Printed ℝ] in
theorem mem_output {c : Output.Component ℝ} : c ∈ outputComponents hc f.topology last ↔
    (∃ v, outputNode hc f.topology last v = some c) ∨ ∃ k, outputEdge hc k = some c := by
  simp [outputComponents]

omit [Printed ℝ] in
theorem output_node {v : Fin g.nodes.length} {c : Output.Component ℝ} (h : outputNode hc f.topology last v = some c) :
    ((toNet hc).node v).kind.isPower = true ∧
      c = ⟨g.nodes[v].id, "nodes", (node v).1, ((toNet hc).nodeRange v).1.toNat, .power (reported hc (node v).1 last v)⟩ := by
  unfold outputNode at h
  split at h
  · next hp =>
    injection h with h
    simp only [S.powerType_eq v hp] at h
    exact ⟨hp, h.symm⟩
  · cases h

omit [Printed ℝ] in
theorem output_edge {k : Fin g.edges.length} {c : Output.Component ℝ} (h : outputEdge hc k = some c) :
    (edge k).1 ≠ "Transmissionline" ∧ ∃ kind n, (toNet hc).edge k = .gas kind n ∧
      c = ⟨g.edges[k].id, "connections", (edge k).1, ((toNet hc).edgeRange k).1.toNat, gasKind n kind⟩ := by
  unfold outputEdge at h
  split at h
  · next kind n hk =>
    injection h with h
    refine ⟨(S.gas_iff k).mp (by rw [hk]; rfl), kind, n, hk, ?_⟩
    have : gasType kind = (edge k).1 := by
      have hm := S.edgeMatch k
      rw [hk] at hm
      generalize (edge k).1 = type at hm
      cases hm <;> rfl
    rw [← this]
    exact h.symm
  · cases h

omit S [Printed ℝ] in
theorem reported_names {type : String} {v : Fin g.nodes.length} {t : ℝ} {s : List ℝ} {l : List (String × ℝ)}
    (h : reported hc type last v t s = Res.ok l) : l = [] ∨ ∃ p q, l = [("P", p), ("Q", q)] := by
  unfold reported at h
  simp only at h
  split at h
  · obtain ⟨b, -, h⟩ := Res.bind_eq_ok.mp h
    injection h with h
    exact .inr ⟨_, _, h.symm⟩
  · obtain ⟨b, -, h⟩ := Res.bind_eq_ok.mp h
    obtain ⟨bus, -, h⟩ := Res.bind_eq_ok.mp h
    injection h with h
    exact .inr ⟨_, _, h.symm⟩
  · obtain ⟨bus, -, h⟩ := Res.bind_eq_ok.mp h
    injection h with h
    exact .inr ⟨_, _, h.symm⟩
  · obtain ⟨bus, -, h⟩ := Res.bind_eq_ok.mp h
    injection h with h
    exact .inr ⟨_, _, h.symm⟩
  · injection h with h
    exact .inl h.symm

omit [Printed ℝ] in
theorem sensible (hf : Fit f.defaults f.topology) : ∀ c ∈ outputComponents hc f.topology last, Output.Sensible c := by
  intro c hm
  rcases (mem_output last).mp hm with ⟨v, h⟩ | ⟨k, h⟩
  · obtain ⟨-, rfl⟩ := S.output_node last h
    intro t s l hl
    rcases reported_names last hl with rfl | ⟨p, q, rfl⟩
    · simp
    · simp
  · obtain ⟨hg, kind, n, hk, rfl⟩ := S.output_edge h
    have := (S.stop_eq hf k ((S.gas_iff k).mpr hg)).2.1
    unfold pointsOf at this
    rw [hk] at this
    unfold Output.Sensible
    cases kind with
    | pipe dx d r =>
      simp only [edgeNeed] at this
      simp only [gasKind]
      omega
    | _ => trivial

omit S [Printed ℝ] in
theorem inRange_edge (k : Fin g.edges.length) (h : 0 < edgeNeed ((toNet hc).edge k)) :
    0 ≤ ((toNet hc).edgeRange k).1 ∧ ((toNet hc).edgeRange k).1.toNat + edgeNeed ((toNet hc).edge k) ≤ (toNet hc).stateCount := by
  have hl := Admissible.edgeRange_length (N := toNet hc) (k := k)
  have h0 : (toNet hc).InRange (.inr k) ((toNet hc).edgeRange k).1 := ⟨le_rfl, by
    show ((toNet hc).edgeRange k).1 < ((toNet hc).edgeRange k).2; omega⟩
  have h1 : (toNet hc).InRange (.inr k) (((toNet hc).edgeRange k).2 - 1) := ⟨by
    show ((toNet hc).edgeRange k).1 ≤ ((toNet hc).edgeRange k).2 - 1; omega, by
    show ((toNet hc).edgeRange k).2 - 1 < ((toNet hc).edgeRange k).2; omega⟩
  have b0 := h0.bounds
  have b1 := h1.bounds
  refine ⟨b0.1, ?_⟩
  unfold Net.stateCount
  omega

omit S [Printed ℝ] in
theorem inRange_node (v : Fin g.nodes.length) (h : ((toNet hc).node v).kind.isPower = true) :
    0 ≤ ((toNet hc).nodeRange v).1 ∧ ((toNet hc).nodeRange v).1.toNat + 2 ≤ (toNet hc).stateCount := by
  obtain ⟨h1, h2⟩ := Admissible.power_bounds (N := toNet hc) (v := v) h
  refine ⟨h1, ?_⟩
  unfold Net.stateCount
  omega

omit [Printed ℝ] in
theorem fitsIn (hf : Fit f.defaults f.topology) (x : Vec) : ∀ c ∈ outputComponents hc f.topology last,
    Output.FitsIn c (listOf (toNet hc).stateCount x) := by
  intro c hm
  unfold Output.FitsIn
  rw [show (listOf (toNet hc).stateCount x).length = (toNet hc).stateCount by simp [listOf]]
  rcases (mem_output last).mp hm with ⟨v, h⟩ | ⟨k, h⟩
  · obtain ⟨hp, rfl⟩ := S.output_node last h
    exact (inRange_node v hp).2
  · obtain ⟨hg, kind, n, hk, rfl⟩ := S.output_edge h
    have e : Output.states (gasKind n kind) = edgeNeed ((toNet hc).edge k) := by rw [hk]; cases kind <;> rfl
    simp only [e]
    obtain ⟨-, h1, h2⟩ := S.stop_eq hf k ((S.gas_iff k).mpr hg)
    exact (inRange_edge k (by omega)).2

/-- The entry of a node shows the results. -/
theorem shows_power {v : Fin g.nodes.length} (hp : ((toNet hc).node v).kind.isPower = true) {i : ℕ} (ht : i < times.length)
    (hs : i < states.length) {e : Json}
    (h : Output.Shows ⟨g.nodes[v].id, "nodes", (node v).1, ((toNet hc).nodeRange v).1.toNat, .power (reported hc (node v).1 last v)⟩
      times[i] (listOf (toNet hc).stateCount states[i]) e)
    (hr : ∃ p q, reported hc (node v).1 last v times[i] (listOf (toNet hc).stateCount states[i]) = Res.ok [("P", p), ("Q", q)]) :
    ShowsPower (resultsOf hc f.topology last times states) g.nodes[v].id times[i] i e := by
  obtain ⟨h1, h2, h3, l, h4, h5⟩ := h
  obtain ⟨p, q, hr⟩ := hr
  simp only [hr] at h4
  injection h4 with h4
  subst h4
  obtain ⟨b0, b1⟩ := inRange_node v hp
  simp only at h2 h3
  rw [listOf_getD _ _ (by omega)] at h2 h3
  have hx : states.getD i 0 = states[i] := by simp [hs]
  have htt : times.getD i 0 = times[i] := by simp [ht]
  obtain ⟨e1, e2⟩ := S.powerOf_eq last v hp times[i] states[i] hr
  refine ⟨h1, ?_, ?_, ?_, ?_⟩
  · rw [S.voltage_eq, hx, h2]
    unfold Net.voltage
    rw [Int.toNat_of_nonneg b0]
  · rw [S.angle_eq, hx, h3]
    unfold Net.angle
    push_cast
    rw [Int.toNat_of_nonneg b0]
  · rw [S.active_eq, hx, htt, e1]
    exact h5 ("P", p) (by simp)
  · rw [S.reactive_eq, hx, htt, e2]
    exact h5 ("Q", q) (by simp)

/-- The entry of a gas component shows the results. -/
theorem shows_gas (hf : Fit f.defaults f.topology) {k : Fin g.edges.length} {kind : Gas.Kind} {n : ℕ}
    (hk : (toNet hc).edge k = .gas kind n) {i : ℕ} (ht : i < times.length) (hs : i < states.length) {e : Json}
    (h : Output.Shows ⟨g.edges[k].id, "connections", (edge k).1, ((toNet hc).edgeRange k).1.toNat, gasKind n kind⟩
      times[i] (listOf (toNet hc).stateCount states[i]) e) :
    ShowsGas (resultsOf hc f.topology last times states) g.edges[k].id times[i] i e := by
  have hx : states.getD i 0 = states[i] := by simp [hs]
  obtain ⟨-, h1, h2⟩ := S.stop_eq hf k (by rw [hk]; rfl)
  obtain ⟨b0, b1⟩ := inRange_edge k (by omega)
  have value : ∀ j : ℕ, j < edgeNeed ((toNet hc).edge k) →
      (listOf (toNet hc).stateCount states[i]).getD (((toNet hc).edgeRange k).1.toNat + j) 0 =
        states[i] (((toNet hc).edgeRange k).1 + j) := by
    intro j hj
    rw [listOf_getD _ _ (by omega)]
    push_cast
    rw [Int.toNat_of_nonneg b0]
  have v0 := fun h => value 0 h
  simp only [add_zero, Nat.cast_zero] at v0
  unfold ShowsGas
  simp only [S.points_eq, S.position_eq, S.pressure_eq, S.flow_eq, hx]
  unfold pointsOf positionOf Net.pressureOf
  rw [hk] at value v0 ⊢
  obtain ⟨h3, h4⟩ := h
  refine ⟨h3, ?_⟩
  cases kind with
  | pipe dx d r =>
    have en : edgeNeed (.gas (.pipe dx d r) n) = 2 * n := rfl
    rw [en] at value
    simp only [gasKind] at h4
    rw [show edgeNeed (.gas (.pipe dx d r) n) / 2 = n by simp [edgeNeed]]
    refine ⟨?_, ?_⟩
    · refine (congrArg (Output.Lists e "pressure") (List.map_congr_left fun j hj => ?_)).mp h4.1
      rw [value (2 * j) (by have := List.mem_range.mp hj; omega)]
      simp only [Euler.toBar, Euler.bar]
      push_cast
      rfl
    · refine (congrArg (Output.Lists e "flow") (List.map_congr_left fun j hj => ?_)).mp h4.2
      rw [show ((toNet hc).edgeRange k).1.toNat + 2 * j + 1 = ((toNet hc).edgeRange k).1.toNat + (2 * j + 1) by ring,
        value (2 * j + 1) (by have := List.mem_range.mp hj; omega)]
      push_cast
      rw [add_assoc]
  | gaspower a b =>
    simp only [gasKind] at h4
    rw [v0 (by simp [edgeNeed]), value 1 (by simp [edgeNeed])] at h4
    simpa [edgeNeed] using h4
  | _ =>
    simp only [gasKind] at h4
    rw [v0 (by simp [edgeNeed]), value 1 (by simp [edgeNeed]), value 2 (by simp [edgeNeed]), value 3 (by simp [edgeNeed])] at h4
    simp only [edgeNeed, show 4 / 2 = 2 from rfl, List.range_succ, List.range_zero, List.nil_append, List.map_cons,
      List.map_nil, List.cons_append]
    norm_num
    norm_num at h4
    simpa [add_assoc] using h4

omit S [Printed ℝ] in
theorem find_id {j : Json} {s : String} (h : j.find? "id" = some (str s)) : id? j = some s := by
  unfold id?; rw [h]

omit S [Printed ℝ] in
theorem output_ids (hids : (g.nodes.map Node.id ++ g.edges.map Edge.id).Nodup) :
    ((outputComponents hc f.topology last).map Output.Component.id).Nodup := by
  refine List.Sublist.nodup ?_ hids
  unfold outputComponents
  rw [List.map_append]
  have e1 : g.nodes.map Node.id = (List.finRange g.nodes.length).map fun v => g.nodes[v].id := by
    rw [← List.ofFn_eq_map]
    exact List.ext_getElem (by simp) (by simp)
  have e2 : g.edges.map Edge.id = (List.finRange g.edges.length).map fun v => g.edges[v].id := by
    rw [← List.ofFn_eq_map]
    exact List.ext_getElem (by simp) (by simp)
  rw [e1, e2]
  refine (sublist_filterMap fun v c h => ?_).append (sublist_filterMap fun k c h => ?_)
  · unfold outputNode at h
    split at h
    · injection h with h; rw [← h]
    · cases h
  · unfold outputEdge at h
    split at h
    · injection h with h; rw [← h]
    · cases h

/-- The file that is written shows the results. -/
theorem shown_of (hf : Fit f.defaults f.topology) (hids : (g.nodes.map Node.id ++ g.edges.map Edge.id).Nodup)
    (hlen : states.length = times.length)
    (hr : ∀ v : Fin g.nodes.length, ((toNet hc).node v).kind.isPower = true → ∀ i (ht : i < times.length) (hs : i < states.length),
      ∃ p q, reported hc (node v).1 last v times[i] (listOf (toNet hc).stateCount states[i]) = Res.ok [("P", p), ("Q", q)]) :
    ∃ out, Output.statesJson (outputComponents hc f.topology last) (times.zip (states.map (listOf (toNet hc).stateCount))) =
      Res.ok out ∧ ShownIn out f.topology times (resultsOf hc f.topology last times states) := by
  have hsave : ∀ i (h : i < (times.zip (states.map (listOf (toNet hc).stateCount))).length),
      ∃ (ht : i < times.length) (hs : i < states.length), (times.zip (states.map (listOf (toNet hc).stateCount)))[i] =
        (times[i], listOf (toNet hc).stateCount states[i]) := by
    intro i h
    have h' : i < times.length := by
      rw [List.length_zip] at h
      omega
    exact ⟨h', by omega, by simp⟩
  obtain ⟨out, h1, h2⟩ := Output.C79_states (saves := times.zip (states.map (listOf (toNet hc).stateCount)))
    (S.sensible last hf) (by
      intro c hm s hs
      obtain ⟨i, hi, rfl⟩ := List.mem_iff_getElem.mp hs
      obtain ⟨ht, hs', e⟩ := hsave i hi
      rw [e]
      refine ⟨S.fitsIn last hf _ c hm, ?_⟩
      unfold Output.Reports
      rcases (mem_output last).mp hm with ⟨v, h⟩ | ⟨k, h⟩
      · obtain ⟨hp, rfl⟩ := S.output_node last h
        obtain ⟨p, q, h3⟩ := hr v hp i ht hs'
        exact ⟨_, h3⟩
      · obtain ⟨-, kind, n, -, rfl⟩ := S.output_edge h
        cases kind <;> trivial)
  -- one component
  have one : ∀ {c : Output.Component ℝ} {j : Json} (entry : ℝ → ℕ → Json → Prop),
      Output.IsOutput (times.zip (states.map (listOf (toNet hc).stateCount))) c j →
      (∀ i (ht : i < times.length) (hs : i < states.length) e,
        Output.Shows c times[i] (listOf (toNet hc).stateCount states[i]) e → entry times[i] i e) →
      id? j = some c.id ∧ ∃ es, j.find? "data" = some (arr es) ∧ es.length = times.length ∧
        ∀ i (h : i < times.length) (h' : i < es.length), entry times[i] i es[i] := by
    intro c j entry ⟨h3, es, h4, h5⟩ he
    refine ⟨find_id h3, es, h4, ?_, fun i h h' => ?_⟩
    · have := h5.length_eq
      rw [List.length_zip, List.length_map] at this
      omega
    · have hz : i < (times.zip (states.map (listOf (toNet hc).stateCount))).length := by rw [h5.length_eq]; exact h'
      obtain ⟨ht, hs, e⟩ := hsave i hz
      have := (List.forall₂_iff_get.mp h5).2 i hz h'
      simp only [List.get_eq_getElem] at this
      rw [e] at this
      exact he i ht hs _ this
  refine ⟨out, h1, ⟨fun type x id hmem hp hid => ?_, fun type x id hmem hp hid => ?_, fun cls type => ?_,
    fun cls type j hj => ?_⟩⟩
  · obtain ⟨v, hv⟩ := S.of_node hmem
    have kind := (S.nodeMatch v).kind
    have hid' := S.nodeId v
    have hty : (node v).1 = type := by rw [hv]
    rw [hv] at kind hid'
    have hpow := kind_power hp kind
    obtain rfl : id = g.nodes[v].id := Option.some.inj (hid.symm.trans hid')
    have hc1 : outputNode hc f.topology last v = some _ := if_pos hpow
    have hmm := (mem_output (f := f) last).mpr (.inl ⟨v, hc1⟩)
    obtain ⟨-, hceq⟩ := S.output_node last hc1
    rw [hceq, hty] at hmm
    obtain ⟨j, hj, h3⟩ := forall₂_mem_left (h2 "nodes" type) (List.mem_filter.mpr ⟨hmm, by simp⟩)
    rw [← hty] at h3
    exact ⟨j, hj, one _ h3 fun i ht hs e he => S.shows_power last times states hpow ht hs he (hr v hpow i ht hs)⟩
  · obtain ⟨k, hk⟩ := S.of_edge hmem
    have hid' := S.edgeId k
    have hty : (edge k).1 = type := by rw [hk]
    rw [hk] at hid'
    obtain rfl : id = g.edges[k].id := Option.some.inj (hid.symm.trans hid')
    have hg := (S.gas_iff k).mpr (by rw [hty]; exact hp)
    obtain ⟨kind, n, he⟩ := isGas_iff.mp hg
    have hc1 : ∃ c, outputEdge hc k = some c := by
      unfold outputEdge
      rw [he]
      exact ⟨_, rfl⟩
    obtain ⟨c, hc1⟩ := hc1
    have hmm := (mem_output (f := f) last).mpr (.inr ⟨k, hc1⟩)
    obtain ⟨-, kind', n', he', hceq⟩ := S.output_edge hc1
    rw [hceq, hty] at hmm
    obtain ⟨j, hj, h3⟩ := forall₂_mem_left (h2 "connections" type) (List.mem_filter.mpr ⟨hmm, by simp⟩)
    rw [← hty] at h3
    exact ⟨j, hj, one _ h3 fun i ht hs e hs' => S.shows_gas last times states hf he' ht hs hs'⟩
  · have e : (Output.list out cls type).map id? =
        ((outputComponents hc f.topology last).filter fun c => c.cls = cls ∧ c.type = type).map fun c => some c.id := by
      have := h2 cls type
      clear h1 h2
      generalize (outputComponents hc f.topology last).filter _ = l at this
      generalize Output.list out cls type = m at this
      induction this with
      | nil => rfl
      | cons h _ ih => rw [List.map_cons, List.map_cons, ih, find_id h.1]
    rw [e, show (fun c : Output.Component ℝ => some c.id) = some ∘ Output.Component.id from rfl, ← List.map_map]
    refine List.Nodup.map (Option.some_injective _) ?_
    exact List.Sublist.nodup (List.filter_sublist.map _) (output_ids last hids)
  · obtain ⟨c, hcm, h3⟩ := forall₂_mem_right (h2 cls type) hj
    obtain ⟨hm, hct⟩ := List.mem_filter.mp hcm
    simp only [decide_eq_true_eq] at hct
    obtain ⟨rfl, rfl⟩ := hct
    rw [find_id h3.1]
    rcases (mem_output last).mp hm with ⟨v, h⟩ | ⟨k, h⟩
    · obtain ⟨hp, rfl⟩ := S.output_node last h
      exact ⟨(node v).2, S.node_mem v, S.nodeId v⟩
    · obtain ⟨-, kind, n, -, rfl⟩ := S.output_edge h
      exact ⟨(edge k).2, S.edge_mem k, S.edgeId k⟩

end Sited
end

end Verif.Read
