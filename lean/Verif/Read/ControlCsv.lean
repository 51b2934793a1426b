import Verif.Read.Replay
import Verif.Read.Csv
import Verif.Read.ReplayExample
import Verif.Output.ControlCsv

/-!
# Property C133: exporting the controls of an optimization as csv files

The program for exporting controls (see `Verif.Output.ControlCsv`) looks for components by bisection. It finds every component of a file
of controls that an optimization has written, and its tables show exactly the controls.
-/

set_option autoImplicit false

namespace Verif.Read

open Verif.Json Verif.Factory Verif.Interp Verif.Schema Verif.Initial Verif.Times Verif.Newton Verif.Evolve Network Net
open Verif.Output (Printed)

/-! ## Specification -/

/-- The types of components with controls. -/
def controlTypes : List String := ["Compressorstation", "Controlvalve"]

/-- The topology has a component with a control that has this id. -/
def HasControl (topology : Json) (id : String) : Prop :=
  ∃ type x, (type, x) ∈ entries (types topology "connections") ∧ type ∈ controlTypes ∧ id? x = some id

/-- The file of controls lists these times and controls for the component with the id. -/
def ListsControls [Printed ℝ] (controls : Json) (id : String) (rows : List (ℝ × ℝ)) : Prop :=
  ∃ e ∈ components controls, id? e = some id ∧ ∃ es, e.find? "data" = some (arr es) ∧ List.Forall₂ Output.ControlRow rows es

/-! ## Proofs -/

section
variable {f : Files} {g : Graph Network.Node EdgeKind} {hc : Consistent g}
  {node : Fin g.nodes.length → String × Json} {edge : Fin g.edges.length → String × Json}
  (S : Sited f.defaults f.topology hc node edge)
include S

/-- The edges with controls. -/
theorem Sited.control_iff (k : Fin g.edges.length) : ((toNet hc).edge k).isControl ↔ (edge k).1 ∈ controlTypes := by
  have hm := S.edgeMatch k
  generalize (edge k).1 = type at hm
  generalize (toNet hc).edge k = e at hm
  cases hm <;> simp [controlTypes, Network.EdgeKind.isControl]

/-- A component with output of controls. -/
theorem Sited.output_control {k : Fin g.edges.length} {c : Output.Control} (h : outputControl hc k = some c) :
    (edge k).1 ∈ controlTypes ∧
      c = ⟨g.edges[k].id, "connections", (edge k).1, ((toNet hc).controlRange k).1.toNat, 1⟩ := by
  refine ⟨(S.control_iff k).mp (outputControl_of hc h).2.2.1, ?_⟩
  unfold outputControl at h
  split at h
  · next kind n hk =>
    split at h
    · injection h with h
      have : gasType kind = (edge k).1 := by
        have hm := S.edgeMatch k
        rw [hk] at hm
        generalize (edge k).1 = type at hm
        cases hm <;> rfl
      rw [← this]
      exact h.symm
    · cases h
  · cases h

/-- Components with controls that have the same type are in the order of their ids. -/
theorem Sited.control_order (h2 : InOrder f.topology "connections" (g.edges.map Edge.id)) :
    (outputControls hc).Pairwise fun a b => a.type = b.type → a.id < b.id := by
  unfold outputControls
  rw [List.pairwise_filterMap]
  refine (List.pairwise_lt_finRange _).imp fun {v w} hvw a ha b hb ht => ?_
  obtain ⟨-, rfl⟩ := S.output_control ha
  obtain ⟨-, rfl⟩ := S.output_control hb
  simp only at ht ⊢
  have := List.pairwise_iff_getElem.mp h2 v.val w.val (by simp) (by simp) hvw
  simp only [List.getElem_map] at this
  have hx := S.edge_mem v
  rw [show edge v = ((edge w).1, (edge v).2) by rw [← ht]] at hx
  exact this (edge w).1 (edge v).2 (edge w).2 hx (S.edge_mem w) (S.edgeId v) (S.edgeId w)

/-- The component of the topology with an id. -/
theorem Sited.controlled {id : String} (h : HasControl f.topology id) :
    ∃ k c, outputControl hc k = some c ∧ g.edges[k].id = id := by
  obtain ⟨type, x, hx, hty, hid⟩ := h
  obtain ⟨k, hk⟩ := List.mem_ofFn.mp (S.edges.mem_iff.mpr hx)
  obtain ⟨c, hcs⟩ := outputControl_some hc (k := k) ((S.control_iff k).mpr (by rw [hk]; exact hty))
  refine ⟨k, c, hcs, ?_⟩
  have := S.edgeId k
  rw [hk] at this
  exact Option.some.inj (this.symm.trans hid)

theorem Sited.has_control {k : Fin g.edges.length} {c : Output.Control} (h : outputControl hc k = some c) :
    HasControl f.topology c.id := by
  obtain ⟨h1, rfl⟩ := S.output_control h
  exact ⟨(edge k).1, (edge k).2, S.edge_mem k, h1, S.edgeId k⟩

end

section
variable [Printed ℝ] {draws : Json → Res (ℝ → Res (ℝ × ℝ))} {mem : ℕ → ℝ} {lu : Solve} {fuel : ℕ} {s : Settings} {every : ℤ}
  {f : Files} {b : Bounds}

omit [Printed ℝ] in
/-- The controls of an optimization. -/
theorem optimization_controls (hlt : s.start < s.stop) (hdes : 0 < s.desired) {P : Nlp}
    (h : optimization draws mem lu fuel s every f b = Res.ok P) {g : Graph Network.Node EdgeKind}
    (hg : readNet draws mem f.defaults f.topology f.boundary = Res.ok g) (hc : Consistent g) :
    P.controls = (toNet hc).controlCount ∧ P.controlTimes ≠ [] := by
  unfold optimization at h
  obtain ⟨times, ht, h⟩ := Res.bind_eq_ok.mp h
  rw [hg, Res.ok_bind, dif_pos hc] at h
  obtain ⟨_, -, h⟩ := Res.bind_eq_ok.mp h
  obtain ⟨_, -, h⟩ := Res.bind_eq_ok.mp h
  simp only at h
  split at h
  · obtain ⟨cgrid, hgrid, h⟩ := Res.bind_eq_ok.mp h
    iterate 17 obtain ⟨_, -, h⟩ := Res.bind_eq_ok.mp h
    injection h with h
    subst h
    refine ⟨rfl, ?_⟩
    rintro (rfl : cgrid = [])
    exact absurd (controlGrid_times hlt hdes ht hgrid).2.2 (by simp)
  · cases h

/-- C133. Whenever an optimization writes a file of controls, exactly the controls of compressor stations and control valves can be
exported from it: the table has a row for each control time, with the time and the control of the component at this time, as they are in
the file. These are the numbers of the vector Ipopt has returned, where each component has its own place. For other ids no file is
written. (Tables must be in the current directory, which depends on the id.) -/
theorem C133_export (ho : f.topology.isObj = true) (hs : Shaped f.topology) (hd : DistinctTypes f.topology) (sb : Shaped f.boundary)
    (db : DistinctTypes f.boundary) (hf : Fit f.defaults f.topology) (hlt : s.start < s.stop) (hdes : 0 < s.desired)
    {P : Nlp} (hP : optimization draws mem lu fuel s every f b = Res.ok P) {x : List ℝ} {controls : Json} {states : Option Json}
    (h : optimizedFiles draws mem lu fuel s every f b x = Res.ok (controls, states)) (inRoot : String → Bool) :
    ∃ place : String → ℕ,
      (∀ id, HasControl f.topology id → place id < P.controls) ∧
      (∀ i < P.controls, ∃ id, HasControl f.topology id ∧ place id = i) ∧
      (∀ id id', HasControl f.topology id → HasControl f.topology id' → place id = place id' → id = id') ∧
      (∀ id, HasControl f.topology id → inRoot (id ++ ".csv") = true →
        ∃ values : List ℝ, values.length = P.controlTimes.length ∧
          (∀ i < values.length, x[i * P.controls + place id]? = values[i]?) ∧
          ListsControls controls id (P.controlTimes.zip values) ∧
          Output.controlCsv inRoot controls id = Res.ok (some (Output.controlTable (id ++ ".csv") (P.controlTimes.zip values)))) ∧
      ∀ id, ¬ HasControl f.topology id → Output.controlCsv inRoot controls id = Res.ok none := by
  unfold optimizedFiles at h
  rw [hP, Res.ok_bind] at h
  obtain ⟨-, -, h⟩ := Res.bind_eq_ok.mp h
  obtain ⟨z, hz, h⟩ := Res.bind_eq_ok.mp h
  obtain ⟨g, hg, h⟩ := Res.bind_eq_ok.mp h
  split at h
  swap
  · cases h
  next hc =>
  obtain ⟨j, hj, h⟩ := Res.bind_eq_ok.mp h
  have hj' : j = controls := by
    split at h
    · obtain ⟨_, -, h⟩ := Res.bind_eq_ok.mp h
      injection h with h
      exact congrArg Prod.fst h
    · injection h with h
      exact congrArg Prod.fst h
  subst hj'
  clear h
  have hx := simulation_length hP hz
  obtain ⟨hcount, hne⟩ := optimization_controls hlt hdes hP hg hc
  rw [hcount] at hx
  obtain ⟨nodes, edges, h1, h2, h3⟩ := readNet_ok hg
  have hp := proper_of h1 h2 hs hd
  obtain ⟨-, o2⟩ := buildNet_order hp ho sb db h3
  obtain ⟨node, edge, S⟩ := sited_of hs hd hg hf hc
  have hbound : ∀ {k : Fin g.edges.length}, ((toNet hc).edge k).isControl →
      0 ≤ ((toNet hc).controlRange k).1 ∧ ((toNet hc).controlRange k).1.toNat < (toNet hc).controlCount := by
    intro k hk
    obtain ⟨k0, k1⟩ := Admissible.control_bounds (N := toNet hc) hk
    unfold Net.controlCount
    exact ⟨k0, by omega⟩
  have hwq : (printed hc P.controlTimes x).WF := by simp [IV.WF, printed, hx, mul_comm]
  obtain ⟨j', hj', hgood, hlist⟩ := Output.C81_written (cs := outputControls hc) hwq (by
    intro c hcm
    obtain ⟨k, hk⟩ := (mem_outputControls hc).mp hcm
    obtain ⟨-, e2, e3, e4, -⟩ := outputControl_of hc hk
    rw [e2, e4]
    exact (hbound e3).2)
  obtain rfl : j' = j := Res.ok.inj (hj'.symm.trans hj)
  have idOf : ∀ c o, Output.IsControls (printed hc P.controlTimes x) c o → id? o = some c.id := fun c o ho => Sited.find_id ho.1
  -- the entries of the file
  have mem : ∀ cls type, ∀ o ∈ Output.list j' cls type, ∃ k c, outputControl hc k = some c ∧ cls = "connections" ∧ c.type = type ∧
      Output.IsControls (printed hc P.controlTimes x) c o := by
    intro cls type o hm
    obtain ⟨c, hcm, h3⟩ := forall₂_mem_right (hlist cls type) hm
    obtain ⟨hm, hct⟩ := List.mem_filter.mp hcm
    simp only [decide_eq_true_eq] at hct
    obtain ⟨k, hk⟩ := (mem_outputControls hc).mp hm
    exact ⟨k, c, hk, hct.1.symm.trans (outputControl_of hc hk).2.2.2.2, hct.2, h3⟩
  have sorted : ∀ cls type, SortedById (Output.list j' cls type) := by
    intro cls type
    refine sortedById_map (hlist cls type) idOf ?_
    have := (S.control_order o2).filter fun c => decide (c.cls = cls ∧ c.type = type)
    refine this.imp_of_mem fun {a b} ha hb hab => ?_
    obtain ⟨-, ha⟩ := List.mem_filter.mp ha
    obtain ⟨-, hb⟩ := List.mem_filter.mp hb
    simp only [decide_eq_true_eq] at ha hb
    exact hab (ha.2.trans hb.2.symm)
  have sortedFile : Output.SortedFile j' := fun cls type => ⟨sorted cls type, fun a ha => by
    obtain ⟨_, c, -, -, -, h3⟩ := mem cls type a ha
    exact ⟨_, idOf _ _ h3⟩⟩
  classical
  let place : String → ℕ := fun id =>
    if h : ∃ k : Fin g.edges.length, ((toNet hc).edge k).isControl ∧ g.edges[k].id = id then ((toNet hc).controlRange h.choose).1.toNat else 0
  have hplace : ∀ k : Fin g.edges.length, ((toNet hc).edge k).isControl →
      place g.edges[k].id = ((toNet hc).controlRange k).1.toNat := by
    intro k hk
    have hex : ∃ l : Fin g.edges.length, ((toNet hc).edge l).isControl ∧ g.edges[l].id = g.edges[k].id := ⟨k, hk, rfl⟩
    show (if h : _ then _ else _) = _
    rw [dif_pos hex, S.edgeInj _ _ hex.choose_spec.2]
  refine ⟨place, fun id hid => ?_, fun i hi => ?_, fun id id' hid hid' e => ?_, fun id hid hroot => ?_, fun id hid => ?_⟩
  · obtain ⟨k, c, hk, rfl⟩ := S.controlled hid
    have := (outputControl_of hc hk).2.2.1
    rw [hplace k this, hcount]
    exact (hbound this).2
  · rw [hcount] at hi
    obtain ⟨k, hk, e⟩ := control_cover hi
    obtain ⟨c, hcs⟩ := outputControl_some hc hk
    refine ⟨c.id, S.has_control hcs, ?_⟩
    rw [(outputControl_of hc hcs).1, hplace k hk, e]
    rfl
  · obtain ⟨k, c, hk, rfl⟩ := S.controlled hid
    obtain ⟨l, d, hl, rfl⟩ := S.controlled hid'
    have hk := (outputControl_of hc hk).2.2.1
    have hl := (outputControl_of hc hl).2.2.1
    rw [hplace k hk, hplace l hl] at e
    have h5 := hbound hk
    have h6 := hbound hl
    rw [control_unique hk hl (by omega)]
  · obtain ⟨k, c, hk, rfl⟩ := S.controlled hid
    obtain ⟨hty, hceq⟩ := S.output_control hk
    have hk' := (outputControl_of hc hk).2.2.1
    obtain ⟨o, hom, hoc⟩ := forall₂_mem_left (hlist "connections" (edge k).1)
      (List.mem_filter.mpr ⟨(mem_outputControls hc).mpr ⟨k, hk⟩, by rw [hceq]; simp⟩)
    have hoid : id? o = some g.edges[k].id := by rw [idOf _ _ hoc, hceq]
    have hsearch : Output.search Output.controlKind (fun _ k => k) g.edges[k].id j' = Res.ok (.object o ()) := by
      refine Output.search_found hgood sortedFile (by simp [classes]) hom hoid ?_ fun cls' _ type' o' ho' hid' => ?_
      · simp only [controlTypes, List.mem_cons, List.not_mem_nil, or_false] at hty
        rcases hty with h | h <;> rw [h] <;> decide
      · obtain ⟨l, d, hl, rfl, rfl, h3⟩ := mem cls' type' o' ho'
        obtain ⟨-, hdeq⟩ := S.output_control hl
        have : l = k := by
          refine S.edgeInj _ _ ?_
          rw [idOf _ _ h3, hdeq] at hid'
          exact Option.some.inj hid'
        subst this
        obtain rfl : d = c := Option.some.inj (hl.symm.trans hk)
        have ht : d.type = (edge l).1 := by rw [hdeq]
        rw [ht] at ho'
        refine ⟨rfl, ht, ?_⟩
        obtain ⟨m, hm, rfl⟩ := List.getElem_of_mem hom
        obtain ⟨n, hn, rfl⟩ := List.getElem_of_mem ho'
        rcases lt_trichotomy m n with hmn | rfl | hmn
        · obtain ⟨a, b, e1, e2, hab⟩ := List.pairwise_iff_getElem.mp (sorted _ _) m n hm hn hmn
          rw [hoid] at e1; rw [hid'] at e2
          cases e1; cases e2
          exact absurd hab (lt_irrefl _)
        · rfl
        · obtain ⟨a, b, e1, e2, hab⟩ := List.pairwise_iff_getElem.mp (sorted _ _) n m hn hm hmn
          rw [hid'] at e1; rw [hoid] at e2
          cases e1; cases e2
          exact absurd hab (lt_irrefl _)
    obtain ⟨-, es, hes, hpts, -⟩ := hoc
    have hlt' : ∀ i < P.controlTimes.length, i * (toNet hc).controlCount + ((toNet hc).controlRange k).1.toNat < x.length := by
      intro i hi
      rw [hx, mul_comm (toNet hc).controlCount]
      calc _ < i * (toNet hc).controlCount + (toNet hc).controlCount := by have := (hbound hk').2; omega
        _ = (i + 1) * (toNet hc).controlCount := by ring
        _ ≤ P.controlTimes.length * (toNet hc).controlCount := Nat.mul_le_mul_right _ hi
    set values : List ℝ := (List.range P.controlTimes.length).map fun i =>
      x.getD (i * (toNet hc).controlCount + ((toNet hc).controlRange k).1.toNat) 0 with hvalues
    have hlen : es.length = P.controlTimes.length := by
      rw [hpts.length_eq]
      simp [Output.controlPoints, printed]
    have hrows : List.Forall₂ Output.ControlRow (P.controlTimes.zip values) es := by
      rw [List.forall₂_iff_get]
      refine ⟨by simp [hvalues, hlen], fun i hi hi' => ?_⟩
      have h6 := (List.forall₂_iff_get.mp hpts).2 i hi' (by rw [← hpts.length_eq]; exact hi')
      have hi2 : i < P.controlTimes.length := by omega
      simp only [List.get_eq_getElem, Output.controlPoints, printed, List.getElem_map, List.getElem_range, hceq] at h6
      obtain ⟨h7, h8⟩ := h6
      simp only [List.get_eq_getElem, List.getElem_zip, hvalues, List.getElem_map, List.getElem_range, Output.ControlRow]
      refine ⟨by rw [h7]; simp [hi2], ?_⟩
      rw [h8]
      have := hlt' i hi2
      simp [this]
    refine ⟨values, by simp [hvalues], fun i hi => ?_, ⟨o, ?_, hoid, es, hes, hrows⟩, ?_⟩
    · have hi2 : i < P.controlTimes.length := by simpa [hvalues] using hi
      have := hlt' i hi2
      rw [hplace k hk', hcount]
      simp [hvalues, hi2, this]
    · exact (Output.mem_components hgood o).mpr ⟨"connections", by simp [classes], _, hom⟩
    · unfold Output.controlCsv
      rw [hsearch, Res.ok_bind]
      simp only
      rw [Output.controlTableOf_eq ?_ hroot hes hrows]
      intro h0
      have : (P.controlTimes.zip values).length = 0 := by rw [h0]; rfl
      simp only [hvalues, List.length_zip, List.length_map, List.length_range, min_self] at this
      exact hne (List.eq_nil_of_length_eq_zero this)
  · unfold Output.controlCsv
    rw [Output.search_nothing hgood sortedFile fun cls _ type o hom e => hid ?_]
    · rfl
    · obtain ⟨k, c, hk, -, -, h3⟩ := mem cls type o hom
      rw [idOf _ _ h3] at e
      rw [← Option.some.inj e]
      exact S.has_control hk

end

/-- C133 applies to the optimization of C104: the compressor raises the pressure by 10 bar, the table of its controls is exported, and for the
sink there is none. -/
example (draws : Json → Res (ℝ → Res (ℝ × ℝ))) (hdraw : ∀ data, draws data = Res.throws) (mem : ℕ → ℝ) (lu : Solve) :
    let _ : Printed ℝ := whole
    ∃ controls states, optimizedFiles draws mem lu 10 settingsC 1 filesK boundsK [10, 10] = Res.ok (controls, some states) ∧
      Output.controlCsv (fun _ => true) controls "c" = Res.ok (some ⟨"c.csv", [.text "time", .text "control_0"],
        [[.value (num 0), .value (num 10)], [.value (num 60), .value (num 10)]]⟩) ∧
      Output.controlCsv (fun _ => true) controls "b" = Res.ok none := by
  intro _
  obtain ⟨hc, -⟩ := C100_partial rfl shaped_k.1.1 shaped_k.1.2 shaped_k.2.1 shaped_k.2.2 (read_k draws mem) fit_k
  obtain ⟨hP, hz, -⟩ := optimization_k hc draws mem lu
  have hd : ∀ data d, draws data = Res.ok d → ∀ t : ℝ, settingsC.start ≤ t → t ≤ settingsC.stop → ∃ b, d t = Res.ok b := by
    intro data d hd
    rw [hdraw] at hd
    cases hd
  have exact_nat : ∀ n : ℕ, Exactly (n : ℝ) := by
    intro n
    show (((⌊(n : ℝ)⌋ : ℤ) : ℚ) : ℝ) = n
    simp
  have hc1 : ∀ v ∈ [(0 : ℝ), 60], Exactly v := by
    simp only [List.mem_cons, List.not_mem_nil, or_false, forall_eq_or_imp, forall_eq]
    exact ⟨by simpa using exact_nat 0, by simpa using exact_nat 60⟩
  have hc2 : ∀ v ∈ [(10 : ℝ), 10], Exactly v := by
    simp only [List.mem_cons, List.not_mem_nil, or_false, forall_eq_or_imp, forall_eq]
    exact ⟨by simpa using exact_nat 10, by simpa using exact_nat 10⟩
  obtain ⟨controls, states, h⟩ := C116_written (f := filesK) (s := settingsC) (z := [ext (stateK hc), ext (stateK hc)]) rfl shaped_k.1.1
    shaped_k.1.2 shaped_k.2.1 shaped_k.2.2 fit_k (by norm_num [settingsC]) (by norm_num [settingsC]) (by norm_num [settingsC])
    (fun t h0 h1 => covers_k h0 (h1.trans (by norm_num [settingsC]))) hd hP (show 0 < 1 by decide) hz hc1 hc2
  obtain ⟨place, h1, -, -, h4, h5⟩ := C133_export (f := filesK) (s := settingsC) rfl shaped_k.1.1 shaped_k.1.2 shaped_k.2.1 shaped_k.2.2 fit_k
    (by norm_num [settingsC]) (by norm_num [settingsC]) hP h fun _ => true
  have hin : HasControl filesK.topology "c" := ⟨"Compressorstation", edgeC, List.mem_singleton.mpr rfl, by decide, rfl⟩
  refine ⟨controls, states, h, ?_, h5 "b" ?_⟩
  · obtain ⟨values, v1, v2, -, v4⟩ := h4 "c" hin rfl
    have hn : (problemK hc lu).controls = 1 := rfl
    have hp0 := h1 "c" hin
    rw [hn, Nat.lt_one_iff] at hp0
    rw [hn, hp0] at v2
    change values.length = 2 at v1
    match values, v1 with
    | [a, b], _ =>
      have e0 := v2 0 (by simp)
      have e1 := v2 1 (by simp)
      simp only [List.getElem?_cons_zero, List.getElem?_cons_succ, Nat.zero_mul, Nat.add_zero, Nat.one_mul, Option.some.injEq] at e0 e1
      subst e0 e1
      rw [v4]
      have p0 : Printed.value (0 : ℝ) = 0 := by show ((⌊(0 : ℝ)⌋ : ℤ) : ℚ) = 0; simp
      have p1 : Printed.value (60 : ℝ) = 60 := by show ((⌊(60 : ℝ)⌋ : ℤ) : ℚ) = 60; norm_num
      have p2 : Printed.value (10 : ℝ) = 10 := by show ((⌊(10 : ℝ)⌋ : ℤ) : ℚ) = 10; norm_num
      show Res.ok (some (⟨_, _, [[.value (num (Printed.value (0 : ℝ))), .value (num (Printed.value (10 : ℝ)))],
        [.value (num (Printed.value (60 : ℝ))), .value (num (Printed.value (10 : ℝ)))]]⟩ : Output.Csv)) = _
      rw [p0, p1, p2]
      rfl
  · rintro ⟨type, x, hx, -, hid⟩
    rw [(Prod.mk.inj (List.mem_singleton.mp (show (type, x) ∈ [("Compressorstation", edgeC)] from hx))).2] at hid
    exact absurd hid (by decide)

end Verif.Read
