import Verif.Read.ResultsLost
import Verif.Graph.Order
import Verif.Output.Csv

/-!
# Property C117: exporting results of a run as csv files

The program for exporting (see `Verif.Output.Csv`) looks for components by bisection. It finds every component of a file
of results that a run has written, as the results are in the order of ids there, and its tables show exactly the results.
-/

set_option autoImplicit false

namespace Verif.Read

open Verif.Json Verif.Factory Verif.Interp Verif.Schema Verif.Initial Verif.Times Verif.Newton Verif.Evolve Network Net
open Verif.Output (Printed)

/-! ## What a file of results looks like -/

/-- The types of gas components. -/
def gasEdges : List String := ["Compressorstation", "Controlvalve", "Gaspowerconnection", "Pipe", "Shortpipe"]

/-- The file can be searched, and its entries have exactly the keys that are expected. -/
structure Exportable (out : Json) : Prop where
  good : Output.Good out
  sorted : Output.SortedFile out
  unique : ∀ cls type o cls' type' o' id, o ∈ Output.list out cls type → o' ∈ Output.list out cls' type' → id? o = some id →
    id? o' = some id → cls' = cls ∧ type' = type ∧ o' = o
  kinds : ∀ type, (∀ o ∈ Output.list out "nodes" type, type ∈ powerNodes) ∧ ∀ o ∈ Output.list out "connections" type, type ∈ gasEdges
  gas : ∀ type, ∀ o ∈ Output.list out "connections" type, ∀ es, o.find? "data" = some (arr es) →
    ∀ e ∈ es, Output.HasKeys e ["flow", "pressure", "time"]
  power : ∀ type, ∀ o ∈ Output.list out "nodes" type, ∀ es, o.find? "data" = some (arr es) →
    ∀ e ∈ es, Output.HasKeys e ["P", "Q", "V", "phi", "time"]

theorem sortedById_map {α : Type} {R : α → Json → Prop} {id : α → String} {cs : List α} {os : List Json}
    (h : List.Forall₂ R cs os) (hid : ∀ c o, R c o → id? o = some (id c)) (hs : cs.Pairwise fun a b => id a < id b) :
    SortedById os := by
  induction h with
  | nil => exact .nil
  | cons h1 h2 ih =>
    obtain ⟨p1, p2⟩ := List.pairwise_cons.mp hs
    refine .cons (fun o ho => ?_) (ih p2)
    obtain ⟨c, hc, hr⟩ := forall₂_mem_right h2 ho
    exact ⟨_, _, hid _ _ h1, hid _ _ hr, p1 c hc⟩

section
variable [Printed ℝ] {f : Files} {g : Graph Network.Node EdgeKind} {hc : Consistent g}
  {node : Fin g.nodes.length → String × Json} {edge : Fin g.edges.length → String × Json}
  (S : Sited f.defaults f.topology hc node edge) (last : ℝ)
include S

omit [Printed ℝ] in
/-- Components with output that have the same type are in the order of their ids. -/
theorem Sited.output_order (h1 : InOrder f.topology "nodes" (g.nodes.map Node.id))
    (h2 : InOrder f.topology "connections" (g.edges.map Edge.id)) :
    (outputComponents hc f.topology last).Pairwise fun a b => a.cls = b.cls → a.type = b.type → a.id < b.id := by
  unfold outputComponents
  rw [List.pairwise_append]
  refine ⟨?_, ?_, ?_⟩
  · rw [List.pairwise_filterMap]
    refine (List.pairwise_lt_finRange _).imp fun {v w} hvw a ha b hb _ ht => ?_
    obtain ⟨-, rfl⟩ := S.output_node last ha
    obtain ⟨-, rfl⟩ := S.output_node last hb
    simp only at ht ⊢
    have := List.pairwise_iff_getElem.mp h1 v.val w.val (by simp) (by simp) hvw
    simp only [List.getElem_map] at this
    have hx := S.node_mem v
    rw [show node v = ((node w).1, (node v).2) by rw [← ht]] at hx
    exact this (node w).1 (node v).2 (node w).2 hx (S.node_mem w) (S.nodeId v) (S.nodeId w)
  · rw [List.pairwise_filterMap]
    refine (List.pairwise_lt_finRange _).imp fun {v w} hvw a ha b hb _ ht => ?_
    obtain ⟨-, _, _, _, rfl⟩ := S.output_edge ha
    obtain ⟨-, _, _, _, rfl⟩ := S.output_edge hb
    simp only at ht ⊢
    have := List.pairwise_iff_getElem.mp h2 v.val w.val (by simp) (by simp) hvw
    simp only [List.getElem_map] at this
    have hx := S.edge_mem v
    rw [show edge v = ((edge w).1, (edge v).2) by rw [← ht]] at hx
    exact this (edge w).1 (edge v).2 (edge w).2 hx (S.edge_mem w) (S.edgeId v) (S.edgeId w)
  · intro a ha b hb hcls
    obtain ⟨v, -, ha⟩ := List.mem_filterMap.mp ha
    obtain ⟨k, -, hb⟩ := List.mem_filterMap.mp hb
    obtain ⟨-, rfl⟩ := S.output_node last ha
    obtain ⟨-, _, _, _, rfl⟩ := S.output_edge hb
    exact absurd (show "nodes" = "connections" from hcls) (by decide)

/-- The keys of an entry of a gas component. -/
theorem Sited.gas_keys (hf : Fit f.defaults f.topology) {k : Fin g.edges.length} {c : Output.Component ℝ}
    (h : outputEdge hc k = some c) {t : ℝ} {s : List ℝ} {e : Json} (he : Output.saveEntry c t s = Res.ok e) :
    Output.HasKeys e ["flow", "pressure", "time"] := by
  obtain ⟨hg, kind, n, hk, rfl⟩ := S.output_edge h
  have hn := (S.stop_eq hf k ((S.gas_iff k).mpr hg)).2.1
  unfold pointsOf at hn
  rw [hk] at hn
  unfold Output.saveEntry at he
  cases kind with
  | pipe dx d r =>
    simp only [gasKind, edgeNeed] at he hn
    obtain ⟨points, h1, h2⟩ := Res.bind_eq_ok.mp he
    refine Output.gasEntry_keys ?_ h2
    rintro rfl
    have := (Res.each_eq_ok.mp h1).length_eq
    simp at this
    omega
  | gaspower a b =>
    simp only [gasKind] at he
    obtain ⟨points, h1, h2⟩ := Res.bind_eq_ok.mp he
    refine Output.gasEntry_keys ?_ h2
    rintro rfl
    obtain ⟨_, -, h1⟩ := Res.bind_eq_ok.mp h1
    obtain ⟨_, -, h1⟩ := Res.bind_eq_ok.mp h1
    cases h1
  | _ =>
    simp only [gasKind] at he
    obtain ⟨points, h1, h2⟩ := Res.bind_eq_ok.mp he
    refine Output.gasEntry_keys ?_ h2
    rintro rfl
    obtain ⟨_, -, h1⟩ := Res.bind_eq_ok.mp h1
    obtain ⟨_, -, h1⟩ := Res.bind_eq_ok.mp h1
    obtain ⟨_, -, h1⟩ := Res.bind_eq_ok.mp h1
    obtain ⟨_, -, h1⟩ := Res.bind_eq_ok.mp h1
    cases h1

/-- The keys of an entry of a power node. -/
theorem Sited.power_keys {v : Fin g.nodes.length} {c : Output.Component ℝ}
    (h : outputNode hc f.topology last v = some c) {t : ℝ} {s : List ℝ} {e : Json} (he : Output.saveEntry c t s = Res.ok e) :
    Output.HasKeys e ["P", "Q", "V", "phi", "time"] := by
  obtain ⟨hp, rfl⟩ := S.output_node last h
  unfold Output.saveEntry at he
  obtain ⟨V, -, he⟩ := Res.bind_eq_ok.mp he
  obtain ⟨phi, -, he⟩ := Res.bind_eq_ok.mp he
  obtain ⟨l, hl, he⟩ := Res.bind_eq_ok.mp he
  rcases Sited.reported_names last hl with rfl | ⟨P, Q, rfl⟩
  · exfalso
    unfold reported at hl
    simp only at hl
    split at hl
    · obtain ⟨b, -, hl⟩ := Res.bind_eq_ok.mp hl; cases hl
    · obtain ⟨b, -, hl⟩ := Res.bind_eq_ok.mp hl
      obtain ⟨b, -, hl⟩ := Res.bind_eq_ok.mp hl; cases hl
    · obtain ⟨b, -, hl⟩ := Res.bind_eq_ok.mp hl; cases hl
    · obtain ⟨b, -, hl⟩ := Res.bind_eq_ok.mp hl; cases hl
    · next h1 h2 h3 h4 =>
      unfold NodeKind.isPower at hp
      split at hp
      · next k hk => cases k <;> simp_all
      · next hk => exact h4 hk
      · cases hp
  · exact Output.powerEntry_keys he

/-- The file that is written can be exported. -/
theorem Sited.exportable (hf : Fit f.defaults f.topology) (hids : (g.nodes.map Node.id ++ g.edges.map Edge.id).Nodup)
    (h1 : InOrder f.topology "nodes" (g.nodes.map Node.id)) (h2 : InOrder f.topology "connections" (g.edges.map Edge.id))
    {saves : List (ℝ × List ℝ)} {out : Json}
    (h : Output.statesJson (outputComponents hc f.topology last) saves = Res.ok out) : Exportable out := by
  obtain ⟨hgood, hlist⟩ := Output.statesJson_saved h
  have idOf : ∀ c o, Output.IsSaved saves c o → id? o = some c.id := fun c o ho => Sited.find_id ho.1
  have hnd := Sited.output_ids (hc := hc) (f := f) last hids
  have mem : ∀ cls type, ∀ o ∈ Output.list out cls type, ∃ c ∈ outputComponents hc f.topology last, c.cls = cls ∧
      c.type = type ∧ Output.IsSaved saves c o := by
    intro cls type o ho
    obtain ⟨c, hcm, h3⟩ := forall₂_mem_right (hlist cls type) ho
    obtain ⟨hm, hct⟩ := List.mem_filter.mp hcm
    simp only [decide_eq_true_eq] at hct
    exact ⟨c, hm, hct.1, hct.2, h3⟩
  have sorted : ∀ cls type, SortedById (Output.list out cls type) := by
    intro cls type
    refine sortedById_map (hlist cls type) idOf ?_
    have := (S.output_order last h1 h2).filter fun c => decide (c.cls = cls ∧ c.type = type)
    refine this.imp_of_mem fun {a b} ha hb hab => ?_
    obtain ⟨-, ha⟩ := List.mem_filter.mp ha
    obtain ⟨-, hb⟩ := List.mem_filter.mp hb
    simp only [decide_eq_true_eq] at ha hb
    exact hab (ha.1.trans hb.1.symm) (ha.2.trans hb.2.symm)
  refine ⟨hgood, fun cls type => ⟨sorted cls type, fun a ha => ?_⟩, ?_, ?_, ?_, ?_⟩
  · obtain ⟨c, -, -, -, h3⟩ := mem cls type a ha
    exact ⟨_, idOf _ _ h3⟩
  · intro cls type o cls' type' o' id ho ho' hid hid'
    obtain ⟨c, hcm, rfl, rfl, h3⟩ := mem cls type o ho
    obtain ⟨c', hcm', rfl, rfl, h3'⟩ := mem cls' type' o' ho'
    have : c'.id = c.id := Option.some.inj (((idOf _ _ h3').symm.trans hid').trans (hid.symm.trans (idOf _ _ h3)))
    obtain rfl := List.inj_on_of_nodup_map hnd hcm' hcm this
    refine ⟨rfl, rfl, ?_⟩
    obtain ⟨i, hi, rfl⟩ := List.getElem_of_mem ho
    obtain ⟨j, hj, rfl⟩ := List.getElem_of_mem ho'
    rcases lt_trichotomy i j with hij | rfl | hij
    · obtain ⟨s, t, e1, e2, hlt⟩ := List.pairwise_iff_getElem.mp (sorted _ _) i j hi hj hij
      rw [hid] at e1; rw [hid'] at e2
      cases e1; cases e2
      exact absurd hlt (lt_irrefl _)
    · rfl
    · obtain ⟨s, t, e1, e2, hlt⟩ := List.pairwise_iff_getElem.mp (sorted _ _) j i hj hi hij
      rw [hid'] at e1; rw [hid] at e2
      cases e1; cases e2
      exact absurd hlt (lt_irrefl _)
  · intro type
    constructor
    · intro o ho
      obtain ⟨c, hcm, hcls, rfl, -⟩ := mem _ type o ho
      rcases (Sited.mem_output last).mp hcm with ⟨v, hv⟩ | ⟨k, hk⟩
      · obtain ⟨hp, rfl⟩ := S.output_node last hv
        exact kind_of_power (S.nodeMatch v).kind hp
      · obtain ⟨-, _, _, _, rfl⟩ := S.output_edge hk
        exact absurd (show "connections" = "nodes" from hcls) (by decide)
    · intro o ho
      obtain ⟨c, hcm, hcls, rfl, -⟩ := mem _ type o ho
      rcases (Sited.mem_output last).mp hcm with ⟨v, hv⟩ | ⟨k, hk⟩
      · obtain ⟨-, rfl⟩ := S.output_node last hv
        exact absurd (show "nodes" = "connections" from hcls) (by decide)
      · unfold outputEdge at hk
        split at hk
        · next kind n _ =>
          injection hk with hk
          subst hk
          show gasType kind ∈ gasEdges
          cases kind <;> simp [gasType, gasEdges]
        · cases hk
  · intro type o ho es hes e he
    obtain ⟨c, hcm, hcls, -, -, es', h4, h5⟩ := mem _ type o ho
    rw [hes] at h4
    injection h4 with h4
    injection h4 with h4
    subst h4
    obtain ⟨s, -, hs⟩ := forall₂_mem_right h5 he
    rcases (Sited.mem_output last).mp hcm with ⟨v, hv⟩ | ⟨k, hk⟩
    · obtain ⟨-, rfl⟩ := S.output_node last hv
      exact absurd (show "nodes" = "connections" from hcls) (by decide)
    · exact S.gas_keys hf hk hs
  · intro type o ho es hes e he
    obtain ⟨c, hcm, hcls, -, -, es', h4, h5⟩ := mem _ type o ho
    rw [hes] at h4
    injection h4 with h4
    injection h4 with h4
    subst h4
    obtain ⟨s, -, hs⟩ := forall₂_mem_right h5 he
    rcases (Sited.mem_output last).mp hcm with ⟨v, hv⟩ | ⟨k, hk⟩
    · exact S.power_keys last hv hs
    · obtain ⟨-, _, _, _, rfl⟩ := S.output_edge hk
      exact absurd (show "connections" = "nodes" from hcls) (by decide)

end

/-! ## Property C117 -/

section
variable [Printed ℝ]

/-- The rows for a gas component: for each time its flows and its pressures. -/
def gasRows (r : Results) (id : String) (times : List ℝ) : List (ℝ × List ℝ × List ℝ) :=
  times.zipIdx.map fun t => (t.1, (List.range (r.points id)).map (r.flow id t.2), (List.range (r.points id)).map (r.pressure id t.2))

/-- The rows for a power node: time, active power, reactive power, voltage, angle. -/
def powerRows (r : Results) (id : String) (times : List ℝ) : List (ℝ × ℝ × ℝ × ℝ × ℝ) :=
  times.zipIdx.map fun t => (t.1, r.active id t.2, r.reactive id t.2, r.voltage id t.2, r.angle id t.2)

omit [Printed ℝ] in
theorem rows_of {α : Type} {times : List ℝ} {es : List Json} (hlen : es.length = times.length) {row : ℝ × ℕ → α}
    {R : α → Json → Prop} (h : ∀ i (h : i < times.length) (h' : i < es.length), R (row (times[i], i)) es[i]) :
    List.Forall₂ R (times.zipIdx.map row) es := by
  rw [List.forall₂_iff_get]
  refine ⟨by simp [hlen], fun i h1 h2 => ?_⟩
  simp only [List.get_eq_getElem, List.getElem_map, List.getElem_zipIdx, zero_add]
  exact h i (by simpa using h1) h2

/-- Searching and printing, for a file that shows some results. -/
theorem printing_of {out topology : Json} {times : List ℝ} {r : Results} (hs : ShownIn out topology times r)
    (he : Exportable out) (hne : times ≠ []) (inRoot : String → Bool) :
    (∀ type x id, (type, x) ∈ entries (types topology "connections") → type ∈ gasEdges → id? x = some id →
      inRoot (id ++ "_flow.csv") = true → inRoot (id ++ "_pressure.csv") = true →
      Output.printingCsv inRoot out id = Res.ok (some [
        Output.gasTable (id ++ "_flow.csv") ((List.range (r.points id)).map (r.position id))
          ((gasRows r id times).map fun x => (x.1, x.2.1)),
        Output.gasTable (id ++ "_pressure.csv") ((List.range (r.points id)).map (r.position id))
          ((gasRows r id times).map fun x => (x.1, x.2.2))])) ∧
    (∀ type x id, (type, x) ∈ entries (types topology "nodes") → type ∈ powerNodes → type ≠ "StochasticPQnode" → id? x = some id →
      inRoot (id ++ ".csv") = true →
      Output.printingCsv inRoot out id = Res.ok (some [Output.powerTable (id ++ ".csv") (powerRows r id times)])) := by
  constructor
  · intro type x id hx hty hid hr1 hr2
    have hkind : Output.resultKind type = some .gas ∧ type ≠ "Transmissionline" := by
      simp only [gasEdges, List.mem_cons, List.not_mem_nil, or_false] at hty
      rcases hty with rfl | rfl | rfl | rfl | rfl <;> decide
    obtain ⟨hkind, hty⟩ := hkind
    obtain ⟨o, ho, hoid, es, hes, hlen, hshow⟩ := hs.gas type x id hx hty hid
    have hsearch : Output.search Output.resultKind Output.resultBoth id out = Res.ok (.object o .gas) :=
      Output.search_found he.good he.sorted (by simp [classes]) ho hoid hkind
        fun cls' _ type' o' ho' hid' => he.unique _ _ _ _ _ _ id ho ho' hoid hid'
    unfold Output.printingCsv
    rw [hsearch, Res.ok_bind]
    simp only
    rw [Output.gasCsv_eq (positions := (List.range (r.points id)).map (r.position id)) (rows := gasRows r id times) ?_ hr1 hr2 hes ?_]
    · unfold gasRows
      simpa using hne
    · refine rows_of hlen fun i hi hi' => ?_
      obtain ⟨h1, h2, h3⟩ := hshow i hi hi'
      refine ⟨he.gas type o ho es hes _ (List.getElem_mem hi'), h1, ?_, ?_, by simp, by simp⟩
      · simp only [List.zip_map']
        exact h3
      · simp only [List.zip_map']
        exact h2
  · intro type x id hx hty _ hid hr1
    obtain ⟨o, ho, hoid, es, hes, hlen, hshow⟩ := hs.power type x id hx hty hid
    have hkind : Output.resultKind type = some .power := by
      simp only [powerNodes, List.mem_cons, List.not_mem_nil, or_false] at hty
      rcases hty with rfl | rfl | rfl | rfl | rfl <;> decide
    have hsearch : Output.search Output.resultKind Output.resultBoth id out = Res.ok (.object o .power) :=
      Output.search_found he.good he.sorted (by simp [classes]) ho hoid hkind
        fun cls' _ type' o' ho' hid' => he.unique _ _ _ _ _ _ id ho ho' hoid hid'
    unfold Output.printingCsv
    rw [hsearch, Res.ok_bind]
    simp only
    rw [Output.powerCsv_eq (rows := powerRows r id times) ?_ hr1 hes ?_]
    · unfold powerRows
      simpa using hne
    · refine rows_of hlen fun i hi hi' => ?_
      obtain ⟨h1, h2, h3, h4, h5⟩ := hshow i hi hi'
      exact ⟨he.power type o ho es hes _ (List.getElem_mem hi'), h1, h4, h5, h2, h3⟩

omit [Printed ℝ] in
/-- An id without results. -/
theorem printing_missing {out : Json} (he : Exportable out) (inRoot : String → Bool) {id : String}
    (h : ∀ cls ∈ classes, ∀ type, ∀ o ∈ Output.list out cls type, id? o ≠ some id) :
    Output.printingCsv inRoot out id = Res.ok none := by
  unfold Output.printingCsv
  rw [Output.search_nothing he.good he.sorted h]
  rfl

variable {draws : Json → Res (ℝ → Res (ℝ × ℝ))} {mem : ℕ → ℝ} {lu : Solve} {fuel : ℕ} {s : Settings} {f : Files}

/-- A file that was written by a run can be exported. -/
theorem run_exportable
    (ho : f.topology.isObj = true) (hs : Shaped f.topology) (hd : DistinctTypes f.topology) (sb : Shaped f.boundary)
    (db : DistinctTypes f.boundary) (hf : Fit f.defaults f.topology)
    {out : Json} (h : runFile draws mem lu fuel s f = Res.ok (some out)) : Exportable out := by
  unfold runFile at h
  obtain ⟨⟨times, states⟩, -, h⟩ := Res.bind_eq_ok.mp h
  obtain ⟨g, hg, h⟩ := Res.bind_eq_ok.mp h
  split at h
  · next hc =>
    split at h
    · obtain ⟨j, hj, h⟩ := Res.bind_eq_ok.mp h
      injection h with h
      injection h with h
      subst h
      obtain ⟨nodes, edges, h1, h2, h3⟩ := readNet_ok hg
      have hp := proper_of h1 h2 hs hd
      obtain ⟨-, hids, -⟩ := buildNet_made hp h3
      obtain ⟨o1, o2⟩ := buildNet_order hp ho sb db h3
      obtain ⟨node, edge, S⟩ := sited_of hs hd hg hf hc
      exact S.exportable _ hf hids o1 o2 hj
    · injection h with h
      cases h
  · cases h

/-- C117. Whatever a run writes to the file of results can be exported: the program finds each gas component of the topology
and each node of the grid (stochastic ones aside, see below), and its tables show exactly the results: the
positions and then for each time the flows or pressures there, or for each time the powers, the voltage and the angle. These results
are those that the input files ask for. For an id that is none of such a component nothing is written. (Files must be
in the current directory, which depends on the id. The entries of stochastic nodes also have deviations, which are not modelled.) -/
theorem C117_export
    (ho : f.topology.isObj = true) (hs : Shaped f.topology) (hd : DistinctTypes f.topology) (sb : Shaped f.boundary)
    (db : DistinctTypes f.boundary) (hf : Fit f.defaults f.topology) (hlt : s.start < s.stop) (hdes : 0 < s.desired)
    (hmax : 1 ≤ s.iterations) (hcov : ∀ t, s.start ≤ t → t ≤ s.stop → Covers f.defaults f.topology f.boundary t)
    (hdraw : ∀ data d, draws data = Res.ok d → ∀ t, s.start ≤ t → t ≤ s.stop → ∃ b, d t = Res.ok b)
    {out : Json} (h : runFile draws mem lu fuel s f = Res.ok (some out)) (inRoot : String → Bool) :
    ∃ times r cgrid, Faithful s f times r cgrid ∧
    (∀ type x id, (type, x) ∈ entries (types f.topology "connections") → type ∈ gasEdges → id? x = some id →
      inRoot (id ++ "_flow.csv") = true → inRoot (id ++ "_pressure.csv") = true →
      Output.printingCsv inRoot out id = Res.ok (some [
        Output.gasTable (id ++ "_flow.csv") ((List.range (r.points id)).map (r.position id))
          ((gasRows r id times).map fun x => (x.1, x.2.1)),
        Output.gasTable (id ++ "_pressure.csv") ((List.range (r.points id)).map (r.position id))
          ((gasRows r id times).map fun x => (x.1, x.2.2))])) ∧
    (∀ type x id, (type, x) ∈ entries (types f.topology "nodes") → type ∈ powerNodes → type ≠ "StochasticPQnode" →
      id? x = some id → inRoot (id ++ ".csv") = true →
      Output.printingCsv inRoot out id = Res.ok (some [Output.powerTable (id ++ ".csv") (powerRows r id times)])) ∧
    ∀ id, (∀ type x, (type, x) ∈ entries (types f.topology "connections") → type ∈ gasEdges → id? x ≠ some id) →
      (∀ type x, (type, x) ∈ entries (types f.topology "nodes") → type ∈ powerNodes → id? x ≠ some id) →
      Output.printingCsv inRoot out id = Res.ok none := by
  obtain ⟨times, r, cgrid, hshown, hfaith⟩ := C109_results ho hs hd sb db hf hlt hdes hmax hcov hdraw h
  have hexp := run_exportable ho hs hd sb db hf h
  have hne : times ≠ [] := by
    rintro rfl
    exact absurd hfaith.grid.2.1 (by simp)
  obtain ⟨h1, h2⟩ := printing_of hshown hexp hne inRoot
  refine ⟨times, r, cgrid, hfaith, h1, h2, fun id hid hid' => printing_missing hexp inRoot fun cls hcls type o hm e => ?_⟩
  obtain ⟨x, hx, hxid⟩ := hshown.only cls type o hm
  simp only [classes, List.mem_cons, List.not_mem_nil, or_false] at hcls
  rcases hcls with rfl | rfl
  · exact hid' type x hx ((hexp.kinds type).1 o hm) (hxid.trans e)
  · exact hid type x hx ((hexp.kinds type).2 o hm) (hxid.trans e)

/-- C117 applies to the files of `Verif.Read.RunExample`: the flows and pressures at both ends of the compressor are exported for
start and end, and for the node "a" nothing is. -/
example (hdraw : ∀ data, draws data = Res.throws) : ∃ out, ∃ r : Results, runFile draws mem lu 10 settingsC filesC = Res.ok (some out) ∧
    Output.printingCsv (fun _ => true) out "c" = Res.ok (some [
      Output.gasTable (K := ℝ) "c_flow.csv" [r.position "c" 0, r.position "c" 1]
        [(0, [r.flow "c" 0 0, r.flow "c" 0 1]), (60, [r.flow "c" 1 0, r.flow "c" 1 1])],
      Output.gasTable (K := ℝ) "c_pressure.csv" [r.position "c" 0, r.position "c" 1]
        [(0, [r.pressure "c" 0 0, r.pressure "c" 0 1]), (60, [r.pressure "c" 1 0, r.pressure "c" 1 1])]]) ∧
    Output.printingCsv (fun _ => true) out "a" = Res.ok none := by
  obtain ⟨hc, -⟩ := C100_partial rfl shaped_c.1 shaped_c.2 shaped_s.2.1 shaped_s.2.2 (read_c draws mem) fit_c
  have hrun := run_c draws mem lu hc
  rw [show [some (ext (stateC hc)), some (ext (stateC hc))] = [ext (stateC hc), ext (stateC hc)].map some from rfl] at hrun
  have hdraw' : ∀ data d, draws data = Res.ok d → ∀ t, settingsC.start ≤ t → t ≤ settingsC.stop → ∃ b, d t = Res.ok b := by
    intro data d hd; rw [hdraw] at hd; cases hd
  obtain ⟨r0, cgrid0, hfaith, hall⟩ := C108_partial (f := filesC) (s := settingsC) rfl shaped_c.1 shaped_c.2 shaped_s.2.1 shaped_s.2.2
    fit_c (by norm_num [settingsC]) (by norm_num [settingsC]) (by norm_num [settingsC])
    (fun t h0 h1 => covers_c h0 (h1.trans (by norm_num [settingsC]))) hdraw' hrun
  obtain ⟨out, h1, hshown⟩ := hall
  have hexp := run_exportable (f := filesC) (s := settingsC) rfl shaped_c.1 shaped_c.2 shaped_s.2.1 shaped_s.2.2 fit_c h1
  have hmem : ("Compressorstation", edgeC) ∈ entries (types filesC.topology "connections") := List.mem_singleton.mpr rfl
  have h2 := (printing_of hshown hexp (by simp) fun _ => true).1 _ _ "c" hmem (by decide) rfl rfl rfl
  have hp := ((hfaith.placed _ _ hmem).2.1 (by decide)).1
  refine ⟨out, r0, h1, ?_, printing_missing hexp _ fun cls hcls type o hm e => ?_⟩
  · rw [h2]
    have hp' : r0.points "c" = 2 := hp
    unfold gasRows
    rw [hp']
    rfl
  · obtain ⟨x, hx, hxid⟩ := hshown.only cls type o hm
    simp only [classes, List.mem_cons, List.not_mem_nil, or_false] at hcls
    rcases hcls with rfl | rfl
    · have hk := (hexp.kinds type).1 o hm
      rcases List.mem_cons.mp (show (type, x) ∈ [("Pressureboundarynode", obj [("id", str "a")]), ("Sink", obj [("id", str "b")])]
        from hx) with h | h
      · rw [(Prod.mk.inj h).1] at hk
        exact absurd hk (by decide)
      · rw [(Prod.mk.inj (List.mem_singleton.mp h)).1] at hk
        exact absurd hk (by decide)
    · rw [(Prod.mk.inj (List.mem_singleton.mp (show (type, x) ∈ [("Compressorstation", edgeC)] from hx))).2] at hxid
      rw [e] at hxid
      exact absurd hxid (by decide)

end

end Verif.Read
