import Verif.Read.ResultsProps

/-!
# Properties C108 and C109: the results in the file

C108: what was computed is written. This is false of the code: the powers of nodes with prescribed powers are evaluated for the
first time as well, which the simulation never needs, so that all results are lost if boundary values begin later (see
`Verif.Read.ResultsLost`). C109: whatever is in the file of results begins with the initial values and obeys the laws with the
data of all files.
-/

set_option autoImplicit false

namespace Verif.Read

open Verif.Json Verif.Factory Verif.Interp Verif.Schema Verif.Initial Verif.Times Verif.Newton Verif.Evolve Network Net
open Verif.Output (Printed)

section
variable {draws : Json → Res (ℝ → Res (ℝ × ℝ))} {mem : ℕ → ℝ} {f : Files} {g : Graph Network.Node EdgeKind}

/-- The boundary values of a node at a time that is covered are those of the file. -/
theorem prescribed_of (ho : f.topology.isObj = true) (hs : Shaped f.topology) (hd : DistinctTypes f.topology)
    (sb : Shaped f.boundary) (db : DistinctTypes f.boundary)
    (h : readNet draws mem f.defaults f.topology f.boundary = Res.ok g) {hc : Consistent g}
    {node : Fin g.nodes.length → String × Json} {edge : Fin g.edges.length → String × Json}
    (S : Sited f.defaults f.topology hc node edge) {t : ℝ} (hcov : Covers f.defaults f.topology f.boundary t)
    (v : Fin g.nodes.length) (hin : (node v).1 ≠ "Innode") (hst : (node v).1 ≠ "StochasticPQnode") :
    ∃ b, ((toNet hc).node v).boundary t = Res.ok b ∧ Prescribed f.boundary (node v).1 (idOf (node v).2) t b := by
  have hx := S.node_mem v
  obtain ⟨hname, hsign⟩ := sign_of (S.nodeMatch v).kind hin hst
  obtain ⟨hnone, hdef⟩ := hcov.only (node v).1 (node v).2 hx
  obtain ⟨n, hmem, hid1, e, he, hid2, hll⟩ := C99_boundary ho hs hd sb db h hx hsign hnone hdef
  obtain ⟨l, hlist, hsort, ⟨p, hp1, hp2⟩, q, hq1, hq2⟩ := hcov.listed _ _ hx hname hin hst e he (hid2.trans hid1.symm)
  obtain ⟨b, hb, hval⟩ := (hll l hlist hsort).2.valueAt hsort hp1 hp2 hq1 hq2
  obtain ⟨i, hi, rfl⟩ := List.mem_iff_getElem.mp hmem
  obtain rfl : v = ⟨i, hi⟩ := S.nodeInj _ _ (Option.some.inj ((S.nodeId v).symm.trans hid1))
  exact ⟨b, hb, e, l, he, by rw [S.node_id]; exact hid2, hlist, hval⟩

/-- What is reported, and that it can be. -/
theorem reported_of (ho : f.topology.isObj = true) (hs : Shaped f.topology) (hd : DistinctTypes f.topology)
    (sb : Shaped f.boundary) (db : DistinctTypes f.boundary)
    (h : readNet draws mem f.defaults f.topology f.boundary = Res.ok g) {hc : Consistent g}
    {node : Fin g.nodes.length → String × Json} {edge : Fin g.edges.length → String × Json}
    (S : Sited f.defaults f.topology hc node edge) (hadm : Admissible (toNet hc)) {last t : ℝ} {times : List ℝ}
    {states : List Vec} {i : ℕ} (ht : times.getD i 0 = t)
    (hcov : Covers f.defaults f.topology f.boundary t) (hlast : Computable (toNet hc) last)
    (hx : ext (entriesOf (listOf (toNet hc).stateCount (states.getD i 0)) : Fin (toNet hc).stateCount → ℝ) = states.getD i 0) :
    (∀ v : Fin g.nodes.length, ((toNet hc).node v).kind.isPower = true → ∃ p q,
      reported hc (node v).1 last v t (listOf (toNet hc).stateCount (states.getD i 0)) = Res.ok [("P", p), ("Q", q)]) ∧
    Reported (resultsOf hc f.topology last times states) f t i := by
  constructor
  · intro v hv
    obtain ⟨r1, r2, r3⟩ := Sited.reported_eq (last := last) hadm hx (node v).1 v t
    have pre := prescribed_of ho hs hd sb db h S hcov v
    rcases Sited.kind_cases_power (S.nodeMatch v).kind hv with ⟨h1, h2⟩ | ⟨h1, h2⟩ | ⟨h1, h2⟩ | ⟨h1, h2⟩ | ⟨h1, h2⟩
    · obtain ⟨b, hb, -⟩ := pre (by rw [h1]; decide) (by rw [h1]; decide)
      exact ⟨_, _, r1 h2 b (by rw [if_neg (by rw [h1]; decide)]; exact hb)⟩
    · obtain ⟨b, hb⟩ := hlast.boundary v (by rw [h2]; nofun)
      exact ⟨_, _, r1 h2 b (by rw [if_pos h1]; exact hb)⟩
    · obtain ⟨b, hb, -⟩ := pre (by rw [h1]; decide) (by rw [h1]; decide)
      exact ⟨_, _, r2 h2 b hb⟩
    · exact ⟨_, _, r3 (.inl h2)⟩
    · exact ⟨_, _, r3 (.inr h2)⟩
  · intro type x hmem
    obtain ⟨v, hv⟩ := S.of_node hmem
    have hty : (node v).1 = type := by rw [hv]
    have hex : (node v).2 = x := by rw [hv]
    obtain ⟨r1, r2, r3⟩ := Sited.reported_eq (last := last) hadm hx (node v).1 v t
    have pre := prescribed_of ho hs hd sb db h S hcov v
    have eA := S.active_eq last times states i v
    have eR := S.reactive_eq last times states i v
    have hk := (S.nodeMatch v).kind
    have pow := fun hp p q => S.powerOf_eq (last := last) v hp t (states.getD i 0) (p := p) (q := q)
    have gA := S.gridActive_eq last times states i v
    have gR := S.gridReactive_eq last times states i v
    rw [ht] at eA eR
    rw [← S.node_id v] at eA eR
    rw [hty, hex] at gA gR
    rw [hty] at hk
    rw [hty, hex] at pre
    rw [hex] at eA eR
    rw [eA, eR]
    refine ⟨fun h1 => ?_, fun h1 => ?_, fun h1 => ?_⟩
    · rw [h1] at hk
      injection hk with hk
      obtain ⟨b, hb, hp⟩ := pre (by rw [h1]; decide) (by rw [h1]; decide)
      obtain ⟨q1, q2⟩ := pow (by rw [← hk]; rfl) _ _ (r1 hk.symm b (by rw [if_neg (by rw [hty, h1]; decide)]; exact hb))
      exact ⟨b, hp, q1, q2⟩
    · rw [h1] at hk
      injection hk with hk
      obtain ⟨b, hb, hp⟩ := pre (by rw [h1]; decide) (by rw [h1]; decide)
      obtain ⟨q1, q2⟩ := pow (by rw [← hk]; rfl) _ _ (r2 hk.symm b hb)
      exact ⟨b, hp, q1, q2.trans (gR (by rw [← hk]; rfl)).symm⟩
    · have hk' : ((toNet hc).node v).kind = .power .vphi ∨ ((toNet hc).node v).kind = .plant := by
        simp only [List.mem_cons, List.not_mem_nil, or_false] at h1
        rcases h1 with rfl | rfl <;> injection hk with hk
        · exact .inl hk.symm
        · exact .inr hk.symm
      have hp : ((toNet hc).node v).kind.isPower = true := by rcases hk' with h | h <;> rw [h] <;> rfl
      obtain ⟨q1, q2⟩ := pow hp _ _ (r3 hk')
      exact ⟨q1.trans (gA hp).symm, q2.trans (gR hp).symm⟩

end

/-- The results are those that the files ask for. -/
structure Faithful (s : Settings) (f : Files) (times : List ℝ) (r : Results) (cgrid : List ℝ) : Prop where
  /-- The times go from start to end in equal steps that are at most as long as desired. -/
  grid : GoodGrid times s.start s.stop s.desired
  placed : Placed r f
  starts : Starts r f
  reported : ∀ i (h : i < times.length), Reported r f times[i] i
  controls : (∃ x type, (type, x) ∈ entries (types f.topology "connections") ∧ type ∈ ["Compressorstation", "Controlvalve"]) →
    ControlTimes s times cgrid
  obeys : ∀ i (h : i + 1 < times.length), PipesFilled r f.topology i → PipesFilled r f.topology (i + 1) →
    Obeys r f s.tolerance cgrid times[i] times[i + 1] i

/-- The states of a run, and the network. -/
theorem run_states {draws : Json → Res (ℝ → Res (ℝ × ℝ))} {mem : ℕ → ℝ} {lu : Solve} {fuel : ℕ} {s : Settings} {f : Files}
    {times : List ℝ} {states : List (Option Vec)} (h : run draws mem lu fuel s f = Res.ok (times, states))
    {g : Graph Network.Node EdgeKind} (hg : readNet draws mem f.defaults f.topology f.boundary = Res.ok g) (hc : Consistent g)
    {x : Vec} (hx : some x ∈ states) : ∃ y : Fin (toNet hc).stateCount → ℝ, x = ext y := by
  unfold run at h
  obtain ⟨times', -, h⟩ := Res.bind_eq_ok.mp h
  obtain ⟨g', hg', h⟩ := Res.bind_eq_ok.mp h
  rw [hg] at hg'
  injection hg' with hg'
  subst hg'
  rw [dif_pos hc] at h
  obtain ⟨_, -, h⟩ := Res.bind_eq_ok.mp h
  obtain ⟨initial, -, h⟩ := Res.bind_eq_ok.mp h
  obtain ⟨controls, -, h⟩ := Res.bind_eq_ok.mp h
  obtain ⟨sts, -, h⟩ := Res.bind_eq_ok.mp h
  injection h with h
  obtain ⟨-, rfl⟩ := Prod.mk.inj h
  obtain ⟨o, -, ho⟩ := List.mem_map.mp hx
  rw [Option.map_eq_some_iff] at ho
  obtain ⟨y, -, rfl⟩ := ho
  exact ⟨y, rfl⟩

section
variable {draws : Json → Res (ℝ → Res (ℝ × ℝ))} {mem : ℕ → ℝ} {lu : Solve} {fuel : ℕ} {s : Settings} {f : Files}

/-- C108, the part that holds. If a run succeeds and its states are free of NaN, and the boundary values cover all times from start
to end, there are results that the files ask for, and however numbers are printed, the file that is written shows these. What is
missing: the boundary values for the start, which the simulation does not need, have to be there, see `C108_false`. -/
theorem C108_partial
    (ho : f.topology.isObj = true) (hs : Shaped f.topology) (hd : DistinctTypes f.topology) (sb : Shaped f.boundary)
    (db : DistinctTypes f.boundary) (hf : Fit f.defaults f.topology) (hlt : s.start < s.stop) (hdes : 0 < s.desired)
    (hmax : 1 ≤ s.iterations) (hcov : ∀ t, s.start ≤ t → t ≤ s.stop → Covers f.defaults f.topology f.boundary t)
    (hdraw : ∀ data d, draws data = Res.ok d → ∀ t, s.start ≤ t → t ≤ s.stop → ∃ b, d t = Res.ok b)
    {times : List ℝ} {states : List Vec} (h : run draws mem lu fuel s f = Res.ok (times, states.map some)) :
    ∃ r cgrid, Faithful s f times r cgrid ∧
      ∀ [Printed ℝ], ∃ out, runFile draws mem lu fuel s f = Res.ok (some out) ∧ ShownIn out f.topology times r := by
  obtain ⟨hgood, hlen, g, hc, hg, hcon, ⟨x0, hx0, hbeg⟩, cgrid, hct, hstep⟩ :=
    C102_run ho hs hd sb db hf hlt hdes hmax hcov hdraw h
  rw [List.length_map] at hlen
  obtain ⟨nodes, edges, h1, h2, h3⟩ := readNet_ok hg
  obtain ⟨-, hids, -⟩ := buildNet_made (proper_of h1 h2 hs hd) h3
  obtain ⟨_, hadm, hcomp⟩ := C100_partial ho hs hd sb db hg hf
  obtain ⟨node, edge, S⟩ := sited_of hs hd hg hf hc
  have hin := hgood.bounds
  set last := times.getLastD s.start with hlast
  have hlin : s.start ≤ last ∧ last ≤ s.stop := by
    rcases List.eq_nil_or_concat times with h | ⟨l, x, h⟩
    · rw [hlast, h]
      exact ⟨le_refl _, hlt.le⟩
    · have : last = x := by rw [hlast, h]; simp
      rw [this]
      exact hin x (by rw [h]; simp)
  have hclast := (hcomp last (hcov _ hlin.1 hlin.2) fun data d hdd => hdraw data d hdd _ hlin.1 hlin.2).1
  have getT : ∀ {i} (h : i < times.length), times.getD i 0 = times[i] := fun h => by simp [h]
  have getS : ∀ {i} (h : i < states.length), states.getD i 0 = states[i] := fun h => by simp [h]
  have hrep := fun i (hi : i < times.length) => reported_of ho hs hd sb db hg S hadm (last := last) (states := states) (getT hi)
    (hcov _ (hin _ (List.getElem_mem hi)).1 (hin _ (List.getElem_mem hi)).2) hclast (by
      have hi' : i < states.length := by omega
      obtain ⟨y, hy⟩ := run_states h hg hc (x := states[i]) (List.mem_map.mpr ⟨_, List.getElem_mem hi', rfl⟩)
      rw [getS hi', hy]
      exact ext_listOf y)
  refine ⟨resultsOf hc f.topology last times states, cgrid, ⟨hgood, S.placed_of last times states hf, ?_,
    fun i hi => (hrep i hi).2, ?_, fun i hi p1 p2 => ?_⟩, fun {_} => ?_⟩
  · refine S.starts_of last times states hf ?_
    cases states with
    | nil => cases hx0
    | cons a l =>
      simp only [List.map_cons, List.head?_cons, Option.some.injEq] at hx0
      rw [hx0]
      exact hbeg
  · rintro ⟨x, type, hmem, hty⟩
    obtain ⟨k, hk⟩ := S.of_edge hmem
    refine hct ⟨k, ?_⟩
    have hm := S.edgeMatch k
    rw [hk] at hm
    generalize (toNet hc).edge k = y at hm
    simp only at hm
    cases hm <;> first
      | rfl
      | exact absurd hty (by decide)
  · obtain ⟨c, hcc, hr⟩ := hstep i hi (by simpa using by omega) (states.getD i 0) (states.getD (i + 1) 0)
      (by rw [getS (by omega)]; simp) (by rw [getS (by omega)]; simp) (S.finite_of last times states p2)
    exact S.obeys_of last times states hf p1 p2 hcc hcon hr
  · obtain ⟨out, ho1, ho2⟩ := S.shown_of last times states hf hids hlen (by
      intro v hv i ht hs'
      rw [← getS hs']
      exact (hrep i ht).1 v hv)
    refine ⟨out, ?_, ho2⟩
    unfold runFile
    rw [h, Res.ok_bind, hg, Res.ok_bind, dif_pos hc]
    simp only [allSome_some]
    rw [ho1]
    rfl

/-- C109. Whatever is in the file of results: there is an entry for each of the times that the settings ask for, for each node
of the grid and each gas component of the topology and nothing else; the first results are the initial values; and
from one time to the next the results obey the laws with the data of all files, up to the tolerance, provided that pressures in
pipes are not zero. -/
theorem C109_results [Printed ℝ]
    (ho : f.topology.isObj = true) (hs : Shaped f.topology) (hd : DistinctTypes f.topology) (sb : Shaped f.boundary)
    (db : DistinctTypes f.boundary) (hf : Fit f.defaults f.topology) (hlt : s.start < s.stop) (hdes : 0 < s.desired)
    (hmax : 1 ≤ s.iterations) (hcov : ∀ t, s.start ≤ t → t ≤ s.stop → Covers f.defaults f.topology f.boundary t)
    (hdraw : ∀ data d, draws data = Res.ok d → ∀ t, s.start ≤ t → t ≤ s.stop → ∃ b, d t = Res.ok b)
    {out : Json} (h : runFile draws mem lu fuel s f = Res.ok (some out)) :
    ∃ times r cgrid, ShownIn out f.topology times r ∧ Faithful s f times r cgrid := by
  have h' := h
  unfold runFile at h'
  obtain ⟨⟨times, states⟩, hr, h'⟩ := Res.bind_eq_ok.mp h'
  obtain ⟨g, hg, h'⟩ := Res.bind_eq_ok.mp h'
  split at h'
  · next hc =>
    split at h'
    · next m hm =>
      have hm := allSome_eq hm
      simp only at hm
      rw [hm] at hr
      obtain ⟨r, cgrid, hfaith, hall⟩ := C108_partial ho hs hd sb db hf hlt hdes hmax hcov hdraw hr
      obtain ⟨out', e, hshown⟩ := hall
      rw [h] at e
      injection e with e
      injection e with e
      subst e
      exact ⟨times, r, cgrid, hshown, hfaith⟩
    · injection h' with h'
      cases h'
  · cases h'

end

end Verif.Read
