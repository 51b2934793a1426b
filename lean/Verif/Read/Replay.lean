import Verif.Read.NlpLemmas
import Verif.Read.ResultsMain
import Verif.Output.Controls
import Verif.Jacobian.Views

/-!
# Property C116: the result of an optimization can be checked by a simulation

Source: `/repo/src/Grazer/commands.cpp` 151-310.

After an optimization the controls that Ipopt found are written to `controls.json`, and the states that belong to them to
`states.json`. A user who wants to check the result takes `controls.json` as the file of controls of a run without optimization.
-/

set_option autoImplicit false

namespace Verif.Read

open Verif.Json Verif.Factory Verif.Interp Verif.Schema Verif.Initial Verif.Times Verif.Newton Verif.Evolve Network Net
open Verif.Output (Printed)

/-! ## Model -/

section Components
variable {g : Graph Network.Node EdgeKind} (hc : Consistent g)

/-- A compressor station or control valve as a component with output of controls — `SimpleControlcomponent.cpp` 54-87,
`Get_base_component.hpp` 23-39, `Compressorstation.cpp` 27 and 120-123, `Controlvalve.cpp` 26 and 115-117. -/
noncomputable def outputControl (k : Fin g.edges.length) : Option Output.Control :=
  match (toNet hc).edge k with
  | .gas kind n =>
    if (Network.EdgeKind.gas kind n).isControl then
      some ⟨g.edges[k].id, "connections", gasType kind, ((toNet hc).controlRange k).1.toNat, 1⟩
    else none
  | .line _ _ => none

/-- The control components, in the order of `Networkproblem.cpp` 131-167. -/
noncomputable def outputControls : List Output.Control := (List.finRange g.edges.length).filterMap (outputControl hc)

/-- The contents of `controls.json` — `commands.cpp` 273-275 and 288-290. The digits of each number are printed. -/
noncomputable def controlsFile [Printed ℝ] (cgrid x : List ℝ) : Res Json :=
  Output.controlsJson (outputControls hc) ⟨cgrid.map Printed.value, (toNet hc).controlCount, x.map Printed.value⟩

end Components

open Classical in
/-- What is written after an optimization in which Ipopt has returned the vector `x`: the contents of `controls.json` and of `states.json` —
`commands.cpp` 226-310. The states are those of the simulation with these controls. (If that fails, the program writes
other states, see C86 and C87; this is left out here.) The density of the Jacobian is computed first (lines 228-246); its value is printed on the
console only, so the values of the Jacobian do not matter here, but there may be an exception (C144). If there is NaN among the states the second
part is `none`, as in `runFile`. -/
noncomputable def optimizedFiles [Printed ℝ] (draws : Json → Res (ℝ → Res (ℝ × ℝ))) (mem : ℕ → ℝ) (lu : Solve) (fuel : ℕ)
    (s : Settings) (every : ℤ) (f : Files) (b : Bounds) (x : List ℝ) : Res (Json × Option Json) := do
  let P ← optimization draws mem lu fuel s every f b
  let _ ← Jacobian.density mem 0 ⟨P.jacobian, .own (List.replicate P.jacobian.nonZeros (0 : ℝ))⟩
  let z ← P.simulation x
  let g ← readNet draws mem f.defaults f.topology f.boundary
  if hc : Consistent g then do
    let controls ← controlsFile hc P.controlTimes x
    match allSome z with
    | some states => do
      let j ← Output.statesJson (outputComponents hc f.topology (P.times.getLastD s.start))
        (P.times.zip (states.map (listOf (toNet hc).stateCount)))
      Res.ok (controls, some j)
    | none => Res.ok (controls, none)
  else Res.ub

/-! ## Specification -/

/-- All digits that matter are printed: reading the printed number gives the number. -/
def Exactly [Printed ℝ] (x : ℝ) : Prop := ((Printed.value x : ℚ) : ℝ) = x

/-! ## Proofs -/

section Components
variable {g : Graph Network.Node EdgeKind} (hc : Consistent g) (mem : ℕ → ℝ)

theorem mem_outputControls {c : Output.Control} : c ∈ outputControls hc ↔ ∃ k, outputControl hc k = some c := by
  simp [outputControls]

theorem outputControl_of {c : Output.Control} {k : Fin g.edges.length} (h : outputControl hc k = some c) :
    c.id = g.edges[k].id ∧ c.start = ((toNet hc).controlRange k).1.toNat ∧ ((toNet hc).edge k).isControl ∧
      c.number = 1 ∧ c.cls = "connections" := by
  unfold outputControl at h
  split at h
  · next kind n he =>
    split at h
    · next hk =>
      injection h with h
      subst h
      exact ⟨rfl, rfl, by rw [he]; exact hk, rfl, rfl⟩
    · cases h
  · cases h

theorem outputControl_some {k : Fin g.edges.length} (hk : ((toNet hc).edge k).isControl) : ∃ c, outputControl hc k = some c := by
  unfold outputControl
  split
  · next kind n he =>
    rw [he] at hk
    exact ⟨_, if_pos hk⟩
  · next he =>
    rw [he] at hk
    cases hk

/-- Every control belongs to an edge. -/
theorem control_cover {N : Net} {i : ℕ} (hi : i < N.controlCount) : ∃ k : Fin N.edges, (N.edge k).isControl ∧ (N.controlRange k).1 = i := by
  obtain ⟨p1, -⟩ := C40_partition 0 N.controlNeeds
  have hb : (i : ℤ) < (setIndices 0 N.controlNeeds).2 := by
    have : (i : ℤ) < N.controls := by
      unfold Net.controlCount at hi
      omega
    exact this
  obtain ⟨m, ⟨h1, h2⟩, -⟩ := p1 i (by omega) hb
  have hlt : m.val < N.controlNeeds.length := by
    have := m.isLt
    have e := setIndices_length 0 N.controlNeeds
    omega
  have hlt' : m.val < N.edges := by simpa [Net.controlNeeds] using hlt
  have hlen := (C40_contiguous 0 N.controlNeeds).2.1 m.val hlt m.isLt
  simp only [Fin.getElem_fin] at h1 h2
  by_cases hk : (N.edge ⟨m.val, hlt'⟩).isControl
  · have hneed : N.controlNeeds[m.val] = 1 := by
      simp only [Net.controlNeeds, edgeControls, List.getElem_ofFn]
      exact if_pos hk
    rw [hneed] at hlen
    refine ⟨⟨m.val, hlt'⟩, hk, ?_⟩
    have e : (N.controlRange ⟨m.val, hlt'⟩).1 = ((setIndices 0 N.controlNeeds).1[m.val]).1 := rfl
    rw [e]
    omega
  · have hneed : N.controlNeeds[m.val] = 0 := by
      simp only [Net.controlNeeds, edgeControls, List.getElem_ofFn]
      exact if_neg hk
    rw [hneed] at hlen
    omega

/-- What is read from points with times. -/
theorem readVector_points {k : ℕ} (mem : ℕ → ℝ) {e : Json} {id : String} {es : List Json} {l : List (ℚ × List ℚ)}
    (hid : e.find? "id" = some (str id)) (hd : e.find? "data" = some (arr es)) (he : List.Forall₂ (IsPoint "time") es l)
    (hx : ∀ e ∈ es, e.find? "x" = none) (hne : l ≠ []) (hk : ∀ p ∈ l, p.2.length = k) :
    ∃ v, Gas.readVector (accepts (boundaryOf k)) mem e = Res.ok v ∧ v.inner = k ∧ constructFromJson mem (Gas.real l) = Res.ok v := by
  obtain ⟨v, h1, -, h2, -⟩ := C66_from_json mem (Gas.real l) (by simpa [Gas.real] using hne) k (by
    intro p hp
    obtain ⟨q, hq, rfl⟩ := List.mem_map.mp hp
    simpa using hk q hq)
  have ha : accepts (boundaryOf k) e = true := by
    refine (C78_accepts (boundaryOf_ok k) e).mpr ⟨id, es, hid, hd, fun x hxm => ?_⟩
    obtain ⟨p, hp, h3⟩ := forall₂_mem_left he hxm
    refine ⟨fun t ht => ?_, fun w hw => ?_⟩
    · rw [h3.1] at ht
      exact ⟨p.1, (Option.some.inj ht).symm⟩
    · rw [h3.2] at hw
      exact ⟨p.2, hk p hp, (Option.some.inj hw).symm⟩
  have hentries : List.Forall₂ Gas.Entry es l := by
    clear hne hk h1 hd ha
    induction he with
    | nil => exact .nil
    | cons h _ ih => exact .cons ⟨hx _ (by simp), h.1, h.2⟩ (ih fun e he => hx e (by simp [he]))
  refine ⟨v, ?_, h2, h1⟩
  unfold Gas.readVector
  rw [if_pos ha, index_of_find hd, Res.ok_bind]
  have e1 := Gas.each_readEntry hentries
  cases hentries with
  | nil => exact absurd rfl hne
  | @cons j p es l h3 h4 =>
    simp only [contains, hx j (by simp), Option.isSome_none, Bool.false_eq_true, if_false, e1, Res.ok_bind]
    exact h1

variable [Printed ℝ]

/-- The controls as they are printed. -/
noncomputable def printed (cgrid x : List ℝ) : IV ℚ := ⟨cgrid.map Printed.value, (toNet hc).controlCount, x.map Printed.value⟩

theorem printed_get {l : List ℝ} (h : ∀ v ∈ l, Exactly v) (i : ℕ) : (((l.map Printed.value).getD i 0 : ℚ) : ℝ) = l.getD i 0 := by
  by_cases hi : i < l.length
  · have := h _ (List.getElem_mem hi)
    unfold Exactly at this
    simpa [List.getD, hi] using this
  · simp [List.getD, hi]

/-- Reading the entry of a component. -/
theorem reads_printed {cgrid x : List ℝ} (hc1 : ∀ v ∈ cgrid, Exactly v) (hc2 : ∀ v ∈ x, Exactly v) (hne : cgrid ≠ [])
    (hs : cgrid.Pairwise (· < ·)) {c : Output.Control} (hn : c.number = 1) {d : ControlComponent ℝ} (hst : d.start = c.start)
    (hr : d.read = Gas.readVector (accepts (boundaryOf 1)) mem) {e : Json} (he : Output.IsControls (printed hc cgrid x) c e) :
    Output.ReadsTarget d 1 ⟨cgrid, (toNet hc).controlCount, x⟩ e := by
  obtain ⟨h1, es, h2, h3, h4⟩ := he
  have hlen : (Output.controlPoints c (printed hc cgrid x)).length = cgrid.length := by simp [Output.controlPoints, printed]
  have hpts : (Output.controlPoints c (printed hc cgrid x)).map Prod.fst = cgrid.map Printed.value := Output.controlPoints_times c _
  have hk : ∀ p ∈ Output.controlPoints c (printed hc cgrid x), p.2.length = 1 := by
    simp [Output.controlPoints, hn]
  have hne' : Output.controlPoints c (printed hc cgrid x) ≠ [] := by
    intro h
    rw [h] at hlen
    exact hne (List.eq_nil_of_length_eq_zero hlen.symm)
  obtain ⟨v, h5, h6, h7⟩ := readVector_points mem h1 h2 h3 h4 hne' hk
  have hsort : ((Output.controlPoints c (printed hc cgrid x)).map Prod.fst).Pairwise (· < ·) := by
    rw [hpts, List.pairwise_map]
    refine hs.imp_of_mem fun {a b} ha hb hab => ?_
    have e1 := hc1 a ha
    have e2 := hc1 b hb
    unfold Exactly at e1 e2
    rw [← e1, ← e2] at hab
    exact_mod_cast hab
  obtain ⟨h8, -⟩ := vector_eval hne' hk hsort h7
  refine ⟨v, by rw [hr, h5], h6, fun i hi => ?_⟩
  simp only at hi ⊢
  have hi' : i < (Output.controlPoints c (printed hc cgrid x)).length := by rw [hlen]; exact hi
  have h9 := h8 i hi'
  have ep : (((Output.controlPoints c (printed hc cgrid x))[i]'hi').1 : ℝ) = cgrid[i] := by
    have := printed_get hc1 i
    simp only [Output.controlPoints, printed, List.getElem_map, List.getElem_range]
    rw [this]
    simp [hi]
  rw [ep] at h9
  rw [h9]
  congr 1
  simp only [Output.controlPoints, printed, List.getElem_map, List.getElem_range, hn, List.map_map]
  refine List.map_congr_left fun k _ => ?_
  simp only [Function.comp]
  rw [printed_get hc2, hst]

/-- Setting the controls from the file that was written. -/
theorem set_printed (hids : (g.nodes.map Node.id ++ g.edges.map Edge.id).Nodup) {cgrid x : List ℝ}
    (hc1 : ∀ v ∈ cgrid, Exactly v) (hc2 : ∀ v ∈ x, Exactly v) (hne : cgrid ≠ []) (hs : cgrid.Pairwise (· < ·))
    (hx : x.length = (toNet hc).controlCount * cgrid.length) :
    ∃ j, controlsFile hc cgrid x = Res.ok j ∧ ∀ u : IV ℝ, u.WF → u.points = cgrid → u.inner = (toNet hc).controlCount →
      setInitialControls (controlComponents hc mem) u j = Res.ok ⟨cgrid, (toNet hc).controlCount, x⟩ := by
  have hwq : (printed hc cgrid x).WF := by simp [IV.WF, printed, hx, mul_comm]
  have hwr : (⟨cgrid, (toNet hc).controlCount, x⟩ : IV ℝ).WF := by simp [IV.WF, hx, mul_comm]
  have hbound : ∀ {k : Fin g.edges.length}, ((toNet hc).edge k).isControl →
      ((toNet hc).controlRange k).1.toNat + 1 ≤ (toNet hc).controlCount := by
    intro k hk
    obtain ⟨k0, k1⟩ := Admissible.control_bounds (N := toNet hc) hk
    unfold Net.controlCount
    omega
  obtain ⟨j, h1, hg, h2⟩ := Output.C81_written (cs := outputControls hc) hwq (by
    intro c hcm
    obtain ⟨k, hk⟩ := (mem_outputControls hc).mp hcm
    obtain ⟨-, e2, e3, e4, -⟩ := outputControl_of hc hk
    rw [e2, e4]
    exact hbound e3)
  obtain ⟨hcomp, hentry⟩ := Output.written_entries (by
    intro c hcm
    obtain ⟨k, hk⟩ := (mem_outputControls hc).mp hcm
    rw [(outputControl_of hc hk).2.2.2.2]
    simp [classes]) hg h2
  refine ⟨j, h1, fun u hu hp hin => ?_⟩
  refine Output.setInitialControls_target (number := fun _ => 1) (control_ids hc mem hids) hwr ?_ ?_ ?_ ?_ hu hp hin
  · intro d hd
    obtain ⟨k, hk⟩ := (mem_controlComponents hc mem).mp hd
    obtain ⟨-, e2, e3, -⟩ := control_of hc mem hk
    have := hbound e3
    show d.start + 1 ≤ (toNet hc).controlCount
    omega
  · intro i hi
    obtain ⟨k, hk, e⟩ := control_cover hi
    have hm : controlEdge hc mem k = some _ := if_pos hk
    obtain ⟨-, e2, -⟩ := control_of hc mem hm
    refine ⟨_, (mem_controlComponents hc mem).mpr ⟨k, hm⟩, ?_⟩
    have : ((toNet hc).controlRange k).1.toNat = i := by omega
    exact ⟨this.le, by show i < ((toNet hc).controlRange k).1.toNat + 1; omega⟩
  · intro e he
    obtain ⟨c, hcm, h3⟩ := hcomp e he
    obtain ⟨k, hk⟩ := (mem_outputControls hc).mp hcm
    obtain ⟨e1, e2, e3, e4, -⟩ := outputControl_of hc hk
    have hm : controlEdge hc mem k = some _ := if_pos e3
    obtain ⟨f1, f2, -, f4⟩ := control_of hc mem hm
    refine ⟨_, (mem_controlComponents hc mem).mpr ⟨k, hm⟩, ?_, ?_⟩
    · rw [h3.1, e1]
    · exact reads_printed hc mem hc1 hc2 hne hs e4 (by rw [e2]) f4 h3
  · intro d hd
    obtain ⟨k, hk⟩ := (mem_controlComponents hc mem).mp hd
    obtain ⟨e1, -, e3, -⟩ := control_of hc mem hk
    obtain ⟨c, hcs⟩ := outputControl_some hc e3
    obtain ⟨e, he, h3⟩ := hentry c ((mem_outputControls hc).mpr ⟨k, hcs⟩)
    exact ⟨e, he, by rw [h3, e1, (outputControl_of hc hcs).1]⟩

end Components

section Main
variable [Printed ℝ] {draws : Json → Res (ℝ → Res (ℝ × ℝ))} {mem : ℕ → ℝ} {lu : Solve} {fuel : ℕ} {s : Settings} {every : ℤ}
  {f : Files} {b : Bounds}

/-- C116. Whenever an optimization has been set up, and for all vectors Ipopt may return whose numbers are printed exactly: the file of
controls is written, and the run without optimization whose file of controls is this one simulates exactly what the
optimizer simulates for the vector, also if the simulation fails. -/
theorem C116_replay (hs : Shaped f.topology) (hd : DistinctTypes f.topology) (hlt : s.start < s.stop) (hdes : 0 < s.desired)
    {P : Nlp} (h : optimization draws mem lu fuel s every f b = Res.ok P) {x : List ℝ}
    (hx : x.length = P.controls * P.controlTimes.length) (hc1 : ∀ v ∈ P.controlTimes, Exactly v) (hc2 : ∀ v ∈ x, Exactly v) :
    ∃ g, ∃ hc : Consistent g, readNet draws mem f.defaults f.topology f.boundary = Res.ok g ∧
    ∃ controls, controlsFile hc P.controlTimes x = Res.ok controls ∧
    run draws mem lu fuel s { f with control := controls } = (P.simulation x).bind fun z => Res.ok (P.times, z) := by
  unfold optimization at h
  obtain ⟨times, ht, h⟩ := Res.bind_eq_ok.mp h
  obtain ⟨g, hg, h⟩ := Res.bind_eq_ok.mp h
  split at h
  · next hc =>
    obtain ⟨_, hset, h⟩ := Res.bind_eq_ok.mp h
    obtain ⟨initial, hinit, h⟩ := Res.bind_eq_ok.mp h
    simp only at h
    split at h
    · next hpos =>
      obtain ⟨cgrid, hgrid, h⟩ := Res.bind_eq_ok.mp h
      iterate 17 obtain ⟨_, -, h⟩ := Res.bind_eq_ok.mp h
      injection h with h
      subst h
      simp only at hx hc1 ⊢
      obtain ⟨nodes, edges, h1, h2, h3⟩ := readNet_ok hg
      obtain ⟨-, hids, -⟩ := buildNet_made (proper_of h1 h2 hs hd) h3
      obtain ⟨-, hord, hhead⟩ := controlGrid_times hlt hdes ht hgrid
      have hne : cgrid ≠ [] := by
        rintro rfl
        cases hhead
      obtain ⟨j, hj, hset'⟩ := set_printed hc mem hids hc1 hc2 hne hord hx
      refine ⟨g, hc, hg, j, hj, ?_⟩
      have hcon : setupControls hc mem s times j = Res.ok (cgrid, controlsAt (N := toNet hc) cgrid x) := by
        unfold setupControls
        rw [if_pos hpos, hgrid, Res.ok_bind, hset' _ (by simp [IV.WF, uninit, mul_comm]) rfl rfl]
        rfl
      unfold run
      simp only [ht, hg, Res.ok_bind]
      rw [dif_pos hc]
      simp only [hset, hinit, hcon, Res.ok_bind]
      rw [if_pos hx]
      cases (simulate s.retries s.simplified (newtonSolver (fun a b x c => (toNet hc).system (lu (toNet hc) a b x c) a b x c)
        s.tolerance s.iterations fuel) (controlsAt (N := toNet hc) cgrid x) times (some (entriesOf initial))).1 <;> rfl
    · cases h
  · cases h

omit [Printed ℝ] in
theorem simulation_length {P : Nlp} (h : optimization draws mem lu fuel s every f b = Res.ok P) {x : List ℝ} {z : List (Option Vec)}
    (hz : P.simulation x = Res.ok z) : x.length = P.controls * P.controlTimes.length := by
  unfold optimization at h
  obtain ⟨times, ht, h⟩ := Res.bind_eq_ok.mp h
  obtain ⟨g, hg, h⟩ := Res.bind_eq_ok.mp h
  split at h
  · obtain ⟨_, -, h⟩ := Res.bind_eq_ok.mp h
    obtain ⟨_, -, h⟩ := Res.bind_eq_ok.mp h
    simp only at h
    split at h
    · iterate 18 obtain ⟨_, -, h⟩ := Res.bind_eq_ok.mp h
      injection h with h
      subst h
      simp only at hz ⊢
      split at hz
      · assumption
      · cases hz
    · cases h
  · cases h

/-- C116. Whenever the files are written after an optimization and all numbers of `controls.json` are printed exactly, the run without
optimization that takes this file as its file of controls writes the same `states.json`. -/
theorem C116_files (hs : Shaped f.topology) (hd : DistinctTypes f.topology) (hlt : s.start < s.stop) (hdes : 0 < s.desired)
    {x : List ℝ} {controls : Json} {states : Option Json}
    (h : optimizedFiles draws mem lu fuel s every f b x = Res.ok (controls, states))
    (hc1 : ∀ P, optimization draws mem lu fuel s every f b = Res.ok P → ∀ v ∈ P.controlTimes, Exactly v) (hc2 : ∀ v ∈ x, Exactly v) :
    runFile draws mem lu fuel s { f with control := controls } = Res.ok states := by
  unfold optimizedFiles at h
  obtain ⟨P, hP, h⟩ := Res.bind_eq_ok.mp h
  obtain ⟨-, -, h⟩ := Res.bind_eq_ok.mp h
  obtain ⟨z, hz, h⟩ := Res.bind_eq_ok.mp h
  obtain ⟨g, hg, h⟩ := Res.bind_eq_ok.mp h
  split at h
  · next hc =>
    obtain ⟨j, hj, h⟩ := Res.bind_eq_ok.mp h
    obtain ⟨g', hc', hg', j', hj', hrun⟩ := C116_replay hs hd hlt hdes hP (simulation_length hP hz) (hc1 P hP) hc2
    rw [hg] at hg'
    injection hg' with hg'
    subst hg'
    rw [hj] at hj'
    injection hj' with hj'
    subst hj'
    have hj : controls = j := by
      split at h
      · obtain ⟨_, -, h⟩ := Res.bind_eq_ok.mp h
        injection h with h
        exact (congrArg Prod.fst h).symm
      · injection h with h
        exact (congrArg Prod.fst h).symm
    subst hj
    rw [hz] at hrun
    unfold runFile
    rw [hrun]
    simp only [Res.bind, Res.ok_bind, hg]
    rw [dif_pos hc]
    split at h
    · next states' hst =>
      obtain ⟨o, ho, h⟩ := Res.bind_eq_ok.mp h
      injection h with h
      obtain ⟨-, rfl⟩ := Prod.mk.inj h
      rw [hst]
      simp only [ho, Res.ok_bind]
    · next hst =>
      injection h with h
      obtain ⟨-, rfl⟩ := Prod.mk.inj h
      rw [hst]
  · cases h

/-- C116. The file of states of an optimization shows states which obey all laws with the boundary values, initial values and topology of
the problem and the controls of the file of controls which is written with it (see `Faithful` in `Verif.Read.Results`). -/
theorem C116_results (ho : f.topology.isObj = true) (hs : Shaped f.topology) (hd : DistinctTypes f.topology) (sb : Shaped f.boundary)
    (db : DistinctTypes f.boundary) (hf : Fit f.defaults f.topology) (hlt : s.start < s.stop) (hdes : 0 < s.desired)
    (hmax : 1 ≤ s.iterations) (hcov : ∀ t, s.start ≤ t → t ≤ s.stop → Covers f.defaults f.topology f.boundary t)
    (hdraw : ∀ data d, draws data = Res.ok d → ∀ t, s.start ≤ t → t ≤ s.stop → ∃ b, d t = Res.ok b)
    {x : List ℝ} {controls states : Json} (h : optimizedFiles draws mem lu fuel s every f b x = Res.ok (controls, some states))
    (hc1 : ∀ P, optimization draws mem lu fuel s every f b = Res.ok P → ∀ v ∈ P.controlTimes, Exactly v) (hc2 : ∀ v ∈ x, Exactly v) :
    ∃ times r cgrid, ShownIn states f.topology times r ∧ Faithful s { f with control := controls } times r cgrid :=
  C109_results (f := { f with control := controls }) ho hs hd sb db hf hlt hdes hmax hcov hdraw
    (C116_files hs hd hlt hdes h hc1 hc2)

/-- C116. The file of controls has one entry for each component with a control and no others: its id and for each control time the time and
the value of this control in the vector Ipopt returned. The vector lists the controls of the first time, then those of the second time and so on,
and each component has its own place among them. -/
theorem C116_controls {P : Nlp} (h : optimization draws mem lu fuel s every f b = Res.ok P) {x : List ℝ}
    (hx : x.length = P.controls * P.controlTimes.length) :
    ∃ g, ∃ hc : Consistent g, readNet draws mem f.defaults f.topology f.boundary = Res.ok g ∧
    ∃ place : Fin g.edges.length → ℕ,
      (∀ k, ((toNet hc).edge k).isControl → place k < P.controls) ∧
      (∀ i < P.controls, ∃ k, ((toNet hc).edge k).isControl ∧ place k = i) ∧
      (∀ k l, ((toNet hc).edge k).isControl → ((toNet hc).edge l).isControl → place k = place l → k = l) ∧
    ∃ controls, controlsFile hc P.controlTimes x = Res.ok controls ∧
      (∀ k, ((toNet hc).edge k).isControl → ∃ e ∈ components controls, id? e = some g.edges[k].id) ∧
      ∀ e ∈ components controls, ∃ k, ((toNet hc).edge k).isControl ∧ id? e = some g.edges[k].id ∧
        ∃ es, e.find? "data" = some (arr es) ∧ es.length = P.controlTimes.length ∧
          ∀ j (hj : j < es.length) (hj' : j < P.controlTimes.length), es[j].find? "time" = some (num (Printed.value P.controlTimes[j])) ∧
            ∃ v, x[j * P.controls + place k]? = some v ∧ es[j].find? "values" = some (arr [num (Printed.value v)]) := by
  unfold optimization at h
  obtain ⟨times, ht, h⟩ := Res.bind_eq_ok.mp h
  obtain ⟨g, hg, h⟩ := Res.bind_eq_ok.mp h
  split at h
  · next hc =>
    obtain ⟨_, hset, h⟩ := Res.bind_eq_ok.mp h
    obtain ⟨initial, hinit, h⟩ := Res.bind_eq_ok.mp h
    simp only at h
    split at h
    · next hpos =>
      obtain ⟨cgrid, hgrid, h⟩ := Res.bind_eq_ok.mp h
      iterate 17 obtain ⟨_, -, h⟩ := Res.bind_eq_ok.mp h
      injection h with h
      subst h
      simp only at hx ⊢
      have hb : ∀ {k : Fin g.edges.length}, ((toNet hc).edge k).isControl →
          0 ≤ ((toNet hc).controlRange k).1 ∧ ((toNet hc).controlRange k).1.toNat < (toNet hc).controlCount := by
        intro k hk
        obtain ⟨k0, k1⟩ := Admissible.control_bounds (N := toNet hc) hk
        unfold Net.controlCount
        exact ⟨k0, by omega⟩
      have hwq : (printed hc cgrid x).WF := by simp [IV.WF, printed, hx, mul_comm]
      obtain ⟨j, h1, hgood, h2⟩ := Output.C81_written (cs := outputControls hc) hwq (by
        intro c hcm
        obtain ⟨k, hk⟩ := (mem_outputControls hc).mp hcm
        obtain ⟨-, e2, e3, e4, -⟩ := outputControl_of hc hk
        rw [e2, e4]
        exact (hb e3).2)
      obtain ⟨hcomp, hentry⟩ := Output.written_entries (by
        intro c hcm
        obtain ⟨k, hk⟩ := (mem_outputControls hc).mp hcm
        rw [(outputControl_of hc hk).2.2.2.2]
        simp [classes]) hgood h2
      refine ⟨g, hc, hg, fun k => ((toNet hc).controlRange k).1.toNat, fun k hk => (hb hk).2, fun i hi => ?_, fun k l hk hl e => ?_, j, h1,
        fun k hk => ?_, fun e he => ?_⟩
      · obtain ⟨k, hk, e⟩ := control_cover hi
        exact ⟨k, hk, by simp only [e]; omega⟩
      · refine control_unique hk hl ?_
        have h5 := hb hk
        have h6 := hb hl
        have h7 : ((toNet hc).controlRange k).1.toNat = ((toNet hc).controlRange l).1.toNat := e
        omega
      · obtain ⟨c, hcs⟩ := outputControl_some hc hk
        obtain ⟨e, he, h3⟩ := hentry c ((mem_outputControls hc).mpr ⟨k, hcs⟩)
        exact ⟨e, he, h3.trans (congrArg some (outputControl_of hc hcs).1)⟩
      · obtain ⟨c, hcm, h3, es, h4, h5, -⟩ := hcomp e he
        obtain ⟨k, hk⟩ := (mem_outputControls hc).mp hcm
        obtain ⟨e1, e2, e3, e4, -⟩ := outputControl_of hc hk
        have hlen : es.length = cgrid.length := by
          rw [h5.length_eq]
          simp [Output.controlPoints, printed]
        refine ⟨k, e3, by rw [id?, h3]; exact congrArg some e1, es, h4, hlen, fun i hi hi' => ?_⟩
        have h6 := (List.forall₂_iff_get.mp h5).2 i hi (by rw [← h5.length_eq]; exact hi)
        simp only [List.get_eq_getElem, Output.controlPoints, printed, List.getElem_map, List.getElem_range, e4] at h6
        obtain ⟨h7, h8⟩ := h6
        refine ⟨by rw [h7]; simp [hi'], ?_⟩
        have hlt : i * (toNet hc).controlCount + ((toNet hc).controlRange k).1.toNat < x.length := by
          rw [hx, mul_comm (toNet hc).controlCount]
          calc _ < i * (toNet hc).controlCount + (toNet hc).controlCount := by have := (hb e3).2; omega
            _ = (i + 1) * (toNet hc).controlCount := by ring
            _ ≤ cgrid.length * (toNet hc).controlCount := Nat.mul_le_mul_right _ hi'
        refine ⟨_, List.getElem?_eq_getElem hlt, ?_⟩
        rw [h8]
        simp [e2, hlt]
    · cases h
  · cases h

omit [Printed ℝ] in
/-- There is something in the Jacobian exactly if there are constraints. -/
theorem jacobian_empty (hlt : s.start < s.stop) (hdes : 0 < s.desired) {P : Nlp} (h : optimization draws mem lu fuel s every f b = Res.ok P) :
    P.jacobian.nonZeros = 0 ↔ P.constraints = 0 := by
  unfold optimization at h
  obtain ⟨times, ht, h⟩ := Res.bind_eq_ok.mp h
  obtain ⟨g, hg, h⟩ := Res.bind_eq_ok.mp h
  split at h
  · next hc =>
    obtain ⟨_, hset, h⟩ := Res.bind_eq_ok.mp h
    obtain ⟨initial, hinit, h⟩ := Res.bind_eq_ok.mp h
    simp only at h
    split at h
    · next hpos =>
      obtain ⟨cgrid, hgrid, h⟩ := Res.bind_eq_ok.mp h
      obtain ⟨_, -, h⟩ := Res.bind_eq_ok.mp h
      obtain ⟨ktimes, hk, h⟩ := Res.bind_eq_ok.mp h
      iterate 6 obtain ⟨_, -, h⟩ := Res.bind_eq_ok.mp h
      obtain ⟨jac, hjac, h⟩ := Res.bind_eq_ok.mp h
      iterate 6 obtain ⟨_, -, h⟩ := Res.bind_eq_ok.mp h
      obtain ⟨_, hcheck, h⟩ := Res.bind_eq_ok.mp h
      obtain ⟨_, -, h⟩ := Res.bind_eq_ok.mp h
      injection h with h
      subst h
      simp only
      obtain ⟨times', e1, hgood, -⟩ := (C26_grid_partial s.start s.desired s.stop).1 hlt hdes
      rw [ht] at e1
      injection e1 with e1
      subst e1
      obtain ⟨cons, e2, hne, hks, -⟩ := OptTimes.C20_selection times every hgood.1 hgood.2.2.2.1
      rw [hk] at e2
      injection e2 with e2
      subst e2
      have hcs : cgrid.Pairwise (· ≤ ·) := by
        by_contra hcon
        simp [checkTimes, hcon] at hcheck
      obtain ⟨h1, h2, -, -, -, h6, -⟩ := Jacobian.C09_offsets _ _ _ _ (hks.imp le_of_lt) hcs jac hjac
      have hgJ := Jacobian.good_of_makeData (hks.imp le_of_lt) hcs hjac
      have hle := Jacobian.off_le hgJ (j := 0) hgJ.pos
      constructor
      · intro h0
        rw [h0] at hle
        have hprod : jac.innerColHeight 0 * jac.blockWidth = 0 := by omega
        have hcol : jac.outerColHeight 0 = ktimes.length := by
          rw [← h6]
          simp [Jacobian.Jac.outerColHeight, Jacobian.Jac.outerHeight, hgJ.zero]
        rw [Jacobian.Jac.innerColHeight, hcol, h1, h2] at hprod
        have hl : ktimes.length ≠ 0 := by simpa using hne
        rcases Nat.mul_eq_zero.mp hprod with h | h
        · exact (Nat.mul_eq_zero.mp h).resolve_left hl
        · omega
      · intro h0
        rw [Jacobian.Jac.nonZeros, Jacobian.Jac.blockSize, h1, h0]
        simp
    · cases h
  · cases h

omit [Printed ℝ] in
/-- The density is computed exactly if there are constraints. -/
theorem density_optimized (hlt : s.start < s.stop) (hdes : 0 < s.desired) {P : Nlp} (h : optimization draws mem lu fuel s every f b = Res.ok P) :
    (0 < P.constraints → ∃ d, Jacobian.density mem 0 ⟨P.jacobian, .own (List.replicate P.jacobian.nonZeros (0 : ℝ))⟩ = Res.ok d) ∧
      (P.constraints = 0 → Jacobian.density mem 0 ⟨P.jacobian, .own (List.replicate P.jacobian.nonZeros (0 : ℝ))⟩ = Res.throws) := by
  have e := jacobian_empty hlt hdes h
  rw [Jacobian.density_eq _ _ _ _ List.length_replicate]
  exact ⟨fun h => ⟨_, if_neg fun h' => by omega⟩, fun h => if_pos (e.mpr h)⟩

/-- C116. Both files are written whenever there is a constraint, the simulation with the vector that Ipopt returned succeeds and its states are free of NaN.
(Without constraints nothing is written, see C144.) -/
theorem C116_written (ho : f.topology.isObj = true) (hs : Shaped f.topology) (hd : DistinctTypes f.topology) (sb : Shaped f.boundary)
    (db : DistinctTypes f.boundary) (hf : Fit f.defaults f.topology) (hlt : s.start < s.stop) (hdes : 0 < s.desired)
    (hmax : 1 ≤ s.iterations) (hcov : ∀ t, s.start ≤ t → t ≤ s.stop → Covers f.defaults f.topology f.boundary t)
    (hdraw : ∀ data d, draws data = Res.ok d → ∀ t, s.start ≤ t → t ≤ s.stop → ∃ b, d t = Res.ok b)
    {P : Nlp} (h : optimization draws mem lu fuel s every f b = Res.ok P) {x : List ℝ} {z : List Vec}
    (hk : 0 < P.constraints) (hz : P.simulation x = Res.ok (z.map some)) (hc1 : ∀ v ∈ P.controlTimes, Exactly v) (hc2 : ∀ v ∈ x, Exactly v) :
    ∃ controls states, optimizedFiles draws mem lu fuel s every f b x = Res.ok (controls, some states) := by
  obtain ⟨g, hc, hg, j, hj, hrun⟩ := C116_replay hs hd hlt hdes h (simulation_length h hz) hc1 hc2
  rw [hz] at hrun
  obtain ⟨r, cgrid, -, hall⟩ := C108_partial (f := { f with control := j }) ho hs hd sb db hf hlt hdes hmax hcov hdraw hrun
  obtain ⟨out, hout, -⟩ := hall
  refine ⟨j, out, ?_⟩
  unfold runFile at hout
  rw [hrun, Res.bind] at hout
  simp only [hg, Res.ok_bind] at hout
  rw [dif_pos hc] at hout
  simp only [allSome_some] at hout
  obtain ⟨o, h1, h2⟩ := Res.bind_eq_ok.mp hout
  injection h2 with h2
  injection h2 with h2
  subst h2
  obtain ⟨d, hdensity⟩ := (density_optimized hlt hdes h).1 hk
  unfold optimizedFiles
  simp only [h, hdensity, hz, hg, Res.ok_bind]
  rw [dif_pos hc]
  simp only [hj, Res.ok_bind, allSome_some, h1]

end Main
end Verif.Read
