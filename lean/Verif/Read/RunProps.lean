import Verif.Read.RunBegin
import Verif.Network.Cost

/-!
# Property C102: a run of the program begins with the file of initial values and follows all files

The property puts together the grids of times (C26, C68), the initial values (C64, C77), the controls (C64) and the simulation
(C101), for one and the same run of the program.
-/

set_option autoImplicit false

namespace Verif.Read

open Verif.Json Verif.Factory Verif.Interp Verif.Schema Verif.Initial Verif.Times Verif.Newton Verif.Evolve Network Net

/-! ## Specification -/

/-- The controls at a time are affine between neighbouring control times, where they have the values of the file (listed or interpolated). -/
def ControlledBy {g : Graph Network.Node EdgeKind} (hc : Consistent g) (control : Json) (cgrid : List ℝ) (t : ℝ) (c : Vec) : Prop :=
  ∀ k : Fin g.edges.length, ((toNet hc).edge k).isControl → ∃ e, LastEntry control g.edges[k].id e ∧
    ∀ l, Lists e l → (l.map Prod.fst).Pairwise (· < ·) → ∀ i, ∀ hi : i + 1 < cgrid.length, cgrid[i] ≤ t → t ≤ cgrid[i + 1] →
      ∀ a b, ValueAt 1 l cgrid[i] a → ValueAt 1 l cgrid[i + 1] b →
        c ((toNet hc).controlRange k).1 = a.1 + (t - cgrid[i]) / (cgrid[i + 1] - cgrid[i]) * (b.1 - a.1)

/-- The control times that the settings ask for; without settings they are the times of the states. (If there is just one control
time, nothing is said.) -/
def ControlTimes (s : Settings) (times cgrid : List ℝ) : Prop :=
  match s.control with
  | none => cgrid = times
  | some ⟨some step, none⟩ => GoodGrid cgrid s.start s.stop step
  | some ⟨none, some n⟩ => n ≠ 1 → (cgrid.length : ℤ) = n ∧ GoodGrid cgrid s.start s.stop (s.stop - s.start)
  | _ => False

/-- Power plants are connected to the gas network, and connections end at power plants. -/
def Connected (N : Net) : Prop :=
  (∀ v, (N.node v).kind.isPlant → ∃ k, (N.src k = v ∨ N.dst k = v) ∧ ∃ g p n, N.edge k = .gas (.gaspower g p) n) ∧
  ∀ k g p n, N.edge k = .gas (.gaspower g p) n → (N.node (N.dst k)).kind.isPlant

/-! ## Proofs -/

section Controls
variable {g : Graph Network.Node EdgeKind} (hc : Consistent g) (mem : ℕ → ℝ)

theorem mem_controlComponents {c : ControlComponent ℝ} :
    c ∈ controlComponents hc mem ↔ ∃ k, controlEdge hc mem k = some c := by
  simp [controlComponents]

theorem control_of {c : ControlComponent ℝ} {k : Fin g.edges.length} (h : controlEdge hc mem k = some c) :
    c.id = g.edges[k].id ∧ (c.start : ℤ) = ((toNet hc).controlRange k).1 ∧ ((toNet hc).edge k).isControl ∧
      c.read = Gas.readVector (accepts (boundaryOf 1)) mem := by
  unfold controlEdge at h
  split at h
  · next hk =>
    injection h with h
    subst h
    exact ⟨rfl, Int.toNat_of_nonneg (Admissible.control_bounds (N := toNet hc) hk).1, hk, rfl⟩
  · cases h

theorem control_ids (hids : (g.nodes.map Node.id ++ g.edges.map Edge.id).Nodup) :
    ((controlComponents hc mem).map ControlComponent.id).Nodup := by
  refine List.Sublist.nodup ?_ (List.nodup_append.mp hids).2.1
  have e2 : g.edges.map Edge.id = (List.finRange g.edges.length).map fun v => g.edges[v].id := by
    rw [← List.ofFn_eq_map]
    exact List.ext_getElem (by simp) (by simp)
  rw [e2]
  exact sublist_filterMap fun k c h => (control_of hc mem h).1

theorem disjoint_controls : DisjointControls (fun _ => 1) (controlComponents hc mem) := by
  intro a ha b hb j h1 h2 h3 h4
  simp only at h2 h4
  obtain ⟨k, hk⟩ := (mem_controlComponents hc mem).mp ha
  obtain ⟨k', hk'⟩ := (mem_controlComponents hc mem).mp hb
  obtain ⟨-, a1, a2, -⟩ := control_of hc mem hk
  obtain ⟨-, b1, b2, -⟩ := control_of hc mem hk'
  have key : ∀ {k : Fin g.edges.length}, ((toNet hc).edge k).isControl → (j : ℤ) = ((toNet hc).controlRange k).1 →
      ∃ hlt : k.val < (setIndices 0 (toNet hc).controlNeeds).1.length,
        ((setIndices 0 (toNet hc).controlNeeds).1[(⟨k.val, hlt⟩ : Fin _)]).1 ≤ (j : ℤ) ∧
        (j : ℤ) < ((setIndices 0 (toNet hc).controlNeeds).1[(⟨k.val, hlt⟩ : Fin _)]).2 := by
    intro k hk e
    have hlt : k.val < (toNet hc).controlNeeds.length := by
      have : k.val < (toNet hc).edges := k.isLt
      simpa [Net.controlNeeds] using this
    have hlen := (C40_contiguous 0 (toNet hc).controlNeeds).2.1 k.val hlt (by rw [setIndices_length]; exact hlt)
    have hneed : (toNet hc).controlNeeds[k.val] = 1 := by
      simp only [Net.controlNeeds, edgeControls, List.getElem_ofFn]
      exact if_pos hk
    rw [hneed] at hlen
    refine ⟨by rw [setIndices_length]; exact hlt, ?_⟩
    have e' : (j : ℤ) = ((setIndices 0 (toNet hc).controlNeeds).1[k.val]'(by rw [setIndices_length]; exact hlt)).1 := e
    simp only [Fin.getElem_fin]
    rw [hlen]
    omega
  obtain ⟨l1, i1, i2⟩ := key a2 (by omega)
  obtain ⟨l2, i3, i4⟩ := key b2 (by omega)
  obtain ⟨p1, p2⟩ := C40_partition 0 (toNet hc).controlNeeds
  obtain ⟨b1, b2⟩ := p2 _ _ i1 i2
  have := (p1 j b1 b2).unique ⟨i1, i2⟩ ⟨i3, i4⟩
  have : k = k' := Fin.ext (by simpa using this)
  subst this
  exact Option.some.inj (hk.symm.trans hk')

theorem fold_control_wf {cs : List (ControlComponent ℝ)} {es : List Json} {u u' : IV ℝ} (hwf : u.WF)
    (h : Res.fold es u (setControlEntry cs) = Res.ok u') : u'.WF := by
  induction es generalizing u with
  | nil =>
    injection h with h
    subst h
    exact hwf
  | cons e es ih =>
    obtain ⟨u1, h1, h2⟩ := Res.bind_eq_ok.mp h
    refine ih ?_ h2
    obtain ⟨s, -, ⟨c, -, -, h3⟩ | ⟨-, rfl⟩⟩ := setControlEntry_ok h1
    · exact setControl_wf hwf h3
    · exact hwf

theorem _root_.Verif.Times.GoodGrid.bounds {grid : List ℝ} {start stop step : ℝ} (h : GoodGrid grid start stop step) :
    ∀ t ∈ grid, start ≤ t ∧ t ≤ stop := by
  obtain ⟨hp, hh, hl, hlen, -⟩ := h
  intro t ht
  have hfirst : grid[0] = start := by
    have := head?_eq (l := grid) (by omega)
    rw [this] at hh; simpa using hh
  have hlast : grid[grid.length - 1] = stop := by
    have := getLast?_eq (l := grid) (by omega)
    rw [this] at hl; simpa using hl
  obtain ⟨i, hi, rfl⟩ := List.mem_iff_getElem.mp ht
  constructor
  · rcases Nat.eq_zero_or_pos i with rfl | h0
    · exact hfirst.ge
    · rw [← hfirst]
      exact (getElem_lt_of_pairwise hp h0 hi).le
  · by_cases h0 : i = grid.length - 1
    · subst h0
      exact hlast.le
    · rw [← hlast]
      exact (getElem_lt_of_pairwise hp (by omega) (by omega)).le

/-- The control times of the settings. -/
theorem controlGrid_times {s : Settings} (hlt : s.start < s.stop) (hdes : 0 < s.desired) {times : List ℝ}
    (htimes : stateGrid s.start s.desired s.stop = Res.ok times) {grid : List ℝ}
    (hg : controlGrid s.start s.desired s.stop s.control = Res.ok grid) :
    ControlTimes s times grid ∧ grid.Pairwise (· < ·) ∧ grid.head? = some s.start := by
  obtain ⟨times', e1, hgood, -⟩ := (C26_grid_partial s.start s.desired s.stop).1 hlt hdes
  rw [htimes] at e1
  injection e1 with e1
  subst e1
  obtain ⟨q1, q2, q3, q4, q5, q6, q7⟩ := C68_control_grid_partial s.start s.desired s.stop hlt
  have fin : ∀ {step}, GoodGrid grid s.start s.stop step → grid.Pairwise (· < ·) ∧ grid.head? = some s.start :=
    fun h => ⟨h.1, h.2.1⟩
  unfold ControlTimes
  match hcs : s.control with
  | none =>
    rw [hcs, q5, htimes] at hg
    injection hg with hg
    subst hg
    exact ⟨rfl, fin hgood⟩
  | some ⟨some d, some n⟩ => rw [hcs, q1] at hg; cases hg
  | some ⟨none, none⟩ => rw [hcs, q2] at hg; cases hg
  | some ⟨some d, none⟩ =>
    rw [hcs] at hg
    rcases le_or_gt d 0 with hd | hd
    · rw [q3 d hd] at hg; cases hg
    · obtain ⟨grid', h1, h2⟩ := q6 d hd
      rw [hg] at h1
      injection h1 with h1
      subst h1
      exact ⟨h2, fin h2⟩
  | some ⟨none, some n⟩ =>
    rw [hcs] at hg
    rcases le_or_gt n 0 with hd | hd
    · rw [q4 n hd] at hg; cases hg
    · by_cases hn : n = 1
      · subst hn
        simp only [controlGrid, if_true, if_neg (not_le.mpr hlt)] at hg
        injection hg with hg
        subst hg
        exact ⟨fun h => absurd rfl h, by simp, rfl⟩
      · obtain ⟨grid', h1, h3, h2⟩ := q7 n (by omega)
        rw [hg] at h1
        injection h1 with h1
        subst h1
        exact ⟨fun _ => ⟨h3, h2⟩, fin h2⟩

/-- The controls that were set up are those in the file. -/
theorem setupControls_ok (hids : (g.nodes.map Node.id ++ g.edges.map Edge.id).Nodup) {s : Settings} (hlt : s.start < s.stop)
    (hdes : 0 < s.desired) {times : List ℝ} (htimes : stateGrid s.start s.desired s.stop = Res.ok times) {control : Json}
    {r : List ℝ × (ℝ → Res (Fin (toNet hc).controlCount → ℝ))} (h : setupControls hc mem s times control = Res.ok r) :
    ((∃ k, ((toNet hc).edge k).isControl) → ControlTimes s times r.1) ∧
    ∀ t c, r.2 t = Res.ok c → ControlledBy hc control r.1 t (ext c) := by
  obtain ⟨times', e1, hgood, -⟩ := (C26_grid_partial s.start s.desired s.stop).1 hlt hdes
  rw [htimes] at e1
  injection e1 with e1
  subst e1
  unfold setupControls at h
  split at h
  · obtain ⟨grid, hg, h⟩ := Res.bind_eq_ok.mp h
    obtain ⟨u, hu, h⟩ := Res.bind_eq_ok.mp h
    injection h with h
    subst h
    obtain ⟨hct, hord, -⟩ := controlGrid_times hlt hdes htimes hg
    refine ⟨fun _ => hct, ?_⟩
    · intro t c hcontrol k hk
      obtain ⟨w, hw, hcc⟩ := Res.bind_eq_ok.mp hcontrol
      injection hcc with hcc
      subst hcc
      have hwf0 : (⟨grid, (toNet hc).controlCount, uninit mem ((toNet hc).controlCount * grid.length)⟩ : IV ℝ).WF := by
        simp [IV.WF, uninit, mul_comm]
      obtain ⟨hp, hin, hall⟩ := C64_network_controls (control_ids hc mem hids) (disjoint_controls hc mem) (by
        intro c hcm e v hr
        obtain ⟨k, hk⟩ := (mem_controlComponents hc mem).mp hcm
        rw [(control_of hc mem hk).2.2.2] at hr
        exact (readVector_inner hr).le) hwf0 hu
      simp only at hp hin
      have hwf : u.WF := by
        unfold setInitialControls at hu
        obtain ⟨_, -, hu⟩ := Res.bind_eq_ok.mp hu
        exact fold_control_wf hwf0 hu
      have hm : controlEdge hc mem k = some _ := if_pos hk
      obtain ⟨-, hst, -, -⟩ := control_of hc mem hm
      obtain ⟨before, e, after, v, f1, f2, f3, hread, hold⟩ := hall _ ((mem_controlComponents hc mem).mpr ⟨k, hm⟩)
      refine ⟨e, ⟨before, after, f1, f2, f3⟩, fun l hl hsort i hi ht1 ht2 a b ha hb => ?_⟩
      obtain ⟨hne, hlen, hcon⟩ := readVector_ok hread hl
      have hinner : v.inner = 1 := readVector_inner hread
      obtain ⟨k0, k1⟩ := Admissible.control_bounds (N := toNet hc) hk
      have hbound : (((toNet hc).controlRange k).1.toNat) < (toNet hc).controlCount := by
        unfold Net.controlCount
        omega
      have hsorted : u.points.Pairwise (· < ·) := by
        rw [hp]
        exact hord
      subst hp
      have value : ∀ (i : ℕ) (hi : i < u.points.length) b, ValueAt 1 l u.points[i] b →
          u.values[i * u.inner + ((toNet hc).controlRange k).1.toNat]? = some b.1 := by
        intro i hi b hb
        obtain ⟨x, step, g1, g2, g3, g4⟩ := hold i u.points[i] (by simp)
        obtain ⟨-, w', g5, g6, g7⟩ := C01_eval_at_node u hwf hsorted i hi
        rw [g5] at g3
        injection g3 with g3
        subst g3
        obtain ⟨r, r1, r2, r3, -⟩ := eval_valueAt hne hlen hsort hcon hb
        rw [r1] at g1
        injection g1 with g1
        subst g1
        rw [← g7 _ (by rw [hin]; exact hbound)]
        have := g4 0 (by omega)
        simp only [add_zero] at this
        rw [this, r3 (by decide)]
      obtain ⟨r, r1, r2, r3⟩ := C02_eval_affine u hwf hsorted i hi t ht1 ht2
      rw [hw] at r1
      injection r1 with r1
      subst r1
      obtain ⟨a', b', c', s1, s2, s3, s4, -⟩ := r3 (((toNet hc).controlRange k).1.toNat) (by rw [hin]; exact hbound)
      rw [value i (Nat.lt_of_succ_lt hi) a ha] at s1
      rw [value (i + 1) hi b hb] at s2
      injection s1 with s1
      injection s2 with s2
      rw [ext_entriesOf (by rw [r2, hin]) s3 (by omega), s4, s1, s2]
      ring
  · next hz =>
    injection h with h
    subst h
    have no : ∀ k, ¬ ((toNet hc).edge k).isControl := by
      intro k hk
      have := Admissible.control_bounds (N := toNet hc) hk
      exact absurd (by unfold Net.controlCount; omega) hz
    exact ⟨fun ⟨k, hk⟩ => absurd hk (no k), fun t c _ k hk => absurd hk (no k)⟩

end Controls

theorem connected_of {g : Graph Network.Node EdgeKind} {hc : Consistent g} (ha : Admissible (toNet hc)) {u : Unit}
    (h : (toNet hc).setup = Res.ok u) :
    Connected (toNet hc) := by
  unfold Net.setup at h
  split at h
  · next hp =>
    refine ⟨fun v hv => ?_, hp.2⟩
    obtain ⟨k, hk, hkk⟩ := hp.1 v hv
    refine ⟨k, ?_, hkk⟩
    rcases List.mem_append.mp hk with hk | hk
    · exact .inl (((ha.starting v).2 k).mp hk)
    · exact .inr (((ha.ending v).2 k).mp hk)
  · cases h

/-- C102. Whenever a run succeeds, the times go from start to end in equal steps that are at most as long as desired, there is a
state for each time, all power plants are connected, the first state is that of the file of initial values, and each state that is free of NaN and
divisions by zero is reached from the one before with the controls of the file such that all nodes get the listed values and
all edges behave as described, up to the tolerance. -/
theorem C102_run {draws : Json → Res (ℝ → Res (ℝ × ℝ))} {mem : ℕ → ℝ} {lu : Solve} {fuel : ℕ} {s : Settings} {f : Files}
    (ho : f.topology.isObj = true) (hs : Shaped f.topology) (hd : DistinctTypes f.topology) (sb : Shaped f.boundary)
    (db : DistinctTypes f.boundary) (hf : Fit f.defaults f.topology) (hlt : s.start < s.stop) (hdes : 0 < s.desired)
    (hmax : 1 ≤ s.iterations) (hcov : ∀ t, s.start ≤ t → t ≤ s.stop → Covers f.defaults f.topology f.boundary t)
    (hdraw : ∀ data d, draws data = Res.ok d → ∀ t, s.start ≤ t → t ≤ s.stop → ∃ b, d t = Res.ok b)
    {times : List ℝ} {states : List (Option Vec)} (h : run draws mem lu fuel s f = Res.ok (times, states)) :
    GoodGrid times s.start s.stop s.desired ∧ states.length = times.length ∧
    ∃ g, ∃ hc : Consistent g, readNet draws mem f.defaults f.topology f.boundary = Res.ok g ∧
    Connected (toNet hc) ∧ (∃ x, states.head? = some (some x) ∧ Begins hc f.initial x) ∧
    ∃ cgrid, ((∃ k, ((toNet hc).edge k).isControl) → ControlTimes s times cgrid) ∧
    ∀ i (hi : i + 1 < times.length) (his : i + 1 < states.length) (x y : Vec),
      states[i] = some x → states[i + 1] = some y → (toNet hc).Finite y →
      ∃ c, ControlledBy hc f.control cgrid times[i + 1] c ∧
        Respects hc f.defaults f.topology f.boundary s.tolerance times[i] times[i + 1] ⟨x, y, c⟩ := by
  unfold run at h
  obtain ⟨times', ht, h⟩ := Res.bind_eq_ok.mp h
  obtain ⟨g, hg, h⟩ := Res.bind_eq_ok.mp h
  split at h
  · next hc =>
    obtain ⟨_, hset, h⟩ := Res.bind_eq_ok.mp h
    obtain ⟨initial, hinit, h⟩ := Res.bind_eq_ok.mp h
    obtain ⟨controls, hcon, h⟩ := Res.bind_eq_ok.mp h
    obtain ⟨sts, hsim, h⟩ := Res.bind_eq_ok.mp h
    injection h with h
    obtain ⟨rfl, rfl⟩ := Prod.mk.inj h
    obtain ⟨times'', e1, hgood, -⟩ := (C26_grid_partial s.start s.desired s.stop).1 hlt hdes
    rw [ht] at e1
    injection e1 with e1
    subst e1
    obtain ⟨nodes, edges, h1, h2, h3⟩ := readNet_ok hg
    obtain ⟨-, hids, -⟩ := buildNet_made (proper_of h1 h2 hs hd) h3
    have hin := hgood.bounds
    obtain ⟨hc', h101⟩ := C101_simulation ho hs hd sb db hg hf times' (fun t ht => hcov t (hin t ht).1 (hin t ht).2)
      (fun data d hdd t ht => hdraw data d hdd t (hin t ht).1 (hin t ht).2)
    obtain ⟨a1, a2, a3⟩ := h101 (lu (toNet hc)) s.tolerance s.iterations hmax fuel s.retries s.simplified controls.2
      (entriesOf initial) sts _ (Prod.ext hsim rfl)
    obtain ⟨_, hadm, -⟩ := C100_partial ho hs hd sb db hg hf
    obtain ⟨c1, c3⟩ := setupControls_ok hc mem hids hlt hdes ht hcon
    refine ⟨hgood, by simpa using a1, g, hc, hg, connected_of hadm hset, ⟨ext (entriesOf initial), by rw [List.head?_map, a2]; rfl, ?_⟩,
      controls.1, c1, ?_⟩
    · exact begins_of hc hids (by simp [uninit]) hinit
    · intro i hi his x y hx hy hfin
      simp only [List.getElem_map, Option.map_eq_some_iff] at hx hy
      obtain ⟨x', hx', rfl⟩ := hx
      obtain ⟨y', hy', rfl⟩ := hy
      obtain ⟨c, hcc, hr⟩ := a3 i hi (by simpa using his) x' y' hx' hy' hfin
      exact ⟨ext c, c3 _ c hcc, hr⟩
  · cases h

end Verif.Read
