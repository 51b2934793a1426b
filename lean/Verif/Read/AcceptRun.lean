import Verif.Read.AcceptState
import Verif.Read.ResultsLaws

/-!
# Property C127: with files without mistakes a run fails only if Newton's method does
-/

set_option autoImplicit false

namespace Verif.Read

open Verif.Json Verif.Factory Verif.Interp Verif.Schema Verif.Initial Verif.Times Verif.Newton Verif.Evolve Network Net

/-! ## Specification -/

/-- The json has one or more entries with the id of this one, and each of them is as it should be. -/
def Present (j entry : Json) (P : Json → Prop) : Prop :=
  (∃ x ∈ components j, id? x = id? entry) ∧ ∀ x ∈ components j, id? x = id? entry → P x

/-- Initial values of a component of some type: a list along pipes that begins at zero and does not end before the pipe does, two states for short
components, and one state for all others. -/
def StartsAt (defaults : Json) (type : String) (entry x : Json) : Prop :=
  if type = "Pipe" then
    ∃ l, Describes "x" x l ∧ (l.map Prod.fst).Pairwise (· < ·) ∧ (∀ p ∈ l, p.2.length = 2) ∧ (∃ p ∈ l, p.1 = 0) ∧
      ∀ L, Metres (defaultsFor defaults "Pipe") entry "length" L → ∃ q ∈ l, L ≤ q.1
  else if type = "Compressorstation" ∨ type = "Controlvalve" ∨ type = "Shortpipe" then
    ∃ a b c d, Describes "x" x [(0, [a, b]), (1, [c, d])]
  else ∃ a b, Describes "x" x [(0, [a, b])]

/-- There are initial values for all components with states. -/
structure InitialsGiven (defaults topology initial : Json) : Prop where
  ids : AllHaveIds initial
  nodes : ∀ e ∈ entries (types topology "nodes"), e.1 ∈ powerNodes → Present initial e.2 (StartsAt defaults e.1 e.2)
  edges : ∀ e ∈ entries (types topology "connections"), e.1 ≠ "Transmissionline" → Present initial e.2 (StartsAt defaults e.1 e.2)

/-- A control is listed for all times of the simulation. -/
def ControlledFor (start stop : ℝ) (x : Json) : Prop :=
  ∃ l, Lists x l ∧ (l.map Prod.fst).Pairwise (· < ·) ∧ (∀ p ∈ l, p.2.length = 1) ∧ (∃ p ∈ l, (p.1 : ℝ) ≤ start) ∧ ∃ q ∈ l, stop ≤ (q.1 : ℝ)

/-- Compressor stations and control valves have controls. -/
def IsControlled (e : String × Json) : Prop := e.1 = "Compressorstation" ∨ e.1 = "Controlvalve"

/-- There are controls for all components that need them; if there are no such components, the file is not even read. -/
def ControlsGiven (topology control : Json) (start stop : ℝ) : Prop :=
  (∃ e ∈ entries (types topology "connections"), IsControlled e) → AllHaveIds control ∧
    ∀ e ∈ entries (types topology "connections"), IsControlled e → Present control e.2 (ControlledFor start stop)

/-- The control times are those of the states, or they are given by a positive step or by a number of at least two. -/
def SensibleControl : Option (ControlSettings ℝ) → Prop
  | none => True
  | some ⟨some d, none⟩ => 0 < d
  | some ⟨none, some n⟩ => 2 ≤ n
  | _ => False

/-- Files and settings without mistakes. -/
structure Faultless (s : Settings) (f : Files) : Prop where
  net : WellFormed f.defaults f.topology f.boundary
  fit : Fit f.defaults f.topology
  plants : ∀ x, ("ExternalPowerplant", x) ∈ entries (types f.topology "nodes") →
    ∃ e, ("Gaspowerconnection", e) ∈ entries (types f.topology "connections") ∧ nameAt e "to" = id? x
  times : s.start < s.stop ∧ 0 < s.desired
  covers : ∀ t, s.start ≤ t → t ≤ s.stop → Covers f.defaults f.topology f.boundary t
  initial : InitialsGiven f.defaults f.topology f.initial
  control : ControlsGiven f.topology f.control s.start s.stop
  sensible : SensibleControl s.control

/-- The run comes to a time step in which Newton's method fails: the states before are those of the run, the first one of them is that of the file, and all
of them were found by Newton's method with the controls of the file. -/
def Stuck {g : Graph Network.Node EdgeKind} (hc : Consistent g) (lu : Solve) (fuel : ℕ) (s : Settings) (f : Files) (times : List ℝ) : Prop :=
  ∃ cgrid, ((∃ k, ((toNet hc).edge k).isControl) → ControlTimes s times cgrid) ∧
  ∃ i, ∃ hi : i + 1 < times.length, ∃ states : ℕ → Option (Fin (toNet hc).stateCount → ℝ),
    (∃ x, states 0 = some x ∧ Begins hc f.initial (ext x)) ∧
    (∀ j (hj : j < i), ∃ c full, ControlledBy hc f.control cgrid times[j + 1] (ext c) ∧
      Succeeds ((toNet hc).system (lu (toNet hc) times[j] times[j + 1] (states j) c) times[j] times[j + 1] (states j) c)
        s.tolerance s.iterations full fuel (states j) (states (j + 1))) ∧
    ∃ c, ControlledBy hc f.control cgrid times[i + 1] (ext c) ∧
      Fails ((toNet hc).system (lu (toNet hc) times[i] times[i + 1] (states i) c) times[i] times[i + 1] (states i) c)
        s.tolerance s.iterations s.retries fuel (states i)

/-! ## The parts of the run -/

theorem gaspower_of {d j : Json} {type : String} {e : EdgeKind} (h : EdgeMatches d j type e) (ht : type = "Gaspowerconnection") :
    ∃ a b n, e = .gas (.gaspower a b) n := by
  cases h <;> first
    | exact ⟨_, _, _, rfl⟩
    | exact absurd ht (by decide)

section Parts
variable {defaults topology : Json} {g : Graph Network.Node EdgeKind} {hc : Consistent g}
  {node : Fin g.nodes.length → String × Json} {edge : Fin g.edges.length → String × Json}
  (S : Sited defaults topology hc node edge)
include S

theorem power_of (v : Fin g.nodes.length) (h : ((toNet hc).node v).kind.isPower = true) : (node v).1 ∈ powerNodes :=
  kind_of_power (S.nodeMatch v).kind h

/-- Plants are connected, so `setup` has nothing to complain about. -/
theorem setup_exists (ha : Admissible (toNet hc)) (hf : Fit defaults topology)
    (hp : ∀ x, ("ExternalPowerplant", x) ∈ entries (types topology "nodes") →
      ∃ e, ("Gaspowerconnection", e) ∈ entries (types topology "connections") ∧ nameAt e "to" = id? x) :
    (toNet hc).setup = Res.ok () := by
  unfold Net.setup
  refine if_pos ⟨fun v hv => ?_, fun k a p n hk => ?_⟩
  · have hkind := (S.nodeMatch v).kind
    have htype : (node v).1 = "ExternalPowerplant" := by
      refine kind_of_plant (hkind.trans ?_)
      cases h : ((toNet hc).node v).kind with
      | plant => rfl
      | _ => rw [h] at hv; cases hv
    obtain ⟨e, he, hto⟩ := hp (node v).2 (by rw [← htype]; exact S.node_mem v)
    obtain ⟨k, hk⟩ := S.of_edge he
    refine ⟨k, List.mem_append_right _ (((ha.ending v).2 k).mpr ?_), ?_⟩
    · rw [S.nodeId v] at hto
      exact (S.to_iff k v).mp (by rw [hk]; exact hto)
    · have hm := S.edgeMatch k
      exact gaspower_of hm (by rw [hk])
  · have hm := S.edgeMatch k
    have htype : (edge k).1 = "Gaspowerconnection" := by
      rw [hk] at hm
      revert hm
      generalize (edge k).1 = t
      intro hm
      cases hm
      rfl
    obtain ⟨a', b', start, stop, h1, h2, h3, ⟨x, h4, h5⟩, h6⟩ := hf.ends (edge k) (S.edge_mem k)
    rw [htype] at h6
    have hstop : stop = "ExternalPowerplant" := by
      unfold Allowed at h6
      rw [if_neg (by decide), if_pos rfl] at h6
      exact h6.2
    subst hstop
    obtain ⟨v, hv⟩ := S.of_node h4
    have hdst : (toNet hc).dst k = v := by
      refine (S.to_iff k v).mp ?_
      have := S.nodeId v
      rw [hv] at this
      rw [nameAt_eq h2]
      exact h5.symm.trans this
    have hkind := (S.nodeMatch v).kind
    rw [hv] at hkind
    rw [hdst]
    have : some NodeKind.plant = some ((toNet hc).node v).kind := hkind
    injection this with this
    rw [← this]
    rfl

/-- One component gets its initial values. -/
theorem component_starts {mem : ℕ → ℝ} (hf : Fit defaults topology) {initial : Json} (hi : InitialsGiven defaults topology initial)
    {c : StateComponent ℝ} (hcm : c ∈ stateComponents hc mem) :
    HasEntry initial c.id ∧ ∀ e ∈ components initial, id? e = some c.id → ∀ vector : List ℝ, vector.length = (toNet hc).stateCount →
      ∃ w, setInitial c vector e = Res.ok w ∧ w.length = vector.length := by
  obtain ⟨f1, -, -⟩ := component_facts hc mem hcm
  have hin := component_inside hc mem hcm
  -- what is needed of the vector that is read
  have key : ∀ {e : Json} {vector : List ℝ}, vector.length = (toNet hc).stateCount →
      (∃ v, c.read e = Res.ok v ∧ Initial.Proper v ∧ v.inner = 2 ∧
        ∀ j : ℕ, j < c.points → ∃ r, eval v ((j : ℝ) * c.dx) = Res.ok r ∧ r.length = v.inner) →
      (∀ x : List ℝ, x.length = 2 → ∃ w, c.convert x = Res.ok w ∧ w.length = 2) →
      ∃ w, setInitial c vector e = Res.ok w ∧ w.length = vector.length := by
    rintro e vector hlen ⟨v, h1, h2, h3, h4⟩ h5
    unfold setInitial
    rw [h1, Res.ok_bind, h3, if_neg (by omega)]
    rcases hin with h6 | h6
    · exact setPoints_exists (by rw [h3]; exact h5) (fun j _ hj => h4 j (by omega)) (by rw [h3, hlen]; omega)
    · have : c.points = 0 := by omega
      rw [this]
      exact ⟨vector, rfl, rfl⟩
  have pipe2 : ∀ x : List ℝ, x.length = 2 → ∃ w, pipeState x = Res.ok w ∧ w.length = 2 := by
    intro x hx
    match x, hx with
    | [a, b], _ => exact ⟨_, rfl, rfl⟩
  have ok2 : ∀ x : List ℝ, x.length = 2 → ∃ w, (Res.ok x : Res (List ℝ)) = Res.ok w ∧ w.length = 2 := fun x hx => ⟨x, rfl, hx⟩
  -- a single state
  have single : ∀ {e : Json}, (∃ a b, Describes "x" e [(0, [a, b])]) → ∃ v, readInitial mem singleSchema e = Res.ok v ∧ Initial.Proper v ∧
      v.inner = 2 ∧ ∀ j : ℕ, j < 1 → ∃ r, eval v ((j : ℝ) * 1) = Res.ok r ∧ r.length = v.inner := by
    rintro e ⟨a, b, hd⟩
    obtain ⟨s, hs⟩ := singleSchema_ok
    obtain ⟨v, h1, h2, h3, h4⟩ := readInitial_exists (mem := mem) (k := 2) hs ((C77_single hs e).mpr ⟨a, b, hd⟩) hd (by simp) (by simp) (by simp)
    refine ⟨v, h1, h2, h3, fun j hj => ?_⟩
    obtain rfl : j = 0 := by omega
    have h0 := h4 (0, [a, b]) (by simp)
    simp only [Rat.cast_zero] at h0
    exact eval_exists h2 ⟨0, h0, by simp⟩ ⟨0, h0, by simp⟩
  -- two states
  have short : ∀ {e : Json}, (∃ a b c d, Describes "x" e [(0, [a, b]), (1, [c, d])]) → ∃ v, readInitial mem shortSchema e = Res.ok v ∧
      Initial.Proper v ∧ v.inner = 2 ∧ ∀ j : ℕ, j < 2 → ∃ r, eval v ((j : ℝ) * 1) = Res.ok r ∧ r.length = v.inner := by
    rintro e ⟨a, b, c, d, hd⟩
    obtain ⟨s, hs⟩ := shortSchema_ok
    obtain ⟨v, h1, h2, h3, h4⟩ := readInitial_exists (mem := mem) (k := 2) hs ((C77_short hs e).mpr ⟨a, b, c, d, .inl hd⟩) hd (by simp)
      (by simp) (by simp)
    refine ⟨v, h1, h2, h3, fun j hj => ?_⟩
    have h0 := h4 (0, [a, b]) (by simp)
    have h0' := h4 (1, [c, d]) (by simp)
    simp only [Rat.cast_zero, Rat.cast_one] at h0 h0'
    refine eval_exists h2 ⟨0, h0, by simp⟩ ⟨1, h0', ?_⟩
    have : (j : ℝ) ≤ 1 := by exact_mod_cast (show j ≤ 1 by omega)
    linarith
  rcases (mem_stateComponents hc mem).mp hcm with ⟨v, h⟩ | ⟨k, h⟩
  · obtain ⟨hid, -, -⟩ := (component_of hc mem).1 v h
    unfold stateNode at h
    split at h
    · next hpow =>
      injection h with h
      have hp := power_of S v hpow
      obtain ⟨⟨x, hx, hxid⟩, hall⟩ := hi.nodes (node v) (S.node_mem v) hp
      rw [S.nodeId v] at hxid hall
      refine ⟨⟨x, hx, by rw [hid]; exact hxid⟩, fun e he heid vector hlen => ?_⟩
      rw [hid] at heid
      have hst := hall e he heid
      unfold StartsAt at hst
      have : (node v).1 ≠ "Pipe" ∧ ¬ ((node v).1 = "Compressorstation" ∨ (node v).1 = "Controlvalve" ∨ (node v).1 = "Shortpipe") := by
        revert hp
        generalize (node v).1 = t
        intro hp
        simp only [powerNodes, List.mem_cons, List.not_mem_nil, or_false] at hp
        rcases hp with rfl | rfl | rfl | rfl | rfl <;> decide
      rw [if_neg this.1, if_neg this.2] at hst
      subst h
      exact key hlen (single hst) ok2
    · cases h
  · obtain ⟨hid, -, -⟩ := (component_of hc mem).2 k h
    have hgas : (edge k).1 ≠ "Transmissionline" := by
      refine (S.gas_iff k).mp ?_
      unfold stateEdge at h
      simp only at h
      split at h <;> first
        | (next he => rw [he]; rfl)
        | cases h
    obtain ⟨⟨x, hx, hxid⟩, hall⟩ := hi.edges (edge k) (S.edge_mem k) hgas
    rw [S.edgeId k] at hxid hall
    refine ⟨⟨x, hx, by rw [hid]; exact hxid⟩, fun e he heid vector hlen => ?_⟩
    rw [hid] at heid
    have hst := hall e he heid
    have hlengths := hf.lengths (edge k).2
    have hmem : ((edge k).1, (edge k).2) ∈ entries (types topology "connections") := S.edge_mem k
    have hm := S.edgeMatch k
    unfold StartsAt at hst
    unfold stateEdge at h
    simp only at h
    revert hm hst h hlengths hmem
    generalize (edge k).2 = j
    generalize (edge k).1 = t
    generalize (toNet hc).edge k = y
    intro h hst hlengths hmem hm
    cases hm with
    | compressor n =>
      rw [if_neg (by decide), if_pos (by decide)] at hst
      injection h with h
      subst h
      exact key hlen (short hst) ok2
    | controlvalve n =>
      rw [if_neg (by decide), if_pos (by decide)] at hst
      injection h with h
      subst h
      exact key hlen (short hst) ok2
    | shortpipe n =>
      rw [if_neg (by decide), if_pos (by decide)] at hst
      injection h with h
      subst h
      exact key hlen (short hst) ok2
    | gaspower a p n _ _ =>
      rw [if_neg (by decide), if_neg (by decide)] at hst
      injection h with h
      subst h
      exact key hlen (single hst) ok2
    | line G B _ _ => cases h
    | pipe L w D r dx n hL hw hd hr hs hn =>
      rw [if_pos rfl] at hst
      injection h with h
      subst h
      obtain ⟨l, d1, d2, d3, ⟨p, hp, hp0⟩, d5⟩ := hst
      obtain ⟨q, hq, hqL⟩ := d5 L hL
      obtain ⟨l1, l2⟩ := hlengths hmem
      obtain ⟨n2, n3, -, -⟩ := hn (l1 L hL) (l2 w hw)
      obtain ⟨s, hs⟩ := pipeSchema_ok
      obtain ⟨v, h1, h2, h3, h4⟩ := readInitial_exists (mem := mem) (k := 2) hs ((C77_pipe hs e).mpr ⟨l, d1, d3, p, hp, hp0⟩) d1
        (List.ne_nil_of_mem hp) d3 d2
      refine key hlen ⟨v, h1, h2, h3, fun i hi => ?_⟩ pipe2
      have hpp := h4 p hp
      rw [hp0, Rat.cast_zero] at hpp
      have hLpos : (0 : ℝ) < L := by exact_mod_cast l1 L hL
      have hn1 : (0 : ℝ) < (n : ℝ) - 1 := by
        have : (2 : ℝ) ≤ n := by exact_mod_cast n2
        linarith
      have hdx : 0 < dx := by
        by_contra hneg
        have := mul_nonpos_of_nonneg_of_nonpos hn1.le (not_lt.mp hneg)
        linarith
      have hin : (i : ℝ) ≤ (n : ℝ) - 1 := by
        have : (i : ℝ) + 1 ≤ n := by exact_mod_cast hi
        linarith
      refine eval_exists h2 ⟨0, hpp, mul_nonneg (Nat.cast_nonneg i) hdx.le⟩ ⟨q.1, h4 q hq, ?_⟩
      have h5 : (i : ℝ) * dx ≤ ((n : ℝ) - 1) * dx := mul_le_mul_of_nonneg_right hin hdx.le
      have h6 : (L : ℝ) ≤ q.1 := by exact_mod_cast hqL
      linarith

theorem setInitialValues_exists {mem : ℕ → ℝ} (hids : (g.nodes.map Node.id ++ g.edges.map Edge.id).Nodup) (hf : Fit defaults topology)
    {initial : Json} (hi : InitialsGiven defaults topology initial) :
    ∃ w, setInitialValues (stateComponents hc mem) (uninit mem (toNet hc).stateCount) initial = Res.ok w := by
  obtain ⟨h1, h2, -⟩ := C47_missing (ids_nodup hc mem hids) initial
  have hcheck : ∃ w, checkComponents ((stateComponents hc mem).map StateComponent.id) initial = Res.ok w := by
    cases h : checkComponents ((stateComponents hc mem).map StateComponent.id) initial with
    | ok w => exact ⟨w, rfl⟩
    | ub => exact absurd h h1
    | throws =>
      rcases h2.mp h with h | ⟨id, hid, h⟩
      · exact absurd hi.ids h
      · obtain ⟨c, hcm, rfl⟩ := List.mem_map.mp hid
        exact absurd (component_starts S hf hi hcm).1 h
  obtain ⟨w, hw⟩ := hcheck
  unfold setInitialValues
  rw [hw, Res.ok_bind]
  obtain ⟨r, hr, -⟩ := fold_exists (P := fun v : List ℝ => v.length = (toNet hc).stateCount) (f := setEntry (stateComponents hc mem))
    (l := components initial) (s := uninit mem (toNet hc).stateCount) (by simp [uninit]) (by
      intro vector hlen e he
      obtain ⟨s, hs⟩ := hi.ids e he
      have hs' := hs
      rw [find_id] at hs
      unfold setEntry
      simp only [index_of_find hs, getStr, Res.ok_bind]
      split
      · next c hfind =>
        have hid : s = c.id := by simpa using List.find?_some hfind
        obtain ⟨w, h3, h4⟩ := (component_starts S hf hi (List.mem_of_find?_eq_some hfind)).2 e he (by rw [← hid]; exact hs') vector hlen
        exact ⟨w, h3, h4.trans hlen⟩
      · exact ⟨vector, rfl, hlen⟩)
  exact ⟨r, hr⟩

/-- An edge with a control is a compressor station or a control valve. -/
theorem controlled_of {k : Fin g.edges.length} (h : ((toNet hc).edge k).isControl = true) : IsControlled (edge k) := by
  have hm := S.edgeMatch k
  unfold IsControlled
  revert hm h
  generalize (edge k).1 = t
  generalize (toNet hc).edge k = y
  intro h hm
  cases hm <;> simp [EdgeKind.isControl] at h ⊢

theorem setupControls_exists {mem : ℕ → ℝ} (hids : (g.nodes.map Node.id ++ g.edges.map Edge.id).Nodup) {s : Settings} (hlt : s.start < s.stop)
    (hdes : 0 < s.desired) (hsen : SensibleControl s.control) (times : List ℝ) {control : Json} (hi : ControlsGiven topology control s.start s.stop) :
    ∃ r, setupControls hc mem s times control = Res.ok r ∧ ∀ t, s.start ≤ t → t ≤ s.stop → ∃ c, r.2 t = Res.ok c := by
  unfold setupControls
  split
  · next hpos =>
    -- there is a control
    have hex : ∃ k, ((toNet hc).edge k).isControl = true := by
      by_contra hno
      push Not at hno
      have : (toNet hc).controlCount = 0 := by
        unfold Net.controlCount Net.controls
        rw [setIndices_free]
        have : (toNet hc).controlNeeds.sum = 0 := by
          refine List.sum_eq_zero fun x hx => ?_
          unfold Net.controlNeeds at hx
          obtain ⟨k, rfl⟩ := List.mem_ofFn.mp hx
          unfold edgeControls
          rw [if_neg (hno k)]
        rw [this]
        rfl
      omega
    obtain ⟨k0, hk0⟩ := hex
    obtain ⟨hall, hpres⟩ := hi ⟨edge k0, S.edge_mem k0, controlled_of S hk0⟩
    -- the control times
    have hgrid : ∃ grid step, controlGrid s.start s.desired s.stop s.control = Res.ok grid ∧ GoodGrid grid s.start s.stop step := by
      obtain ⟨-, -, -, -, q5, q6, q7⟩ := C68_control_grid_partial s.start s.desired s.stop hlt
      obtain ⟨times, e1, hgood, -⟩ := (C26_grid_partial s.start s.desired s.stop).1 hlt hdes
      match hcs : s.control with
      | none => rw [q5]; exact ⟨times, _, e1, hgood⟩
      | some ⟨some d, none⟩ =>
        rw [hcs] at hsen
        obtain ⟨grid, h1, h2⟩ := q6 d hsen
        exact ⟨grid, _, h1, h2⟩
      | some ⟨none, some n⟩ =>
        rw [hcs] at hsen
        obtain ⟨grid, h1, -, h2⟩ := q7 n hsen
        exact ⟨grid, _, h1, h2⟩
      | some ⟨some d, some n⟩ => rw [hcs] at hsen; exact absurd hsen id
      | some ⟨none, none⟩ => rw [hcs] at hsen; exact absurd hsen id
    obtain ⟨grid, step, hgr, hgood⟩ := hgrid
    rw [hgr, Res.ok_bind]
    -- one component
    have hone : ∀ c ∈ controlComponents hc mem, HasEntry control c.id ∧ ∀ e ∈ components control, id? e = some c.id →
        ∀ u : IV ℝ, u.WF → u.points = grid → u.inner = (toNet hc).controlCount →
        ∃ w, setControl c u e = Res.ok w ∧ w.WF ∧ w.points = grid ∧ w.inner = (toNet hc).controlCount := by
      intro c hcm
      obtain ⟨k, hk⟩ := (mem_controlComponents hc mem).mp hcm
      obtain ⟨c0, c1, c2, c3⟩ := control_of hc mem hk
      obtain ⟨⟨x, hx, hxid⟩, hx'⟩ := hpres (edge k) (S.edge_mem k) (controlled_of S c2)
      rw [S.edgeId k, ← c0] at hxid hx'
      refine ⟨⟨x, hx, hxid⟩, fun e he heid u hwf hpts hin => ?_⟩
      obtain ⟨l, d1, d2, d3, ⟨p, hp, hp'⟩, q, hq, hq'⟩ := hx' e he heid
      obtain ⟨v, h1, h2, h3, h4⟩ := readVector_exists (mem := mem) (find_id.mp heid) d1 (List.ne_nil_of_mem hp) d3 d2
      obtain ⟨k0, k1⟩ := Admissible.control_bounds (N := toNet hc) c2
      obtain ⟨w, w1, w2, w3, w4⟩ := setTimes_exists (c := c) (v := v) (times := u.points) (i := 0) hwf (fun t ht => by
        rw [hpts] at ht
        obtain ⟨b1, b2⟩ := hgood.bounds t ht
        exact eval_exists h2 ⟨_, h4 p hp, hp'.trans b1⟩ ⟨_, h4 q hq, b2.trans hq'⟩) (by omega) (by
        rw [h3, hin]
        unfold Net.controlCount
        omega)
      refine ⟨w, ?_, w2, w3.trans hpts, w4.trans hin⟩
      unfold setControl
      rw [c3, h1, Res.ok_bind]
      exact w1
    -- all components
    obtain ⟨m1, m2, -⟩ := C47_missing (control_ids hc mem hids) control
    have hcheck : ∃ w, checkComponents ((controlComponents hc mem).map ControlComponent.id) control = Res.ok w := by
      cases h : checkComponents ((controlComponents hc mem).map ControlComponent.id) control with
      | ok w => exact ⟨w, rfl⟩
      | ub => exact absurd h m1
      | throws =>
        rcases m2.mp h with h | ⟨id, hid, h⟩
        · exact absurd hall h
        · obtain ⟨c, hcm, rfl⟩ := List.mem_map.mp hid
          exact absurd (hone c hcm).1 h
    obtain ⟨w, hw⟩ := hcheck
    obtain ⟨u, hu, u1, u2, u3⟩ := fold_exists
      (P := fun u : IV ℝ => u.WF ∧ u.points = grid ∧ u.inner = (toNet hc).controlCount) (f := setControlEntry (controlComponents hc mem))
      (l := components control) (s := ⟨grid, (toNet hc).controlCount, uninit mem ((toNet hc).controlCount * grid.length)⟩)
      ⟨by simp [IV.WF, uninit, mul_comm], rfl, rfl⟩ (by
        rintro u ⟨u1, u2, u3⟩ e he
        obtain ⟨s, hs⟩ := hall e he
        have hs' := hs
        rw [find_id] at hs
        unfold setControlEntry
        simp only [index_of_find hs, getStr, Res.ok_bind]
        split
        · next c hfind =>
          have hid : s = c.id := by simpa using List.find?_some hfind
          obtain ⟨w, h3, h4, h5, h6⟩ := (hone c (List.mem_of_find?_eq_some hfind)).2 e he (by rw [← hid]; exact hs') u u1 u2 u3
          exact ⟨w, h3, h4, h5, h6⟩
        · exact ⟨u, rfl, u1, u2, u3⟩)
    have hset : setInitialControls (controlComponents hc mem)
        ⟨grid, (toNet hc).controlCount, uninit mem ((toNet hc).controlCount * grid.length)⟩ control = Res.ok u := by
      unfold setInitialControls
      rw [hw, Res.ok_bind]
      exact hu
    rw [hset, Res.ok_bind]
    refine ⟨_, rfl, fun t h1 h2 => ?_⟩
    obtain ⟨g1, g2, g3, g4, -⟩ := hgood
    obtain ⟨r, hr, -⟩ := eval_exists (v := u) ⟨u1, by rw [u2]; exact g1, by rw [u2]; omega⟩ (t := t)
      ⟨s.start, by rw [u2]; exact List.mem_of_mem_head? (by rw [g2]; rfl), h1⟩ ⟨s.stop, by rw [u2]; exact List.mem_of_getLast? g3, h2⟩
    exact ⟨entriesOf r, by simp only [hr, Res.ok_bind]⟩
  · exact ⟨_, rfl, fun t _ _ => ⟨0, rfl⟩⟩

end Parts

/-! ## The run -/

/-- C127. With files and settings without mistakes, a run gives results or comes to a time step in which Newton's method fails. The equations are
computed for all times of the simulation, so missing values are never the reason for that. (If there are stochastic nodes, also the construction of their demands and the demands themselves have
to succeed.) -/
theorem C127_run {draws : Json → Res (ℝ → Res (ℝ × ℝ))} {mem : ℕ → ℝ} {lu : Solve} {fuel : ℕ} {s : Settings} {f : Files} (h : Faultless s f)
    (hdraws : (∃ x, ("StochasticPQnode", x) ∈ entries (types f.topology "nodes")) → ∀ data, ∃ d, draws data = Res.ok d)
    (hdraw : ∀ data d, draws data = Res.ok d → ∀ t, s.start ≤ t → t ≤ s.stop → ∃ b, d t = Res.ok b) :
    ∃ g, ∃ hc : Consistent g, ∃ times, readNet draws mem f.defaults f.topology f.boundary = Res.ok g ∧
      GoodGrid times s.start s.stop s.desired ∧
      (∀ t ∈ times, ∀ last z, ∃ r, (toNet hc).residual last t z = Res.ok r) ∧
      ((∃ states, run draws mem lu fuel s f = Res.ok (times, states)) ∨ Stuck hc lu fuel s f times) := by
  obtain ⟨hlt, hdes⟩ := h.times
  have wt := h.net.components
  have wb := h.net.prescribed
  obtain ⟨times, ht, hgood, -⟩ := (C26_grid_partial s.start s.desired s.stop).1 hlt hdes
  obtain ⟨g, hg⟩ := C126_read (mem := mem) h.net hdraws
  obtain ⟨nodes, edges, h1, h2, h3⟩ := readNet_ok hg
  obtain ⟨-, hids, -⟩ := buildNet_made (proper_of h1 h2 wt.shaped wt.distinct) h3
  obtain ⟨hc, hadm, hres⟩ := C100_partial wt.isObj wt.shaped wt.distinct wb.shaped wb.distinct hg h.fit
  obtain ⟨node, edge, S⟩ := sited_of wt.shaped wt.distinct hg h.fit hc
  have hin := hgood.bounds
  refine ⟨g, hc, times, hg, hgood, fun t htm last z => (hres t (h.covers t (hin t htm).1 (hin t htm).2)
    fun data d hd => hdraw data d hd t (hin t htm).1 (hin t htm).2).2 last z, ?_⟩
  have hsetup := setup_exists S hadm h.fit h.plants
  obtain ⟨initial, hinit⟩ := setInitialValues_exists (mem := mem) S hids h.fit h.initial
  obtain ⟨controls, hcon, hctrl⟩ := setupControls_exists (mem := mem) S hids hlt hdes h.sensible times h.control
  obtain ⟨c1, c3⟩ := setupControls_ok hc mem hids hlt hdes ht hcon
  have hb := begins_of hc hids (by simp [uninit]) hinit
  have hrun : run draws mem lu fuel s f = (do
      let states ← (simulate s.retries s.simplified (newtonSolver (fun a b x c => (toNet hc).system (lu (toNet hc) a b x c) a b x c)
        s.tolerance s.iterations fuel) controls.2 times (some (entriesOf initial))).1
      Res.ok (times, states.map (Option.map ext))) := by
    unfold run
    rw [ht, Res.ok_bind, hg, Res.ok_bind, dif_pos hc, hsetup, Res.ok_bind, hinit, Res.ok_bind, hcon, Res.ok_bind]
  rw [hrun]
  match times, hgood.2.2.2.1 with
  | t0 :: t1 :: ts, _ =>
    obtain ⟨c, hcc⟩ := hctrl t1 (hin t1 (by simp)).1 (hin t1 (by simp)).2
    rcases loop_outcome s.retries s.simplified (fun a b x c => (toNet hc).system (lu (toNet hc) a b x c) a b x c) s.tolerance s.iterations fuel
      controls.2 (t1 :: ts) (fun t htm => hctrl t (hin t (List.mem_cons_of_mem _ htm)).1 (hin t (List.mem_cons_of_mem _ htm)).2) t0
      (some (entriesOf initial)) [] with ⟨xs, hx⟩ | ⟨i, hi, states, s0, s1, c, s2, s3⟩
    · left
      obtain ⟨r, hist, hr⟩ : ∃ r hist, loop s.retries s.simplified
          (newtonSolver (fun a b x c => (toNet hc).system (lu (toNet hc) a b x c) a b x c) s.tolerance s.iterations fuel) controls.2 (t1 :: ts) t0
          (some (entriesOf initial)) (some (entriesOf initial)) [] = (r, hist) := ⟨_, _, rfl⟩
      rw [hr] at hx
      simp only at hx
      subst hx
      simp only [simulate, hcc, hr, Res.ok_bind]
      exact ⟨_, rfl⟩
    · right
      refine ⟨controls.1, c1, i, by simpa using hi, states, ⟨_, s0, hb⟩, fun j hj => ?_, c, ?_, ?_⟩
      · obtain ⟨c, full, s4, s5⟩ := s1 j hj
        exact ⟨c, full, by simpa using c3 _ c s4, by simpa using s5⟩
      · simpa using c3 _ c s2
      · simpa using s3

end Verif.Read
