import Verif.Read.RunRead

/-!
# The state a run begins with

The first part of C102.
-/

set_option autoImplicit false

namespace Verif.Read

open Verif.Json Verif.Factory Verif.Interp Verif.Schema Verif.Initial Verif.Times Network Net

/-! ## Specification -/

/-- A state of the network is the one written in the json of initial values. -/
structure Begins {g : Graph Network.Node EdgeKind} (hc : Consistent g) (initial : Json) (state : Vec) : Prop where
  /-- Nodes of the grid: voltage and angle. -/
  power : ∀ v : Fin g.nodes.length, ((toNet hc).node v).kind.isPower → ∃ e a b, LastEntry initial g.nodes[v].id e ∧
    Describes "x" e [(0, [a, b])] ∧ (toNet hc).voltage state v = a ∧ (toNet hc).angle state v = b
  /-- Short pipes, compressors and valves: pressure and flow at both ends. -/
  short : ∀ (k : Fin g.edges.length) kind n, (toNet hc).edge k = .gas kind n → kind.isShort → ∃ e p q p' q',
    LastEntry initial g.edges[k].id e ∧ Describes "x" e [(0, [p, q]), (1, [p', q'])] ∧
    (toNet hc).startPressure k state = p ∧ (toNet hc).startFlow k state = q ∧
    (toNet hc).endPressure k state = p' ∧ (toNet hc).endFlow k state = q'
  /-- Connections of gas and power: pressure and flow. -/
  plant : ∀ (k : Fin g.edges.length) a b n, (toNet hc).edge k = .gas (.gaspower a b) n → ∃ e p q,
    LastEntry initial g.edges[k].id e ∧ Describes "x" e [(0, [p, q])] ∧
    (toNet hc).startPressure k state = p ∧ (toNet hc).startFlow k state = q
  /-- Pipes: at each point the pressure (up to 440 bar) and the flow that are listed or interpolated, if the points are in order. -/
  pipe : ∀ (k : Fin g.edges.length) dx D r n, (toNet hc).edge k = .gas (.pipe dx D r) n → ∃ e l,
    LastEntry initial g.edges[k].id e ∧ Describes "x" e l ∧ (∀ x ∈ l, x.2.length = 2) ∧ (∃ x ∈ l, x.1 = 0) ∧
    ((l.map Prod.fst).Pairwise (· < ·) → ∀ i : ℕ, i < n → ∀ b, ValueAt 1 l (i * dx) b →
      (0 ≤ b.1 → b.1 ≤ 440 → (toNet hc).pressureOf k (state (((toNet hc).edgeRange k).1 + 2 * i)) = b.1) ∧
      state (((toNet hc).edgeRange k).1 + 2 * i + 1) = b.2)

/-! ## Proofs -/

theorem readInitial_ok {mem : ℕ → ℝ} {points : Option ℤ} {xs : List Json} {s : Json} (hs : initialSchema points 2 xs = Res.ok s)
    {j : Json} {v : IV ℝ} (h : readInitial mem (initialSchema points 2 xs) j = Res.ok v) :
    accepts s j = true ∧ v.inner = 2 ∧ ∀ l, Describes "x" j l → (∀ x ∈ l, x.2.length = 2) →
      l ≠ [] ∧ constructFromJson mem (Gas.real l) = Res.ok v := by
  unfold readInitial at h
  rw [hs, Res.ok_bind] at h
  have ha : accepts s j = true := by
    unfold Gas.readVector at h
    split at h
    · assumption
    · cases h
  refine ⟨ha, ?_, fun l hl _ => readPoints_ok h hl⟩
  obtain ⟨l, hl, hk, -⟩ := (C77_accepts hs j).mp ha
  obtain ⟨hne, hv⟩ := readPoints_ok h hl
  obtain ⟨v', h1, -, h2, -⟩ := C66_from_json mem (Gas.real l) (by simpa [Gas.real] using hne) 2 (by
    intro e he
    obtain ⟨x, hx, rfl⟩ := List.mem_map.mp he
    simpa using hk x hx)
  rw [hv] at h1
  injection h1 with h1
  rw [h1]
  exact h2

theorem ext_entriesOf {n : ℕ} {l : List ℝ} (hl : l.length = n) {i : ℕ} {x : ℝ} (h : l[i]? = some x) {j : ℤ} (hj : j = i) :
    ext (entriesOf l : Fin n → ℝ) j = x := by
  obtain ⟨hi, rfl⟩ := List.getElem?_eq_some_iff.mp h
  subst hj
  unfold ext entriesOf
  rw [dif_pos ⟨by omega, by simp; omega⟩]
  simp [hi]

/-- The values at a point of a component. -/
theorem Holds.values {c : StateComponent ℝ} {v : IV ℝ} {vector : List ℝ} (h : Holds c v vector) (hv : v.inner = 2) {i : ℕ}
    (hi : i < c.points) {x w : List ℝ} (hx : eval v ((i : ℝ) * c.dx) = Res.ok x) (hw : c.convert x = Res.ok w) :
    vector[c.start + 2 * i]? = w[0]? ∧ vector[c.start + 2 * i + 1]? = w[1]? := by
  obtain ⟨x', w', h1, h2, -, h4⟩ := h i hi
  rw [hx] at h1
  injection h1 with h1
  subst h1
  rw [hw] at h2
  injection h2 with h2
  subst h2
  rw [hv] at h4
  refine ⟨?_, ?_⟩
  · rw [← h4 0 (by omega)]
    congr 1
    omega
  · rw [← h4 1 (by omega)]
    congr 1
    omega

theorem two_of {r : List ℝ} {b : ℝ × ℝ} (h : r.length = 2) (h0 : (0 < 2 → r[0]? = some b.1)) (h1 : (1 < 2 → r[1]? = some b.2)) :
    r = [b.1, b.2] := by
  match r, h with
  | [x, y], _ =>
    have := h0 (by decide)
    have := h1 (by decide)
    simp_all

theorem valueAt_listed {l : List (ℚ × List ℚ)} {x : ℚ} {a b : ℚ} (h : (x, [a, b]) ∈ l) : ValueAt 1 l x ((a : ℝ), (b : ℝ)) :=
  Or.inl ⟨_, h, rfl, by simp [listed]⟩

variable {g : Graph Network.Node EdgeKind}

/-- A state that was set is the one in the file. -/
theorem begins_of (hc : Consistent g) (hids : (g.nodes.map Node.id ++ g.edges.map Edge.id).Nodup) {mem : ℕ → ℝ}
    {vector state : List ℝ} {initial : Json} (hl : vector.length = (toNet hc).stateCount)
    (h : setInitialValues (stateComponents hc mem) vector initial = Res.ok state) :
    Begins hc initial (ext (entriesOf state : Fin (toNet hc).stateCount → ℝ)) := by
  obtain ⟨h1, -, h2⟩ := C64_network (ids_nodup hc mem hids) (disjoint_states hc mem) h
  have hlen : state.length = (toNet hc).stateCount := h1.trans hl
  have entry : ∀ c ∈ stateComponents hc mem, ∃ e v, LastEntry initial c.id e ∧ c.read e = Res.ok v ∧ Holds c v state := by
    intro c hm
    obtain ⟨before, e, after, v, a1, a2, a3, a4, -, a5⟩ := h2 c hm
    exact ⟨e, v, ⟨before, after, a1, a2, a3⟩, a4, a5⟩
  have single : ∀ c ∈ stateComponents hc mem, c.points = 1 → c.convert = Res.ok → c.read = readInitial mem singleSchema →
      ∃ e a b, LastEntry initial c.id e ∧ Describes "x" e [(0, [a, b])] ∧ state[c.start]? = some (a : ℝ) ∧
        state[c.start + 1]? = some (b : ℝ) := by
    intro c hm hp hcv hr
    obtain ⟨e, v, he, hv, hh⟩ := entry c hm
    rw [hr] at hv
    obtain ⟨s, hs⟩ := singleSchema_ok
    obtain ⟨ha, hi, hd⟩ := readInitial_ok hs hv
    obtain ⟨a, b, hab⟩ := (C77_single hs e).mp ha
    obtain ⟨hne, hcon⟩ := hd _ hab (by simp)
    obtain ⟨r, hr1, hr2, hr3, hr4⟩ := eval_valueAt (k := 2) hne (by simp) (by simp) hcon
      (valueAt_listed (x := 0) (List.mem_singleton.mpr rfl))
    rw [two_of hr2 hr3 hr4] at hr1
    obtain ⟨w1, w2⟩ := Holds.values hh hi (i := 0) (by omega) (x := [(a : ℝ), (b : ℝ)]) (w := [(a : ℝ), (b : ℝ)])
      (by simpa using hr1) (by rw [hcv])
    exact ⟨e, a, b, he, hab, by simpa using w1, by simpa using w2⟩
  constructor
  · intro v hv
    have hm : stateNode hc mem v = some _ := if_pos hv
    obtain ⟨-, hst, -⟩ := (component_of hc mem).1 v hm
    obtain ⟨e, a, b, he, hab, w1, w2⟩ := single _ ((mem_stateComponents hc mem).mpr (.inl ⟨v, hm⟩)) rfl rfl rfl
    exact ⟨e, a, b, he, hab, ext_entriesOf hlen w1 hst.symm, ext_entriesOf hlen w2 (by push_cast; rw [hst])⟩
  · intro k kind n hk hsh
    have hm : stateEdge hc mem k = some ⟨g.edges[k].id, ((toNet hc).edgeRange k).1.toNat, 4, 2, 1, Res.ok,
        readInitial mem shortSchema⟩ := by
      unfold stateEdge
      simp only [hk]
      cases kind with
      | pipe => exact hsh.elim
      | gaspower => exact hsh.elim
      | _ => rfl
    obtain ⟨-, hst, hsz⟩ := (component_of hc mem).2 k hm
    simp only at hst hsz
    obtain ⟨e, v, he, hv, hh⟩ := entry _ ((mem_stateComponents hc mem).mpr (.inr ⟨k, hm⟩))
    obtain ⟨s, hs⟩ := shortSchema_ok
    obtain ⟨ha, hi, hd⟩ := readInitial_ok hs hv
    obtain ⟨p, q, p', q', hab | hab⟩ := (C77_short hs e).mp ha
    · obtain ⟨hne, hcon⟩ := hd _ hab (by simp)
      obtain ⟨r, hr1, hr2, hr3, hr4⟩ := eval_valueAt (k := 2) hne (by simp) (by simp) hcon
        (valueAt_listed (x := 0) (a := p) (b := q) (by simp))
      rw [two_of hr2 hr3 hr4] at hr1
      obtain ⟨w1, w2⟩ := Holds.values hh hi (i := 0) (by simp) (x := [(p : ℝ), (q : ℝ)]) (w := [(p : ℝ), (q : ℝ)])
        (by simpa using hr1) rfl
      obtain ⟨r', hr1', hr2', hr3', hr4'⟩ := eval_valueAt (k := 2) hne (by simp) (by simp) hcon
        (valueAt_listed (x := 1) (a := p') (b := q') (by simp))
      rw [two_of hr2' hr3' hr4'] at hr1'
      obtain ⟨w3, w4⟩ := Holds.values hh hi (i := 1) (by simp) (x := [(p' : ℝ), (q' : ℝ)]) (w := [(p' : ℝ), (q' : ℝ)])
        (by simpa using hr1') rfl
      have hend : ((toNet hc).edgeRange k).2 = ((toNet hc).edgeRange k).1 + 4 := by
        have := (toNet hc).range_length (.inr k)
        have e2 : (toNet hc).need (.inr k) = edgeNeed ((toNet hc).edge k) := rfl
        rw [e2, ← hsz] at this
        exact this
      have hpr : ∀ x, (toNet hc).pressureOf k x = x := by
        intro x
        unfold Net.pressureOf
        rw [hk]
        cases kind with
        | pipe => exact hsh.elim
        | _ => rfl
      refine ⟨e, p, q, p', q', he, hab, ?_, ?_, ?_, ?_⟩
      · unfold Net.startPressure
        rw [hpr]
        exact ext_entriesOf hlen w1 (by push_cast; omega)
      · exact ext_entriesOf hlen w2 (by push_cast; omega)
      · unfold Net.endPressure
        rw [hpr, hend]
        exact ext_entriesOf hlen w3 (by push_cast; omega)
      · unfold Net.endFlow
        rw [hend]
        exact ext_entriesOf hlen w4 (by push_cast; omega)
    · exfalso
      obtain ⟨hne, hcon⟩ := hd _ hab (by simp)
      obtain ⟨v', b1, -, -, b2, -⟩ := C66_from_json mem (Gas.real [(1, [p, q]), (0, [p', q'])]) (by simp [Gas.real]) 2
        (by simp [Gas.real])
      rw [hcon] at b1
      injection b1 with b1
      subst b1
      obtain ⟨x, w, b3, -⟩ := hh 1 (by simp)
      have : eval v (((1 : ℕ) : ℝ) * 1) = Res.throws := by
        unfold eval
        rw [b2]
        norm_num [Gas.real, EPSILON]
      rw [this] at b3
      cases b3
  · intro k a b n hk
    have hm : stateEdge hc mem k = some ⟨g.edges[k].id, ((toNet hc).edgeRange k).1.toNat, 2, 1, 1, Res.ok,
        readInitial mem singleSchema⟩ := by
      unfold stateEdge
      simp only [hk]
    obtain ⟨-, hst, -⟩ := (component_of hc mem).2 k hm
    obtain ⟨e, p, q, he, hab, w1, w2⟩ := single _ ((mem_stateComponents hc mem).mpr (.inr ⟨k, hm⟩)) rfl rfl rfl
    refine ⟨e, p, q, he, hab, ?_, ext_entriesOf hlen w2 (by push_cast; rw [hst])⟩
    unfold Net.startPressure Net.pressureOf
    rw [hk]
    exact ext_entriesOf hlen w1 hst.symm
  · intro k dx D r n hk
    have hm : stateEdge hc mem k = some ⟨g.edges[k].id, ((toNet hc).edgeRange k).1.toNat, 2 * n, n, dx, pipeState,
        readInitial mem pipeSchema⟩ := by
      unfold stateEdge
      simp only [hk]
    obtain ⟨-, hst, -⟩ := (component_of hc mem).2 k hm
    obtain ⟨e, v, he, hv, hh⟩ := entry _ ((mem_stateComponents hc mem).mpr (.inr ⟨k, hm⟩))
    obtain ⟨s, hs⟩ := pipeSchema_ok
    obtain ⟨ha, hi, hd⟩ := readInitial_ok hs hv
    obtain ⟨l, hdl, hk2, hz⟩ := (C77_pipe hs e).mp ha
    obtain ⟨hne, hcon⟩ := hd l hdl hk2
    refine ⟨e, l, he, hdl, hk2, hz, fun hsort i hin b hb => ?_⟩
    obtain ⟨r, hr1, hr2, hr3, hr4⟩ := eval_valueAt (k := 2) hne hk2 hsort hcon hb
    rw [two_of hr2 hr3 hr4] at hr1
    obtain ⟨w1, w2⟩ := Holds.values hh hi (i := i) hin hr1 (w := [(Euler.state (Euler.fromBar b)).1, b.2]) rfl
    refine ⟨fun h0 h440 => ?_, ?_⟩
    · have e1 := ext_entriesOf hlen w1 (j := ((toNet hc).edgeRange k).1 + 2 * i) (by push_cast; rw [hst])
      unfold Net.pressureOf
      rw [hk, e1]
      show Euler.p (Euler.rho (b.1 * Euler.bar)) / 100000 = b.1
      have hb0 : (0 : ℝ) < Euler.bar := by unfold Euler.bar; norm_num
      have hq := Euler.C31_pressure_round_trip (b.1 * Euler.bar)
      rw [hq.1 (hq.2 (mul_nonneg h0 hb0.le) (mul_le_mul_of_nonneg_right h440 hb0.le)).1]
      unfold Euler.bar
      field_simp
    · exact ext_entriesOf hlen w2 (by push_cast; rw [hst])

end Verif.Read
