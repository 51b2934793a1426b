import Verif.Read.RunProps

/-!
# Property C103: a run does not depend on what was in memory before

Vectors are allocated without a value and filled from the files. A run of the program gives the same result, or fails in the same
way, whatever these vectors contain at first: every entry is written before it is read.
-/

set_option autoImplicit false

namespace Verif.Read

open Verif.Json Verif.Factory Verif.Interp Verif.Schema Verif.Initial Verif.Times Verif.Newton Verif.Evolve Network Net

/-! ## Reading -/

/-- If the schema makes sure that all entries have the same number of values, what is read does not depend on memory. -/
theorem readVector_mem {s : Json} {k : ℕ} (hs : ∀ j, accepts s j = true → ∀ es, j.find? "data" = some (arr es) → ∀ x ∈ es,
      ∀ w, x.find? "values" = some w → ∃ l : List ℚ, l.length = k ∧ w = arr (l.map num)) (mem mem' : ℕ → ℝ) :
    Gas.readVector (accepts s) mem = Gas.readVector (accepts s) mem' := by
  funext j
  unfold Gas.readVector
  split
  · next ha =>
    cases hd : j.index "data" with
    | throws => rfl
    | ub => rfl
    | ok data =>
      have hd' := index_eq_ok.mp hd
      simp only [Res.ok_bind]
      split
      · rfl
      · next front l =>
        generalize (if front.contains "x" = true then "x" else "time") = key
        cases he : Res.each (front :: l) (Gas.readEntry key) with
        | throws => rfl
        | ub => rfl
        | ok entries =>
          simp only [Res.ok_bind]
          have h5 := Res.each_eq_ok.mp he
          have hk : ∀ e ∈ entries, e.2.length = k := by
            intro e he
            obtain ⟨x, hx, h6⟩ := forall₂_mem_right h5 he
            unfold Gas.readEntry at h6
            obtain ⟨p, -, h6⟩ := Res.bind_eq_ok.mp h6
            obtain ⟨q, -, h6⟩ := Res.bind_eq_ok.mp h6
            obtain ⟨w, h7, h6⟩ := Res.bind_eq_ok.mp h6
            obtain ⟨w', h8, h6⟩ := Res.bind_eq_ok.mp h6
            injection h6 with h6
            subst h6
            obtain ⟨u, h9, rfl⟩ := hs j ha _ hd' x hx w (index_eq_ok.mp h7)
            rw [show Gas.valuesOf (arr (u.map num)) = Res.ok u from Gas.each_getNum u] at h8
            injection h8 with h8
            subst h8
            exact h9
          have hne : entries ≠ [] := by
            rintro rfl
            cases h5
          have hl : ∀ e ∈ entries.map (fun e => ((e.1 : ℝ), e.2.map fun q : ℚ => (q : ℝ))), e.2.length = k := by
            intro e he
            obtain ⟨x, hx, rfl⟩ := List.mem_map.mp he
            simpa using hk x hx
          rw [Gas.construct_flat mem _ (by simpa using hne) hl, Gas.construct_flat mem' _ (by simpa using hne) hl]
      · rfl
  · rfl

theorem boundary_mem (k : ℕ) (mem mem' : ℕ → ℝ) :
    Gas.readVector (accepts (boundaryOf k)) mem = Gas.readVector (accepts (boundaryOf k)) mem' := by
  refine readVector_mem (k := k) (fun j ha es hd x hx w hw => ?_) mem mem'
  obtain ⟨id, es', -, h1, h2⟩ := (C78_accepts (boundaryOf_ok k) j).mp ha
  rw [hd] at h1
  injection h1 with h1
  injection h1 with h1
  subst h1
  exact (h2 x hx).2 w hw

theorem initial_mem (points : Option ℤ) (xs : List Json) (mem mem' : ℕ → ℝ) :
    readInitial mem (initialSchema points 2 xs) = readInitial mem' (initialSchema points 2 xs) := by
  funext j
  unfold readInitial
  cases hs : initialSchema points 2 xs with
  | throws => rfl
  | ub => rfl
  | ok s =>
    simp only [Res.ok_bind]
    refine congrFun (readVector_mem (k := 2) (fun j ha es hd x hx w hw => ?_) mem mem') j
    obtain ⟨l, ⟨_, es', -, h1, h2⟩, h3, -⟩ := (C77_accepts hs j).mp ha
    rw [hd] at h1
    injection h1 with h1
    injection h1 with h1
    subst h1
    obtain ⟨y, hy, h4, h5⟩ := forall₂_mem_left h2 hx
    rw [hw] at h5
    injection h5 with h5
    exact ⟨y.2, h3 y hy, h5⟩

theorem readNet_mem (draws : Json → Res (ℝ → Res (ℝ × ℝ))) (mem mem' : ℕ → ℝ) :
    readNet draws mem = readNet draws mem' := by
  have e1 : Gas.source (accepts (boundaryOf 1)) mem = Gas.source (accepts (boundaryOf 1)) mem' := by
    funext j
    unfold Gas.source
    rw [boundary_mem 1 mem mem']
  have e2 : Gas.source (accepts (boundaryOf 2)) mem = Gas.source (accepts (boundaryOf 2)) mem' := by
    funext j
    unfold Gas.source
    rw [boundary_mem 2 mem mem']
  have e3 : sink mem = sink mem' := by
    funext j
    unfold sink Gas.sink
    rw [e1]
  have e4 : ∀ k, powerNode k mem = powerNode k mem' := by
    intro k
    funext j
    unfold powerNode
    rw [e2]
  have e5 : pressureNode mem = pressureNode mem' := by
    funext j
    unfold pressureNode
    rw [e1]
  have e6 : source mem = source mem' := by
    funext j
    unfold source
    rw [e1]
  have e7 : stochasticNode draws mem = stochasticNode draws mem' := by
    funext j
    unfold stochasticNode
    rw [e4]
  have e8 : nodeList draws mem = nodeList draws mem' := by
    unfold nodeList
    simp only [e3, e4, e5, e6, e7]
  funext d t b
  unfold readNet
  rw [e8]

/-! ## Setting values -/

/-- Both succeed, both throw or both are undefined. -/
def SameKind {α β : Type} (r : Res α) (r' : Res β) (P : α → β → Prop) : Prop :=
  match r, r' with
  | .ok a, .ok b => P a b
  | .throws, .throws => True
  | .ub, .ub => True
  | _, _ => False

theorem SameKind.bind {α β γ δ : Type} {r : Res α} {r' : Res β} {P : α → β → Prop} (h : SameKind r r' P) {f : α → Res γ}
    {f' : β → Res δ} {Q : γ → δ → Prop} (hf : ∀ a b, P a b → SameKind (f a) (f' b) Q) : SameKind (r >>= f) (r' >>= f') Q := by
  match r, r', h with
  | .ok a, .ok b, h => exact hf a b h
  | .throws, .throws, _ => exact trivial
  | .ub, .ub, _ => exact trivial

theorem SameKind.same {α γ δ : Type} (r : Res α) {f : α → Res γ} {f' : α → Res δ} {Q : γ → δ → Prop}
    (hf : ∀ a, SameKind (f a) (f' a) Q) : SameKind (r >>= f) (r >>= f') Q := by
  match r with
  | .ok a => exact hf a
  | .throws => exact trivial
  | .ub => exact trivial

section States
variable {K : Type} [Field K] [LinearOrder K]

theorem assign_kind {v v' : List K} (h : v.length = v'.length) (start len : ℕ) (w : List K) :
    SameKind (assign v start len w) (assign v' start len w) fun r r' => r.length = r'.length := by
  unfold assign
  rw [h]
  split
  · next hc =>
    simp only [SameKind, writeSegment, List.length_append, List.length_take, List.length_drop]
    omega
  · exact trivial

theorem setPoints_kind {c : StateComponent K} {iv : IV K} {n i : ℕ} {v v' : List K} (h : v.length = v'.length) :
    SameKind (setPoints c iv i v n) (setPoints c iv i v' n) fun r r' => r.length = r'.length := by
  induction n generalizing i v v' with
  | zero => exact h
  | succ n ih =>
    unfold setPoints
    exact SameKind.same _ fun x => SameKind.same _ fun w => (assign_kind h _ _ w).bind fun a b hab => ih hab

theorem setEntry_kind {cs : List (StateComponent K)} {e : Json} {v v' : List K} (h : v.length = v'.length) :
    SameKind (setEntry cs v e) (setEntry cs v' e) fun r r' => r.length = r'.length := by
  unfold setEntry
  refine SameKind.same _ fun i => SameKind.same _ fun id => ?_
  split
  · unfold setInitial
    refine SameKind.same _ fun iv => ?_
    split
    · exact trivial
    · exact setPoints_kind h
  · exact h

theorem fold_kind {σ : Type} {P : σ → σ → Prop} {f : σ → Json → Res σ} (hf : ∀ a b e, P a b → SameKind (f a e) (f b e) P) :
    ∀ {es : List Json} {a b : σ}, P a b → SameKind (Res.fold es a f) (Res.fold es b f) P
  | [], _, _, h => h
  | _ :: _, _, _, h => (hf _ _ _ h).bind fun _ _ hab => fold_kind hf hab

theorem setInitialValues_kind {cs : List (StateComponent K)} {json : Json} {v v' : List K} (h : v.length = v'.length) :
    SameKind (setInitialValues cs v json) (setInitialValues cs v' json) fun r r' => r.length = r'.length := by
  unfold setInitialValues
  exact SameKind.same _ fun _ => fold_kind (f := setEntry cs) (fun a b e hab => setEntry_kind hab) h

/-- Vectors with the same points and sizes. -/
def SameShape (u u' : IV K) : Prop := u.points = u'.points ∧ u.inner = u'.inner ∧ u.values.length = u'.values.length

theorem vectorAtIndex_kind {u u' : IV K} (h : SameShape u u') (i : ℤ) :
    SameKind (vectorAtIndex u i) (vectorAtIndex u' i) fun r r' => r.length = r'.length := by
  obtain ⟨-, h1, h2⟩ := h
  unfold vectorAtIndex
  split
  · exact trivial
  · simp only [h1, h2]
    split
    · exact trivial
    · unfold Interp.segment
      rw [h2]
      split
      · simp only [SameKind, List.length_take, List.length_drop]
        omega
      · exact trivial

theorem writeTimestep_kind {u u' : IV K} (h : SameShape u u') (i : ℤ) {w w' : List K} (hw : w.length = w'.length) :
    SameKind (writeTimestep u i w) (writeTimestep u' i w') SameShape := by
  obtain ⟨h0, h1, h2⟩ := h
  unfold writeTimestep
  split
  · exact trivial
  · simp only [h1, h2, hw]
    split
    · exact trivial
    · split
      · refine ⟨h0, rfl, ?_⟩
        simp only [writeSegment, List.length_append, List.length_take, List.length_drop]
        omega
      · exact trivial

theorem setTimes_kind {c : ControlComponent K} {v : IV K} : ∀ {times : List K} {i : ℕ} {u u' : IV K}, SameShape u u' →
    SameKind (setTimes c v i u times) (setTimes c v i u' times) SameShape
  | [], _, _, _, h => h
  | t :: times, i, u, u', h => by
    unfold setTimes
    exact SameKind.same _ fun w => (vectorAtIndex_kind h i).bind fun a b hab => (assign_kind hab _ _ w).bind fun a' b' hab' =>
      (writeTimestep_kind h i hab').bind fun _ _ hs => setTimes_kind hs

theorem setControlEntry_kind {cs : List (ControlComponent K)} {e : Json} {u u' : IV K} (h : SameShape u u') :
    SameKind (setControlEntry cs u e) (setControlEntry cs u' e) SameShape := by
  unfold setControlEntry
  refine SameKind.same _ fun i => SameKind.same _ fun id => ?_
  split
  · unfold setControl
    refine SameKind.same _ fun v => ?_
    rw [h.1]
    exact setTimes_kind h
  · exact h

theorem setInitialControls_kind {cs : List (ControlComponent K)} {json : Json} {u u' : IV K} (h : SameShape u u') :
    SameKind (setInitialControls cs u json) (setInitialControls cs u' json) SameShape := by
  unfold setInitialControls
  exact SameKind.same _ fun _ => fold_kind (f := setControlEntry cs) (fun a b e hab => setControlEntry_kind hab) h

end States

theorem LastEntry.unique {json : Json} {id : String} {e e' : Json} (h : LastEntry json id e) (h' : LastEntry json id e') :
    e = e' := by
  obtain ⟨b, a, h1, h2, h3⟩ := h
  obtain ⟨b', a', h1', h2', h3'⟩ := h'
  rw [h1] at h1'
  rcases List.append_eq_append_iff.mp h1' with ⟨c, hc1, hc2⟩ | ⟨c, hc1, hc2⟩
  · cases c with
    | nil => simp at hc2; exact hc2.1
    | cons x c =>
      simp only [List.cons_append, List.cons.injEq] at hc2
      exact absurd h2' (h3 e' (by rw [hc2.2]; simp))
  · cases c with
    | nil => simp at hc2; exact hc2.1.symm
    | cons x c =>
      simp only [List.cons_append, List.cons.injEq] at hc2
      exact absurd h2 (h3' e (by rw [hc2.2]; simp))

variable {g : Graph Network.Node EdgeKind} (hc : Consistent g)

theorem stateComponents_mem (mem mem' : ℕ → ℝ) : stateComponents hc mem = stateComponents hc mem' := by
  have e1 : readInitial mem singleSchema = readInitial mem' singleSchema := initial_mem _ _ mem mem'
  have e2 : readInitial mem shortSchema = readInitial mem' shortSchema := initial_mem _ _ mem mem'
  have e3 : readInitial mem pipeSchema = readInitial mem' pipeSchema := initial_mem _ _ mem mem'
  unfold stateComponents
  congr 2
  · unfold stateNode
    simp only [e1]
  · funext k
    unfold stateEdge
    simp only [e1, e2, e3]

/-- Every entry of the state belongs to a component that is set from the file. -/
theorem all_owned (mem : ℕ → ℝ) {j : ℕ} (hj : j < (toNet hc).stateCount) : ∃ c ∈ stateComponents hc mem, Owns c j ∧
    c.states = 2 * c.points ∧ ∃ points xs s, initialSchema points 2 xs = Res.ok s ∧
      c.read = readInitial mem (initialSchema points 2 xs) := by
  obtain ⟨x, hx⟩ := (toNet hc).exists_inRange (r := j) (by omega) (by unfold Net.stateCount at hj; omega)
  have hlen := (toNet hc).range_length x
  have hx' := hx
  unfold InRange at hx'
  obtain ⟨s1, hs1⟩ := singleSchema_ok
  obtain ⟨s2, hs2⟩ := shortSchema_ok
  obtain ⟨s3, hs3⟩ := pipeSchema_ok
  rcases x with v | k
  · have e2 : (toNet hc).need (.inl v) = nodeNeed ((toNet hc).node v).kind := rfl
    have hp : ((toNet hc).node v).kind.isPower := by
      by_contra hn
      rw [e2] at hlen
      simp [nodeNeed, hn] at hlen
      omega
    have hm : stateNode hc mem v = some _ := if_pos hp
    refine ⟨_, (mem_stateComponents hc mem).mpr (.inl ⟨v, hm⟩), ?_, rfl, _, _, s1, hs1, rfl⟩
    obtain ⟨-, h1, h2⟩ := (component_of hc mem).1 v hm
    have e1 : (toNet hc).range (.inl v) = (toNet hc).nodeRange v := rfl
    rw [hlen, e1, e2, ← h1, ← h2] at hx'
    unfold Owns
    omega
  · have e2 : (toNet hc).need (.inr k) = edgeNeed ((toNet hc).edge k) := rfl
    have e1 : (toNet hc).range (.inr k) = (toNet hc).edgeRange k := rfl
    have own : ∀ {c}, stateEdge hc mem k = some c → Owns c j := by
      intro c hm
      obtain ⟨-, h1, h2⟩ := (component_of hc mem).2 k hm
      rw [hlen, e1, e2, ← h1, ← h2] at hx'
      unfold Owns
      omega
    match hk : (toNet hc).edge k with
    | .line G B =>
      rw [e2, hk] at hlen
      simp [edgeNeed] at hlen
      omega
    | .gas kind n =>
      cases kind with
      | pipe dx D r =>
        have hm : stateEdge hc mem k = some ⟨g.edges[k].id, ((toNet hc).edgeRange k).1.toNat, 2 * n, n, dx, pipeState,
          readInitial mem pipeSchema⟩ := by unfold stateEdge; simp only [hk]; rfl
        exact ⟨_, (mem_stateComponents hc mem).mpr (.inr ⟨k, hm⟩), own hm, rfl, _, _, s3, hs3, rfl⟩
      | gaspower a b =>
        have hm : stateEdge hc mem k = some ⟨g.edges[k].id, ((toNet hc).edgeRange k).1.toNat, 2, 1, 1, Res.ok,
          readInitial mem singleSchema⟩ := by unfold stateEdge; simp only [hk]; rfl
        exact ⟨_, (mem_stateComponents hc mem).mpr (.inr ⟨k, hm⟩), own hm, rfl, _, _, s1, hs1, rfl⟩
      | _ =>
        have hm : stateEdge hc mem k = some ⟨g.edges[k].id, ((toNet hc).edgeRange k).1.toNat, 4, 2, 1, Res.ok,
          readInitial mem shortSchema⟩ := by unfold stateEdge; simp only [hk]; rfl
        exact ⟨_, (mem_stateComponents hc mem).mpr (.inr ⟨k, hm⟩), own hm, rfl, _, _, s2, hs2, rfl⟩

theorem initialValues_mem (hids : (g.nodes.map Node.id ++ g.edges.map Edge.id).Nodup) (mem mem' : ℕ → ℝ) (json : Json) :
    setInitialValues (stateComponents hc mem) (uninit mem (toNet hc).stateCount) json =
      setInitialValues (stateComponents hc mem') (uninit mem' (toNet hc).stateCount) json := by
  rw [stateComponents_mem hc mem' mem]
  have hk := setInitialValues_kind (cs := stateComponents hc mem) (json := json) (v := uninit mem (toNet hc).stateCount)
    (v' := uninit mem' (toNet hc).stateCount) (by simp [uninit])
  match h : setInitialValues (stateComponents hc mem) (uninit mem (toNet hc).stateCount) json,
      h' : setInitialValues (stateComponents hc mem) (uninit mem' (toNet hc).stateCount) json with
  | .throws, .throws => rfl
  | .ub, .ub => rfl
  | .ok _, .throws => rw [h, h'] at hk; exact hk.elim
  | .ok _, .ub => rw [h, h'] at hk; exact hk.elim
  | .throws, .ok _ => rw [h, h'] at hk; exact hk.elim
  | .throws, .ub => rw [h, h'] at hk; exact hk.elim
  | .ub, .ok _ => rw [h, h'] at hk; exact hk.elim
  | .ub, .throws => rw [h, h'] at hk; exact hk.elim
  | .ok r, .ok r' =>
    congr 1
    obtain ⟨a1, -, a2⟩ := C64_network (ids_nodup hc mem hids) (disjoint_states hc mem) h
    obtain ⟨b1, -, b2⟩ := C64_network (ids_nodup hc mem hids) (disjoint_states hc mem) h'
    simp only [uninit, List.length_map, List.length_range] at a1 b1
    refine List.ext_getElem? fun j => ?_
    rcases Nat.lt_or_ge j (toNet hc).stateCount with hj | hj
    · obtain ⟨c, hm, ho, hst, points, xs, s, hs, hr⟩ := all_owned hc mem hj
      obtain ⟨bf, e, af, v, p1, p2, p3, p4, -, p5⟩ := a2 c hm
      obtain ⟨bf', e', af', v', q1, q2, q3, q4, -, q5⟩ := b2 c hm
      have := LastEntry.unique ⟨bf, af, p1, p2, p3⟩ ⟨bf', af', q1, q2, q3⟩
      subst this
      rw [p4] at q4
      injection q4 with q4
      subst q4
      rw [hr] at p4
      have hin := (readInitial_ok hs p4).2.1
      unfold Owns at ho
      obtain ⟨x, w, w1, w2, w3, w4⟩ := p5 ((j - c.start) / 2) (by omega)
      obtain ⟨x', w', w1', w2', w3', w4'⟩ := q5 ((j - c.start) / 2) (by omega)
      rw [w1] at w1'
      injection w1' with w1'
      subst w1'
      rw [w2] at w2'
      injection w2' with w2'
      subst w2'
      have e1 := w4 ((j - c.start) % 2) (by omega)
      have e2 := w4' ((j - c.start) % 2) (by omega)
      rw [hin] at e1 e2
      have e3 : c.start + (j - c.start) / 2 * 2 + (j - c.start) % 2 = j := by omega
      rw [e3] at e1 e2
      rw [e1, e2]
    · rw [List.getElem?_eq_none (by omega), List.getElem?_eq_none (by omega)]

theorem controlComponents_mem (mem mem' : ℕ → ℝ) : controlComponents hc mem = controlComponents hc mem' := by
  unfold controlComponents
  congr 1
  funext k
  unfold controlEdge
  rw [boundary_mem 1 mem mem']

/-- Every entry of the controls belongs to a component that is set from the file. -/
theorem all_controlled (mem : ℕ → ℝ) {j : ℕ} (hj : j < (toNet hc).controlCount) :
    ∃ c ∈ controlComponents hc mem, c.start = j := by
  obtain ⟨i, ⟨h1, h2⟩, -⟩ := (C40_partition 0 (toNet hc).controlNeeds).1 j (by omega) (by
    unfold Net.controlCount at hj
    have : (setIndices 0 (toNet hc).controlNeeds).2 = (toNet hc).controls := rfl
    omega)
  have hlt : i.val < (toNet hc).controlNeeds.length := by
    have e := setIndices_length 0 (toNet hc).controlNeeds
    have := i.isLt
    omega
  have hk : i.val < g.edges.length := by
    have : (toNet hc).controlNeeds.length = g.edges.length := by
      show (List.ofFn _).length = _
      rw [List.length_ofFn]
      rfl
    omega
  have hlen := (C40_contiguous 0 (toNet hc).controlNeeds).2.1 i.val hlt i.isLt
  simp only [Fin.getElem_fin] at h1 h2
  rw [hlen] at h2
  have hneed : (toNet hc).controlNeeds[i.val] = edgeControls ((toNet hc).edge ⟨i.val, hk⟩) := by
    simp only [Net.controlNeeds, List.getElem_ofFn]
  have hc1 : ((toNet hc).edge ⟨i.val, hk⟩).isControl := by
    by_contra hn
    rw [hneed] at h2
    simp only [edgeControls, hn] at h2
    simp at h2
    omega
  rw [hneed] at h2
  simp only [edgeControls, hc1, if_true] at h2
  have hm : controlEdge hc mem ⟨i.val, hk⟩ = some _ := if_pos hc1
  refine ⟨_, (mem_controlComponents hc mem).mpr ⟨_, hm⟩, ?_⟩
  have hr : (toNet hc).controlRange ⟨i.val, hk⟩ = (setIndices 0 (toNet hc).controlNeeds).1[i.val] := rfl
  have hst := (control_of hc mem hm).2.1.trans (congrArg Prod.fst hr)
  omega

omit hc in
/-- A vector is filled completely if each place belongs to a component. -/
theorem filled_mem {cs : List (ControlComponent ℝ)} (hids : (cs.map ControlComponent.id).Nodup) (hdis : DisjointControls (fun _ => 1) cs)
    (hr : ∀ c ∈ cs, ∀ e v, c.read e = Res.ok v → v.inner = 1) {n : ℕ} (hall : ∀ j, j < n → ∃ c ∈ cs, c.start = j)
    (mem mem' : ℕ → ℝ) (grid : List ℝ) (json : Json) :
    setInitialControls cs
        ⟨grid, n, uninit mem (n * grid.length)⟩ json =
      setInitialControls cs
        ⟨grid, n, uninit mem' (n * grid.length)⟩ json := by
  have wf : ∀ mem, (⟨grid, n, uninit mem (n * grid.length)⟩ : IV ℝ).WF := by
    simp [IV.WF, uninit, mul_comm]
  have key : ∀ mem' u, setInitialControls cs
        ⟨grid, n, uninit mem' (n * grid.length)⟩ json = Res.ok u →
      u.WF ∧ u.points = grid ∧ u.inner = n ∧ ∀ c ∈ cs, ∃ e v,
        LastEntry json c.id e ∧ c.read e = Res.ok v ∧ v.inner = 1 ∧ HoldsControl c v u := by
    intro mem' u hu
    obtain ⟨hp, hin, hset⟩ := C64_network_controls hids hdis
      (fun c hcm e v h => (hr c hcm e v h).le) (wf mem') hu
    refine ⟨?_, hp, hin, fun c hcm => ?_⟩
    · unfold setInitialControls at hu
      obtain ⟨_, -, hu⟩ := Res.bind_eq_ok.mp hu
      exact fold_control_wf (wf mem') hu
    · obtain ⟨bf, e, af, v, p1, p2, p3, p4, p5⟩ := hset c hcm
      exact ⟨e, v, ⟨bf, af, p1, p2, p3⟩, p4, hr c hcm e v p4, p5⟩
  have hk := setInitialControls_kind (cs := cs) (json := json)
    (u := ⟨grid, n, uninit mem (n * grid.length)⟩)
    (u' := ⟨grid, n, uninit mem' (n * grid.length)⟩) ⟨rfl, rfl, by simp [uninit]⟩
  match h : setInitialControls cs
        ⟨grid, n, uninit mem (n * grid.length)⟩ json,
      h' : setInitialControls cs
        ⟨grid, n, uninit mem' (n * grid.length)⟩ json with
  | .throws, .throws => rfl
  | .ub, .ub => rfl
  | .ok _, .throws => rw [h, h'] at hk; exact hk.elim
  | .ok _, .ub => rw [h, h'] at hk; exact hk.elim
  | .throws, .ok _ => rw [h, h'] at hk; exact hk.elim
  | .throws, .ub => rw [h, h'] at hk; exact hk.elim
  | .ub, .ok _ => rw [h, h'] at hk; exact hk.elim
  | .ub, .throws => rw [h, h'] at hk; exact hk.elim
  | .ok r, .ok r' =>
    congr 1
    obtain ⟨a1, a2, a3, a4⟩ := key mem r h
    obtain ⟨b1, b2, b3, b4⟩ := key mem' r' h'
    have hv : r.values = r'.values := by
      have l1 : r.values.length = grid.length * n := by rw [a1, a2, a3]
      have l2 : r'.values.length = grid.length * n := by rw [b1, b2, b3]
      refine List.ext_getElem? fun j => ?_
      rcases Nat.lt_or_ge j (grid.length * n) with hj | hj
      · have hpos : 0 < n := Nat.pos_of_ne_zero (by rintro h0; rw [h0] at hj; omega)
        have hi : j / n < grid.length := Nat.div_lt_of_lt_mul (by rwa [Nat.mul_comm] at hj)
        have hm : j % n < n := Nat.mod_lt _ hpos
        obtain ⟨c, hcm, hst⟩ := hall _ hm
        obtain ⟨e, v, p1, p2, p3, p4⟩ := a4 c hcm
        obtain ⟨e', v', q1, q2, q3, q4⟩ := b4 c hcm
        have := p1.unique q1
        subst this
        rw [p2] at q2
        injection q2 with q2
        subst q2
        obtain ⟨x, step, w1, w2, w3, w4⟩ := p4 (j / n) grid[j / n] (by rw [a2]; simp)
        obtain ⟨x', step', w1', w2', w3', w4'⟩ := q4 (j / n) grid[j / n] (by rw [b2]; simp)
        rw [w1] at w1'
        injection w1' with w1'
        subst w1'
        rw [vectorAtIndex_ok a1 (by rw [a2]; exact hi)] at w3
        rw [vectorAtIndex_ok b1 (by rw [b2]; exact hi)] at w3'
        injection w3 with w3
        injection w3' with w3'
        subst w3 w3'
        have e1 := w4 0 (by omega)
        have e2 := w4' 0 (by omega)
        simp only [add_zero, hst, a3, b3, List.getElem?_take, hm, if_true, List.getElem?_drop] at e1 e2
        have e3 : j / n * n + j % n = j := Nat.div_add_mod' j n
        rw [e3] at e1 e2
        rw [e1, e2]
      · rw [List.getElem?_eq_none (by omega), List.getElem?_eq_none (by omega)]
    cases r
    cases r'
    simp only at a2 a3 b2 b3 hv
    subst a2 a3 hv b2
    rw [b3]

theorem controls_mem (hids : (g.nodes.map Node.id ++ g.edges.map Edge.id).Nodup) (mem mem' : ℕ → ℝ) (grid : List ℝ) (json : Json) :
    setInitialControls (controlComponents hc mem)
        ⟨grid, (toNet hc).controlCount, uninit mem ((toNet hc).controlCount * grid.length)⟩ json =
      setInitialControls (controlComponents hc mem')
        ⟨grid, (toNet hc).controlCount, uninit mem' ((toNet hc).controlCount * grid.length)⟩ json := by
  rw [controlComponents_mem hc mem' mem]
  refine filled_mem (control_ids hc mem hids) (disjoint_controls hc mem) (fun c hcm e v hr => ?_) (fun j hj => all_controlled hc mem hj)
    mem mem' grid json
  obtain ⟨k, hk⟩ := (mem_controlComponents hc mem).mp hcm
  rw [(control_of hc mem hk).2.2.2] at hr
  exact readVector_inner hr

theorem bind_same {A B : Type} (r : Res A) {k k' : A → Res B} (h : ∀ x, r = Res.ok x → k x = k' x) : (r >>= k) = (r >>= k') := by
  cases r with
  | throws => rfl
  | ub => rfl
  | ok x => exact h x rfl

/-- C103. A run gives the same result or fails in the same way whatever is in the memory that is allocated for vectors. -/
theorem C103_memory (draws : Json → Res (ℝ → Res (ℝ × ℝ))) (mem mem' : ℕ → ℝ) (lu : Solve) (fuel : ℕ) (s : Settings) (f : Files)
    (hs : Shaped f.topology) (hd : DistinctTypes f.topology) : run draws mem lu fuel s f = run draws mem' lu fuel s f := by
  unfold run
  refine bind_same _ fun times _ => ?_
  rw [readNet_mem draws mem' mem]
  refine bind_same _ fun g hg => ?_
  obtain ⟨nodes, edges, h1, h2, h3⟩ := readNet_ok hg
  obtain ⟨-, hids, -⟩ := buildNet_made (proper_of h1 h2 hs hd) h3
  split
  · next hc =>
    have e : setupControls hc mem s times f.control = setupControls hc mem' s times f.control := by
      unfold setupControls
      simp only [controls_mem hc hids mem mem']
    rw [initialValues_mem hc hids mem mem', e]
  · rfl

end Verif.Read
