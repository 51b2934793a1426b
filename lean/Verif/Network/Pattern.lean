import Verif.Network.Rows

/-! # Property C70: the positions of the derivative entries -/

set_option autoImplicit false

namespace Verif.Network

open Verif.Net Verif.Handler

/-! ## Specification -/

/-- Row and column of an entry. -/
def pos (c : Contribution ℝ) : ℤ × ℤ := (c.1, c.2.1)

/-- The entries computed by `F` are always at the same positions, in the same order, and all of these satisfy `Q`. -/
def HasPattern {α : Type} (Q : ℤ × ℤ → Prop) (F : α → Res (List (Contribution ℝ))) : Prop :=
  ∃ P : List (ℤ × ℤ), (∀ x cs, F x = Res.ok cs → cs.map pos = P) ∧ ∀ p ∈ P, Q p

/-- Positions in a matrix with the given numbers of rows and columns. -/
def InMatrix (rows cols : ℤ) (p : ℤ × ℤ) : Prop := (0 ≤ p.1 ∧ p.1 < rows) ∧ 0 ≤ p.2 ∧ p.2 < cols

/-! ## Lemmas -/

section
variable {α : Type} {Q : ℤ × ℤ → Prop} {F G : α → Res (List (Contribution ℝ))}

theorem HasPattern.nil : HasPattern Q fun _ : α => Res.ok [] :=
  ⟨[], fun _ cs h => by injection h with h; subst h; rfl, by simp⟩

theorem HasPattern.append (hF : HasPattern Q F) (hG : HasPattern Q G) :
    HasPattern Q (fun x => do let c ← F x; let d ← G x; Res.ok (c ++ d)) := by
  obtain ⟨P, hP, hQ⟩ := hF
  obtain ⟨P', hP', hQ'⟩ := hG
  refine ⟨P ++ P', ?_, ?_⟩
  · intro x cs h
    obtain ⟨c, hc, h⟩ := Res.bind_eq_ok.mp h
    obtain ⟨d, hd, h⟩ := Res.bind_eq_ok.mp h
    injection h with h; subst h
    rw [List.map_append, hP x c hc, hP' x d hd]
  · intro p hp
    rcases List.mem_append.mp hp with h | h
    · exact hQ p h
    · exact hQ' p h

theorem HasPattern.forEach {β : Type} {l : List β} {F : β → α → Res (List (Contribution ℝ))}
    (h : ∀ b ∈ l, HasPattern Q (F b)) : HasPattern Q fun x => Net.forEach l fun b => F b x := by
  induction l with
  | nil => exact HasPattern.nil
  | cons b l ih => exact (h b (by simp)).append (ih fun c hc => h c (by simp [hc]))

/-- Entries that are always computed, at positions given by a list. -/
theorem HasPattern.of_positions {f : α → List (Contribution ℝ)} (P : List (ℤ × ℤ))
    (h : ∀ x, (f x).map pos = P) (hQ : ∀ p ∈ P, Q p) : HasPattern Q fun x => Res.ok (f x) :=
  ⟨P, fun x cs hx => by injection hx with hx; rw [← hx, h], hQ⟩
end

theorem dBoundaryPQ_positions {e : Gas.Edge} {dir : Gas.Dir} {fd : ℝ × ℝ} {row : ℤ} {state : Vec}
    {cs : List (Contribution ℝ)} (h : Gas.dBoundaryPQ e dir fd row state = Res.ok cs) :
    cs.map pos = [(row, Gas.stateIndex (dir, e)), (row, Gas.stateIndex (dir, e) + 1)] := by
  unfold Gas.dBoundaryPQ at h
  obtain ⟨i, hi, h⟩ := Res.bind_eq_ok.mp h
  have : i = Gas.stateIndex (dir, e) := by
    cases dir with
    | start => injection hi with hi; exact hi.symm
    | stop =>
      unfold Gas.boundaryState at hi
      simp only at hi
      split at hi
      · cases hi
      · injection hi with hi; exact hi.symm
  subst this
  cases hk : e.kind <;> simp only [hk] at h <;> injection h with h <;> subst h <;> rfl

/-- The columns of an end satisfy the condition, in all rows of a set. -/
def EndIn (Q : ℤ × ℤ → Prop) (R : ℤ → Prop) (x : Gas.End) : Prop :=
  ∀ r, R r → Q (r, Gas.stateIndex x) ∧ Q (r, Gas.stateIndex x + 1)

theorem derivativeLoop_pattern {Q : ℤ × ℤ → Prop} {R : ℤ → Prop} {L : ℤ} (hL : R L) :
    ∀ (mid : List Gas.End) (oldRow : ℤ), R oldRow → (∀ x ∈ mid, EndIn Q R x ∧ R (Gas.rowOf x)) →
      ∃ P old', (∀ state cs old, Gas.derivativeLoop state L oldRow mid = Res.ok (cs, old) →
        cs.map pos = P ∧ old = old') ∧ (∀ p ∈ P, Q p) ∧ R old'
  | [], oldRow, h, _ => ⟨[], oldRow, fun state cs old h => by
      injection h with h; injection h with h1 h2; subst h1; subst h2; exact ⟨rfl, rfl⟩, by simp, h⟩
  | (dir, e) :: mid, oldRow, h, hx => by
    obtain ⟨hE, hR⟩ := hx (dir, e) (by simp)
    obtain ⟨P, old', hP, hQ, hold⟩ := derivativeLoop_pattern (Q := Q) hL mid (Gas.rowOf (dir, e)) hR
      fun y hy => hx y (by simp [hy])
    have key : ∀ row, R row → ∀ p ∈ [(row, Gas.stateIndex (dir, e)), (row, Gas.stateIndex (dir, e) + 1)], Q p := by
      intro row hrow p hp
      simp only [List.mem_cons, List.not_mem_nil, or_false] at hp
      rcases hp with rfl | rfl
      · exact (hE row hrow).1
      · exact (hE row hrow).2
    refine ⟨[(oldRow, Gas.stateIndex (dir, e)), (oldRow, Gas.stateIndex (dir, e) + 1)] ++
      [(Gas.rowOf (dir, e), Gas.stateIndex (dir, e)), (Gas.rowOf (dir, e), Gas.stateIndex (dir, e) + 1)] ++
      [(L, Gas.stateIndex (dir, e)), (L, Gas.stateIndex (dir, e) + 1)] ++ P, old', ?_, ?_, hold⟩
    · intro state cs old hl
      unfold Gas.derivativeLoop at hl
      obtain ⟨c1, h1, hl⟩ := Res.bind_eq_ok.mp hl
      obtain ⟨c2, h2, hl⟩ := Res.bind_eq_ok.mp hl
      obtain ⟨c3, h3, hl⟩ := Res.bind_eq_ok.mp hl
      obtain ⟨⟨c4, o⟩, h4, hl⟩ := Res.bind_eq_ok.mp hl
      injection hl with hl
      injection hl with hl1 hl2
      subst hl1; subst hl2
      obtain ⟨h5, h6⟩ := hP state c4 o h4
      refine ⟨?_, h6⟩
      rw [List.map_append, List.map_append, List.map_append, dBoundaryPQ_positions h1,
        dBoundaryPQ_positions h2, dBoundaryPQ_positions h3, h5]
      rfl
    · intro p hp
      rcases List.mem_append.mp hp with hp | hp
      · rcases List.mem_append.mp hp with hp | hp
        · rcases List.mem_append.mp hp with hp | hp
          · exact key _ h p hp
          · exact key _ hR p hp
        · exact key _ hL p hp
      · exact hQ p hp

theorem flowDerivative_pattern {Q : ℤ × ℤ → Prop} {R : ℤ → Prop} (ends : List Gas.End)
    (hx : ∀ x ∈ ends, EndIn Q R x ∧ R (Gas.rowOf x)) :
    HasPattern Q fun state : Vec => Gas.flowDerivative ends state := by
  cases ends with
  | nil => exact HasPattern.nil
  | cons x rest =>
    obtain ⟨dir, e⟩ := x
    have hfirst := hx (dir, e) (by simp)
    set l := ((dir, e) :: rest).getLast (by simp) with hl
    have hlast := hx l (List.getLast_mem _)
    have key : ∀ x : Gas.End, EndIn Q R x → ∀ row, R row →
        ∀ p ∈ [(row, Gas.stateIndex x), (row, Gas.stateIndex x + 1)], Q p := by
      intro x hE row hrow p hp
      simp only [List.mem_cons, List.not_mem_nil, or_false] at hp
      rcases hp with rfl | rfl
      · exact (hE row hrow).1
      · exact (hE row hrow).2
    obtain ⟨P, old', hP, hQ, hold⟩ := derivativeLoop_pattern (Q := Q) (R := R) (L := Gas.rowOf l) hlast.2
      rest.dropLast (Gas.rowOf (dir, e)) hfirst.2
      fun y hy => hx y (List.mem_cons_of_mem _ (List.mem_of_mem_dropLast hy))
    by_cases hid : e.id = l.2.id
    · refine ⟨[(Gas.rowOf l, Gas.stateIndex (dir, e)), (Gas.rowOf l, Gas.stateIndex (dir, e) + 1)], ?_,
        key _ hfirst.1 _ hlast.2⟩
      intro state cs h
      unfold Gas.flowDerivative at h
      obtain ⟨c0, h0, h⟩ := Res.bind_eq_ok.mp h
      rw [if_pos hid] at h
      injection h with h; subst h
      exact dBoundaryPQ_positions h0
    · refine ⟨[(Gas.rowOf l, Gas.stateIndex (dir, e)), (Gas.rowOf l, Gas.stateIndex (dir, e) + 1)] ++
        [(Gas.rowOf (dir, e), Gas.stateIndex (dir, e)), (Gas.rowOf (dir, e), Gas.stateIndex (dir, e) + 1)] ++ P ++
        [(old', Gas.stateIndex l), (old', Gas.stateIndex l + 1)] ++
        [(Gas.rowOf l, Gas.stateIndex l), (Gas.rowOf l, Gas.stateIndex l + 1)], ?_, ?_⟩
      · intro state cs h
        unfold Gas.flowDerivative at h
        obtain ⟨c0, h0, h⟩ := Res.bind_eq_ok.mp h
        rw [if_neg hid] at h
        obtain ⟨c1, h1, h⟩ := Res.bind_eq_ok.mp h
        obtain ⟨⟨c2, o⟩, h2, h⟩ := Res.bind_eq_ok.mp h
        obtain ⟨c3, h3, h⟩ := Res.bind_eq_ok.mp h
        obtain ⟨c4, h4, h⟩ := Res.bind_eq_ok.mp h
        injection h with h; subst h
        obtain ⟨h5, h6⟩ := hP state c2 o h2
        subst h6
        simp only [List.map_append, dBoundaryPQ_positions h0, dBoundaryPQ_positions h1,
          dBoundaryPQ_positions h3, dBoundaryPQ_positions h4, h5]
        rfl
      · intro p hp
        rcases List.mem_append.mp hp with hp | hp
        · rcases List.mem_append.mp hp with hp | hp
          · rcases List.mem_append.mp hp with hp | hp
            · rcases List.mem_append.mp hp with hp | hp
              · exact key _ hfirst.1 _ hlast.2 p hp
              · exact key _ hfirst.1 _ hfirst.2 p hp
            · exact hQ p hp
          · exact key _ hlast.1 _ hold p hp
        · exact key _ hlast.1 _ hlast.2 p hp

theorem pressureDerivative_pattern {Q : ℤ × ℤ → Prop} {R : ℤ → Prop} (ends : List Gas.End)
    (hx : ∀ x ∈ ends, EndIn Q R x ∧ R (Gas.rowOf x)) :
    HasPattern Q fun state : Vec => Gas.pressureDerivative ends state := by
  refine HasPattern.forEach (F := fun (x : Gas.End) (state : Vec) => Gas.dBoundaryPQ x.2 x.1 (1, 0) (Gas.boundaryEquation x.2 x.1) state)
    fun x hmem => ?_
  refine ⟨_, fun state cs h => dBoundaryPQ_positions h, ?_⟩
  intro p hp
  simp only [List.mem_cons, List.not_mem_nil, or_false] at hp
  obtain ⟨hE, hR⟩ := hx x hmem
  rcases hp with rfl | rfl
  · exact (hE _ hR).1
  · exact (hE _ hR).2

/-- The positions of the entries for the active power. -/
def powerPositions (b : Power.Bus) (row : ℤ) : List (ℤ × ℤ) :=
  (row, b.first) :: (row, b.first + 1) :: b.lines.flatMap fun l =>
    [(row, b.first), (row, b.first + 1), (row, l.other), (row, l.other + 1)]

theorem dActive_positions (b : Power.Bus) (row : ℤ) (state : Vec) :
    (Power.dActive b row state).map pos = powerPositions b row := by
  simp [Power.dActive, powerPositions, pos, List.map_flatMap]

theorem dReactive_positions (b : Power.Bus) (row : ℤ) (state : Vec) :
    (Power.dReactive b row state).map pos = powerPositions b row := by
  simp [Power.dReactive, powerPositions, pos, List.map_flatMap]

theorem powerPositions_in {Q : ℤ × ℤ → Prop} {b : Power.Bus} {row : ℤ}
    (h : Q (row, b.first) ∧ Q (row, b.first + 1)) (hl : ∀ l ∈ b.lines, Q (row, l.other) ∧ Q (row, l.other + 1)) :
    ∀ p ∈ powerPositions b row, Q p := by
  intro p hp
  simp only [powerPositions, List.mem_cons, List.mem_flatMap, List.not_mem_nil, or_false] at hp
  rcases hp with rfl | rfl | ⟨l, hmem, rfl | rfl | rfl | rfl⟩
  exacts [h.1, h.2, h.1, h.2, (hl l hmem).1, (hl l hmem).2]

namespace Admissible
variable {N : Net} (hN : Admissible N)
include hN

theorem end_in (v : Fin N.nodes) : ∀ x ∈ N.ends v,
    EndIn (InMatrix N.states N.states) (fun r => 0 ≤ r ∧ r < N.states) x ∧
      0 ≤ Gas.rowOf x ∧ Gas.rowOf x < N.states := by
  intro x hx
  obtain ⟨k, e, he, hcase⟩ := hN.mem_ends.mp hx
  obtain ⟨kind, n, hk, rfl⟩ := gasEdge_eq.mp he
  have h1 := (hN.inRange_first hk).bounds
  have h2 := (hN.inRange_last hk).bounds
  have h3 := edgeRange_length (k := k)
  have h4 := (hN.gas_need hk).1
  rcases hcase with ⟨_, rfl⟩ | ⟨_, rfl⟩
  · refine ⟨fun r hr => ⟨⟨hr, ?_⟩, hr, ?_⟩, h1⟩ <;> simp only [Gas.stateIndex] <;> omega
  · refine ⟨fun r hr => ⟨⟨hr, ?_⟩, hr, ?_⟩, h2⟩ <;> simp only [Gas.stateIndex] <;> omega

omit hN in
/-- The two indices of a power node. -/
theorem power_bounds {v : Fin N.nodes} (hv : (N.node v).kind.isPower) :
    0 ≤ (N.nodeRange v).1 ∧ (N.nodeRange v).1 + 1 < N.states := by
  have hl := N.range_length (.inl v)
  have hneed : N.need (.inl v) = 2 := by simp [Net.need, nodeNeed, hv]
  rw [hneed] at hl
  have h0 : N.InRange (.inl v) (N.nodeRange v).1 := ⟨le_rfl, by show (N.range (.inl v)).1 < _; omega⟩
  have h1 : N.InRange (.inl v) ((N.nodeRange v).1 + 1) :=
    ⟨by show (N.range (.inl v)).1 ≤ (N.range (.inl v)).1 + 1; omega,
      by show (N.range (.inl v)).1 + 1 < _; omega⟩
  exact ⟨h0.bounds.1, h1.bounds.2⟩

omit hN in
theorem bus_bounds {v : Fin N.nodes} (hv : (N.node v).kind.isPower) {b : Power.Bus} (hb : N.bus v = Res.ok b) :
    (0 ≤ b.first ∧ b.first + 1 < N.states) ∧ ∀ l ∈ b.lines, 0 ≤ l.other ∧ l.other + 1 < N.states := by
  unfold Net.bus at hb
  split at hb
  · rename_i hall
    injection hb with hb
    subst hb
    refine ⟨power_bounds hv, ?_⟩
    intro l hl
    obtain ⟨x, hx, rfl⟩ := List.mem_map.mp hl
    exact power_bounds (List.all_eq_true.mp hall x hx)
  · cases hb

omit hN in
theorem busNew_pattern {v : Fin N.nodes} (hv : (N.node v).kind.isPower) (k : Power.Kind) :
    HasPattern (InMatrix N.states N.states) (fun a : Args => do
      let bus ← N.bus v
      Res.ok (Power.busNew k bus a.new)) := by
  cases hb : N.bus v with
  | ok b =>
    simp only [Res.ok_bind]
    obtain ⟨hb1, hb2⟩ := bus_bounds hv hb
    have hpow : ∀ row, 0 ≤ row → row < N.states → ∀ p ∈ powerPositions b row, InMatrix N.states N.states p := by
      intro row h0 h1
      refine powerPositions_in ⟨⟨⟨h0, h1⟩, ?_⟩, ⟨h0, h1⟩, ?_⟩ fun l hl => ⟨⟨⟨h0, h1⟩, ?_⟩, ⟨h0, h1⟩, ?_⟩
      · simp only; omega
      · simp only; omega
      · have := hb2 l hl; simp only; omega
      · have := hb2 l hl; simp only; omega
    cases k with
    | pq =>
      refine HasPattern.of_positions (powerPositions b b.first ++ powerPositions b (b.first + 1)) ?_ ?_
      · intro a; simp only [Power.busNew, List.map_append, dActive_positions, dReactive_positions]
      · intro p hp
        rcases List.mem_append.mp hp with hp | hp
        · exact hpow _ (by omega) (by omega) p hp
        · exact hpow _ (by omega) (by omega) p hp
    | pv =>
      refine HasPattern.of_positions (powerPositions b b.first ++ [(b.first + 1, b.first)]) ?_ ?_
      · intro a; simp only [Power.busNew, List.map_append, dActive_positions]; rfl
      · intro p hp
        rcases List.mem_append.mp hp with hp | hp
        · exact hpow _ (by omega) (by omega) p hp
        · simp only [List.mem_singleton] at hp; subst hp; unfold InMatrix; simp only; omega
    | vphi =>
      refine HasPattern.of_positions [(b.first, b.first), (b.first + 1, b.first + 1)] (fun a => rfl) ?_
      intro p hp
      simp only [List.mem_cons, List.not_mem_nil, or_false] at hp
      rcases hp with rfl | rfl <;> unfold InMatrix <;> simp only <;> omega
  | throws => exact ⟨[], ⟨fun _ _ h => (nomatch h), fun _ h => (nomatch h)⟩⟩
  | ub => exact ⟨[], ⟨fun _ _ h => (nomatch h), fun _ h => (nomatch h)⟩⟩

omit hN in
theorem HasPattern.comp {α β : Type} {Q : ℤ × ℤ → Prop} {F : α → Res (List (Contribution ℝ))} (h : HasPattern Q F)
    (g : β → α) : HasPattern Q fun x => F (g x) := by
  obtain ⟨P, hP, hQ⟩ := h
  exact ⟨P, fun x cs hx => hP (g x) cs hx, hQ⟩

/-- The entries of a node. -/
theorem nodeNew_pattern (v : Fin N.nodes) :
    HasPattern (InMatrix N.states N.states) fun a : Args => N.nodeNew v a := by
  unfold Net.nodeNew
  have hflow := HasPattern.comp (flowDerivative_pattern _ (hN.end_in v)) Args.new
  have hpress := HasPattern.comp (pressureDerivative_pattern _ (hN.end_in v)) Args.new
  cases hk : (N.node v).kind with
  | innode => exact hflow
  | flow =>
    simp only
    split
    · exact HasPattern.nil
    · exact hflow
  | pressure =>
    simp only
    split
    · exact HasPattern.nil
    · exact hpress
  | power k => exact busNew_pattern (by rw [hk]; rfl) k
  | plant => exact busNew_pattern (by rw [hk]; rfl) .vphi

/-- The eight positions of a cell of a pipe. -/
theorem cellEntries_pattern {k : Fin N.edges} {dx d r : ℝ} {n : ℕ} (hk : N.edge k = .gas (.pipe dx d r) n) {i : ℤ}
    (hi : i ∈ Gas.cells ⟨k.val, .pipe dx d r, (N.edgeRange k).1, (N.edgeRange k).2, (N.controlRange k).1⟩) :
    ∀ l m : ℝ × ℝ →L[ℝ] ℝ × ℝ, (Gas.cellEntries i l m).map pos =
      [(i, i - 1), (i, i), (i + 1, i - 1), (i + 1, i), (i, i + 1), (i, i + 2), (i + 1, i + 1), (i + 1, i + 2)] ∧
      ∀ p ∈ [(i, i - 1), (i, i), (i + 1, i - 1), (i + 1, i), (i, i + 1), (i, i + 2), (i + 1, i + 1), (i + 1, i + 2)],
        InMatrix N.states N.states p := by
  intro l m
  refine ⟨rfl, ?_⟩
  have hl := edgeRange_length (k := k)
  have hp := hN.points k dx d r n hk
  have h1 := (hN.inRange_first hk).bounds
  have h2 := (hN.inRange_last hk).bounds
  rw [hk] at hl
  simp only [edgeNeed] at hl
  rw [Gas.cells_eq (n := n) (by unfold Gas.HasPoints; simp only; omega)] at hi
  obtain ⟨j, hj, rfl⟩ := List.mem_map.mp hi
  have hj := List.mem_range.mp hj
  simp only
  intro p hmem
  simp only [List.mem_cons, List.not_mem_nil, or_false] at hmem
  rcases hmem with rfl | rfl | rfl | rfl | rfl | rfl | rfl | rfl <;> unfold InMatrix <;> simp only <;> omega

/-- The entries of an edge. -/
theorem edgeNew_pattern (k : Fin N.edges) :
    HasPattern (InMatrix N.states N.states) fun x : ℝ × ℝ × Args => N.edgeNew k x.1 x.2.1 x.2.2 := by
  have hl := edgeRange_length (k := k)
  unfold Net.edgeNew
  cases hk : N.edge k with
  | line G B => simp only [Net.gasEdge, hk]; exact HasPattern.nil
  | gas kind n =>
    have h1 := (hN.inRange_first hk).bounds
    have h2 := (hN.inRange_last hk).bounds
    have hshort : ∀ kind' : Gas.Kind, kind'.isShort → edgeNeed (N.edge k) = 4 →
        HasPattern (InMatrix N.states N.states) fun x : ℝ × ℝ × Args =>
          Gas.edgeNew ⟨k.val, kind', (N.edgeRange k).1, (N.edgeRange k).2, (N.controlRange k).1⟩ x.1 x.2.1 x.2.2 := by
      intro kind' hs h4
      rw [h4] at hl
      obtain ⟨s1, s2⟩ := Gas.short_states (e := ⟨k.val, kind', (N.edgeRange k).1, (N.edgeRange k).2,
        (N.controlRange k).1⟩) (by unfold Gas.Short; simp only; omega)
      unfold Gas.edgeNew
      cases kind' with
      | pipe => exact hs.elim
      | gaspower => exact hs.elim
      | _ =>
        simp only [s1, s2, Res.ok_bind]
        refine HasPattern.of_positions _ (fun x => rfl) ?_
        intro p hp
        simp only [List.map_cons, List.map_nil, pos, List.mem_cons, List.not_mem_nil, or_false, Gas.equationStart]
          at hp
        rcases hp with rfl | rfl | rfl | rfl <;> unfold InMatrix <;> simp only <;> omega
    simp only [Net.gasEdge, hk]
    rw [hk] at hshort
    cases kind with
    | gaspower g p =>
      simp only
      have hplant := hN.plantEnd k g p n hk
      simp only [if_pos hplant]
      cases hb : N.bus (N.dst k) with
      | throws => exact ⟨[], ⟨fun _ _ h => (nomatch h), fun _ h => (nomatch h)⟩⟩
      | ub => exact ⟨[], ⟨fun _ _ h => (nomatch h), fun _ h => (nomatch h)⟩⟩
      | ok b =>
        obtain ⟨hb1, hb2⟩ := bus_bounds (isPlant_power hplant) hb
        rw [hk] at hl
        simp only [edgeNeed] at hl
        refine ⟨((N.edgeRange k).1 + 1, (N.edgeRange k).1 + 1) :: powerPositions b ((N.edgeRange k).1 + 1) ++
          [(b.first, (N.edgeRange k).1)], ?_, ?_⟩
        · intro x cs h
          simp only [Res.ok_bind] at h
          unfold Power.connectionNew at h
          obtain ⟨y, -, h⟩ := Res.bind_eq_ok.mp h
          injection h with h
          subst h
          simp only [List.map_append, List.map_cons, List.map_nil, dActive_positions]
          rfl
        · intro q hq
          rw [List.cons_append] at hq
          rcases List.mem_cons.mp hq with rfl | hq
          · unfold InMatrix; simp only; omega
          rcases List.mem_append.mp hq with hq | hq
          · refine powerPositions_in ⟨?_, ?_⟩ (fun l hl => ⟨?_, ?_⟩) q hq
            · unfold InMatrix; simp only; omega
            · unfold InMatrix; simp only; omega
            · have := hb2 l hl; unfold InMatrix; simp only; omega
            · have := hb2 l hl; unfold InMatrix; simp only; omega
          · simp only [List.mem_singleton] at hq
            subst hq
            unfold InMatrix; simp only; omega
    | pipe dx d r =>
      simp only [Gas.edgeNew]
      refine HasPattern.forEach (F := fun i (x : ℝ × ℝ × Args) => Gas.cellNew dx d r x.1 x.2.1 i x.2.2) fun i hi => ?_
      refine ⟨_, fun x cs h => ?_, (hN.cellEntries_pattern hk hi 0 0).2⟩
      obtain ⟨l, -, h⟩ := Res.bind_eq_ok.mp h
      obtain ⟨m, -, h⟩ := Res.bind_eq_ok.mp h
      injection h with h
      subst h
      exact (hN.cellEntries_pattern hk hi l m).1
    | shortpipe => exact hshort .shortpipe trivial rfl
    | controlvalve => exact hshort .controlvalve trivial rfl
    | compressor => exact hshort .compressor trivial rfl

theorem edgeLast_pattern (k : Fin N.edges) :
    HasPattern (InMatrix N.states N.states) fun _ : Unit => N.edgeLast k := by
  unfold Net.edgeLast
  cases hk : N.edge k with
  | line G B => simp only [Net.gasEdge, hk]; exact HasPattern.nil
  | gas kind n =>
    simp only [Net.gasEdge, hk, Gas.edgeLast]
    cases kind with
    | pipe dx d r =>
      simp only
      refine HasPattern.forEach (F := fun i (_ : Unit) => Res.ok (Gas.cellEntries i Box.dLastLeft Box.dLastRight))
        fun i hi => ?_
      refine HasPattern.of_positions _ (fun x => (hN.cellEntries_pattern hk hi _ _).1)
        (hN.cellEntries_pattern hk hi 0 0).2
    | _ => exact HasPattern.nil

omit hN in
/-- The control of a control edge. -/
theorem control_bounds {k : Fin N.edges} (hk : (N.edge k).isControl) :
    0 ≤ (N.controlRange k).1 ∧ (N.controlRange k).1 < N.controls := by
  have hlt : k.val < N.controlNeeds.length := by simp [Net.controlNeeds]
  have hlen := (C40_contiguous 0 N.controlNeeds).2.1 k.val hlt (by rw [setIndices_length]; exact hlt)
  have hneed : N.controlNeeds[k.val] = 1 := by simp [Net.controlNeeds, edgeControls, hk]
  rw [hneed] at hlen
  have := (C40_partition 0 N.controlNeeds).2 ⟨k.val, by rw [setIndices_length]; exact hlt⟩ (N.controlRange k).1
    le_rfl (by
      show (N.controlRange k).1 < ((setIndices 0 N.controlNeeds).1[k.val]'_).2
      rw [hlen]
      show (N.controlRange k).1 < (N.controlRange k).1 + 1
      omega)
  exact this

theorem edgeControl_pattern (k : Fin N.edges) :
    HasPattern (InMatrix N.states N.controls) fun _ : Unit => N.edgeControl k := by
  unfold Net.edgeControl
  cases hk : N.edge k with
  | line G B => simp only [Net.gasEdge, hk]; exact HasPattern.nil
  | gas kind n =>
    have hl := edgeRange_length (k := k)
    have h1 := (hN.inRange_first hk).bounds
    have h2 := (hN.inRange_last hk).bounds
    simp only [Net.gasEdge, hk, Gas.edgeControl]
    have hone : edgeNeed (N.edge k) = 4 → (N.edge k).isControl → ∀ x : ℝ,
        HasPattern (InMatrix N.states N.controls) fun _ : Unit => Res.ok
          [((N.edgeRange k).1 + 1, (N.controlRange k).1, x)] := by
      intro h4 hc x
      rw [h4] at hl
      refine HasPattern.of_positions [((N.edgeRange k).1 + 1, (N.controlRange k).1)] (fun _ => rfl) ?_
      intro p hp
      simp only [List.mem_singleton] at hp
      subst hp
      have := control_bounds hc
      unfold InMatrix; simp only; omega
    rw [hk] at hone
    cases kind with
    | controlvalve => exact hone rfl rfl 1
    | compressor => exact hone rfl rfl (-1)
    | _ => exact HasPattern.nil

end Admissible

/-- The derivative of the network with respect to the new state, as a function of the two times and of the
arguments. -/
noncomputable def Net.newEntries (N : Net) (x : ℝ × ℝ × Args) : Res (List (Contribution ℝ)) := N.dNew x.1 x.2.1 x.2.2

theorem Admissible.dNew_pattern {N : Net} (hN : Admissible N) : HasPattern (InMatrix N.states N.states) N.newEntries := by
  have h1 : HasPattern (InMatrix N.states N.states) fun x : ℝ × ℝ × Args =>
      forEach (List.finRange N.nodes) fun v => N.nodeNew v x.2.2 :=
    HasPattern.forEach fun v _ => Admissible.HasPattern.comp (hN.nodeNew_pattern v) fun x : ℝ × ℝ × Args => x.2.2
  have h2 : ∀ l : List (Fin N.edges), HasPattern (InMatrix N.states N.states) fun x : ℝ × ℝ × Args =>
      forEach l fun k => N.edgeNew k x.1 x.2.1 x.2.2 :=
    fun l => HasPattern.forEach fun k _ => hN.edgeNew_pattern k
  obtain ⟨P, hP, hQ⟩ := (h1.append (h2 N.equationEdges)).append (h2 N.controlEdges)
  refine ⟨P, fun x cs h => hP x cs ?_, hQ⟩
  unfold Net.newEntries Net.dNew at h
  obtain ⟨c1, e1, h⟩ := Res.bind_eq_ok.mp h
  obtain ⟨c2, e2, h⟩ := Res.bind_eq_ok.mp h
  obtain ⟨c3, e3, h⟩ := Res.bind_eq_ok.mp h
  simp only [e1, e2, e3, Res.ok_bind]
  exact h

theorem Admissible.dLast_pattern {N : Net} (hN : Admissible N) :
    HasPattern (InMatrix N.states N.states) fun _ : Unit => N.dLast :=
  (HasPattern.forEach fun k _ => hN.edgeLast_pattern k).append
    (HasPattern.forEach fun k _ => hN.edgeLast_pattern k)

theorem Admissible.dControl_pattern {N : Net} (hN : Admissible N) :
    HasPattern (InMatrix N.states N.controls) fun _ : Unit => N.dControl :=
  HasPattern.forEach fun k _ => hN.edgeControl_pattern k

/-- C70. In an admissible network the entries of the derivative with respect to the new state go to the same positions
in the same order at any two pairs of times and any two arguments. -/
theorem C70_same_positions (N : Net) (hN : Admissible N) (t₁ t₂ s₁ s₂ : ℝ) (a b : Args)
    (cs ds : List (Contribution ℝ)) (h : N.dNew t₁ t₂ a = Res.ok cs) (h' : N.dNew s₁ s₂ b = Res.ok ds) :
    cs.map pos = ds.map pos := by
  obtain ⟨P, hP, -⟩ := hN.dNew_pattern
  rw [hP (t₁, t₂, a) cs h, hP (s₁, s₂, b) ds h']

/-- C70. All entries of the three derivatives are inside of the matrices. -/
theorem C70_inside (N : Net) (hN : Admissible N) :
    (∀ (t₁ t₂ : ℝ) (a : Args) (cs : List (Contribution ℝ)), N.dNew t₁ t₂ a = Res.ok cs →
      ∀ c ∈ cs, (0 ≤ c.1 ∧ c.1 < N.states) ∧ 0 ≤ c.2.1 ∧ c.2.1 < N.states) ∧
    (∀ cs, N.dLast = Res.ok cs → ∀ c ∈ cs, (0 ≤ c.1 ∧ c.1 < N.states) ∧ 0 ≤ c.2.1 ∧ c.2.1 < N.states) ∧
    ∀ cs, N.dControl = Res.ok cs → ∀ c ∈ cs, (0 ≤ c.1 ∧ c.1 < N.states) ∧ 0 ≤ c.2.1 ∧ c.2.1 < N.controls := by
  refine ⟨?_, ?_, ?_⟩
  · intro t₁ t₂ a cs h c hc
    obtain ⟨P, hP, hQ⟩ := hN.dNew_pattern
    exact hQ (pos c) (hP (t₁, t₂, a) cs h ▸ List.mem_map_of_mem hc)
  · intro cs h c hc
    obtain ⟨P, hP, hQ⟩ := hN.dLast_pattern
    exact hQ (pos c) (hP () cs h ▸ List.mem_map_of_mem hc)
  · intro cs h c hc
    obtain ⟨P, hP, hQ⟩ := hN.dControl_pattern
    exact hQ (pos c) (hP () cs h ▸ List.mem_map_of_mem hc)

end Verif.Network
