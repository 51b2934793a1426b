import Verif.Gas.Model
import Verif.Net.Jacobian
import Verif.Euler.Source

/-! # Pressure and flow at the ends of gas edges, and the nodes -/

set_option autoImplicit false

namespace Verif.Gas

open Verif.Net Verif.Euler Verif.Handler Filter Topology

/-! ## Specification -/

/-- The index of the first of the two states at an end of an edge: the first two states belong to the start,
the last two to the end. -/
def stateIndex (x : End) : ℤ :=
  match x.1 with
  | .start => x.2.first
  | .stop => x.2.after - 2

/-- The end can be used: an edge with only two states has no end. -/
def Usable (x : End) : Prop := x.1 = .stop → x.2.after - x.2.first ≠ 2

/-- Pressure (in bar) at an end of an edge: the pressure of the density in a pipe, a state itself
elsewhere. -/
noncomputable def pressureAt (state : Vec) (x : End) : ℝ :=
  match x.2.kind with
  | .pipe _ _ _ => p (state (stateIndex x)) / 100000
  | _ => state (stateIndex x)

/-- Flow at an end of an edge. -/
def flowAt (state : Vec) (x : End) : ℝ := state (stateIndex x + 1)

/-- The row of an end of an edge. -/
def rowOf (x : End) : ℤ := boundaryEquation x.2 x.1

/-- At the end of a pipe the pressure is defined (for example the density is positive). -/
def Defined (state : Vec) (x : End) : Prop :=
  ∀ dx d k, x.2.kind = .pipe dx d k → 1 - alpha * cVac * state (stateIndex x) ≠ 0

/-! ## Lemmas on ends -/

theorem boundaryState_ok {x : End} (h : Usable x) : boundaryState x.2 x.1 = Res.ok (stateIndex x) := by
  obtain ⟨dir, e⟩ := x
  cases dir with
  | start => rfl
  | stop =>
    have : e.after - e.first ≠ 2 := h rfl
    simp [boundaryState, stateIndex, this]

theorem boundaryPQ_ok {x : End} (h : Usable x) (state : Vec) :
    boundaryPQ x.2 x.1 state = Res.ok (pressureAt state x, flowAt state x) := by
  unfold boundaryPQ
  rw [boundaryState_ok h]
  simp only [Res.ok_bind]
  unfold pressureAt flowAt
  cases x.2.kind <;> simp [toBar, pQvol, Net.segment, bar]

section
variable {M : Type} [AddCommGroup M] [Module ℝ M]

/-- The derivative of the pressure at an end in a direction `v`. -/
noncomputable def dPressure (state : Vec) (v : ℤ → M) (x : End) : M :=
  match x.2.kind with
  | .pipe _ _ _ => (dp (state (stateIndex x)) / 100000) • v (stateIndex x)
  | _ => v (stateIndex x)

/-- The derivative of the flow at an end in a direction `v`. -/
def dFlow (v : ℤ → M) (x : End) : M := v (stateIndex x + 1)

/-- The entries an edge writes for a function of pressure and flow at its end. -/
theorem dBoundaryPQ_ok {x : End} (h : Usable x) (fd : ℝ × ℝ) (row : ℤ) (state : Vec) :
    ∃ cs, dBoundaryPQ x.2 x.1 fd row state = Res.ok cs ∧
      ∀ (M : Type) [AddCommGroup M] [Module ℝ M] (r : ℤ) (v : ℤ → M), applyRow cs r v =
        if row = r then fd.1 • dPressure state v x + fd.2 • dFlow v x else 0 := by
  unfold dBoundaryPQ
  rw [boundaryState_ok h]
  simp only [Res.ok_bind]
  have hgen : ∀ c1 c2 : ℝ, ∀ (M : Type) [AddCommGroup M] [Module ℝ M] (r : ℤ) (v : ℤ → M),
      applyRow [(row, stateIndex x, c1), (row, stateIndex x + 1, c2)] r v =
        if row = r then c1 • v (stateIndex x) + c2 • v (stateIndex x + 1) else 0 := by
    intro c1 c2 M _ _ r v
    rw [applyRow_cons, applyRow_cons, applyRow_nil]
    by_cases hr : row = r <;> simp [hr]
  unfold dPressure dFlow
  cases hk : x.2.kind with
  | pipe dx d k =>
    refine ⟨_, rfl, ?_⟩
    intro M _ _ r v
    rw [hgen]
    simp only [rowMul, Mat2.mul, dToBar, dPQvol, Net.segment, bar, smul_smul]
    congr 3 <;> ring
  | _ => exact ⟨_, rfl, fun M _ _ r v => hgen fd.1 fd.2 M r v⟩
end

section
variable {E : Type} [NormedAddCommGroup E] [NormedSpace ℝ E] {s : E → Vec} {s' : ℤ → E →L[ℝ] ℝ} {y : E}

theorem pressureAt_hasFDerivAt (hs : ∀ j, HasFDerivAt (fun z => s z j) (s' j) y) {x : End}
    (hd : Defined (s y) x) :
    HasFDerivAt (fun z => pressureAt (s z) x) (dPressure (s y) s' x) y := by
  unfold pressureAt dPressure
  cases hk : x.2.kind with
  | pipe dx d k =>
    have h1 := (C31_derivative _ (hd dx d k hk)).comp_hasFDerivAt y (hs (stateIndex x))
    have h2 := h1.mul_const (1 / 100000 : ℝ)
    refine (h2.congr_of_eventuallyEq (Eventually.of_forall fun z => ?_)).congr_fderiv ?_
    · simp only [Function.comp]; ring
    · rw [smul_smul]; congr 1; ring
  | _ => exact hs _

theorem flowAt_hasFDerivAt (hs : ∀ j, HasFDerivAt (fun z => s z j) (s' j) y) (x : End) :
    HasFDerivAt (fun z => flowAt (s z) x) (dFlow s' x) y := hs _
end

/-! ## The equations of a flow node -/

section
variable {M : Type} [AddCommGroup M]

/-- The pressure equations of a list of ends as a function of the row: in the row of each end the pressure
difference to the next one. -/
def pressures (row : End → ℤ) (p : End → M) (oldRow : ℤ) (oldP : M) : List End → ℤ → M
  | [], _ => 0
  | x :: rest, r => (if oldRow = r then p x - oldP else 0) + pressures row p (row x) (p x) rest r

theorem pressures_eq_zero {row : End → ℤ} {p : End → M} {r : ℤ} :
    ∀ {rest : List End} {oldRow : ℤ} {oldP : M}, oldRow ≠ r → (∀ x ∈ rest, row x ≠ r) →
      pressures row p oldRow oldP rest r = 0
  | [], _, _, _, _ => rfl
  | x :: rest, oldRow, oldP, h, hr => by
    unfold pressures
    rw [if_neg h, pressures_eq_zero (hr x (by simp)) (fun z hz => hr z (by simp [hz])), add_zero]

/-- The last row has no pressure equation. -/
theorem pressures_last {row : End → ℤ} {p : End → M} :
    ∀ {rest : List End} {oldRow : ℤ} {oldP : M}, (oldRow :: rest.map row).Nodup →
      pressures row p oldRow oldP rest ((oldRow :: rest.map row).getLast (by simp)) = 0
  | [], _, _, _ => rfl
  | x :: rest, oldRow, oldP, h => by
    unfold pressures
    have hn := List.nodup_cons.mp h
    have hl : (oldRow :: (x :: rest).map row).getLast (by simp) =
        (row x :: rest.map row).getLast (by simp) := by simp
    have hne : oldRow ≠ (row x :: rest.map row).getLast (by simp) := fun e =>
      hn.1 (e ▸ List.getLast_mem _)
    rw [hl, if_neg hne, zero_add]
    exact pressures_last hn.2
end

theorem mapLast {row : End → ℤ} (x : End) (rest : List End) :
    row ((x :: rest).getLast (by simp)) = (row x :: rest.map row).getLast (by simp) := by
  have h := List.getLast_map (f := row) (l := x :: rest) (by simp)
  simp only [List.map_cons] at h
  exact h.symm

/-- The loop of `flowBalance`. -/
theorem balanceLoop_spec (state : Vec) :
    ∀ (rest : List End) (oldRow : ℤ) (oldP : ℝ) (L : ℤ), (∀ x ∈ rest, Usable x) →
      (oldRow :: rest.map rowOf).Nodup → L = (oldRow :: rest.map rowOf).getLast (by simp) →
      ∃ ops, balanceLoop state L oldRow oldP rest = Res.ok ops ∧
        (∀ o ∈ ops, o.row ∈ oldRow :: rest.map rowOf) ∧
        ∀ (v : Vec) (r : ℤ), run v ops r =
          if r = L then v L + (rest.map fun x => x.1.sign * flowAt state x).sum
          else if r ∈ oldRow :: rest.map rowOf then pressures rowOf (pressureAt state) oldRow oldP rest r
          else v r
  | [], oldRow, oldP, L, _, _, hL => by
    refine ⟨[], rfl, by simp, ?_⟩
    intro v r
    simp only [List.map_nil, List.getLast_singleton] at hL
    by_cases hr : r = L
    · subst hr; simp
    · have : r ∉ [oldRow] := by simpa [hL] using hr
      simp [hr, this]
  | x :: rest, oldRow, oldP, L, hu, hn, hL => by
    have hn' := List.nodup_cons.mp hn
    have hL' : L = (rowOf x :: rest.map rowOf).getLast (by simp) := by
      rw [hL]; simp
    have hne : oldRow ≠ L := by
      intro e; exact hn'.1 (by rw [e, hL']; exact List.getLast_mem _)
    obtain ⟨ops, ho, hrows, hrun⟩ := balanceLoop_spec state rest (rowOf x) (pressureAt state x) L
      (fun z hz => hu z (by simp [hz])) hn'.2 hL'
    refine ⟨.set oldRow (pressureAt state x - oldP) :: .inc L (x.1.sign * flowAt state x) :: ops,
      ?_, ?_, ?_⟩
    · unfold balanceLoop
      simp only [boundaryPQ_ok (hu x (by simp)), Res.ok_bind]
      have ho' : balanceLoop state L (boundaryEquation x.2 x.1) (pressureAt state x) rest = Res.ok ops := ho
      rw [ho']; rfl
    · intro o hm
      rcases List.mem_cons.mp hm with rfl | hm
      · simp [Op.row]
      rcases List.mem_cons.mp hm with rfl | hm
      · have : L ∈ rowOf x :: rest.map rowOf := by rw [hL']; exact List.getLast_mem _
        exact List.mem_cons_of_mem _ this
      · exact List.mem_cons_of_mem _ (hrows o hm)
    · intro v r
      rw [run_cons, run_cons, hrun]
      simp only [Op.apply]
      by_cases hr : r = L
      · subst hr
        simp only [if_pos, Function.update_self, Function.update_of_ne hne.symm, List.map_cons,
          List.sum_cons]
        ring
      · rw [if_neg hr, if_neg hr]
        by_cases hm : r ∈ rowOf x :: rest.map rowOf
        · have hm' : r ∈ oldRow :: (x :: rest).map rowOf := List.mem_cons_of_mem _ hm
          rw [if_pos hm, if_pos hm']
          have : oldRow ≠ r := fun e => hn'.1 (e ▸ hm)
          simp [pressures, this]
        · rw [if_neg hm]
          by_cases he : r = oldRow
          · subst he
            rw [if_pos (by simp), Function.update_of_ne hr, Function.update_self]
            unfold pressures
            rw [if_pos rfl, pressures_eq_zero, add_zero]
            · exact fun e => hm (by simp [e])
            · intro z hz e
              exact hm (List.mem_cons_of_mem _ (e ▸ List.mem_map_of_mem hz))
          · rw [Function.update_of_ne hr, Function.update_of_ne he, if_neg]
            simpa using ⟨he, by simpa using hm⟩

/-- What a flow node writes. -/
theorem flowBalance_spec (x : End) (rest : List End) (state : Vec) (prescribed : ℝ)
    (hu : ∀ z ∈ x :: rest, Usable z) (hn : ((x :: rest).map rowOf).Nodup) :
    ∃ ops, flowBalance (x :: rest) state prescribed = Res.ok ops ∧
      (∀ o ∈ ops, o.row ∈ (x :: rest).map rowOf) ∧
      ∀ (v : Vec) (r : ℤ), run v ops r =
        if r = rowOf ((x :: rest).getLast (by simp)) then
          -prescribed + ((x :: rest).map fun z => z.1.sign * flowAt state z).sum
        else if r ∈ (x :: rest).map rowOf then
          pressures rowOf (pressureAt state) (rowOf x) (pressureAt state x) rest r
        else v r := by
  have hL := mapLast (row := rowOf) x rest
  obtain ⟨ops, ho, hrows, hrun⟩ := balanceLoop_spec state rest (rowOf x) (pressureAt state x)
    (rowOf ((x :: rest).getLast (by simp))) (fun z hz => hu z (by simp [hz])) hn hL
  refine ⟨.set (rowOf ((x :: rest).getLast (by simp))) (-1 * prescribed) ::
    .inc (rowOf ((x :: rest).getLast (by simp))) (x.1.sign * flowAt state x) :: ops, ?_, ?_, ?_⟩
  · obtain ⟨dir, e⟩ := x
    unfold flowBalance
    simp only [boundaryPQ_ok (x := (dir, e)) (hu (dir, e) (by simp)), Res.ok_bind]
    have ho' : balanceLoop state (boundaryEquation (((dir, e) :: rest).getLast (by simp)).2
      (((dir, e) :: rest).getLast (by simp)).1) (boundaryEquation e dir) (pressureAt state (dir, e)) rest =
        Res.ok ops := ho
    rw [ho']; rfl
  · intro o hm
    rcases List.mem_cons.mp hm with rfl | hm
    · exact List.mem_map_of_mem (List.getLast_mem _)
    rcases List.mem_cons.mp hm with rfl | hm
    · exact List.mem_map_of_mem (List.getLast_mem _)
    · exact hrows o hm
  · intro v r
    rw [run_cons, run_cons, hrun]
    simp only [Op.apply, List.map_cons]
    by_cases hr : r = rowOf ((x :: rest).getLast (by simp))
    · rw [if_pos hr, if_pos hr]
      simp only [Function.update_self, List.sum_cons]
      ring
    · rw [if_neg hr, if_neg hr, Function.update_of_ne hr, Function.update_of_ne hr]

/-! ## The derivative entries of a flow node -/

/-- The loop of `flowDerivative`. -/
theorem derivativeLoop_spec (state : Vec) (L : ℤ) :
    ∀ (mid : List End) (oldRow : ℤ), (∀ x ∈ mid, Usable x) →
      ∃ cs old, derivativeLoop state L oldRow mid = Res.ok (cs, old) ∧
        ∀ (M : Type) [AddCommGroup M] [Module ℝ M] (r : ℤ) (v : ℤ → M) (oldP : M) (l : End),
          (if oldRow = r then -oldP else 0) + applyRow cs r v + (if old = r then dPressure state v l else 0) =
          pressures rowOf (dPressure state v) oldRow oldP (mid ++ [l]) r +
            if L = r then (mid.map fun x => x.1.sign • dFlow v x).sum else 0
  | [], oldRow, _ => by
    refine ⟨[], oldRow, rfl, ?_⟩
    intro M _ _ r v oldP l
    simp only [applyRow_nil, pressures, List.nil_append, List.map_nil, List.sum_nil, ite_self, add_zero]
    by_cases h : oldRow = r
    · simp [h]; abel
    · simp [h]
  | x :: mid, oldRow, hu => by
    have hx := hu x (by simp)
    obtain ⟨cs, old, hcs, hspec⟩ := derivativeLoop_spec state L mid (rowOf x) fun z hz => hu z (by simp [hz])
    obtain ⟨c1, h1, e1⟩ := dBoundaryPQ_ok hx (1, 0) oldRow state
    obtain ⟨c2, h2, e2⟩ := dBoundaryPQ_ok hx (-1, 0) (rowOf x) state
    obtain ⟨c3, h3, e3⟩ := dBoundaryPQ_ok hx (0, x.1.sign) L state
    refine ⟨c1 ++ c2 ++ c3 ++ cs, old, ?_, ?_⟩
    · unfold derivativeLoop
      have h2' : dBoundaryPQ x.2 x.1 (-1, 0) (boundaryEquation x.2 x.1) state = Res.ok c2 := h2
      have hcs' : derivativeLoop state L (boundaryEquation x.2 x.1) mid = Res.ok (cs, old) := hcs
      simp only [h1, h2', h3, hcs', Res.ok_bind]
    · intro M _ _ r v oldP l
      have := hspec M r v (dPressure state v x) l
      simp only [applyRow_append, e1, e2, e3, List.cons_append, pressures, List.map_cons, List.sum_cons]
      simp only [one_smul, zero_smul, add_zero, zero_add, neg_smul]
      have e : (if rowOf x = r then -dPressure state v x else 0) + applyRow cs r v +
        (if old = r then dPressure state v l else 0) =
          pressures rowOf (dPressure state v) (rowOf x) (dPressure state v x) (mid ++ [l]) r +
            if L = r then (mid.map fun x => x.1.sign • dFlow v x).sum else 0 := this
      have hL : (if L = r then x.1.sign • dFlow v x + (mid.map fun x => x.1.sign • dFlow v x).sum else 0) =
          (if L = r then x.1.sign • dFlow v x else 0) +
            if L = r then (mid.map fun x => x.1.sign • dFlow v x).sum else 0 := by
        by_cases h : L = r <;> simp [h]
      have hO : (if oldRow = r then dPressure state v x - oldP else 0) =
          (if oldRow = r then -oldP else 0) + if oldRow = r then dPressure state v x else 0 := by
        by_cases h : oldRow = r
        · simp [h]; abel
        · simp [h]
      rw [hL, hO]
      calc _ = (if oldRow = r then -oldP else 0) + (if oldRow = r then dPressure state v x else 0) +
            (if L = r then x.1.sign • dFlow v x else 0) +
            ((if rowOf x = r then -dPressure state v x else 0) + applyRow cs r v +
              (if old = r then dPressure state v l else 0)) := by abel
        _ = _ := by rw [e]; abel

/-- The entries a flow node writes. -/
theorem flowDerivative_spec (x : End) (rest : List End) (state : Vec)
    (hu : ∀ z ∈ x :: rest, Usable z) (hid : ((x :: rest).map fun z => z.2.id).Nodup) :
    ∃ cs, flowDerivative (x :: rest) state = Res.ok cs ∧
      ∀ (M : Type) [AddCommGroup M] [Module ℝ M] (r : ℤ) (v : ℤ → M), applyRow cs r v =
        pressures rowOf (dPressure state v) (rowOf x) (dPressure state v x) rest r +
          if rowOf ((x :: rest).getLast (by simp)) = r then
            ((x :: rest).map fun z => z.1.sign • dFlow v z).sum else 0 := by
  obtain ⟨dir, e⟩ := x
  have hx := hu (dir, e) (by simp)
  rcases List.eq_nil_or_concat rest with rfl | ⟨mid, l, rfl⟩
  · obtain ⟨c0, h0, e0⟩ := dBoundaryPQ_ok hx (0, dir.sign) (rowOf (dir, e)) state
    refine ⟨c0, ?_, ?_⟩
    · unfold flowDerivative
      simp only [List.getLast_singleton]
      have h0' : dBoundaryPQ e dir (0, dir.sign) (boundaryEquation e dir) state = Res.ok c0 := h0
      rw [h0']; simp
    · intro M _ _ r v
      rw [e0]
      simp [pressures]
  · simp only [List.concat_eq_append] at hu hid ⊢
    have hl : ((dir, e) :: (mid ++ [l])).getLast (by simp) = l := by
      rw [List.getLast_cons (by simp)]; simp
    have hul := hu l (by simp)
    have hne : e.id ≠ l.2.id := by
      intro h
      simp only [List.map_cons, List.nodup_cons] at hid
      exact hid.1 (List.mem_map.mpr ⟨l, by simp, h.symm⟩)
    obtain ⟨c0, h0, e0⟩ := dBoundaryPQ_ok hx (0, dir.sign) (rowOf l) state
    obtain ⟨c1, h1, e1⟩ := dBoundaryPQ_ok hx (-1, 0) (rowOf (dir, e)) state
    obtain ⟨cs, old, hcs, hspec⟩ := derivativeLoop_spec state (rowOf l) mid (rowOf (dir, e))
      fun z hz => hu z (by simp [hz])
    obtain ⟨c2, h2, e2⟩ := dBoundaryPQ_ok hul (1, 0) old state
    obtain ⟨c3, h3, e3⟩ := dBoundaryPQ_ok hul (0, l.1.sign) (rowOf l) state
    refine ⟨c0 ++ c1 ++ cs ++ c2 ++ c3, ?_, ?_⟩
    · unfold flowDerivative
      simp only [hl, List.dropLast_concat]
      have h0' : dBoundaryPQ e dir (0, dir.sign) (boundaryEquation l.2 l.1) state = Res.ok c0 := h0
      have h1' : dBoundaryPQ e dir (-1, 0) (boundaryEquation e dir) state = Res.ok c1 := h1
      have hcs' : derivativeLoop state (boundaryEquation l.2 l.1) (boundaryEquation e dir) mid =
        Res.ok (cs, old) := hcs
      have h3' : dBoundaryPQ l.2 l.1 (0, l.1.sign) (boundaryEquation l.2 l.1) state = Res.ok c3 := h3
      simp only [h0', h1', hcs', h2, h3', Res.ok_bind, if_neg hne]
    · intro M _ _ r v
      have hs := hspec M r v (dPressure state v (dir, e)) l
      simp only [hl, applyRow_append, e0, e1, e2, e3]
      simp only [one_smul, zero_smul, add_zero, zero_add, neg_smul]
      have hL : (if rowOf l = r then
            (((dir, e) :: (mid ++ [l])).map fun z => z.1.sign • dFlow v z).sum else 0) =
          (if rowOf l = r then dir.sign • dFlow v (dir, e) else 0) +
          (if rowOf l = r then (mid.map fun x => x.1.sign • dFlow v x).sum else 0) +
          (if rowOf l = r then l.1.sign • dFlow v l else 0) := by
        by_cases h : rowOf l = r <;> simp [h]
        abel
      rw [hL]
      calc _ = ((if rowOf (dir, e) = r then -dPressure state v (dir, e) else 0) + applyRow cs r v +
              (if old = r then dPressure state v l else 0)) +
              (if rowOf l = r then dir.sign • dFlow v (dir, e) else 0) +
              (if rowOf l = r then l.1.sign • dFlow v l else 0) := by abel
        _ = _ := by rw [hs]; abel

end Verif.Gas
