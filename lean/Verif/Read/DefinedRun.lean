import Verif.Read.DefinedNet
import Verif.Read.RunProps
import Verif.Read.ResultsMain
import Verif.Network.Symmetry

/-!
# Property C125: a run has no undefined behaviour

This is false of the code, see `C125_false`: the program relies on much that it does not check. It is proved for files and settings that are sound (as in C109)
and harmless: lists of values are at increasing times, and no pipe has too many cells. The only thing that is left then is the damping loop of
Newton's method, which has no bound in the code.
-/

set_option autoImplicit false

namespace Verif.Read

open Verif.Json Verif.Factory Verif.Interp Verif.Schema Verif.Initial Verif.Times Verif.Newton Verif.Evolve Network Net
open Verif.Output (Printed)

/-! ## Specification -/

/-- Files with which a run is harmless: for the network see `HarmlessNet`; initial values are listed at increasing points, and controls at increasing times. -/
structure Harmless (f : Files) : Prop where
  net : HarmlessNet f.defaults f.topology f.boundary
  initial : ∀ e ∈ components f.initial, ∀ l, Describes "x" e l → (l.map Prod.fst).Pairwise (· < ·)
  control : ∀ e ∈ components f.control, ListsTimes e

/-! ## Initial values -/

theorem readPoints_defined {mem : ℕ → ℝ} {schema : Res Json} {k : ℕ} {points : Option ℤ} {xs : List Json}
    (hschema : schema = initialSchema points k xs) (hok : ∃ s, schema = Res.ok s) (hx : xs ≠ []) {e : Json}
    (hs : ∀ l, Describes "x" e l → (l.map Prod.fst).Pairwise (· < ·)) :
    readInitial mem schema e ≠ Res.ub ∧ ∀ v, readInitial mem schema e = Res.ok v → Initial.Proper v := by
  obtain ⟨s, hok⟩ := hok
  unfold readInitial
  rw [hok, Res.ok_bind]
  by_cases hv : accepts s e = true
  · obtain ⟨l, hl, hk, -, hin⟩ := (C77_accepts (hschema ▸ hok) e).mp hv
    have hne : l ≠ [] := by
      obtain ⟨c, hc⟩ := List.exists_mem_of_ne_nil _ hx
      obtain ⟨x, hx, -⟩ := hin c hc
      exact List.ne_nil_of_mem hx
    obtain ⟨v, h4, hwf, -, hpts, -⟩ := C66_from_json mem (Gas.real l) (by simp [Gas.real, hne]) k (by
      intro y hy
      obtain ⟨x, hx, rfl⟩ := List.mem_map.mp hy
      simpa using hk x hx)
    have hread : Gas.readVector (accepts s) mem e = Res.ok v := by
      obtain ⟨-, es, -, hd, he⟩ := hl
      unfold Gas.readVector
      rw [if_pos hv, index_of_find hd, Res.ok_bind]
      cases he with
      | nil => exact absurd rfl hne
      | @cons j y es l h3 h4' =>
        have e1 := each_point (.cons h3 h4')
        simp only [contains, h3.1, Option.isSome_some, if_true, e1, Res.ok_bind]
        exact h4
    rw [hread]
    refine ⟨by simp, fun v' hv' => ?_⟩
    injection hv' with hv'
    subst hv'
    refine ⟨hwf, ?_, ?_⟩
    · rw [hpts]
      have e : (Gas.real l).map Prod.fst = (l.map Prod.fst).map fun q : ℚ => (q : ℝ) := by simp [Gas.real]
      rw [e, List.pairwise_map]
      exact (hs l hl).imp fun h => by exact_mod_cast h
    · rw [hpts]
      have := List.length_pos_iff.mpr hne
      simpa [Gas.real] using this
  · unfold Gas.readVector
    rw [if_neg hv]
    simp

section Components
variable {g : Graph Network.Node EdgeKind} (hc : Consistent g) (mem : ℕ → ℝ)

theorem component_inside {c : StateComponent ℝ} (h : c ∈ stateComponents hc mem) : c.start + c.states ≤ (toNet hc).stateCount ∨ c.states = 0 := by
  have key : ∃ x : (toNet hc).Component, ∀ j : ℕ, Owns c j → (toNet hc).InRange x j := by
    rcases (mem_stateComponents hc mem).mp h with ⟨v, h⟩ | ⟨k, h⟩
    · obtain ⟨-, h1, h2⟩ := (component_of hc mem).1 v h
      refine ⟨.inl v, fun j hj => ?_⟩
      have := (toNet hc).range_length (.inl v)
      have e1 : (toNet hc).range (.inl v) = (toNet hc).nodeRange v := rfl
      have e2 : (toNet hc).need (.inl v) = nodeNeed ((toNet hc).node v).kind := rfl
      unfold Owns at hj
      unfold InRange
      rw [this, e1, e2, ← h1, ← h2]
      omega
    · obtain ⟨-, h1, h2⟩ := (component_of hc mem).2 k h
      refine ⟨.inr k, fun j hj => ?_⟩
      have := (toNet hc).range_length (.inr k)
      have e1 : (toNet hc).range (.inr k) = (toNet hc).edgeRange k := rfl
      have e2 : (toNet hc).need (.inr k) = edgeNeed ((toNet hc).edge k) := rfl
      unfold Owns at hj
      unfold InRange
      rw [this, e1, e2, ← h1, ← h2]
      omega
  obtain ⟨x, hx⟩ := key
  rcases Nat.eq_zero_or_pos c.states with h0 | h0
  · exact Or.inr h0
  · left
    have := (state_inside (hx (c.start + c.states - 1) ⟨by omega, by omega⟩)).2
    simp only [Int.toNat_natCast] at this
    omega

theorem convert_defined (x : List ℝ) : (pipeState x ≠ Res.ub ∧ ∀ w, pipeState x = Res.ok w → w.length = x.length) ∧
    ((Res.ok x : Res (List ℝ)) ≠ Res.ub ∧ ∀ w, (Res.ok x : Res (List ℝ)) = Res.ok w → w.length = x.length) := by
  refine ⟨?_, by simp, fun w h => by injection h with h; rw [h]⟩
  unfold pipeState
  split
  · refine ⟨by simp, fun w h => by injection h with h; rw [← h]; rfl⟩
  · simp

theorem component_facts {c : StateComponent ℝ} (h : c ∈ stateComponents hc mem) :
    c.states = 2 * c.points ∧ (∀ x, c.convert x ≠ Res.ub ∧ ∀ w, c.convert x = Res.ok w → w.length = x.length) ∧
    ∀ e, (∀ l, Describes "x" e l → (l.map Prod.fst).Pairwise (· < ·)) →
      c.read e ≠ Res.ub ∧ ∀ v, c.read e = Res.ok v → Initial.Proper v := by
  rcases (mem_stateComponents hc mem).mp h with ⟨v, h⟩ | ⟨k, h⟩
  · unfold stateNode at h
    split at h
    · injection h with h
      subst h
      exact ⟨rfl, fun x => (convert_defined x).2, fun e he => readPoints_defined rfl singleSchema_ok (by simp) he⟩
    · cases h
  · unfold stateEdge at h
    simp only at h
    split at h
    · injection h with h
      subst h
      exact ⟨rfl, fun x => (convert_defined x).1, fun e he => readPoints_defined rfl pipeSchema_ok (by simp) he⟩
    · injection h with h
      subst h
      exact ⟨rfl, fun x => (convert_defined x).2, fun e he => readPoints_defined rfl singleSchema_ok (by simp) he⟩
    · injection h with h
      subst h
      exact ⟨rfl, fun x => (convert_defined x).2, fun e he => readPoints_defined rfl shortSchema_ok (by simp) he⟩
    · cases h

theorem setInitialValues_ne_ub (hids : (g.nodes.map Node.id ++ g.edges.map Edge.id).Nodup) {initial : Json}
    (hi : ∀ e ∈ components initial, ∀ l, Describes "x" e l → (l.map Prod.fst).Pairwise (· < ·)) :
    setInitialValues (stateComponents hc mem) (uninit mem (toNet hc).stateCount) initial ≠ Res.ub := by
  obtain ⟨h1, h2, -⟩ := C47_missing (ids_nodup hc mem hids) initial
  unfold setInitialValues
  refine res_bind_ne h1 fun w hw => ?_
  have hall : AllHaveIds initial := by
    by_contra hn
    rw [h2.mpr (Or.inl hn)] at hw
    cases hw
  refine (fold_ne_ub (P := fun v => v.length = (toNet hc).stateCount) (by simp [uninit]) ?_).1
  intro vector hlen e he
  obtain ⟨s, hs⟩ := hall e he
  constructor
  · unfold setEntry
    rw [find_id] at hs
    rw [index_of_find hs, Res.ok_bind]
    simp only [getStr, Res.ok_bind]
    split
    · next c hfind =>
      have hm := List.mem_of_find?_eq_some hfind
      obtain ⟨f1, f2, f3⟩ := component_facts hc mem hm
      obtain ⟨f4, f5⟩ := f3 e (hi e he)
      rcases component_inside hc mem hm with f6 | f6
      · exact C64_component_defined f4 f5 f2 (by rw [hlen]; exact f6)
      · unfold setInitial
        refine res_bind_ne f4 fun v _ => ?_
        have : c.points = 0 := by omega
        rw [this]
        split <;> simp [setPoints]
    · simp
  · intro v' hv'
    obtain ⟨s, -, ⟨c, -, -, h3⟩ | ⟨-, rfl⟩⟩ := setEntry_ok hv'
    · obtain ⟨_, -, -, h4, -⟩ := C64_component h3
      exact h4.trans hlen
    · exact hlen

/-! ## Controls -/

theorem setTimes_ne_ub {c : ControlComponent ℝ} {v : IV ℝ} (hv : Initial.Proper v) {times : List ℝ} {i : ℕ} {u : IV ℝ} (hwf : u.WF)
    (hl : i + times.length ≤ u.points.length) (hin : c.start + v.inner ≤ u.inner) : setTimes c v i u times ≠ Res.ub := by
  induction times generalizing i u with
  | nil => simp [setTimes]
  | cons t times ih =>
    simp only [List.length_cons] at hl
    have hi : i < u.points.length := by omega
    unfold setTimes
    obtain ⟨-, h1, h2⟩ := C03_eval_range v hv.1 hv.2.1 hv.2.2 t
    refine res_bind_ne h1 fun w hw => ?_
    rw [vectorAtIndex_ok hwf hi, Res.ok_bind]
    have hold : ((u.values.drop (i * u.inner)).take u.inner).length = u.inner := by
      have := step_le hwf hi
      rw [List.length_take, List.length_drop]
      have e : u.inner * i = i * u.inner := by ring
      omega
    have e : u.inner * i = i * u.inner := by ring
    refine res_bind_ne ?_ fun new hnew => ?_
    · unfold assign
      rw [if_pos ⟨by rw [hold]; exact hin, h2 w hw⟩]
      simp
    · obtain ⟨a1, -, -⟩ := assign_ok hnew
      obtain ⟨u', b1, b2, b3, b4, -, -⟩ := writeTimestep_spec u hwf i hi new (a1.trans hold)
      rw [b1, Res.ok_bind]
      exact ih b2 (by rw [b3]; omega) (by rw [b4]; exact hin)

theorem setInitialControls_ne_ub (hids : (g.nodes.map Node.id ++ g.edges.map Edge.id).Nodup) {control : Json}
    (hi : ∀ e ∈ components control, ListsTimes e) (grid : List ℝ) :
    setInitialControls (controlComponents hc mem)
      ⟨grid, (toNet hc).controlCount, uninit mem ((toNet hc).controlCount * grid.length)⟩ control ≠ Res.ub := by
  obtain ⟨h1, h2, -⟩ := C47_missing (control_ids hc mem hids) control
  unfold setInitialControls
  refine res_bind_ne h1 fun w hw => ?_
  have hall : AllHaveIds control := by
    by_contra hn
    rw [h2.mpr (Or.inl hn)] at hw
    cases hw
  refine (fold_ne_ub (P := fun u : IV ℝ => u.WF ∧ u.inner = (toNet hc).controlCount) ⟨by simp [IV.WF, uninit, mul_comm], rfl⟩ ?_).1
  rintro u ⟨hwf, hinner⟩ e he
  obtain ⟨s, hs⟩ := hall e he
  constructor
  · unfold setControlEntry
    rw [find_id] at hs
    rw [index_of_find hs, Res.ok_bind]
    simp only [getStr, Res.ok_bind]
    split
    · next c hfind =>
      obtain ⟨k, hk⟩ := (mem_controlComponents hc mem).mp (List.mem_of_find?_eq_some hfind)
      obtain ⟨-, c1, c2, c3⟩ := control_of hc mem hk
      obtain ⟨k0, k1⟩ := Admissible.control_bounds (N := toNet hc) c2
      obtain ⟨r1, r2⟩ := readVector_defined (k := 1) (mem := mem) (hi e he)
      unfold setControl
      rw [c3]
      refine res_bind_ne r1 fun v hv => ?_
      obtain ⟨r3, r4⟩ := r2 v hv
      refine setTimes_ne_ub r3 hwf (by omega) ?_
      rw [r4, hinner]
      unfold Net.controlCount
      omega
    · simp
  · intro u' hu'
    obtain ⟨s, -, ⟨c, -, -, h3⟩ | ⟨-, rfl⟩⟩ := setControlEntry_ok hu'
    · refine ⟨setControl_wf hwf h3, ?_⟩
      obtain ⟨_, -, -, -, h4, -⟩ := C64_controls hwf h3
      exact h4.symm.trans hinner
    · exact ⟨hwf, hinner⟩

theorem controlGrid_ne_ub {start desired stop : ℝ} (hlt : start < stop) (hdes : 0 < desired) (c : Option (ControlSettings ℝ)) :
    controlGrid start desired stop c ≠ Res.ub ∧ ∀ grid, controlGrid start desired stop c = Res.ok grid →
      grid.Pairwise (· < ·) ∧ 0 < grid.length := by
  obtain ⟨q1, q2, q3, q4, q5, q6, q7⟩ := C68_control_grid_partial start desired stop hlt
  obtain ⟨times, e1, hgood, -⟩ := (C26_grid_partial start desired stop).1 hlt hdes
  have fin : ∀ {r : Res (List ℝ)} {grid : List ℝ} {step : ℝ}, r = Res.ok grid → GoodGrid grid start stop step → r ≠ Res.ub ∧ ∀ grid, r = Res.ok grid →
      grid.Pairwise (· < ·) ∧ 0 < grid.length := by
    rintro r grid step rfl h
    refine ⟨by simp, fun grid' e => ?_⟩
    injection e with e
    subst e
    exact ⟨h.1, by have := h.2.2.2.1; omega⟩
  match c with
  | some ⟨some d, some n⟩ => rw [q1]; simp
  | some ⟨none, none⟩ => rw [q2]; simp
  | none => rw [q5]; exact fin e1 hgood
  | some ⟨some d, none⟩ =>
    rcases le_or_gt d 0 with h | h
    · rw [q3 d h]; simp
    · obtain ⟨grid, h1, h2⟩ := q6 d h
      exact fin h1 h2
  | some ⟨none, some n⟩ =>
    rcases lt_trichotomy n 1 with h | h | h
    · rw [q4 n (by omega)]; simp
    · subst h
      simp only [controlGrid, if_true, if_neg (not_le.mpr hlt)]
      refine ⟨by simp, fun grid e => ?_⟩
      injection e with e
      subst e
      simp
    · obtain ⟨grid, h1, -, h2⟩ := q7 n (by omega)
      exact fin h1 h2

theorem setupControls_ne_ub (hids : (g.nodes.map Node.id ++ g.edges.map Edge.id).Nodup) {s : Settings} (hlt : s.start < s.stop)
    (hdes : 0 < s.desired) (times : List ℝ) {control : Json} (hi : ∀ e ∈ components control, ListsTimes e) :
    setupControls hc mem s times control ≠ Res.ub ∧
    ∀ r, setupControls hc mem s times control = Res.ok r → ∀ t, r.2 t ≠ Res.ub := by
  obtain ⟨h1, h2⟩ := controlGrid_ne_ub hlt hdes s.control
  unfold setupControls
  split
  · refine ⟨res_bind_ne h1 fun grid _ => res_bind_ne (setInitialControls_ne_ub hc mem hids hi grid) fun _ _ => by simp, ?_⟩
    intro r hr t
    obtain ⟨grid, hg, hr⟩ := Res.bind_eq_ok.mp hr
    obtain ⟨u, hu, hr⟩ := Res.bind_eq_ok.mp hr
    injection hr with hr
    subst hr
    obtain ⟨h3, h4⟩ := h2 grid hg
    refine res_bind_ne ?_ fun _ _ => by simp
    have hwf0 : (⟨grid, (toNet hc).controlCount, uninit mem ((toNet hc).controlCount * grid.length)⟩ : IV ℝ).WF := by
      simp [IV.WF, uninit, mul_comm]
    obtain ⟨hp, -, -⟩ := C64_network_controls (control_ids hc mem hids) (disjoint_controls hc mem) (by
      intro c hcm e v hr
      obtain ⟨k, hk⟩ := (mem_controlComponents hc mem).mp hcm
      rw [(control_of hc mem hk).2.2.2] at hr
      exact (readVector_inner hr).le) hwf0 hu
    have hwf : u.WF := by
      unfold setInitialControls at hu
      obtain ⟨_, -, hu⟩ := Res.bind_eq_ok.mp hu
      exact fold_control_wf hwf0 hu
    simp only at hp
    exact (C03_eval_range u hwf (by rw [hp]; exact h3) (by rw [hp]; exact h4) t).2.1
  · refine ⟨by simp, fun r hr t => ?_⟩
    injection hr with hr
    subst hr
    simp

end Components

/-! ## Newton's method -/

section Solver
variable {X Y K : Type} [Field K] [LinearOrder K]

theorem lineSearch_ne_ub (S : System X Y K) (solve : Y → X) (x step : X) (testnorm : Option K) (fuel : ℕ) (lam : K) (cand : X)
    (vals : Y) (cur : Option K) : lineSearch S solve x step testnorm fuel lam cand vals cur ≠ some Res.ub := by
  induction fuel generalizing lam cand vals cur with
  | zero =>
    unfold lineSearch
    split
    · split <;> simp
    · simp
  | succ n ih =>
    unfold lineSearch
    split
    · split
      · simp
      · exact ih _ _ _ _
    · simp

theorem iterate_ne_ub (S : System X Y K) (tol : K) (full : Bool) (fuel : ℕ) (fixed : Option (Y → X)) (n : ℕ) (x : X) (vals : Y)
    (sol : Sol K) : iterate S tol full fuel fixed n x vals sol ≠ some Res.ub := by
  induction n generalizing x vals sol with
  | zero => simp [iterate]
  | succ n ih =>
    unfold iterate
    split
    · split
      · simp
      · simp only
        split
        · simp
        · simp
        · next h => exact absurd h (lineSearch_ne_ub _ _ _ _ _ _ _ _ _ _)
        · exact ih _ _ _
    · simp

theorem solve_ne_ub (S : System X Y K) (tol : K) (maxIter : ℤ) (full : Bool) (fuel : ℕ) (x : X) :
    solve S tol maxIter full fuel x ≠ some Res.ub := by
  unfold solve
  simp only
  by_cases h1 : le (S.normY (S.evaluate x)) (some tol) = true
  · rw [if_pos h1]; simp
  · rw [if_neg h1]
    generalize (if full = true then none else S.jac x) = fixed
    by_cases h2 : (!full && fixed.isNone) = true
    · rw [if_pos h2]; simp
    · rw [if_neg h2]
      split
      · simp
      · exact iterate_ne_ub _ _ _ _ _ _ _ _ _

end Solver

/-! ## The run -/

/-- The damping loop does not end, in some time step of the problem: Newton's method gives no result. -/
def Endless (draws : Json → Res (ℝ → Res (ℝ × ℝ))) (mem : ℕ → ℝ) (lu : Solve) (fuel : ℕ) (s : Settings) (f : Files) : Prop :=
  ∃ g, ∃ hc : Consistent g, readNet draws mem f.defaults f.topology f.boundary = Res.ok g ∧
    ∃ last new x c full y, solve ((toNet hc).system (lu (toNet hc) last new x c) last new x c) s.tolerance s.iterations full fuel y = none

/-- C125, the part that holds: for sound and harmless files a run throws or ends, except that the damping loop may be endless. All times of the simulation
are admissible for the equations, which are computed for all states and controls. What is missing: nothing checks that files are sound and harmless. -/
theorem C125_run_partial {draws : Json → Res (ℝ → Res (ℝ × ℝ))} {mem : ℕ → ℝ} {lu : Solve} {fuel : ℕ} {s : Settings} {f : Files}
    (ho : f.topology.isObj = true) (hs : Shaped f.topology) (hd : DistinctTypes f.topology) (sb : Shaped f.boundary)
    (db : DistinctTypes f.boundary) (hf : Fit f.defaults f.topology) (hlt : s.start < s.stop) (hdes : 0 < s.desired)
    (hcov : ∀ t, s.start ≤ t → t ≤ s.stop → Covers f.defaults f.topology f.boundary t)
    (hdraw : ∀ data d, draws data = Res.ok d → ∀ t, s.start ≤ t → t ≤ s.stop → ∃ b, d t = Res.ok b)
    (hdraws : ∀ data, draws data ≠ Res.ub) (hh : Harmless f) :
    (run draws mem lu fuel s f = Res.ub → Endless draws mem lu fuel s f) ∧
    ∀ g, readNet draws mem f.defaults f.topology f.boundary = Res.ok g → ∃ hc : Consistent g, Admissible (toNet hc) ∧
      ∀ t, s.start ≤ t → t ≤ s.stop → ∀ last z, ∃ r, (toNet hc).residual last t z = Res.ok r := by
  constructor
  · intro hub
    by_contra hend
    revert hub
    obtain ⟨times, ht, hgood, -⟩ := (C26_grid_partial s.start s.desired s.stop).1 hlt hdes
    unfold run
    rw [ht, Res.ok_bind]
    refine res_bind_ne (readNet_ne_ub hdraws ho hs hd sb db hf (hcov s.start le_rfl hlt.le) hh.net) fun g hg => ?_
    obtain ⟨nodes, edges, h1, h2, h3⟩ := readNet_ok hg
    obtain ⟨hc, hids, -⟩ := buildNet_made (proper_of h1 h2 hs hd) h3
    rw [dif_pos hc]
    refine res_bind_ne ?_ fun _ _ => ?_
    · unfold Net.setup
      split <;> simp
    refine res_bind_ne (setInitialValues_ne_ub hc mem hids hh.initial) fun initial _ => ?_
    obtain ⟨k1, k2⟩ := setupControls_ne_ub hc mem hids hlt hdes times hh.control
    refine res_bind_ne k1 fun controls hcon => ?_
    refine res_bind_ne ?_ fun _ _ => by simp
    obtain ⟨h4, -⟩ := C24_throws s.retries s.simplified
      (newtonSolver (fun a b x c => (toNet hc).system (lu (toNet hc) a b x c) a b x c) s.tolerance s.iterations fuel) controls.2 times
      (some (entriesOf initial)) hgood.2.2.2.1 (by
        intro hst a hn
        unfold newtonSolver at hn
        split at hn
        · next h => exact hend ⟨g, hc, hg, _, _, _, _, _, _, h⟩
        · cases hn
        · next h => exact solve_ne_ub _ _ _ _ _ _ h
        · cases hn) (k2 controls hcon)
    rcases h4 with ⟨states, h4⟩ | h4 <;> rw [h4] <;> simp
  · intro g hg
    obtain ⟨hc, hadm, h⟩ := C100_partial ho hs hd sb db hg hf
    exact ⟨hc, hadm, fun t h1 h2 last z =>
      (h t (hcov t h1 h2) fun data d hd => hdraw data d hd t h1 h2).2 last z⟩

/-- C125 for the file that is written, with the same exception. -/
theorem C125_file_partial [Printed ℝ] {draws : Json → Res (ℝ → Res (ℝ × ℝ))} {mem : ℕ → ℝ} {lu : Solve} {fuel : ℕ} {s : Settings} {f : Files}
    (ho : f.topology.isObj = true) (hs : Shaped f.topology) (hd : DistinctTypes f.topology) (sb : Shaped f.boundary)
    (db : DistinctTypes f.boundary) (hf : Fit f.defaults f.topology) (hlt : s.start < s.stop) (hdes : 0 < s.desired) (hmax : 1 ≤ s.iterations)
    (hcov : ∀ t, s.start ≤ t → t ≤ s.stop → Covers f.defaults f.topology f.boundary t)
    (hdraw : ∀ data d, draws data = Res.ok d → ∀ t, s.start ≤ t → t ≤ s.stop → ∃ b, d t = Res.ok b)
    (hdraws : ∀ data, draws data ≠ Res.ub) (hh : Harmless f) :
    runFile draws mem lu fuel s f = Res.ub → Endless draws mem lu fuel s f := by
  intro hub
  by_contra hend
  revert hub
  have hrun := fun h => hend ((C125_run_partial (mem := mem) (lu := lu) (fuel := fuel) ho hs hd sb db hf hlt hdes hcov hdraw hdraws hh).1 h)
  cases hr : run draws mem lu fuel s f with
  | ub => exact absurd hr hrun
  | throws => unfold runFile; rw [hr]; simp
  | ok r =>
    cases hst : allSome r.2 with
    | some states =>
      obtain ⟨_, _, -, h⟩ := C108_partial ho hs hd sb db hf hlt hdes hmax hcov hdraw (times := r.1) (states := states) (by
        rw [hr]
        congr 1
        exact Prod.ext rfl (allSome_eq hst))
      obtain ⟨out, h, -⟩ := h
      rw [h]; simp
    | none =>
      unfold runFile
      rw [hr, Res.ok_bind]
      refine res_bind_ne (readNet_ne_ub hdraws ho hs hd sb db hf (hcov s.start le_rfl hlt.le) hh.net) fun g hg => ?_
      obtain ⟨nodes, edges, h1, h2, h3⟩ := readNet_ok hg
      obtain ⟨hc, -⟩ := buildNet_made (proper_of h1 h2 hs hd) h3
      rw [dif_pos hc, hst]
      simp

end Verif.Read
