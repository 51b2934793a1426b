import Verif.Gas.Ends
import Verif.Net.Single
import Verif.Box.Props
import Mathlib.Algebra.Order.Floor.Ring
import Mathlib.Tactic.Linarith

/-! # Properties C37 and C38: equations of the gas edges -/

set_option autoImplicit false

namespace Verif.Gas

open Verif.Net Verif.Euler Verif.Handler Verif.Box Filter Topology

/-! ## C37 -/

/-- An edge with the four states of a short component. -/
def Short (e : Edge) : Prop := e.after = e.first + 4

theorem Short.usable {e : Edge} (h : Short e) (dir : Dir) : Usable (dir, e) := by
  intro _
  show e.after - e.first ≠ 2
  unfold Short at h; omega

/-- Pressure and flow at the two ends of a short component, from the state vector. -/
theorem short_states {e : Edge} (h : Short e) :
    boundaryState e .start = Res.ok e.first ∧ boundaryState e .stop = Res.ok (e.first + 2) := by
  refine ⟨rfl, ?_⟩
  have := boundaryState_ok (h.usable .stop)
  rw [this]
  simp only [stateIndex]
  congr 1
  unfold Short at h; omega

/-- The pressure rise from start to end that the equations of a short component demand: nothing in a short
pipe, minus the control in a control valve, the control in a compressor. -/
def demandedRise (kind : Kind) (control : ℝ) : ℝ :=
  match kind with
  | .shortpipe => 0
  | .controlvalve => -control
  | .compressor => control
  | _ => 0

/-- The short components modelled here. -/
def Kind.isShort : Kind → Prop
  | .shortpipe | .controlvalve | .compressor => True
  | _ => False

/-- C37. The residual of a short pipe, a control valve or a compressor is computed; its two rows vanish if and only
if the flow is the same at both ends and the pressure rises by zero, by minus the control or by the control,
respectively. No other rows are changed. -/
theorem C37_meaning (e : Edge) (hs : Short e) (hk : e.kind.isShort) (lastTime newTime : ℝ) (a : Args) :
    ∃ ops, edgeEvaluate e lastTime newTime a = Res.ok ops ∧
      ∀ v : Vec,
        (run v ops (e.first + 1) = 0 ∧ run v ops (e.first + 2) = 0 ↔
          pressureAt a.new (.stop, e) =
            pressureAt a.new (.start, e) + demandedRise e.kind (a.control e.control) ∧
          flowAt a.new (.start, e) = flowAt a.new (.stop, e)) ∧
        ∀ r, r ≠ e.first + 1 → r ≠ e.first + 2 → run v ops r = v r := by
  obtain ⟨h1, h2⟩ := short_states hs
  have hi : stateIndex (.stop, e) = e.first + 2 := by
    show e.after - 2 = e.first + 2
    unfold Short at hs; omega
  have hgen : ∀ x y : ℝ, ∀ v : Vec,
      run v [.set (equationStart e) x, .set (equationStart e + 1) y] (e.first + 1) = x ∧
      run v [.set (equationStart e) x, .set (equationStart e + 1) y] (e.first + 2) = y ∧
      ∀ r, r ≠ e.first + 1 → r ≠ e.first + 2 →
        run v [.set (equationStart e) x, .set (equationStart e + 1) y] r = v r := by
    intro x y v
    have e1 : equationStart e = e.first + 1 := rfl
    have e2 : equationStart e + 1 = e.first + 2 := by rw [e1]; ring
    simp only [run_cons, run_nil, Op.apply, e2]
    rw [e1]
    refine ⟨?_, ?_, ?_⟩
    · rw [Function.update_of_ne (by omega), Function.update_self]
    · rw [Function.update_self]
    · intro r hr hr'
      rw [Function.update_of_ne hr', Function.update_of_ne hr]
  cases hkind : e.kind with
  | pipe dx d k => rw [hkind] at hk; exact hk.elim
  | gaspower g q => rw [hkind] at hk; exact hk.elim
  | shortpipe =>
    refine ⟨_, by unfold edgeEvaluate; simp only [hkind, h1, h2, Res.ok_bind]; rfl, fun v => ?_⟩
    obtain ⟨r1, r2, r3⟩ := hgen _ _ v
    refine ⟨?_, r3⟩
    rw [r1, r2]
    simp only [pressureAt, hkind, flowAt, hi, demandedRise, Net.segment, Prod.fst_sub, Prod.snd_sub]
    simp only [stateIndex]
    constructor
    · rintro ⟨p, q⟩; constructor <;> linarith
    · rintro ⟨p, q⟩; constructor <;> linarith
  | controlvalve =>
    refine ⟨_, by unfold edgeEvaluate; simp only [hkind, h1, h2, Res.ok_bind]; rfl, fun v => ?_⟩
    obtain ⟨r1, r2, r3⟩ := hgen _ _ v
    refine ⟨?_, r3⟩
    rw [r1, r2]
    simp only [pressureAt, hkind, flowAt, hi, demandedRise, Net.segment, Prod.fst_sub, Prod.snd_sub,
      Prod.fst_add, Prod.snd_add]
    simp only [stateIndex]
    constructor
    · rintro ⟨p, q⟩; constructor <;> linarith
    · rintro ⟨p, q⟩; constructor <;> linarith
  | compressor =>
    refine ⟨_, by unfold edgeEvaluate; simp only [hkind, h1, h2, Res.ok_bind]; rfl, fun v => ?_⟩
    obtain ⟨r1, r2, r3⟩ := hgen _ _ v
    refine ⟨?_, r3⟩
    rw [r1, r2]
    simp only [pressureAt, hkind, flowAt, hi, demandedRise, Net.segment, Prod.fst_sub, Prod.snd_sub]
    simp only [stateIndex]
    constructor
    · rintro ⟨p, q⟩; constructor <;> linarith
    · rintro ⟨p, q⟩; constructor <;> linarith

/-- C37. The derivative entries of a short pipe, a control valve or a compressor with respect to states and
controls are exact. -/
theorem C37_derivative (e : Edge) (hs : Short e) (hk : e.kind.isShort) (lastTime newTime : ℝ) (a₀ : Args) :
    ∃ last new control, edgeLast e = Res.ok last ∧ edgeNew e lastTime newTime a₀ = Res.ok new ∧
      edgeControl e = Res.ok control ∧
      Exact (edgeEvaluate e lastTime newTime) ⟨last, new, control⟩ {e.first + 1, e.first + 2} a₀ := by
  obtain ⟨h1, h2⟩ := short_states hs
  have e2 : e.first + 1 + 1 = e.first + 2 := by ring
  have e1 : equationStart e = e.first + 1 := rfl
  have e3 : e.first + 2 + 1 = e.first + 3 := by ring
  have hne : e.first + 1 ≠ e.first + 2 := by omega
  have hne' : e.first + 2 ≠ e.first + 1 := by omega
  cases hkind : e.kind with
  | pipe dx d k => rw [hkind] at hk; exact hk.elim
  | gaspower g q => rw [hkind] at hk; exact hk.elim
  | shortpipe =>
    refine ⟨[], _, [], by simp only [edgeLast, hkind],
      by simp only [edgeNew, hkind, h1, h2, Res.ok_bind]; rfl, by simp only [edgeControl, hkind],
      exact_two hne (fun a => Res.ok (Net.segment a.new e.first - Net.segment a.new (e.first + 2)))
        (fun a => by simp only [edgeEvaluate, hkind, h1, h2, Res.ok_bind, e2, e1]) ?_ ?_⟩
    · refine ⟨by simp, ?_, by simp⟩
      simp [e1, e2]
    · intro E _ _ a l' n' c' y hy hsm
      refine Derives.of_eq (fun z => rfl) ?_
      have hd := ((hsm.new e.first).sub (hsm.new (e.first + 2))).prodMk
        ((hsm.new (e.first + 1)).sub (hsm.new (e.first + 2 + 1)))
      refine (hd.congr_of_eventuallyEq (Eventually.of_forall fun z => rfl)).congr_fderiv ?_
      simp only [Entries.row, applyRow_cons, applyRow_nil, e1, e2, hne, hne', if_true, if_false, e3]
      congr 1 <;> module
  | controlvalve =>
    refine ⟨[], _, _, by simp only [edgeLast, hkind],
      by simp only [edgeNew, hkind, h1, h2, Res.ok_bind]; rfl, by simp only [edgeControl, hkind]; rfl,
      exact_two hne (fun a => Res.ok (Net.segment a.new (e.first + 2) - Net.segment a.new e.first +
          (a.control e.control, 0)))
        (fun a => by simp only [edgeEvaluate, hkind, h1, h2, Res.ok_bind, e2, e1]) ?_ ?_⟩
    · refine ⟨by simp, ?_, ?_⟩ <;> simp [e1, e2]
    · intro E _ _ a l' n' c' y hy hsm
      refine Derives.of_eq (fun z => rfl) ?_
      have hd := (((hsm.new (e.first + 2)).sub (hsm.new e.first)).add (hsm.control e.control)).prodMk
        ((hsm.new (e.first + 2 + 1)).sub (hsm.new (e.first + 1)))
      refine (hd.congr_of_eventuallyEq (Eventually.of_forall fun z => ?_)).congr_fderiv ?_
      · simp [Net.segment]
      simp only [Entries.row, applyRow_cons, applyRow_nil, e1, e2, hne, hne', if_true, if_false, e3]
      congr 1 <;> module
  | compressor =>
    refine ⟨[], _, _, by simp only [edgeLast, hkind],
      by simp only [edgeNew, hkind, h1, h2, Res.ok_bind]; rfl, by simp only [edgeControl, hkind]; rfl,
      exact_two hne (fun a => Res.ok (Net.segment a.new (e.first + 2) - Net.segment a.new e.first -
          (a.control e.control, 0)))
        (fun a => by simp only [edgeEvaluate, hkind, h1, h2, Res.ok_bind, e2, e1]) ?_ ?_⟩
    · refine ⟨by simp, ?_, ?_⟩ <;> simp [e1, e2]
    · intro E _ _ a l' n' c' y hy hsm
      refine Derives.of_eq (fun z => rfl) ?_
      have hd := (((hsm.new (e.first + 2)).sub (hsm.new e.first)).sub (hsm.control e.control)).prodMk
        ((hsm.new (e.first + 2 + 1)).sub (hsm.new (e.first + 1)))
      refine (hd.congr_of_eventuallyEq (Eventually.of_forall fun z => ?_)).congr_fderiv ?_
      · simp [Net.segment]
      simp only [Entries.row, applyRow_cons, applyRow_nil, e1, e2, hne, hne', if_true, if_false, e3]
      congr 1 <;> module

/-- A compressor at indices 6 to 9 with control 2 meets the hypotheses, and its equations hold for a state with
pressure 60 before and 65 after it and control 5, but not with 64 after it. -/
example : Short ⟨0, .compressor, 6, 10, 2⟩ ∧ Kind.isShort .compressor ∧
    demandedRise .compressor 5 = 65 - 60 ∧ demandedRise .controlvalve 5 = 55 - 60 := by
  refine ⟨rfl, trivial, ?_, ?_⟩ <;> norm_num [demandedRise]

/-! ## C38 -/

/-- The passes of a loop `for (auto i = start; i != after; i += 2)`: the list of the values of `i`. There is none if the
loop does not end. -/
inductive Visits : ℤ → ℤ → List ℤ → Prop
  | stop (after : ℤ) : Visits after after []
  | pass {i after : ℤ} {l : List ℤ} : i ≠ after → Visits (i + 2) after l → Visits i after (i :: l)

theorem cells_aux (s : ℤ) (n : ℕ) :
    ∀ j : ℕ, Visits (s + 2 * (n : ℤ)) (s + 2 * ((n + j : ℕ) : ℤ))
      ((List.range' n j).map fun (j : ℕ) => s + 2 * (j : ℤ)) := by
  intro j
  induction j generalizing n with
  | zero => simpa using Visits.stop _
  | succ j ih =>
    rw [List.range'_succ, List.map_cons]
    refine Visits.pass (by push_cast; omega) ?_
    have := ih (n + 1)
    have e1 : s + 2 * (n : ℤ) + 2 = s + 2 * ((n + 1 : ℕ) : ℤ) := by push_cast; ring
    have e2 : n + (j + 1) = n + 1 + j := by ring
    rw [e1, e2]
    exact this

/-- A pipe with `n` points. -/
def HasPoints (e : Edge) (n : ℕ) : Prop := e.after = e.first + 2 * n

theorem cells_eq {e : Edge} {n : ℕ} (h : HasPoints e n) :
    cells e = (List.range (n - 1)).map fun (j : ℕ) => e.first + 1 + 2 * (j : ℤ) := by
  unfold cells equationAfter equationStart
  unfold HasPoints at h
  have : ((e.after - 1 - (e.first + 1)) / 2).toNat = n - 1 := by rw [h]; omega
  rw [this]

/-- C38. In a pipe with at least one point the loop over the cells ends, and it visits `cells`. -/
theorem C38_loop (e : Edge) (n : ℕ) (hn : 1 ≤ n) (h : HasPoints e n) :
    Visits (equationStart e) (equationAfter e) (cells e) := by
  rw [cells_eq h, List.range_eq_range']
  have := cells_aux (e.first + 1) 0 (n - 1)
  simp only [Nat.cast_zero, mul_zero, add_zero, zero_add] at this
  have e1 : equationAfter e = e.first + 1 + 2 * ((n - 1 : ℕ) : ℤ) := by
    unfold equationAfter
    unfold HasPoints at h
    rw [h]; push_cast [Nat.cast_sub hn]; ring
  rw [e1]
  exact this

/-- The passes of the loop are determined. -/
theorem Visits.unique {i after : ℤ} {l m : List ℤ} (h : Visits i after l) (h' : Visits i after m) : l = m := by
  induction h generalizing m with
  | stop =>
    cases h' with
    | stop => rfl
    | pass hne => exact absurd rfl hne
  | pass hne h ih =>
    cases h' with
    | stop => exact absurd rfl hne
    | pass _ h' => rw [ih h']

/-- C38. The row of the start, the two rows of each cell and the row of the end are exactly the index range of the
pipe, in this order: no row is missing and none occurs twice. -/
theorem C38_rows (e : Edge) (n : ℕ) (hn : 1 ≤ n) (h : HasPoints e n) :
    [boundaryEquation e .start] ++ (cells e).flatMap (fun i => [i, i + 1]) ++ [boundaryEquation e .stop] =
      (List.range (2 * n)).map fun (j : ℕ) => e.first + (j : ℤ) := by
  rw [cells_eq h]
  have key : ∀ m : ℕ, [e.first] ++ ((List.range m).map fun (j : ℕ) => e.first + 1 + 2 * (j : ℤ)).flatMap
      (fun i => [i, i + 1]) = (List.range (2 * m + 1)).map fun (j : ℕ) => e.first + (j : ℤ) := by
    intro m
    induction m with
    | zero => simp
    | succ m ih =>
      rw [List.range_succ, List.map_append, List.flatMap_append, ← List.append_assoc, ih]
      have : 2 * (m + 1) + 1 = 2 * m + 1 + 1 + 1 := by ring
      rw [this, List.range_succ (n := 2 * m + 1 + 1), List.range_succ (n := 2 * m + 1)]
      simp only [List.map_append, List.map_cons, List.map_nil, List.flatMap_cons, List.flatMap_nil,
        List.append_nil, List.append_assoc]
      congr 1
      simp only [List.cons_append, List.nil_append]
      congr 1
      · push_cast; ring
      · congr 1; push_cast; ring
  have e0 : boundaryEquation e .start = e.first := rfl
  rw [e0, key]
  have e1 : 2 * n = 2 * (n - 1) + 1 + 1 := by omega
  rw [e1, List.range_succ (n := 2 * (n - 1) + 1), List.map_append]
  congr 1
  simp only [boundaryEquation, List.map_cons, List.map_nil]
  congr 1
  unfold HasPoints at h
  rw [h]; push_cast [Nat.cast_sub hn]; ring

/-- C38. For positive length and wished width (and not more cells than an `int` can count) the pipe gets at least
two points; the widths of the cells add up to the length and are at most the wished width, and with one
cell less they would be at least this width. -/
theorem C38_widths (length wished : ℝ) (hl : 0 < length) (hw : 0 < wished)
    (hi : length / wished ≤ 2147483646) :
    ∃ n : ℤ, numberOfPoints length wished = Res.ok n ∧ 2 ≤ n ∧
      (n - 1) * cellWidth length n = length ∧ 0 < cellWidth length n ∧ cellWidth length n ≤ wished ∧
      (n - 2) * wished < length := by
  have hpos : 0 < length / wished := div_pos hl hw
  have hc : (1 : ℤ) ≤ ⌈length / wished⌉ := Int.one_le_ceil_iff.mpr hpos
  have hc2 : ⌈length / wished⌉ ≤ 2147483646 := Int.ceil_le.mpr (by push_cast; exact hi)
  refine ⟨⌈length / wished⌉ + 1, ?_, by omega, ?_, ?_, ?_, ?_⟩
  · unfold numberOfPoints
    rw [if_neg hw.ne', if_pos ⟨by omega, by omega⟩]
  all_goals
    have hc' : (1 : ℝ) ≤ (⌈length / wished⌉ : ℝ) := by exact_mod_cast hc
    have hcpos : (0 : ℝ) < (⌈length / wished⌉ : ℝ) := by linarith
    push_cast
  all_goals try unfold cellWidth
  · push_cast; rw [add_sub_cancel_right]; field_simp
  · push_cast; rw [add_sub_cancel_right]; positivity
  · push_cast; rw [add_sub_cancel_right, div_le_iff₀ hcpos]
    have := Int.le_ceil (length / wished)
    rw [div_le_iff₀ hw] at this
    linarith
  · have := Int.ceil_lt_add_one (length / wished)
    have h2 : (⌈length / wished⌉ : ℝ) - 1 < length / wished := by linarith
    rw [lt_div_iff₀ hw] at h2
    linarith

/-- The restriction to positive widths matters, and the input schema does not demand it: with a negative wished width
larger than the length the pipe gets a single point and no cells, and the cell width is the length
divided by zero. -/
theorem C38_negative_width (length wished : ℝ) (hl : 0 < length) (hw : wished < 0) (h : length < -wished) :
    numberOfPoints length wished = Res.ok 1 := by
  have h1 : length / wished ≤ 0 := div_nonpos_of_nonneg_of_nonpos hl.le hw.le
  have h2 : -1 < length / wished := by
    rw [lt_div_iff_of_neg hw]; linarith
  have hc : ⌈length / wished⌉ = 0 := by
    rw [Int.ceil_eq_iff]; push_cast; constructor <;> linarith
  unfold numberOfPoints
  rw [if_neg hw.ne, hc]
  norm_num

/-- A pipe of 25 km with wished width 10 km gets four points. -/
example : numberOfPoints 25000 10000 = Res.ok 4 := by
  have hc : ⌈(25000 : ℝ) / 10000⌉ = 3 := by rw [Int.ceil_eq_iff]; norm_num
  unfold numberOfPoints
  rw [hc]; norm_num

/-! ## Derivatives of a pipe -/

/-- The conditions under which the derivatives of the Euler equations are right at the points of a pipe: positive
density, and the flow not fully turbulent (there the friction derivative is wrong, `C33`). -/
def LaminarOrTransitional (e : Edge) (d : ℝ) (a : Args) : Prop :=
  ∀ j : ℤ, e.first ≤ j → j + 1 < e.after →
    (j - e.first) % 2 = 0 → 0 < a.new j ∧ reynolds (a.new (j + 1)) d < 4000

theorem segment_hasFDerivAt {E : Type} [NormedAddCommGroup E] [NormedSpace ℝ E] {s : E → Vec}
    {s' : ℤ → E →L[ℝ] ℝ} {y : E} (hs : ∀ j, HasFDerivAt (fun z => s z j) (s' j) y) (i : ℤ) :
    HasFDerivAt (fun z => Net.segment (s z) i) ((s' i).prod (s' (i + 1))) y :=
  (hs i).prodMk (hs (i + 1))

theorem map_pair (L : ℝ × ℝ →L[ℝ] ℝ × ℝ) (p q : ℝ) :
    L (p, q) = p • L (1, 0) + q • L (0, 1) := by
  rw [← map_smul, ← map_smul, ← map_add]; simp

/-- One cell of a pipe. -/
theorem cell_exact (dx d k lastTime newTime : ℝ) (hdx : dx ≠ 0) (i : ℤ) (a₀ : Args)
    (hl : ExactAt (eulerLaw d k) (Net.segment a₀.new (i - 1)))
    (hr : ExactAt (eulerLaw d k) (Net.segment a₀.new (i + 1))) :
    ∃ new, cellNew dx d k lastTime newTime i a₀ = Res.ok new ∧
      Exact (cellEvaluate dx d k lastTime newTime i) ⟨cellEntries i dLastLeft dLastRight, new, []⟩
        {i, i + 1} a₀ := by
  obtain ⟨L, R, hL, hR, -⟩ := C29_derivatives (E := ℝ) (eulerLaw d k) lastTime newTime dx hdx
    (fun _ => 0) (fun _ => 0) (fun _ => Net.segment a₀.new (i - 1)) (fun _ => Net.segment a₀.new (i + 1))
    0 0 0 0 0 (hasFDerivAt_const _ _) (hasFDerivAt_const _ _) (hasFDerivAt_const _ _)
    (hasFDerivAt_const _ _) hl hr
  refine ⟨cellEntries i L R, by unfold cellNew; rw [hL, hR]; rfl,
    exact_two (by omega) (fun a => evaluatePoint (eulerLaw d k) lastTime newTime dx
      (Net.segment a.last (i - 1)) (Net.segment a.last (i + 1)) (Net.segment a.new (i - 1))
      (Net.segment a.new (i + 1))) (fun a => rfl) ?_ ?_⟩
  · refine ⟨?_, ?_, by simp⟩ <;> simp [cellEntries]
  · intro E _ _ a l' n' c' y hy hs
    obtain ⟨L', R', hL', hR', hd⟩ := C29_derivatives (eulerLaw d k) lastTime newTime dx hdx
      (fun z => Net.segment (a z).last (i - 1)) (fun z => Net.segment (a z).last (i + 1))
      (fun z => Net.segment (a z).new (i - 1)) (fun z => Net.segment (a z).new (i + 1)) _ _ _ _ y
      (segment_hasFDerivAt hs.last _) (segment_hasFDerivAt hs.last _) (segment_hasFDerivAt hs.new _)
      (segment_hasFDerivAt hs.new _) (by rw [hy]; exact hl) (by rw [hy]; exact hr)
    rw [hy, hL] at hL'
    rw [hy, hR] at hR'
    injection hL' with hL'
    injection hR' with hR'
    subst hL' hR'
    have heq : (Entries.row ⟨cellEntries i dLastLeft dLastRight, cellEntries i L R, []⟩ i l' n' c').prod
        (Entries.row ⟨cellEntries i dLastLeft dLastRight, cellEntries i L R, []⟩ (i + 1) l' n' c') =
        dLastLeft.comp ((l' (i - 1)).prod (l' (i - 1 + 1))) + dLastRight.comp ((l' (i + 1)).prod (l' (i + 1 + 1)))
        + L.comp ((n' (i - 1)).prod (n' (i - 1 + 1))) + R.comp ((n' (i + 1)).prod (n' (i + 1 + 1))) := by
      have e1 : i - 1 + 1 = i := by ring
      have e2 : i + 1 + 1 = i + 2 := by ring
      have n1 : i ≠ i + 1 := by omega
      have n2 : i + 1 ≠ i := by omega
      rw [e1, e2]
      ext w
      all_goals
        have m1 := map_pair L (n' (i - 1) w) (n' i w)
        have m2 := map_pair R (n' (i + 1) w) (n' (i + 2) w)
        have m3 := map_pair dLastLeft (l' (i - 1) w) (l' i w)
        have m4 := map_pair dLastRight (l' (i + 1) w) (l' (i + 2) w)
        simp only [Entries.row, cellEntries, applyRow_cons, applyRow_nil, if_true, if_neg n1, if_neg n2,
          _root_.add_apply, ContinuousLinearMap.comp_apply, ContinuousLinearMap.prod_apply,
          m1, m2, m3, m4, _root_.smul_apply,
          _root_.zero_apply, Prod.fst_add, Prod.snd_add, Prod.smul_fst, Prod.smul_snd,
          smul_eq_mul]
        ring
    rw [heq]
    exact hd

/-- C38. The derivative entries of a pipe with any number of points are exact, with respect to the new and the last
state, wherever the derivatives of the Euler equations are. -/
theorem C38_derivative (e : Edge) (dx d k : ℝ) (hk : e.kind = .pipe dx d k) (n : ℕ) (hn : 1 ≤ n)
    (hp : HasPoints e n) (hdx : dx ≠ 0) (hpipe : RealPipe d k) (lastTime newTime : ℝ) (a₀ : Args)
    (hstate : LaminarOrTransitional e d a₀) :
    ∃ last new control, edgeLast e = Res.ok last ∧ edgeNew e lastTime newTime a₀ = Res.ok new ∧
      edgeControl e = Res.ok control ∧
      Exact (edgeEvaluate e lastTime newTime) ⟨last, new, control⟩
        {r | e.first + 1 ≤ r ∧ r + 1 < e.after} a₀ := by
  have hp' : e.after = e.first + 2 * n := hp
  have hmem : ∀ i ∈ cells e, ∃ j : ℕ, j < n - 1 ∧ i = e.first + 1 + 2 * (j : ℤ) := by
    intro i hi
    rw [cells_eq hp] at hi
    obtain ⟨j, hj, rfl⟩ := List.mem_map.mp hi
    exact ⟨j, List.mem_range.mp hj, rfl⟩
  have hcell : ∀ i ∈ cells e, ∃ new, cellNew dx d k lastTime newTime i a₀ = Res.ok new ∧
      Exact (cellEvaluate dx d k lastTime newTime i) ⟨cellEntries i dLastLeft dLastRight, new, []⟩
        {i, i + 1} a₀ := by
    intro i hi
    obtain ⟨j, hj, rfl⟩ := hmem i hi
    refine cell_exact dx d k lastTime newTime hdx _ a₀ (eulerLaw_exactAt hpipe _ ?_ ?_)
      (eulerLaw_exactAt hpipe _ ?_ ?_)
    · exact (hstate _ (by omega) (by omega) (by omega)).1
    · exact (hstate _ (by omega) (by omega) (by omega)).2
    · exact (hstate _ (by omega) (by omega) (by omega)).1
    · exact (hstate _ (by omega) (by omega) (by omega)).2
  choose! new hnew hex using hcell
  refine ⟨(cells e).flatMap fun i => cellEntries i dLastLeft dLastRight, (cells e).flatMap new, [],
    ?_, ?_, ?_, ?_⟩
  · simp only [edgeLast, hk]; exact forEach_ok fun i _ => rfl
  · simp only [edgeNew, hk]; exact forEach_ok hnew
  · simp only [edgeControl, hk]
  · have hdis : (cells e).Pairwise fun i j => Disjoint ({i, i + 1} : Set ℤ) {j, j + 1} := by
      rw [cells_eq hp, List.pairwise_map]
      refine List.pairwise_lt_range.imp fun {p q} hpq => ?_
      rw [Set.disjoint_left]
      intro r hr hr'
      simp only [Set.mem_insert_iff, Set.mem_singleton_iff] at hr hr'
      omega
    have h := Exact.forEach hex hdis
    have e1 : ((cells e).flatMap fun _ => ([] : List (Contribution ℝ))) = [] := by simp
    simp only [e1] at h
    have hf : edgeEvaluate e lastTime newTime =
        fun a => Net.forEach (cells e) fun i => cellEvaluate dx d k lastTime newTime i a := by
      funext a; simp only [edgeEvaluate, hk]
    rw [hf]
    refine h.mono ?_
    rintro r ⟨i, hi, hr⟩
    obtain ⟨j, hj, rfl⟩ := hmem i hi
    simp only [Set.mem_insert_iff, Set.mem_singleton_iff] at hr
    constructor <;> omega

/-- A pipe of three points with gas nearly at rest meets the hypotheses. -/
example : HasPoints ⟨0, .pipe 100 1 0, 2, 8, 0⟩ 3 ∧ RealPipe 1 0 ∧
    LaminarOrTransitional ⟨0, .pipe 100 1 0, 2, 8, 0⟩ 1
      ⟨fun _ => 0, fun j => if j % 2 = 0 then 40 else 0.01, fun _ => 0⟩ := by
  refine ⟨rfl, turbulent_example.1, ?_⟩
  intro j h1 h2 h3
  simp only at h1 h2 h3 ⊢
  have e1 : j % 2 = 0 := by omega
  have e2 : ¬ (j + 1) % 2 = 0 := by omega
  rw [if_pos e1, if_neg e2]
  refine ⟨by norm_num, ?_⟩
  unfold reynolds SmoothAbs.circleArea SmoothAbs.Pi eta rho0
  rw [abs_of_pos (by norm_num)]
  norm_num

end Verif.Gas
