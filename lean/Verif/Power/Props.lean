import Verif.Power.Model
import Verif.Net.Single
import Verif.Basic.Deriv
import Mathlib.Analysis.Calculus.MeanValue
import Mathlib.Analysis.Calculus.Deriv.MeanValue
import Mathlib.Tactic.Linarith
import Mathlib.Tactic.Module
import Mathlib.Tactic.FieldSimp

/-! # Properties C41 and C43: power flow and the gas to power conversion -/

set_option autoImplicit false

namespace Verif.Power

open Verif.Net Verif.Handler Filter Topology Real

/-! ## C41 -/

/-- Specification: the active power flowing into the bus, `V_i² G_i + Σ V_i V_k (G cos + B sin)`. -/
noncomputable def activeSpec (b : Bus) (state : Vec) : ℝ :=
  b.G * state b.first ^ 2 +
    (b.lines.map fun l => state b.first * state l.other *
      (l.G * cos (state (b.first + 1) - state (l.other + 1)) +
        l.B * sin (state (b.first + 1) - state (l.other + 1)))).sum

/-- Specification: the reactive power, `-V_i² B_i + Σ V_i V_k (G sin - B cos)`. -/
noncomputable def reactiveSpec (b : Bus) (state : Vec) : ℝ :=
  -b.B * state b.first ^ 2 +
    (b.lines.map fun l => state b.first * state l.other *
      (l.G * sin (state (b.first + 1) - state (l.other + 1)) -
        l.B * cos (state (b.first + 1) - state (l.other + 1)))).sum

theorem foldl_add {α : Type} (f : α → ℝ) (l : List α) (c : ℝ) :
    l.foldl (fun P x => P + f x) c = c + (l.map f).sum := by
  induction l generalizing c with
  | nil => simp
  | cons x l ih => simp [ih, add_assoc]

/-- C41. The computed powers are those of the power flow equations. -/
theorem C41_power (b : Bus) (state : Vec) :
    activePower b state = activeSpec b state ∧ reactivePower b state = reactiveSpec b state := by
  constructor
  · simp only [activePower, activeSpec, foldl_add]; ring
  · simp only [reactivePower, reactiveSpec, foldl_add]; ring

theorem applyRow_flatMap {α M : Type} [AddCommMonoid M] [SMul ℝ M] (l : List α)
    (f : α → List (Contribution ℝ)) (r : ℤ) (v : ℤ → M) :
    applyRow (l.flatMap f) r v = (l.map fun x => applyRow (f x) r v).sum := by
  induction l with
  | nil => rfl
  | cons x l ih => rw [List.flatMap_cons, applyRow_append, ih]; simp

section
variable {E : Type} [NormedAddCommGroup E] [NormedSpace ℝ E] {s : E → Vec} {s' : ℤ → E →L[ℝ] ℝ} {y : E}

theorem list_sum_hasFDerivAt {α : Type} (l : List α) {f : α → E → ℝ} {f' : α → E →L[ℝ] ℝ}
    (h : ∀ x ∈ l, HasFDerivAt (f x) (f' x) y) :
    HasFDerivAt (fun z => (l.map fun x => f x z).sum) (l.map f').sum y := by
  induction l with
  | nil => simpa using hasFDerivAt_const (0 : ℝ) y
  | cons x l ih =>
    simp only [List.map_cons, List.sum_cons]
    exact (h x (by simp)).add (ih fun w hw => h w (by simp [hw]))

theorem activePower_hasFDerivAt (hs : ∀ j, HasFDerivAt (fun z => s z j) (s' j) y) (b : Bus) (row : ℤ) :
    HasFDerivAt (fun z => activePower b (s z)) (applyRow (dActive b row (s y)) row s') y := by
  simp only [(C41_power b _).1, activeSpec]
  unfold dActive
  simp only [applyRow_cons, if_true, applyRow_flatMap, applyRow_nil]
  have h0 := ((hs b.first).mul (hs b.first)).const_mul b.G
  have h1 := list_sum_hasFDerivAt (y := y) b.lines
    (f := fun l z => s z b.first * s z l.other *
      (l.G * cos (s z (b.first + 1) - s z (l.other + 1)) +
        l.B * sin (s z (b.first + 1) - s z (l.other + 1))))
    (f' := fun l => (s y l.other * (l.G * cos (s y (b.first + 1) - s y (l.other + 1)) +
        l.B * sin (s y (b.first + 1) - s y (l.other + 1)))) • s' b.first +
      ((s y b.first * s y l.other * (-l.G * sin (s y (b.first + 1) - s y (l.other + 1)) +
        l.B * cos (s y (b.first + 1) - s y (l.other + 1)))) • s' (b.first + 1) +
      ((s y b.first * (l.G * cos (s y (b.first + 1) - s y (l.other + 1)) +
        l.B * sin (s y (b.first + 1) - s y (l.other + 1)))) • s' l.other +
      ((s y b.first * s y l.other * (l.G * sin (s y (b.first + 1) - s y (l.other + 1)) -
        l.B * cos (s y (b.first + 1) - s y (l.other + 1)))) • s' (l.other + 1) + 0))))
    (by
      intro l _
      have hd := (hs (b.first + 1)).sub (hs (l.other + 1))
      have ht := ((hs b.first).mul (hs l.other)).mul ((hd.cos.const_mul l.G).add (hd.sin.const_mul l.B))
      refine ht.congr_fderiv ?_
      simp only [Pi.mul_apply, Pi.sub_apply, Pi.add_apply]
      module)
  have h2 := h0.add h1
  refine (h2.congr_of_eventuallyEq (Eventually.of_forall fun z => ?_)).congr_fderiv ?_
  · simp only [Pi.add_apply, Pi.mul_apply, pow_two]
  · module

theorem reactivePower_hasFDerivAt (hs : ∀ j, HasFDerivAt (fun z => s z j) (s' j) y) (b : Bus) (row : ℤ) :
    HasFDerivAt (fun z => reactivePower b (s z)) (applyRow (dReactive b row (s y)) row s') y := by
  simp only [(C41_power b _).2, reactiveSpec]
  unfold dReactive
  simp only [applyRow_cons, if_true, applyRow_flatMap, applyRow_nil]
  have h0 := ((hs b.first).mul (hs b.first)).const_mul (-b.B)
  have h1 := list_sum_hasFDerivAt (y := y) b.lines
    (f := fun l z => s z b.first * s z l.other *
      (l.G * sin (s z (b.first + 1) - s z (l.other + 1)) -
        l.B * cos (s z (b.first + 1) - s z (l.other + 1))))
    (f' := fun l => (s y l.other * (l.G * sin (s y (b.first + 1) - s y (l.other + 1)) -
        l.B * cos (s y (b.first + 1) - s y (l.other + 1)))) • s' b.first +
      ((s y b.first * s y l.other * (l.G * cos (s y (b.first + 1) - s y (l.other + 1)) +
        l.B * sin (s y (b.first + 1) - s y (l.other + 1)))) • s' (b.first + 1) +
      ((s y b.first * (l.G * sin (s y (b.first + 1) - s y (l.other + 1)) -
        l.B * cos (s y (b.first + 1) - s y (l.other + 1)))) • s' l.other +
      ((s y b.first * s y l.other * (-l.G * cos (s y (b.first + 1) - s y (l.other + 1)) -
        l.B * sin (s y (b.first + 1) - s y (l.other + 1)))) • s' (l.other + 1) + 0))))
    (by
      intro l _
      have hd := (hs (b.first + 1)).sub (hs (l.other + 1))
      have ht := ((hs b.first).mul (hs l.other)).mul ((hd.sin.const_mul l.G).sub (hd.cos.const_mul l.B))
      refine ht.congr_fderiv ?_
      simp only [Pi.mul_apply, Pi.sub_apply, Pi.add_apply]
      module)
  have h2 := h0.add h1
  refine (h2.congr_of_eventuallyEq (Eventually.of_forall fun z => ?_)).congr_fderiv ?_
  · simp only [Pi.add_apply, Pi.mul_apply, pow_two]
  · module
end

/-- C41. The entries for active and reactive power are their derivatives: if the states depend differentiably on a
parameter, for example if they are the parameter, then the power has the derivative given by the chain
rule from the entries; and all entries are in the wished row. -/
theorem C41_derivatives {E : Type} [NormedAddCommGroup E] [NormedSpace ℝ E] (b : Bus) (row : ℤ) (s : E → Vec)
    (s' : ℤ → E →L[ℝ] ℝ) (y : E) (hs : ∀ j, HasFDerivAt (fun z => s z j) (s' j) y) :
    HasFDerivAt (fun z => activePower b (s z)) (applyRow (dActive b row (s y)) row s') y ∧
    HasFDerivAt (fun z => reactivePower b (s z)) (applyRow (dReactive b row (s y)) row s') y ∧
    (∀ c ∈ dActive b row (s y), c.1 = row) ∧ ∀ c ∈ dReactive b row (s y), c.1 = row := by
  refine ⟨activePower_hasFDerivAt hs b row, reactivePower_hasFDerivAt hs b row, ?_, ?_⟩
  · intro c hc
    simp only [dActive, List.mem_cons, List.mem_flatMap] at hc
    rcases hc with rfl | rfl | ⟨l, _, rfl | rfl | rfl | rfl | h⟩ <;> first | rfl | simp at h
  · intro c hc
    simp only [dReactive, List.mem_cons, List.mem_flatMap] at hc
    rcases hc with rfl | rfl | ⟨l, _, rfl | rfl | rfl | rfl | h⟩ <;> first | rfl | simp at h

theorem dActive_row (b : Bus) (row : ℤ) (state : Vec) : ∀ c ∈ dActive b row state, c.1 = row :=
  (C41_derivatives (E := ℝ) b row (fun _ => state) 0 0 fun j => hasFDerivAt_const _ _).2.2.1

theorem dReactive_row (b : Bus) (row : ℤ) (state : Vec) : ∀ c ∈ dReactive b row state, c.1 = row :=
  (C41_derivatives (E := ℝ) b row (fun _ => state) 0 0 fun j => hasFDerivAt_const _ _).2.2.2

/-- C41. The equations of a power node demand: at a PQ node the given powers, at a PV node active power and voltage,
at a Vφ node (and a power plant) voltage and angle. -/
theorem C41_node_meaning (kind : Kind) (b : Bus) (boundary : ℝ × ℝ) (state v : Vec) :
    (run v (busEvaluate kind b boundary state) b.first = 0 ∧
      run v (busEvaluate kind b boundary state) (b.first + 1) = 0 ↔
      match kind with
      | .pq => activeSpec b state = boundary.1 ∧ reactiveSpec b state = boundary.2
      | .pv => activeSpec b state = boundary.1 ∧ state b.first = boundary.2
      | .vphi => state b.first = boundary.1 ∧ state (b.first + 1) = boundary.2) ∧
    ∀ r, r ≠ b.first → r ≠ b.first + 1 → run v (busEvaluate kind b boundary state) r = v r := by
  have hne : b.first ≠ b.first + 1 := by omega
  refine ⟨?_, ?_⟩
  · cases kind <;>
    simp only [busEvaluate, run_cons, run_nil, Op.apply, Function.update_self,
      Function.update_of_ne hne, (C41_power b state).1, (C41_power b state).2, sub_eq_zero]
  · intro r h1 h2
    cases kind <;>
    simp only [busEvaluate, run_cons, run_nil, Op.apply, Function.update_of_ne h1, Function.update_of_ne h2]

/-- C41. The derivative entries of each power node are exact. -/
theorem C41_node (kind : Kind) (b : Bus) (boundary : ℝ × ℝ) (a₀ : Args) :
    Exact (fun a => Res.ok (busEvaluate kind b boundary a.new)) ⟨[], busNew kind b a₀.new, []⟩
      {b.first, b.first + 1} a₀ := by
  have hne : b.first ≠ b.first + 1 := by omega
  have hne' : b.first + 1 ≠ b.first := by omega
  cases kind with
  | pq =>
    refine exact_two hne (fun a => Res.ok (activePower b a.new - boundary.1, reactivePower b a.new - boundary.2))
      (fun a => rfl) ⟨by simp, ?_, by simp⟩ ?_
    · intro c hc
      simp only [busNew, List.mem_append] at hc
      exact hc.imp (dActive_row _ _ _ c) (dReactive_row _ _ _ c)
    · intro E _ _ a l' n' c' y hy hs
      refine Derives.of_eq (fun z => rfl) ?_
      have h := ((activePower_hasFDerivAt (s := fun z => (a z).new) hs.new b b.first).sub_const
        boundary.1).prodMk ((reactivePower_hasFDerivAt (s := fun z => (a z).new) hs.new b
          (b.first + 1)).sub_const boundary.2)
      refine h.congr_fderiv ?_
      simp only [Entries.row, busNew, applyRow_append, hy, applyRow_nil]
      rw [applyRow_eq_zero (cs := dReactive b (b.first + 1) a₀.new) (r := b.first)
          (fun c hc => by rw [dReactive_row _ _ _ c hc]; exact hne'),
        applyRow_eq_zero (cs := dActive b b.first a₀.new) (r := b.first + 1)
          (fun c hc => by rw [dActive_row _ _ _ c hc]; exact hne)]
      simp
  | pv =>
    refine exact_two hne (fun a => Res.ok (activePower b a.new - boundary.1, a.new b.first - boundary.2))
      (fun a => rfl) ⟨by simp, ?_, by simp⟩ ?_
    · intro c hc
      simp only [busNew, List.mem_append, List.mem_singleton] at hc
      exact hc.imp (dActive_row _ _ _ c) (fun h => by rw [h])
    · intro E _ _ a l' n' c' y hy hs
      refine Derives.of_eq (fun z => rfl) ?_
      have h := ((activePower_hasFDerivAt (s := fun z => (a z).new) hs.new b b.first).sub_const
        boundary.1).prodMk ((hs.new b.first).sub_const boundary.2)
      refine h.congr_fderiv ?_
      simp only [Entries.row, busNew, applyRow_append, hy, applyRow_nil, applyRow_cons]
      rw [applyRow_eq_zero (cs := dActive b b.first a₀.new) (r := b.first + 1)
          (fun c hc => by rw [dActive_row _ _ _ c hc]; exact hne)]
      simp
  | vphi =>
    refine exact_two hne (fun a => Res.ok (a.new b.first - boundary.1, a.new (b.first + 1) - boundary.2))
      (fun a => rfl) ⟨by simp, ?_, by simp⟩ ?_
    · intro c hc
      simp only [busNew, List.mem_cons, List.not_mem_nil, or_false] at hc
      exact hc.imp (fun h => by rw [h]) (fun h => by rw [h])
    · intro E _ _ a l' n' c' y hy hs
      refine Derives.of_eq (fun z => rfl) ?_
      have h := ((hs.new b.first).sub_const boundary.1).prodMk ((hs.new (b.first + 1)).sub_const boundary.2)
      refine h.congr_fderiv ?_
      simp [Entries.row, busNew, applyRow_nil, applyRow_cons]

/-! ## C43 -/

/-- The smoothing polynomial as a function of all reals. -/
noncomputable def poly (c : Coefficients) (q : ℝ) : ℝ :=
  q * (0.5 * (c.gas2power + c.power2gas) - 0.75 * (c.power2gas - c.gas2power) * (q / 60)
      + 0.25 * (c.power2gas - c.gas2power) * (q / 60) * (q / 60) * (q / 60))

/-- Its derivative. -/
noncomputable def dPoly (c : Coefficients) (q : ℝ) : ℝ :=
  0.5 * (c.gas2power + c.power2gas) - 1.5 * (c.power2gas - c.gas2power) * (q / 60)
      + (c.power2gas - c.gas2power) * (q / 60) * (q / 60) * (q / 60)

theorem poly_hasDerivAt (c : Coefficients) (q : ℝ) : HasDerivAt (poly c) (dPoly c q) q := by
  have hx := hasDerivAt_id q
  have hr := hx.div_const 60
  have h := hx.mul ((((hr.const_mul (0.75 * (c.power2gas - c.gas2power))).const_sub
    (0.5 * (c.gas2power + c.power2gas)))).add
    (((hr.const_mul (0.25 * (c.power2gas - c.gas2power))).mul hr).mul hr))
  refine (h.congr_of_eventuallyEq (Eventually.of_forall fun z => ?_)).congr_deriv ?_
  · simp [poly]
  · simp [dPoly]; ring

theorem smoothing_inside (c : Coefficients) {q : ℝ} (h1 : -60 ≤ q) (h2 : q ≤ 60) :
    smoothing c q = Res.ok (poly c q) ∧ dSmoothing c q = Res.ok (dPoly c q) := by
  have : ¬ (q > kappa + epsilon ∨ q < -kappa - epsilon) := by
    unfold kappa epsilon
    rintro (h | h) <;> norm_num at h <;> linarith
  constructor
  · unfold smoothing; rw [if_neg this]; rfl
  · unfold dSmoothing; rw [if_neg this]; rfl

/-- The generated power, always computed. -/
noncomputable def gen (c : Coefficients) (q : ℝ) : ℝ :=
  if q > 60 then c.gas2power * q else if q < -60 then c.power2gas * q else poly c q

/-- Its supplied derivative, always computed. -/
noncomputable def dGen (c : Coefficients) (q : ℝ) : ℝ :=
  if q > 60 then c.gas2power else if q < -60 then c.power2gas else dPoly c q

theorem generated_eq (c : Coefficients) (q : ℝ) : generated c q = Res.ok (gen c q) := by
  unfold generated gen kappa
  split
  · rfl
  · split
    · rfl
    · exact (smoothing_inside c (by linarith) (by linarith)).1

theorem dGenerated_eq (c : Coefficients) (q : ℝ) : dGenerated c q = Res.ok (dGen c q) := by
  unfold dGenerated dGen kappa
  split
  · rfl
  · split
    · rfl
    · exact (smoothing_inside c (by linarith) (by linarith)).2

theorem gen_hasDerivAt (c : Coefficients) (q : ℝ) : HasDerivAt (gen c) (dGen c q) q := by
  have hlin : ∀ k x : ℝ, HasDerivAt (fun z => k * z) k x := fun k x => by
    simpa using (hasDerivAt_id x).const_mul k
  rcases lt_trichotomy q 60 with h | rfl | h
  · rcases lt_trichotomy q (-60) with h' | rfl | h'
    · have hd : dGen c q = c.power2gas := by unfold dGen; rw [if_neg (by linarith), if_pos h']
      rw [hd]
      refine (hlin c.power2gas q).congr_of_eventuallyEq ?_
      filter_upwards [Iio_mem_nhds h'] with z hz
      have hz' : z < -60 := hz
      unfold gen; rw [if_neg (by linarith), if_pos hz']
    · have hd : dGen c (-60) = c.power2gas := by
        unfold dGen; rw [if_neg (by norm_num), if_neg (by norm_num)]; unfold dPoly; ring
      have hp : dPoly c (-60) = c.power2gas := by unfold dPoly; ring
      rw [hd]
      refine hasDerivAt_glue (f := fun z => c.power2gas * z) (g := poly c) (hlin _ _)
        (hp ▸ poly_hasDerivAt c (-60)) (Eventually.of_forall fun x hx => ?_) ?_
      · rcases hx.lt_or_eq with hx | rfl
        · unfold gen; rw [if_neg (by linarith), if_pos hx]
        · unfold gen; rw [if_neg (by norm_num), if_neg (by norm_num)]; unfold poly; ring
      · filter_upwards [Iio_mem_nhds (show (-60 : ℝ) < 60 by norm_num)] with x hx hx'
        have hx2 : x < 60 := hx
        unfold gen; rw [if_neg (by linarith), if_neg (by linarith)]
    · have hd : dGen c q = dPoly c q := by unfold dGen; rw [if_neg (by linarith), if_neg (by linarith)]
      rw [hd]
      refine (poly_hasDerivAt c q).congr_of_eventuallyEq ?_
      filter_upwards [Iio_mem_nhds h, Ioi_mem_nhds h'] with z hz hz'
      have h1 : z < 60 := hz
      have h2 : -60 < z := hz'
      unfold gen; rw [if_neg (by linarith), if_neg (by linarith)]
  · have hd : dGen c 60 = c.gas2power := by
      unfold dGen; rw [if_neg (by norm_num), if_neg (by norm_num)]; unfold dPoly; ring
    have hp : dPoly c 60 = c.gas2power := by unfold dPoly; ring
    rw [hd]
    refine hasDerivAt_glue (f := poly c) (g := fun z => c.gas2power * z)
      (hp ▸ poly_hasDerivAt c 60) (hlin _ _) ?_ (Eventually.of_forall fun x hx => ?_)
    · filter_upwards [Ioi_mem_nhds (show (-60 : ℝ) < 60 by norm_num)] with x hx hx'
      have hx2 : -60 < x := hx
      unfold gen; rw [if_neg (by linarith), if_neg (by linarith)]
    · rcases hx.lt_or_eq with hx | rfl
      · unfold gen; rw [if_pos hx]
      · unfold gen; rw [if_neg (by norm_num), if_neg (by norm_num)]; unfold poly; ring
  · have hd : dGen c q = c.gas2power := by unfold dGen; rw [if_pos h]
    rw [hd]
    refine (hlin c.gas2power q).congr_of_eventuallyEq ?_
    filter_upwards [Ioi_mem_nhds h] with z hz
    have hz' : z > 60 := hz
    unfold gen; rw [if_pos hz']

theorem dGen_continuous (c : Coefficients) : Continuous (dGen c) := by
  have h : dGen c = fun q => dPoly c (max (-60) (min q 60)) := by
    funext q
    unfold dGen
    split
    · rename_i h
      rw [min_eq_right h.le, max_eq_right (by norm_num)]
      unfold dPoly; ring
    · rename_i h
      rw [min_eq_left (by linarith)]
      split
      · rename_i h'
        rw [max_eq_left h'.le]
        unfold dPoly; ring
      · rename_i h'
        rw [max_eq_right (by linarith)]
  rw [h]
  unfold dPoly
  fun_prop

/-- C43. For every flow and every pair of coefficients the generated power and its derivative are computed (the
exceptions are never thrown), the supplied derivative is the derivative, also at the ends of the smoothing
interval, it is continuous, and outside of it the power is the coefficient times the flow. -/
theorem C43_derivative (c : Coefficients) :
    ∃ P D : ℝ → ℝ, (∀ q, generated c q = Res.ok (P q) ∧ dGenerated c q = Res.ok (D q) ∧ HasDerivAt P (D q) q) ∧
      Continuous D ∧
      (∀ q, 60 ≤ q → P q = c.gas2power * q) ∧ (∀ q, q ≤ -60 → P q = c.power2gas * q) ∧ P 0 = 0 := by
  refine ⟨gen c, dGen c, fun q => ⟨generated_eq c q, dGenerated_eq c q, gen_hasDerivAt c q⟩,
    dGen_continuous c, ?_, ?_, ?_⟩
  · intro q h
    rcases h.lt_or_eq with h | rfl
    · unfold gen; rw [if_pos h]
    · unfold gen; rw [if_neg (by norm_num), if_neg (by norm_num)]; unfold poly; ring
  · intro q h
    rcases h.lt_or_eq with h | rfl
    · unfold gen; rw [if_neg (by linarith), if_pos h]
    · unfold gen; rw [if_neg (by norm_num), if_neg (by norm_num)]; unfold poly; ring
  · unfold gen; rw [if_neg (by norm_num), if_neg (by norm_num)]; unfold poly; ring

/-- C43, false as stated for every pair of efficiencies: with coefficients 1 and 10 more gas gives less power,
at 30 more than 72 but at 54 less than 58. -/
theorem C43_increasing_false :
    ∃ c : Coefficients, 0 < c.gas2power ∧ 0 < c.power2gas ∧
      ∃ q₁ q₂ p₁ p₂ : ℝ, q₁ < q₂ ∧ generated c q₁ = Res.ok p₁ ∧ generated c q₂ = Res.ok p₂ ∧ p₂ < p₁ := by
  refine ⟨⟨1, 10⟩, by norm_num, by norm_num, 30, 54, _, _, by norm_num, generated_eq _ _,
    generated_eq _ _, ?_⟩
  unfold gen
  rw [if_neg (by norm_num), if_neg (by norm_num), if_neg (by norm_num), if_neg (by norm_num)]
  norm_num [poly]

theorem dPoly_pos (c : Coefficients) (hg : 0 < c.gas2power) (hp : 0 < c.power2gas)
    (h : 2 * (c.power2gas - c.gas2power) ^ 2 < (c.gas2power + c.power2gas) ^ 2) (q : ℝ) (h1 : -60 ≤ q)
    (h2 : q ≤ 60) : 0 < dPoly c q := by
  obtain ⟨r, rfl⟩ : ∃ r, q = 60 * r := ⟨q / 60, by ring⟩
  have e : 60 * r / 60 = r := by ring
  have hr1 : -1 ≤ r := by linarith
  have hr2 : r ≤ 1 := by linarith
  unfold dPoly
  rw [e]
  set a := c.gas2power + c.power2gas with ha
  set b := c.power2gas - c.gas2power with hb
  have hapos : 0 < a := by linarith
  -- the square of 3 r - 2 r^3 is at most 2
  have hsq : (3 * r - 2 * r ^ 3) ^ 2 ≤ 2 := by
    nlinarith [sq_nonneg (2 * r ^ 2 - 1), sq_nonneg r, mul_nonneg (sub_nonneg.mpr hr2) (by linarith : 0 ≤ 1 + r),
      mul_nonneg (sq_nonneg (2 * r ^ 2 - 1)) (by nlinarith : (0:ℝ) ≤ 2 - r ^ 2)]
  have hb2 : (b * (3 * r - 2 * r ^ 3)) ^ 2 < a ^ 2 := by
    rw [mul_pow]
    nlinarith [sq_nonneg b]
  have := abs_lt_of_sq_lt_sq hb2 hapos.le
  have h3 := (abs_lt.mp this).2
  nlinarith

/-- C43. If the coefficients are positive and differ by less than the factor `3 + 2√2` (about 5.8), that is, if
`√2 |p - g| < p + g`, the generated power is strictly increasing. -/
theorem C43_increasing_partial (c : Coefficients) (hg : 0 < c.gas2power) (hp : 0 < c.power2gas)
    (h : 2 * (c.power2gas - c.gas2power) ^ 2 < (c.gas2power + c.power2gas) ^ 2) :
    ∃ P : ℝ → ℝ, (∀ q, generated c q = Res.ok (P q)) ∧ StrictMono P := by
  refine ⟨gen c, generated_eq c, strictMono_of_deriv_pos fun q => ?_⟩
  rw [(gen_hasDerivAt c q).deriv]
  unfold dGen
  split
  · exact hg
  · split
    · exact hp
    · exact dPoly_pos c hg hp h q (by linarith) (by linarith)

/-- C43. Beyond this factor it is not increasing: the condition of the theorem before cannot be weakened (except
for equality). -/
theorem C43_increasing_sharp (c : Coefficients) (hg : 0 < c.gas2power) (hp : 0 < c.power2gas)
    (h : (c.gas2power + c.power2gas) ^ 2 < 2 * (c.power2gas - c.gas2power) ^ 2) :
    ∀ P : ℝ → ℝ, (∀ q, generated c q = Res.ok (P q)) → ¬ StrictMono P := by
  intro P hP hmono
  have hPg : P = gen c := by
    funext q
    have := hP q
    rw [generated_eq] at this
    injection this with this
    exact this.symm
  subst hPg
  have hnn : ∀ q, 0 ≤ dGen c q := fun q => by
    rw [← (gen_hasDerivAt c q).deriv]; exact hmono.monotone.deriv_nonneg
  set t := Real.sqrt 2 with ht
  have ht2 : t * t = 2 := Real.mul_self_sqrt (by norm_num)
  have htpos : 0 < t := Real.sqrt_pos.mpr (by norm_num)
  have htlt : t < 2 := by nlinarith
  have hin : ∀ r : ℝ, -1 ≤ r → r ≤ 1 → dGen c (60 * r) = 0.5 * (c.gas2power + c.power2gas) -
      1.5 * (c.power2gas - c.gas2power) * r + (c.power2gas - c.gas2power) * r * r * r := by
    intro r h1 h2
    unfold dGen
    rw [if_neg (by linarith), if_neg (by linarith)]
    unfold dPoly
    have e : 60 * r / 60 = r := by ring
    rw [e]
  have h1 := hnn (60 * (t / 2))
  rw [hin _ (by linarith) (by linarith)] at h1
  have h2 := hnn (60 * (-(t / 2)))
  rw [hin _ (by linarith) (by linarith)] at h2
  have e3 : t / 2 * (t / 2) = 1 / 2 := by nlinarith
  have hA : (c.power2gas - c.gas2power) * t ≤ c.gas2power + c.power2gas := by nlinarith
  have hB : -(c.power2gas - c.gas2power) * t ≤ c.gas2power + c.power2gas := by nlinarith
  have hpos : 0 < c.gas2power + c.power2gas := by linarith
  have : ((c.power2gas - c.gas2power) * t) ^ 2 ≤ (c.gas2power + c.power2gas) ^ 2 := by
    refine sq_le_sq' ?_ hA
    linarith
  nlinarith

/-- Coefficients 1 and 2 satisfy the condition. -/
example : 2 * ((2 : ℝ) - 1) ^ 2 < (1 + 2) ^ 2 := by norm_num

/-- C43. The derivative entries of a connection are exact. -/
theorem C43_connection (first : ℤ) (c : Coefficients) (b : Bus) (a₀ : Args) :
    ∃ cs, connectionNew first c b a₀.new = Res.ok cs ∧
      Exact (fun a => connectionEvaluate first c b a.new) ⟨[], cs, []⟩ {first + 1, b.first} a₀ := by
  refine ⟨_, by unfold connectionNew; rw [dGenerated_eq]; rfl, ?_, ?_⟩
  · intro a ops ho o hm
    unfold connectionEvaluate at ho
    rw [generated_eq] at ho
    injection ho with ho
    subst ho
    simp only [List.mem_singleton] at hm
    subst hm
    exact Or.inl rfl
  · intro E _ _ a l' n' c' y hy hs v r
    have hzero : ∀ (r : ℤ), applyRow [(b.first, first, (0 : ℝ))] r n' = 0 := by
      intro r
      rw [applyRow_cons, applyRow_nil]
      by_cases h : b.first = r <;> simp [h]
    simp only [applyRow_nil, zero_add, add_zero, List.cons_append, applyRow_cons, applyRow_append, hzero]
    by_cases hr : first + 1 = r
    · subst hr
      refine Derives.of_eq (g := fun z => activePower b (a z).new - gen c ((a z).new (first + 1))) ?_ ?_
      · intro z
        unfold connectionEvaluate
        rw [generated_eq]
        simp [run_cons, Op.apply]
      · have hA := activePower_hasFDerivAt (s := fun z => (a z).new) hs.new b (first + 1)
        have hG := (gen_hasDerivAt c ((a y).new (first + 1))).comp_hasFDerivAt y (hs.new (first + 1))
        have h := hA.sub hG
        refine h.congr_fderiv ?_
        simp only [hy, if_true]
        module
    · refine Derives.of_eq (g := fun z => v r) ?_ ?_
      · intro z
        unfold connectionEvaluate
        rw [generated_eq]
        have : r ≠ first + 1 := fun e => hr e.symm
        simp [run_cons, Op.apply, Function.update_of_ne this]
      · rw [if_neg hr, applyRow_eq_zero fun c hc => by rw [dActive_row _ _ _ c hc]; exact hr]
        simpa using hasFDerivAt_const (v r) y

end Verif.Power
