import Verif.Network.Jacobian
import Verif.Euler.Smooth
import Mathlib.Analysis.Calculus.MeanValue
import Mathlib.Topology.Algebra.Module.FiniteDimension

/-!
# The derivative with respect to the new state is continuous

At a regular point all entries that the components hand to the matrix depend continuously on the state, so the residual is
continuously differentiable there.
-/

set_option autoImplicit false

namespace Verif.Network

open Verif.Net Verif.Handler Filter Topology

section
variable {E : Type} [TopologicalSpace E] {y : E}

/-- Near `y` the entries are computed without exceptions, and the matrix they sum up to is continuous at `y`. -/
def Continuously (y : E) (f : E → Res (List (Contribution ℝ))) : Prop :=
  ∃ cs : E → List (Contribution ℝ), (∀ᶠ z in 𝓝 y, f z = Res.ok (cs z)) ∧ ∀ r k, ContinuousAt (fun z => total (cs z) r k) y

theorem total_append (cs ds : List (Contribution ℝ)) (r k : ℤ) : total (cs ++ ds) r k = total cs r k + total ds r k := by
  unfold total; simp

theorem total_nil (r k : ℤ) : total ([] : List (Contribution ℝ)) r k = 0 := rfl

theorem contTotal_nil (r k : ℤ) : ContinuousAt (fun _ : E => total ([] : List (Contribution ℝ)) r k) y := continuousAt_const

theorem contTotal_cons {i j : ℤ} {g : E → ℝ} {cs : E → List (Contribution ℝ)} (hg : ContinuousAt g y) {r k : ℤ}
    (h : ContinuousAt (fun z => total (cs z) r k) y) : ContinuousAt (fun z => total ((i, j, g z) :: cs z) r k) y := by
  simp only [total_cons]
  refine ContinuousAt.add ?_ h
  by_cases hij : i = r ∧ j = k
  · simpa only [hij, and_self, if_true] using hg
  · simpa only [hij, if_false] using continuousAt_const

theorem contTotal_append {cs ds : E → List (Contribution ℝ)} {r k : ℤ} (h : ContinuousAt (fun z => total (cs z) r k) y)
    (h' : ContinuousAt (fun z => total (ds z) r k) y) : ContinuousAt (fun z => total (cs z ++ ds z) r k) y := by
  simp only [total_append]
  exact h.add h'

theorem contTotal_flatMap {α : Type} {l : List α} {cs : α → E → List (Contribution ℝ)} {r k : ℤ}
    (h : ∀ x ∈ l, ContinuousAt (fun z => total (cs x z) r k) y) : ContinuousAt (fun z => total (l.flatMap fun x => cs x z) r k) y := by
  induction l with
  | nil => exact continuousAt_const
  | cons x l ih =>
    simp only [List.flatMap_cons]
    exact contTotal_append (h x (by simp)) (ih fun z hz => h z (by simp [hz]))

theorem Continuously.of_ok {f : E → Res (List (Contribution ℝ))} {cs : E → List (Contribution ℝ)} (h : ∀ z, f z = Res.ok (cs z))
    (hc : ∀ r k, ContinuousAt (fun z => total (cs z) r k) y) : Continuously y f := ⟨cs, Eventually.of_forall h, hc⟩

theorem Continuously.const (cs : List (Contribution ℝ)) : Continuously y fun _ => Res.ok cs :=
  .of_ok (fun _ => rfl) fun _ _ => continuousAt_const

theorem Continuously.append {f g : E → Res (List (Contribution ℝ))} (hf : Continuously y f) (hg : Continuously y g) :
    Continuously y (fun z => do let x ← f z; let w ← g z; Res.ok (x ++ w)) := by
  obtain ⟨cs, h1, h2⟩ := hf
  obtain ⟨ds, h3, h4⟩ := hg
  refine ⟨fun z => cs z ++ ds z, ?_, fun r k => contTotal_append (h2 r k) (h4 r k)⟩
  filter_upwards [h1, h3] with z e1 e2
  rw [e1, e2]; rfl

theorem Continuously.forEach {α : Type} {l : List α} {f : α → E → Res (List (Contribution ℝ))}
    (h : ∀ x ∈ l, Continuously y (f x)) : Continuously y fun z => Net.forEach l fun x => f x z := by
  induction l with
  | nil => exact .const []
  | cons x l ih => exact (h x (by simp)).append (ih fun z hz => h z (by simp [hz]))

/-! ## Gas nodes -/

variable {s : E → Vec} (hs : ∀ j, ContinuousAt (fun z => s z j) y)

include hs in
theorem dBoundaryPQ_continuously {x : Gas.End} (fd : ℝ × ℝ) (row : ℤ) (hu : Gas.Usable x) (hd : Gas.Defined (s y) x) :
    Continuously y fun z => Gas.dBoundaryPQ x.2 x.1 fd row (s z) := by
  unfold Gas.dBoundaryPQ
  simp only [Gas.boundaryState_ok hu, Res.ok_bind]
  cases hk : x.2.kind with
  | pipe dx d k =>
    have hdp : ContinuousAt (fun z => Euler.dp (s z (Gas.stateIndex x))) y :=
      ContinuousAt.comp (f := fun z => s z (Gas.stateIndex x)) (Euler.dp_continuousAt (hd dx d k hk)) (hs _)
    refine .of_ok (fun z => rfl) fun r k => contTotal_cons ?_ (contTotal_cons ?_ (contTotal_nil r k))
    · simp only [Euler.rowMul, Euler.Mat2.mul, Euler.dToBar, Euler.dPQvol, Net.segment]
      fun_prop
    · simp only [Euler.rowMul, Euler.Mat2.mul, Euler.dToBar, Euler.dPQvol, Net.segment]
      fun_prop
  | _ => exact .const _

include hs in
theorem derivativeLoop_continuously {lastRow : ℤ} : ∀ (rest : List Gas.End) (oldRow : ℤ), (∀ x ∈ rest, Gas.Usable x) →
    (∀ x ∈ rest, Gas.Defined (s y) x) → ∃ (cs : E → List (Contribution ℝ)) (old : ℤ),
      (∀ᶠ z in 𝓝 y, Gas.derivativeLoop (s z) lastRow oldRow rest = Res.ok (cs z, old)) ∧
      ∀ r k, ContinuousAt (fun z => total (cs z) r k) y := by
  intro rest
  induction rest with
  | nil => intro oldRow _ _; exact ⟨fun _ => [], oldRow, Eventually.of_forall fun _ => rfl, contTotal_nil⟩
  | cons x rest ih =>
    intro oldRow hu hd
    obtain ⟨cs, old, h1, h2⟩ := ih (Gas.boundaryEquation x.2 x.1) (fun z hz => hu z (by simp [hz])) fun z hz => hd z (by simp [hz])
    have hb := fun fd row => dBoundaryPQ_continuously hs fd row (hu x (by simp)) (hd x (by simp))
    obtain ⟨c1, a1, b1⟩ := hb (1, 0) oldRow
    obtain ⟨c2, a2, b2⟩ := hb (-1, 0) (Gas.boundaryEquation x.2 x.1)
    obtain ⟨c3, a3, b3⟩ := hb (0, x.1.sign) lastRow
    refine ⟨fun z => c1 z ++ c2 z ++ c3 z ++ cs z, old, ?_, fun r k =>
      contTotal_append (contTotal_append (contTotal_append (b1 r k) (b2 r k)) (b3 r k)) (h2 r k)⟩
    filter_upwards [h1, a1, a2, a3] with z e0 e1 e2 e3
    obtain ⟨dir, e⟩ := x
    unfold Gas.derivativeLoop
    simp only at e1 e2 e3 e0
    simp only [e1, e2, e3, e0, Res.ok_bind]

include hs in
theorem flowDerivative_continuously (ends : List Gas.End) (hu : ∀ x ∈ ends, Gas.Usable x) (hd : ∀ x ∈ ends, Gas.Defined (s y) x) :
    Continuously y fun z => Gas.flowDerivative ends (s z) := by
  cases ends with
  | nil => exact .const []
  | cons x rest =>
    obtain ⟨dir, e⟩ := x
    obtain ⟨l, hl⟩ : ∃ l, l = List.getLast ((dir, e) :: rest) (by simp) := ⟨_, rfl⟩
    have hlm : l ∈ (dir, e) :: rest := hl ▸ List.getLast_mem _
    have hb := fun fd row => dBoundaryPQ_continuously hs fd row (hu (dir, e) (by simp)) (hd (dir, e) (by simp))
    have hb' := fun fd row => dBoundaryPQ_continuously hs fd row (hu l hlm) (hd l hlm)
    obtain ⟨c0, a0, b0⟩ := hb (0, dir.sign) (Gas.boundaryEquation l.2 l.1)
    obtain ⟨c1, a1, b1⟩ := hb (-1, 0) (Gas.boundaryEquation e dir)
    obtain ⟨cs, old, a2, b2⟩ := derivativeLoop_continuously hs (lastRow := Gas.boundaryEquation l.2 l.1) rest.dropLast
      (Gas.boundaryEquation e dir)
      (fun z hz => hu z (List.mem_cons_of_mem _ (List.mem_of_mem_dropLast hz)))
      (fun z hz => hd z (List.mem_cons_of_mem _ (List.mem_of_mem_dropLast hz)))
    obtain ⟨c3, a3, b3⟩ := hb' (1, 0) old
    obtain ⟨c4, a4, b4⟩ := hb' (0, l.1.sign) (Gas.boundaryEquation l.2 l.1)
    by_cases hid : e.id = l.2.id
    · refine ⟨c0, ?_, b0⟩
      filter_upwards [a0] with z e0
      unfold Gas.flowDerivative
      simp only [← hl, e0, Res.ok_bind, if_pos hid]
    · refine ⟨fun z => c0 z ++ c1 z ++ cs z ++ c3 z ++ c4 z, ?_, fun r k => contTotal_append (contTotal_append (contTotal_append
        (contTotal_append (b0 r k) (b1 r k)) (b2 r k)) (b3 r k)) (b4 r k)⟩
      filter_upwards [a0, a1, a2, a3, a4] with z e0 e1 e2 e3 e4
      unfold Gas.flowDerivative
      simp only [← hl, e0, Res.ok_bind, if_neg hid, e1, e2, e3, e4]

include hs in
theorem pressureDerivative_continuously (ends : List Gas.End) (hu : ∀ x ∈ ends, Gas.Usable x) (hd : ∀ x ∈ ends, Gas.Defined (s y) x) :
    Continuously y fun z => Gas.pressureDerivative ends (s z) :=
  .forEach fun x hx => dBoundaryPQ_continuously hs (1, 0) _ (hu x hx) (hd x hx)

/-! ## Power nodes -/

include hs in
theorem dActive_continuous (b : Power.Bus) (row : ℤ) (r k : ℤ) : ContinuousAt (fun z => total (Power.dActive b row (s z)) r k) y := by
  unfold Power.dActive
  refine contTotal_cons ?_ (contTotal_cons ?_ (contTotal_flatMap fun l _ => ?_))
  · fun_prop
  · fun_prop
  · refine contTotal_cons ?_ (contTotal_cons ?_ (contTotal_cons ?_ (contTotal_cons ?_ (contTotal_nil r k)))) <;> fun_prop

include hs in
theorem dReactive_continuous (b : Power.Bus) (row : ℤ) (r k : ℤ) : ContinuousAt (fun z => total (Power.dReactive b row (s z)) r k) y := by
  unfold Power.dReactive
  refine contTotal_cons ?_ (contTotal_cons ?_ (contTotal_flatMap fun l _ => ?_))
  · fun_prop
  · fun_prop
  · refine contTotal_cons ?_ (contTotal_cons ?_ (contTotal_cons ?_ (contTotal_cons ?_ (contTotal_nil r k)))) <;> fun_prop

include hs in
theorem busNew_continuous (kind : Power.Kind) (b : Power.Bus) (r k : ℤ) : ContinuousAt (fun z => total (Power.busNew kind b (s z)) r k) y := by
  cases kind with
  | pq => exact contTotal_append (dActive_continuous hs b _ r k) (dReactive_continuous hs b _ r k)
  | pv => exact contTotal_append (dActive_continuous hs b _ r k) continuousAt_const
  | vphi => exact continuousAt_const

/-- The derivative of the power of a plant is continuous. -/
theorem dGenerated_continuous (c : Power.Coefficients) : ∃ g : ℝ → ℝ, (∀ q, Power.dGenerated c q = Res.ok (g q)) ∧ Continuous g := by
  refine ⟨fun q => if Power.kappa ≤ q then c.gas2power else if q ≤ -Power.kappa then c.power2gas else
    0.5 * (c.gas2power + c.power2gas) - 1.5 * (c.power2gas - c.gas2power) * (q / Power.kappa)
      + (c.power2gas - c.gas2power) * (q / Power.kappa) * (q / Power.kappa) * (q / Power.kappa), fun q => ?_, ?_⟩
  · beta_reduce
    unfold Power.dGenerated Power.dSmoothing Power.kappa Power.epsilon
    rcases lt_trichotomy q 60 with h | h | h
    · rcases lt_trichotomy q (-60) with h' | h' | h'
      · rw [if_neg (by linarith), if_pos (by linarith), if_neg (by linarith), if_pos (by linarith)]
      · subst h'
        norm_num
        ring
      · rw [if_neg (by linarith), if_neg (by linarith), if_neg (by norm_num; constructor <;> linarith), if_neg (by linarith),
          if_neg (by linarith)]
    · subst h
      norm_num
      ring
    · rw [if_pos h, if_pos h.le]
  · refine Continuous.if_le continuous_const (Continuous.if_le continuous_const (by fun_prop) continuous_id continuous_const ?_)
      continuous_const continuous_id ?_
    · intro q hq
      rw [hq]
      unfold Power.kappa
      norm_num
      ring
    · intro q hq
      rw [← hq, if_neg (by unfold Power.kappa; norm_num)]
      unfold Power.kappa
      norm_num
      ring

include hs in
theorem connectionNew_continuously (first : ℤ) (c : Power.Coefficients) (b : Power.Bus) :
    Continuously y fun z => Power.connectionNew first c b (s z) := by
  obtain ⟨g, h1, h2⟩ := dGenerated_continuous c
  unfold Power.connectionNew
  simp only [h1, Res.ok_bind]
  refine .of_ok (fun _ => rfl) fun r k => contTotal_append (contTotal_cons ?_ (dActive_continuous hs b _ r k)) continuousAt_const
  exact (h2.continuousAt.comp (f := fun z => s z (first + 1)) (hs _)).neg

/-! ## Pipes -/

theorem dflux_apply_continuous {st : E → ℝ × ℝ} (h : ContinuousAt st y) (h0 : (st y).1 ≠ 0)
    (hD : 1 - Euler.alpha * Euler.cVac * (st y).1 ≠ 0) (d : ℝ) (w : ℝ × ℝ) :
    ContinuousAt (fun z => (Euler.dflux d (st z)).map w) y := by
  have h1 : ContinuousAt (fun z => (st z).1) y := continuousAt_fst.comp h
  have h2 : ContinuousAt (fun z => (st z).2) y := continuousAt_snd.comp h
  have hdp : ContinuousAt (fun z => Euler.dp (st z).1) y := ContinuousAt.comp (f := fun z => (st z).1) (Euler.dp_continuousAt hD) h1
  simp only [Euler.Mat2.map_apply, Euler.dflux]
  refine ContinuousAt.prodMk (by fun_prop) ?_
  have h3 : ContinuousAt (fun z => SmoothAbs.circleArea (0.5 * d) / Euler.rho0 * Euler.dp (st z).1 -
      Euler.rho0 / SmoothAbs.circleArea (0.5 * d) * (st z).2 * (st z).2 / ((st z).1 * (st z).1)) y :=
    (continuousAt_const.mul hdp).sub (((continuousAt_const.mul h2).mul h2).div (h1.mul h1) (mul_ne_zero h0 h0))
  have h4 : ContinuousAt (fun z => 2 * Euler.rho0 / SmoothAbs.circleArea (0.5 * d) * (st z).2 / (st z).1) y :=
    (continuousAt_const.mul h2).div h1 h0
  exact (h3.mul continuousAt_const).add (h4.mul continuousAt_const)

theorem dsource_apply_continuous {st : E → ℝ × ℝ} (h : ContinuousAt st y) {d k : ℝ} (hp : Euler.RealPipe d k) (h0 : (st y).1 ≠ 0)
    (hR : Euler.reynolds (st y).2 d < 4000) :
    ∃ L : E → ℝ × ℝ →L[ℝ] ℝ × ℝ, (∀ᶠ z in 𝓝 y, (Box.eulerLaw d k).dsource (st z) = Res.ok (L z)) ∧ ∀ w, ContinuousAt (fun z => L z w) y := by
  obtain ⟨S, hS, hc⟩ := Euler.dsource_continuous hp
  have h1 : ContinuousAt (fun z => (st z).1) y := continuousAt_fst.comp h
  have h2 : ContinuousAt (fun z => Euler.reynolds (st z).2 d) y :=
    (Euler.continuous_reynolds d).continuousAt.comp (f := fun z => (st z).2) (continuousAt_snd.comp h)
  have hnear : ∀ᶠ z in 𝓝 y, (st z).1 ≠ 0 ∧ Euler.reynolds (st z).2 d < 4000 :=
    (h1.eventually_ne h0).and (h2.eventually_lt continuousAt_const hR)
  refine ⟨fun z => (S (st z)).map, ?_, fun w => ?_⟩
  · filter_upwards [hnear] with z ⟨a, b⟩
    obtain ⟨M, hM, he⟩ := hS (st z) a b
    show (Euler.dsource d k (st z) >>= fun M => Res.ok M.map) = _
    rw [hM, ← he]; rfl
  · obtain ⟨c1, c2, -, -⟩ := hc (st y) h0 hR
    have e1 : ContinuousAt (fun z => (S (st z)).m10) y := c1.comp h
    have e2 : ContinuousAt (fun z => (S (st z)).m11) y := c2.comp h
    simp only [Euler.Mat2.map_apply]
    refine ContinuousAt.prodMk (ContinuousAt.congr (f := fun _ => (0 : ℝ)) continuousAt_const ?_) (by fun_prop)
    filter_upwards [hnear] with z ⟨a, b⟩
    obtain ⟨-, -, c3, c4⟩ := hc (st z) a b
    rw [c3, c4]; ring

include hs in
theorem cellNew_continuously {dx d k : ℝ} (hp : Euler.RealPipe d k) (s₁ s₂ : ℝ) (i : ℤ) {a : E → Args} (ha : ∀ z, (a z).new = s z)
    (hl : 0 < s y (i - 1) ∧ Euler.reynolds (s y i) d < 4000) (hr : 0 < s y (i + 1) ∧ Euler.reynolds (s y (i + 2)) d < 4000) :
    Continuously y fun z => Gas.cellNew dx d k s₁ s₂ i (a z) := by
  have seg : ∀ j, ContinuousAt (fun z => Net.segment (s z) j) y := fun j => (hs j).prodMk (hs (j + 1))
  have pos : ∀ {q : ℝ}, 0 < q → 1 - Euler.alpha * Euler.cVac * q ≠ 0 := fun h => (Euler.C31_density_round_trip _).2 h.le
  have e1 : i - 1 + 1 = i := by ring
  have e2 : i + 1 + 1 = i + 2 := by ring
  obtain ⟨L, hL, cL⟩ := dsource_apply_continuous (seg (i - 1)) hp hl.1.ne' (by simpa [Net.segment, e1] using hl.2)
  obtain ⟨R, hR, cR⟩ := dsource_apply_continuous (seg (i + 1)) hp hr.1.ne' (by simpa [Net.segment, e2] using hr.2)
  have fL := dflux_apply_continuous (seg (i - 1)) hl.1.ne' (pos hl.1) d
  have fR := dflux_apply_continuous (seg (i + 1)) hr.1.ne' (pos hr.1) d
  refine ⟨fun z => Gas.cellEntries i
    ((0.5 : ℝ) • ContinuousLinearMap.id ℝ (ℝ × ℝ) - ((s₂ - s₁) / dx) • (Euler.dflux d (Net.segment (s z) (i - 1))).map - (0.5 * (s₂ - s₁)) • L z)
    ((0.5 : ℝ) • ContinuousLinearMap.id ℝ (ℝ × ℝ) + ((s₂ - s₁) / dx) • (Euler.dflux d (Net.segment (s z) (i + 1))).map - (0.5 * (s₂ - s₁)) • R z),
    ?_, ?_⟩
  · filter_upwards [hL, hR] with z h1 h2
    unfold Gas.cellNew Box.dNewLeft Box.dNewRight
    simp only [ha, h1, h2, Res.ok_bind]
    rfl
  · intro r k
    have cl : ∀ w, ContinuousAt (fun z => ((0.5 : ℝ) • ContinuousLinearMap.id ℝ (ℝ × ℝ) -
        ((s₂ - s₁) / dx) • (Euler.dflux d (Net.segment (s z) (i - 1))).map - (0.5 * (s₂ - s₁)) • L z) w) y := fun w =>
      (continuousAt_const.sub ((fL w).const_smul _)).sub ((cL w).const_smul _)
    have cr : ∀ w, ContinuousAt (fun z => ((0.5 : ℝ) • ContinuousLinearMap.id ℝ (ℝ × ℝ) +
        ((s₂ - s₁) / dx) • (Euler.dflux d (Net.segment (s z) (i + 1))).map - (0.5 * (s₂ - s₁)) • R z) w) y := fun w =>
      (continuousAt_const.add ((fR w).const_smul _)).sub ((cR w).const_smul _)
    unfold Gas.cellEntries
    exact contTotal_cons (continuousAt_fst.comp (cl _)) (contTotal_cons (continuousAt_fst.comp (cl _)) (contTotal_cons
      (continuousAt_snd.comp (cl _)) (contTotal_cons (continuousAt_snd.comp (cl _)) (contTotal_cons (continuousAt_fst.comp (cr _))
      (contTotal_cons (continuousAt_fst.comp (cr _)) (contTotal_cons (continuousAt_snd.comp (cr _)) (contTotal_cons
      (continuousAt_snd.comp (cr _)) (contTotal_nil r k))))))))

/-! ## The network -/

/-- Regular points have regular neighbours. -/
theorem Regular.near {N : Net} {t : ℝ} (hr : Regular N t (s y)) (hs : ∀ j, ContinuousAt (fun z => s z j) y) :
    ∀ᶠ z in 𝓝 y, Regular N t (s z) := by
  have key : ∀ k : Fin N.edges, ∀ᶠ z in 𝓝 y, ∀ dx d r n, N.edge k = .gas (.pipe dx d r) n → dx ≠ 0 ∧ Euler.RealPipe d r ∧
      ∀ j : ℤ, (N.edgeRange k).1 ≤ j → j + 1 < (N.edgeRange k).2 → (j - (N.edgeRange k).1) % 2 = 0 →
        0 < s z j ∧ Euler.reynolds (s z (j + 1)) d < 4000 := by
    intro k
    by_cases hk : ∃ dx d r n, N.edge k = .gas (.pipe dx d r) n
    · obtain ⟨dx, d, r, n, hk⟩ := hk
      obtain ⟨h1, h2, h3⟩ := hr.pipes k dx d r n hk
      have : ∀ᶠ z in 𝓝 y, ∀ j ∈ Set.Ico (N.edgeRange k).1 (N.edgeRange k).2, j + 1 < (N.edgeRange k).2 →
          (j - (N.edgeRange k).1) % 2 = 0 → 0 < s z j ∧ Euler.reynolds (s z (j + 1)) d < 4000 := by
        rw [eventually_all_finite (Set.finite_Ico _ _)]
        intro j hj
        by_cases hc : j + 1 < (N.edgeRange k).2 ∧ (j - (N.edgeRange k).1) % 2 = 0
        · obtain ⟨h4, h5⟩ := h3 j hj.1 hc.1 hc.2
          have hR : ContinuousAt (fun z => Euler.reynolds (s z (j + 1)) d) y :=
            (Euler.continuous_reynolds d).continuousAt.comp (f := fun z => s z (j + 1)) (hs _)
          filter_upwards [continuousAt_const.eventually_lt (hs j) h4, hR.eventually_lt continuousAt_const h5] with z a b _ _
          exact ⟨a, b⟩
        · exact Eventually.of_forall fun z a b => absurd ⟨a, b⟩ hc
      filter_upwards [this] with z hz dx' d' r' n' hk'
      rw [hk] at hk'
      injection hk' with e1 e2
      injection e1 with e1 e3 e4
      subst e1 e3 e4
      exact ⟨h1, h2, fun j a b c => hz j ⟨a, by omega⟩ b c⟩
    · exact Eventually.of_forall fun z dx d r n h => absurd ⟨dx, d, r, n, h⟩ hk
  filter_upwards [eventually_all.mpr key] with z hz
  exact ⟨hr.boundary, hz⟩

variable {N : Net} (hN : Admissible N) {a : E → Args}
include hN

theorem Admissible.node_continuously {t : ℝ} (hr : Regular N t (a y).new) (ha : ∀ j, ContinuousAt (fun z => (a z).new j) y)
    (v : Fin N.nodes) : Continuously y fun z => N.nodeNew v (a z) := by
  have hpower : ∀ k, Continuously y (fun z => do let bus ← N.bus v; Res.ok (Power.busNew k bus (a z).new)) := by
    intro k
    obtain ⟨b, hb⟩ := hN.bus_ok v
    simp only [hb, Res.ok_bind]
    exact .of_ok (fun _ => rfl) fun r c => busNew_continuous ha k b r c
  unfold Net.nodeNew
  cases hk : (N.node v).kind with
  | innode =>
    have hv : (N.node v).kind.isGas := by rw [hk]; rfl
    exact flowDerivative_continuously ha _ (hN.ends_usable hv) (hN.ends_defined hr hv)
  | flow =>
    have hv : (N.node v).kind.isGas := by rw [hk]; rfl
    simp only
    split
    · exact .const []
    · exact flowDerivative_continuously ha _ (hN.ends_usable hv) (hN.ends_defined hr hv)
  | pressure =>
    have hv : (N.node v).kind.isGas := by rw [hk]; rfl
    simp only
    split
    · exact .const []
    · exact pressureDerivative_continuously ha _ (hN.ends_usable hv) (hN.ends_defined hr hv)
  | power k => exact hpower k
  | plant => exact hpower .vphi

theorem Admissible.edge_continuously (s₁ : ℝ) {t : ℝ} (hr : Regular N t (a y).new) (ha : ∀ j, ContinuousAt (fun z => (a z).new j) y)
    (k : Fin N.edges) : Continuously y fun z => N.edgeNew k s₁ t (a z) := by
  have hlen := edgeRange_length (k := k)
  cases hk : N.edge k with
  | line G B =>
    have h0 : N.gasEdge k = none := by simp [Net.gasEdge, hk]
    simp only [Net.edgeNew, h0]
    exact .const []
  | gas kind n =>
    have hg : N.gasEdge k = some ⟨k.val, kind, (N.edgeRange k).1, (N.edgeRange k).2, (N.controlRange k).1⟩ :=
      gasEdge_eq.mpr ⟨kind, n, hk, rfl⟩
    have hshort : kind.isShort → Continuously y fun z => N.edgeNew k s₁ t (a z) := by
      intro hs
      obtain ⟨last, new, control, -, e2, -⟩ := hN.edge_jacobian s₁ (a₀ := a y) hr k
      refine .of_ok (cs := fun _ => new) (fun z => ?_) fun _ _ => continuousAt_const
      rw [← e2]
      unfold Net.edgeNew
      simp only [hg]
      cases kind <;> first | rfl | exact hs.elim
    cases kind with
    | shortpipe => exact hshort trivial
    | controlvalve => exact hshort trivial
    | compressor => exact hshort trivial
    | gaspower g p =>
      have hplant := hN.plantEnd k g p n hk
      obtain ⟨b, hb⟩ := hN.bus_ok (N.dst k)
      simp only [Net.edgeNew, hg, hplant, hb, if_true, Res.ok_bind]
      exact connectionNew_continuously ha _ _ _
    | pipe dx d r =>
      rw [hk] at hlen
      simp only [edgeNeed] at hlen
      obtain ⟨-, hp, hst⟩ := hr.pipes k dx d r n hk
      simp only [Net.edgeNew, hg, Gas.edgeNew]
      refine .forEach fun i hi => ?_
      unfold Gas.cells at hi
      obtain ⟨j, hj, rfl⟩ := List.mem_map.mp hi
      rw [List.mem_range] at hj
      simp only [Gas.equationAfter, Gas.equationStart] at hj ⊢
      refine cellNew_continuously ha hp s₁ t _ (fun _ => rfl) ?_ ?_
      · have := hst ((N.edgeRange k).1 + 1 + 2 * (j : ℤ) - 1) (by omega) (by omega) (by omega)
        have e : (N.edgeRange k).1 + 1 + 2 * (j : ℤ) - 1 + 1 = (N.edgeRange k).1 + 1 + 2 * (j : ℤ) := by ring
        rwa [e] at this
      · have := hst ((N.edgeRange k).1 + 1 + 2 * (j : ℤ) + 1) (by omega) (by omega) (by omega)
        have e : (N.edgeRange k).1 + 1 + 2 * (j : ℤ) + 1 + 1 = (N.edgeRange k).1 + 1 + 2 * (j : ℤ) + 2 := by ring
        rwa [e] at this

theorem Admissible.new_continuously (s₁ : ℝ) {t : ℝ} (hr : Regular N t (a y).new) (ha : ∀ j, ContinuousAt (fun z => (a z).new j) y) :
    Continuously y fun z => N.dNew s₁ t (a z) := by
  have h1 := Continuously.forEach (l := List.finRange N.nodes) fun v _ => hN.node_continuously hr ha v
  have h2 := fun l : List (Fin N.edges) => Continuously.forEach (l := l) fun k _ => hN.edge_continuously s₁ hr ha k
  obtain ⟨c1, e1, k1⟩ := h1
  obtain ⟨c2, e2, k2⟩ := h2 N.equationEdges
  obtain ⟨c3, e3, k3⟩ := h2 N.controlEdges
  refine ⟨fun z => c1 z ++ c2 z ++ c3 z, ?_, fun r k => contTotal_append (contTotal_append (k1 r k) (k2 r k)) (k3 r k)⟩
  filter_upwards [e1, e2, e3] with z h1 h2 h3
  unfold Net.dNew
  rw [h1, h2, h3]
  rfl

end

/-! ## The residual -/

/-- The matrix of the derivative with respect to the new state (zero if there is an exception). -/
noncomputable def Net.newMatrix (N : Net) (s t : ℝ) (z : N.Point) : Matrix (Fin N.stateCount) (Fin N.stateCount) ℝ :=
  match N.dNew s t (N.args z) with
  | .ok cs => matrixOf _ _ cs
  | _ => 0

theorem ext_continuous {n : ℕ} (j : ℤ) : Continuous fun v : Fin n → ℝ => ext v j := by
  unfold ext
  split
  · exact continuous_apply _
  · exact continuous_const

theorem Admissible.newMatrix_continuous {N : Net} (hN : Admissible N) (s : ℝ) {t : ℝ} {z : N.Point} (hr : Regular N t (ext z.2.1)) :
    ContinuousAt (N.newMatrix s t) z := by
  obtain ⟨cs, h1, h2⟩ := hN.new_continuously (a := N.args) (y := z) s hr fun j =>
    ((ext_continuous j).comp (continuous_fst.comp continuous_snd)).continuousAt
  have : (fun x : N.Point => matrixOf N.stateCount N.stateCount (cs x)) =ᶠ[𝓝 z] N.newMatrix s t := by
    filter_upwards [h1] with x hx
    unfold Net.newMatrix
    rw [hx]
  refine ContinuousAt.congr ?_ this
  exact continuousAt_pi.mpr fun i => continuousAt_pi.mpr fun j => h2 i.val j.val

/-- A matrix as a continuous linear map. -/
noncomputable def mulVecL (n m : ℕ) : Matrix (Fin n) (Fin m) ℝ →ₗ[ℝ] ((Fin m → ℝ) →L[ℝ] (Fin n → ℝ)) :=
  LinearMap.toContinuousLinearMap.toLinearMap ∘ₗ Matrix.toLin'.toLinearMap

theorem mulVecL_apply {n m : ℕ} (A : Matrix (Fin n) (Fin m) ℝ) (v : Fin m → ℝ) : mulVecL n m A v = A.mulVec v := rfl

theorem continuous_mulVecL (n m : ℕ) : Continuous (mulVecL n m) := LinearMap.continuous_of_finiteDimensional _

/-- The derivative of the residual with the three matrices. -/
noncomputable def derivativeOf {n m : ℕ} (last new : Matrix (Fin n) (Fin n) ℝ) (control : Matrix (Fin n) (Fin m) ℝ) :
    ((Fin n → ℝ) × (Fin n → ℝ) × (Fin m → ℝ)) →L[ℝ] (Fin n → ℝ) :=
  (mulVecL n n last).comp (ContinuousLinearMap.fst ℝ _ _) +
    (mulVecL n n new).comp ((ContinuousLinearMap.fst ℝ _ _).comp (ContinuousLinearMap.snd ℝ _ _)) +
    (mulVecL n m control).comp ((ContinuousLinearMap.snd ℝ _ _).comp (ContinuousLinearMap.snd ℝ _ _))

theorem derivativeOf_apply {n m : ℕ} (last new : Matrix (Fin n) (Fin n) ℝ) (control : Matrix (Fin n) (Fin m) ℝ)
    (u v : Fin n → ℝ) (w : Fin m → ℝ) :
    derivativeOf last new control (u, v, w) = last.mulVec u + new.mulVec v + control.mulVec w := rfl

/-- At a regular point of an admissible network the residual is computed without exceptions nearby and strictly differentiable; the derivative
with respect to the new state is the matrix the components fill. -/
theorem Admissible.residual_strict {N : Net} (hN : Admissible N) (s : ℝ) {t : ℝ} {z : N.Point} (hr : Regular N t (ext z.2.1)) :
    ∃ (g : N.Point → Fin N.stateCount → ℝ) (last control : List (Contribution ℝ)), N.dLast = Res.ok last ∧
      N.dControl = Res.ok control ∧ (∀ᶠ x in 𝓝 z, N.residual s t x = Res.ok (g x)) ∧
      HasStrictFDerivAt g (derivativeOf (matrixOf _ _ last) (N.newMatrix s t z) (matrixOf _ _ control)) z := by
  obtain ⟨last, -, control, hl, -, hc, -⟩ := C69_network_derivative_partial N hN s t z hr
  let g : N.Point → Fin N.stateCount → ℝ := fun x => match N.residual s t x with | .ok r => r | _ => 0
  have hnear : ∀ᶠ x in 𝓝 z, Regular N t (ext x.2.1) :=
    hr.near (s := fun x : N.Point => ext x.2.1) fun j => ((ext_continuous j).comp (continuous_fst.comp continuous_snd)).continuousAt
  have hder : ∀ x : N.Point, Regular N t (ext x.2.1) → N.residual s t x = Res.ok (g x) ∧
      HasFDerivAt g (derivativeOf (matrixOf _ _ last) (N.newMatrix s t x) (matrixOf _ _ control)) x := by
    intro x hx
    obtain ⟨last', new, control', hl', hn, hc', D, ⟨f, hf, hD⟩, hmat⟩ := C69_network_derivative_partial N hN s t x hx
    rw [hl] at hl'
    rw [hc] at hc'
    injection hl' with hl'
    injection hc' with hc'
    subst hl' hc'
    have hfg : g =ᶠ[𝓝 x] f := by
      filter_upwards [hf] with w hw
      simp only [g, hw]
    refine ⟨?_, (hD.congr_fderiv ?_).congr_of_eventuallyEq hfg⟩
    · rw [hf.self_of_nhds, hfg.self_of_nhds]
    · have hM : N.newMatrix s t x = matrixOf _ _ new := by unfold Net.newMatrix; rw [hn]
      refine ContinuousLinearMap.ext fun w => ?_
      obtain ⟨u, v, w⟩ := w
      rw [hmat, derivativeOf_apply, hM]
  refine ⟨g, last, control, hl, hc, hnear.mono fun x hx => (hder x hx).1, ?_⟩
  refine hasStrictFDerivAt_of_hasFDerivAt_of_continuousAt (f' := fun x => derivativeOf (matrixOf _ _ last) (N.newMatrix s t x)
    (matrixOf _ _ control)) (hnear.mono fun x hx => (hder x hx).2) ?_
  have h1 : ContinuousAt (fun x => mulVecL _ _ (N.newMatrix s t x)) z :=
    (continuous_mulVecL _ _).continuousAt.comp (hN.newMatrix_continuous s hr)
  unfold derivativeOf
  exact (continuousAt_const.add (h1.clm_comp continuousAt_const)).add continuousAt_const

end Verif.Network
