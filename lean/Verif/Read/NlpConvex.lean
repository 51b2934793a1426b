import Verif.Read.NlpGrad
import Verif.Read.NlpExample
import Mathlib.Tactic.Linarith

/-!
# Property C153: the objective is a convex quadratic function of the controls of the compressors alone
-/

set_option autoImplicit false

namespace Verif.Read

open Verif.Json Verif.Factory Verif.Interp Verif.Schema Verif.Initial Verif.Times Verif.Newton Verif.Evolve Verif.OptTimes
  Verif.IndexLambda Verif.Weights Verif.Jacobian Verif.Adjoint Network Net Topology Finset

/-! ## Specification -/

/-- The variable that is the control of an edge at a control time. -/
noncomputable def variableOf {g : Graph Network.Node EdgeKind} (hc : Consistent g) (P : Nlp) (x : List ℝ) (k : Fin (toNet hc).edges) (j : ℕ) : ℝ :=
  x.getD (j * P.controls + ((toNet hc).controlRange k).1.toNat) 0

/-- The compressors. -/
def Compressor {g : Graph Network.Node EdgeKind} (hc : Consistent g) (k : Fin (toNet hc).edges) : Prop :=
  ((toNet hc).edge k).isCompressor = true

/-- The second control time is not after the second time of the states. -/
def SecondNotLate (P : Nlp) : Prop := ∃ a b, P.controlTimes[1]? = some a ∧ P.times[1]? = some b ∧ a ≤ b

/-! ## Lemmas -/

theorem accumulate_sum (w c : ℕ → ℝ) (n : ℕ) : accumulate w c n = ∑ i ∈ Ico 1 n, w i * c i := by
  have h : ∀ (l : List ℕ) (a : ℝ), l.foldl (fun acc i => acc + w i * c i) a = a + (l.map fun i => w i * c i).sum := by
    intro l
    induction l with
    | nil => simp
    | cons i l ih => intro a; rw [List.foldl_cons, ih, List.map_cons, List.sum_cons, add_assoc]
  unfold accumulate
  rw [h, zero_add]
  rfl

/-- A control of a compressor at a time is a combination of two variables. -/
theorem ext_controlAt {g : Graph Network.Node EdgeKind} {hc : Consistent g} {P : Nlp} (hm : P.controls = (toNet hc).controlCount)
    (v : Fin ((toNet hc).controlCount * P.controlTimes.length) → ℝ) {k : Fin (toNet hc).edges} (hk : Compressor hc k) (p : ℕ × ℝ) :
    Network.ext (Adjoint.controlAt p (extend (blocks v))) ((toNet hc).controlRange k).1 =
      p.2 * variableOf hc P (List.ofFn v) k p.1 + (1 - p.2) * variableOf hc P (List.ofFn v) k (p.1 - 1) := by
  obtain ⟨k0, k1⟩ := Admissible.control_bounds (N := toNet hc) (isCompressor_isControl hk)
  have hlt : ((toNet hc).controlRange k).1.toNat < (toNet hc).controlCount := by unfold Net.controlCount; omega
  have hget : ∀ j, extend (blocks v) j ⟨_, hlt⟩ = variableOf hc P (List.ofFn v) k j := by
    intro j
    unfold extend variableOf
    rw [hm, List.getD_eq_getElem?_getD, List.getElem?_ofFn]
    by_cases hj : j < P.controlTimes.length
    · rw [dif_pos hj, dif_pos (block_lt hlt hj)]
      rfl
    · rw [dif_neg hj, dif_neg (by
        have : P.controlTimes.length * (toNet hc).controlCount ≤ j * (toNet hc).controlCount := Nat.mul_le_mul_right _ (not_lt.mp hj)
        rw [mul_comm (toNet hc).controlCount]
        omega)]
      rfl
  unfold Network.ext
  rw [dif_pos ⟨k0, hlt⟩]
  simp [Adjoint.controlAt, hget]

open Classical in
/-- The objective as a sum of squares. -/
theorem objective_squares {s : Settings} {every : ℤ} {f : Files} {lu : Solve} {fuel : ℕ} {g : Graph Network.Node EdgeKind}
    {hc : Consistent g} {initial w : List ℝ} {pairs : List (ℕ × ℝ)} {P : Nlp} (p : Parts s every f lu fuel hc initial w pairs P) :
    (∀ i, 1 ≤ i → i < P.times.length → 0 < w.getD i 0) ∧
    ∀ x a, x.length = P.controls * P.controlTimes.length → P.objective x = Res.ok a →
      a = ∑ i ∈ Ico 1 P.times.length, w.getD i 0 * ∑ k : Fin (toNet hc).edges, if Compressor hc k then
        ((pairs.getD i (0, 0)).2 * variableOf hc P x k (pairs.getD i (0, 0)).1 +
          (1 - (pairs.getD i (0, 0)).2) * variableOf hc P x k ((pairs.getD i (0, 0)).1 - 1)) ^ 2 else 0 := by
  obtain ⟨times, cgrid, ktimes, n, r, start, lower, upper, klower, kupper, jac, sim, obj, cons, der⟩ := P
  have e0 : n = (toNet hc).controlCount := p.controls
  subst e0
  obtain ⟨hcn, hfirst, hlast⟩ := p.first
  have hin := p.good.bounds
  have h2 := p.good.2.2.2.1
  have hps := p.pairing
  have hww := p.weights
  have hinc := p.increasing
  have hti := p.good.1
  simp only at hcn hfirst hlast hin h2 hps hww hinc hti ⊢
  obtain ⟨w', e1, e2, e3⟩ := weights_eq times h2
  rw [hww] at e1
  injection e1 with e1
  subst e1
  refine ⟨fun i h1 hi => ?_, fun x a hx ha => ?_⟩
  · have hlt : ∀ a b, a < b → b < times.length → times.getD a 0 < times.getD b 0 := by
      intro a b hab hb
      rw [List.getD_eq_getElem?_getD, List.getD_eq_getElem?_getD, List.getElem?_eq_getElem (hab.trans hb), List.getElem?_eq_getElem hb]
      exact List.pairwise_iff_getElem.mp hti a b (hab.trans hb) hb hab
    have hiw : i < w.length := by omega
    rw [List.getD_eq_getElem?_getD, List.getElem?_eq_getElem hiw, Option.getD_some, e3 i hiw hi, if_pos (show 0 < i from h1)]
    have := hlt (i - 1) i (by omega) hi
    split
    · next h => linarith [hlt i (i + 1) (by omega) h]
    · linarith
  · set v : Fin ((toNet hc).controlCount * cgrid.length) → ℝ := fun i => x.getD i 0 with hv
    have hxv : List.ofFn v = x := ofFn_getD hx
    have hcontrol : ∀ i, ∀ hi : i < times.length,
        controlsAt (N := toNet hc) cgrid x times[i] = Res.ok (Adjoint.controlAt (pairs.getD i (0, 0)) (extend (blocks v))) := by
      intro i hi
      have hm := List.getElem_mem hi
      rw [← hxv]
      exact controlsAt_pair hinc hcn (by rw [hfirst]; exact (hin _ hm).1) (hlast _ hm) (pairs_get hps i hi) v
    have := p.objective x hx
    simp only at this ha
    rw [this] at ha
    obtain ⟨z, hz, ha⟩ := Res.bind_eq_ok.mp ha
    have hzl := (p.simulation x z hx hz).1
    rw [objective_accumulate (G := goals hc f.topology) e2 hzl (fun i _ hi => hcontrol i hi)] at ha
    injection ha with ha
    rw [← ha, accumulate_sum]
    refine Finset.sum_congr rfl fun i hi => ?_
    congr 1
    rw [C44_cost _ _ rfl]
    refine Finset.sum_congr rfl fun k _ => ?_
    by_cases hk : ((toNet hc).edge k).isCompressor
    · rw [if_pos hk, if_pos (show Compressor hc k from hk)]
      have := ext_controlAt (P := ⟨times, cgrid, ktimes, (toNet hc).controlCount, r, start, lower, upper, klower, kupper, jac, sim, obj,
        cons, der⟩) rfl v hk (pairs.getD i (0, 0))
      rw [hxv] at this
      simp only at this ⊢
      rw [this]
      simp [goals]
    · rw [if_neg hk, if_neg (show ¬ Compressor hc k from hk)]

/-- Where the controls at a time are taken from. -/
theorem pair_at {cgrid : List ℝ} (hs : cgrid.Pairwise (· < ·)) {j : ℕ} (hj : j < cgrid.length) (h0 : 0 < j) {p : ℕ × ℝ}
    (h : computeIndexLambda cgrid cgrid[j] = Res.ok p) : p = (j, 1) := by
  have hn : 0 < cgrid.length := by omega
  have hl : cgrid[j] ≤ cgrid[cgrid.length - 1] := by
    rcases Nat.lt_or_ge j (cgrid.length - 1) with h | h
    · exact (List.pairwise_iff_getElem.mp hs j _ hj (by omega) h).le
    · have : j = cgrid.length - 1 := by omega
      simp [this]
  have hlt : cgrid[j - 1] < cgrid[j] := List.pairwise_iff_getElem.mp hs (j - 1) j (by omega) hj (by omega)
  have hlb : lowerBound cgrid cgrid[j] = j := by
    have := lowerBound_eq hs (i := j - 1) (by omega) (t := cgrid[j]) hlt (by simp [Nat.sub_add_cancel h0])
    omega
  unfold computeIndexLambda at h
  rw [getLast?_eq hn] at h
  simp only at h
  rw [if_neg (by intro h; linarith [h.1]), hlb, Res.get_eq_ok.mpr (List.getElem?_eq_getElem hj), Res.ok_bind, if_neg (by omega),
    Res.get_eq_ok.mpr (List.getElem?_eq_getElem (show j - 1 < cgrid.length by omega)), Res.ok_bind] at h
  injection h with h
  rw [← h, div_self (by linarith)]

theorem lowerBound_le {l : List ℝ} {t : ℝ} (h : lowerBound l t < l.length) : t ≤ l[lowerBound l t] := by
  have := List.findIdx_getElem (xs := l) (w := h)
  simp only [decide_eq_true_eq] at this
  exact not_lt.mp this

/-- Controls at times from the second control time on do not come from the first. -/
theorem pair_later {cgrid : List ℝ} (hs : cgrid.Pairwise (· < ·)) (hn : 1 < cgrid.length) {t : ℝ} (ht : cgrid[1] ≤ t) {p : ℕ × ℝ}
    (h : computeIndexLambda cgrid t = Res.ok p) : 1 ≤ p.1 ∧ (p.1 = 1 → p.2 = 1) := by
  have h01 : cgrid[0] < cgrid[1] := List.pairwise_iff_getElem.mp hs 0 1 (by omega) hn (by omega)
  rcases eq_or_lt_of_le ht with ht | ht
  · rw [← ht] at h
    rw [pair_at hs hn one_pos h]
    exact ⟨le_rfl, fun _ => rfl⟩
  unfold computeIndexLambda at h
  rw [getLast?_eq (show 0 < cgrid.length by omega)] at h
  simp only at h
  split at h
  · injection h with h
    rw [← h]
    exact ⟨by simp only; omega, fun _ => rfl⟩
  · obtain ⟨u, hu, h⟩ := Res.bind_eq_ok.mp h
    have hu' := Res.get_eq_ok.mp hu
    have h2 : 2 ≤ lowerBound cgrid t := by
      by_contra hlt
      have hle : lowerBound cgrid t < cgrid.length := by
        by_contra hge
        rw [List.getElem?_eq_none (not_lt.mp hge)] at hu'
        cases hu'
      have : t ≤ cgrid[lowerBound cgrid t] := lowerBound_le hle
      have hle1 : cgrid[lowerBound cgrid t] ≤ cgrid[1] := by
        have : lowerBound cgrid t = 0 ∨ lowerBound cgrid t = 1 := by omega
        rcases this with e | e
        · simp only [e]; exact h01.le
        · simp only [e]; exact le_rfl
      linarith
    rw [if_neg (by omega)] at h
    obtain ⟨l, -, h⟩ := Res.bind_eq_ok.mp h
    injection h with h
    rw [← h]
    exact ⟨by simp only; omega, fun e => by simp only at e; omega⟩

/-! ## The property -/

section
variable {draws : Json → Res (ℝ → Res (ℝ × ℝ))} {mem : ℕ → ℝ} {lu : Solve} {fuel : ℕ} {s : Settings} {every : ℤ} {f : Files} {b : Bounds}

/-- C153. The objective handed to Ipopt, at the points where it has a value: it is not negative; it is convex; multiplying all variables by a
number multiplies it by the square of the number; it depends on the controls of the compressors only, and not even on those of the first
control time if the second control time is not after the second time of the states; and it is zero only if the controls of the compressors are
zero at all control times at which, but for the first, states are computed. -/
theorem C153_convex
    (ho : f.topology.isObj = true) (hs : Shaped f.topology) (hd : DistinctTypes f.topology) (sb : Shaped f.boundary)
    (db : DistinctTypes f.boundary) (hf : Fit f.defaults f.topology) (hlt : s.start < s.stop) (hdes : 0 < s.desired)
    (hmax : 1 ≤ s.iterations) (hcov : ∀ t, s.start ≤ t → t ≤ s.stop → Covers f.defaults f.topology f.boundary t)
    (hdraw : ∀ data d, draws data = Res.ok d → ∀ t, s.start ≤ t → t ≤ s.stop → ∃ b, d t = Res.ok b)
    {P : Nlp} (h : optimization draws mem lu fuel s every f b = Res.ok P) :
    ∃ g, ∃ hc : Consistent g, readNet draws mem f.defaults f.topology f.boundary = Res.ok g ∧
      ∀ x a, x.length = P.controls * P.controlTimes.length → P.objective x = Res.ok a →
        0 ≤ a ∧
        (∀ y b c θ, y.length = P.controls * P.controlTimes.length → 0 ≤ θ → θ ≤ 1 → P.objective y = Res.ok b →
          P.objective (List.zipWith (fun u v => θ * u + (1 - θ) * v) x y) = Res.ok c → c ≤ θ * a + (1 - θ) * b) ∧
        (∀ r c, P.objective (x.map (r * ·)) = Res.ok c → c = r ^ 2 * a) ∧
        (∀ y b, y.length = P.controls * P.controlTimes.length → P.objective y = Res.ok b →
          (∀ k, Compressor hc k → ∀ j < P.controlTimes.length,
            j ≠ 0 ∨ ¬ SecondNotLate P → variableOf hc P x k j = variableOf hc P y k j) → b = a) ∧
        (a = 0 → ∀ k, Compressor hc k → ∀ j, ∀ hj : j < P.controlTimes.length, s.start < P.controlTimes[j] →
          P.controlTimes[j] ∈ P.times → variableOf hc P x k j = 0) ∧
        ((∀ k, Compressor hc k → ∀ j < P.controlTimes.length, variableOf hc P x k j = 0) → a = 0) := by
  classical
  obtain ⟨g, hc, hg, initial, w, pairs, p⟩ := parts_of ho hs hd sb db hf hlt hdes hmax hcov hdraw h
  refine ⟨g, hc, hg, fun x a hx ha => ?_⟩
  obtain ⟨hw, hsq⟩ := objective_squares p
  obtain ⟨hcn, hfirst, hlast⟩ := p.first
  have h2 := p.good.2.2.2.1
  have ea := hsq x a hx ha
  have hnn : ∀ i ∈ Ico 1 P.times.length, 0 ≤ w.getD i 0 := fun i hi => (hw i (mem_Ico.mp hi).1 (mem_Ico.mp hi).2).le
  have hidx : ∀ i ∈ Ico 1 P.times.length, (pairs.getD i (0, 0)).1 < P.controlTimes.length := by
    intro i hi
    obtain ⟨i1, i2⟩ := mem_Ico.mp hi
    have hp := pairs_get p.pairing i i2
    have hmem := List.getElem_mem i2
    obtain ⟨i', lam, e1, e2, -⟩ := C08_agrees_with_interpolation ⟨P.controlTimes, P.controls, x⟩
      (by show x.length = _; rw [hx, mul_comm]) p.increasing hcn P.times[i]
      (by show P.controlTimes[0] - EPSILON ≤ _; rw [hfirst]; linarith [(p.good.bounds _ hmem).1, EPSILON_pos (K := ℝ)]) (hlast _ hmem)
    simp only at e1 e2
    rw [hp] at e1
    injection e1 with e1
    rw [e1]
    exact e2
  refine ⟨?_, ?_, ?_, ?_, ?_, ?_⟩
  · rw [ea]
    refine sum_nonneg fun i hi => mul_nonneg (hnn i hi) (sum_nonneg fun k _ => ?_)
    split
    · positivity
    · exact le_rfl
  · intro y b c θ hy h0 h1 hb hcv
    have eb := hsq y b hy hb
    have hl : (List.zipWith (fun u v => θ * u + (1 - θ) * v) x y).length = P.controls * P.controlTimes.length := by simp [hx, hy]
    have ec := hsq _ c hl hcv
    have hvar : ∀ k j, variableOf hc P (List.zipWith (fun u v => θ * u + (1 - θ) * v) x y) k j =
        θ * variableOf hc P x k j + (1 - θ) * variableOf hc P y k j := by
      intro k j
      unfold variableOf
      generalize j * P.controls + ((toNet hc).controlRange k).1.toNat = n
      simp only [List.getD_eq_getElem?_getD]
      rcases lt_or_ge n x.length with hn | hn
      · rw [List.getElem?_eq_getElem (by rw [hl, ← hx]; exact hn), List.getElem?_eq_getElem hn,
          List.getElem?_eq_getElem (by rw [hy, ← hx]; exact hn)]
        simp
      · rw [List.getElem?_eq_none (by rw [hl, ← hx]; exact hn), List.getElem?_eq_none hn,
          List.getElem?_eq_none (by rw [hy, ← hx]; exact hn)]
        simp
    rw [ea, eb, ec, mul_sum, mul_sum, ← sum_add_distrib]
    refine sum_le_sum fun i hi => ?_
    rw [mul_left_comm, mul_left_comm (1 - θ), ← mul_add]
    refine mul_le_mul_of_nonneg_left ?_ (hnn i hi)
    rw [mul_sum, mul_sum, ← sum_add_distrib]
    refine sum_le_sum fun k _ => ?_
    split
    · rw [hvar, hvar]
      generalize variableOf hc P x k _ = x1
      generalize variableOf hc P x k _ = x2
      generalize variableOf hc P y k _ = y1
      generalize variableOf hc P y k _ = y2
      generalize (pairs.getD i (0, 0)).2 = l
      have : 0 ≤ θ * (1 - θ) * ((l * x1 + (1 - l) * x2) - (l * y1 + (1 - l) * y2)) ^ 2 :=
        mul_nonneg (mul_nonneg h0 (by linarith)) (sq_nonneg _)
      nlinarith [this]
    · simp
  · intro r c hcv
    have ec := hsq _ c (by simp [hx]) hcv
    have hvar : ∀ k j, variableOf hc P (x.map (r * ·)) k j = r * variableOf hc P x k j := by
      intro k j
      unfold variableOf
      generalize j * P.controls + ((toNet hc).controlRange k).1.toNat = n
      rcases lt_or_ge n x.length with hn | hn <;> simp [List.getD_eq_getElem?_getD, hn]
    rw [ea, ec, mul_sum]
    refine sum_congr rfl fun i _ => ?_
    rw [mul_left_comm, mul_sum (a := r ^ 2)]
    congr 1
    refine sum_congr rfl fun k _ => ?_
    split
    · rw [hvar, hvar]; ring
    · simp
  · intro y b hy hb hag
    have eb := hsq y b hy hb
    rw [ea, eb]
    refine sum_congr rfl fun i hi => ?_
    obtain ⟨i1, i2⟩ := mem_Ico.mp hi
    congr 1
    refine sum_congr rfl fun k _ => ?_
    split
    · next hk =>
      have hp := pairs_get p.pairing i i2
      have e2 := hidx i hi
      revert hp e2
      generalize pairs.getD i (0, 0) = q
      obtain ⟨i', lam⟩ := q
      intro hp e2
      simp only at e2 ⊢
      by_cases hfi : SecondNotLate P
      · obtain ⟨t1, t2, f1, f2, f3⟩ := hfi
        obtain ⟨hn1, rfl⟩ := List.getElem?_eq_some_iff.mp f1
        obtain ⟨hn2, rfl⟩ := List.getElem?_eq_some_iff.mp f2
        have ht1 : P.times[1] ≤ P.times[i] := by
          rcases eq_or_lt_of_le i1 with e | e
          · simp only [← e]; exact le_rfl
          · exact (List.pairwise_iff_getElem.mp p.good.1 1 i (by omega) i2 e).le
        obtain ⟨q1, q2⟩ := pair_later p.increasing hn1 (f3.trans ht1) hp
        simp only at q1 q2
        rw [hag k hk i' e2 (.inl (by omega))]
        rcases eq_or_lt_of_le q1 with e | e
        · rw [q2 e.symm]; ring
        · rw [hag k hk (i' - 1) (by omega) (.inl (by omega))]
      · rw [hag k hk i' e2 (.inr hfi)]
        rw [hag k hk (i' - 1) (by omega) (.inr hfi)]
    · rfl
  · intro a0 k hk j hj hjs hjt
    obtain ⟨i, i2, ei⟩ := List.getElem_of_mem hjt
    have hj0 : 0 < j := by
      rcases Nat.eq_zero_or_pos j with e | e
      · subst e
        rw [hfirst] at hjs
        exact absurd hjs (lt_irrefl _)
      · exact e
    have i1 : 1 ≤ i := by
      rcases Nat.eq_zero_or_pos i with e | e
      · subst e
        have := p.good.2.1
        rw [List.head?_eq_getElem?, List.getElem?_eq_getElem i2] at this
        injection this with this
        rw [← ei, this] at hjs
        exact absurd hjs (lt_irrefl _)
      · exact e
    have hp := pairs_get p.pairing i i2
    rw [ei] at hp
    have hpe := pair_at p.increasing hj hj0 hp
    rw [a0] at ea
    have t1 := (sum_eq_zero_iff_of_nonneg (fun i hi => mul_nonneg (hnn i hi) (sum_nonneg fun k _ => by
      split
      · positivity
      · exact le_rfl))).mp ea.symm i (mem_Ico.mpr ⟨i1, i2⟩)
    have t2 := (mul_eq_zero.mp t1).resolve_left (hw i i1 i2).ne'
    have t3 := (sum_eq_zero_iff_of_nonneg (fun k _ => by
      split
      · positivity
      · exact le_rfl)).mp t2 k (mem_univ k)
    rw [if_pos hk, hpe] at t3
    simpa using t3
  · intro h0
    rw [ea]
    refine sum_eq_zero fun i hi => ?_
    have e2 := hidx i hi
    rw [sum_eq_zero fun k _ => ?_, mul_zero]
    split
    · next hk => rw [h0 k hk _ e2, h0 k hk _ (by omega)]; ring
    · rfl

end

/-! ## Example -/

section
variable (hc : Consistent graphK)

theorem controlsAt_other (u : ℝ) : controlsAt (N := toNet hc) [0, 60] [u, 10] 60 = Res.ok (raiseK hc) := by
  have hp := pairs_get pairs_k 1 (by simp)
  have := controlsAt_pair (N := toNet hc) (cgrid := [0, 60]) (by simp) (by simp) (t := 60) (by simp)
    (by simp [EPSILON_pos (K := ℝ)]) hp (![u, 10] : Fin 2 → ℝ)
  refine Eq.trans ?_ (this.trans ?_)
  · congr 1
  · congr 1
    show (fun i : Fin 1 => _) = (![10] : Fin 1 → ℝ)
    funext i
    fin_cases i
    simp [Adjoint.controlAt, extend, blocks]
    rfl

theorem objective_other (lu : Solve) (u : ℝ) : ∃ a, (problemK hc lu).objective [u, 10] = Res.ok a := by
  have h1 := controlsAt_other hc u
  have h2 := fun u s => solve_k hc u s (t := 60) (by norm_num) (by norm_num)
  have hs : statesK hc lu [u, 10] = Res.ok [some (stateK hc), some (stateK hc)] := by
    unfold statesK
    rw [initial_state_k]
    simp [simulate, loop, makeOneStep, attempts, newtonSolver, h2, h1, settingsC]
  have hl : [u, 10].length = (toNet hc).controlCount * [(0 : ℝ), 60].length := rfl
  unfold problemK
  simp only
  rw [if_pos hl, hs, Res.ok_bind, objective_accumulate (times := [0, 60]) (w := [30, 30]) (states := [some (stateK hc), some (stateK hc)]) (c := fun _ => raiseK hc) rfl rfl (by
    intro i h1 h2
    have : i = 1 := by simp at h2; omega
    subst this
    exact controlsAt_other hc u)]
  exact ⟨_, rfl⟩

/-- C153 applies to the files: the control at the first time has no influence, and wherever all controls are twice those the value is four
times as large. -/
example (draws : Json → Res (ℝ → Res (ℝ × ℝ))) (hdraw : ∀ data, draws data = Res.throws) (mem : ℕ → ℝ) (lu : Solve) :
    ∃ P, optimization draws mem lu 10 settingsC 1 filesK boundsK = Res.ok P ∧
      (∀ u, P.objective [u, 10] = Res.ok 3000) ∧ (∀ c, P.objective [20, 20] = Res.ok c → c = 12000) ∧
      ∀ u v, P.objective [u, v] = Res.ok 0 → v = 0 := by
  obtain ⟨hc, -⟩ := C100_partial rfl shaped_k.1.1 shaped_k.1.2 shaped_k.2.1 shaped_k.2.2 (read_k draws mem) fit_k
  obtain ⟨hP, -, h3, -⟩ := optimization_k hc draws mem lu
  obtain ⟨g, hc', hg, h⟩ := C153_convex (f := filesK) (s := settingsC) rfl shaped_k.1.1 shaped_k.1.2 shaped_k.2.1 shaped_k.2.2
    fit_k (by norm_num [settingsC]) (by norm_num [settingsC]) (by norm_num [settingsC])
    (fun t h0 h1 => covers_k h0 (h1.trans (by norm_num [settingsC]))) (by intro data d hd; rw [hdraw] at hd; cases hd) hP
  have hg' : readNet draws mem filesK.defaults filesK.topology filesK.boundary = Res.ok graphK := read_k draws mem
  rw [hg'] at hg
  injection hg with hg
  subst hg
  have hsec : SecondNotLate (problemK hc lu) := ⟨60, 60, rfl, rfl, le_rfl⟩
  have hone : (problemK hc lu).controls = 1 := rfl
  have htwo : (problemK hc lu).controlTimes.length = 2 := rfl
  have hvar : ∀ x k, Compressor hc' k → ∀ j, variableOf hc' (problemK hc lu) x k j = x.getD j 0 := by
    intro x k hk j
    obtain ⟨k0, k1⟩ := Admissible.control_bounds (N := toNet hc') (isCompressor_isControl hk)
    have : (toNet hc').controls = 1 := rfl
    unfold variableOf
    rw [hone, show ((toNet hc').controlRange k).1.toNat = 0 by omega]
    simp
  obtain ⟨-, -, a3, a4, -, -⟩ := h [10, 10] 3000 rfl h3
  refine ⟨_, hP, fun u => ?_, fun c hcv => ?_, fun u v hcv => ?_⟩
  · obtain ⟨a, ha⟩ := objective_other hc lu u
    rw [ha, a4 [u, 10] a rfl ha]
    intro k hk j hj hor
    have : j ≠ 0 := hor.resolve_right (fun h => h hsec)
    rw [htwo] at hj
    have : j = 1 := by omega
    subst this
    rw [hvar _ k hk, hvar _ k hk]
    rfl
  · rw [a3 2 c (by norm_num [hcv])]
    norm_num
  · obtain ⟨-, -, -, -, b5, -⟩ := h [u, v] 0 rfl hcv
    have hk : Compressor hc' (0 : Fin 1) := rfl
    have := b5 rfl (0 : Fin 1) hk 1 (by rw [htwo]; omega) (by show (0 : ℝ) < 60; norm_num) (by show (60 : ℝ) ∈ [0, 60]; simp)
    rw [hvar _ _ hk] at this
    exact this

end

end Verif.Read
