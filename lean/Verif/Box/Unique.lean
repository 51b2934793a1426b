import Verif.Box.Stationary

/-!
# Properties C165 and C166: the stationary state of a pipe is determined by flow and pressure at one end

Two stationary states of a pipe, slower than sound, with the same flow and the same pressure at the end to which the
gas flows are the same at every point. From the end from which the gas comes this is only so if the cells are
short: a long cell has two stationary states with the same flow and the same pressure of supply.
-/

set_option autoImplicit false

namespace Verif.Box

open Verif.Euler Verif.SmoothAbs

/-- The factor of one over the density in the friction. -/
noncomputable def fric (d k q : ℝ) : ℝ := rho0 / (2 * circleArea (0.5 * d) * d) * force d k q

theorem source_eq {d k : ℝ} (hp : RealPipe d k) (st : ℝ × ℝ) :
    Euler.source d k st = Res.ok (0, -(fric d k st.2 / st.1)) := by
  rw [C34_source_defined hp st]
  unfold fric
  congr 2
  ring

theorem fric_pos {d k : ℝ} (hp : RealPipe d k) {q : ℝ} (hq : 0 < q) : 0 < fric d k q := by
  have hA := area_pos hp.pos
  have hd := hp.pos
  have hf := force_pos hp hq
  unfold fric rho0; positivity

theorem fric_neg (d k q : ℝ) : fric d k (-q) = -fric d k q := by unfold fric; rw [force_odd]; ring

theorem fric_zero (d k : ℝ) : fric d k 0 = 0 := by
  have := fric_neg d k 0
  rw [neg_zero] at this; linarith

theorem fric_nonneg {d k : ℝ} (hp : RealPipe d k) {q : ℝ} (hq : 0 ≤ q) : 0 ≤ fric d k q := by
  rcases hq.eq_or_lt with h | h
  · rw [← h, fric_zero]
  · exact (fric_pos hp h).le

theorem fric_nonpos {d k : ℝ} (hp : RealPipe d k) {q : ℝ} (hq : q ≤ 0) : fric d k q ≤ 0 := by
  have := fric_nonneg hp (q := -q) (by linarith)
  rw [fric_neg] at this; linarith

/-- What a stationary cell says: the flows agree, and the momentum flux changes by the friction. -/
theorem cell_iff {d k : ℝ} (hp : RealPipe d k) {t0 t1 dx : ℝ} (ht : t0 < t1) (hdx : 0 < dx) (l r : ℝ × ℝ) :
    evaluatePoint (eulerLaw d k) t0 t1 dx l r l r = Res.ok 0 ↔
      l.2 = r.2 ∧ (flux d r).2 - (flux d l).2 = -(dx / 2 * (fric d k l.2 / l.1 + fric d k r.2 / r.1)) := by
  have hA := area_pos hp.pos
  have hρ : 0 < rho0 := by unfold rho0; norm_num
  have hdt : 0 < t1 - t0 := by linarith
  unfold evaluatePoint
  simp only [eulerLaw, source_eq hp, Res.ok_bind, Res.ok.injEq]
  rw [Prod.ext_iff]
  simp only [Prod.fst_sub, Prod.snd_sub, Prod.smul_fst, Prod.smul_snd, Prod.fst_add, Prod.snd_add, Prod.fst_zero,
    Prod.snd_zero, smul_eq_mul]
  refine and_congr ?_ ?_
  · have hc : 0 < (t1 - t0) / dx * (rho0 / circleArea (0.5 * d)) := by positivity
    constructor
    · intro h
      have e : (t1 - t0) / dx * (rho0 / circleArea (0.5 * d)) * (l.2 - r.2) = 0 := by
        simp only [flux] at h; linarith
      rcases mul_eq_zero.mp e with e | e
      · exact absurd e hc.ne'
      · linarith
    · intro h
      simp only [flux, h]; ring
  · have hc : 0 < (t1 - t0) / dx := by positivity
    have e : ∀ s s' : ℝ, (t1 - t0) / dx * (dx / 2 * (s + s')) = 0.5 * (t1 - t0) * (s + s') := by
      intro s s'; field_simp; norm_num; ring
    constructor
    · intro h
      have e' : (t1 - t0) / dx * ((flux d r).2 - (flux d l).2 +
          dx / 2 * (fric d k l.2 / l.1 + fric d k r.2 / r.1)) = 0 := by
        rw [mul_add, e]; linarith
      rcases mul_eq_zero.mp e' with e' | e'
      · exact absurd e' hc.ne'
      · linarith
    · intro h
      have e' := e (fric d k l.2 / l.1) (fric d k r.2 / r.1)
      have e2 : (t1 - t0) / dx * ((flux d r).2 - (flux d l).2) =
          -((t1 - t0) / dx * (dx / 2 * (fric d k l.2 / l.1 + fric d k r.2 / r.1))) := by rw [h]; ring
      linarith

/-- Pressure plus a multiple of one over the density grows with the density where its derivative is positive. -/
theorem bernoulli_lt {a e x y : ℝ} (ha : 0 < a) (hx : 0 < x) (hy : 0 < y) (ex : e / x ^ 2 < a * dp x)
    (ey : e / y ^ 2 < a * dp y) (hxy : x < y) : a * p x + e / x < a * p y + e / y := by
  have hα := alpha_neg
  have hc := cVac_pos
  rcases le_or_gt e 0 with he | he
  · have h1 := mul_lt_mul_of_pos_left (p_lt hx hxy) ha
    have h2 : e / x ≤ e / y := by
      rw [div_le_div_iff₀ hx hy]; nlinarith
    linarith
  · unfold dp at ex ey
    unfold p
    set β := -(alpha * cVac) with hβ
    have hβ' : 0 < β := by rw [hβ, neg_pos]; exact mul_neg_of_neg_of_pos hα hc
    have dx : 1 - alpha * cVac * x = 1 + β * x := by rw [hβ]; ring
    have dy : 1 - alpha * cVac * y = 1 + β * y := by rw [hβ]; ring
    rw [dx] at ex ⊢
    rw [dy] at ey ⊢
    have px : 0 < 1 + β * x := by positivity
    have py : 0 < 1 + β * y := by positivity
    have key : e / (x * y) < a * (cVac / ((1 + β * x) * (1 + β * y))) := by
      refine lt_of_pow_lt_pow_left₀ 2 (by positivity) ?_
      have e1 : (e / (x * y)) ^ 2 = e / x ^ 2 * (e / y ^ 2) := by field_simp
      have e2 : (a * (cVac / ((1 + β * x) * (1 + β * y)))) ^ 2 =
          a * (cVac / ((1 + β * x) * (1 + β * x))) * (a * (cVac / ((1 + β * y) * (1 + β * y)))) := by
        field_simp
      rw [e1, e2]
      exact mul_lt_mul'' ex ey (by positivity) (by positivity)
    have e' : a * (cVac * y / (1 + β * y)) + e / y - (a * (cVac * x / (1 + β * x)) + e / x) =
        (y - x) * (a * (cVac / ((1 + β * x) * (1 + β * y))) - e / (x * y)) := by
      field_simp
      ring
    rw [← sub_pos, e']
    exact mul_pos (by linarith) (by linarith)

theorem bernoulli_inj {a e x y : ℝ} (ha : 0 < a) (hx : 0 < x) (hy : 0 < y) (ex : e / x ^ 2 < a * dp x)
    (ey : e / y ^ 2 < a * dp y) (h : a * p x + e / x = a * p y + e / y) : x = y := by
  rcases lt_trichotomy x y with h' | h' | h'
  · exact absurd h (bernoulli_lt ha hx hy ex ey h').ne
  · exact h'
  · exact absurd h (bernoulli_lt ha hy hx ey ex h').ne'

theorem ratio_pos {d : ℝ} (hd : 0 < d) : 0 < circleArea (0.5 * d) / rho0 := by
  have := area_pos hd
  unfold rho0; positivity

theorem subsonic_iff {d : ℝ} (hd : 0 < d) {x q : ℝ} (hx : 0 < x) : Subsonic d (x, q) ↔
    rho0 / circleArea (0.5 * d) * q * q / x ^ 2 < circleArea (0.5 * d) / rho0 * dp x := by
  have hA := area_pos hd
  have hρ : 0 < rho0 := by unfold rho0; norm_num
  have hr := ratio_pos hd
  unfold Subsonic
  have e : rho0 / circleArea (0.5 * d) * q * q / x ^ 2 =
      circleArea (0.5 * d) / rho0 * (rho0 * q / (x * circleArea (0.5 * d))) ^ 2 := by
    field_simp
  rw [e]
  exact (mul_lt_mul_iff_right₀ hr).symm

/-! ## From the end to which the gas flows -/

theorem left_unique {d k : ℝ} (hp : RealPipe d k) {t0 t1 dx : ℝ} (ht : t0 < t1) (hdx : 0 < dx) {l l' r : ℝ × ℝ}
    (hl : 0 < l.1) (hl' : 0 < l'.1)
    (sl : (rho0 / circleArea (0.5 * d) * r.2 * r.2 - dx / 2 * fric d k r.2) / l.1 ^ 2 <
      circleArea (0.5 * d) / rho0 * dp l.1)
    (sl' : (rho0 / circleArea (0.5 * d) * r.2 * r.2 - dx / 2 * fric d k r.2) / l'.1 ^ 2 <
      circleArea (0.5 * d) / rho0 * dp l'.1)
    (h : evaluatePoint (eulerLaw d k) t0 t1 dx l r l r = Res.ok 0)
    (h' : evaluatePoint (eulerLaw d k) t0 t1 dx l' r l' r = Res.ok 0) : l = l' := by
  obtain ⟨q, m⟩ := (cell_iff hp ht hdx _ _).mp h
  obtain ⟨q', m'⟩ := (cell_iff hp ht hdx _ _).mp h'
  refine Prod.ext (bernoulli_inj (ratio_pos hp.pos) hl hl' sl sl' ?_) (q.trans q'.symm)
  rw [q] at m
  rw [q'] at m'
  simp only [flux] at m m'
  rw [q] at m
  rw [q'] at m'
  rw [sub_div, sub_div, mul_div_assoc (dx / 2), mul_div_assoc (dx / 2)]
  linarith

theorem right_unique {d k : ℝ} (hp : RealPipe d k) {t0 t1 dx : ℝ} (ht : t0 < t1) (hdx : 0 < dx) {l r r' : ℝ × ℝ}
    (hr : 0 < r.1) (hr' : 0 < r'.1)
    (sr : (rho0 / circleArea (0.5 * d) * l.2 * l.2 + dx / 2 * fric d k l.2) / r.1 ^ 2 <
      circleArea (0.5 * d) / rho0 * dp r.1)
    (sr' : (rho0 / circleArea (0.5 * d) * l.2 * l.2 + dx / 2 * fric d k l.2) / r'.1 ^ 2 <
      circleArea (0.5 * d) / rho0 * dp r'.1)
    (h : evaluatePoint (eulerLaw d k) t0 t1 dx l r l r = Res.ok 0)
    (h' : evaluatePoint (eulerLaw d k) t0 t1 dx l r' l r' = Res.ok 0) : r = r' := by
  obtain ⟨q, m⟩ := (cell_iff hp ht hdx _ _).mp h
  obtain ⟨q', m'⟩ := (cell_iff hp ht hdx _ _).mp h'
  refine Prod.ext (bernoulli_inj (ratio_pos hp.pos) hr hr' sr sr' ?_) (q.symm.trans q')
  rw [← q] at m
  rw [← q'] at m'
  simp only [flux] at m m'
  rw [← q] at m
  rw [← q'] at m'
  rw [add_div, add_div, mul_div_assoc (dx / 2), mul_div_assoc (dx / 2)]
  linarith

theorem p_inj {x y : ℝ} (hx : 0 < x) (hy : 0 < y) (h : p x = p y) : x = y := by
  rcases lt_trichotomy x y with h' | h' | h'
  · exact absurd h (p_lt hx h').ne
  · exact h'
  · exact absurd h (p_lt hy h').ne'

/-- Specification: a state of a pipe with `N` cells of width `dx` that solves the equations of every time step, with
positive densities. -/
structure Stationary (d k dx : ℝ) (N : ℕ) (u : ℕ → ℝ × ℝ) : Prop where
  pos : ∀ i ≤ N, 0 < (u i).1
  solves : ∀ i < N, ∀ t0 t1, t0 < t1 →
    evaluatePoint (eulerLaw d k) t0 t1 dx (u i) (u (i + 1)) (u i) (u (i + 1)) = Res.ok 0

theorem Stationary.flow {d k dx : ℝ} (hp : RealPipe d k) (hdx : 0 < dx) {N : ℕ} {u : ℕ → ℝ × ℝ}
    (h : Stationary d k dx N u) : ∀ i ≤ N, (u i).2 = (u 0).2 := by
  intro i
  induction i with
  | zero => intro; rfl
  | succ i ih =>
    intro hi
    have := ((cell_iff hp zero_lt_one hdx _ _).mp (h.solves i (by omega) 0 1 zero_lt_one)).1
    rw [← this]; exact ih (by omega)

theorem weaken {b f x A : ℝ} (hf : 0 ≤ f) (h : b / x ^ 2 < A) : (b - f) / x ^ 2 < A :=
  lt_of_le_of_lt (div_le_div_of_nonneg_right (by linarith) (sq_nonneg x)) h

/-- The end of a pipe on the right determines it, if the gas flows to the right. -/
theorem right_end {d k : ℝ} (hp : RealPipe d k) {dx : ℝ} (hdx : 0 < dx) {N : ℕ} {u v : ℕ → ℝ × ℝ}
    (hu : Stationary d k dx N u) (hv : Stationary d k dx N v)
    (su : ∀ i ≤ N, Subsonic d (u i)) (sv : ∀ i ≤ N, Subsonic d (v i)) (hq : 0 ≤ (u N).2) (e : u N = v N) :
    ∀ i ≤ N, u i = v i := by
  have key : ∀ j ≤ N, u (N - j) = v (N - j) := by
    intro j
    induction j with
    | zero => intro; exact e
    | succ j ih =>
      intro hj
      have e1 := ih (by omega)
      have hs : N - j = N - (j + 1) + 1 := by omega
      have h1 := hu.solves (N - (j + 1)) (by omega) 0 1 zero_lt_one
      have h2 := hv.solves (N - (j + 1)) (by omega) 0 1 zero_lt_one
      rw [← hs] at h1 h2
      rw [← e1] at h2
      have f0 : (u (N - j)).2 = (u N).2 := by
        rw [hu.flow hp hdx _ (by omega), hu.flow hp hdx N le_rfl]
      have fu : (u (N - (j + 1))).2 = (u (N - j)).2 := ((cell_iff hp zero_lt_one hdx _ _).mp h1).1
      have fv : (v (N - (j + 1))).2 = (u (N - j)).2 := ((cell_iff hp zero_lt_one hdx _ _).mp h2).1
      have hf : 0 ≤ dx / 2 * fric d k (u (N - j)).2 :=
        mul_nonneg (by linarith) (fric_nonneg hp (by rw [f0]; exact hq))
      have s1 := su (N - (j + 1)) (by omega)
      have s2 := sv (N - (j + 1)) (by omega)
      rw [← Prod.mk.eta (p := u (N - (j + 1))), fu, subsonic_iff hp.pos (hu.pos _ (by omega))] at s1
      rw [← Prod.mk.eta (p := v (N - (j + 1))), fv, subsonic_iff hp.pos (hv.pos _ (by omega))] at s2
      exact left_unique hp zero_lt_one hdx (hu.pos _ (by omega)) (hv.pos _ (by omega)) (weaken hf s1) (weaken hf s2)
        h1 h2
  intro i hi
  have := key (N - i) (by omega)
  rwa [Nat.sub_sub_self hi] at this

/-- The end of a pipe on the left determines it, if the gas flows to the left. -/
theorem left_end {d k : ℝ} (hp : RealPipe d k) {dx : ℝ} (hdx : 0 < dx) {N : ℕ} {u v : ℕ → ℝ × ℝ}
    (hu : Stationary d k dx N u) (hv : Stationary d k dx N v)
    (su : ∀ i ≤ N, Subsonic d (u i)) (sv : ∀ i ≤ N, Subsonic d (v i)) (hq : (u 0).2 ≤ 0) (e : u 0 = v 0) :
    ∀ i ≤ N, u i = v i := by
  intro i
  induction i with
  | zero => intro; exact e
  | succ i ih =>
    intro hi
    have e1 := ih (by omega)
    have h1 := hu.solves i (by omega) 0 1 zero_lt_one
    have h2 := hv.solves i (by omega) 0 1 zero_lt_one
    rw [← e1] at h2
    have f0 : (u i).2 = (u 0).2 := hu.flow hp hdx _ (by omega)
    have fu : (u i).2 = (u (i + 1)).2 := ((cell_iff hp zero_lt_one hdx _ _).mp h1).1
    have fv : (u i).2 = (v (i + 1)).2 := ((cell_iff hp zero_lt_one hdx _ _).mp h2).1
    have hf : 0 ≤ -(dx / 2 * fric d k (u i).2) := by
      have := fric_nonpos hp (q := (u i).2) (by rw [f0]; exact hq)
      have := mul_nonneg (a := dx / 2) (b := -fric d k (u i).2) (by linarith) (by linarith)
      linarith
    have s1 := su (i + 1) hi
    have s2 := sv (i + 1) hi
    rw [← Prod.mk.eta (p := u (i + 1)), ← fu, subsonic_iff hp.pos (hu.pos _ hi)] at s1
    rw [← Prod.mk.eta (p := v (i + 1)), ← fv, subsonic_iff hp.pos (hv.pos _ hi)] at s2
    have s1 := weaken hf s1
    have s2 := weaken hf s2
    rw [sub_neg_eq_add] at s1 s2
    exact right_unique hp zero_lt_one hdx (hu.pos _ hi) (hv.pos _ hi) s1 s2 h1 h2

/-- C165. Two stationary states of a pipe, both slower than sound at every point: if the flow and the pressure at the
end to which the gas flows are the same in both, then the whole states are the same, at every point. Without flow
either end will do. -/
theorem C165 {d k : ℝ} (hp : RealPipe d k) {dx : ℝ} (hdx : 0 < dx) {N : ℕ} {u v : ℕ → ℝ × ℝ}
    (hu : Stationary d k dx N u) (hv : Stationary d k dx N v)
    (su : ∀ i ≤ N, Subsonic d (u i)) (sv : ∀ i ≤ N, Subsonic d (v i)) :
    (0 ≤ (u N).2 → (u N).2 = (v N).2 → p (u N).1 = p (v N).1 → ∀ i ≤ N, u i = v i) ∧
    ((u 0).2 ≤ 0 → (u 0).2 = (v 0).2 → p (u 0).1 = p (v 0).1 → ∀ i ≤ N, u i = v i) :=
  ⟨fun hq e2 e1 => right_end hp hdx hu hv su sv hq
      (Prod.ext (p_inj (hu.pos N le_rfl) (hv.pos N le_rfl) e1) e2),
    fun hq e2 e1 => left_end hp hdx hu hv su sv hq
      (Prod.ext (p_inj (hu.pos 0 (Nat.zero_le _)) (hv.pos 0 (Nat.zero_le _)) e1) e2)⟩

/-- A pipe of one cell with flow from density 2 to density 1 meets the hypotheses of `C165`. -/
example : ∃ dx u, 0 < dx ∧ Stationary 1 0 dx 1 u ∧ (∀ i ≤ 1, Subsonic 1 (u i)) ∧ 0 < (u 1).2 ∧ u 0 ≠ u 1 := by
  obtain ⟨dx, h0, h⟩ := exists_width (d := 1) (k := 0) (by constructor <;> norm_num) one_pos (y := 2) (by norm_num)
    (by norm_num : (0 : ℝ) < 1 / 1000) (subsonic_small le_rfl (by norm_num)) (subsonic_small (by norm_num) le_rfl)
  refine ⟨dx, fun i => if i = 0 then (2, 1 / 1000) else (1, 1 / 1000), h0, ⟨?_, ?_⟩, ?_, ?_, ?_⟩
  · intro i _; split <;> norm_num
  · intro i hi t0 t1 _
    obtain rfl : i = 0 := by omega
    simpa using h t0 t1
  · intro i _
    beta_reduce
    split
    · exact subsonic_small (by norm_num) le_rfl
    · exact subsonic_small le_rfl (by norm_num)
  · norm_num
  · norm_num

/-! ## From the end from which the gas comes -/

/-- Specification: the gas is slower than sound with something to spare: to the square of its velocity is added the
friction over half a cell, by which the scheme replaces the derivative of the pressure at a point. -/
def Slow (d k dx : ℝ) (st : ℝ × ℝ) : Prop :=
  ∀ s, Euler.source d k st = Res.ok (0, s) →
    (rho0 * st.2 / (st.1 * circleArea (0.5 * d))) ^ 2 + rho0 / circleArea (0.5 * d) * (dx / 2 * |s|) / st.1 < dp st.1

theorem slow_iff' {d k dx : ℝ} (hp : RealPipe d k) {x q : ℝ} (hx : 0 < x) : Slow d k dx (x, q) ↔
    (rho0 / circleArea (0.5 * d) * q * q + dx / 2 * |fric d k q|) / x ^ 2 < circleArea (0.5 * d) / rho0 * dp x := by
  have hA := area_pos hp.pos
  have hρ : 0 < rho0 := by unfold rho0; norm_num
  have h : Slow d k dx (x, q) ↔ (rho0 * q / (x * circleArea (0.5 * d))) ^ 2 +
      rho0 / circleArea (0.5 * d) * (dx / 2 * |-(fric d k q / x)|) / x < dp x := by
    unfold Slow
    rw [source_eq hp]
    exact ⟨fun h => h _ rfl, fun h s hs => by injection hs with hs; injection hs with _ hs; rw [← hs]; exact h⟩
  have e : (rho0 / circleArea (0.5 * d) * q * q + dx / 2 * |fric d k q|) / x ^ 2 =
      circleArea (0.5 * d) / rho0 * ((rho0 * q / (x * circleArea (0.5 * d))) ^ 2 +
        rho0 / circleArea (0.5 * d) * (dx / 2 * |-(fric d k q / x)|) / x) := by
    rw [abs_neg, abs_div, abs_of_pos hx]
    field_simp
  rw [h, e]
  exact (mul_lt_mul_iff_right₀ (ratio_pos hp.pos)).symm

theorem slow_iff {d k dx : ℝ} (hp : RealPipe d k) {x q : ℝ} (hx : 0 < x) (h : Slow d k dx (x, q)) :
    (rho0 / circleArea (0.5 * d) * q * q + dx / 2 * |fric d k q|) / x ^ 2 < circleArea (0.5 * d) / rho0 * dp x :=
  (slow_iff' hp hx).mp h

/-- C166, the part that holds. Two stationary states of a pipe that are slower than sound with the friction over half a
cell to spare: if the flow and the pressure at either end are the same in both, also at the end from which the gas
comes, then the whole states are the same, at every point. -/
theorem C166_partial {d k : ℝ} (hp : RealPipe d k) {dx : ℝ} (hdx : 0 < dx) {N : ℕ} {u v : ℕ → ℝ × ℝ}
    (hu : Stationary d k dx N u) (hv : Stationary d k dx N v)
    (su : ∀ i ≤ N, Slow d k dx (u i)) (sv : ∀ i ≤ N, Slow d k dx (v i)) :
    ((u 0).2 = (v 0).2 → p (u 0).1 = p (v 0).1 → ∀ i ≤ N, u i = v i) ∧
    ((u N).2 = (v N).2 → p (u N).1 = p (v N).1 → ∀ i ≤ N, u i = v i) := by
  have bound : ∀ {b f x A : ℝ}, (b + dx / 2 * |f|) / x ^ 2 < A →
      (b + dx / 2 * f) / x ^ 2 < A ∧ (b - dx / 2 * f) / x ^ 2 < A := by
    intro b f x A h
    have h1 := mul_le_mul_of_nonneg_left (le_abs_self f) (by linarith : 0 ≤ dx / 2)
    have h2 := mul_le_mul_of_nonneg_left (neg_le_abs f) (by linarith : 0 ≤ dx / 2)
    exact ⟨lt_of_le_of_lt (div_le_div_of_nonneg_right (by linarith) (sq_nonneg x)) h,
      lt_of_le_of_lt (div_le_div_of_nonneg_right (by linarith) (sq_nonneg x)) h⟩
  constructor
  · intro e2 e1 i
    induction i with
    | zero => intro; exact Prod.ext (p_inj (hu.pos 0 (Nat.zero_le _)) (hv.pos 0 (Nat.zero_le _)) e1) e2
    | succ i ih =>
      intro hi
      have e1 := ih (by omega)
      have h1 := hu.solves i (by omega) 0 1 zero_lt_one
      have h2 := hv.solves i (by omega) 0 1 zero_lt_one
      rw [← e1] at h2
      have fu : (u i).2 = (u (i + 1)).2 := ((cell_iff hp zero_lt_one hdx _ _).mp h1).1
      have fv : (u i).2 = (v (i + 1)).2 := ((cell_iff hp zero_lt_one hdx _ _).mp h2).1
      have s1 := su (i + 1) hi
      have s2 := sv (i + 1) hi
      rw [← Prod.mk.eta (p := u (i + 1)), ← fu] at s1
      rw [← Prod.mk.eta (p := v (i + 1)), ← fv] at s2
      exact right_unique hp zero_lt_one hdx (hu.pos _ hi) (hv.pos _ hi) (bound (slow_iff hp (hu.pos _ hi) s1)).1
        (bound (slow_iff hp (hv.pos _ hi) s2)).1 h1 h2
  · intro e2 e1
    have key : ∀ j ≤ N, u (N - j) = v (N - j) := by
      intro j
      induction j with
      | zero => intro; exact Prod.ext (p_inj (hu.pos N le_rfl) (hv.pos N le_rfl) e1) e2
      | succ j ih =>
        intro hj
        have e1 := ih (by omega)
        have hs : N - j = N - (j + 1) + 1 := by omega
        have h1 := hu.solves (N - (j + 1)) (by omega) 0 1 zero_lt_one
        have h2 := hv.solves (N - (j + 1)) (by omega) 0 1 zero_lt_one
        rw [← hs] at h1 h2
        rw [← e1] at h2
        have fu : (u (N - (j + 1))).2 = (u (N - j)).2 := ((cell_iff hp zero_lt_one hdx _ _).mp h1).1
        have fv : (v (N - (j + 1))).2 = (u (N - j)).2 := ((cell_iff hp zero_lt_one hdx _ _).mp h2).1
        have s1 := su (N - (j + 1)) (by omega)
        have s2 := sv (N - (j + 1)) (by omega)
        rw [← Prod.mk.eta (p := u (N - (j + 1))), fu] at s1
        rw [← Prod.mk.eta (p := v (N - (j + 1))), fv] at s2
        exact left_unique hp zero_lt_one hdx (hu.pos _ (by omega)) (hv.pos _ (by omega))
          (bound (slow_iff hp (hu.pos _ (by omega)) s1)).2 (bound (slow_iff hp (hv.pos _ (by omega)) s2)).2 h1 h2
    intro i hi
    have := key (N - i) (by omega)
    rwa [Nat.sub_sub_self hi] at this

/-- With a suitable width of the cells the friction over half a cell takes any positive value. -/
theorem exists_dx {d k : ℝ} (hp : RealPipe d k) {q E : ℝ} (hq : 0 < q) (hE : 0 < E) :
    ∃ dx, 0 < dx ∧ dx / 2 * fric d k q = E := by
  have hf := fric_pos hp hq
  exact ⟨2 * E / fric d k q, by positivity, by field_simp⟩

theorem cell_of {d k : ℝ} (hp : RealPipe d k) {dx : ℝ} (hdx : 0 < dx) {q x y : ℝ}
    (h : circleArea (0.5 * d) / rho0 * p y +
        (rho0 / circleArea (0.5 * d) * q * q + dx / 2 * fric d k q) / y =
      circleArea (0.5 * d) / rho0 * p x +
        (rho0 / circleArea (0.5 * d) * q * q - dx / 2 * fric d k q) / x) (t0 t1 : ℝ) (ht : t0 < t1) :
    evaluatePoint (eulerLaw d k) t0 t1 dx (x, q) (y, q) (x, q) (y, q) = Res.ok 0 := by
  rw [cell_iff hp ht hdx]
  refine ⟨rfl, ?_⟩
  simp only [flux]
  rw [add_div, sub_div, mul_div_assoc (dx / 2), mul_div_assoc (dx / 2)] at h
  linarith

theorem beta_range : 0 < -(alpha * cVac) ∧ -(alpha * cVac) < 1 / 200 := by
  unfold alpha cVac pcrit Tcrit p0 T z0 T0 rho0 bar
  constructor <;> norm_num

theorem frac_range {β x : ℝ} (h0 : 0 < β) (h1 : β < 1 / 200) (hx : 0 < x) :
    x / (1 + x / 200) < x / (1 + β * x) ∧ x / (1 + β * x) < x := by
  have : 0 < β * x := mul_pos h0 hx
  constructor
  · apply div_lt_div_of_pos_left hx (by linarith); nlinarith
  · rw [div_lt_iff₀ (by linarith)]; nlinarith

/-- A small flow from density 2 to density 1 in one cell leaves enough to spare. -/
theorem slow_small {dx : ℝ} (hdx : 0 < dx)
    (h : evaluatePoint (eulerLaw 1 0) 0 60 dx (2, 1 / 1000) (1, 1 / 1000) (2, 1 / 1000) (1, 1 / 1000) = Res.ok 0) :
    Slow 1 0 dx (2, 1 / 1000) ∧ Slow 1 0 dx (1, 1 / 1000) := by
  have hp : RealPipe 1 0 := by constructor <;> norm_num
  have hA := area_pos (d := 1) one_pos
  have hρ : 0 < rho0 := by unfold rho0; norm_num
  have hc : 1000 < cVac := by unfold cVac p0 T z0 T0 rho0 bar; norm_num
  have ha := ratio_pos (d := 1) one_pos
  obtain ⟨b0, b1⟩ := beta_range
  set β := -(alpha * cVac) with hβ
  have hP : ∀ x, p x = cVac * (x / (1 + β * x)) := by
    intro x; unfold p
    rw [show 1 - alpha * cVac * x = 1 + β * x by rw [hβ]; ring]; ring
  have hD : ∀ x, 0 < x → dp x = cVac * ((x / (1 + β * x)) / x) ^ 2 := by
    intro x hx; unfold dp
    rw [show 1 - alpha * cVac * x = 1 + β * x by rw [hβ]; ring]
    have : 0 < 1 + β * x := by positivity
    field_simp
  obtain ⟨l1, u1⟩ := frac_range b0 b1 (x := 1) one_pos
  obtain ⟨l2, u2⟩ := frac_range b0 b1 (x := 2) two_pos
  have hq : (0 : ℝ) < 1 / 1000 := by norm_num
  have hf := fric_pos hp hq
  have m := ((cell_iff hp (by norm_num) hdx _ _).mp h).2
  simp only [flux] at m
  rw [hP, hP] at m
  set P1 := 1 / (1 + β * 1) with hP1
  set P2 := 2 / (1 + β * 2) with hP2
  norm_num at l1 l2
  set a := circleArea (0.5 * 1) / rho0 with ha'
  set E := dx / 2 * fric 1 0 (1 / 1000) with hEdef
  set B := rho0 / circleArea (0.5 * 1) * (1 / 1000) * (1 / 1000) with hB
  have hE : 0 < E := by positivity
  have hB0 : 0 < B := by positivity
  have hB1 : B ≤ a := by
    rw [hB, ha']
    have h1 : rho0 ≤ circleArea (0.5 * 1) * 1000 := by unfold rho0 circleArea Pi; norm_num
    rw [show rho0 / circleArea (0.5 * 1) * (1 / 1000) * (1 / 1000) = rho0 / (circleArea (0.5 * 1) * 1000) / 1000 by ring]
    have h2 : rho0 / (circleArea (0.5 * 1) * 1000) ≤ 1 := by rw [div_le_one (by positivity)]; exact h1
    have h3 : 1 / 1000 ≤ circleArea (0.5 * 1) / rho0 := by
      rw [le_div_iff₀ hρ]; linarith
    linarith
  have m' : a * cVac * (P2 - P1) = 3 / 2 * E + B / 2 := by
    linear_combination -m
  have hac : 1000 * a < a * cVac := by nlinarith
  have bound : B + E < 0.7 * (a * cVac) := by
    have : a * cVac * (P2 - P1) < a * cVac * (2 - 200 / 201) := by
      apply mul_lt_mul_of_pos_left _ (by positivity); linarith
    nlinarith
  have goal : ∀ x, (x = 1 ∨ x = 2) → Slow 1 0 dx (x, 1 / 1000) := by
    intro x hx
    have hx0 : 0 < x := by rcases hx with rfl | rfl <;> norm_num
    rw [slow_iff' hp hx0, abs_of_pos hf, hD x hx0, ← ha', ← hEdef, ← hB, div_pow, ← mul_assoc, ← mul_div_assoc,
      div_lt_div_iff_of_pos_right (by positivity)]
    refine lt_of_lt_of_le bound ?_
    rw [mul_comm]
    refine mul_le_mul_of_nonneg_left ?_ (by positivity)
    rcases hx with rfl | rfl
    · rw [← hP1]; nlinarith
    · rw [← hP2]; nlinarith
  exact ⟨goal 2 (Or.inr rfl), goal 1 (Or.inl rfl)⟩

/-- A pipe of one cell with flow from density 2 to density 1 meets the hypotheses of `C166_partial`. -/
example : ∃ dx u, 0 < dx ∧ Stationary 1 0 dx 1 u ∧ (∀ i ≤ 1, Slow 1 0 dx (u i)) ∧ 0 < (u 0).2 ∧ u 0 ≠ u 1 := by
  obtain ⟨dx, h0, h⟩ := exists_width (d := 1) (k := 0) (by constructor <;> norm_num) one_pos (y := 2) (by norm_num)
    (by norm_num : (0 : ℝ) < 1 / 1000) (subsonic_small le_rfl (by norm_num)) (subsonic_small (by norm_num) le_rfl)
  obtain ⟨s2, s1⟩ := slow_small h0 (h 0 60)
  refine ⟨dx, fun i => if i = 0 then (2, 1 / 1000) else (1, 1 / 1000), h0, ⟨?_, ?_⟩, ?_, ?_, ?_⟩
  · intro i _; split <;> norm_num
  · intro i hi t0 t1 _
    obtain rfl : i = 0 := by omega
    simpa using h t0 t1
  · intro i _
    beta_reduce
    split
    · exact s2
    · exact s1
  · norm_num
  · norm_num

/-- C166 fails for long cells: in a pipe of one cell there are a flow and a pressure of supply for which the equations
have two stationary states, both slower than sound, with different pressures at the end to which the gas flows. -/
theorem C166_false : ∃ d k dx u v, RealPipe d k ∧ 0 < dx ∧ Stationary d k dx 1 u ∧ Stationary d k dx 1 v ∧
    (∀ i ≤ 1, Subsonic d (u i)) ∧ (∀ i ≤ 1, Subsonic d (v i)) ∧ 0 < (u 0).2 ∧ u 0 = v 0 ∧
    p (u 1).1 ≠ p (v 1).1 := by
  have hp : RealPipe 1 0 := by constructor <;> norm_num
  have hA := area_pos (d := 1) one_pos
  have hρ : 0 < rho0 := by unfold rho0; norm_num
  have hc := cVac_pos
  have ha := ratio_pos (d := 1) one_pos
  obtain ⟨b0, b1⟩ := beta_range
  set β := -(alpha * cVac) with hβ
  have hP : ∀ x, p x = cVac * (x / (1 + β * x)) := by
    intro x; unfold p
    rw [show 1 - alpha * cVac * x = 1 + β * x by rw [hβ]; ring]; ring
  have hD : ∀ x, 0 < x → dp x = cVac * ((x / (1 + β * x)) / x) ^ 2 := by
    intro x hx; unfold dp
    rw [show 1 - alpha * cVac * x = 1 + β * x by rw [hβ]; ring]
    have : 0 < 1 + β * x := by positivity
    field_simp
  obtain ⟨l1, u1⟩ := frac_range b0 b1 (x := 1) one_pos
  obtain ⟨l2, u2⟩ := frac_range b0 b1 (x := 2) two_pos
  obtain ⟨l3, u3⟩ := frac_range b0 b1 (x := 7 / 2) (by norm_num)
  have hS : 2 / (1 + β * 2) - 1 / (1 + β * 1) = 1 / (1 + β * 1) * (2 / (1 + β * 2)) / 2 := by
    have : 0 < 1 + β * 1 := by positivity
    have : 0 < 1 + β * 2 := by positivity
    field_simp; ring
  set P1 := 1 / (1 + β * 1) with hP1
  set P2 := 2 / (1 + β * 2) with hP2
  set P3 := 7 / 2 / (1 + β * (7 / 2)) with hP3
  norm_num at l1 l2 l3
  set a := circleArea (0.5 * 1) / rho0 with ha'
  -- the sum and the difference of momentum and friction
  set S := P1 * P2 with hSdef
  have S0 : 1.97 < S := by rw [hSdef]; nlinarith
  have S1 : S < 2 := by rw [hSdef]; nlinarith
  set D := 7 / 2 * (P1 + S - P3) with hDdef
  have D0 : -1.9 < D := by rw [hDdef]; linarith
  have D1 : D < -1.5 := by rw [hDdef]; linarith
  have hb : 0 < a * cVac * ((S + D) / 2) := by
    have : 0 < (S + D) / 2 := by linarith
    positivity
  have hE : 0 < a * cVac * ((S - D) / 2) := by
    have : 0 < (S - D) / 2 := by linarith
    positivity
  set q := Real.sqrt (a * (a * cVac * ((S + D) / 2))) with hq'
  have hq : 0 < q := Real.sqrt_pos.mpr (by positivity)
  have hqq : rho0 / circleArea (0.5 * 1) * q * q = a * cVac * ((S + D) / 2) := by
    rw [mul_assoc, ← sq, hq', Real.sq_sqrt (by positivity), ← mul_assoc, ha']
    rw [div_mul_div_cancel₀ hA.ne', div_self hρ.ne', one_mul]
  obtain ⟨dx, hdx, hf⟩ := exists_dx hp hq hE
  have sub : ∀ x, (x = 1 ∨ x = 2 ∨ x = 7 / 2) → Subsonic 1 (x, q) := by
    intro x hx
    have hx0 : 0 < x := by rcases hx with rfl | rfl | rfl <;> norm_num
    rw [subsonic_iff one_pos hx0, hqq, hD x hx0, ← ha', mul_assoc, mul_div_assoc, mul_lt_mul_iff_right₀ ha,
      mul_div_assoc, mul_lt_mul_iff_right₀ hc, div_pow, div_lt_div_iff_of_pos_right (by positivity)]
    rcases hx with rfl | rfl | rfl
    · rw [← hP1]; nlinarith
    · rw [← hP2]; nlinarith
    · rw [← hP3]; nlinarith
  refine ⟨1, 0, dx, fun i => if i = 0 then (7 / 2, q) else (1, q), fun i => if i = 0 then (7 / 2, q) else (2, q), hp,
    hdx, ⟨?_, ?_⟩, ⟨?_, ?_⟩, ?_, ?_, hq, rfl, ?_⟩
  · intro i _; split <;> norm_num
  · intro i hi t0 t1 ht
    obtain rfl : i = 0 := by omega
    refine cell_of hp hdx ?_ t0 t1 ht
    rw [hqq, hf, hP, hP, ← hP1, ← hP3, ← ha']
    linear_combination (a * cVac * 2 / 7) * hDdef
  · intro i _; split <;> norm_num
  · intro i hi t0 t1 ht
    obtain rfl : i = 0 := by omega
    refine cell_of hp hdx ?_ t0 t1 ht
    rw [hqq, hf, hP, hP, ← hP2, ← hP3, ← ha']
    linear_combination (a * cVac * 2 / 7) * hDdef + (a * cVac) * hS
  · intro i _
    beta_reduce
    split
    · exact sub _ (by norm_num)
    · exact sub _ (by norm_num)
  · intro i _
    beta_reduce
    split
    · exact sub _ (by norm_num)
    · exact sub _ (by norm_num)
  · exact (p_lt one_pos (by norm_num : (1 : ℝ) < 2)).ne

end Verif.Box
