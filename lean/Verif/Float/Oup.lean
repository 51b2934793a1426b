import Verif.Float.Grid
import Verif.Stochastic.Props

/-!
# Property C139: the program that simulates an Ornstein-Uhlenbeck process

Source: `/repo/helper_functions/oup.cpp`. The times are modelled in rounded arithmetic; without rounding they come together with the
values, which are modelled in `Verif.Stochastic`.
-/

set_option autoImplicit false
set_option linter.unusedSectionVars false

namespace Verif.Float

open Verif.Interp Verif.Stochastic

variable {K : Type} [Field K] [LinearOrder K] [IsStrictOrderedRing K] [FloorRing K]

/-! ## Model -/

/-- `compute_stable_number_of_oup_steps` — `Stochastic.cpp` 23-51 in rounded arithmetic, if one step is wished. -/
def stableSteps (R : Rounding K) (a theta dt : K) : Res ℤ :=
  if a ≤ 0 ∨ a ≥ 2 then Res.throws
  else if theta < 0 then Res.throws
  else if R.mul theta (R.div dt 1) ≥ a then
    if ⌈R.div (R.mul theta dt) a⌉ + 1 ≤ intMax then Res.ok (⌈R.div (R.mul theta dt) a⌉ + 1) else Res.ub
  else Res.ok 1

/-- `static_cast<int>` of a number, for a loop that counts up to the result with `!=`: undefined if the number is no `int`, or
negative, as the counter overflows then — `oup.cpp` 49-50 and 60. -/
def loopCount (x : K) : Res ℕ :=
  if x < 0 then (if ⌈x⌉ = 0 then Res.ok 0 else Res.ub)
  else if ⌊x⌋ ≤ intMax then Res.ok ⌊x⌋.toNat else Res.ub

/-- The times — `oup.cpp` 38-61: the number of steps of the process, the step of time and the times that are written. For
zero time steps, a division by zero, the behaviour counts as undefined (it is defined if `theta` is zero). -/
def oupTimes (R : Rounding K) (a theta start stop : K) (steps : ℤ) : Res (ℤ × K × List K) :=
  if steps = 0 then Res.ub
  else do
    let candidate := R.div (R.sub stop start) (R.rnd steps)
    let m ← stableSteps R a theta candidate
    let dt := R.div candidate (R.rnd m)
    let n ← loopCount (R.div (R.sub stop start) dt)
    Res.ok (m, dt, points R start dt (n + 1))

/-- The loop over the times after the first — `oup.cpp` 60-66. -/
noncomputable def oupRows {State : Type} (sample : ℝ → State → Res (ℝ × State)) (a factor theta mu dt sigma : ℝ) (m : ℤ) :
    List ℝ → ℝ → State → Res (List (ℝ × ℝ))
  | [], _, _ => Res.ok []
  | t :: ts, last, s => do
    let (value, s') ← oup sample a factor last theta mu dt sigma m s
    let rows ← oupRows sample a factor theta mu dt sigma m ts value s'
    Res.ok ((t, value) :: rows)

/-- The program without rounding — `oup.cpp` 20-68: the rows of the file, each with a time and a value. -/
noncomputable def oupProgram {State : Type} (sample : ℝ → State → Res (ℝ × State))
    (start stop : ℝ) (steps : ℤ) (mu theta sigma a factor : ℝ) (s : State) : Res (List (ℝ × ℝ)) := do
  let (m, dt, times) ← oupTimes (Rounding.exact ℝ) a theta start stop steps
  match times with
  | [] => Res.ub
  | t :: ts => do
    let rows ← oupRows sample a factor theta mu dt sigma m ts mu s
    Res.ok ((t, mu) :: rows)

/-! ## Proofs -/

theorem stableSteps_pos {R : Rounding K} {a theta dt : K} {m : ℤ} (hdt : 0 ≤ dt) (h : stableSteps R a theta dt = Res.ok m) :
    0 < m ∧ m ≤ intMax ∧ 0 < a ∧ a < 2 ∧ 0 ≤ theta := by
  unfold stableSteps at h
  split_ifs at h with h1 h2 h3 h4
  · push Not at h1 h2
    injection h with h
    subst h
    have : 0 ≤ ⌈R.div (R.mul theta dt) a⌉ :=
      Int.ceil_nonneg (R.nonneg (div_nonneg (R.nonneg (mul_nonneg h2 hdt)) h1.1.le))
    exact ⟨by omega, h4, h1.1, h1.2, h2⟩
  · push Not at h1 h2
    injection h with h
    subst h
    exact ⟨by norm_num, by decide, h1.1, h1.2, h2⟩

/-- Without rounding it is the function of the model of stochastic demands. -/
theorem stableSteps_exact (a theta dt : ℝ) : stableSteps (Rounding.exact ℝ) a theta dt = stableNumber a theta dt 1 := by
  unfold stableSteps stableNumber unstable ceilPlusOne
  simp only [Rounding.exact, Rounding.mul, Rounding.div, id]
  norm_num
  split_ifs <;> first | rfl | exact if_pos ‹_› | exact if_neg ‹_›

/-- The relative error of a positive number. -/
theorem rnd_between (R : Rounding K) {x : K} (hx : 0 ≤ x) : (1 - R.unit) * x ≤ R.rnd x ∧ R.rnd x ≤ (1 + R.unit) * x := by
  have := abs_le.mp (R.error x)
  rw [abs_of_nonneg hx] at this
  constructor <;> linarith [this.1, this.2]

/-- **C139 in rounded arithmetic**: for every start and end and every number of steps: if `int`s are exact and the numbers of
steps are not too large, the rows are at the times that arise from adding the step of time to the start, and their number is as expected or one less. -/
theorem C139_rounded {R : Rounding K} {a theta start stop : K} {steps m : ℤ} {dt : K} {times : List K} (hlt : start < stop)
    (hs : 0 < steps) (hsteps : steps ≤ intMax) (hrep : ∀ k : ℤ, 0 < k → k ≤ intMax → R.Rep (k : K)) (hu : R.unit ≤ 1 / 8)
    (h : oupTimes R a theta start stop steps = Res.ok (m, dt, times)) (hsmall : 4 * R.unit * (steps * m) < 1) :
    0 < m ∧ 0 < dt ∧ ∃ n : ℕ, times = points R start dt (n + 1) ∧ ((n : ℤ) = steps * m ∨ (n : ℤ) + 1 = steps * m) := by
  unfold oupTimes at h
  rw [if_neg hs.ne'] at h
  obtain ⟨m', hm', h⟩ := Res.bind_eq_ok.mp h
  obtain ⟨n, hn, h⟩ := Res.bind_eq_ok.mp h
  simp only [Res.ok.injEq, Prod.mk.injEq] at h
  obtain ⟨rfl, rfl, rfl⟩ := h
  have hD : 0 < R.sub stop start := R.pos (by linarith)
  have hsK : (0 : K) < steps := by exact_mod_cast hs
  rw [show R.rnd (steps : K) = steps from hrep steps hs hsteps] at hm' hn ⊢
  set D := R.sub stop start with hDd
  have hc : 0 < R.div D steps := R.pos (div_pos hD hsK)
  obtain ⟨hm0, hm1, -, -, -⟩ := stableSteps_pos hc.le hm'
  have hmK : (0 : K) < m' := by exact_mod_cast hm0
  rw [show R.rnd (m' : K) = m' from hrep m' hm0 hm1] at hn ⊢
  set c := R.div D steps with hcd
  have hdt : 0 < R.div c m' := R.pos (div_pos hc hmK)
  set dt := R.div c m' with hdtd
  refine ⟨hm0, hdt, n, rfl, ?_⟩
  -- the three relative errors
  have hu0 := R.unit_nonneg
  obtain ⟨c1, c2⟩ := rnd_between R (div_pos hD hsK).le
  obtain ⟨d1, d2⟩ := rnd_between R (div_pos hc hmK).le
  obtain ⟨q1, q2⟩ := rnd_between R (div_pos hD hdt).le
  change _ ≤ c at c1
  change c ≤ _ at c2
  change _ ≤ dt at d1
  change dt ≤ _ at d2
  change _ ≤ R.div D dt at q1
  change R.div D dt ≤ _ at q2
  set u := R.unit with hud
  have hN : (0 : K) < steps * m' := mul_pos hsK hmK
  have hlow : (1 - u) * (1 - u) * D ≤ dt * (steps * m') := by
    have e1 : (1 - u) * D ≤ c * steps := by
      rw [← mul_div_assoc, div_le_iff₀ hsK] at c1; exact c1
    have e2 : (1 - u) * c ≤ dt * m' := by
      rw [← mul_div_assoc, div_le_iff₀ hmK] at d1; exact d1
    have := mul_le_mul_of_nonneg_left e1 (by linarith : 0 ≤ 1 - u)
    have := mul_le_mul_of_nonneg_right e2 hsK.le
    linarith [this]
  have hupp : dt * (steps * m') ≤ (1 + u) * (1 + u) * D := by
    have e1 : c * steps ≤ (1 + u) * D := by
      rw [← mul_div_assoc, le_div_iff₀ hsK] at c2; exact c2
    have e2 : dt * m' ≤ (1 + u) * c := by
      rw [← mul_div_assoc, le_div_iff₀ hmK] at d2; exact d2
    have := mul_le_mul_of_nonneg_left e1 (by linarith : 0 ≤ 1 + u)
    have := mul_le_mul_of_nonneg_right e2 hsK.le
    linarith [this]
  -- the quotient
  have hqlow : (steps * m' : K) - 1 < R.div D dt := by
    refine lt_of_lt_of_le ?_ q1
    rw [← mul_div_assoc, lt_div_iff₀ hdt]
    have f1 : (1 - 3 * u) * ((1 + u) * (1 + u)) ≤ 1 - u := by nlinarith [mul_nonneg hu0 hu0, mul_nonneg hu0 (mul_nonneg hu0 hu0)]
    have f2 : (1 - 3 * u) * (dt * (steps * m')) ≤ (1 - u) * D := by
      have := mul_le_mul_of_nonneg_left hupp (by linarith : 0 ≤ 1 - 3 * u)
      have := mul_le_mul_of_nonneg_right f1 hD.le
      linarith
    have f3 : 3 * u * (steps * m') < 1 := by nlinarith [mul_nonneg hu0 hN.le]
    nlinarith
  have hqupp : R.div D dt < (steps * m' : K) + 1 := by
    refine lt_of_le_of_lt q2 ?_
    rw [← mul_div_assoc, div_lt_iff₀ hdt]
    have f1 : 1 + u ≤ (1 + 4 * u) * ((1 - u) * (1 - u)) := by
      nlinarith [mul_nonneg hu0 (mul_nonneg hu0 hu0), mul_nonneg hu0 (by linarith : 0 ≤ 1 / 8 - u)]
    have f2 : (1 + u) * D ≤ (1 + 4 * u) * (dt * (steps * m')) := by
      have := mul_le_mul_of_nonneg_left hlow (by linarith : 0 ≤ 1 + 4 * u)
      have := mul_le_mul_of_nonneg_right f1 hD.le
      linarith
    nlinarith
  have hq0 : 0 ≤ R.div D dt := (R.pos (div_pos hD hdt)).le
  unfold loopCount at hn
  rw [if_neg (not_lt.mpr hq0)] at hn
  split_ifs at hn with hmax
  injection hn with hn
  have hfl : 0 ≤ ⌊R.div D dt⌋ := Int.floor_nonneg.mpr hq0
  have g1 : steps * m' - 1 ≤ ⌊R.div D dt⌋ := by
    rw [Int.le_floor]; push_cast; exact hqlow.le
  have g2 : ⌊R.div D dt⌋ < steps * m' + 1 := by
    rw [Int.floor_lt]; push_cast; exact hqupp
  omega

/-- `double` meets the hypotheses: one row is missing or none, whenever there are fewer than 2^50 rows. -/
example {a theta start stop : ℚ} {steps m : ℤ} {dt : ℚ} {times : List ℚ} (hlt : start < stop) (hs : 0 < steps)
    (hsteps : steps ≤ intMax) (h : oupTimes binary64 a theta start stop steps = Res.ok (m, dt, times))
    (hsmall : steps * m < 2 ^ 50) : (times.length : ℤ) = steps * m ∨ (times.length : ℤ) = steps * m + 1 := by
  have hcast : ((steps : ℚ) * m) < 2 ^ 50 := by exact_mod_cast hsmall
  obtain ⟨-, -, n, rfl, hn⟩ := C139_rounded hlt hs hsteps (fun k hk hk' => by
      have := binary64_nat (n := k.toNat) (by unfold intMax at hk'; omega)
      rwa [show ((k.toNat : ℕ) : ℚ) = (k : ℚ) by
        exact_mod_cast congrArg (fun z : ℤ => (z : ℚ)) (Int.toNat_of_nonneg hk.le)] at this)
    (by norm_num [binary64]) h (by norm_num [binary64]; linarith)
  rw [points_length]
  push_cast
  omega

/-- Without rounding. -/
theorem oupTimes_exact {K : Type} [Field K] [LinearOrder K] [IsStrictOrderedRing K] [FloorRing K]
    {a theta start stop : K} {steps : ℤ} (hlt : start < stop) (hs : 0 < steps) :
    oupTimes (Rounding.exact K) a theta start stop steps = (do
      let m ← stableSteps (Rounding.exact K) a theta ((stop - start) / steps)
      if steps * m ≤ intMax then
        Res.ok (m, (stop - start) / (steps * m : ℤ),
          points (Rounding.exact K) start ((stop - start) / (steps * m : ℤ)) ((steps * m).toNat + 1))
      else Res.ub) := by
  have hsK : (0 : K) < steps := by exact_mod_cast hs
  have hD : 0 < stop - start := by linarith
  unfold oupTimes
  rw [if_neg hs.ne']
  simp only [Rounding.sub, Rounding.div, Rounding.exact, id]
  cases hm : stableSteps (Rounding.exact K) a theta ((stop - start) / steps) with
  | ok m =>
    have hm' := hm
    simp only [Rounding.exact] at hm'
    simp only [hm', Res.ok_bind]
    obtain ⟨hm0, -⟩ := stableSteps_pos (div_pos hD hsK).le hm
    have hmK : (0 : K) < m := by exact_mod_cast hm0
    have hq : (stop - start) / ((stop - start) / (steps : K) / (m : K)) = ((steps * m : ℤ) : K) := by
      push_cast; field_simp
    have hd : (stop - start) / (steps : K) / (m : K) = (stop - start) / (steps * m : ℤ) := by
      push_cast; field_simp
    have hp : 0 < steps * m := mul_pos hs hm0
    rw [hq, hd]
    unfold loopCount
    rw [if_neg (by push Not; exact_mod_cast hp.le), Int.floor_intCast]
    split_ifs with h
    · rfl
    · rfl
  | throws => simp only [Rounding.exact] at hm; simp only [hm]; rfl
  | ub => simp only [Rounding.exact] at hm; simp only [hm]; rfl

theorem point_exact {K : Type} [Field K] [LinearOrder K] [IsStrictOrderedRing K] (c d : K) (i : ℕ) :
    point (Rounding.exact K) c d i = c + i * d := by
  induction i with
  | zero => simp [point]
  | succ i ih =>
    unfold point at ih ⊢
    rw [Function.iterate_succ_apply', ih]
    simp only [Rounding.add, Rounding.exact, id]
    push_cast
    ring

theorem oupRows_spec {State : Type} {sample : ℝ → State → Res (ℝ × State)} {a factor theta mu dt sigma : ℝ} {m : ℤ}
    (hdt : 0 < dt) (hm : m ≠ 0) {ts : List ℝ} {last : ℝ} {s : State} {rows : List (ℝ × ℝ)}
    (h : oupRows sample a factor theta mu dt sigma m ts last s = Res.ok rows) :
    rows.map Prod.fst = ts ∧
      (mu ≠ 0 → ∀ row ∈ rows, row.2 ∈ Set.uIcc (mu * (1 - factor)) (mu * (1 + factor))) := by
  induction ts generalizing last s rows with
  | nil =>
    simp only [oupRows, Res.ok.injEq] at h
    subst h
    simp
  | cons t ts ih =>
    simp only [oupRows] at h
    obtain ⟨⟨value, s'⟩, hv, h⟩ := Res.bind_eq_ok.mp h
    obtain ⟨rows', hr, h⟩ := Res.bind_eq_ok.mp h
    injection h with h
    subst h
    obtain ⟨h1, h2⟩ := ih hr
    refine ⟨by simp [h1], fun hmu row hrow => ?_⟩
    rcases List.mem_cons.mp hrow with rfl | hrow
    · exact C59_within_partial hmu hdt hm hv
    · exact h2 hmu row hrow

/-- **C139 (partial)**: for every random sequence, every start before the end and every positive number of steps: when the program succeeds without
rounding, there is a number `m` of steps per time step such that the rows are at the `steps · m + 1` times that divide the time from the start to the
end evenly, both included; a step is short enough for the stability parameter; the first value is the mean, and all values are within the
cut off, unless the mean is zero or the cut off is negative. Missing is rounding: see `C139_rounded` and `C139_false`. -/
theorem C139_partial {State : Type} {sample : ℝ → State → Res (ℝ × State)} {start stop mu theta sigma a factor : ℝ} {steps : ℤ}
    {s : State} {rows : List (ℝ × ℝ)} (hlt : start < stop) (hs : 0 < steps)
    (h : oupProgram sample start stop steps mu theta sigma a factor s = Res.ok rows) :
    ∃ m : ℕ, 0 < m ∧ rows.length = steps.toNat * m + 1 ∧
      (∀ (k : ℕ) (row : ℝ × ℝ), rows[k]? = some row → row.1 = start + k * ((stop - start) / (steps * m))) ∧
      (rows.getLast?.map Prod.fst) = some stop ∧
      theta * ((stop - start) / (steps * m)) < a ∧
      (rows.head?.map Prod.snd) = some mu ∧
      (mu ≠ 0 → 0 ≤ factor → ∀ row ∈ rows, row.2 ∈ Set.uIcc (mu * (1 - factor)) (mu * (1 + factor))) := by
  unfold oupProgram at h
  rw [oupTimes_exact hlt hs] at h
  obtain ⟨⟨m, dt, times⟩, ht, h⟩ := Res.bind_eq_ok.mp h
  obtain ⟨m', hm', ht⟩ := Res.bind_eq_ok.mp ht
  split_ifs at ht with hmax
  simp only [Res.ok.injEq, Prod.mk.injEq] at ht
  obtain ⟨rfl, hdt, rfl⟩ := ht
  have hsK : (0 : ℝ) < steps := by exact_mod_cast hs
  have hD : 0 < stop - start := by linarith
  obtain ⟨hm0, -⟩ := stableSteps_pos (div_pos hD hsK).le hm'
  have hmK : (0 : ℝ) < m' := by exact_mod_cast hm0
  have hp : 0 < steps * m' := mul_pos hs hm0
  have hdt0 : 0 < dt := by rw [← hdt]; exact div_pos hD (by exact_mod_cast hp)
  simp only [points] at h
  obtain ⟨rows', hr, h⟩ := Res.bind_eq_ok.mp h
  injection h with h
  obtain ⟨hfst, hsnd⟩ := oupRows_spec hdt0 hm0.ne' hr
  have hall : rows.map Prod.fst = points (Rounding.exact ℝ) start dt ((steps * m').toNat + 1) := by
    rw [← h, List.map_cons, hfst, hdt]; rfl
  have hlen : rows.length = (steps * m').toNat + 1 := by
    rw [← List.length_map (f := Prod.fst), hall, points_length]
  have hmn : ((m'.toNat : ℕ) : ℝ) = (m' : ℝ) := by
    exact_mod_cast congrArg (fun z : ℤ => (z : ℝ)) (Int.toNat_of_nonneg hm0.le)
  have hdt' : dt = (stop - start) / (steps * (m'.toNat : ℕ)) := by
    rw [hmn, ← hdt]; push_cast; ring
  have hget : ∀ (k : ℕ) (row : ℝ × ℝ), rows[k]? = some row → row.1 = start + k * dt := by
    intro k row hrow
    have hk : k < (steps * m').toNat + 1 := by
      rw [← hlen]; exact (List.getElem?_eq_some_iff.mp hrow).1
    have : (rows.map Prod.fst)[k]? = some row.1 := by rw [List.getElem?_map, hrow]; rfl
    rw [hall, points_get _ _ _ hk, point_exact] at this
    injection this with this
    exact this.symm
  refine ⟨m'.toNat, by omega, ?_, ?_, ?_, ?_, ?_, ?_⟩
  · rw [hlen, Int.toNat_mul hs.le hm0.le]
  · rw [← hdt']; exact hget
  · rw [List.getLast?_eq_getElem?]
    cases hlast : rows[rows.length - 1]? with
    | none =>
      rw [List.getElem?_eq_none_iff] at hlast
      omega
    | some row =>
      rw [Option.map_some, hget _ row hlast, hlen, ← hdt]
      have : (((steps * m').toNat + 1 - 1 : ℕ) : ℝ) = ((steps * m' : ℤ) : ℝ) := by
        rw [Nat.add_sub_cancel]
        exact_mod_cast congrArg (fun z : ℤ => (z : ℝ)) (Int.toNat_of_nonneg hp.le)
      rw [this, mul_div_cancel₀]
      · congr 1; ring
      · exact_mod_cast hp.ne'
  · rw [stableSteps_exact] at hm'
    have := (C58_stable (div_pos hD hsK) hm' hm0.ne').2.1
    rw [div_div] at this
    rwa [hmn]
  · rw [← h]; rfl
  · intro hmu hf row hrow
    rw [← h] at hrow
    rcases List.mem_cons.mp hrow with rfl | hrow
    · rw [Set.mem_uIcc]
      rcases lt_or_gt_of_ne hmu with hlt' | hgt
      · right; constructor <;> nlinarith
      · left; constructor <;> nlinarith
    · exact hsnd hmu row hrow

theorem oupRows_times {State : Type} {sample : ℝ → State → Res (ℝ × State)} {a factor theta mu dt sigma : ℝ} {m : ℤ}
    {ts : List ℝ} {last : ℝ} {s : State} {rows : List (ℝ × ℝ)}
    (h : oupRows sample a factor theta mu dt sigma m ts last s = Res.ok rows) : rows.map Prod.fst = ts := by
  induction ts generalizing last s rows with
  | nil =>
    simp only [oupRows, Res.ok.injEq] at h
    subst h
    rfl
  | cons t ts ih =>
    simp only [oupRows] at h
    obtain ⟨⟨value, s'⟩, hv, h⟩ := Res.bind_eq_ok.mp h
    obtain ⟨rows', hr, h⟩ := Res.bind_eq_ok.mp h
    injection h with h
    subst h
    rw [List.map_cons, ih hr]

theorem oupRows_process {State : Type} {sample : ℝ → State → Res (ℝ × State)} {a factor theta mu dt sigma : ℝ} {m : ℤ}
    {ts : List ℝ} {last t₀ : ℝ} {s : State} {rows : List (ℝ × ℝ)}
    (h : oupRows sample a factor theta mu dt sigma m ts last s = Res.ok rows) :
    ∃ g : ℕ → State, g 0 = s ∧ ∀ k row row', ((t₀, last) :: rows)[k]? = some row → ((t₀, last) :: rows)[k + 1]? = some row' →
      oup sample a factor row.2 theta mu dt sigma m (g k) = Res.ok (row'.2, g (k + 1)) := by
  induction ts generalizing last s rows t₀ with
  | nil =>
    simp only [oupRows, Res.ok.injEq] at h
    subst h
    exact ⟨fun _ => s, rfl, by simp⟩
  | cons t ts ih =>
    simp only [oupRows] at h
    obtain ⟨⟨value, s'⟩, hv, h⟩ := Res.bind_eq_ok.mp h
    obtain ⟨rows', hr, h⟩ := Res.bind_eq_ok.mp h
    injection h with h
    subst h
    obtain ⟨g, hg0, hg⟩ := ih (t₀ := t) hr
    refine ⟨fun k => match k with | 0 => s | k + 1 => g k, rfl, fun k row row' h1 h2 => ?_⟩
    cases k with
    | zero =>
      simp only [List.getElem?_cons_zero, List.getElem?_cons_succ, Option.some.injEq] at h1 h2
      subst h1 h2
      simp only [hg0]
      exact hv
    | succ k =>
      rw [List.getElem?_cons_succ] at h1 h2
      exact hg k row row' h1 h2

/-- **C139**: the values are one path of the process: each value arises from the one before by the method of Euler and Maruyama over one step of
time, and each step goes on with the random numbers after those of the step before. -/
theorem C139_process {State : Type} {sample : ℝ → State → Res (ℝ × State)} {start stop mu theta sigma a factor : ℝ} {steps : ℤ}
    {s : State} {rows : List (ℝ × ℝ)} (hlt : start < stop) (hs : 0 < steps)
    (h : oupProgram sample start stop steps mu theta sigma a factor s = Res.ok rows) :
    ∃ m : ℕ, rows.length = steps.toNat * m + 1 ∧ ∃ g : ℕ → State, g 0 = s ∧
      ∀ k row row', rows[k]? = some row → rows[k + 1]? = some row' →
        oup sample a factor row.2 theta mu ((stop - start) / (steps * m)) sigma m (g k) = Res.ok (row'.2, g (k + 1)) := by
  unfold oupProgram at h
  rw [oupTimes_exact hlt hs] at h
  obtain ⟨⟨m, dt, times⟩, ht, h⟩ := Res.bind_eq_ok.mp h
  obtain ⟨m', hm', ht⟩ := Res.bind_eq_ok.mp ht
  split_ifs at ht with hmax
  simp only [Res.ok.injEq, Prod.mk.injEq] at ht
  obtain ⟨rfl, hdt, rfl⟩ := ht
  have hsK : (0 : ℝ) < steps := by exact_mod_cast hs
  obtain ⟨hm0, -⟩ := stableSteps_pos (div_pos (by linarith : 0 < stop - start) hsK).le hm'
  simp only [points] at h
  obtain ⟨rows', hr, h⟩ := Res.bind_eq_ok.mp h
  injection h with h
  have hfst := congrArg List.length (oupRows_times hr)
  rw [List.length_map, points_length] at hfst
  obtain ⟨g, hg0, hg⟩ := oupRows_process (t₀ := start) hr
  rw [h] at hg
  have hmn : ((m'.toNat : ℕ) : ℤ) = m' := Int.toNat_of_nonneg hm0.le
  refine ⟨m'.toNat, ?_, g, hg0, ?_⟩
  · rw [← h, List.length_cons, hfst, Int.toNat_mul hs.le hm0.le]
  · have e1 : (stop - start) / (steps * ((m'.toNat : ℕ) : ℝ)) = dt := by
      rw [← hdt, ← Int.cast_natCast (R := ℝ) m'.toNat, hmn]
      push_cast
      rfl
    rw [e1, hmn]
    exact hg

/-- **C139 is false of `double`**: one hour in seven steps. Six steps are made, and the last row is not at the end. -/
theorem C139_false : ∃ dt times, oupTimes binary64 1 0 0 3600 7 = Res.ok (1, dt, times) ∧ times.length = 7 ∧
    ∀ t ∈ times, t < 3100 := by
  have h : (match oupTimes binary64 1 0 0 3600 7 with
      | Res.ok (m, _, times) => m == 1 && times.length == 7 && times.all (· < 3100)
      | _ => false) = true := by decide +kernel
  cases hr : oupTimes binary64 1 0 0 3600 7 with
  | ok x =>
    obtain ⟨m, dt, times⟩ := x
    rw [hr] at h
    simp only [Bool.and_eq_true, beq_iff_eq, List.all_eq_true, decide_eq_true_eq] at h
    obtain ⟨⟨rfl, h1⟩, h2⟩ := h
    exact ⟨dt, times, rfl, h1, h2⟩
  | throws => rw [hr] at h; simp at h
  | ub => rw [hr] at h; simp at h

/-- A concrete case: without noise, two steps of a process that must be made in three steps each. -/
example : ∃ rows, oupProgram (State := Unit) (fun _ s => Res.ok (0, s)) 0 4 2 1 1 0 1 (1 / 2) () = Res.ok rows ∧
    rows.length = 7 := by
  have hc : ⌈(1 : ℝ) * ((4 - 0) / ((2 : ℤ) : ℝ)) / 1⌉ = 2 := by
    rw [show (1 : ℝ) * ((4 - 0) / ((2 : ℤ) : ℝ)) / 1 = ((2 : ℤ) : ℝ) by norm_num]
    exact Int.ceil_intCast _
  have hs : stableSteps (Rounding.exact ℝ) 1 1 ((4 - 0) / ((2 : ℤ) : ℝ)) = Res.ok 3 := by
    rw [stableSteps_exact]
    unfold stableNumber ceilPlusOne unstable
    rw [hc]
    norm_num [intMax]
  have hrows : ∀ (ts : List ℝ) (v dt : ℝ), 0 < dt → dt < 1 →
      ∃ rows, oupRows (State := Unit) (fun _ s => Res.ok (0, s)) 1 (1 / 2) 1 1 dt 0 3 ts v () = Res.ok rows := by
    intro ts
    induction ts with
    | nil => intro v dt _ _; exact ⟨[], rfl⟩
    | cons t ts ih =>
      intro v dt h0 h1
      have hst : stableNumber 1 1 dt 3 = Res.ok 3 :=
        C58_kept (by norm_num) (by norm_num) (by norm_num) (by norm_num) (by push_cast; linarith)
      have hloop : ∃ w, oup (State := Unit) (fun _ s => Res.ok (0, s)) 1 (1 / 2) v 1 1 dt 0 3 () = Res.ok (w, ()) := by
        unfold oup
        rw [hst]
        exact ⟨_, rfl⟩
      obtain ⟨w, hw⟩ := hloop
      obtain ⟨rows, hr⟩ := ih w dt h0 h1
      refine ⟨(t, w) :: rows, ?_⟩
      simp only [oupRows, hw, Res.ok_bind, hr]
  obtain ⟨rows, hr⟩ := hrows (points (Rounding.exact ℝ) ((Rounding.exact ℝ).add 0 ((4 - 0) / ((2 * 3 : ℤ) : ℝ)))
    ((4 - 0) / ((2 * 3 : ℤ) : ℝ)) 6) 1 ((4 - 0) / ((2 * 3 : ℤ) : ℝ)) (by norm_num) (by norm_num)
  have hall : oupProgram (State := Unit) (fun _ s => Res.ok (0, s)) 0 4 2 1 1 0 1 (1 / 2) () = Res.ok ((0, 1) :: rows) := by
    unfold oupProgram
    rw [oupTimes_exact (by norm_num) (by norm_num), hs]
    simp only [Res.ok_bind]
    rw [if_pos (by unfold intMax; norm_num)]
    simp only [Res.ok_bind, points, show ((2 * 3 : ℤ)).toNat = 6 from rfl]
    simp only [points] at hr
    rw [hr]
    rfl
  refine ⟨_, hall, ?_⟩
  have := (oupRows_spec (by norm_num) (by norm_num) hr).1
  have := congrArg List.length this
  rw [List.length_map, points_length] at this
  simp [this]

end Verif.Float
