import Verif.Stochastic.Model
import Mathlib.Order.Interval.Set.UnorderedInterval
import Mathlib.Tactic.Linarith
import Mathlib.Tactic.FieldSimp
import Mathlib.Tactic.NormNum

/-!
# Properties of the stochastic power demand
-/

set_option autoImplicit false

namespace Verif.Stochastic

variable {State : Type}

/-! ## Sampling -/

/-- The state of the generator after `k` draws. -/
def after (normal : Generator State) (mean deviation : ℝ) (s : State) : ℕ → State
  | 0 => s
  | k + 1 => (normal (after normal mean deviation s k) mean deviation).2

/-- The number drawn after `k` other draws. -/
def draw (normal : Generator State) (mean deviation : ℝ) (s : State) (k : ℕ) : ℝ :=
  (normal (after normal mean deviation s k) mean deviation).1

theorem after_shift (normal : Generator State) (mean deviation : ℝ) (s : State) (k : ℕ) :
    after normal mean deviation (normal s mean deviation).2 k = after normal mean deviation s (k + 1) := by
  induction k with
  | zero => rfl
  | succ k ih => simp only [after] at ih ⊢; rw [ih]

theorem draw_shift (normal : Generator State) (mean deviation : ℝ) (s : State) (k : ℕ) :
    draw normal mean deviation (normal s mean deviation).2 k = draw normal mean deviation s (k + 1) := by
  simp only [draw, after_shift]

theorem sampleLoop_iff (normal : Generator State) (mean deviation lower upper : ℝ) (rounds : ℕ) (s : State) :
    (∀ x s', sampleLoop normal mean deviation lower upper rounds (normal s mean deviation).1 (normal s mean deviation).2
        = Res.ok (x, s') → ∃ k < rounds, x = draw normal mean deviation s k ∧ s' = after normal mean deviation s (k + 1) ∧
          lower ≤ x ∧ x ≤ upper ∧
          ∀ j < k, ¬ (lower ≤ draw normal mean deviation s j ∧ draw normal mean deviation s j ≤ upper)) ∧
      (sampleLoop normal mean deviation lower upper rounds (normal s mean deviation).1 (normal s mean deviation).2
        = Res.throws ↔
          ∀ j < rounds, ¬ (lower ≤ draw normal mean deviation s j ∧ draw normal mean deviation s j ≤ upper)) ∧
      sampleLoop normal mean deviation lower upper rounds (normal s mean deviation).1 (normal s mean deviation).2
        ≠ Res.ub := by
  induction rounds generalizing s with
  | zero => simp [sampleLoop]
  | succ rounds ih =>
    simp only [sampleLoop]
    by_cases h : (normal s mean deviation).1 ≥ lower ∧ (normal s mean deviation).1 ≤ upper
    · rw [if_pos h]
      refine ⟨fun x s' hx => ⟨0, by omega, ?_⟩, ?_, by simp⟩
      · simp only [Res.ok.injEq, Prod.mk.injEq] at hx
        obtain ⟨rfl, rfl⟩ := hx
        exact ⟨rfl, rfl, h.1, h.2, by omega⟩
      · constructor
        · intro hx; cases hx
        · intro hx; exact absurd h (hx 0 (by omega))
    · rw [if_neg h]
      obtain ⟨h1, h2, h3⟩ := ih (normal s mean deviation).2
      refine ⟨fun x s' hx => ?_, ?_, h3⟩
      · obtain ⟨k, hk, hx', hs', hl, hu, hj⟩ := h1 x s' hx
        refine ⟨k + 1, by omega, by rw [hx', draw_shift], by rw [hs', after_shift], hl, hu, fun j hjk => ?_⟩
        cases j with
        | zero => exact h
        | succ j => rw [← draw_shift]; exact hj j (by omega)
      · rw [h2]
        constructor
        · intro hj j hjr
          cases j with
          | zero => exact h
          | succ j => rw [← draw_shift]; exact hj j (by omega)
        · intro hj j hjr
          rw [draw_shift]
          exact hj (j + 1) (by omega)

/-- **C57**: for every random sequence: a returned sample lies within the bounds. It is the first number of the sequence
that does, and among the first 100000. -/
theorem C57_within {normal : Generator State} {mean deviation lower upper : ℝ} {s s' : State} {x : ℝ}
    (h : getSample normal mean deviation lower upper s = Res.ok (x, s')) :
    lower ≤ x ∧ x ≤ upper ∧ ∃ k < 100000, x = draw normal mean deviation s k ∧ s' = after normal mean deviation s (k + 1) ∧
      ∀ j < k, ¬ (lower ≤ draw normal mean deviation s j ∧ draw normal mean deviation s j ≤ upper) := by
  obtain ⟨k, hk, hx, hs, hl, hu, hj⟩ := (sampleLoop_iff normal mean deviation lower upper _ s).1 x s' h
  exact ⟨hl, hu, k, hk, hx, hs, hj⟩

/-- **C57**: … and an exception is thrown exactly if none of the first 100000 numbers lies within the bounds; there is
no other outcome. -/
theorem C57_throws (normal : Generator State) (mean deviation lower upper : ℝ) (s : State) :
    (getSample normal mean deviation lower upper s = Res.throws ↔
      ∀ j < 100000, ¬ (lower ≤ draw normal mean deviation s j ∧ draw normal mean deviation s j ≤ upper)) ∧
    getSample normal mean deviation lower upper s ≠ Res.ub :=
  (sampleLoop_iff normal mean deviation lower upper _ s).2

/-- **C57**: without explicit bounds, the samples are at most two standard deviations from the mean. -/
theorem C57_default {normal : Generator State} {deviation : ℝ} {s s' : State} {x : ℝ}
    (h : getSample1 normal deviation s = Res.ok (x, s')) : |x| ≤ 2 * deviation := by
  obtain ⟨hl, hu, -⟩ := C57_within h
  rw [abs_le]
  constructor <;> linarith

/-- A generator that counts: a concrete case. -/
def counting : Generator ℕ := fun s _ _ => ((s : ℝ), s + 1)

theorem counting_after (n k : ℕ) : after counting 0 1 n k = n + k := by
  induction k with
  | zero => rfl
  | succ k ih => simp only [after, counting, ih]; rfl

example : getSample counting 0 1 2 3 0 = Res.ok (2, 3) := by
  have h : ∀ n, sampleLoop counting 0 1 2 3 (n + 3) (counting 0 0 1).1 (counting 0 0 1).2 = Res.ok (2, 3) := by
    intro n
    simp only [sampleLoop, counting]
    norm_num
  exact h 99997

example : getSample counting 0 1 (-2) (-1) 0 = Res.throws := by
  refine (C57_throws _ _ _ _ _ _).1.mpr fun j _ h => ?_
  have : (0 : ℝ) ≤ draw counting 0 1 0 j := by
    simp only [draw, counting]
    positivity
  linarith [h.2]

/-! ## The number of sub-steps -/

theorem stableNumber_eq {a theta dt : ℝ} {n m : ℤ} (h : stableNumber a theta dt n = Res.ok m) :
    0 < a ∧ a < 2 ∧ 0 ≤ theta ∧ 0 ≤ n ∧
      ((unstable a theta dt n ∧ m = ⌈theta * dt / a⌉ + 1) ∨ (¬ unstable a theta dt n ∧ m = n)) := by
  unfold stableNumber ceilPlusOne at h
  split_ifs at h with h1 h2 h3 h4 h5
  · simp only [Res.ok.injEq] at h
    push Not at h1 h2 h3
    exact ⟨h1.1, h1.2, h2, h3, Or.inl ⟨h4, h.symm⟩⟩
  · simp only [Res.ok.injEq] at h
    push Not at h1 h2 h3
    exact ⟨h1.1, h1.2, h2, h3, Or.inr ⟨h4, h.symm⟩⟩

/-- The new number of steps is large enough. -/
theorem ceil_large {a theta dt : ℝ} (ha : 0 < a) (h0 : 0 ≤ theta * dt) :
    0 < (⌈theta * dt / a⌉ + 1 : ℤ) ∧ theta * (dt / (⌈theta * dt / a⌉ + 1 : ℤ)) < a := by
  have hc : theta * dt / a ≤ ⌈theta * dt / a⌉ := Int.le_ceil _
  have h1 : 0 ≤ theta * dt / a := div_nonneg h0 ha.le
  have h2 : (0 : ℝ) < (⌈theta * dt / a⌉ + 1 : ℤ) := by push_cast; linarith
  refine ⟨by exact_mod_cast h2, ?_⟩
  rw [← mul_div_assoc, div_lt_iff₀ h2]
  rw [div_le_iff₀ ha] at hc
  push_cast
  nlinarith

/-- **C58**: for every time step forward: whatever number of sub-steps is returned, it is not negative, and unless it is
zero, the sub-steps are short enough: `θ · Δt / m` is below the given bound, so also below two. -/
theorem C58_stable {a theta dt : ℝ} {n m : ℤ} (hdt : 0 < dt) (h : stableNumber a theta dt n = Res.ok m) (hm : m ≠ 0) :
    0 < m ∧ theta * (dt / m) < a ∧ a < 2 := by
  obtain ⟨ha, ha2, hth, hn, ⟨hu, rfl⟩ | ⟨hu, rfl⟩⟩ := stableNumber_eq h
  · obtain ⟨h1, h2⟩ := ceil_large ha (mul_nonneg hth hdt.le)
    exact ⟨h1, h2, ha2⟩
  · unfold unstable at hu
    rw [if_neg hm] at hu
    push Not at hu
    exact ⟨by omega, hu, ha2⟩

/-- **C58**: zero sub-steps are only returned when asked for, and if the process doesn't pull towards its mean. -/
theorem C58_zero {a theta dt : ℝ} {n : ℤ} (hdt : 0 < dt) (h : stableNumber a theta dt n = Res.ok 0) :
    n = 0 ∧ theta = 0 := by
  obtain ⟨ha, ha2, hth, hn, ⟨hu, hm⟩ | ⟨hu, rfl⟩⟩ := stableNumber_eq h
  · have := (ceil_large ha (mul_nonneg hth hdt.le)).1
    omega
  · refine ⟨rfl, ?_⟩
    unfold unstable at hu
    rw [if_pos rfl] at hu
    push Not at hu
    by_contra hne
    exact absurd hdt (not_lt.mpr (hu (lt_of_le_of_ne hth (Ne.symm hne))))

/-- **C58**: a number of sub-steps that is good enough is not changed. -/
theorem C58_kept {a theta dt : ℝ} {n : ℤ} (ha : 0 < a) (ha2 : a < 2) (hth : 0 ≤ theta) (hn : 0 < n)
    (h : theta * (dt / n) < a) : stableNumber a theta dt n = Res.ok n := by
  unfold stableNumber unstable
  rw [if_neg (by push Not; exact ⟨ha, ha2⟩), if_neg (not_lt.mpr hth), if_neg (by omega), if_neg]
  rw [if_neg (by omega)]
  exact not_le.mpr h

/-- **C58 (partial)**: invalid parameters are rejected, all others give a number, if that number is an `int`. Otherwise
the behaviour is undefined, see `C58_false`. -/
theorem C58_total_partial {a theta dt : ℝ} {n : ℤ} :
    (a ≤ 0 ∨ 2 ≤ a ∨ theta < 0 ∨ n < 0 → stableNumber a theta dt n = Res.throws) ∧
    (0 < a → a < 2 → 0 ≤ theta → 0 ≤ n → theta * dt / a ≤ 2147483646 → ∃ m, stableNumber a theta dt n = Res.ok m) := by
  constructor
  · intro h
    unfold stableNumber
    split_ifs with h1 h2 h3 <;> first | rfl | skip
    all_goals
      push Not at h1 h2 h3
      rcases h with h | h | h | h
      · linarith
      · linarith
      · linarith
      · omega
  · intro ha ha2 hth hn hle
    unfold stableNumber ceilPlusOne
    rw [if_neg (by push Not; exact ⟨ha, ha2⟩), if_neg (not_lt.mpr hth), if_neg (by omega)]
    split_ifs with h1 h2
    · exact ⟨_, rfl⟩
    · refine absurd ?_ h2
      have : ⌈theta * dt / a⌉ ≤ 2147483646 := Int.ceil_le.mpr (by exact_mod_cast hle)
      unfold intMax
      omega
    · exact ⟨_, rfl⟩

/-- **C58 is false for large time steps**: with valid parameters, the behaviour can be undefined. -/
theorem C58_false : ∃ a theta dt : ℝ, ∃ n : ℤ, 0 < a ∧ a < 2 ∧ 0 ≤ theta ∧ 0 < n ∧ 0 < dt ∧
    stableNumber a theta dt n = Res.ub := by
  refine ⟨1, 3000000000, 1, 1, by norm_num, by norm_num, by norm_num, by norm_num, by norm_num, ?_⟩
  have hc : ⌈(3000000000 : ℝ) * 1 / 1⌉ = 3000000000 := by
    rw [show (3000000000 : ℝ) * 1 / 1 = ((3000000000 : ℤ) : ℝ) by norm_num]
    exact Int.ceil_intCast _
  unfold stableNumber ceilPlusOne unstable
  rw [hc]
  norm_num [intMax]

/-- **C58**: what stability means: without noise, every sub-step comes closer to the mean. -/
theorem C58_contracts {a theta dt : ℝ} {n m : ℤ} (hdt : 0 < dt) (hth : 0 < theta)
    (h : stableNumber a theta dt n = Res.ok m) {mu value noise : ℝ} (hne : value ≠ mu) :
    |drift theta mu (dt / m) 0 noise value - mu| < |value - mu| := by
  have hm : m ≠ 0 := by
    rintro rfl
    exact absurd (C58_zero hdt h).2 hth.ne'
  obtain ⟨h0, h1, h2⟩ := C58_stable hdt h hm
  have h3 : 0 < theta * (dt / m) := mul_pos hth (div_pos hdt (by exact_mod_cast h0))
  have h4 : drift theta mu (dt / m) 0 noise value - mu = (1 - theta * (dt / m)) * (value - mu) := by
    unfold drift
    ring
  rw [h4, abs_mul]
  have h5 : 0 < |value - mu| := abs_pos.mpr (sub_ne_zero.mpr hne)
  have h6 : |1 - theta * (dt / m)| < 1 := by
    rw [abs_lt]
    constructor <;> linarith
  nlinarith

/-- A concrete case: one sub-step is asked for, six are made. -/
example : stableNumber 1 1 5 1 = Res.ok 6 := by
  have hc : ⌈(1 : ℝ) * 5 / 1⌉ = 5 := by
    rw [show (1 : ℝ) * 5 / 1 = ((5 : ℤ) : ℝ) by norm_num]
    exact Int.ceil_intCast _
  unfold stableNumber ceilPlusOne unstable
  rw [hc]
  norm_num [intMax]

/-! ## The cut off -/

theorem sgn_pos {x : ℝ} (h : 0 < x) : sgn x = 1 := by simp [sgn, h, h.le]
theorem sgn_neg {x : ℝ} (h : x < 0) : sgn x = -1 := by simp [sgn, h, h.le]

theorem cutOff_mem {factor mu value : ℝ} (hmu : mu ≠ 0) :
    cutOff factor mu value ∈ Set.uIcc (mu * (1 - factor)) (mu * (1 + factor)) := by
  rw [Set.mem_uIcc]
  unfold cutOff
  rcases lt_or_gt_of_ne hmu with h | h
  · rw [sgn_neg h]
    split_ifs with h1 h2
    · rcases le_total 0 factor with hf | hf
      · right; constructor <;> nlinarith
      · left; constructor <;> nlinarith
    · rcases le_total 0 factor with hf | hf
      · right; constructor <;> nlinarith
      · left; constructor <;> nlinarith
    · right; constructor <;> nlinarith
  · rw [sgn_pos h]
    split_ifs with h1 h2
    · rcases le_total 0 factor with hf | hf
      · left; constructor <;> nlinarith
      · right; constructor <;> nlinarith
    · rcases le_total 0 factor with hf | hf
      · left; constructor <;> nlinarith
      · right; constructor <;> nlinarith
    · left; constructor <;> nlinarith

/-- **C59**: a value within the bounds is not changed, any other one is replaced by the nearest one within the bounds
(if the cut off factor is not negative). -/
theorem C59_nearest {factor mu value : ℝ} (hf : 0 ≤ factor) (hmu : mu ≠ 0) {w : ℝ}
    (hw : w ∈ Set.uIcc (mu * (1 - factor)) (mu * (1 + factor))) : |cutOff factor mu value - value| ≤ |w - value| := by
  rw [Set.mem_uIcc] at hw
  unfold cutOff
  rcases lt_or_gt_of_ne hmu with h | h
  · have hle : mu * (1 + factor) ≤ mu * (1 - factor) := by nlinarith
    have hw' : mu * (1 + factor) ≤ w ∧ w ≤ mu * (1 - factor) := by
      rcases hw with hw | hw
      · exact ⟨hle.trans hw.1, hw.2.trans hle⟩
      · exact hw
    rw [sgn_neg h]
    split_ifs with h1 h2
    · rw [abs_of_nonpos (by linarith), abs_of_nonpos (by nlinarith)]; nlinarith
    · rw [abs_of_nonneg (by linarith), abs_of_nonneg (by nlinarith)]; nlinarith
    · rw [sub_self, abs_zero]; exact abs_nonneg _
  · have hle : mu * (1 - factor) ≤ mu * (1 + factor) := by nlinarith
    have hw' : mu * (1 - factor) ≤ w ∧ w ≤ mu * (1 + factor) := by
      rcases hw with hw | hw
      · exact hw
      · exact ⟨hle.trans hw.1, hw.2.trans hle⟩
    rw [sgn_pos h]
    split_ifs with h1 h2
    · rw [abs_of_nonneg (by linarith), abs_of_nonneg (by nlinarith)]; nlinarith
    · rw [abs_of_nonpos (by linarith), abs_of_nonpos (by nlinarith)]; nlinarith
    · rw [sub_self, abs_zero]; exact abs_nonneg _

theorem oupLoop_mem {sample : ℝ → State → Res (ℝ × State)} {factor theta mu h sigma : ℝ} (hmu : mu ≠ 0) (rounds : ℕ)
    {value r : ℝ} {s s' : State} (hrun : oupLoop sample factor theta mu h sigma rounds value s = Res.ok (r, s')) :
    (rounds = 0 ∧ r = value) ∨ r ∈ Set.uIcc (mu * (1 - factor)) (mu * (1 + factor)) := by
  induction rounds generalizing value s with
  | zero =>
    simp only [oupLoop, Res.ok.injEq, Prod.mk.injEq] at hrun
    exact Or.inl ⟨rfl, hrun.1.symm⟩
  | succ rounds ih =>
    simp only [oupLoop] at hrun
    obtain ⟨⟨noise, s₁⟩, -, hrest⟩ := Res.bind_eq_ok.mp hrun
    rcases ih hrest with ⟨-, rfl⟩ | h
    · exact Or.inr (cutOff_mem hmu)
    · exact Or.inr h

/-- **C59 (partial)**: for every random sequence and every distribution of the noise: if at least one sub-step is asked
for, the value of the process after the time step lies between `μ (1 - c)` and `μ (1 + c)`. Missing is the mean zero,
for which values are not cut off at all, see `C59_false`. -/
theorem C59_within_partial {sample : ℝ → State → Res (ℝ × State)} {a factor last theta mu dt sigma : ℝ} {n : ℤ}
    {s s' : State} {r : ℝ} (hmu : mu ≠ 0) (hdt : 0 < dt) (hn : n ≠ 0)
    (h : oup sample a factor last theta mu dt sigma n s = Res.ok (r, s')) :
    r ∈ Set.uIcc (mu * (1 - factor)) (mu * (1 + factor)) := by
  unfold oup at h
  obtain ⟨m, hm, h⟩ := Res.bind_eq_ok.mp h
  have hm0 : m ≠ 0 := by
    rintro rfl
    exact hn (C58_zero hdt hm).1
  have hpos := (C58_stable hdt hm hm0).1
  rcases oupLoop_mem hmu _ h with ⟨h0, -⟩ | h
  · omega
  · exact h

/-- **C59 is false for the mean zero**: a node without demand on average has a demand of one, although it should be
cut off at zero (for every cut off factor). -/
theorem C59_false : ¬ ∀ (sample : ℝ → Unit → Res (ℝ × Unit)) (a factor last theta mu dt sigma : ℝ) (n : ℤ) (r : ℝ),
    0 < dt → n ≠ 0 → oup sample a factor last theta mu dt sigma n () = Res.ok (r, ()) →
      r ∈ Set.uIcc (mu * (1 - factor)) (mu * (1 + factor)) := by
  intro h
  have hs : stableNumber 1 0 1 1 = Res.ok 1 := C58_kept (by norm_num) (by norm_num) (by norm_num) (by norm_num) (by norm_num)
  have := h (fun _ _ => Res.ok (1, ())) 1 0 0 0 0 1 1 1 1 (by norm_num) (by norm_num) (by
    unfold oup
    rw [hs]
    simp [oupLoop, cutOff, drift, sgn])
  simp at this

/-- A concrete case: mean one, no sub-step stays within the cut off of a half by itself. -/
example : oup (State := Unit) (fun _ _ => Res.ok (3, ())) 1 (1 / 2) 0 0 1 1 1 2 () = Res.ok (3 / 2, ()) := by
  have hs : stableNumber 1 0 1 2 = Res.ok 2 := C58_kept (by norm_num) (by norm_num) (by norm_num) (by norm_num) (by norm_num)
  unfold oup
  rw [hs]
  simp only [Res.ok_bind, show (2 : ℤ).toNat = 2 from rfl, oupLoop, cutOff, drift, sgn]
  norm_num

/-! ## The output -/

theorem execute_saves (current : Option ℝ) (l : List ℕ) :
    execute current (l.map .save) = l.map fun k => (k, current) := by
  induction l with
  | nil => rfl
  | cons k l ih => simp [execute, ih]

theorem execute_prepares (current : Option ℝ) (demands : List ℝ) (calls : List Call) :
    execute current (demands.map .prepare ++ calls) = execute ((demands.getLast?).or current) calls := by
  induction demands generalizing current with
  | nil => rfl
  | cons d l ih =>
    simp only [List.map_cons, List.cons_append, execute, ih]
    cases l with
    | nil => rfl
    | cons e l => simp [List.getLast?_cons]

/-- **C60**: what is written in fact: for every time the demand of the last time step. -/
theorem C60_last_reported (demands : List ℝ) :
    execute none (runCalls demands) = (List.range (demands.length + 1)).map fun k => (k, demands.getLast?) := by
  rw [runCalls, execute_prepares, execute_saves]
  simp

/-- **C60 is false**: the demand used in step `k + 1` is not always the one reported for it. -/
theorem C60_false : ¬ ∀ (demands : List ℝ) (k : ℕ) (d : ℝ), demands[k]? = some d →
    (k + 1, some d) ∈ execute none (runCalls demands) := by
  intro h
  have := h [1, 2] 0 1 rfl
  rw [C60_last_reported] at this
  simp at this

/-- **C60 (partial)**: the demand is right for the last time. (Missing are all other times.) -/
theorem C60_last_partial (demands : List ℝ) (d : ℝ) (h : demands.getLast? = some d) :
    (demands.length, some d) ∈ execute none (runCalls demands) := by
  rw [C60_last_reported, h]
  exact List.mem_map.mpr ⟨demands.length, by simp, rfl⟩

end Verif.Stochastic
