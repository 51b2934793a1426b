import Verif.Times.Model
import Verif.Interp.Props
import Verif.Evolve.Model
import Mathlib.Algebra.Order.Floor.Ring

/-! # Properties C26 and C68: time grids -/

set_option autoImplicit false
set_option linter.unusedSectionVars false

namespace Verif.Times

open Verif.Interp

variable {K : Type} [Field K] [LinearOrder K] [IsStrictOrderedRing K] [FloorRing K]

/-- Specification: a strictly increasing, equidistant list of times from `start` to `stop` whose step is
at most `step`. -/
def GoodGrid (grid : List K) (start stop step : K) : Prop :=
  grid.Pairwise (· < ·) ∧ grid.head? = some start ∧ grid.getLast? = some stop ∧
    2 ≤ grid.length ∧
    ∃ d, 0 < d ∧ d ≤ step ∧ ∀ i, i + 1 < grid.length → ∀ a b, grid[i]? = some a →
      grid[i + 1]? = some b → b - a = d

/-- C26 as stated, for every input: the settings are rejected or lead to a good grid. -/
def C26Statement (K : Type) [Field K] [LinearOrder K] [FloorRing K] : Prop :=
  ∀ start desired stop : K, stateGrid start desired stop = Res.throws ∨
    ∃ grid, stateGrid start desired stop = Res.ok grid ∧ GoodGrid grid start stop desired

theorem good_of_uniform {grid : List K} {start stop step : K} {n : ℕ}
    (h : IsUniformGrid grid start stop n) (hlt : start < stop) (hstep : (stop - start) / n ≤ step)
    (hh : grid.head? = some start) (hl : grid.getLast? = some stop) (hp : grid.Pairwise (· < ·)) :
    GoodGrid grid start stop step := by
  obtain ⟨hlen, hn, hget⟩ := h
  refine ⟨hp, hh, hl, by omega, (stop - start) / n, ?_, hstep, ?_⟩
  · exact div_pos (sub_pos.mpr hlt) (by exact_mod_cast hn)
  · intro i hi a b ha hb
    rw [hget i (by omega)] at ha
    rw [hget (i + 1) (by omega)] at hb
    simp only [Option.some.injEq] at ha hb
    rw [← ha, ← hb]; push_cast; ring

/-- The number of cells for a wished step. -/
theorem ceil_facts {start stop desired : K} (h : start < stop) (hd : 0 < desired) :
    1 ≤ ⌈(stop - start) / desired⌉ ∧
      (stop - start) / ((⌈(stop - start) / desired⌉ : ℤ) : K) ≤ desired := by
  have hpos : 0 < (stop - start) / desired := div_pos (sub_pos.mpr h) hd
  have h1 : 0 < ⌈(stop - start) / desired⌉ := Int.ceil_pos.mpr hpos
  refine ⟨h1, ?_⟩
  have hc : (0 : K) < ((⌈(stop - start) / desired⌉ : ℤ) : K) := by exact_mod_cast h1
  rw [div_le_iff₀ hc]
  have := Int.le_ceil ((stop - start) / desired)
  rw [div_le_iff₀ hd] at this
  linarith

/-- C26, proved part: for a start before the end and a positive wished step, the simulation times are
an equidistant grid from start to end whose step is at most the wished one; the number of time
points the time data report is the length of this grid. If the end is not after the start and the
wished step is not zero, the settings are rejected.
Missing: a wished step of zero (undefined behaviour) and negative wished steps, see `C26_false`. -/
theorem C26_grid_partial (start desired stop : K) :
    (start < stop → 0 < desired → ∃ grid, stateGrid start desired stop = Res.ok grid ∧
      GoodGrid grid start stop desired ∧
      numberOfTimesteps start desired stop = Res.ok (grid.length : ℤ)) ∧
    (stop ≤ start → desired ≠ 0 → stateGrid start desired stop = Res.throws) := by
  constructor
  · intro h hd
    obtain ⟨h1, h2⟩ := ceil_facts h hd
    set c := ⌈(stop - start) / desired⌉ with hc
    have hnum : numberOfTimesteps start desired stop = Res.ok (c + 1) := by
      unfold numberOfTimesteps; rw [if_neg hd.ne']
    have hdelta : deltaT start stop (c + 1) = .finite ((stop - start) / (c : K)) := by
      unfold deltaT; rw [if_neg (by omega)]; simp
    have hcK : (0 : K) < (c : K) := by exact_mod_cast (by omega : 0 < c)
    have hdpos : 0 < (stop - start) / (c : K) := div_pos (sub_pos.mpr h) hcK
    obtain ⟨data, hdata, n, hu, hle, hmin, hh, hl, hp⟩ :=
      (C05_start_delta_end start ((stop - start) / (c : K)) stop).2 h hdpos
    have hn0 : 0 < n := hu.2.1
    have hnK : (0 : K) < (n : K) := by exact_mod_cast hn0
    refine ⟨equidistantPoints data, ?_, good_of_uniform hu h (hle.trans h2) hh hl hp, ?_⟩
    · unfold stateGrid
      rw [hnum]
      simp only [Res.ok_bind, hdelta, gridFromDelta, hdata]
    · rw [hnum, hu.1]
      congr 1
      have hle1 : n ≤ c.toNat := hmin c.toNat (by omega) (by
        have : ((c.toNat : ℕ) : K) = (c : K) := by
          have : ((c.toNat : ℤ)) = c := Int.toNat_of_nonneg (by omega)
          exact_mod_cast congrArg (Int.cast (R := K)) this
        rw [this])
      have hge : (c : K) ≤ (n : K) := by
        rw [div_le_div_iff₀ hnK hcK] at hle
        exact le_of_mul_le_mul_left hle (sub_pos.mpr h)
      have hge' : c ≤ (n : ℤ) := by exact_mod_cast hge
      push_cast; omega
  · intro h hd
    have hnum : numberOfTimesteps start desired stop = Res.ok (⌈(stop - start) / desired⌉ + 1) := by
      unfold numberOfTimesteps; rw [if_neg hd]
    unfold stateGrid
    rw [hnum]
    simp only [Res.ok_bind]
    unfold deltaT
    split
    · split
      · rename_i h1; exact absurd h1 (by linarith)
      · split
        · rfl
        · simp [gridFromDelta, h]
    · simp [gridFromDelta, makeFromStartDeltaEnd, h]

/-- C26 is false for a negative wished step larger than the simulated interval: the time step becomes
infinite and the grid consists of the start time only. -/
theorem C26_false : ¬ C26Statement ℚ := by
  intro h
  have hg : stateGrid (0 : ℚ) (-2) 1 = Res.ok [0] := by decide +kernel
  rcases h 0 (-2) 1 with h | ⟨grid, h, hgood⟩
  · rw [hg] at h; cases h
  · rw [hg] at h
    injection h with h
    have := hgood.2.2.2.1
    rw [← h] at this; simp at this

/-- Such a grid makes the simulation read out of bounds, whatever the solver does. -/
theorem C26_false_consequence (R : ℤ) (sm : Bool) (X C : Type) (solver : Verif.Evolve.Solver ℚ X C)
    (controls : ℚ → Res C) (initial : X) :
    ∃ grid, stateGrid (0 : ℚ) (-2) 1 = Res.ok grid ∧
      (Verif.Evolve.simulate R sm solver controls grid initial).1 = Res.ub :=
  ⟨[0], by decide +kernel, rfl⟩

example : stateGrid (0 : ℚ) (2 / 5) 1 = Res.ok [0, 1 / 3, 2 / 3, 1] := by decide +kernel

/-! ## Control grids -/

/-- C68 as stated: accepted control settings give control times from start to end. -/
def C68Statement (K : Type) [Field K] [LinearOrder K] [FloorRing K] : Prop :=
  ∀ (start desired stop : K) (settings : Option (ControlSettings K)), start < stop → 0 < desired →
    controlGrid start desired stop settings = Res.throws ∨
    ∃ grid, controlGrid start desired stop settings = Res.ok grid ∧
      ∃ step, GoodGrid grid start stop step

/-- C68 is false: one control time is accepted, and then there are controls for the start only. -/
theorem C68_false : ¬ C68Statement ℚ := by
  intro h
  have hg : controlGrid (0 : ℚ) 1 2 (some ⟨none, some 1⟩) = Res.ok [0] := by decide +kernel
  rcases h 0 1 2 (some ⟨none, some 1⟩) (by norm_num) (by norm_num) with h | ⟨grid, h, step, hgood⟩
  · rw [hg] at h; cases h
  · rw [hg] at h
    injection h with h
    have := hgood.2.2.2.1
    rw [← h] at this; simp at this

/-- C68, proved part; missing is one control time, see `C68_false`. The control times are strictly increasing, begin with the start and end with the end of the
simulation, for all settings with a positive step or at least two control times; two conflicting
settings, or none of the two, are rejected. Without control settings the control times are the
simulation times. -/
theorem C68_control_grid_partial (start desired stop : K) (h : start < stop) :
    (∀ d n, controlGrid start desired stop (some ⟨some d, some n⟩) = Res.throws) ∧
    controlGrid start desired stop (some ⟨none, none⟩) = Res.throws ∧
    (∀ d, d ≤ 0 → controlGrid start desired stop (some ⟨some d, none⟩) = Res.throws) ∧
    (∀ n, n ≤ 0 → controlGrid start desired stop (some ⟨none, some n⟩) = Res.throws) ∧
    controlGrid start desired stop none = stateGrid start desired stop ∧
    (∀ d, 0 < d → ∃ grid, controlGrid start desired stop (some ⟨some d, none⟩) = Res.ok grid ∧
      GoodGrid grid start stop d) ∧
    (∀ n, 2 ≤ n → ∃ grid, controlGrid start desired stop (some ⟨none, some n⟩) = Res.ok grid ∧
      (grid.length : ℤ) = n ∧ GoodGrid grid start stop (stop - start)) := by
  refine ⟨fun _ _ => rfl, rfl, ?_, ?_, rfl, ?_, ?_⟩
  · intro d hd0
    simp [controlGrid, (C05_start_delta_end start d stop).1 (Or.inr hd0)]
  · intro n hn
    have hn1 : n ≠ 1 := by omega
    simp [controlGrid, hn1, (C05_start_number_end start stop n).1 (Or.inl hn)]
  · intro d hd0
    obtain ⟨data, hdata, n, hu, hle, -, hh, hl, hp⟩ := (C05_start_delta_end start d stop).2 h hd0
    exact ⟨_, by simp [controlGrid, hdata], good_of_uniform hu h hle hh hl hp⟩
  · intro n hn
    obtain ⟨data, hdata, k, hk, hu⟩ := (C05_start_number_end start stop n).2 hn h
    obtain ⟨hlen, hk0, hget⟩ := hu
    have hkK : (0 : K) < (k : K) := by exact_mod_cast hk0
    have hcell : 0 < (stop - start) / k := div_pos (sub_pos.mpr h) hkK
    have hn1 : n ≠ 1 := by omega
    refine ⟨_, by simp [controlGrid, hn1, hdata]; rfl, by omega, ?_⟩
    refine good_of_uniform ⟨hlen, hk0, hget⟩ h ?_ ?_ ?_ ?_
    · rw [div_le_iff₀ hkK]
      have : (1 : K) ≤ k := by exact_mod_cast hk0
      nlinarith [sub_pos.mpr h]
    · rw [List.head?_eq_getElem?, hget 0 (by omega)]; simp
    · rw [List.getLast?_eq_getElem?, hlen, Nat.add_sub_cancel, hget k le_rfl]
      congr 1
      field_simp; ring
    · rw [List.pairwise_iff_getElem]
      intro i j hi hj hij
      have e1 := hget i (by omega)
      have e2 := hget j (by omega)
      rw [List.getElem?_eq_getElem hi] at e1
      rw [List.getElem?_eq_getElem hj] at e2
      simp only [Option.some.injEq] at e1 e2
      rw [e1, e2]
      have : (i : K) < j := by exact_mod_cast hij
      nlinarith

/-- C68. Consequently the interpolated controls can be evaluated at every simulation time: no exception and
no out-of-bounds access, whatever the control settings that were accepted. -/
theorem C68_controls_cover (start stop s1 s2 : K) (grid cgrid : List K) (controls : IV K)
    (hg : GoodGrid grid start stop s1) (hc : GoodGrid cgrid start stop s2)
    (hpts : controls.points = cgrid) (hwf : controls.WF) :
    ∀ t ∈ grid, ∃ u, eval controls t = Res.ok u ∧ u.length = controls.inner := by
  intro t ht
  obtain ⟨hp, hh, hl, hlen, -⟩ := hg
  obtain ⟨hp', hh', hl', hlen', -⟩ := hc
  subst hpts
  have he := EPSILON_pos (K := K)
  obtain ⟨h1, h2, h3⟩ := C03_eval_range controls hwf hp' (by omega) t
  have hfirst : controls.points[0] = start := by
    have := head?_eq (l := controls.points) (by omega)
    rw [this] at hh'; simpa using hh'
  have hlast : controls.points[controls.points.length - 1] = stop := by
    have := getLast?_eq (l := controls.points) (by omega)
    rw [this] at hl'; simpa using hl'
  have hf : start ≤ t ∧ t ≤ stop := by
    obtain ⟨i, hi, rfl⟩ := List.getElem_of_mem ht
    have a0 : grid[0] = start := by
      have := head?_eq (l := grid) (by omega)
      rw [this] at hh; simpa using hh
    have a1 : grid[grid.length - 1] = stop := by
      have := getLast?_eq (l := grid) (by omega)
      rw [this] at hl; simpa using hl
    exact ⟨a0 ▸ getElem_le_of_pairwise hp (by omega) hi,
      a1 ▸ getElem_le_of_pairwise hp (by omega) (by omega)⟩
  cases h : eval controls t with
  | ok u => exact ⟨u, rfl, h3 u h⟩
  | ub => exact absurd h h2
  | throws =>
    rcases h1.mp h with h | h
    · rw [hfirst] at h; linarith [hf.1]
    · rw [hlast] at h; linarith [hf.2]

example : controlGrid (0 : ℚ) (2 / 5) 1 (some ⟨none, some 3⟩) = Res.ok [0, 1 / 2, 1] := by
  decide +kernel

end Verif.Times
