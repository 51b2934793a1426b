import Verif.Basic.Res
import Mathlib.Algebra.Order.Floor.Ring
import Mathlib.Algebra.Order.Field.Basic
import Mathlib.Data.Rat.Floor
import Mathlib.Order.Bounds.Basic
import Mathlib.Tactic.FieldSimp
import Mathlib.Tactic.Linarith
import Mathlib.Tactic.NormNum
import Mathlib.Tactic.Push

/-!
# The helper programs drawing heat maps (C150, C151, C152)

`helper_functions/draw_heatmap_gaslib.cpp` and `draw_heatmap_power.cpp`: the colours of edges and nodes. What else is
written (positions, labels) is in `Draw`. Numbers are rational; `big` is the largest `double`.

Of the results only the quantity that is drawn (`"pressure"` or `"P"`) is modelled, all others are skipped by the programs.
The results have been inserted into the topology by `insert_second_json_in_topology_json` (C46), so an edge or node of the
topology comes with its results or without any.
-/

set_option autoImplicit false

namespace Verif.Helpers.Heatmap

/-! ## Model -/

/-- A colour — `draw_heatmap_gaslib.cpp` 19-23. -/
structure Rgb where
  r : ℤ
  g : ℤ
  b : ℤ
  deriving DecidableEq, Repr

/-- `rgb_color` — `draw_heatmap_gaslib.cpp` 252-264 and `draw_heatmap_power.cpp` 252-264. If all values are equal, the
ratio is `0. / 0.`, not a number, and `std::max` yields its first argument, zero. Conversion to `int` cuts off; the
converted numbers are not negative. -/
def rgbColor (minimum maximum value : ℚ) : Res Rgb :=
  if value < minimum ∨ value > maximum then Res.throws
  else if maximum - minimum = 0 then Res.ok ⟨0, 255 - 0 - 0, 0⟩
  else
    let ratio := 2 * (value - minimum) / (maximum - minimum)
    let b := ⌊max 0 (255 * (1 - ratio))⌋
    let r := ⌊max 0 (255 * (ratio - 1))⌋
    Res.ok ⟨r, 255 - b - r, b⟩

/-! ### Gas -/

/-- `pipe_wide_max` — `draw_heatmap_gaslib.cpp` 282-287; also the loop 218-222. -/
def raise (start : ℚ) (points : List ℚ) : ℚ := points.foldl (fun m v => if v > m then v else m) start

/-- One pressure array — `draw_heatmap_gaslib.cpp` 282-293. -/
def gasStep (mm : ℚ × ℚ) (points : List ℚ) : ℚ × ℚ :=
  let wide := raise mm.1 points
  (if wide < mm.1 then wide else mm.1, if wide > mm.2 then wide else mm.2)

/-- `extract_min_max_values` — `draw_heatmap_gaslib.cpp` 266-299. The results are those of all edges, each with the
pressures at its points for each time step. -/
def gasMinMax (big : ℚ) (results : List (List (List ℚ))) : ℚ × ℚ :=
  results.foldl (fun mm steps => steps.foldl gasStep mm) (big, -big)

/-- The value of an edge — `draw_heatmap_gaslib.cpp` 209, 213-224. -/
def gasValue (min : ℚ) (steps : List (List ℚ)) : ℚ := steps.foldl raise min

/-- The colours of the edges — `draw_heatmap_gaslib.cpp` 197-230. -/
def gasColors {I : Type} (mm : ℚ × ℚ) : List (I × Option (List (List ℚ))) → Res (List (I × Rgb))
  | [] => Res.ok []
  | (_, none) :: _ => Res.throws
  | (id, some steps) :: edges => do
    let color ← rgbColor mm.1 mm.2 (gasValue mm.1 steps)
    let rest ← gasColors mm edges
    Res.ok ((id, color) :: rest)

/-- The values and colours of the legend — `draw_heatmap_gaslib.cpp` 189-191. -/
def legendColor (mm : ℚ × ℚ) (i : ℕ) : Res Rgb := rgbColor mm.1 mm.2 (mm.1 + i * (1 / 100) * (mm.2 - mm.1))

/-! ### Power -/

/-- One value — `draw_heatmap_power.cpp` 288-293. -/
def powerStep (mm : ℚ × ℚ) (P : ℚ) : ℚ × ℚ := (if P < mm.1 then P else mm.1, if P > mm.2 then P else mm.2)

/-- The values of one type — `draw_heatmap_power.cpp` 282-296. -/
def powerType (mm : ℚ × ℚ) (nodes : List (List ℚ)) : ℚ × ℚ :=
  nodes.foldl (fun mm Ps => Ps.foldl powerStep mm) mm

/-- `extract_min_max_values` — `draw_heatmap_power.cpp` 266-299: the results of the nodes of each type that is present, the
active powers of each node. The first value must exist. -/
def powerMinMax (big tiny : ℚ) : List (List (List ℚ)) → Res (ℚ × ℚ)
  | [] => Res.ok (big, tiny)
  | nodes :: types => do
    let first ← Res.get nodes 0
    let P ← Res.get first 0
    Res.ok ((nodes :: types).foldl powerType (P, P))

/-- The nodes of one type — `draw_heatmap_power.cpp` 110-135: `value` is set before the loop only. -/
def powerColorsFrom {I : Type} (mm : ℚ × ℚ) : ℚ → List (I × Option (List ℚ)) → Res (List (I × Rgb))
  | _, [] => Res.ok []
  | _, (_, none) :: _ => Res.throws
  | value, (id, some Ps) :: nodes => do
    let value' := Ps.foldl (fun v P => if v < P then P else v) value
    let color ← rgbColor mm.1 mm.2 value'
    let rest ← powerColorsFrom mm value' nodes
    Res.ok ((id, color) :: rest)

/-- All types — `draw_heatmap_power.cpp` 104-140. -/
def powerColors {I : Type} (mm : ℚ × ℚ) : List (List (I × Option (List ℚ))) → Res (List (I × Rgb))
  | [] => Res.ok []
  | nodes :: types => do
    let colors ← powerColorsFrom mm mm.1 nodes
    let rest ← powerColors mm types
    Res.ok (colors ++ rest)

/-! ## Specification -/

/-- Specification: the edge or node with these values is painted with the colour of its largest value. -/
def PaintedByOwn (lo hi : ℚ) (values : List ℚ) (color : Rgb) : Prop :=
  ∃ m, IsGreatest {v | v ∈ values} m ∧ rgbColor lo hi m = Res.ok color

/-- **C150** in full: if all edges have pressures, between the two extreme numbers, all of one edge smaller than all of
another one, and the edges drawn are those of the results, then the program finishes, and an edge is painted red if it has
the largest pressure of all. -/
def C150Statement : Prop :=
  ∀ (big : ℚ) (results : List (List (List ℚ))), 0 < big →
    (∀ steps ∈ results, steps ≠ [] ∧ ∀ points ∈ steps, points ≠ [] ∧ ∀ v ∈ points, -big < v ∧ v < big) →
    (∃ a ∈ results, ∃ b ∈ results, ∀ v ∈ a.flatten, ∀ w ∈ b.flatten, v < w) →
    ∃ colors, gasColors (gasMinMax big results) ((results.map some).zipIdx.map Prod.swap) = Res.ok colors ∧
      ∀ (i : ℕ) (steps : List (List ℚ)), results[i]? = some steps →
        (∃ v ∈ steps.flatten, ∀ other ∈ results, ∀ w ∈ other.flatten, w ≤ v) → (i, (⟨255, 0, 0⟩ : Rgb)) ∈ colors

/-! ## Proofs: colours -/

theorem rgbColor_ok {lo hi v : ℚ} (h1 : lo ≤ v) (h2 : v ≤ hi) : ∃ c, rgbColor lo hi v = Res.ok c := by
  unfold rgbColor
  rw [if_neg (by push Not; exact ⟨h1, h2⟩)]
  split
  · exact ⟨_, rfl⟩
  · exact ⟨_, rfl⟩

/-- **C152**: for a value between the extremes there is a colour, otherwise an exception. The three parts are between 0 and
255, and their sum is 255; not both red and blue are present. -/
theorem C152_range (lo hi v : ℚ) : (rgbColor lo hi v = Res.throws ↔ v < lo ∨ hi < v) ∧
    ∀ c, rgbColor lo hi v = Res.ok c → 0 ≤ c.r ∧ c.r ≤ 255 ∧ 0 ≤ c.g ∧ c.g ≤ 255 ∧ 0 ≤ c.b ∧ c.b ≤ 255 ∧
      c.r + c.g + c.b = 255 ∧ (c.r = 0 ∨ c.b = 0) := by
  constructor
  · unfold rgbColor
    by_cases h : v < lo ∨ v > hi
    · rw [if_pos h]
      exact ⟨fun _ => h, fun _ => rfl⟩
    · rw [if_neg h]
      refine ⟨?_, fun h' => absurd h' h⟩
      split <;> simp
  · intro c hc
    unfold rgbColor at hc
    split at hc
    · simp at hc
    · rename_i hv
      push Not at hv
      split at hc
      · cases hc
        norm_num
      · rename_i hne
        have hpos : 0 < hi - lo := lt_of_le_of_ne (by linarith [hv.1, hv.2]) (Ne.symm hne)
        have hr0 : 0 ≤ 2 * (v - lo) / (hi - lo) := div_nonneg (by linarith [hv.1]) hpos.le
        have hr2 : 2 * (v - lo) / (hi - lo) ≤ 2 := by
          rw [div_le_iff₀ hpos]
          linarith [hv.2]
        generalize 2 * (v - lo) / (hi - lo) = ratio at hc hr0 hr2
        simp only [Res.ok.injEq] at hc
        subst hc
        simp only
        have hb0 : 0 ≤ ⌊max 0 (255 * (1 - ratio))⌋ := Int.floor_nonneg.mpr (le_max_left _ _)
        have hr0' : 0 ≤ ⌊max 0 (255 * (ratio - 1))⌋ := Int.floor_nonneg.mpr (le_max_left _ _)
        have hb255 : ⌊max 0 (255 * (1 - ratio))⌋ ≤ 255 := by
          have : max 0 (255 * (1 - ratio)) ≤ ((255 : ℤ) : ℚ) := max_le (by norm_num) (by push_cast; linarith)
          calc ⌊max 0 (255 * (1 - ratio))⌋ ≤ ⌊((255 : ℤ) : ℚ)⌋ := Int.floor_le_floor this
            _ = 255 := Int.floor_intCast 255
        have hr255 : ⌊max 0 (255 * (ratio - 1))⌋ ≤ 255 := by
          have : max 0 (255 * (ratio - 1)) ≤ ((255 : ℤ) : ℚ) := max_le (by norm_num) (by push_cast; linarith)
          calc ⌊max 0 (255 * (ratio - 1))⌋ ≤ ⌊((255 : ℤ) : ℚ)⌋ := Int.floor_le_floor this
            _ = 255 := Int.floor_intCast 255
        have hz : ⌊max 0 (255 * (ratio - 1))⌋ = 0 ∨ ⌊max 0 (255 * (1 - ratio))⌋ = 0 := by
          rcases le_total ratio 1 with h | h
          · left
            rw [max_eq_left (by linarith)]
            simp
          · right
            rw [max_eq_left (by linarith)]
            simp
        refine ⟨hr0', hr255, ?_, ?_, hb0, hb255, by ring, hz⟩
        · rcases hz with h | h <;> omega
        · omega

/-- **C152** (extremes): the smallest value is blue, the largest red; with equal extremes everything is green. -/
theorem C152_extremes (lo hi : ℚ) (h : lo < hi) :
    rgbColor lo hi lo = Res.ok ⟨0, 0, 255⟩ ∧ rgbColor lo hi hi = Res.ok ⟨255, 0, 0⟩ ∧
    rgbColor lo lo lo = Res.ok ⟨0, 255, 0⟩ := by
  have hne : hi - lo ≠ 0 := by linarith
  refine ⟨?_, ?_, ?_⟩
  · unfold rgbColor
    rw [if_neg (by push Not; exact ⟨le_refl _, h.le⟩), if_neg hne]
    have : (2 * (lo - lo) / (hi - lo)) = 0 := by simp
    rw [this]
    norm_num
  · unfold rgbColor
    rw [if_neg (by push Not; exact ⟨h.le, le_refl _⟩), if_neg hne]
    have : (2 * (hi - lo) / (hi - lo)) = 2 := by field_simp
    rw [this]
    norm_num
  · unfold rgbColor
    rw [if_neg (by push Not; exact ⟨le_refl _, le_refl _⟩), if_pos (by ring)]
    rfl

/-- **C152** (order): a larger value is not less red and not more blue. -/
theorem C152_monotone (lo hi v w : ℚ) (c d : Rgb) (h : v ≤ w) (hc : rgbColor lo hi v = Res.ok c)
    (hd : rgbColor lo hi w = Res.ok d) : c.r ≤ d.r ∧ d.b ≤ c.b := by
  unfold rgbColor at hc hd
  split at hc
  · simp at hc
  · split at hd
    · simp at hd
    · rename_i hv hw
      push Not at hv hw
      split at hc
      · rename_i he
        rw [if_pos he] at hd
        cases hc
        cases hd
        simp
      · rename_i hne
        rw [if_neg hne] at hd
        have hpos : 0 < hi - lo := lt_of_le_of_ne (by linarith [hv.1, hv.2]) (Ne.symm hne)
        have hr : 2 * (v - lo) / (hi - lo) ≤ 2 * (w - lo) / (hi - lo) :=
          div_le_div_of_nonneg_right (by linarith) hpos.le
        generalize 2 * (v - lo) / (hi - lo) = x at hc hr
        generalize 2 * (w - lo) / (hi - lo) = y at hd hr
        simp only [Res.ok.injEq] at hc hd
        subst hc
        subst hd
        exact ⟨Int.floor_le_floor (max_le_max (le_refl _) (by linarith)),
          Int.floor_le_floor (max_le_max (le_refl _) (by linarith))⟩

/-! ## Gas -/

theorem raise_big (big : ℚ) (points : List ℚ) (h : ∀ v ∈ points, v ≤ big) : raise big points = big := by
  unfold raise
  induction points with
  | nil => rfl
  | cons p ps ih =>
    rw [List.foldl_cons, if_neg (not_lt.mpr (h p (by simp)))]
    exact ih fun v hv => h v (List.mem_cons_of_mem _ hv)

theorem gasStep_start (big : ℚ) (hb : 0 < big) (points : List ℚ) (h : ∀ v ∈ points, v ≤ big) :
    gasStep (big, -big) points = (big, big) := by
  simp only [gasStep, raise_big big points h, lt_irrefl, if_false, gt_iff_lt]
  rw [if_pos (by linarith)]

theorem gasStep_big (big : ℚ) (points : List ℚ) (h : ∀ v ∈ points, v ≤ big) :
    gasStep (big, big) points = (big, big) := by
  simp [gasStep, raise_big big points h]

theorem gasSteps_big (big : ℚ) (steps : List (List ℚ)) (h : ∀ points ∈ steps, ∀ v ∈ points, v ≤ big) :
    steps.foldl gasStep (big, big) = (big, big) := by
  induction steps with
  | nil => rfl
  | cons p ps ih =>
    rw [List.foldl_cons, gasStep_big big p (h p (by simp))]
    exact ih fun q hq => h q (List.mem_cons_of_mem _ hq)

theorem gasSteps_start (big : ℚ) (hb : 0 < big) (steps : List (List ℚ))
    (h : ∀ points ∈ steps, ∀ v ∈ points, v ≤ big) :
    steps.foldl gasStep (big, -big) = if steps = [] then (big, -big) else (big, big) := by
  cases steps with
  | nil => rfl
  | cons p ps =>
    rw [List.foldl_cons, gasStep_start big hb p (h p (by simp)), if_neg (by simp)]
    exact gasSteps_big big ps fun q hq => h q (List.mem_cons_of_mem _ hq)

theorem gasMinMax_big (big : ℚ) (results : List (List (List ℚ)))
    (h : ∀ steps ∈ results, ∀ points ∈ steps, ∀ v ∈ points, v ≤ big) :
    results.foldl (fun mm steps => steps.foldl gasStep mm) (big, big) = (big, big) := by
  induction results with
  | nil => rfl
  | cons s ss ih =>
    rw [List.foldl_cons, gasSteps_big big s (h s (by simp))]
    exact ih fun q hq => h q (List.mem_cons_of_mem _ hq)

/-- Whatever the results are, both extremes are the largest `double`, if there are any results. -/
theorem gasMinMax_eq (big : ℚ) (hb : 0 < big) (results : List (List (List ℚ)))
    (h : ∀ steps ∈ results, ∀ points ∈ steps, ∀ v ∈ points, v ≤ big) (hne : ∃ steps ∈ results, steps ≠ []) :
    gasMinMax big results = (big, big) := by
  unfold gasMinMax
  induction results with
  | nil => simp at hne
  | cons s ss ih =>
    rw [List.foldl_cons, gasSteps_start big hb s (h s (by simp))]
    by_cases hs : s = []
    · rw [if_pos hs]
      apply ih fun q hq => h q (List.mem_cons_of_mem _ hq)
      obtain ⟨t, ht, htn⟩ := hne
      rcases List.mem_cons.mp ht with e | e
      · exact absurd (e ▸ hs) htn
      · exact ⟨t, e, htn⟩
    · rw [if_neg hs]
      exact gasMinMax_big big ss fun q hq => h q (List.mem_cons_of_mem _ hq)

theorem gasValue_big (big : ℚ) (steps : List (List ℚ)) (h : ∀ points ∈ steps, ∀ v ∈ points, v ≤ big) :
    gasValue big steps = big := by
  unfold gasValue
  induction steps with
  | nil => rfl
  | cons p ps ih =>
    rw [List.foldl_cons, raise_big big p (h p (by simp))]
    exact ih fun q hq => h q (List.mem_cons_of_mem _ hq)

theorem gasColors_green {I : Type} (big : ℚ) (edges : List (I × List (List ℚ)))
    (h : ∀ e ∈ edges, ∀ points ∈ e.2, ∀ v ∈ points, v ≤ big) :
    gasColors (big, big) (edges.map fun e => (e.1, some e.2)) =
      Res.ok (edges.map fun e => (e.1, (⟨0, 255, 0⟩ : Rgb))) := by
  induction edges with
  | nil => rfl
  | cons e es ih =>
    have h1 : rgbColor big big big = Res.ok ⟨0, 255, 0⟩ := by
      simp [rgbColor]
    simp only [List.map_cons, gasColors, gasValue_big big e.2 (h e (by simp)), h1, Res.ok_bind,
      ih fun q hq => h q (List.mem_cons_of_mem _ hq)]

/-- **C150** (what happens): whatever the results are, as soon as there is a time step with pressures, the scale goes from
the largest number to the largest number, and every edge is painted green, as is the legend. -/
theorem C150_actual {I : Type} (big : ℚ) (hb : 0 < big) (results : List (List (List ℚ)))
    (edges : List (I × List (List ℚ)))
    (h : ∀ steps ∈ results, ∀ points ∈ steps, ∀ v ∈ points, v ≤ big) (hne : ∃ steps ∈ results, steps ≠ [])
    (he : ∀ e ∈ edges, e.2 ∈ results) :
    gasColors (gasMinMax big results) (edges.map fun e => (e.1, some e.2)) =
      Res.ok (edges.map fun e => (e.1, (⟨0, 255, 0⟩ : Rgb))) ∧
    (∀ i, legendColor (gasMinMax big results) i = Res.ok ⟨0, 255, 0⟩) ∧ gasMinMax big results = (big, big) := by
  rw [gasMinMax_eq big hb results h hne]
  refine ⟨gasColors_green big edges fun e hem => h _ (he e hem), ?_, rfl⟩
  intro i
  simp [legendColor, rgbColor]

/-- Two pipes, with the pressures 1 and 2. -/
def twoPipes : List (List (List ℚ)) := [[[1]], [[2]]]

/-- **C150** is false: the pipe with the largest pressure is green. -/
theorem C150_false : ¬ C150Statement := by
  intro h
  obtain ⟨colors, hc, hred⟩ := h 10 twoPipes (by norm_num) (by
    intro steps hs
    simp only [twoPipes, List.mem_cons, List.not_mem_nil, or_false] at hs
    rcases hs with rfl | rfl <;> norm_num) ⟨[[1]], by simp [twoPipes], [[2]], by simp [twoPipes], by
      norm_num⟩
  have hm : gasMinMax 10 twoPipes = (10, 10) := gasMinMax_eq 10 (by norm_num) twoPipes (by
    intro steps hs
    simp only [twoPipes, List.mem_cons, List.not_mem_nil, or_false] at hs
    rcases hs with rfl | rfl <;> norm_num) ⟨[[1]], by simp [twoPipes], by simp⟩
  have hg := gasColors_green 10 [((0 : ℕ), [[(1 : ℚ)]]), (1, [[2]])] (by
    intro e he
    simp only [List.mem_cons, List.not_mem_nil, or_false] at he
    rcases he with rfl | rfl <;> norm_num)
  rw [hm, show (twoPipes.map some).zipIdx.map Prod.swap =
    [((0 : ℕ), [[(1 : ℚ)]]), (1, [[2]])].map fun e => (e.1, some e.2) by simp [twoPipes], hg] at hc
  cases hc
  have := hred 1 [[2]] (by simp [twoPipes]) ⟨2, by simp, by
    intro other ho w hw
    simp only [twoPipes, List.mem_cons, List.not_mem_nil, or_false] at ho
    rcases ho with rfl | rfl
    · simp at hw
      norm_num [hw]
    · simp at hw
      norm_num [hw]⟩
  simp at this

/-! ## Power -/

theorem powerStep_bounds (mm : ℚ × ℚ) (P : ℚ) :
    (powerStep mm P).1 = min mm.1 P ∧ (powerStep mm P).2 = max mm.2 P := by
  unfold powerStep
  constructor
  · simp only
    by_cases h : P < mm.1
    · rw [if_pos h, min_eq_right h.le]
    · rw [if_neg h, min_eq_left (not_lt.mp h)]
  · simp only [gt_iff_lt]
    by_cases h : mm.2 < P
    · rw [if_pos h, max_eq_right h.le]
    · rw [if_neg h, max_eq_left (not_lt.mp h)]

/-- The extremes after some more values. -/
theorem powerFold (Ps : List ℚ) : ∀ mm : ℚ × ℚ,
    ((Ps.foldl powerStep mm).1 ∈ mm.1 :: Ps ∧ ∀ v ∈ mm.1 :: Ps, (Ps.foldl powerStep mm).1 ≤ v) ∧
    ((Ps.foldl powerStep mm).2 ∈ mm.2 :: Ps ∧ ∀ v ∈ mm.2 :: Ps, v ≤ (Ps.foldl powerStep mm).2) := by
  induction Ps with
  | nil => intro mm; simp
  | cons P Ps ih =>
    intro mm
    obtain ⟨⟨h1, h2⟩, h3, h4⟩ := ih (powerStep mm P)
    obtain ⟨e1, e2⟩ := powerStep_bounds mm P
    rw [List.foldl_cons]
    rw [e1] at h1 h2
    rw [e2] at h3 h4
    refine ⟨⟨?_, ?_⟩, ?_, ?_⟩
    · rcases List.mem_cons.mp h1 with h | h
      · rcases min_choice mm.1 P with hm | hm <;> rw [h, hm] <;> simp
      · exact List.mem_cons_of_mem _ (List.mem_cons_of_mem _ h)
    · intro v hv
      have h0 := h2 _ List.mem_cons_self
      rcases List.mem_cons.mp hv with rfl | hv
      · exact h0.trans (min_le_left _ _)
      · rcases List.mem_cons.mp hv with rfl | hv
        · exact h0.trans (min_le_right _ _)
        · exact h2 v (List.mem_cons_of_mem _ hv)
    · rcases List.mem_cons.mp h3 with h | h
      · rcases max_choice mm.2 P with hm | hm <;> rw [h, hm] <;> simp
      · exact List.mem_cons_of_mem _ (List.mem_cons_of_mem _ h)
    · intro v hv
      have h0 := h4 _ List.mem_cons_self
      rcases List.mem_cons.mp hv with rfl | hv
      · exact (le_max_left _ _).trans h0
      · rcases List.mem_cons.mp hv with rfl | hv
        · exact (le_max_right _ _).trans h0
        · exact h4 v (List.mem_cons_of_mem _ hv)

theorem powerType_flatten (nodes : List (List ℚ)) : ∀ mm, powerType mm nodes = nodes.flatten.foldl powerStep mm := by
  unfold powerType
  induction nodes with
  | nil => intro mm; rfl
  | cons n ns ih => intro mm; rw [List.foldl_cons, ih, List.flatten_cons, List.foldl_append]

theorem powerTypes_flatten (types : List (List (List ℚ))) :
    ∀ mm, types.foldl powerType mm = types.flatten.flatten.foldl powerStep mm := by
  induction types with
  | nil => intro mm; rfl
  | cons n ns ih =>
    intro mm
    rw [List.foldl_cons, ih, List.flatten_cons, List.flatten_append, List.foldl_append, powerType_flatten]

/-- **C151** (scale): the extremes of the scale are the smallest and the largest active power in the results. -/
theorem C151_scale (big tiny : ℚ) (types : List (List (List ℚ))) (hne : types ≠ [])
    (h : ∀ nodes ∈ types, nodes ≠ [] ∧ ∀ Ps ∈ nodes, Ps ≠ []) :
    ∃ lo hi, powerMinMax big tiny types = Res.ok (lo, hi) ∧
      IsLeast {v | ∃ nodes ∈ types, ∃ Ps ∈ nodes, v ∈ Ps} lo ∧
      IsGreatest {v | ∃ nodes ∈ types, ∃ Ps ∈ nodes, v ∈ Ps} hi := by
  cases types with
  | nil => exact absurd rfl hne
  | cons nodes types =>
    obtain ⟨hn, hP⟩ := h nodes (by simp)
    cases nodes with
    | nil => exact absurd rfl hn
    | cons first nodes =>
      have hf := hP first (by simp)
      cases first with
      | nil => exact absurd rfl hf
      | cons P Ps =>
        have hmem : ∀ v, v ∈ ((((P :: Ps) :: nodes) :: types).flatten.flatten) ↔
            ∃ ns ∈ (((P :: Ps) :: nodes) :: types), ∃ Qs ∈ ns, v ∈ Qs := by
          intro v
          simp only [List.mem_flatten]
          constructor
          · rintro ⟨Qs, ⟨ns, h1, h2⟩, h3⟩
            exact ⟨ns, h1, Qs, h2, h3⟩
          · rintro ⟨ns, h1, Qs, h2, h3⟩
            exact ⟨Qs, ⟨ns, h1, h2⟩, h3⟩
        obtain ⟨⟨a1, a2⟩, a3, a4⟩ := powerFold ((((P :: Ps) :: nodes) :: types).flatten.flatten) (P, P)
        have hPm : P ∈ ((((P :: Ps) :: nodes) :: types).flatten.flatten) := by
          rw [hmem]
          exact ⟨(P :: Ps) :: nodes, by simp, P :: Ps, by simp, by simp⟩
        have hc : ∀ v, v ∈ P :: ((((P :: Ps) :: nodes) :: types).flatten.flatten) ↔
            ∃ ns ∈ (((P :: Ps) :: nodes) :: types), ∃ Qs ∈ ns, v ∈ Qs := by
          intro v
          rw [← hmem, List.mem_cons]
          constructor
          · rintro (rfl | h)
            · exact hPm
            · exact h
          · exact Or.inr
        refine ⟨_, _, ?_, ⟨(hc _).mp a1, fun v hv => a2 v ((hc v).mpr hv)⟩,
          (hc _).mp a3, fun v hv => a4 v ((hc v).mpr hv)⟩
        simp only [powerMinMax, Res.get, List.getElem?_cons_zero, Res.ok_bind, powerTypes_flatten]

/-- The value after the powers of a node. -/
def raisePower (value : ℚ) (Ps : List ℚ) : ℚ := Ps.foldl (fun v P => if v < P then P else v) value

theorem raisePower_spec (Ps : List ℚ) : ∀ value : ℚ,
    raisePower value Ps ∈ value :: Ps ∧ ∀ v ∈ value :: Ps, v ≤ raisePower value Ps := by
  unfold raisePower
  induction Ps with
  | nil => intro value; simp
  | cons P Ps ih =>
    intro value
    rw [List.foldl_cons]
    obtain ⟨h1, h2⟩ := ih (if value < P then P else value)
    have hle : value ≤ (if value < P then P else value) ∧ P ≤ (if value < P then P else value) := by
      by_cases h : value < P
      · rw [if_pos h]; exact ⟨h.le, le_refl _⟩
      · rw [if_neg h]; exact ⟨le_refl _, not_lt.mp h⟩
    refine ⟨?_, ?_⟩
    · rcases List.mem_cons.mp h1 with h | h
      · rw [h]
        by_cases hv : value < P
        · rw [if_pos hv]; simp
        · rw [if_neg hv]; simp
      · exact List.mem_cons_of_mem _ (List.mem_cons_of_mem _ h)
    · intro v hv
      have h0 := h2 _ List.mem_cons_self
      rcases List.mem_cons.mp hv with rfl | hv
      · exact hle.1.trans h0
      · rcases List.mem_cons.mp hv with rfl | hv
        · exact hle.2.trans h0
        · exact h2 v (List.mem_cons_of_mem _ hv)

/-- Specification: the colours of the nodes of one type. Each is the colour of the largest value of the nodes up to this
one. -/
def PaintedInOrder {I : Type} (lo hi : ℚ) (nodes : List (I × List ℚ)) (colors : List (I × Rgb)) : Prop :=
  colors.map Prod.fst = nodes.map Prod.fst ∧ ∀ (k : ℕ) (c : I × Rgb), colors[k]? = some c →
    ∃ m, IsGreatest {v | ∃ n ∈ nodes.take (k + 1), v ∈ n.2} m ∧ rgbColor lo hi m = Res.ok c.2

theorem powerColorsFrom_spec {I : Type} (mm : ℚ × ℚ) (nodes : List (I × List ℚ)) :
    ∀ (value : ℚ) (before : List ℚ),
    (before = [] ∧ value = mm.1 ∨ IsGreatest {v | v ∈ before} value) →
    (∀ v ∈ before, mm.1 ≤ v ∧ v ≤ mm.2) →
    (∀ n ∈ nodes, n.2 ≠ [] ∧ ∀ v ∈ n.2, mm.1 ≤ v ∧ v ≤ mm.2) →
    ∃ colors, powerColorsFrom mm value (nodes.map fun n => (n.1, some n.2)) = Res.ok colors ∧
      colors.map Prod.fst = nodes.map Prod.fst ∧ ∀ (k : ℕ) (c : I × Rgb), colors[k]? = some c →
        ∃ m, IsGreatest {v | v ∈ before ∨ ∃ n ∈ nodes.take (k + 1), v ∈ n.2} m ∧ rgbColor mm.1 mm.2 m = Res.ok c.2 := by
  induction nodes with
  | nil => intro value before _ _ _; exact ⟨[], rfl, rfl, by simp⟩
  | cons n ns ih =>
    intro value before hb hbr hn
    obtain ⟨hne, hnr⟩ := hn n (by simp)
    obtain ⟨r1, r2⟩ := raisePower_spec n.2 value
    have hg : IsGreatest {v | v ∈ before ++ n.2} (raisePower value n.2) := by
      rcases hb with ⟨rfl, rfl⟩ | hb
      · refine ⟨?_, fun v hv => r2 v (List.mem_cons_of_mem _ (by simpa using hv))⟩
        rcases List.mem_cons.mp r1 with h | h
        · obtain ⟨v, hv⟩ := List.exists_mem_of_ne_nil _ hne
          have h1 := r2 v (List.mem_cons_of_mem _ hv)
          have h2 := (hnr v hv).1
          have : v = raisePower mm.1 n.2 := le_antisymm h1 (h.le.trans h2)
          rw [← this]
          simpa using hv
        · simpa using h
      · refine ⟨?_, ?_⟩
        · rcases List.mem_cons.mp r1 with h | h
          · rw [h]
            exact List.mem_append_left _ hb.1
          · exact List.mem_append_right _ h
        · intro v hv
          rcases List.mem_append.mp hv with h | h
          · exact (hb.2 h).trans (r2 value List.mem_cons_self)
          · exact r2 v (List.mem_cons_of_mem _ h)
    have hr : ∀ v ∈ before ++ n.2, mm.1 ≤ v ∧ v ≤ mm.2 := by
      intro v hv
      rcases List.mem_append.mp hv with h | h
      · exact hbr v h
      · exact hnr v h
    obtain ⟨color, hcol⟩ := rgbColor_ok (hr _ hg.1).1 (hr _ hg.1).2
    obtain ⟨rest, hrest, hids, hcs⟩ := ih (raisePower value n.2) (before ++ n.2) (Or.inr hg) hr
      fun q hq => hn q (List.mem_cons_of_mem _ hq)
    refine ⟨(n.1, color) :: rest, ?_, by simp [hids], ?_⟩
    · simp only [List.map_cons, powerColorsFrom]
      rw [show List.foldl (fun v P => if v < P then P else v) value n.2 = raisePower value n.2 from rfl, hcol,
        Res.ok_bind, hrest, Res.ok_bind]
    · intro k c hc
      cases k with
      | zero =>
        simp only [List.getElem?_cons_zero, Option.some.injEq] at hc
        subst hc
        refine ⟨_, ?_, hcol⟩
        have : {v | v ∈ before ∨ ∃ m ∈ (n :: ns).take (0 + 1), v ∈ m.2} = {v | v ∈ before ++ n.2} := by
          ext v
          simp
        rw [this]
        exact hg
      | succ k =>
        rw [List.getElem?_cons_succ] at hc
        obtain ⟨m, hm, hmc⟩ := hcs k c hc
        refine ⟨m, ?_, hmc⟩
        have : {v | v ∈ before ∨ ∃ q ∈ (n :: ns).take (k + 1 + 1), v ∈ q.2} =
            {v | v ∈ before ++ n.2 ∨ ∃ q ∈ ns.take (k + 1), v ∈ q.2} := by
          ext v
          simp only [List.take_succ_cons, List.mem_cons, exists_eq_or_imp, List.mem_append, Set.mem_ofPred_eq, or_assoc]
        rw [this]
        exact hm

/-- **C151** in full: if the nodes that are drawn have results, the program finishes, and each node is painted with the
colour of its own largest active power, on the scale from the smallest to the largest active power of all nodes. -/
def C151Statement (I : Type) : Prop :=
  ∀ (big tiny : ℚ) (types : List (List (I × List ℚ))), types ≠ [] →
    (∀ nodes ∈ types, nodes ≠ [] ∧ ∀ n ∈ nodes, n.2 ≠ []) →
    ∃ lo hi colors, powerMinMax big tiny (types.map fun nodes => nodes.map Prod.snd) = Res.ok (lo, hi) ∧
      powerColors (lo, hi) (types.map fun nodes => nodes.map fun n => (n.1, some n.2)) = Res.ok colors ∧
      List.Forall₂ (fun n c => c.1 = n.1 ∧ PaintedByOwn lo hi n.2 c.2) types.flatten colors

theorem raise_spec (points : List ℚ) : ∀ start : ℚ, start ≤ raise start points ∧ (∀ v ∈ points, v ≤ raise start points) ∧
    (raise start points = start ∨ raise start points ∈ points) := by
  induction points with
  | nil => intro start; simp [raise]
  | cons p points ih =>
    intro start
    have h : raise start (p :: points) = raise (if p > start then p else start) points := rfl
    rw [h]
    obtain ⟨h1, h2, h3⟩ := ih (if p > start then p else start)
    have hs : start ≤ (if p > start then p else start) ∧ p ≤ (if p > start then p else start) := by
      split
      · rename_i hp; exact ⟨hp.le, le_rfl⟩
      · rename_i hp; exact ⟨le_rfl, not_lt.mp hp⟩
    refine ⟨hs.1.trans h1, ?_, ?_⟩
    · intro v hv
      rcases List.mem_cons.mp hv with rfl | hv
      · exact hs.2.trans h1
      · exact h2 v hv
    · rcases h3 with h3 | h3
      · rw [h3]
        split
        · exact Or.inr (by simp)
        · exact Or.inl rfl
      · exact Or.inr (List.mem_cons_of_mem _ h3)

theorem gasValue_flatten (steps : List (List ℚ)) : ∀ lo, gasValue lo steps = raise lo steps.flatten := by
  induction steps with
  | nil => intro lo; rfl
  | cons p steps ih =>
    intro lo
    show gasValue (raise lo p) steps = _
    rw [ih]
    simp [raise, List.foldl_append]

/-- The painting of the edges would be right with a right scale: with any scale that contains all pressures each edge is painted with the colour of its own largest pressure. So only
the scale is the reason for `C150_false`. -/
theorem C150_painted {I : Type} (lo hi : ℚ) (edges : List (I × List (List ℚ)))
    (h : ∀ e ∈ edges, e.2.flatten ≠ [] ∧ ∀ v ∈ e.2.flatten, lo ≤ v ∧ v ≤ hi) :
    ∃ colors, gasColors (lo, hi) (edges.map fun e => (e.1, some e.2)) = Res.ok colors ∧
      List.Forall₂ (fun e c => c.1 = e.1 ∧ PaintedByOwn lo hi e.2.flatten c.2) edges colors := by
  induction edges with
  | nil => exact ⟨[], rfl, List.Forall₂.nil⟩
  | cons e edges ih =>
    obtain ⟨colors, hc, hf⟩ := ih fun e he => h e (List.mem_cons_of_mem _ he)
    obtain ⟨hne, hr⟩ := h e (by simp)
    obtain ⟨h1, h2, h3⟩ := raise_spec e.2.flatten lo
    rw [← gasValue_flatten] at h1 h2 h3
    have hmem : gasValue lo e.2 ∈ e.2.flatten := by
      rcases h3 with h3 | h3
      · obtain ⟨v, hv⟩ := List.exists_mem_of_ne_nil _ hne
        have : gasValue lo e.2 = v := le_antisymm (h3.le.trans (hr v hv).1) (h2 v hv)
        rw [this]; exact hv
      · exact h3
    obtain ⟨c, hcol⟩ := rgbColor_ok (hr _ hmem).1 (hr _ hmem).2
    refine ⟨(e.1, c) :: colors, ?_, List.Forall₂.cons ⟨rfl, gasValue lo e.2, ⟨hmem, fun v hv => h2 v hv⟩, hcol⟩ hf⟩
    simp only [List.map_cons, gasColors, hcol, hc, Res.ok_bind]

/-- Two pipes, each painted by its own largest pressure. -/
example : ∀ e ∈ [(1, [[40, 50], [45]]), ((2 : ℕ), [[60, (55 : ℚ)]])], e.2.flatten ≠ [] ∧ ∀ v ∈ e.2.flatten, 40 ≤ v ∧ v ≤ (60 : ℚ) := by
  decide +kernel

/-- **C152** (legend): the legend begins with the colour of the smallest value, its middle is green, it ends with the colour of the largest value, and all its colours exist. -/
theorem C152_legend (lo hi : ℚ) (h : lo < hi) : legendColor (lo, hi) 0 = rgbColor lo hi lo ∧ legendColor (lo, hi) 50 = Res.ok ⟨0, 255, 0⟩ ∧
    legendColor (lo, hi) 100 = rgbColor lo hi hi ∧ ∀ i ≤ 100, ∃ c, legendColor (lo, hi) i = Res.ok c := by
  have hpos : 0 < hi - lo := by linarith
  refine ⟨by simp [legendColor], ?_, ?_, ?_⟩
  · unfold legendColor rgbColor
    simp only
    push_cast
    have e : lo + 50 * (1 / 100) * (hi - lo) - lo = (hi - lo) / 2 := by ring
    rw [if_neg (by push Not; constructor <;> linarith), if_neg hpos.ne', e]
    have : 2 * ((hi - lo) / 2) / (hi - lo) = 1 := by field_simp
    rw [this]
    norm_num
  · unfold legendColor
    simp only
    congr 1
    push_cast
    ring
  · intro i hi100
    have hi' : (i : ℚ) ≤ 100 := by exact_mod_cast hi100
    have hi0 : (0 : ℚ) ≤ i := Nat.cast_nonneg i
    exact rgbColor_ok (by simp only; nlinarith) (by simp only; nlinarith)

/-- **C151** (part): each node is painted with the colour of the largest active power of the nodes of its type up to this
node. (Missing: its own largest active power, see `C151_false`. For the first node of each type this is the same.) -/
theorem C151_partial {I : Type} (big tiny : ℚ) (types : List (List (I × List ℚ))) (hne : types ≠ [])
    (h : ∀ nodes ∈ types, nodes ≠ [] ∧ ∀ n ∈ nodes, n.2 ≠ []) :
    ∃ lo hi colors, powerMinMax big tiny (types.map fun nodes => nodes.map Prod.snd) = Res.ok (lo, hi) ∧
      powerColors (lo, hi) (types.map fun nodes => nodes.map fun n => (n.1, some n.2)) = Res.ok colors.flatten ∧
      List.Forall₂ (PaintedInOrder lo hi) types colors := by
  obtain ⟨lo, hi, hm, hlo, hhi⟩ := C151_scale big tiny (types.map fun nodes => nodes.map Prod.snd) (by simpa using hne) (by
    intro nodes hn
    obtain ⟨ns, hns, rfl⟩ := List.mem_map.mp hn
    refine ⟨by simpa using (h ns hns).1, ?_⟩
    intro Ps hPs
    obtain ⟨n, hn', rfl⟩ := List.mem_map.mp hPs
    exact (h ns hns).2 n hn')
  have hrange : ∀ nodes ∈ types, ∀ n ∈ nodes, ∀ v ∈ n.2, lo ≤ v ∧ v ≤ hi := by
    intro nodes hn n hnn v hv
    have : v ∈ {v | ∃ ns ∈ types.map fun nodes => nodes.map Prod.snd, ∃ Ps ∈ ns, v ∈ Ps} :=
      ⟨_, List.mem_map.mpr ⟨nodes, hn, rfl⟩, n.2, List.mem_map.mpr ⟨n, hnn, rfl⟩, hv⟩
    exact ⟨hlo.2 this, hhi.2 this⟩
  have key : ∀ ts : List (List (I × List ℚ)), (∀ nodes ∈ ts, ∀ n ∈ nodes, n.2 ≠ [] ∧ ∀ v ∈ n.2, lo ≤ v ∧ v ≤ hi) →
      ∃ colors, powerColors (lo, hi) (ts.map fun nodes => nodes.map fun n => (n.1, some n.2)) =
        Res.ok colors.flatten ∧ List.Forall₂ (PaintedInOrder lo hi) ts colors := by
    intro ts
    induction ts with
    | nil => intro _; exact ⟨[], rfl, List.Forall₂.nil⟩
    | cons t ts ih =>
      intro hts
      obtain ⟨cs, hcs, hf⟩ := ih fun q hq => hts q (List.mem_cons_of_mem _ hq)
      obtain ⟨c, hc, hids, hk⟩ := powerColorsFrom_spec (lo, hi) t lo [] (Or.inl ⟨rfl, rfl⟩) (by simp) (hts t (by simp))
      refine ⟨c :: cs, by simp only [List.map_cons, powerColors, hc, hcs, Res.ok_bind, List.flatten_cons],
        List.Forall₂.cons ⟨hids, ?_⟩ hf⟩
      intro k d hd
      obtain ⟨m, hm1, hm2⟩ := hk k d hd
      exact ⟨m, by simpa using hm1, hm2⟩
  obtain ⟨colors, hc, hf⟩ := key types fun nodes hn n hnn => ⟨(h nodes hn).2 n hnn, hrange nodes hn n hnn⟩
  exact ⟨lo, hi, colors, hm, hc, hf⟩

/-- Two nodes of one type, the first with the larger power. -/
def twoNodes : List (List (ℕ × List ℚ)) := [[(1, [3]), (2, [1])]]

theorem twoNodes_filled : ∀ nodes ∈ twoNodes, nodes ≠ [] ∧ ∀ n ∈ nodes, n.2 ≠ [] := by
  intro nodes hn
  simp only [twoNodes, List.mem_singleton] at hn
  subst hn
  refine ⟨by simp, ?_⟩
  intro n hn
  simp only [List.mem_cons, List.not_mem_nil, or_false] at hn
  rcases hn with rfl | rfl <;> simp

/-- **C151** is false: the node with the smallest power is red, as the one before it is. -/
theorem C151_false : ¬ C151Statement ℕ := by
  intro h
  obtain ⟨lo, hi, colors, hm, hc, hf⟩ := h 10 0 twoNodes (by simp [twoNodes]) twoNodes_filled
  have hm' : powerMinMax 10 0 (twoNodes.map fun nodes => nodes.map Prod.snd) = Res.ok (1, 3) := by
    norm_num [powerMinMax, twoNodes, powerType, powerStep, Res.get]
  rw [hm'] at hm
  cases hm
  have hc' : powerColors (1, 3) (twoNodes.map fun nodes => nodes.map fun n => (n.1, some n.2)) =
      Res.ok [(1, ⟨255, 0, 0⟩), (2, ⟨255, 0, 0⟩)] := by
    have h3 := (C152_extremes 1 3 (by norm_num)).2.1
    norm_num [powerColors, powerColorsFrom, twoNodes, h3]
  rw [hc'] at hc
  cases hc
  simp only [twoNodes, List.flatten_cons, List.flatten_nil, List.append_nil] at hf
  have h2 := (List.forall₂_cons.mp (List.forall₂_cons.mp hf).2).1
  obtain ⟨_, m, hmg, hcol⟩ := h2
  have : m = 1 := by simpa using hmg.1
  rw [this, (C152_extremes 1 3 (by norm_num)).1] at hcol
  simp at hcol

/-! ## Examples -/

example : rgbColor 0 100 25 = Res.ok ⟨0, 128, 127⟩ := by
  have h : (⌊(255 / 2 : ℚ)⌋ : ℤ) = 127 := by rw [Int.floor_eq_iff]; norm_num
  norm_num [rgbColor, h]

example : ∀ i, legendColor (gasMinMax 10 twoPipes) i = Res.ok ⟨0, 255, 0⟩ :=
  (C150_actual 10 (by norm_num) twoPipes ([] : List (ℕ × List (List ℚ))) (by
    intro steps hs
    simp only [twoPipes, List.mem_cons, List.not_mem_nil, or_false] at hs
    rcases hs with rfl | rfl <;> norm_num) ⟨[[1]], by simp [twoPipes], by simp⟩ (by simp)).2.1

example : ∃ lo hi colors, powerMinMax 10 0 (twoNodes.map fun nodes => nodes.map Prod.snd) = Res.ok (lo, hi) ∧
    powerColors (lo, hi) (twoNodes.map fun nodes => nodes.map fun n => (n.1, some n.2)) = Res.ok colors.flatten ∧
    List.Forall₂ (PaintedInOrder lo hi) twoNodes colors :=
  C151_partial 10 0 twoNodes (by simp [twoNodes]) twoNodes_filled

end Verif.Helpers.Heatmap
