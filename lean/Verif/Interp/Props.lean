import Verif.Interp.Lemmas
import Mathlib.Algebra.Order.Floor.Semiring
import Mathlib.Data.Rat.Floor

set_option linter.unusedSectionVars false

/-! # Properties of the interpolating vector (C01 – C07, C66) -/

set_option autoImplicit false

namespace Verif.Interp

variable {K : Type*} [Field K] [LinearOrder K] [IsStrictOrderedRing K]

/-! ## C01: exact at the nodes -/

/-- C01. Evaluating at the `i`-th interpolation point gives the `i`-th stored vector. -/
theorem C01_eval_at_node (v : IV K) (hwf : v.WF) (hs : v.points.Pairwise (· < ·))
    (i : ℕ) (hi : i < v.points.length) :
    eval v v.points[i] = vectorAtIndex v (i : ℤ) ∧
      ∃ w, vectorAtIndex v (i : ℤ) = Res.ok w ∧ w.length = v.inner ∧
        ∀ k < v.inner, w[k]? = v.values[i * v.inner + k]? := by
  have hle := step_le hwf hi
  constructor
  · rw [vectorAtIndex_ok hwf hi]
    by_cases hlast : i = v.points.length - 1
    · subst hlast
      exact eval_at_back hwf (by omega) le_rfl (by linarith [EPSILON_pos (K := K)])
    · have hl : v.points[i] < v.points[v.points.length - 1] :=
        getElem_lt_of_pairwise hs (by omega) (by omega)
      cases i with
      | zero =>
        rw [eval_at_front hwf (by omega) hl le_rfl (by linarith [EPSILON_pos (K := K)])]
        simp
      | succ i =>
        have hlt : v.points[i] < v.points[i + 1] := getElem_lt_of_pairwise hs (by omega) hi
        rw [eval_interior hwf hs hi hlt le_rfl hl]
        have hne : v.points[i + 1] - v.points[i] ≠ 0 := by
          intro h; rw [sub_eq_zero] at h; exact (ne_of_gt hlt) h
        rw [div_self hne]
        have hlen := step_le hwf (i := i) (by omega)
        congr 1
        apply List.ext_getElem
        · simp; omega
        · intro k h1 h2; simp
  · refine ⟨_, vectorAtIndex_ok hwf hi, by simp; omega, ?_⟩
    intro k hk
    exact segment_get hk

example : eval (⟨[0, 1, 3], 2, [1, 2, 3, 4, 5, 6]⟩ : IV ℚ) 1 = Res.ok [3, 4] := by
  have h := C01_eval_at_node (⟨[0, 1, 3], 2, [1, 2, 3, 4, 5, 6]⟩ : IV ℚ) (by decide)
    (by decide +kernel) 1 (by decide)
  exact h.1.trans (by decide +kernel)

/-! ## C02: affine between the nodes, no overshoot -/

/-- C02. On the cell `[pᵢ, pᵢ₊₁]` every component of the result is the affine interpolant of the two
stored values, and it lies between them. -/
theorem C02_eval_affine (v : IV K) (hwf : v.WF) (hs : v.points.Pairwise (· < ·))
    (i : ℕ) (hi : i + 1 < v.points.length) (t : K)
    (h1 : v.points[i] ≤ t) (h2 : t ≤ v.points[i + 1]) :
    ∃ r, eval v t = Res.ok r ∧ r.length = v.inner ∧
      ∀ k < v.inner, ∃ a b c, v.values[i * v.inner + k]? = some a ∧
        v.values[(i + 1) * v.inner + k]? = some b ∧ r[k]? = some c ∧
        c = a + (t - v.points[i]) * ((b - a) / (v.points[i + 1] - v.points[i])) ∧
        min a b ≤ c ∧ c ≤ max a b := by
  have hlt : v.points[i] < v.points[i + 1] := getElem_lt_of_pairwise hs (by omega) hi
  have hpos : 0 < v.points[i + 1] - v.points[i] := sub_pos.mpr hlt
  have hl0 := step_le hwf (i := i) (by omega)
  have hl1 := step_le hwf hi
  have key : ∃ r, eval v t = Res.ok r ∧ r.length = v.inner ∧ ∀ k < v.inner, ∃ a b c,
      v.values[i * v.inner + k]? = some a ∧
        v.values[(i + 1) * v.inner + k]? = some b ∧ r[k]? = some c ∧
        c = a + (t - v.points[i]) * ((b - a) / (v.points[i + 1] - v.points[i])) := by
    rcases eq_or_lt_of_le h1 with h1 | h1
    · -- at the left node
      obtain ⟨he, w, hw, hlen, hval⟩ := C01_eval_at_node v hwf hs i (by omega)
      refine ⟨w, by rw [← h1, he, hw], hlen, ?_⟩
      intro k hk
      refine ⟨v.values[i * v.inner + k]'(by omega), v.values[(i + 1) * v.inner + k]'(by omega),
        v.values[i * v.inner + k]'(by omega), by simp, by simp, ?_, ?_⟩
      · rw [hval k hk]; simp
      · rw [h1]; simp
    rcases eq_or_lt_of_le h2 with h2 | h2
    · obtain ⟨he, w, hw, hlen, hval⟩ := C01_eval_at_node v hwf hs (i + 1) hi
      refine ⟨w, by rw [h2, he, hw], hlen, ?_⟩
      intro k hk
      refine ⟨v.values[i * v.inner + k]'(by omega), v.values[(i + 1) * v.inner + k]'(by omega),
        v.values[(i + 1) * v.inner + k]'(by omega), by simp, by simp, ?_, ?_⟩
      · rw [hval k hk]; simp
      · rw [h2]; field_simp; ring
    · have hlast : t < v.points[v.points.length - 1] :=
        lt_of_lt_of_le h2 (getElem_le_of_pairwise hs (by omega) (by omega))
      refine ⟨_, eval_interior hwf hs hi h1 (le_of_lt h2) hlast, by simp; omega, ?_⟩
      intro k hk
      refine ⟨v.values[i * v.inner + k]'(by omega), v.values[(i + 1) * v.inner + k]'(by omega),
        _, by simp, by simp, ?_, rfl⟩
      rw [List.getElem?_zipWith, segment_get hk, segment_get hk]
      rw [List.getElem?_eq_getElem (by omega), List.getElem?_eq_getElem (by omega)]
      simp only [Option.some.injEq]
      field_simp; ring
  obtain ⟨r, hr, hlen, hk⟩ := key
  refine ⟨r, hr, hlen, ?_⟩
  intro k hkk
  obtain ⟨a, b, c, ha, hb, hc, hce⟩ := hk k hkk
  refine ⟨a, b, c, ha, hb, hc, hce, ?_, ?_⟩
  all_goals
    have hl0 : 0 ≤ (t - v.points[i]) / (v.points[i + 1] - v.points[i]) :=
      div_nonneg (sub_nonneg.mpr h1) hpos.le
    have hl1 : (t - v.points[i]) / (v.points[i + 1] - v.points[i]) ≤ 1 := by
      rw [div_le_one hpos]; linarith
    have hc' : c = a + ((t - v.points[i]) / (v.points[i + 1] - v.points[i])) * (b - a) := by
      rw [hce]; ring
    generalize (t - v.points[i]) / (v.points[i + 1] - v.points[i]) = lam at hl0 hl1 hc'
    rcases le_total a b with hab | hab
    · simp only [min_eq_left hab, max_eq_right hab]; nlinarith
    · simp only [min_eq_right hab, max_eq_left hab]; nlinarith

example : ∃ r, eval (⟨[0, 1, 3], 1, [1, 5, 9]⟩ : IV ℚ) 2 = Res.ok r ∧ r = [7] := by
  exact ⟨[7], by decide +kernel, rfl⟩

example : (⟨[0, 1, 3], 1, [1, 5, 9]⟩ : IV ℚ).WF ∧
    (⟨[0, 1, 3], 1, [1, 5, 9]⟩ : IV ℚ).points.Pairwise (· < ·) := by
  constructor
  · decide
  · decide +kernel

/-! ## C03: exactly the times more than EPSILON outside throw; no undefined behaviour -/

/-- C03. `operator()` throws iff the time is more than `EPSILON` outside the grid, and otherwise
returns a vector of the inner length; there is never undefined behaviour on a nonempty grid. -/
theorem C03_eval_range (v : IV K) (hwf : v.WF) (hs : v.points.Pairwise (· < ·))
    (hn : 0 < v.points.length) (t : K) :
    (eval v t = Res.throws ↔
      (t < v.points[0] - EPSILON ∨ v.points[v.points.length - 1] + EPSILON < t)) ∧
    eval v t ≠ Res.ub ∧ ∀ r, eval v t = Res.ok r → r.length = v.inner := by
  have he := EPSILON_pos (K := K)
  have hfl : v.points[0] ≤ v.points[v.points.length - 1] :=
    getElem_le_of_pairwise hs (Nat.zero_le _) (by omega)
  have hlen : ∀ s, s + v.inner ≤ v.values.length →
      ∀ r, Res.ok ((v.values.drop s).take v.inner) = Res.ok r → r.length = v.inner := by
    intro s hs r hr; injection hr with hr; subst hr; simp; omega
  have hsl := step_le hwf (i := v.points.length - 1) (by omega)
  have hs0 := step_le hwf hn
  by_cases hb : v.points[v.points.length - 1] ≤ t
  · by_cases hb2 : t ≤ v.points[v.points.length - 1] + EPSILON
    · rw [eval_at_back hwf hn hb hb2]
      refine ⟨⟨by simp, ?_⟩, by simp, hlen _ hsl⟩
      rintro (h | h) <;> linarith
    · have : eval v t = Res.throws := by
        unfold eval; rw [getLast?_eq hn, head?_eq hn]
        simp [hb, not_le.mp hb2]
      rw [this]
      exact ⟨⟨fun _ => Or.inr (not_le.mp hb2), fun _ => rfl⟩, by simp, by simp⟩
  · have hb := not_le.mp hb
    by_cases hf : t ≤ v.points[0]
    · by_cases hf2 : v.points[0] - EPSILON ≤ t
      · rw [eval_at_front hwf hn hb hf hf2]
        refine ⟨⟨by simp, ?_⟩, by simp, by simpa using hlen 0 (by omega)⟩
        rintro (h | h) <;> linarith
      · have : eval v t = Res.throws := by
          unfold eval; rw [getLast?_eq hn, head?_eq hn]
          simp [not_le.mpr hb, hf, not_le.mp hf2]
        rw [this]
        exact ⟨⟨fun _ => Or.inl (not_le.mp hf2), fun _ => rfl⟩, by simp, by simp⟩
    · have hf := not_le.mp hf
      have hne : v.points ≠ [] := by intro h; simp [h] at hn
      obtain ⟨i, hi, h1, h2⟩ := exists_cell (l := v.points) hne
        (by rw [List.head_eq_getElem]; exact hf)
        (by rw [List.getLast_eq_getElem]; exact le_of_lt hb)
      rw [eval_interior hwf hs hi h1 h2 hb]
      have := step_le hwf (i := i) (by omega)
      have := step_le hwf hi
      refine ⟨⟨by simp, ?_⟩, by simp, ?_⟩
      · rintro (h | h) <;> linarith
      · intro r hr; injection hr with hr; subst hr; simp; omega

example : eval (⟨[0, 1], 1, [1, 5]⟩ : IV ℚ) (1 + 1 / 10 ^ 9) = Res.throws := by
  refine ((C03_eval_range _ (by decide) (by decide +kernel) (by decide) _).1).mpr (Or.inr ?_)
  norm_num [EPSILON]

/-! ## C04: a vector of time steps behaves like an array -/

/-- A history of writes; rejected writes (exceptions) leave the object as it is. -/
def runWrites (v : IV K) : List (ℤ × List K) → IV K
  | [] => v
  | (i, w) :: ops =>
    match writeTimestep v i w with
    | Res.ok v' => runWrites v' ops
    | _ => runWrites v ops

/-- Specification: the last vector written to index `i` in a history. -/
def lastWrite (ops : List (ℤ × List K)) (i : ℤ) : Option (List K) :=
  (ops.reverse.find? (fun op => op.1 = i)).map Prod.snd

theorem writeTimestep_spec (v : IV K) (hwf : v.WF) (i : ℕ) (hi : i < v.points.length)
    (w : List K) (hw : w.length = v.inner) :
    ∃ v', writeTimestep v (i : ℤ) w = Res.ok v' ∧ v'.WF ∧ v'.points = v.points ∧
      v'.inner = v.inner ∧ vectorAtIndex v' (i : ℤ) = Res.ok w ∧
      ∀ j : ℕ, j < v.points.length → j ≠ i →
        vectorAtIndex v' (j : ℤ) = vectorAtIndex v (j : ℤ) := by
  have hle := step_le hwf hi
  have hstart : v.inner * i + w.length ≤ v.values.length := by rw [hw, Nat.mul_comm]; omega
  set v' : IV K := { v with values := writeSegment v.values (v.inner * i) w } with hv'
  have hwf' : v'.WF := by
    show (writeSegment v.values (v.inner * i) w).length = _
    rw [writeSegment_length hstart]; exact hwf
  refine ⟨v', ?_, hwf', rfl, rfl, ?_, ?_⟩
  · simp only [writeTimestep, Int.toNat_natCast]
    rw [if_neg (by omega), if_neg (by omega), if_pos hw]
  · rw [vectorAtIndex_ok hwf' (by exact hi)]
    show Res.ok (((writeSegment v.values (v.inner * i) w).drop (i * v.inner)).take v.inner) = _
    rw [Nat.mul_comm i, ← hw, hw]
    congr 1
    have := segment_writeSegment_same hstart
    rw [hw] at this; exact this
  · intro j hj hji
    rw [vectorAtIndex_ok hwf' (by exact hj), vectorAtIndex_ok hwf hj]
    show Res.ok (((writeSegment v.values (v.inner * i) w).drop (j * v.inner)).take v.inner) = _
    congr 1
    apply segment_writeSegment_other hstart
    rw [hw]
    rcases Nat.lt_or_gt_of_ne hji with h | h
    · left
      calc j * v.inner + v.inner = (j + 1) * v.inner := by ring
        _ ≤ i * v.inner := Nat.mul_le_mul_right _ h
        _ = v.inner * i := by ring
    · right
      calc v.inner * i + v.inner = (i + 1) * v.inner := by ring
        _ ≤ j * v.inner := Nat.mul_le_mul_right _ h

theorem writeTimestep_rejects (v : IV K) (hwf : v.WF) (hin : 0 < v.inner) (i : ℤ)
    (hi : i < 0 ∨ (v.points.length : ℤ) ≤ i) (w : List K) :
    writeTimestep v i w = Res.throws ∧ vectorAtIndex v i = Res.throws := by
  unfold writeTimestep vectorAtIndex
  by_cases h0 : i < 0
  · simp [h0]
  · have h1 : (v.points.length : ℤ) ≤ i := by omega
    have h2 : v.points.length ≤ i.toNat := by omega
    have : v.values.length < v.inner * i.toNat + v.inner := by
      rw [hwf]
      have := Nat.mul_le_mul_left v.inner h2
      rw [Nat.mul_comm v.inner v.points.length] at this
      omega
    simp [h0, this]

/-- C04. After any history of writes with vectors of the inner length, reading index `i` inside the
grid yields the last vector written to `i`, or the original contents if there was none; indices
outside of the grid are rejected; structure never changes. -/
theorem C04_array_of_vectors (v : IV K) (hwf : v.WF) (hin : 0 < v.inner)
    (ops : List (ℤ × List K)) (hops : ∀ op ∈ ops, op.2.length = v.inner) (i : ℤ) :
    vectorAtIndex (runWrites v ops) i =
      (if 0 ≤ i ∧ i < v.points.length then
        (match lastWrite ops i with
         | some w => Res.ok w
         | none => vectorAtIndex v i)
       else Res.throws) ∧
    (runWrites v ops).points = v.points ∧ (runWrites v ops).inner = v.inner ∧
    (runWrites v ops).WF := by
  induction ops generalizing v with
  | nil =>
    refine ⟨?_, rfl, rfl, hwf⟩
    split
    · simp [lastWrite, runWrites]
    · exact (writeTimestep_rejects v hwf hin i (by omega) []).2
  | cons op ops ih =>
    obtain ⟨j, w⟩ := op
    have hw : w.length = v.inner := hops (j, w) (by simp)
    have hops' : ∀ op ∈ ops, op.2.length = v.inner := fun op h => hops op (by simp [h])
    have hlast : ∀ x : ℤ, lastWrite ((j, w) :: ops) x =
        match lastWrite ops x with
        | some w' => some w'
        | none => if j = x then some w else none := by
      intro x
      simp only [lastWrite, List.reverse_cons, List.find?_append, List.find?_singleton]
      cases h : ops.reverse.find? (fun op => op.1 = x) with
      | some y => simp
      | none => by_cases hj : j = x <;> simp [hj]
    by_cases hj : 0 ≤ j ∧ j < v.points.length
    · obtain ⟨n, rfl⟩ : ∃ n : ℕ, j = n := ⟨j.toNat, by omega⟩
      have hn : n < v.points.length := by omega
      obtain ⟨v', he, hwf', hp, hinn, hsame, hother⟩ := writeTimestep_spec v hwf n hn w hw
      obtain ⟨h1, h2, h3, h4⟩ := ih v' hwf' (by omega) (by rw [hinn]; exact hops')
      have hrun : runWrites v (((n : ℤ), w) :: ops) = runWrites v' ops := by
        simp [runWrites, he]
      rw [hrun]
      refine ⟨?_, by rw [h2, hp], by rw [h3, hinn], h4⟩
      rw [h1, hp]
      split
      · rename_i hi
        rw [hlast]
        cases hl : lastWrite ops i with
        | some w' => rfl
        | none =>
          simp only
          by_cases hni : (n : ℤ) = i
          · rw [if_pos hni, ← hni]; exact hsame
          · rw [if_neg hni]
            obtain ⟨m, rfl⟩ : ∃ m : ℕ, i = m := ⟨i.toNat, by omega⟩
            exact hother m (by omega) (by omega)
      · rfl
    · have hrej := (writeTimestep_rejects v hwf hin j (by omega) w).1
      have hrun : runWrites v ((j, w) :: ops) = runWrites v ops := by
        simp [runWrites, hrej]
      rw [hrun]
      obtain ⟨h1, h2, h3, h4⟩ := ih v hwf hin hops'
      refine ⟨?_, h2, h3, h4⟩
      rw [h1]
      split
      · rename_i hi
        rw [hlast]
        cases hl : lastWrite ops i with
        | some w' => rfl
        | none => simp only; rw [if_neg (by omega)]
      · rfl

example : vectorAtIndex (runWrites (⟨[0, 1], 2, [1, 2, 3, 4]⟩ : IV ℚ)
    [(1, [7, 8]), (5, [0, 0]), (0, [9, 9]), (1, [5, 6])]) 1 = Res.ok [5, 6] := by decide +kernel

/-- C04, bulk writes: the wrong number of values is rejected, the right number replaces all steps
(step `i` is the `i`-th slice). -/
theorem C04_bulk (v : IV K) (hwf : v.WF) (w : List K) :
    (w.length ≠ v.points.length * v.inner → setValuesInBulk v w = Res.throws) ∧
    (w.length = v.points.length * v.inner →
      ∃ v', setValuesInBulk v w = Res.ok v' ∧ v'.WF ∧ v'.points = v.points ∧
        ∀ i : ℕ, i < v.points.length → ∃ s, vectorAtIndex v' (i : ℤ) = Res.ok s ∧
          s.length = v.inner ∧ ∀ k < v.inner, s[k]? = w[i * v.inner + k]?) := by
  constructor
  · intro h; simp [setValuesInBulk, hwf.symm ▸ h]
  · intro h
    refine ⟨{ v with values := w }, by simp [setValuesInBulk, h, hwf.symm], h, rfl, ?_⟩
    intro i hi
    have hwf' : IV.WF { v with values := w } := h
    have := step_le hwf' (i := i) hi
    simp only at this
    exact ⟨_, vectorAtIndex_ok hwf' hi, by simp; omega, fun k hk => segment_get hk⟩

example : setValuesInBulk (⟨[0, 1], 1, [1, 2]⟩ : IV ℚ) [3, 4] = Res.ok ⟨[0, 1], 1, [3, 4]⟩ := by
  decide +kernel

/-! ## C05: equidistant grids -/

/-- Specification of an equidistant grid from `first` to `last` with `n` steps. -/
def IsUniformGrid (pts : List K) (first last : K) (n : ℕ) : Prop :=
  pts.length = n + 1 ∧ 0 < n ∧
    ∀ i ≤ n, pts[i]? = some (first + i * ((last - first) / n))

/-- C05. The grid made from start, wished step and end is the uniform grid with the least number of
cells whose width does not exceed the wished step; it hits both ends exactly and is strictly
increasing. Invalid input is rejected. -/
theorem C05_start_delta_end [FloorRing K] (first desired last : K) :
    ((last ≤ first ∨ desired ≤ 0) → makeFromStartDeltaEnd first desired last = Res.throws) ∧
    (first < last → 0 < desired →
      ∃ d, makeFromStartDeltaEnd first desired last = Res.ok d ∧
        ∃ n, IsUniformGrid (equidistantPoints d) first last n ∧
          (last - first) / n ≤ desired ∧
          (∀ m : ℕ, 0 < m → (last - first) / m ≤ desired → n ≤ m) ∧
          (equidistantPoints d).head? = some first ∧
          (equidistantPoints d).getLast? = some last ∧
          (equidistantPoints d).Pairwise (· < ·)) := by
  constructor
  · intro h
    unfold makeFromStartDeltaEnd
    rcases h with h | h
    · simp [h]
    · by_cases h2 : last ≤ first <;> simp [h, h2]
  · intro h1 h2
    have hr : 0 < (last - first) / desired := div_pos (sub_pos.mpr h1) h2
    have hc : 0 < ⌈(last - first) / desired⌉ := Int.ceil_pos.mpr hr
    obtain ⟨n, hn⟩ : ∃ n : ℕ, ⌈(last - first) / desired⌉ = n := ⟨_, (Int.toNat_of_nonneg hc.le).symm⟩
    have hn0 : 0 < n := by omega
    have hnK : (0 : K) < n := by exact_mod_cast hn0
    refine ⟨⟨first, (last - first) / (n : K), n + 1⟩, ?_, n, ?_, ?_, ?_, ?_, ?_, ?_⟩
    · unfold makeFromStartDeltaEnd
      rw [if_neg (not_le.mpr h1), if_neg (not_le.mpr h2), hn]
      have : ((n : ℤ) + 1).toNat = n + 1 := by omega
      simp [this]
    · refine ⟨equidistantLoop_length _ _ _, hn0, ?_⟩
      intro i hi
      exact equidistantLoop_get _ _ _ _ (by simp only; omega)
    · have hle : (last - first) / desired ≤ n := by
        have := Int.le_ceil ((last - first) / desired)
        rw [hn] at this; exact_mod_cast this
      rw [div_le_iff₀ hnK]; rw [div_le_iff₀ h2] at hle; linarith
    · intro m hm hmd
      have hmK : (0 : K) < m := by exact_mod_cast hm
      have : (last - first) / desired ≤ ((m : ℤ) : K) := by
        rw [div_le_iff₀ h2]; rw [div_le_iff₀ hmK] at hmd; push_cast; linarith
      have := Int.ceil_le.mpr this
      omega
    · simp [equidistantPoints, equidistantLoop]
    · rw [List.getLast?_eq_getElem?, equidistantPoints, equidistantLoop_length]
      show (equidistantLoop _ _ (n + 1))[n + 1 - 1]? = _
      rw [equidistantLoop_get _ _ _ _ (by omega)]
      simp only [Nat.add_sub_cancel]
      congr 1; field_simp; ring
    · rw [List.pairwise_iff_getElem]
      intro i j hi hj hij
      have hl := equidistantLoop_length first ((last - first) / (n : K)) (n + 1)
      have hd : 0 < (last - first) / (n : K) := div_pos (sub_pos.mpr h1) hnK
      have ei := equidistantLoop_get first ((last - first) / (n : K)) (n + 1) i
        (by simp [equidistantPoints, hl] at hi; omega)
      have ej := equidistantLoop_get first ((last - first) / (n : K)) (n + 1) j
        (by simp [equidistantPoints, hl] at hj; omega)
      have gi : (equidistantPoints ⟨first, (last - first) / (n : K), n + 1⟩)[i] =
          first + i * ((last - first) / (n : K)) := by
        rw [List.getElem_eq_iff]; exact ei
      have gj : (equidistantPoints ⟨first, (last - first) / (n : K), n + 1⟩)[j] =
          first + j * ((last - first) / (n : K)) := by
        rw [List.getElem_eq_iff]; exact ej
      rw [gi, gj]
      have : (i : K) < j := by exact_mod_cast hij
      nlinarith

example : ∃ d, makeFromStartDeltaEnd (0 : ℚ) 3 10 = Res.ok d ∧
    equidistantPoints d = [0, 5 / 2, 5, 15 / 2, 10] := by
  refine ⟨⟨0, 5 / 2, 5⟩, ?_, ?_⟩
  · have h : ⌈(10 : ℚ) / 3⌉ = 4 := by
      rw [Int.ceil_eq_iff]; norm_num
    simp only [makeFromStartDeltaEnd, sub_zero, h]
    norm_num
    rw [show (5 : ℤ).toNat = 5 from rfl]
    norm_num
  · norm_num [equidistantPoints, equidistantLoop]

/-- C05, number of entries given: at least two entries give the uniform grid hitting both ends;
nonpositive numbers and empty intervals are rejected. For exactly one entry the code divides by
zero (`Res.ub` in the model). -/
theorem C05_start_number_end (first last : K) (number : ℤ) :
    ((number ≤ 0 ∨ last ≤ first) → makeFromStartNumberEnd first last number = Res.throws) ∧
    (2 ≤ number → first < last →
      ∃ d, makeFromStartNumberEnd first last number = Res.ok d ∧
        ∃ n : ℕ, (n : ℤ) + 1 = number ∧ IsUniformGrid (equidistantPoints d) first last n) := by
  constructor
  · intro h
    unfold makeFromStartNumberEnd
    rcases h with h | h
    · simp [h]
    · by_cases h2 : number ≤ 0 <;> simp [h, h2]
  · intro h1 h2
    obtain ⟨n, rfl⟩ : ∃ n : ℕ, number = n + 1 := ⟨(number - 1).toNat, by omega⟩
    refine ⟨⟨first, (last - first) / (n : K), n + 1⟩, ?_, n, rfl, ?_⟩
    · unfold makeFromStartNumberEnd
      rw [if_neg (by omega), if_neg (not_le.mpr h2), if_neg (by omega)]
      have : ((n : ℤ) + 1).toNat = n + 1 := by omega
      simp [this]
    · refine ⟨equidistantLoop_length _ _ _, by omega, ?_⟩
      intro i hi
      exact equidistantLoop_get _ _ _ _ (by simp only; omega)

example : (2 : ℤ) ≤ 5 ∧ (0 : ℚ) < 7 := by norm_num

/-- C05, step and number of entries given. -/
theorem C05_start_delta_number (first delta : K) (number : ℤ) :
    ((number ≤ 0 ∨ delta ≤ 0) → makeFromStartDeltaNumber first delta number = Res.throws) ∧
    (0 < number → 0 < delta →
      ∃ d, makeFromStartDeltaNumber first delta number = Res.ok d ∧
        ((equidistantPoints d).length : ℤ) = number ∧
        ∀ i : ℕ, (i : ℤ) < number → (equidistantPoints d)[i]? = some (first + i * delta)) := by
  constructor
  · intro h
    unfold makeFromStartDeltaNumber
    rcases h with h | h
    · simp [h]
    · by_cases h2 : number ≤ 0 <;> simp [h, h2]
  · intro h1 h2
    refine ⟨⟨first, delta, number.toNat⟩, ?_, ?_, ?_⟩
    · unfold makeFromStartDeltaNumber
      rw [if_neg (by omega), if_neg (not_le.mpr h2)]
    · simp [equidistantPoints, equidistantLoop_length]; omega
    · intro i hi
      exact equidistantLoop_get _ _ _ _ (by simp only; omega)

example : (0 : ℤ) < 3 ∧ (0 : ℚ) < 1 / 2 := by norm_num

/-! ## C06: unsorted points -/

/-- The full claim of C06 for one constructor: it throws on every unsorted list of points. -/
def RejectsUnsorted (construct : List K → Res (IV K)) : Prop :=
  ∀ pts : List K, ¬ pts.Pairwise (· ≤ ·) → construct pts = Res.throws

/-- C06 is false for the constructor from `std::vector` — it accepts unsorted points. -/
theorem C06_std_vector_false : ¬ RejectsUnsorted (fun pts => constructFromStdVector
    (fun _ => (0 : K)) pts 1) := by
  intro h
  have := h [1, 0] (by simp)
  simp [constructFromStdVector, isSorted] at this

/-- The constructor from `std::vector` never throws, whatever the points. -/
theorem C06_std_vector_never_throws (mem : ℕ → K) (pts : List K) (inner : ℕ) :
    ∃ v, constructFromStdVector mem pts inner = Res.ok v ∧ v.points = pts ∧ v.WF := by
  refine ⟨_, rfl, rfl, ?_⟩
  simp [IV.WF, uninit, Nat.mul_comm]

/-- C06, proved part: with assertions enabled the constructor from an Eigen vector stops exactly on
unsorted points, and the one from a start, positive step and number never stops.  Missing: the
`std::vector` constructor (see `C06_std_vector_false`) and release builds. -/
theorem C06_eigen_partial (mem : ℕ → K) (pts : List K) (inner : ℕ) :
    (constructFromEigen true mem pts inner = Res.throws ↔ ¬ pts.Pairwise (· ≤ ·)) ∧
    (∀ v, constructFromEigen true mem pts inner = Res.ok v → v.points = pts ∧ v.WF) := by
  unfold constructFromEigen
  by_cases h : pts.Pairwise (· ≤ ·)
  · have := isSorted_iff.mpr h
    constructor
    · simp [this, h]
    · intro v; simp only [this]; intro hv
      injection hv with hv; subst hv
      exact ⟨rfl, by simp [IV.WF, uninit, Nat.mul_comm]⟩
  · have : isSorted pts = false := by
      rw [← Bool.not_eq_true, isSorted_iff]; exact h
    simp [this, h]

example : constructFromEigen true (fun _ => 0) [(1 : ℚ), 0] 1 = Res.throws := by decide +kernel

/-! ## C07: equality and assignment -/

/-- C07. On well-formed vectors `==` is total and true iff inner length, points and values agree. -/
theorem C07_eq_iff (a b : IV K) (ha : a.WF) (hb : b.WF) :
    ∃ r, ivEq a b = Res.ok r ∧
      (r = true ↔ a.inner = b.inner ∧ a.points = b.points ∧ a.values = b.values) := by
  unfold ivEq haveSameStructure
  by_cases h1 : a.inner = b.inner
  · by_cases h2 : a.points = b.points
    · have hl : a.values.length = b.values.length := by rw [ha, hb, h1, h2]
      simp [h1, h2, hl]
    · by_cases h3 : a.points.length = b.points.length <;> simp [h1, h2, h3]
  · simp [h1]

/-- C07. Assignment through the base class throws iff the structures differ; otherwise the
target compares equal to the source afterwards. -/
theorem C07_assign (self other : IV K) :
    (assignBase self other = Res.throws ↔
      ¬ (self.inner = other.inner ∧ self.points = other.points)) ∧
    (∀ r, assignBase self other = Res.ok r → r = other) ∧
    assignBase self other ≠ Res.ub ∧ assignOwning self other = other := by
  unfold assignBase haveSameStructure
  by_cases h1 : other.inner = self.inner
  · by_cases h2 : other.points = self.points
    · simp [h1, h2]
      cases other; rfl
    · have h2' : ¬ self.points = other.points := fun h => h2 h.symm
      by_cases h3 : other.points.length = self.points.length <;>
        simp [h1, h2, h2', h3, assignOwning]
  · have h1' : ¬ self.inner = other.inner := fun h => h1 h.symm
    simp [h1, h1', assignOwning]

example : ∃ r, ivEq (⟨[0, 1], 1, [1, 2]⟩ : IV ℚ) ⟨[0, 1], 1, [1, 3]⟩ = Res.ok r ∧ r = false :=
  ⟨false, by decide +kernel, rfl⟩

/-! ## C66: reading an interpolating vector from json -/

theorem fillLoop_spec (v : IV K) (hwf : v.WF) (ws : List (List K)) (i : ℕ)
    (hlen : i + ws.length ≤ v.points.length) (hw : ∀ w ∈ ws, w.length = v.inner) :
    ∃ v', fillLoop v i ws = Res.ok v' ∧ v'.WF ∧ v'.points = v.points ∧ v'.inner = v.inner ∧
      (∀ j : ℕ, j < i → vectorAtIndex v' (j : ℤ) = vectorAtIndex v (j : ℤ)) ∧
      ∀ j (hj : j < ws.length), vectorAtIndex v' ((i + j : ℕ) : ℤ) = Res.ok ws[j] := by
  induction ws generalizing v i with
  | nil => exact ⟨v, rfl, hwf, rfl, rfl, fun _ _ => rfl, fun j hj => by simp at hj⟩
  | cons w ws ih =>
    simp only [List.length_cons] at hlen
    obtain ⟨v1, e1, wf1, p1, i1, s1, o1⟩ := writeTimestep_spec v hwf i (by omega) w (hw w (by simp))
    obtain ⟨v2, e2, wf2, p2, i2, f2, g2⟩ := ih v1 wf1 (i + 1) (by rw [p1]; omega)
      (by intro x hx; rw [i1]; exact hw x (by simp [hx]))
    refine ⟨v2, by simp [fillLoop, e1, e2], wf2, by rw [p2, p1], by rw [i2, i1], ?_, ?_⟩
    · intro j hj
      rw [f2 j (by omega), o1 j (by omega) (by omega)]
    · intro j hj
      cases j with
      | zero => simp only [Nat.add_zero, List.getElem_cons_zero]; rw [f2 i (by omega), s1]
      | succ j =>
        have := g2 j (by simpa using hj)
        simp only [List.getElem_cons_succ]
        rw [← this]; congr 2; omega

/-- C66. If all `values` arrays have the same length, reading succeeds, the `i`-th point is the
`i`-th `time`/`x` entry and the `i`-th stored vector is the `i`-th `values` array. -/
theorem C66_from_json (mem : ℕ → K) (data : List (K × List K)) (hne : data ≠ []) (n : ℕ)
    (hn : ∀ e ∈ data, e.2.length = n) :
    ∃ v, constructFromJson mem data = Res.ok v ∧ v.WF ∧ v.inner = n ∧
      v.points = data.map Prod.fst ∧
      ∀ i (hi : i < data.length), vectorAtIndex v (i : ℤ) = Res.ok (data[i].2) := by
  obtain ⟨e, rest, rfl⟩ := List.exists_cons_of_ne_nil hne
  obtain ⟨v0, h0, hp, hwf0⟩ := C06_std_vector_never_throws mem
    ((e :: rest).map Prod.fst) e.2.length
  have hi0 : v0.inner = n := by
    simp only [constructFromStdVector, isSorted] at h0
    simp at h0
    rw [← h0]; exact hn e (by simp)
  obtain ⟨v, hv, hwf, hpts, hinn, -, hget⟩ := fillLoop_spec v0 hwf0 ((e :: rest).map Prod.snd) 0
    (by rw [hp]; simp) (by
      intro w hw; rw [hi0]
      obtain ⟨x, hx, rfl⟩ := List.mem_map.mp hw
      exact hn x hx)
  refine ⟨v, ?_, hwf, by rw [hinn, hi0], by rw [hpts, hp], ?_⟩
  · simp only [constructFromJson, h0, Res.ok_bind, hv]
  · intro i hi
    have := hget i (by simpa using hi)
    rw [List.getElem_map, Nat.zero_add] at this
    exact this

example : constructFromJson (fun _ => 0) [((0 : ℚ), [1, 2]), (1, [3, 4])] =
    Res.ok ⟨[0, 1], 2, [1, 2, 3, 4]⟩ := by decide +kernel

/-! ## C04: setZero -/

/-- C04. After `setZero` every stored value is zero and the structure is unchanged. -/
theorem C04_set_zero (v : IV K) (hwf : v.WF) :
    (setZero v).WF ∧ (setZero v).points = v.points ∧ (setZero v).inner = v.inner ∧
      ∀ i : ℕ, i < v.points.length →
        vectorAtIndex (setZero v) (i : ℤ) = Res.ok (List.replicate v.inner 0) := by
  have hz : (setZero v).WF := by simpa [IV.WF, setZero] using hwf
  refine ⟨hz, rfl, rfl, ?_⟩
  intro i hi
  have hle := step_le hwf hi
  rw [vectorAtIndex_ok hz hi]
  congr 1
  apply List.ext_getElem?
  intro k
  by_cases hk : k < v.inner
  · have hlt : i * v.inner + k < v.values.length := by omega
    show ((List.drop (i * v.inner) (v.values.map fun _ => (0 : K))).take v.inner)[k]? = _
    rw [segment_get hk, List.getElem?_map, List.getElem?_eq_getElem hlt]
    simp [hk]
  · rw [List.getElem?_eq_none (by simp [setZero]; omega), List.getElem?_eq_none (by simp; omega)]

example : vectorAtIndex (setZero (⟨[0, 1], 2, [1, 2, 3, 4]⟩ : IV ℚ)) 1 = Res.ok [0, 0] := by
  decide +kernel

/-! ## C67: interpolate_from -/

theorem interpolateFromLoop_spec (src : IV K) (hsrc : src.WF) (hs : src.points.Pairwise (· < ·))
    (hn : 0 < src.points.length) (n : ℕ) : ∀ (v : IV K) (index : ℕ), v.WF → v.inner = src.inner →
    index + n = v.points.length →
    (∀ i (hi : i < v.points.length), index ≤ i →
      src.points[0] - EPSILON ≤ v.points[i] ∧
        v.points[i] ≤ src.points[src.points.length - 1] + EPSILON) →
    ∃ v', interpolateFromLoop v src index n = Res.ok v' ∧ v'.WF ∧ v'.points = v.points ∧
      v'.inner = v.inner ∧
      (∀ i : ℕ, i < index → vectorAtIndex v' (i : ℤ) = vectorAtIndex v (i : ℤ)) ∧
      ∀ i (hi : i < v.points.length), index ≤ i →
        vectorAtIndex v' (i : ℤ) = eval src v.points[i] := by
  induction n with
  | zero =>
    intro v index hwf hin hlen hr
    exact ⟨v, rfl, hwf, rfl, rfl, fun _ _ => rfl, fun i hi h => by omega⟩
  | succ n ih =>
    intro v index hwf hin hlen hr
    have hidx : index < v.points.length := by omega
    obtain ⟨h1, h2⟩ := hr index hidx le_rfl
    obtain ⟨ht, hub, hl⟩ := C03_eval_range src hsrc hs hn v.points[index]
    obtain ⟨w, hw⟩ : ∃ w, eval src v.points[index] = Res.ok w := by
      cases h : eval src v.points[index] with
      | ok w => exact ⟨w, rfl⟩
      | throws => rcases ht.mp h with h | h <;> exact absurd h (by push Not; assumption)
      | ub => exact absurd h hub
    obtain ⟨v1, e1, wf1, p1, in1, s1, o1⟩ := writeTimestep_spec v hwf index hidx w
      (by rw [hl w hw, hin])
    obtain ⟨v', e', wf', p', in', b', a'⟩ := ih v1 (index + 1) wf1 (by rw [in1, hin])
      (by rw [p1]; omega) (by
        intro i hi h
        simp only [p1] at hi ⊢
        exact hr i hi (by omega))
    refine ⟨v', ?_, wf', by rw [p', p1], by rw [in', in1], ?_, ?_⟩
    · simp only [interpolateFromLoop, interpolationPointAtIndex, Res.get_of_lt hidx, Res.ok_bind, hw,
        e1]
      exact e'
    · intro i hi
      rw [b' i (by omega), o1 i (by omega) (by omega)]
    · intro i hi h
      by_cases hii : i = index
      · subst hii
        rw [b' i (by omega), s1, hw]
      · have := a' i (by rw [p1]; exact hi) (by omega)
        simp only [p1] at this
        exact this

/-- C67. Interpolating a vector from another one of the same inner length keeps the points and stores at
each of them the value of the other one's interpolation; it throws iff one of the points lies
outside the other one's range (by more than the tolerance). -/
theorem C67_interpolate_from (v src : IV K) (hwf : v.WF) (hsrc : src.WF)
    (hs : src.points.Pairwise (· < ·)) (hn : 0 < src.points.length) (hin : v.inner = src.inner) :
    ((∀ p ∈ v.points, src.points[0] - EPSILON ≤ p ∧
        p ≤ src.points[src.points.length - 1] + EPSILON) →
      ∃ v', interpolateFrom v src = Res.ok v' ∧ v'.WF ∧ v'.points = v.points ∧
        v'.inner = v.inner ∧ ∀ i (hi : i < v.points.length),
          vectorAtIndex v' (i : ℤ) = eval src v.points[i]) ∧
    ((∃ p ∈ v.points, p < src.points[0] - EPSILON ∨
        src.points[src.points.length - 1] + EPSILON < p) →
      interpolateFrom v src = Res.throws) := by
  constructor
  · intro hr
    obtain ⟨v', e, wf', p', in', -, a'⟩ := interpolateFromLoop_spec src hsrc hs hn v.points.length v 0
      hwf hin (by omega) (fun i hi _ => hr _ (List.getElem_mem hi))
    exact ⟨v', e, wf', p', in', fun i hi => a' i hi (by omega)⟩
  · rintro ⟨p, hp, hout⟩
    have main : ∀ n (v : IV K) (index : ℕ), v.WF → v.inner = src.inner →
        index + n = v.points.length →
        (∃ i, ∃ hi : i < v.points.length, index ≤ i ∧ (v.points[i] < src.points[0] - EPSILON ∨
          src.points[src.points.length - 1] + EPSILON < v.points[i])) →
        interpolateFromLoop v src index n = Res.throws := by
      intro n
      induction n with
      | zero => rintro v index _ _ hlen ⟨i, hi, h, -⟩; omega
      | succ n ih =>
        rintro v index hwf hin hlen ⟨i, hi, hii, hbad⟩
        have hidx : index < v.points.length := by omega
        obtain ⟨ht, hub, hl⟩ := C03_eval_range src hsrc hs hn v.points[index]
        simp only [interpolateFromLoop, interpolationPointAtIndex, Res.get_of_lt hidx, Res.ok_bind]
        cases h : eval src v.points[index] with
        | ub => exact absurd h hub
        | throws => rfl
        | ok w =>
          obtain ⟨v1, e1, wf1, p1, in1, -, -⟩ := writeTimestep_spec v hwf index hidx w
            (by rw [hl w h, hin])
          simp only [Res.ok_bind, e1]
          apply ih v1 (index + 1) wf1 (by rw [in1, hin]) (by rw [p1]; omega)
          have hne : i ≠ index := by
            rintro rfl
            rw [ht.mpr hbad] at h; cases h
          refine ⟨i, by rw [p1]; exact hi, by omega, ?_⟩
          simp only [p1]; exact hbad
    obtain ⟨i, hi, rfl⟩ := List.getElem_of_mem hp
    exact main v.points.length v 0 hwf hin (by omega) ⟨i, hi, by omega, hout⟩

example : interpolateFrom (⟨[0, 1, 2], 1, [7, 7, 7]⟩ : IV ℚ) ⟨[0, 2], 1, [0, 4]⟩ =
    Res.ok ⟨[0, 1, 2], 1, [0, 2, 4]⟩ := by decide +kernel

end Verif.Interp
