import Verif.Jacobian.Lemmas
import Verif.Interp.Props

/-! # Properties C09 – C11: layout of the constraint Jacobian -/

set_option autoImplicit false
set_option linter.unusedSectionVars false

namespace Verif.Jacobian

variable {T : Type*} [LinearOrder T] {K : Type*}

/-! ## Offsets made by `make_data` -/

theorem countAfter_le (cs : List T) (t : T) : countAfter cs t ≤ cs.length :=
  List.length_filter_le _ _

/-- In a sorted list the elements after `t` are exactly the last `countAfter` ones. -/
theorem countAfter_iff (cs : List T) (hc : cs.Pairwise (· ≤ ·)) (t : T) (i : ℕ)
    (hi : i < cs.length) : cs.length - countAfter cs t ≤ i ↔ t < cs[i] := by
  induction cs generalizing i with
  | nil => simp at hi
  | cons c cs ih =>
    have hc' := List.Pairwise.of_cons hc
    by_cases hlt : t < c
    · have hall : ∀ x ∈ c :: cs, decide (t < x) = true := by
        intro x hx
        rcases List.mem_cons.mp hx with rfl | hx
        · simpa using hlt
        · simpa using lt_of_lt_of_le hlt (List.rel_of_pairwise_cons hc hx)
      have hcnt : countAfter (c :: cs) t = (c :: cs).length := by
        unfold countAfter; rw [List.filter_eq_self.mpr hall]
      rw [hcnt]
      simp only [Nat.sub_self, Nat.zero_le, true_iff]
      simpa using hall _ (List.getElem_mem hi)
    · have hcnt : countAfter (c :: cs) t = countAfter cs t := by
        unfold countAfter; rw [List.filter_cons_of_neg (by simpa using hlt)]
      rw [hcnt]
      have hle := countAfter_le cs t
      cases i with
      | zero => simp only [List.length_cons, List.getElem_cons_zero]
                constructor
                · intro h; omega
                · intro h; exact absurd h hlt
      | succ i =>
        have := ih hc' i (by simpa using hi)
        simp only [List.length_cons, List.getElem_cons_succ]
        rw [← this]; omega

/-- C09, offsets: `make_data` yields one column block per control time; block column `j` has as many
blocks as there are constraint times later than control time `j-1` (all of them for `j = 0`). -/
theorem C09_offsets (bh bw : ℕ) (cs us : List T) (hc : cs.Pairwise (· ≤ ·))
    (hu : us.Pairwise (· ≤ ·)) (J : Jac) (hJ : makeData bh bw cs us = Res.ok J) :
    J.blockHeight = bh ∧ J.blockWidth = bw ∧ J.outerWidth = us.length ∧ 0 < us.length ∧
    J.off 0 = 0 ∧ J.outerHeight = cs.length ∧
    (∀ j (hj : j < us.length), J.off (j + 1) = J.off j +
      (if _h : j = 0 then cs.length else countAfter cs (us[j - 1]'(by omega)))) := by
  cases us with
  | nil => simp [makeData] at hJ
  | cons u0 us =>
    simp only [makeData, Res.ok.injEq] at hJ
    subst hJ
    rw [makeDataLoop_eq cs us u0 cs.length 0 hc hu]
    set hs := cs.length :: ((u0 :: us).dropLast.map (countAfter cs)) with hhs
    have hlen : hs.length = us.length + 1 := by simp [hhs]
    have hstep : ∀ j (hj : j < us.length + 1),
        (0 :: psums 0 hs).getD (j + 1) 0 = (0 :: psums 0 hs).getD j 0 +
          hs[j]'(by omega) := fun j hj => psums_step 0 hs j (by omega)
    refine ⟨rfl, rfl, ?_, by simp, rfl, ?_, ?_⟩
    · simp [Jac.outerWidth, psums_length, hlen]
    · have := hstep 0 (by omega)
      simpa [Jac.outerHeight, Jac.off, hhs] using this
    · intro j hj
      have := hstep j (by simpa using hj)
      unfold Jac.off
      simp only
      rw [this]
      congr 1
      cases j with
      | zero => simp [hhs]
      | succ j =>
        simp only [hhs, List.getElem_cons_succ, List.getElem_map, List.getElem_dropLast]
        simp

example : makeData 2 1 [(1 : ℕ), 2, 3] [0, 1, 2] = Res.ok ⟨2, 1, [0, 3, 6, 8]⟩ := by
  simp [makeData, makeDataLoop]

/-- The offsets made by `make_data` satisfy the structural facts. -/
theorem good_of_makeData {bh bw : ℕ} {cs us : List T} (hc : cs.Pairwise (· ≤ ·))
    (hu : us.Pairwise (· ≤ ·)) {J : Jac} (hJ : makeData bh bw cs us = Res.ok J) : Good J := by
  obtain ⟨-, -, h3, h4, h5, h6, h7⟩ := C09_offsets bh bw cs us hc hu J hJ
  refine ⟨by omega, h5, ?_, ?_⟩
  · intro j hj; rw [h7 j (by omega)]; omega
  · intro j hj
    unfold Jac.outerColHeight
    rw [h7 j (by omega), h6]
    have : (if _h : j = 0 then cs.length else countAfter cs (us[j - 1]'(by omega))) ≤ cs.length := by
      split
      · exact le_rfl
      · exact countAfter_le _ _
    omega

/-! ## C09: indices in range, pairwise distinct, as many as announced -/

/-- C09. The index pairs handed to the solver: their number is `nonZeros()`, each lies inside the
`(#constraint times · bh) × (#control times · bw)` matrix, and no pair occurs twice. -/
theorem C09_indices (bh bw : ℕ) (cs us : List T) (hc : cs.Pairwise (· ≤ ·))
    (hu : us.Pairwise (· ≤ ·)) (J : Jac) (hJ : makeData bh bw cs us = Res.ok J) :
    J.supplyIndices.length = J.nonZeros ∧ J.supplyIndices.Nodup ∧
    (∀ p ∈ J.supplyIndices, p.1 < cs.length * bh ∧ p.2 < us.length * bw) := by
  have g := good_of_makeData hc hu hJ
  obtain ⟨hbh, hbw, hW, -, -, hH, -⟩ := C09_offsets bh bw cs us hc hu J hJ
  obtain ⟨h1, h2, h3⟩ := g.spec
  refine ⟨h1, ?_, ?_⟩
  · rw [List.Nodup, List.pairwise_iff_getElem]
    intro k k' hk hk' hlt he
    refine absurd ?_ (Nat.ne_of_lt hlt)
    obtain ⟨j, hj, r, hr, c, hcw, rfl⟩ := h3 k (by omega)
    obtain ⟨j', hj', r', hr', c', hcw', rfl⟩ := h3 k' (by omega)
    have e1 := h2 j hj r hr c hcw
    have e2 := h2 j' hj' r' hr' c' hcw'
    rw [List.getElem?_eq_getElem hk] at e1
    rw [List.getElem?_eq_getElem hk'] at e2
    have e3 : (J.innerRowstart j + r, J.innerColstart j + c) =
        (J.innerRowstart j' + r', J.innerColstart j' + c') := by
      rw [he] at e1
      have := e1.symm.trans e2
      simpa using this
    rw [Prod.mk.injEq] at e3
    obtain ⟨e4, e5⟩ := e3
    obtain ⟨rfl, rfl⟩ := block_unique hcw hcw' e5
    have : r = r' := by omega
    subst this; rfl
  · intro p hp
    obtain ⟨k, hk, rfl⟩ := List.getElem_of_mem hp
    obtain ⟨j, hj, r, hr, c, hcw, rfl⟩ := h3 k (by omega)
    have e1 := h2 j hj r hr c hcw
    rw [List.getElem?_eq_getElem hk] at e1
    simp only [Option.some.injEq] at e1
    rw [e1]
    have hrow := g.innerRow hj
    simp only
    constructor
    · have : J.innerHeight = cs.length * bh := by unfold Jac.innerHeight; rw [hH, hbh]
      omega
    · unfold Jac.innerColstart; rw [hbw] at hcw ⊢
      calc j * bw + c < j * bw + bw := by omega
        _ = (j + 1) * bw := by ring
        _ ≤ us.length * bw := Nat.mul_le_mul_right _ (by omega)

example : ∃ J, makeData 1 2 [(1 : ℕ), 2] [0, 1] = Res.ok J ∧
    J.supplyIndices = [(0, 0), (0, 1), (1, 0), (1, 1), (0, 2), (0, 3), (1, 2), (1, 3)] :=
  ⟨⟨1, 2, [0, 2, 4]⟩, by simp [makeData, makeDataLoop], by decide⟩

/-! ## C10: value order and index order agree -/

/-- C10. Whatever the values: the `k`-th value is the entry of the expanded matrix at the `k`-th
index pair, and every entry of the matrix not listed is zero. -/
theorem C10_values_match_indices [Zero K] (bh bw : ℕ) (cs us : List T)
    (hc : cs.Pairwise (· ≤ ·)) (hu : us.Pairwise (· ≤ ·)) (J : Jac)
    (hJ : makeData bh bw cs us = Res.ok J) (values : List K) (hv : values.length = J.nonZeros) :
    (∀ (k : ℕ) (p : ℕ × ℕ), J.supplyIndices[k]? = some p →
      values[k]? = some (J.wholeMatrix values p.1 p.2)) ∧
    (∀ row col, row < cs.length * bh → col < us.length * bw →
      (row, col) ∉ J.supplyIndices → J.wholeMatrix values row col = 0) := by
  have g := good_of_makeData hc hu hJ
  obtain ⟨hbh, hbw, hW, -, -, hH, -⟩ := C09_offsets bh bw cs us hc hu J hJ
  obtain ⟨h1, h2, h3⟩ := g.spec
  constructor
  · intro k p hp
    have hk : k < J.nonZeros := by
      rw [← h1]; by_contra hcon
      rw [List.getElem?_eq_none (by omega)] at hp; simp at hp
    obtain ⟨j, hj, r, hr, c, hcw, rfl⟩ := h3 k hk
    rw [h2 j hj r hr c hcw] at hp
    simp only [Option.some.injEq] at hp
    subst hp
    simp only [Jac.wholeMatrix]
    rw [foldl_writeColumn J values _ _ j c hcw,
      if_pos ⟨hj, by omega, by omega⟩, Nat.add_sub_cancel_left,
      List.getElem?_eq_getElem (by omega), List.getD_eq_getElem?_getD,
      List.getElem?_eq_getElem (by omega), Option.getD_some]
  · intro row col hrow hcol hnot
    have hbpos : 0 < bw := by
      rcases Nat.eq_zero_or_pos bw with h | h
      · subst h; simp at hcol
      · exact h
    have hcoleq : col = J.innerColstart (col / bw) + col % bw := by
      unfold Jac.innerColstart; rw [hbw, Nat.mul_comm]; exact (Nat.div_add_mod col bw).symm
    have hmod : col % bw < J.blockWidth := by rw [hbw]; exact Nat.mod_lt _ hbpos
    unfold Jac.wholeMatrix
    rw [hcoleq, foldl_writeColumn J values _ _ _ _ hmod]
    split
    · rename_i hcond
      exfalso
      obtain ⟨c1, c2, c3⟩ := hcond
      have := h2 (col / bw) c1 (row - J.innerRowstart (col / bw)) (by omega) (col % bw) hmod
      apply hnot
      have hm := List.mem_of_getElem? this
      rw [← hcoleq] at hm
      have e : J.innerRowstart (col / bw) + (row - J.innerRowstart (col / bw)) = row := by omega
      rw [e] at hm
      exact hm
    · rfl

example : ∃ J, makeData 1 1 [(1 : ℕ), 2] [0, 1] = Res.ok J ∧ J.nonZeros = [5, 6, 7, 8].length ∧
    J.wholeMatrix [(5 : ℕ), 6, 7, 8] 1 0 = 6 ∧ J.wholeMatrix [(5 : ℕ), 6, 7, 8] 0 1 = 7 :=
  ⟨⟨1, 1, [0, 2, 4]⟩, by simp [makeData, makeDataLoop], by decide, by decide, by decide⟩

/-! ## C11: exactly the causal positions are stored -/

/-- C11. Position `(row, col)` is stored iff it lies in the matrix and the control belongs to the
first control time or the control time before its own is earlier than the constraint time. -/
theorem C11_stored_iff_causal (bh bw : ℕ) (cs us : List T) (hc : cs.Pairwise (· ≤ ·))
    (hu : us.Pairwise (· ≤ ·)) (J : Jac) (hJ : makeData bh bw cs us = Res.ok J) (row col : ℕ) :
    (row, col) ∈ J.supplyIndices ↔
      row < cs.length * bh ∧ col < us.length * bw ∧
      (col / bw = 0 ∨ ∃ u c, us[col / bw - 1]? = some u ∧ cs[row / bh]? = some c ∧ u < c) := by
  have g := good_of_makeData hc hu hJ
  obtain ⟨hbh, hbw, hW, -, -, hH, hoff⟩ := C09_offsets bh bw cs us hc hu J hJ
  obtain ⟨h1, h2, h3⟩ := g.spec
  have hIH : J.innerHeight = cs.length * bh := by unfold Jac.innerHeight; rw [hH, hbh]
  -- the row condition for column block `j`
  have hrowstart : ∀ j (hj : j < us.length), ∀ row, row < cs.length * bh →
      (J.innerRowstart j ≤ row ↔
        (j = 0 ∨ ∃ u c, us[j - 1]? = some u ∧ cs[row / bh]? = some c ∧ u < c)) := by
    intro j hj row hrow
    have hbp : 0 < bh := by
      rcases Nat.eq_zero_or_pos bh with h | h
      · subst h; simp at hrow
      · exact h
    have hi : row / bh < cs.length := by rw [Nat.div_lt_iff_lt_mul hbp]; exact hrow
    unfold Jac.innerRowstart Jac.outerRowstart Jac.outerColHeight
    rw [hbh, hH, hoff j hj, ← Nat.le_div_iff_mul_le hbp]
    by_cases hj0 : j = 0
    · simp [hj0]
    · simp only [hj0, dite_false, false_or]
      rw [Nat.add_sub_cancel_left, countAfter_iff cs hc _ _ hi]
      rw [List.getElem?_eq_getElem (by omega : j - 1 < us.length), List.getElem?_eq_getElem hi]
      simp
  constructor
  · intro hm
    obtain ⟨hr, hcl⟩ := (C09_indices bh bw cs us hc hu J hJ).2.2 _ hm
    simp only at hr hcl
    refine ⟨hr, hcl, ?_⟩
    obtain ⟨k, hk, he⟩ := List.getElem_of_mem hm
    obtain ⟨j, hj, r, hrr, c, hcw, rfl⟩ := h3 k (by omega)
    have e1 := h2 j hj r hrr c hcw
    rw [List.getElem?_eq_getElem hk, he] at e1
    simp only [Option.some.injEq, Prod.mk.injEq] at e1
    have hdiv : col / bw = j := by
      rw [e1.2]; unfold Jac.innerColstart; rw [hbw] at hcw ⊢
      rw [Nat.mul_comm, Nat.mul_add_div (by omega), Nat.div_eq_of_lt hcw]; simp
    rw [hdiv]
    exact (hrowstart j (by omega) row hr).mp (by omega)
  · rintro ⟨hr, hcl, hcond⟩
    have hbpos : 0 < bw := by
      rcases Nat.eq_zero_or_pos bw with h | h
      · subst h; simp at hcl
      · exact h
    have hj : col / bw < us.length := by rw [Nat.div_lt_iff_lt_mul hbpos]; exact hcl
    have hrs := (hrowstart (col / bw) hj row hr).mpr hcond
    have hmod : col % bw < J.blockWidth := by rw [hbw]; exact Nat.mod_lt _ hbpos
    have hrow := g.innerRow (j := col / bw) (by omega)
    have := h2 (col / bw) (by omega) (row - J.innerRowstart (col / bw)) (by omega) (col % bw) hmod
    have hm := List.mem_of_getElem? this
    have e : J.innerRowstart (col / bw) + (row - J.innerRowstart (col / bw)) = row := by omega
    have e2 : J.innerColstart (col / bw) + col % bw = col := by
      unfold Jac.innerColstart; rw [hbw, Nat.mul_comm]; exact Nat.div_add_mod col bw
    rw [e, e2] at hm
    exact hm

example : ∃ J, makeData 1 1 [(1 : ℕ), 2] [0, 1, 2] = Res.ok J ∧ (0, 2) ∉ J.supplyIndices ∧
    (1, 2) ∈ J.supplyIndices :=
  ⟨⟨1, 1, [0, 2, 4, 5]⟩, by simp [makeData, makeDataLoop], by decide, by decide⟩

open Verif.Interp in
/-- C11, second half: positions that are not stored cannot matter — two control vectors that differ
only in step `j ≥ 1` are interpolated to the same value at every time up to control time `j-1`. -/
theorem C11_no_influence {F : Type*} [Field F] [LinearOrder F] [IsStrictOrderedRing F]
    (v v' : IV F) (hwf : v.WF) (hwf' : v'.WF) (hp : v'.points = v.points)
    (hi : v'.inner = v.inner) (hs : v.points.Pairwise (· < ·)) (j : ℕ) (hj1 : 1 ≤ j)
    (hj : j < v.points.length)
    (hsame : ∀ i < v.points.length, i ≠ j → ∀ k < v.inner,
      v'.values[i * v.inner + k]? = v.values[i * v.inner + k]?)
    (t : F) (ht : t ≤ v.points[j - 1]) : eval v' t = eval v t := by
  have hn : 0 < v.points.length := by omega
  have hlast : t < v.points[v.points.length - 1] :=
    lt_of_le_of_lt ht (getElem_lt_of_pairwise hs (by omega) (by omega))
  obtain ⟨pts', inner', vals'⟩ := v'
  simp only at hp hi
  subst hp; subst hi
  have hseg : ∀ i < v.points.length, i ≠ j →
      (vals'.drop (i * v.inner)).take v.inner = (v.values.drop (i * v.inner)).take v.inner := by
    intro i hil hij
    apply List.ext_getElem?
    intro k
    by_cases hk : k < v.inner
    · rw [segment_get hk, segment_get hk]; exact hsame i hil hij k hk
    · rw [List.getElem?_eq_none (by simp; omega), List.getElem?_eq_none (by simp; omega)]
  by_cases hf : t ≤ v.points[0]
  · by_cases hf2 : v.points[0] - EPSILON ≤ t
    · rw [eval_at_front hwf hn hlast hf hf2, eval_at_front hwf' hn hlast hf hf2]
      have := hseg 0 hn (by omega)
      simpa using this
    · have e1 := ((C03_eval_range v hwf hs hn t).1).mpr (Or.inl (not_le.mp hf2))
      have e2 := ((C03_eval_range ⟨v.points, v.inner, vals'⟩ hwf' hs hn t).1).mpr
        (Or.inl (not_le.mp hf2))
      rw [e1, e2]
  · have hne : v.points ≠ [] := by intro h; simp [h] at hn
    obtain ⟨i, hil, q1, q2⟩ := exists_cell (l := v.points) hne
      (by rw [List.head_eq_getElem]; exact not_le.mp hf)
      (by rw [List.getLast_eq_getElem]; exact hlast.le)
    have hij : i + 1 < j := by
      by_contra hcon
      have := getElem_le_of_pairwise hs (i := j - 1) (j := i) (by omega) (by omega)
      exact absurd (lt_of_lt_of_le q1 (ht.trans this)) (lt_irrefl _)
    rw [eval_interior hwf hs hil q1 q2 hlast,
      eval_interior (v := ⟨v.points, v.inner, vals'⟩) hwf' hs hil q1 q2 hlast]
    simp only
    rw [hseg i (by omega) (by omega), hseg (i + 1) hil (by omega)]

example : Interp.eval (⟨[0, 1, 2], 1, [3, 4, 5]⟩ : Interp.IV ℚ) (1 / 2) =
    Interp.eval (⟨[0, 1, 2], 1, [3, 4, 100]⟩ : Interp.IV ℚ) (1 / 2) := by decide +kernel

/-! ## Assignment and equality (C07 for Jacobians) -/

/-- Assignment throws iff the structures differ; otherwise the target equals the source. -/
theorem C07_jacobian_assign [DecidableEq K] (a b : Jac × List K) :
    (assign a b = Res.throws ↔ a.1 ≠ b.1) ∧ (∀ r, assign a b = Res.ok r → jacEq r b = true) ∧
    (jacEq a b = true ↔ a = b) := by
  obtain ⟨⟨h1, w1, o1⟩, v1⟩ := a
  obtain ⟨⟨h2, w2, o2⟩, v2⟩ := b
  refine ⟨?_, ?_, ?_⟩
  · simp only [assign]
    by_cases e1 : w1 = w2 <;> by_cases e2 : h1 = h2 <;> by_cases e3 : o1 = o2 <;>
      by_cases e4 : o1.length = o2.length <;> simp_all
  · intro r hr
    simp only [assign] at hr
    by_cases e1 : w1 = w2 <;> by_cases e2 : h1 = h2 <;> by_cases e3 : o1 = o2 <;>
      by_cases e4 : o1.length = o2.length <;> simp_all
    subst hr; simp [jacEq]
  · simp only [jacEq]
    by_cases e1 : w1 = w2 <;> by_cases e2 : h1 = h2 <;> by_cases e3 : o1 = o2 <;>
      by_cases e4 : o1.length = o2.length <;> by_cases e5 : v1 = v2 <;> simp_all

example : assign (⟨1, 1, [0, 2]⟩, [(1 : ℕ), 2]) (⟨1, 1, [0, 2]⟩, [3, 4]) =
    Res.ok (⟨1, 1, [0, 2]⟩, [3, 4]) := by decide

end Verif.Jacobian
