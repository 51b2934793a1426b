import Verif.Jacobian.Model
import Mathlib.Data.List.Basic
import Mathlib.Tactic.Ring
import Mathlib.Tactic.Linarith

/-! # Helper lemmas for the constraint Jacobian -/

set_option autoImplicit false
set_option linter.unusedSectionVars false

namespace Verif.Jacobian

variable {T : Type*} [LinearOrder T] {K : Type*}

/-- Number of constraint times later than `t`. -/
def countAfter (cs : List T) (t : T) : ℕ := (cs.filter (fun c => t < c)).length

def psums (offset : ℕ) : List ℕ → List ℕ
  | [] => []
  | h :: hs => (offset + h) :: psums (offset + h) hs

theorem psums_length (o : ℕ) (hs : List ℕ) : (psums o hs).length = hs.length := by
  induction hs generalizing o with
  | nil => rfl
  | cons h hs ih => simp [psums, ih]

theorem psums_step (o : ℕ) (hs : List ℕ) (j : ℕ) (hj : j < hs.length) :
    (o :: psums o hs).getD (j + 1) 0 = (o :: psums o hs).getD j 0 + hs[j] := by
  induction hs generalizing o j with
  | nil => simp at hj
  | cons h hs ih =>
    cases j with
    | zero => simp [psums]
    | succ j =>
      have := ih (o + h) j (by simpa using hj)
      simpa [psums] using this

theorem makeDataLoop_nil (us : List T) (t t' : T) (h o : ℕ) :
    makeDataLoop [] us t h o = psums o (h :: ((t' :: us).dropLast.map (countAfter ([] : List T)))) := by
  induction us generalizing h o t' with
  | nil => simp [makeDataLoop, psums]
  | cons u us ih =>
    rw [makeDataLoop, ih u]
    simp [psums, countAfter]

theorem makeDataLoop_eq (cs us : List T) (t : T) (h o : ℕ) (hc : cs.Pairwise (· ≤ ·))
    (hu : (t :: us).Pairwise (· ≤ ·)) :
    makeDataLoop cs us t h o = psums o (h :: ((t :: us).dropLast.map (countAfter cs))) := by
  induction cs, us, t, h, o using makeDataLoop.induct with
  | case1 cs t h o => simp [makeDataLoop, psums]
  | case2 u us t h o ih => exact makeDataLoop_nil (u :: us) t t h o
  | case3 c cs u us t h o hlt ih =>
    rw [makeDataLoop, if_pos hlt, ih hc (List.Pairwise.of_cons hu)]
    have : countAfter (c :: cs) t = cs.length + 1 := by
      have hall : ∀ x ∈ c :: cs, decide (t < x) = true := by
        intro x hx
        rcases List.mem_cons.mp hx with rfl | hx
        · simpa using hlt
        · simpa using lt_of_lt_of_le hlt (List.rel_of_pairwise_cons hc hx)
      unfold countAfter
      rw [List.filter_eq_self.mpr hall, List.length_cons]
    simp only [List.dropLast_cons_cons, List.map_cons, this]
    simp [psums]
  | case4 c cs u us t h o hnlt ih =>
    rw [makeDataLoop, if_neg hnlt, ih (List.Pairwise.of_cons hc) hu]
    congr 2
    apply List.map_congr_left
    intro x hx
    have hx' : x ∈ t :: u :: us := List.dropLast_subset _ hx
    have htx : t ≤ x := by
      rcases List.mem_cons.mp hx' with rfl | h
      · exact le_rfl
      · exact List.rel_of_pairwise_cons hu h
    have : ¬ x < c := not_lt.mpr ((not_lt.mp hnlt).trans htx)
    unfold countAfter
    rw [List.filter_cons_of_neg (by simpa using not_lt.mp this)]

/-! ## Concatenated ranges -/

theorem flatMap_range_spec {α : Type*} (f : ℕ → List α) (off : ℕ → ℕ) (W : ℕ) (h0 : off 0 = 0)
    (hs : ∀ j < W, off (j + 1) = off j + (f j).length) :
    ((List.range W).flatMap f).length = off W ∧
    (∀ j < W, ∀ i < (f j).length, ((List.range W).flatMap f)[off j + i]? = (f j)[i]?) ∧
    (∀ k < off W, ∃ j < W, ∃ i < (f j).length, k = off j + i) := by
  induction W with
  | zero => simp [h0]
  | succ W ih =>
    obtain ⟨h1, h2, h3⟩ := ih (fun j hj => hs j (by omega))
    have hW := hs W (by omega)
    have hsplit : (List.range (W + 1)).flatMap f = (List.range W).flatMap f ++ f W := by
      rw [List.range_succ, List.flatMap_append]; simp
    rw [hsplit]
    refine ⟨by simp [h1, hW], ?_, ?_⟩
    · intro j hj i hi
      by_cases hjW : j = W
      · subst hjW
        rw [List.getElem?_append_right (by omega), h1]
        congr 1; omega
      · have hmem : off j + i < off W := by
          by_contra hcon
          have := h2 j (by omega) i hi
          rw [List.getElem?_eq_none (by omega)] at this
          rw [List.getElem?_eq_getElem hi] at this
          simp at this
        rw [List.getElem?_append_left (by omega)]
        exact h2 j (by omega) i hi
    · intro k hk
      by_cases hkW : k < off W
      · obtain ⟨j, hj, i, hi, e⟩ := h3 k hkW
        exact ⟨j, by omega, i, hi, e⟩
      · exact ⟨W, by omega, k - off W, by omega, by omega⟩

/-- The rectangle part of the index list. -/
def rect (r0 H c0 w : ℕ) : List (ℕ × ℕ) :=
  (List.range' r0 H).flatMap fun r => (List.range' c0 w).map fun c => (r, c)

theorem rect_eq (r0 H c0 w : ℕ) :
    rect r0 H c0 w = (List.range H).flatMap
      fun r => (List.range w).map fun c => (r0 + r, c0 + c) := by
  unfold rect
  simp only [List.range'_eq_map_range, List.flatMap_map, List.map_map]
  rfl

theorem rect_spec (r0 H c0 w : ℕ) :
    (rect r0 H c0 w).length = H * w ∧
    (∀ r < H, ∀ c < w, (rect r0 H c0 w)[r * w + c]? = some (r0 + r, c0 + c)) ∧
    (∀ k < H * w, ∃ r < H, ∃ c < w, k = r * w + c) := by
  rw [rect_eq]
  obtain ⟨h1, h2, h3⟩ := flatMap_range_spec
    (fun r => (List.range w).map fun c => (r0 + r, c0 + c)) (fun r => r * w) H (by simp)
    (by intro j _; simp; ring)
  refine ⟨h1, ?_, ?_⟩
  · intro r hr c hc
    have := h2 r hr c (by simpa using hc)
    rw [this]; simp [hc]
  · intro k hk
    obtain ⟨r, hr, c, hc, e⟩ := h3 k hk
    exact ⟨r, hr, c, by simpa using hc, e⟩

/-! ## Structural facts about a Jacobian made by `make_data` -/

/-- Facts about the offsets that everything else uses: first offset zero, monotone, no column taller
than the first one. -/
structure Good (J : Jac) : Prop where
  pos : 0 < J.outerWidth
  zero : J.off 0 = 0
  mono : ∀ j < J.outerWidth, J.off j ≤ J.off (j + 1)
  le : ∀ j < J.outerWidth, J.outerColHeight j ≤ J.outerHeight

namespace Good

variable {J : Jac}

theorem innerRow (g : Good J) {j : ℕ} (hj : j < J.outerWidth) :
    J.innerRowstart j + J.innerColHeight j = J.innerHeight := by
  have := g.le j hj
  unfold Jac.innerRowstart Jac.innerColHeight Jac.innerHeight Jac.outerRowstart
  rw [← Nat.add_mul]; congr 1; omega

theorem indices (_g : Good J) :
    J.supplyIndices = (List.range J.outerWidth).flatMap fun j =>
      rect (J.innerRowstart j) (J.innerHeight - J.innerRowstart j) (J.innerColstart j)
        J.blockWidth := rfl

theorem colSize (g : Good J) {j : ℕ} (hj : j < J.outerWidth) :
    (J.innerHeight - J.innerRowstart j) * J.blockWidth = J.outerColHeight j * J.blockSize := by
  have := g.innerRow hj
  have e : J.innerHeight - J.innerRowstart j = J.innerColHeight j := by omega
  rw [e]; unfold Jac.innerColHeight Jac.blockSize; ring

theorem spec (g : Good J) :
    J.supplyIndices.length = J.nonZeros ∧
    (∀ j < J.outerWidth, ∀ r < J.innerColHeight j, ∀ c < J.blockWidth,
      J.supplyIndices[J.columnBlockPos j r c]? =
        some (J.innerRowstart j + r, J.innerColstart j + c)) ∧
    (∀ k < J.nonZeros, ∃ j < J.outerWidth, ∃ r < J.innerColHeight j, ∃ c < J.blockWidth,
      k = J.columnBlockPos j r c) := by
  have hcol : ∀ j, j < J.outerWidth →
      J.innerHeight - J.innerRowstart j = J.innerColHeight j := by
    intro j hj; have := g.innerRow hj; omega
  obtain ⟨h1, h2, h3⟩ := flatMap_range_spec
    (fun j => rect (J.innerRowstart j) (J.innerHeight - J.innerRowstart j) (J.innerColstart j)
        J.blockWidth) (fun j => J.off j * J.blockSize) J.outerWidth (by simp [g.zero])
    (by
      intro j hj
      rw [(rect_spec _ _ _ _).1, g.colSize hj]
      have := g.mono j hj
      have e : J.off (j + 1) = J.off j + J.outerColHeight j := by
        unfold Jac.outerColHeight; omega
      simp only [e]; ring)
  rw [← g.indices] at h1 h2
  refine ⟨h1, ?_, ?_⟩
  · intro j hj r hr c hc
    have hlt : r * J.blockWidth + c < (J.innerHeight - J.innerRowstart j) * J.blockWidth := by
      rw [hcol j hj]
      calc r * J.blockWidth + c < r * J.blockWidth + J.blockWidth := by omega
        _ = (r + 1) * J.blockWidth := by ring
        _ ≤ _ := Nat.mul_le_mul_right _ hr
    have := h2 j hj (r * J.blockWidth + c) (by rw [(rect_spec _ _ _ _).1]; exact hlt)
    unfold Jac.columnBlockPos Jac.innerColumnOffset
    rw [this]
    exact (rect_spec _ _ _ _).2.1 r (by rw [hcol j hj]; exact hr) c hc
  · intro k hk
    obtain ⟨j, hj, i, hi, e⟩ := h3 k hk
    rw [(rect_spec _ _ _ _).1] at hi
    obtain ⟨r, hr, c, hc, e2⟩ := (rect_spec (J.innerRowstart j)
      (J.innerHeight - J.innerRowstart j) (J.innerColstart j) J.blockWidth).2.2 i hi
    exact ⟨j, hj, r, by rw [← hcol j hj]; exact hr, c, hc, by
      unfold Jac.columnBlockPos Jac.innerColumnOffset; omega⟩

end Good

theorem block_unique {w j c j' c' : ℕ} (hc : c < w) (hc' : c' < w)
    (h : j * w + c = j' * w + c') : j = j' ∧ c = c' := by
  have h1 : (j * w + c) / w = j := by
    rw [Nat.mul_comm, Nat.mul_add_div (by omega), Nat.div_eq_of_lt hc]; simp
  have h2 : (j' * w + c') / w = j' := by
    rw [Nat.mul_comm, Nat.mul_add_div (by omega), Nat.div_eq_of_lt hc']; simp
  have : j = j' := by rw [← h1, ← h2, h]
  subst this; exact ⟨rfl, by omega⟩

/-- Value of the expanded matrix after the first `W` column blocks were written. -/
theorem foldl_writeColumn [Zero K] (J : Jac) (values : List K) (W : ℕ) (row j c : ℕ)
    (hc : c < J.blockWidth) :
    ((List.range W).foldl (J.writeColumn values) (fun _ _ => 0)) row (J.innerColstart j + c) =
      if j < W ∧ J.innerRowstart j ≤ row ∧ row < J.innerRowstart j + J.innerColHeight j then
        values.getD (J.columnBlockPos j (row - J.innerRowstart j) c) 0
      else 0 := by
  induction W with
  | zero => simp
  | succ W ih =>
    rw [List.range_succ, List.foldl_append]
    simp only [List.foldl_cons, List.foldl_nil]
    unfold Jac.writeColumn
    by_cases hjW : j = W
    · subst hjW
      by_cases hr : J.innerRowstart j ≤ row ∧ row < J.innerRowstart j + J.innerColHeight j
      · rw [if_pos ⟨hr.1, hr.2, by omega, by omega⟩, if_pos ⟨by omega, hr⟩]
        simp
      · rw [if_neg (by tauto), if_neg (by tauto)]
        have := ih
        unfold Jac.writeColumn at this
        rw [this, if_neg (by omega)]
    · have hn : ¬ (J.innerColstart W ≤ J.innerColstart j + c ∧
          J.innerColstart j + c < J.innerColstart W + J.blockWidth) := by
        rintro ⟨h1, h2⟩
        unfold Jac.innerColstart at h1 h2
        have := block_unique (w := J.blockWidth) (j := j) (c := c) (j' := W)
          (c' := j * J.blockWidth + c - W * J.blockWidth) hc (by omega) (by omega)
        exact hjW this.1
      rw [if_neg (by tauto)]
      have := ih
      unfold Jac.writeColumn at this
      rw [this]
      have : (j < W + 1) = (j < W) := by simp only [eq_iff_iff]; omega
      simp only [this]

end Verif.Jacobian
