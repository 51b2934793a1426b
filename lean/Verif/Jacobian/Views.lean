import Verif.Jacobian.Props
import Verif.Interp.Views
import Mathlib.Algebra.Order.Field.Rat
import Mathlib.Tactic.NormNum

/-!
# Property C143: Jacobians and views of Jacobians in the caller's memory

Source: `/repo/src/IpoptWrapper/ConstraintJacobian.cpp` 166-185, 216-289 and 295-377, `/repo/src/IpoptWrapper/ImplicitOptimizer.cpp` 390-428 and
`/repo/src/Grazer/commands.cpp` 228-244.

`ConstraintJacobian` owns its values, the values of `MappedConstraintJacobian` lie in an array of the caller, or nowhere (`nullptr`). The memory of the
caller is modelled as in `Verif.Interp.Views`.
-/

set_option autoImplicit false
set_option linter.unusedSectionVars false

namespace Verif.Jacobian

open Verif.Interp.Views (Mem readMem writeMem readMem_get readMem_length writeMem_get readMem_writeMem readMem_congr)
open Verif.Interp (writeSegment writeSegment_get)

variable {K : Type} [Field K] [LinearOrder K] {T : Type*} [LinearOrder T]

/-! ## Model -/

/-- Where the values are: `storage` (`ConstraintJacobian.hpp` 144) or `values` (131), a pointer that may be null. -/
inductive Values (K : Type) where
  | own (values : List K)
  | mapped (address : Option ℕ)

/-- An object of one of the two classes — `ConstraintJacobian.hpp` 89-91, 131, 144. (`number_of_entries` is only used in assertions.) -/
structure JObj (K : Type) where
  shape : Jac
  values : Values K

/-- `get_allvalues` with `get_value_pointer` — `ConstraintJacobian.cpp` 232-235, 327-342, 374-377. -/
def lookJ (m : Mem K) (o : JObj K) : Res (List K) :=
  match o.values with
  | .own v => Res.ok v
  | .mapped none => Res.throws
  | .mapped (some a) => Res.ok (readMem m a o.shape.nonZeros)

/-- An assignment to the values from `start` on: `get_value_pointer`, then writing — `ConstraintJacobian.cpp` 169-176, 229-231, 327-334, 374. -/
def storeJ (m : Mem K) (o : JObj K) (start : ℕ) (w : List K) : Res (Mem K × JObj K) :=
  match o.values with
  | .own v => Res.ok (m, { o with values := .own (writeSegment v start w) })
  | .mapped none => Res.throws
  | .mapped (some a) => Res.ok (writeMem m (a + start) w, o)

/-- Do the values of the two objects share memory without being the same? Then the outcome of `allvalues() = other.get_allvalues()` depends on the order
in which Eigen copies. -/
def partlyShared (o src : JObj K) : Bool :=
  match o.values, src.values with
  | .mapped (some a), .mapped (some b) => decide (a ≠ b ∧ a < b + src.shape.nonZeros ∧ b < a + o.shape.nonZeros)
  | _, _ => false

/-- The calls that change values — `setZero` 166, `setOnes` 167, an assignment to `get_column_block` 169-176, `operator=` 316-325 and 363-372. -/
inductive JCall (K S : Type) where
  | setZero
  | setOnes
  | setBlock (column : ℕ) (block : ℕ → ℕ → K)
  | assign (src : S)

/-- The entries of a block in row-major order. -/
def blockList (J : Jac) (j : ℕ) (b : ℕ → ℕ → K) : List K :=
  (List.range (J.innerColHeight j)).flatMap fun r => (List.range J.blockWidth).map fun c => b r c

/-- What the calls do to memory and object. A column that does not exist is out of bounds; for the assignment see `assignment_helper` — 237-262. -/
def callJ (m : Mem K) (o : JObj K) : JCall K (JObj K) → Res (Mem K × JObj K)
  | .setZero => storeJ m o 0 (List.replicate o.shape.nonZeros 0)
  | .setOnes => storeJ m o 0 (List.replicate o.shape.nonZeros 1)
  | .setBlock j b => if j < o.shape.outerWidth then storeJ m o (o.shape.innerColumnOffset j) (blockList o.shape j b) else Res.ub
  | .assign src =>
    if o.shape.blockWidth ≠ src.shape.blockWidth then Res.throws
    else if o.shape.blockHeight ≠ src.shape.blockHeight then Res.throws
    else if o.shape.offsets.length ≠ src.shape.offsets.length then Res.throws
    else if o.shape.offsets ≠ src.shape.offsets then Res.throws
    else do
      let v ← lookJ m src
      if partlyShared o src then Res.ub else storeJ m o 0 v

/-- `replace_storage` — `ConstraintJacobian.cpp` 309-314. (Only `MappedConstraintJacobian` has it.) -/
def replaceStorage (o : JObj K) (address : Option ℕ) : JObj K :=
  match o.values with
  | .own _ => o
  | .mapped _ => { o with values := .mapped address }

/-- `ConstraintJacobian(ConstraintJacobian_Base const &)` — `ConstraintJacobian.cpp` 358-361. -/
def copyJ (m : Mem K) (src : JObj K) : Res (JObj K) := do
  let v ← lookJ m src
  Res.ok ⟨src.shape, .own v⟩

/-- `whole_matrix` — `ConstraintJacobian.cpp` 216-227. -/
def matrixOf (m : Mem K) (o : JObj K) : Res (ℕ → ℕ → K) := do
  let v ← lookJ m o
  Res.ok (o.shape.wholeMatrix v)

/-- `operator==` — `ConstraintJacobian.cpp` 264-284. -/
def equalJ (m : Mem K) (o src : JObj K) : Res Bool :=
  if o.shape.blockHeight ≠ src.shape.blockHeight then Res.ok false
  else if o.shape.blockWidth ≠ src.shape.blockWidth then Res.ok false
  else if o.shape.offsets.length ≠ src.shape.offsets.length then Res.ok false
  else if o.shape.offsets ≠ src.shape.offsets then Res.ok false
  else do
    let v ← lookJ m o
    let w ← lookJ m src
    Res.ok (decide (v = w))

/-- The values that Ipopt gets — `ImplicitOptimizer.cpp` 395 with 399 or 427: the accessor is put onto Ipopt's array and the Jacobian is assigned to it. -/
def supplyValues (m : Mem K) (accessor jacobian : JObj K) (array : Option ℕ) : Res (Mem K × JObj K) :=
  callJ m (replaceStorage accessor array) (.assign jacobian)

/-- The array of an `Eigen::VectorXd` of this size: Eigen allocates nothing for an empty one, and its `data()` is null. -/
def arrayOf (address size : ℕ) : Option ℕ := if size = 0 then none else some address

/-- `density of the constraint jacobian` — `commands.cpp` 228-246: the Jacobian of the optimizer is assigned to a view of a vector with as many entries, and the
share of entries with an absolute value above 1e-10 is printed (without the factor 100). -/
def density (m : Mem K) (address : ℕ) (jacobian : JObj K) : Res K := do
  let copy ← copyJ m jacobian
  let r ← callJ m ⟨jacobian.shape, .mapped (arrayOf address jacobian.shape.nonZeros)⟩ (.assign copy)
  let storage := readMem r.1 address jacobian.shape.nonZeros
  Res.ok (((storage.filter fun e => decide (1 / 10 ^ 10 < max e (-e))).length : K) / (jacobian.shape.nonZeros : K))

/-! ## Specification -/

/-- The object has values: its array has the right size, and its pointer is not null. -/
def Usable (o : JObj K) : Prop :=
  match o.values with
  | .own v => v.length = o.shape.nonZeros
  | .mapped a => a ≠ none

/-- The memory that belongs to the object. -/
def JCells (o : JObj K) (a : ℕ) : Prop :=
  match o.values with
  | .mapped (some s) => s ≤ a ∧ a < s + o.shape.nonZeros
  | _ => False

/-- The matrix after a call, for a matrix `M` before it. The positions that can be non-zero are those of the pattern, which C11 describes. `other m src` is the matrix of the
source of an assignment. -/
def MatrixAfter (J : Jac) (M : ℕ → ℕ → K) (other : JObj K → Res (ℕ → ℕ → K)) (M' : ℕ → ℕ → K) : JCall K (JObj K) → Prop
  | .setZero => ∀ row < J.innerHeight, ∀ col < J.innerWidth, M' row col = 0
  | .setOnes => ∀ row < J.innerHeight, ∀ col < J.innerWidth, M' row col = if (row, col) ∈ J.supplyIndices then 1 else 0
  | .setBlock j b => ∀ row < J.innerHeight, ∀ col < J.innerWidth,
      M' row col = if col / J.blockWidth = j ∧ (row, col) ∈ J.supplyIndices then b (row - (J.innerHeight - J.innerColHeight j)) (col % J.blockWidth) else M row col
  | .assign src => other src = Res.ok M'

/-- The call makes sense: the column exists, or the source is usable and has the same shape, and its memory is the same or other memory. -/
def Sensible (o : JObj K) : JCall K (JObj K) → Prop
  | .setBlock j _ => j < o.shape.outerWidth
  | .assign src => Usable src ∧ src.shape = o.shape ∧ ((∀ a, JCells o a → ¬ JCells src a) ∨ ∀ a, JCells o a ↔ JCells src a)
  | _ => True

/-! ## Proofs -/

theorem lookJ_usable {m : Mem K} {o : JObj K} (h : Usable o) : ∃ v, lookJ m o = Res.ok v ∧ v.length = o.shape.nonZeros := by
  obtain ⟨J, v⟩ := o
  cases v with
  | own v => exact ⟨v, rfl, h⟩
  | mapped a =>
    cases a with
    | none => exact absurd rfl h
    | some a => exact ⟨_, rfl, readMem_length _ _ _⟩

/-- Writing to the values: the list changes as a list, the rest of memory stays. -/
theorem storeJ_spec {m : Mem K} {o : JObj K} (h : Usable o) {v : List K} (hv : lookJ m o = Res.ok v) (start : ℕ) (w : List K)
    (hw : start + w.length ≤ o.shape.nonZeros) :
    ∃ m' o', storeJ m o start w = Res.ok (m', o') ∧ o'.shape = o.shape ∧ Usable o' ∧ (∀ a, JCells o' a ↔ JCells o a) ∧
      lookJ m' o' = Res.ok (writeSegment v start w) ∧ ∀ a, ¬ JCells o a → m' a = m a := by
  obtain ⟨J, s⟩ := o
  cases s with
  | own s =>
    have e : s = v := Res.ok.inj hv
    subst e
    refine ⟨m, ⟨J, .own (writeSegment s start w)⟩, rfl, rfl, ?_, fun a => Iff.rfl, rfl, fun _ _ => rfl⟩
    have h' : s.length = J.nonZeros := h
    have hw' : start + w.length ≤ J.nonZeros := hw
    show (writeSegment s start w).length = J.nonZeros
    unfold writeSegment
    simp only [List.length_append, List.length_take, List.length_drop]
    omega
  | mapped a =>
    cases a with
    | none => exact absurd rfl h
    | some a =>
      have hw' : start + w.length ≤ J.nonZeros := hw
      have e : readMem m a J.nonZeros = v := Res.ok.inj hv
      refine ⟨writeMem m (a + start) w, ⟨J, .mapped (some a)⟩, rfl, rfl, h, fun a => Iff.rfl, ?_, fun b hb => ?_⟩
      · show Res.ok (readMem (writeMem m (a + start) w) a J.nonZeros) = _
        rw [readMem_writeMem m a J.nonZeros start w hw', e]
      · have hb' : ¬ (a ≤ b ∧ b < a + J.nonZeros) := hb
        exact (writeMem_get m (a + start) w b).2 (by omega)

theorem writeSegment_all' (l w : List K) (h : w.length = l.length) : writeSegment l 0 w = w := by
  unfold writeSegment
  simp [h]

theorem blockList_spec (J : Jac) (j : ℕ) (b : ℕ → ℕ → K) :
    (blockList J j b).length = J.innerColHeight j * J.blockWidth ∧
    ∀ r < J.innerColHeight j, ∀ c < J.blockWidth, (blockList J j b)[r * J.blockWidth + c]? = some (b r c) := by
  obtain ⟨h1, h2, -⟩ := flatMap_range_spec (fun r => (List.range J.blockWidth).map fun c => b r c) (fun r => r * J.blockWidth) (J.innerColHeight j)
    (by simp) (by intro r _; simp; ring)
  refine ⟨h1, fun r hr c hc => ?_⟩
  have := h2 r hr c (by simpa using hc)
  unfold blockList
  rw [this]
  simp [hc]

/-- Entries of the matrix. -/
theorem wholeMatrix_entry {J : Jac} (g : Good J) (v : List K) {row col : ℕ} (hrow : row < J.innerHeight) (hcol : col < J.innerWidth) :
    J.wholeMatrix v row col = (if J.innerRowstart (col / J.blockWidth) ≤ row then
      v.getD (J.columnBlockPos (col / J.blockWidth) (row - J.innerRowstart (col / J.blockWidth)) (col % J.blockWidth)) 0 else 0) ∧
    col / J.blockWidth < J.outerWidth ∧ col % J.blockWidth < J.blockWidth ∧
    ((row, col) ∈ J.supplyIndices ↔ J.innerRowstart (col / J.blockWidth) ≤ row) := by
  have hbpos : 0 < J.blockWidth := by
    rcases Nat.eq_zero_or_pos J.blockWidth with h | h
    · unfold Jac.innerWidth at hcol; rw [h] at hcol; simp at hcol
    · exact h
  have hj : col / J.blockWidth < J.outerWidth := (Nat.div_lt_iff_lt_mul hbpos).mpr hcol
  have hmod : col % J.blockWidth < J.blockWidth := Nat.mod_lt _ hbpos
  have hcoleq : col = J.innerColstart (col / J.blockWidth) + col % J.blockWidth := by
    unfold Jac.innerColstart; rw [Nat.mul_comm]; exact (Nat.div_add_mod col J.blockWidth).symm
  have hr := g.innerRow hj
  obtain ⟨h1, h2, h3⟩ := g.spec
  refine ⟨?_, hj, hmod, ?_⟩
  · unfold Jac.wholeMatrix
    conv_lhs => rw [hcoleq]
    rw [foldl_writeColumn J v _ _ _ _ hmod]
    by_cases hle : J.innerRowstart (col / J.blockWidth) ≤ row
    · rw [if_pos ⟨hj, hle, by omega⟩, if_pos hle]
    · rw [if_neg (by tauto), if_neg hle]
  · constructor
    · intro hm
      obtain ⟨k, hk⟩ := List.mem_iff_getElem?.mp hm
      have hkl : k < J.nonZeros := by
        rw [← h1]; by_contra hcon
        rw [List.getElem?_eq_none (by omega)] at hk; cases hk
      obtain ⟨j, hj', r, hr', c, hc', rfl⟩ := h3 k hkl
      rw [h2 j hj' r hr' c hc'] at hk
      have e := Option.some.inj hk
      obtain ⟨e1, e2⟩ := Prod.mk.inj e
      have : J.innerColstart j + c = J.innerColstart (col / J.blockWidth) + col % J.blockWidth := by rw [← hcoleq]; exact e2
      unfold Jac.innerColstart at this
      obtain ⟨rfl, -⟩ := block_unique hc' hmod this
      omega
    · intro hle
      have := h2 _ hj (row - J.innerRowstart (col / J.blockWidth)) (by omega) _ hmod
      have hm := List.mem_of_getElem? this
      rw [← hcoleq] at hm
      have e : J.innerRowstart (col / J.blockWidth) + (row - J.innerRowstart (col / J.blockWidth)) = row := by omega
      rwa [e] at hm

theorem pos_lt {J : Jac} (g : Good J) {j r c : ℕ} (hj : j < J.outerWidth) (hr : r < J.innerColHeight j) (hc : c < J.blockWidth) :
    J.columnBlockPos j r c < J.nonZeros := by
  obtain ⟨h1, h2, -⟩ := g.spec
  have := h2 j hj r hr c hc
  rw [← h1]
  by_contra hcon
  rw [List.getElem?_eq_none (by omega)] at this
  cases this

theorem off_le {J : Jac} (g : Good J) {j : ℕ} (hj : j < J.outerWidth) : J.innerColumnOffset j + J.innerColHeight j * J.blockWidth ≤ J.nonZeros := by
  have hmono : ∀ k, j + 1 + k ≤ J.outerWidth → J.off (j + 1) ≤ J.off (j + 1 + k) := by
    intro k
    induction k with
    | zero => intro _; exact le_rfl
    | succ k ih => intro hk; exact (ih (by omega)).trans (g.mono (j + 1 + k) (by omega))
  have h := hmono (J.outerWidth - (j + 1)) (by omega)
  rw [show j + 1 + (J.outerWidth - (j + 1)) = J.outerWidth by omega] at h
  have h0 := g.mono j hj
  have e : J.innerColumnOffset j + J.innerColHeight j * J.blockWidth = J.off (j + 1) * J.blockSize := by
    unfold Jac.innerColumnOffset Jac.innerColHeight Jac.outerColHeight Jac.blockSize
    rw [Nat.mul_assoc, ← Nat.add_mul]
    congr 1
    omega
  rw [e]
  exact Nat.mul_le_mul_right _ h

/-- Positions in different blocks are different. -/
theorem pos_inj {J : Jac} (g : Good J) {j r c j' r' c' : ℕ} (hj : j < J.outerWidth) (hr : r < J.innerColHeight j) (hc : c < J.blockWidth)
    (hj' : j' < J.outerWidth) (hr' : r' < J.innerColHeight j') (hc' : c' < J.blockWidth)
    (h : J.columnBlockPos j r c = J.columnBlockPos j' r' c') : j = j' ∧ r = r' ∧ c = c' := by
  obtain ⟨h1, h2, -⟩ := g.spec
  have e1 := h2 j hj r hr c hc
  have e2 := h2 j' hj' r' hr' c' hc'
  rw [h, e2] at e1
  obtain ⟨a1, a2⟩ := Prod.mk.inj (Option.some.inj e1)
  unfold Jac.innerColstart at a2
  obtain ⟨rfl, rfl⟩ := block_unique hc' hc a2
  exact ⟨rfl, by omega, rfl⟩

/-- The matrix after a block has been written. -/
theorem wholeMatrix_block {J : Jac} (g : Good J) {v : List K} (hv : v.length = J.nonZeros) {j : ℕ} (hj : j < J.outerWidth) (b : ℕ → ℕ → K)
    {row col : ℕ} (hrow : row < J.innerHeight) (hcol : col < J.innerWidth) :
    J.wholeMatrix (writeSegment v (J.innerColumnOffset j) (blockList J j b)) row col =
      if col / J.blockWidth = j ∧ (row, col) ∈ J.supplyIndices then b (row - (J.innerHeight - J.innerColHeight j)) (col % J.blockWidth)
      else J.wholeMatrix v row col := by
  obtain ⟨hl, hg⟩ := blockList_spec J j b
  have hoff := off_le g hj
  obtain ⟨e1, hjc, hmod, hin⟩ := wholeMatrix_entry g (writeSegment v (J.innerColumnOffset j) (blockList J j b)) hrow hcol
  obtain ⟨e2, -, -, -⟩ := wholeMatrix_entry g v hrow hcol
  rw [e1, e2]
  have hr := g.innerRow hjc
  by_cases hle : J.innerRowstart (col / J.blockWidth) ≤ row
  · rw [if_pos hle, List.getD_eq_getElem?_getD, writeSegment_get (by rw [hl, hv]; exact hoff)]
    by_cases hjj : col / J.blockWidth = j
    · have hr' : row - J.innerRowstart (col / J.blockWidth) < J.innerColHeight j := by rw [← hjj]; omega
      have hlt : (row - J.innerRowstart (col / J.blockWidth)) * J.blockWidth + col % J.blockWidth < J.innerColHeight j * J.blockWidth := by
        calc _ < (row - J.innerRowstart (col / J.blockWidth)) * J.blockWidth + J.blockWidth := by omega
          _ = (row - J.innerRowstart (col / J.blockWidth) + 1) * J.blockWidth := by ring
          _ ≤ _ := Nat.mul_le_mul_right _ hr'
      rw [if_pos (by unfold Jac.columnBlockPos; rw [hl, hjj]; rw [hjj] at hlt; omega), if_pos ⟨hjj, hin.mpr hle⟩]
      have ep : J.columnBlockPos (col / J.blockWidth) (row - J.innerRowstart (col / J.blockWidth)) (col % J.blockWidth) - J.innerColumnOffset j =
          (row - J.innerRowstart (col / J.blockWidth)) * J.blockWidth + col % J.blockWidth := by
        unfold Jac.columnBlockPos; rw [hjj]; omega
      rw [ep, hg _ hr' _ hmod, Option.getD_some]
      congr 1
      rw [← hjj]; omega
    · rw [if_neg (c := _ ∧ (row, col) ∈ J.supplyIndices) (fun h => hjj h.1), if_pos hle, if_neg, List.getD_eq_getElem?_getD]
      rw [hl]
      rintro ⟨a1, a2⟩
      have hb : 0 < J.blockWidth := by omega
      generalize hp : J.columnBlockPos (col / J.blockWidth) (row - J.innerRowstart (col / J.blockWidth)) (col % J.blockWidth) = p at a1 a2
      have hk : p - J.innerColumnOffset j < J.innerColHeight j * J.blockWidth := by omega
      refine hjj (pos_inj g hjc (show row - J.innerRowstart (col / J.blockWidth) < J.innerColHeight (col / J.blockWidth) by omega) hmod hj
        ((Nat.div_lt_iff_lt_mul hb).mpr hk) (Nat.mod_lt (p - J.innerColumnOffset j) hb) ?_).1
      rw [hp]
      unfold Jac.columnBlockPos
      have := Nat.div_add_mod (p - J.innerColumnOffset j) J.blockWidth
      rw [Nat.mul_comm] at this
      omega
  · rw [if_neg hle, if_neg (fun h => hle (hin.mp h.2)), if_neg hle]

theorem wholeMatrix_const {J : Jac} (g : Good J) (x : K) {row col : ℕ} (hrow : row < J.innerHeight) (hcol : col < J.innerWidth) :
    J.wholeMatrix (List.replicate J.nonZeros x) row col = if (row, col) ∈ J.supplyIndices then x else 0 := by
  obtain ⟨e1, hjc, hmod, hin⟩ := wholeMatrix_entry g (List.replicate J.nonZeros x) hrow hcol
  have hr := g.innerRow hjc
  rw [e1]
  by_cases hle : J.innerRowstart (col / J.blockWidth) ≤ row
  · rw [if_pos hle, if_pos (hin.mpr hle), List.getD_eq_getElem?_getD, List.getElem?_replicate,
      if_pos (pos_lt g hjc (by omega) hmod), Option.getD_some]
  · rw [if_neg hle, if_neg (fun h => hle (hin.mp h))]

/-- C143. Sensible calls on a Jacobian that has values succeed: the matrix changes as the call says, the shape and the place of the values stay as they are, and no memory changes but that of
the object. It does not matter whether the values are its own or in the caller's memory. -/
theorem C143_call (bh bw : ℕ) (cs us : List T) (hc : cs.Pairwise (· ≤ ·)) (hu : us.Pairwise (· ≤ ·)) (m : Mem K) (o : JObj K)
    (hJ : makeData bh bw cs us = Res.ok o.shape) (ho : Usable o) (c : JCall K (JObj K)) (hs : Sensible o c) :
    ∃ M m' o' M', matrixOf m o = Res.ok M ∧ callJ m o c = Res.ok (m', o') ∧ o'.shape = o.shape ∧ Usable o' ∧ (∀ a, JCells o' a ↔ JCells o a) ∧
      (∀ a, ¬ JCells o a → m' a = m a) ∧ matrixOf m' o' = Res.ok M' ∧ MatrixAfter o.shape M (matrixOf m) M' c := by
  have g := good_of_makeData hc hu hJ
  obtain ⟨v, hv, hvl⟩ := lookJ_usable (m := m) ho
  have hM : matrixOf m o = Res.ok (o.shape.wholeMatrix v) := by simp [matrixOf, hv]
  have all : ∀ w : List K, w.length = o.shape.nonZeros →
      ∃ m' o', storeJ m o 0 w = Res.ok (m', o') ∧ o'.shape = o.shape ∧ Usable o' ∧ (∀ a, JCells o' a ↔ JCells o a) ∧
        (∀ a, ¬ JCells o a → m' a = m a) ∧ matrixOf m' o' = Res.ok (o.shape.wholeMatrix w) := by
    intro w hw
    obtain ⟨m', o', h1, h2, h3, h4, h5, h6⟩ := storeJ_spec ho hv 0 w (by omega)
    refine ⟨m', o', h1, h2, h3, h4, h6, ?_⟩
    rw [writeSegment_all' v w (hw.trans hvl.symm)] at h5
    simp [matrixOf, h5, h2]
  refine ⟨o.shape.wholeMatrix v, ?_⟩
  cases c with
  | setZero =>
    obtain ⟨m', o', h1, h2, h3, h4, h5, h6⟩ := all (List.replicate o.shape.nonZeros 0) (by simp)
    refine ⟨m', o', _, hM, h1, h2, h3, h4, h5, h6, fun row hrow col hcol => ?_⟩
    rw [wholeMatrix_const g 0 hrow hcol]
    split <;> rfl
  | setOnes =>
    obtain ⟨m', o', h1, h2, h3, h4, h5, h6⟩ := all (List.replicate o.shape.nonZeros 1) (by simp)
    exact ⟨m', o', _, hM, h1, h2, h3, h4, h5, h6, fun row hrow col hcol => wholeMatrix_const g 1 hrow hcol⟩
  | setBlock j b =>
    have hj : j < o.shape.outerWidth := hs
    obtain ⟨m', o', h1, h2, h3, h4, h5, h6⟩ := storeJ_spec ho hv (o.shape.innerColumnOffset j) (blockList o.shape j b)
      (by rw [(blockList_spec o.shape j b).1]; exact off_le g hj)
    refine ⟨m', o', _, hM, ?_, h2, h3, h4, h6, by simp only [matrixOf, h5, h2, Res.ok_bind], fun row hrow col hcol => wholeMatrix_block g hvl hj b hrow hcol⟩
    show (if j < o.shape.outerWidth then _ else _) = _
    rw [if_pos hj, h1]
  | assign src =>
    obtain ⟨hsrc, hsh, hcells⟩ := hs
    obtain ⟨w, hw, hwl⟩ := lookJ_usable (m := m) hsrc
    obtain ⟨m', o', h1, h2, h3, h4, h5, h6⟩ := all w (by rw [hwl, hsh])
    refine ⟨m', o', _, hM, ?_, h2, h3, h4, h5, h6, ?_⟩
    · have hp : partlyShared o src = false := by
        obtain ⟨J, s⟩ := o
        obtain ⟨J', s'⟩ := src
        have hsh' : J' = J := hsh
        subst hsh'
        unfold partlyShared
        cases s with
        | own => rfl
        | mapped a =>
          cases s' with
          | own => cases a <;> rfl
          | mapped b =>
            cases a with
            | none => rfl
            | some a =>
              cases b with
              | none => rfl
              | some b =>
                show decide _ = false
                rw [decide_eq_false_iff_not]
                rintro ⟨a1, a2, a3⟩
                simp only at a2 a3
                have c1 : ∀ x, JCells (⟨J', .mapped (some a)⟩ : JObj K) x ↔ a ≤ x ∧ x < a + J'.nonZeros := fun x => Iff.rfl
                have c2 : ∀ x, JCells (⟨J', .mapped (some b)⟩ : JObj K) x ↔ b ≤ x ∧ x < b + J'.nonZeros := fun x => Iff.rfl
                simp only [c1, c2] at hcells
                rcases hcells with hcells | hcells
                · have := hcells (max a b)
                  omega
                · have := hcells a
                  have := hcells b
                  omega
      show (if _ then _ else _) = _
      rw [if_neg (by rw [hsh]; simp), if_neg (by rw [hsh]; simp), if_neg (by rw [hsh]; simp), if_neg (by rw [hsh]; simp), hw, Res.ok_bind, hp]
      simpa using h1
    · show matrixOf m src = _
      simp [matrixOf, hw, hsh]

/-- C143. An assignment from a Jacobian of another shape throws, whatever their values are. -/
theorem C143_mismatch (m : Mem K) (o src : JObj K) (h : src.shape ≠ o.shape) : callJ m o (.assign src) = Res.throws := by
  obtain ⟨⟨h1, w1, o1⟩, s⟩ := o
  obtain ⟨⟨h2, w2, o2⟩, s'⟩ := src
  show (if w1 ≠ w2 then _ else if h1 ≠ h2 then _ else if o1.length ≠ o2.length then _ else if o1 ≠ o2 then _ else _) = _
  by_cases e1 : w1 = w2
  · by_cases e2 : h1 = h2
    · have e3 : o1 ≠ o2 := fun e => h (by subst e e1 e2; rfl)
      rw [if_neg (by simpa using e1), if_neg (by simpa using e2), if_pos (c := o1 ≠ o2) e3]
      split_ifs <;> rfl
    · rw [if_neg (by simpa using e1), if_pos e2]
  · rw [if_pos e1]

/-- C143. A view without memory can be neither read nor written, nor be the source of an assignment: all these throw. -/
theorem C143_null (m : Mem K) (o : JObj K) (ho : o.values = .mapped none) :
    matrixOf m o = Res.throws ∧ copyJ m o = Res.throws ∧ (∀ c, Sensible o c → callJ m o c = Res.throws) ∧
    (∀ p : JObj K, callJ m p (.assign o) = Res.throws) ∧ ∀ p : JObj K, p.shape = o.shape → Usable p → equalJ m o p = Res.throws ∧ equalJ m p o = Res.throws := by
  have hl : lookJ m o = Res.throws := by unfold lookJ; rw [ho]
  have hst : ∀ start w, storeJ m o start w = Res.throws := by intro start w; unfold storeJ; rw [ho]
  refine ⟨by simp [matrixOf, hl], by simp [copyJ, hl], fun c hs => ?_, fun p => ?_, fun p hp hu => ?_⟩
  · cases c with
    | setZero => exact hst _ _
    | setOnes => exact hst _ _
    | setBlock j b =>
      show (if j < o.shape.outerWidth then _ else _) = _
      rw [if_pos (show j < o.shape.outerWidth from hs), hst]
    | assign src =>
      obtain ⟨hsrc, hsh, -⟩ := hs
      obtain ⟨w, hw, -⟩ := lookJ_usable (m := m) hsrc
      show (if _ then _ else _) = _
      have hp : partlyShared o src = false := by unfold partlyShared; rw [ho]
      rw [if_neg (by rw [hsh]; simp), if_neg (by rw [hsh]; simp), if_neg (by rw [hsh]; simp), if_neg (by rw [hsh]; simp), hw, Res.ok_bind, hp]
      simpa using hst 0 w
  · show (if _ then _ else _) = _
    split_ifs <;> simp [hl]
  · obtain ⟨w, hw, -⟩ := lookJ_usable (m := m) hu
    simp [equalJ, hp, hl, hw]

/-- C143. A view that is put onto other memory shows what is there; nothing is copied. A copy of a view keeps the values it had, whatever happens to the memory later. -/
theorem C143_replace (m m' : Mem K) (J : Jac) (a : Option ℕ) (b : ℕ) (src : JObj K) (hs : Usable src) :
    lookJ m (replaceStorage ⟨J, .mapped a⟩ (some b)) = Res.ok ((List.range J.nonZeros).map fun k => m (b + k)) ∧
    ∃ copy, copyJ m src = Res.ok copy ∧ lookJ m' copy = lookJ m src ∧ copy.shape = src.shape ∧ ∀ x, ¬ JCells copy x := by
  refine ⟨rfl, ?_⟩
  obtain ⟨v, hv, -⟩ := lookJ_usable (m := m) hs
  exact ⟨⟨src.shape, .own v⟩, by simp [copyJ, hv], by rw [hv]; rfl, rfl, fun _ h => h⟩

/-- C143. Ipopt gets the values of the Jacobian: in its array, position by position, there are the entries of the matrix in the order of the indices it was told before, and the rest of
the memory is as it was. -/
theorem C143_ipopt (bh bw : ℕ) (cs us : List T) (hc : cs.Pairwise (· ≤ ·)) (hu : us.Pairwise (· ≤ ·)) (m : Mem K) (J : Jac)
    (hJ : makeData bh bw cs us = Res.ok J) (v : List K) (hv : v.length = J.nonZeros) (old : Option ℕ) (array : ℕ) :
    ∃ m' accessor, supplyValues m ⟨J, .mapped old⟩ ⟨J, .own v⟩ (some array) = Res.ok (m', accessor) ∧
      (∀ k (hk : k < J.supplyIndices.length), m' (array + k) = J.wholeMatrix v J.supplyIndices[k].1 J.supplyIndices[k].2) ∧
      ∀ x, ¬ (array ≤ x ∧ x < array + J.supplyIndices.length) → m' x = m x := by
  have g := good_of_makeData hc hu hJ
  obtain ⟨hl, -, -⟩ := g.spec
  refine ⟨writeMem m array v, ⟨J, .mapped (some array)⟩, ?_, fun k hk => ?_, fun x hx => ?_⟩
  · simp [supplyValues, replaceStorage, callJ, lookJ, partlyShared, storeJ]
  · have h1 := (C10_values_match_indices bh bw cs us hc hu J hJ v hv).1 k _ (List.getElem?_eq_getElem hk)
    have h2 := (writeMem_get m array v (array + k)).1 (by omega)
    rw [Nat.add_sub_cancel_left, h1] at h2
    exact Option.some.inj h2
  · exact (writeMem_get m array v x).2 (by omega)

/-- C143. Two Jacobians that have values are equal exactly if they have the same shape and the same values. -/
theorem C143_equal (m : Mem K) (o p : JObj K) (ho : Usable o) (hp : Usable p) :
    ∃ r, equalJ m o p = Res.ok r ∧ (r = true ↔ o.shape = p.shape ∧ lookJ m o = lookJ m p) := by
  obtain ⟨v, hv, -⟩ := lookJ_usable (m := m) ho
  obtain ⟨w, hw, -⟩ := lookJ_usable (m := m) hp
  obtain ⟨⟨h1, w1, o1⟩, s⟩ := o
  obtain ⟨⟨h2, w2, o2⟩, s'⟩ := p
  by_cases e1 : h1 = h2
  · by_cases e2 : w1 = w2
    · by_cases e3 : o1 = o2
      · subst e1 e2 e3
        exact ⟨decide (v = w), by simp [equalJ, hv, hw], by simp [hv, hw]⟩
      · refine ⟨false, ?_, by simp [e3]⟩
        unfold equalJ
        simp [e1, e2, e3]
    · refine ⟨false, ?_, by simp [e2]⟩
      unfold equalJ
      simp [e1, e2]
  · refine ⟨false, ?_, by simp [e1]⟩
    unfold equalJ
    simp [e1]

/-- The density after an optimization. -/
theorem density_eq (m : Mem K) (address : ℕ) (J : Jac) (v : List K) (hv : v.length = J.nonZeros) :
    density m address ⟨J, .own v⟩ = if J.nonZeros = 0 then Res.throws else
      Res.ok (((v.filter fun e => decide (1 / 10 ^ 10 < max e (-e))).length : K) / (J.nonZeros : K)) := by
  by_cases h : J.nonZeros = 0
  · simp [density, copyJ, lookJ, callJ, arrayOf, h, partlyShared, storeJ]
  · have e : readMem (writeMem m address v) address J.nonZeros = v := by
      have := readMem_writeMem m address J.nonZeros 0 v (by omega)
      rw [Nat.add_zero] at this
      rw [this, writeSegment_all' _ _ (by rw [readMem_length, hv])]
    simp [density, copyJ, lookJ, callJ, arrayOf, h, partlyShared, storeJ, e]

/-! ## Examples -/

/-- Two constraint times, two control times, one control and one constraint per time; a view of the cells from 100 on. -/
example : ∃ o : JObj ℚ, makeData 1 1 [(1 : ℕ), 2] [0, 1] = Res.ok o.shape ∧ Usable o ∧ JCells o 100 ∧ ¬ JCells o 104 ∧
    Sensible o (.setBlock 1 fun _ _ => 5) ∧ Sensible o (.assign ⟨o.shape, .own [1, 2, 3, 4]⟩) :=
  ⟨⟨⟨1, 1, [0, 2, 4]⟩, .mapped (some 100)⟩, by simp [makeData, makeDataLoop], by simp [Usable], by simp [JCells, Jac.nonZeros, Jac.off, Jac.blockSize],
    by simp [JCells, Jac.nonZeros, Jac.off, Jac.blockSize], by simp [Sensible, Jac.outerWidth],
    by simp [Sensible, Usable, JCells, Jac.nonZeros, Jac.off, Jac.blockSize]⟩

/-- Writing the block of the second control: cells 102 and 103 change. -/
example : (match callJ (fun a => (a : ℚ)) ⟨⟨1, 1, [0, 2, 4]⟩, .mapped (some 100)⟩ (.setBlock 1 fun r _ => r + 7) with
    | Res.ok r => (List.range 6).map (fun k => r.1 (99 + k))
    | _ => []) = [99, 100, 101, 7, 8, 104] := by decide +kernel

/-- Jacobians of different shapes. -/
example : (⟨1, 1, [0, 2, 4]⟩ : Jac) ≠ ⟨1, 1, [0, 2, 3]⟩ ∧ Usable (⟨⟨1, 1, [0, 2, 3]⟩, .own [1, 2, 3]⟩ : JObj ℚ) := by
  simp [Usable, Jac.nonZeros, Jac.off, Jac.blockSize]

/-- The views of an optimizer before its first evaluation are without memory. -/
example : ∃ o : JObj ℚ, o.values = .mapped none ∧ ∃ p : JObj ℚ, p.shape = o.shape ∧ Usable p :=
  ⟨⟨⟨1, 1, [0, 2, 4]⟩, .mapped none⟩, rfl, ⟨⟨1, 1, [0, 2, 4]⟩, .own [1, 2, 3, 4]⟩, rfl, rfl⟩

end Verif.Jacobian
