import Verif.Jacobian.Props

/-!
# Property C138: numbers that do not fit into the index type of Ipopt are refused

Sources: `/repo/src/IpoptWrapper/Wrapper.cpp` 33-67, `/repo/src/IpoptWrapper/ImplicitOptimizer.cpp` 179-194 and
`/repo/src/IpoptWrapper/ConstraintJacobian.cpp` 191-214. `Ipopt::Index` is `int` with 32 bits, `Eigen::Index` has 64 bits; numbers that
do not fit into 64 bits are not considered.
-/

set_option autoImplicit false

namespace Verif.Jacobian

variable {T : Type*} [LinearOrder T]

/-! ## Model -/

/-- `std::numeric_limits<Ipopt::Index>::max()`. -/
def indexMax : ℕ := 2147483647

/-- `static_cast<int>` of an index, which keeps the last 32 bits — `Wrapper.cpp` 59-62, `ConstraintJacobian.cpp` 207-208. -/
def toIndex (n : ℕ) : ℤ := (n : ℤ).bmod 4294967296

/-- `get_nlp_info` — `Wrapper.cpp` 33-67: the numbers of controls, of constraints and of entries of the Jacobian; `none` if
false is returned. -/
def nlpInfo (controls constraints nonzeros : ℕ) : Option (ℤ × ℤ × ℤ) :=
  if controls > indexMax then none
  else if constraints > indexMax then none
  else if nonzeros > indexMax then none
  else some (toIndex controls, toIndex constraints, toIndex nonzeros)

/-- `eval_jac_g` without values — `Wrapper.cpp` 131-138: the indices as Ipopt gets them. -/
def ipoptIndices (J : Jac) : List (ℤ × ℤ) := J.supplyIndices.map fun p => (toIndex p.1, toIndex p.2)

/-! ## Proofs -/

theorem toIndex_eq {n : ℕ} (h : n ≤ indexMax) : toIndex n = n := by
  unfold toIndex
  unfold indexMax at h
  exact Int.bmod_eq_of_le (by omega) (by omega)

/-- C138. For sorted times and any number of constraints and controls per time: Ipopt is told the true numbers of controls,
constraints and entries, and gets the true rows and columns, as many as announced; or one of the numbers is larger than
the largest index and false is returned, so that Ipopt never starts. -/
theorem C138_indices (bh bw : ℕ) (cs us : List T) (hc : cs.Pairwise (· ≤ ·)) (hu : us.Pairwise (· ≤ ·)) (J : Jac)
    (hJ : makeData bh bw cs us = Res.ok J) :
    (∀ n m nnz, nlpInfo (bw * us.length) (bh * cs.length) J.nonZeros = some (n, m, nnz) →
      n = (bw * us.length : ℕ) ∧ m = (bh * cs.length : ℕ) ∧ nnz = (ipoptIndices J).length ∧
      ipoptIndices J = J.supplyIndices.map (fun p => ((p.1 : ℤ), (p.2 : ℤ))) ∧
      ∀ p ∈ ipoptIndices J, 0 ≤ p.1 ∧ p.1 < m ∧ 0 ≤ p.2 ∧ p.2 < n) ∧
    (nlpInfo (bw * us.length) (bh * cs.length) J.nonZeros = none ↔
      2 ^ 31 ≤ bw * us.length ∨ 2 ^ 31 ≤ bh * cs.length ∨ 2 ^ 31 ≤ J.supplyIndices.length) := by
  obtain ⟨h1, -, h3⟩ := C09_indices bh bw cs us hc hu J hJ
  have hmax : indexMax + 1 = 2 ^ 31 := by norm_num [indexMax]
  constructor
  · intro n m nnz h
    unfold nlpInfo at h
    split_ifs at h with a1 a2 a3
    simp only [Option.some.injEq, Prod.mk.injEq] at h
    obtain ⟨rfl, rfl, rfl⟩ := h
    rw [toIndex_eq (by omega), toIndex_eq (by omega), toIndex_eq (by omega)]
    have e : ipoptIndices J = J.supplyIndices.map (fun p => ((p.1 : ℤ), (p.2 : ℤ))) := by
      refine List.map_congr_left fun p hp => ?_
      obtain ⟨b1, b2⟩ := h3 p hp
      rw [Nat.mul_comm] at b1 b2
      rw [toIndex_eq (by omega), toIndex_eq (by omega)]
    refine ⟨rfl, rfl, ?_, e, ?_⟩
    · rw [e, List.length_map, h1]
    · rw [e]
      intro p hp
      obtain ⟨q, hq, rfl⟩ := List.mem_map.mp hp
      obtain ⟨b1, b2⟩ := h3 q hq
      rw [Nat.mul_comm] at b1 b2
      exact ⟨Int.natCast_nonneg _, Int.ofNat_lt.mpr b1, Int.natCast_nonneg _, Int.ofNat_lt.mpr b2⟩
  · rw [h1]
    unfold nlpInfo
    split_ifs with a1 a2 a3
    · simp only [true_iff]; omega
    · simp only [true_iff]; omega
    · simp only [true_iff]; omega
    · simp only [false_iff]; omega

/-- Two constraint times, two control times, two controls and one constraint per time. -/
example : ∃ J, makeData 1 2 [(1 : ℕ), 2] [0, 1] = Res.ok J ∧ nlpInfo (2 * 2) (1 * 2) J.nonZeros = some (4, 2, 8) :=
  ⟨⟨1, 2, [0, 2, 4]⟩, by simp [makeData, makeDataLoop], by decide⟩

/-- Without the check an index of 2³¹ would be negative. -/
example : toIndex (2 ^ 31) = -2 ^ 31 ∧ nlpInfo (2 ^ 31) 1 1 = none := by decide +kernel

end Verif.Jacobian
