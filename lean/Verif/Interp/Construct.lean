import Verif.Interp.Props

/-!
# Constructors of interpolating vectors (C04, C67)
-/

set_option autoImplicit false

namespace Verif.Interp

variable {K : Type} [Field K] [LinearOrder K] [IsStrictOrderedRing K]

omit [Field K] [IsStrictOrderedRing K] in
/-- **C04** (mapped vectors): with sorted points a mapped vector is constructed iff the array has exactly the size of the vector, and
otherwise there is an exception. The vector has the given points and inner length, and its time steps lie in the array
one after another. -/
theorem C04_mapped (asserts : Bool) (pts : List K) (inner : ℕ) (array : List K) (hs : isSorted pts = true) :
    (array.length = pts.length * inner → ∃ v, constructMapped asserts pts inner array = Res.ok v ∧ v.WF ∧ v.points = pts ∧
      v.inner = inner ∧ ∀ i < pts.length, vectorAtIndex v (i : ℤ) = Res.ok ((array.drop (inner * i)).take inner)) ∧
    (array.length ≠ pts.length * inner → constructMapped asserts pts inner array = Res.throws) := by
  constructor
  · intro h
    have hwf : IV.WF (⟨pts, inner, array⟩ : IV K) := h
    refine ⟨⟨pts, inner, array⟩, ?_, hwf, rfl, rfl, fun i hi => ?_⟩
    · simp [constructMapped, hs, h, mul_comm]
    · have hle : inner * i + inner ≤ array.length := by
        rw [h]
        calc inner * i + inner = (i + 1) * inner := by ring
          _ ≤ pts.length * inner := Nat.mul_le_mul_right _ hi
      simp only [vectorAtIndex, segment]
      rw [if_neg (by omega)]
      simp only [Int.toNat_natCast]
      rw [if_neg (by omega), if_pos hle]
  · intro h
    rw [mul_comm] at h
    simp [constructMapped, hs, h.symm]

example : isSorted [(0 : ℚ), 1] = true ∧
    constructMapped true [(0 : ℚ), 1] 2 [1, 2, 3, 4] = Res.ok ⟨[0, 1], 2, [1, 2, 3, 4]⟩ ∧
    constructMapped true [(0 : ℚ), 1] 2 [1, 2, 3, 4, 5] = Res.throws := by decide +kernel

omit [Field K] [LinearOrder K] [IsStrictOrderedRing K] in
/-- **C04** (mapped vectors): other values are accepted iff there are as many as before, and points and size stay. -/
theorem C04_reset (v : IV K) (hwf : v.WF) (array : List K) :
    (array.length = v.values.length → ∃ v', resetValues v array = Res.ok v' ∧ v'.WF ∧ v'.points = v.points ∧
      v'.inner = v.inner ∧ v'.values = array) ∧
    (array.length ≠ v.values.length → resetValues v array = Res.throws) := by
  constructor
  · intro h
    exact ⟨{ v with values := array }, by simp [resetValues, h], h.trans hwf, rfl, rfl, rfl⟩
  · intro h
    simp [resetValues, h]

omit [Field K] [IsStrictOrderedRing K] in
/-- **C04** (owning vectors): whatever is in the memory, a constructed vector has one vector of the given length for each point. -/
theorem C04_constructed (asserts : Bool) (mem : ℕ → K) (pts : List K) (inner : ℕ) :
    (∀ v, constructFromEigen asserts mem pts inner = Res.ok v → v.WF ∧ v.points = pts ∧ v.inner = inner) ∧
    (∀ v, constructFromStdVector mem pts inner = Res.ok v → v.WF ∧ v.points = pts ∧ v.inner = inner) := by
  constructor
  · intro v h
    unfold constructFromEigen at h
    split at h
    · cases h
    · cases h
      exact ⟨by simp [IV.WF, uninit, mul_comm], rfl, rfl⟩
  · intro v h
    unfold constructFromStdVector at h
    dsimp only at h
    split at h
    · cases h
    · cases h
      exact ⟨by simp [IV.WF, uninit, mul_comm], rfl, rfl⟩

omit [IsStrictOrderedRing K] in
/-- **C04** (owning vectors, equidistant points). -/
theorem C04_equidistant (asserts : Bool) (mem : ℕ → K) (d : InterpolationData K) (inner : ℕ) (v : IV K)
    (h : constructFromData asserts mem d inner = Res.ok v) :
    v.WF ∧ v.points = equidistantPoints d ∧ v.points.length = d.number ∧ v.inner = inner := by
  unfold constructFromData at h
  dsimp only at h
  split at h
  · cases h
  · cases h
    have : (equidistantPoints d).length = d.number := equidistantLoop_length _ _ _
    exact ⟨by simp [IV.WF, uninit, this, mul_comm], rfl, this, rfl⟩

example : ∃ v, constructFromEigen true (fun _ => 7) [(0 : ℚ), 1] 2 = Res.ok v := ⟨_, rfl⟩
example : constructFromData true (fun _ => 7) (⟨0, 1, 3⟩ : InterpolationData ℚ) 1 = Res.ok ⟨[0, 1, 2], 1, [7, 7, 7]⟩ := by
  decide +kernel

/-- **C67** (construction): a vector constructed by interpolation has the given points and at each of them the value of the
interpolation, whatever was in the memory; there is an exception iff one of the points is outside the range. -/
theorem C67_construct (asserts : Bool) (mem : ℕ → K) (pts : List K) (src : IV K) (hp : isSorted pts = true) (hsrc : src.WF)
    (hs : src.points.Pairwise (· < ·)) (hn : 0 < src.points.length) :
    ((∀ p ∈ pts, src.points[0] - EPSILON ≤ p ∧ p ≤ src.points[src.points.length - 1] + EPSILON) →
      ∃ v, constructAndInterpolateFrom asserts mem pts src.inner src = Res.ok v ∧ v.WF ∧ v.points = pts ∧
        v.inner = src.inner ∧ ∀ i (hi : i < pts.length), vectorAtIndex v (i : ℤ) = eval src pts[i]) ∧
    ((∃ p ∈ pts, p < src.points[0] - EPSILON ∨ src.points[src.points.length - 1] + EPSILON < p) →
      constructAndInterpolateFrom asserts mem pts src.inner src = Res.throws) := by
  have h0 : constructFromEigen asserts mem pts src.inner = Res.ok ⟨pts, src.inner, uninit mem (src.inner * pts.length)⟩ := by
    simp [constructFromEigen, hp]
  have hwf := (C04_constructed asserts mem pts src.inner).1 _ h0
  have key := C67_interpolate_from ⟨pts, src.inner, uninit mem (src.inner * pts.length)⟩ src hwf.1 hsrc hs hn rfl
  unfold constructAndInterpolateFrom
  rw [h0]
  simp only [Res.ok_bind]
  exact key

example : constructAndInterpolateFrom true (fun _ => 7) [(0 : ℚ), 1, 2] 1 ⟨[0, 2], 1, [0, 4]⟩ =
    Res.ok ⟨[0, 1, 2], 1, [0, 2, 4]⟩ := by decide +kernel

end Verif.Interp
