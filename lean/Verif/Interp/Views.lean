import Verif.Interp.Props

/-!
# Vectors that are views of the caller's memory

`/repo/src/Auxillary/InterpolatingVector/`: besides `InterpolatingVector`, which owns its values, there
are `MappedInterpolatingVector` and `ConstMappedInterpolatingVector`, whose values lie in an array of
the caller.  Here the memory of the caller is modelled as cells with addresses, so that several views may
share cells, and the calls of the class are modelled as they act on memory and object.

Simplifications: the caller's arrays exist as long as the views (the classes say so in their
comments); values owned by an `InterpolatingVector` lie in memory that no view covers.
-/

set_option autoImplicit false
set_option linter.unusedSectionVars false

namespace Verif.Interp.Views

open Verif Verif.Interp

variable {K : Type*} [Field K] [LinearOrder K]

/-- The caller's memory: one number per address. -/
abbrev Mem (K : Type*) := ℕ → K

/-- Where the values of a vector are: `values` (`InterpolatingVector.hpp` 145), a mutable map (185) or a
constant map (207) of `len` cells from `start` on. -/
inductive Store (K : Type*) where
  | own (values : List K)
  | mapped (start len : ℕ)
  | constMapped (start len : ℕ)
  deriving DecidableEq

/-- An object of one of the three classes — `InterpolatingVector.hpp` 98-99, 145, 185, 207. -/
structure Obj (K : Type*) where
  points : List K
  inner : ℕ
  store : Store K
  deriving DecidableEq

/-- `n` cells from `s` on. -/
def readMem (m : Mem K) (s n : ℕ) : List K := (List.range n).map fun k => m (s + k)

/-- The memory after the cells from `s` on have been overwritten with `w`. -/
def writeMem (m : Mem K) (s : ℕ) (w : List K) : Mem K :=
  fun a => if s ≤ a then (w[a - s]?).getD (m a) else m a

/-- `allvalues() const` of the three classes — `InterpolatingVector.cpp` 430-433, 545-548, 613-616. -/
def allvalues (m : Mem K) (o : Obj K) : List K :=
  match o.store with
  | .own v => v
  | .mapped s n => readMem m s n
  | .constMapped s n => readMem m s n

/-- What a user sees of the object: points, inner length and values. -/
def look (m : Mem K) (o : Obj K) : IV K := ⟨o.points, o.inner, allvalues m o⟩

/-- Memory and object after a call, and whether it threw an exception. -/
structure After (K : Type*) where
  threw : Bool
  mem : Mem K
  obj : Obj K

/-- Assignment of `w` to the segment of `allvalues()` (the non-constant one: 423-425, 542-544, 601-612;
it throws for a constant map) that begins at `start`. -/
def assignSegment (m : Mem K) (o : Obj K) (start : ℕ) (w : List K) : After K :=
  match o.store with
  | .own v => ⟨false, m, { o with store := .own (writeSegment v start w) }⟩
  | .mapped s _ => ⟨false, writeMem m (s + start) w, o⟩
  | .constMapped _ _ => ⟨true, m, o⟩

/-- Is `allvalues()` without `const` refused?  `InterpolatingVector.cpp` 601-612. -/
def isConst (o : Obj K) : Bool :=
  match o.store with
  | .constMapped _ _ => true
  | _ => false

/-- `mut_timestep(i) = w` — `InterpolatingVector.cpp` 302-315; `none` is undefined behaviour (wrong
length on the right). -/
def mutTimestep (m : Mem K) (o : Obj K) (i : ℤ) (w : List K) : Option (After K) :=
  if i < 0 then some ⟨true, m, o⟩
  else
    let start := o.inner * i.toNat
    if (allvalues m o).length < start + o.inner then some ⟨true, m, o⟩
    else if isConst o then some ⟨true, m, o⟩
    else if w.length = o.inner then some (assignSegment m o start w)
    else none

/-- `set_values_in_bulk` — `InterpolatingVector.cpp` 213-219: asks for `allvalues()` without `const`
already in the comparison. -/
def setBulk (m : Mem K) (o : Obj K) (w : List K) : After K :=
  if isConst o then ⟨true, m, o⟩
  else if w.length ≠ (allvalues m o).length then ⟨true, m, o⟩
  else assignSegment m o 0 w

/-- `setZero` — `InterpolatingVector.cpp` 221. -/
def setZeroObj (m : Mem K) (o : Obj K) : After K :=
  assignSegment m o 0 ((allvalues m o).map fun _ => 0)

/-- `push_to_index` — `InterpolatingVector.cpp` 317-321. -/
def pushObj (m : Mem K) (o : Obj K) (i : ℤ) (t : K) (w : List K) : Option (After K) :=
  match mutTimestep m o i w with
  | none => none
  | some r =>
    if r.threw then some r
    else if i.toNat < r.obj.points.length then
      some { r with obj := { r.obj with points := r.obj.points.set i.toNat t } }
    else none

/-- `interpolate_from` — `InterpolatingVector.cpp` 223-237, the loop from `index` on with `n` points
left.  The right side of line 235 is evaluated into a vector of its own before it is written; the source
is read from the memory as it is at that moment. -/
def interpolateLoop (m : Mem K) (o src : Obj K) (index : ℕ) : ℕ → Option (After K)
  | 0 => some ⟨false, m, o⟩
  | n + 1 =>
    match o.points[index]? with
    | none => none
    | some p =>
      match eval (look m src) p with
      | .ub => none
      | .throws => some ⟨true, m, o⟩
      | .ok w =>
        match mutTimestep m o (index : ℤ) w with
        | none => none
        | some r => if r.threw then some r else interpolateLoop r.mem r.obj src (index + 1) n

/-- Do two objects use common cells without using exactly the same ones?  Copying the one to the other
coefficient by coefficient is then not a copy (Eigen's aliasing rule). -/
def partlyShared (o src : Obj K) : Bool :=
  match o.store, src.store with
  | .mapped s n, .mapped s' n' => decide (s ≠ s' ∧ max s s' < s + n ∧ max s s' < s' + n')
  | .mapped s n, .constMapped s' n' => decide (s ≠ s' ∧ max s s' < s + n ∧ max s s' < s' + n')
  | _, _ => false

/-- Assignment through the base class — `InterpolatingVector.cpp` 200-211, and of mapped vectors —
516-540: refused for another structure, otherwise the values are copied into the place of the own
values. -/
def assignObj (m : Mem K) (o src : Obj K) : Option (After K) :=
  if !haveSameStructure (look m src) (look m o) then some ⟨true, m, o⟩
  else if partlyShared o src then none
  else some (assignSegment m { o with points := src.points, inner := src.inner } 0 (allvalues m src))

/-- Construction and assignment of an owning vector from any other one — `InterpolatingVector.cpp`
405-410, 419-421. -/
def copyObj (m : Mem K) (src : Obj K) : Obj K :=
  ⟨src.points, src.inner, .own (allvalues m src)⟩

/-- Construction of a view — `InterpolatingVector.cpp` 502-514, 575-588 (the assertion on the
order of the points is off). -/
def mapObj (const : Bool) (pts : List K) (inner start len : ℕ) : Res (Obj K) :=
  if inner * pts.length ≠ len then Res.throws
  else Res.ok ⟨pts, inner, if const then .constMapped start len else .mapped start len⟩

/-- `ConstMappedInterpolatingVector::reset_values` — `InterpolatingVector.cpp` 590-599. -/
def resetObj (m : Mem K) (o : Obj K) (start len : ℕ) : Res (Obj K) :=
  if len ≠ (allvalues m o).length then Res.throws
  else Res.ok { o with store := .constMapped start len }

/-- The calls of the class that may change something; `S` tells the source of an interpolation or an
assignment. -/
inductive Call (K S : Type*) where
  | write (i : ℤ) (w : List K)
  | bulk (w : List K)
  | zero
  | push (i : ℤ) (t : K) (w : List K)
  | interpolate (src : S)
  | assign (src : S)

/-- One call on memory and object; the source is another object. -/
def call (m : Mem K) (o : Obj K) : Call K (Obj K) → Option (After K)
  | .write i w => mutTimestep m o i w
  | .bulk w => some (setBulk m o w)
  | .zero => some (setZeroObj m o)
  | .push i t w => pushObj m o i t w
  | .interpolate src => interpolateLoop m o src 0 o.points.length
  | .assign src => assignObj m o src

/-! ## Specification -/

/-- The cells of the caller an object may change: those of a mutable view. -/
def Cells (o : Obj K) (a : ℕ) : Prop :=
  match o.store with
  | .mapped s n => s ≤ a ∧ a < s + n
  | _ => False

/-- The cells of the caller an object reads. -/
def Reads (o : Obj K) (a : ℕ) : Prop :=
  match o.store with
  | .mapped s n => s ≤ a ∧ a < s + n
  | .constMapped s n => s ≤ a ∧ a < s + n
  | _ => False

/-- The same call on a plain vector, i.e. the meaning the other properties give to it (C04, C07, C67). -/
def meaning (m : Mem K) (v : IV K) : Call K (Obj K) → Res (IV K)
  | .write i w => writeTimestep v i w
  | .bulk w => setValuesInBulk v w
  | .zero => Res.ok (setZero v)
  | .push i t w => pushToIndex v i t w
  | .interpolate src => interpolateFrom v (look m src)
  | .assign src => assignBase v (look m src)

/-- The other object of a call. -/
def source {S : Type*} : Call K S → Option S
  | .interpolate src => some src
  | .assign src => some src
  | _ => none

/-- The place of the values: in the caller's memory (mutable or not, with the cells) or in the object. -/
def place (o : Obj K) : Option (Bool × ℕ × ℕ) :=
  match o.store with
  | .own _ => none
  | .mapped s n => some (true, s, n)
  | .constMapped s n => some (false, s, n)

/-! ## Memory -/

theorem readMem_length (m : Mem K) (s n : ℕ) : (readMem m s n).length = n := by simp [readMem]

theorem readMem_get (m : Mem K) (s n k : ℕ) :
    (readMem m s n)[k]? = if k < n then some (m (s + k)) else none := by
  unfold readMem
  by_cases h : k < n
  · simp [h]
  · simp [h]

theorem writeMem_get (m : Mem K) (s : ℕ) (w : List K) (a : ℕ) :
    (s ≤ a ∧ a < s + w.length → some (writeMem m s w a) = w[a - s]?) ∧
    (¬ (s ≤ a ∧ a < s + w.length) → writeMem m s w a = m a) := by
  constructor
  · rintro ⟨h1, h2⟩
    have : a - s < w.length := by omega
    simp [writeMem, h1, this]
  · intro h
    unfold writeMem
    by_cases h1 : s ≤ a
    · rw [if_pos h1, List.getElem?_eq_none (by omega)]; rfl
    · rw [if_neg h1]

theorem readMem_writeMem (m : Mem K) (s n start : ℕ) (w : List K) (h : start + w.length ≤ n) :
    readMem (writeMem m (s + start) w) s n = writeSegment (readMem m s n) start w := by
  apply List.ext_getElem?
  intro k
  rw [readMem_get, writeSegment_get (by rw [readMem_length]; exact h), readMem_get]
  by_cases hk : k < n
  · by_cases hin : start ≤ k ∧ k < start + w.length
    · rw [if_pos hk, if_pos hin, ((writeMem_get m (s + start) w (s + k)).1 (by omega))]
      congr 1; omega
    · rw [if_pos hk, if_neg hin, ((writeMem_get m (s + start) w (s + k)).2 (by omega))]
      simp [hk]
  · rw [if_neg hk, if_neg (by omega)]
    simp [hk]

theorem readMem_congr {m m' : Mem K} {s n : ℕ} (h : ∀ a, s ≤ a → a < s + n → m' a = m a) :
    readMem m' s n = readMem m s n := by
  unfold readMem
  apply List.map_congr_left
  intro k hk
  exact h _ (by omega) (by have := List.mem_range.mp hk; omega)

theorem look_congr {m m' : Mem K} {o : Obj K} (h : ∀ a, Reads o a → m' a = m a) :
    look m' o = look m o := by
  unfold look allvalues
  cases hs : o.store with
  | own v => rfl
  | mapped s n =>
    simp only
    rw [readMem_congr fun a h1 h2 => h a (by unfold Reads; rw [hs]; exact ⟨h1, h2⟩)]
  | constMapped s n =>
    simp only
    rw [readMem_congr fun a h1 h2 => h a (by unfold Reads; rw [hs]; exact ⟨h1, h2⟩)]

theorem Cells_of_place {o o' : Obj K} (h : place o' = place o) (a : ℕ) : Cells o' a ↔ Cells o a := by
  unfold place at h
  unfold Cells
  cases h1 : o.store <;> cases h2 : o'.store <;> simp only [h1, h2] at h <;>
    simp_all

theorem isConst_of_place {o o' : Obj K} (h : place o' = place o) : isConst o' = isConst o := by
  unfold place at h
  unfold isConst
  cases h1 : o.store <;> cases h2 : o'.store <;> simp only [h1, h2] at h <;>
    simp_all

/-! ## One assignment -/

theorem assignSegment_spec (m : Mem K) (o : Obj K) (start : ℕ) (w : List K)
    (hc : isConst o = false) (h : start + w.length ≤ (allvalues m o).length) :
    (assignSegment m o start w).threw = false ∧
    look (assignSegment m o start w).mem (assignSegment m o start w).obj =
      { look m o with values := writeSegment (allvalues m o) start w } ∧
    (∀ a, ¬ Cells o a → (assignSegment m o start w).mem a = m a) ∧
    place (assignSegment m o start w).obj = place o := by
  unfold assignSegment look allvalues Cells place at *
  cases hs : o.store with
  | own v => simp
  | mapped s n =>
    simp only [hs] at h ⊢
    rw [readMem_length] at h
    refine ⟨by simp, ?_, ?_, by simp⟩
    · rw [readMem_writeMem m s n start w h]
    · intro a ha
      exact (writeMem_get m (s + start) w a).2 (by omega)
  | constMapped s n => simp [isConst, hs] at hc

theorem assignSegment_const (m : Mem K) (o : Obj K) (start : ℕ) (w : List K) (hc : isConst o = true) :
    assignSegment m o start w = ⟨true, m, o⟩ := by
  unfold isConst at hc
  unfold assignSegment
  cases hs : o.store <;> simp_all

theorem writeSegment_all (l w : List K) (h : w.length = l.length) : writeSegment l 0 w = w := by
  simp [writeSegment, h]

/-- What a call has done compared to its meaning `R`: the outcome is the same, what is seen of the
object afterwards is the meaning's vector, and no cell outside of the object has changed. -/
def Agrees (m : Mem K) (o : Obj K) (R : Res (IV K)) (x : Option (After K)) : Prop :=
  match R with
  | .ok v => ∃ r, x = some r ∧ r.threw = false ∧ look r.mem r.obj = v ∧
      (∀ a, ¬ Cells o a → r.mem a = m a) ∧ place r.obj = place o
  | .throws => ∃ r, x = some r ∧ r.threw = true ∧ r.obj.points = o.points ∧
      r.obj.inner = o.inner ∧ (∀ a, ¬ Cells o a → r.mem a = m a) ∧ place r.obj = place o
  | .ub => x = none

theorem mutTimestep_sim (m : Mem K) (o : Obj K) (hc : isConst o = false) (i : ℤ) (w : List K) :
    (∀ v', writeTimestep (look m o) i w = Res.ok v' → ∃ r, mutTimestep m o i w = some r ∧
      r.threw = false ∧ look r.mem r.obj = v' ∧ (∀ a, ¬ Cells o a → r.mem a = m a) ∧
      place r.obj = place o) ∧
    (writeTimestep (look m o) i w = Res.throws → mutTimestep m o i w = some ⟨true, m, o⟩) ∧
    (writeTimestep (look m o) i w = Res.ub → mutTimestep m o i w = none) := by
  unfold writeTimestep mutTimestep
  have e : (look m o).values = allvalues m o := rfl
  have e2 : (look m o).inner = o.inner := rfl
  rw [e, e2]
  by_cases h0 : i < 0
  · simp [h0]
  by_cases h1 : (allvalues m o).length < o.inner * i.toNat + o.inner
  · simp [h0, h1]
  by_cases h2 : w.length = o.inner
  · have := assignSegment_spec m o (o.inner * i.toNat) w hc (by omega)
    simp only [h0, h1, h2, hc, if_true, if_false]
    refine ⟨?_, by simp, by simp⟩
    intro v' hv
    injection hv with hv
    subst hv
    exact ⟨_, rfl, this⟩
  · simp [h0, h1, h2, hc]

theorem mutTimestep_agrees (m : Mem K) (o : Obj K) (hc : isConst o = false) (i : ℤ) (w : List K) :
    Agrees m o (writeTimestep (look m o) i w) (mutTimestep m o i w) := by
  obtain ⟨h1, h2, h3⟩ := mutTimestep_sim m o hc i w
  unfold Agrees
  cases h : writeTimestep (look m o) i w with
  | ok v => exact h1 v h
  | throws => exact ⟨_, h2 h, rfl, rfl, rfl, fun _ _ => rfl, rfl⟩
  | ub => exact h3 h

theorem pushObj_agrees (m : Mem K) (o : Obj K) (hc : isConst o = false) (i : ℤ) (t : K)
    (w : List K) : Agrees m o (pushToIndex (look m o) i t w) (pushObj m o i t w) := by
  have h := mutTimestep_agrees m o hc i w
  unfold Agrees at h
  unfold pushToIndex pushObj
  cases hw : writeTimestep (look m o) i w with
  | ub => rw [hw] at h; simp only at h; rw [h]; exact rfl
  | throws =>
    rw [hw] at h
    obtain ⟨r, e, ht, h⟩ := h
    rw [e]
    simp only [ht, if_true]
    exact ⟨r, rfl, ht, h⟩
  | ok v =>
    rw [hw] at h
    obtain ⟨r, e, ht, hl, hf, hp⟩ := h
    rw [e, Res.ok_bind]
    simp only [ht]
    have hpts : r.obj.points = v.points := by rw [← hl]; rfl
    rw [hpts]
    by_cases hi : i.toNat < v.points.length
    · simp only [hi, if_true]
      refine ⟨_, rfl, rfl, ?_, hf, ?_⟩
      · rw [← hl]; rfl
      · rw [← hp]; rfl
    · simp only [hi, if_false]
      exact rfl

theorem interpolateLoop_agrees (src : Obj K) (n : ℕ) : ∀ (m : Mem K) (o : Obj K) (index : ℕ),
    isConst o = false → (∀ a, Cells o a → ¬ Reads src a) →
    Agrees m o (interpolateFromLoop (look m o) (look m src) index n)
      (interpolateLoop m o src index n) := by
  induction n with
  | zero =>
    intro m o index hc hd
    exact ⟨_, rfl, rfl, rfl, fun _ _ => rfl, rfl⟩
  | succ n ih =>
    intro m o index hc hd
    unfold interpolateFromLoop interpolateLoop interpolationPointAtIndex
    have hpts : (look m o).points = o.points := rfl
    rw [hpts]
    cases hp : o.points[index]? with
    | none =>
      have : Res.get o.points index = Res.ub := by
        unfold Res.get; rw [hp]
      rw [this]; exact rfl
    | some p =>
      have : Res.get o.points index = Res.ok p := by
        unfold Res.get; rw [hp]
      rw [this, Res.ok_bind]
      simp only
      cases he : eval (look m src) p with
      | ub => exact rfl
      | throws => exact ⟨_, rfl, rfl, rfl, rfl, fun _ _ => rfl, rfl⟩
      | ok w =>
        rw [Res.ok_bind]
        simp only
        have h := mutTimestep_agrees m o hc (index : ℤ) w
        unfold Agrees at h
        cases hw : writeTimestep (look m o) (index : ℤ) w with
        | ub => rw [hw] at h; simp only at h; rw [h]; exact rfl
        | throws =>
          rw [hw] at h
          obtain ⟨r, e, ht, h⟩ := h
          rw [e]
          simp only [ht, if_true]
          exact ⟨r, rfl, ht, h⟩
        | ok v =>
          rw [hw] at h
          obtain ⟨r, e, ht, hl, hf, hpl⟩ := h
          rw [e, Res.ok_bind]
          simp only [ht]
          have hs : look r.mem src = look m src :=
            look_congr fun a ha => hf a fun hca => hd a hca ha
          have hin : r.obj.points = o.points ∧ r.obj.inner = o.inner := by
            have hv : v.points = o.points ∧ v.inner = o.inner := by
              unfold writeTimestep at hw
              simp only at hw
              split_ifs at hw
              injection hw with hw
              subst hw
              exact ⟨rfl, rfl⟩
            rw [← hv.1, ← hv.2, ← hl]; exact ⟨rfl, rfl⟩
          have := ih r.mem r.obj (index + 1) (by rw [isConst_of_place hpl]; exact hc)
            fun a ha => hd a ((Cells_of_place hpl a).mp ha)
          rw [hl, hs] at this
          unfold Agrees at this ⊢
          cases hr : interpolateFromLoop v (look m src) (index + 1) n with
          | ub => rw [hr] at this; exact this
          | throws =>
            rw [hr] at this
            obtain ⟨q, e, ht, hq1, hq2, hf', hp'⟩ := this
            exact ⟨q, e, ht, hq1.trans hin.1, hq2.trans hin.2, fun a ha => (hf' a fun h =>
              ha ((Cells_of_place hpl a).mp h)).trans (hf a ha), hp'.trans hpl⟩
          | ok u =>
            rw [hr] at this
            obtain ⟨q, e, ht, hl', hf', hp'⟩ := this
            exact ⟨q, e, ht, hl', fun a ha => (hf' a fun h =>
              ha ((Cells_of_place hpl a).mp h)).trans (hf a ha), hp'.trans hpl⟩

theorem haveSameStructure_iff (a b : IV K) :
    haveSameStructure a b = true ↔ a.inner = b.inner ∧ a.points = b.points := by
  unfold haveSameStructure
  by_cases h1 : a.inner = b.inner
  · by_cases h2 : a.points = b.points
    · simp [h1, h2]
    · by_cases h3 : a.points.length = b.points.length <;> simp [h1, h2, h3]
  · simp [h1]

theorem not_partlyShared {o src : Obj K} (h : ∀ a, Cells o a → ¬ Reads src a) :
    partlyShared o src = false := by
  unfold partlyShared Cells Reads at *
  cases h1 : o.store <;> cases h2 : src.store <;> simp only [h1, h2] at h ⊢ <;>
  · rename_i s n s' n'
    rw [decide_eq_false_iff_not]
    rintro ⟨-, a1, a2⟩
    exact h (max s s') ⟨le_max_left _ _, a1⟩ ⟨le_max_right _ _, a2⟩

theorem assignObj_agrees (m : Mem K) (o src : Obj K) (hc : isConst o = false)
    (hwf : (look m o).WF) (hsrc : (look m src).WF) (hd : ∀ a, Cells o a → ¬ Reads src a) :
    Agrees m o (assignBase (look m o) (look m src)) (assignObj m o src) := by
  unfold assignBase assignObj
  by_cases h : haveSameStructure (look m src) (look m o) = true
  · simp only [h, not_partlyShared hd]
    obtain ⟨hi, hp⟩ := (haveSameStructure_iff _ _).mp h
    have hi' : src.inner = o.inner := hi
    have hp' : src.points = o.points := hp
    have ho : ({ o with points := src.points, inner := src.inner } : Obj K) = o := by
      rw [hi', hp']
    have hlen : (allvalues m src).length = (allvalues m o).length := by
      have e1 : (allvalues m src).length = src.points.length * src.inner := hsrc
      have e2 : (allvalues m o).length = o.points.length * o.inner := hwf
      rw [e1, e2, hi', hp']
    have := assignSegment_spec m o 0 (allvalues m src) hc (by omega)
    rw [writeSegment_all _ _ hlen] at this
    obtain ⟨t1, t2, t3, t4⟩ := this
    refine ⟨_, rfl, ?_⟩
    simp only [ho]
    refine ⟨t1, ?_, t3, t4⟩
    rw [t2]
    show (⟨o.points, o.inner, allvalues m src⟩ : IV K) = ⟨src.points, src.inner, allvalues m src⟩
    rw [hi', hp']
  · have h' : haveSameStructure (look m src) (look m o) = false := by simpa using h
    simp only [h']
    exact ⟨_, rfl, rfl, rfl, rfl, fun _ _ => rfl, rfl⟩

/-- C141, one call.  A call on a vector that owns its values or is a mutable view does what it does to a
plain vector: it has the same outcome, what is read through the object afterwards is the plain vector's
contents, and no cell of the caller outside of the view has changed.  (The source of an interpolation or
assignment must not lie in the cells that are being written.) -/
theorem C141_call (m : Mem K) (o : Obj K) (hc : isConst o = false) (hwf : (look m o).WF)
    (c : Call K (Obj K)) (hsrc : ∀ src, source c = some src → (look m src).WF ∧
      ∀ a, Cells o a → ¬ Reads src a) :
    Agrees m o (meaning m (look m o) c) (call m o c) := by
  cases c with
  | write i w => exact mutTimestep_agrees m o hc i w
  | bulk w =>
    show Agrees m o (if w.length ≠ (allvalues m o).length then Res.throws
        else Res.ok { look m o with values := w })
      (some (if isConst o = true then ⟨true, m, o⟩ else if w.length ≠ (allvalues m o).length then
        ⟨true, m, o⟩ else assignSegment m o 0 w))
    rw [hc, if_neg (by simp : ¬ (false = true))]
    by_cases h : w.length = (allvalues m o).length
    · rw [if_neg (not_not.mpr h), if_neg (not_not.mpr h)]
      obtain ⟨t1, t2, t3, t4⟩ := assignSegment_spec m o 0 w hc (by omega)
      rw [writeSegment_all _ _ h] at t2
      exact ⟨_, rfl, t1, t2, t3, t4⟩
    · rw [if_pos h, if_pos h]
      exact ⟨_, rfl, rfl, rfl, rfl, fun _ _ => rfl, rfl⟩
  | zero =>
    obtain ⟨t1, t2, t3, t4⟩ := assignSegment_spec m o 0 ((allvalues m o).map fun _ => (0 : K)) hc
      (by simp)
    rw [writeSegment_all _ _ (by simp)] at t2
    exact ⟨_, rfl, t1, t2, t3, t4⟩
  | push i t w => exact pushObj_agrees m o hc i t w
  | interpolate src => exact interpolateLoop_agrees src _ m o 0 hc (hsrc src rfl).2
  | assign src => exact assignObj_agrees m o src hc hwf (hsrc src rfl).1 (hsrc src rfl).2

theorem mutTimestep_const (m : Mem K) (o : Obj K) (hc : isConst o = true) (i : ℤ) (w : List K) :
    mutTimestep m o i w = some ⟨true, m, o⟩ := by
  unfold mutTimestep
  simp [hc]

/-- C141, read-only views.  Every call that would change the values of a read-only view throws and
changes neither the memory nor the view (interpolating at no points at all asks for no change). -/
theorem C141_const (m : Mem K) (o : Obj K) (hc : isConst o = true) (c : Call K (Obj K)) (r : After K)
    (h : call m o c = some r) :
    r.mem = m ∧ r.obj = o ∧ (r.threw = false → o.points = [] ∧ ∃ src, c = .interpolate src) := by
  cases c with
  | write i w =>
    simp only [call, mutTimestep_const m o hc, Option.some.injEq] at h
    subst h; exact ⟨rfl, rfl, by simp⟩
  | bulk w =>
    simp only [call, setBulk, hc, Option.some.injEq] at h
    subst h; exact ⟨rfl, rfl, by simp⟩
  | zero =>
    simp only [call, setZeroObj, assignSegment_const m o _ _ hc, Option.some.injEq] at h
    subst h; exact ⟨rfl, rfl, by simp⟩
  | push i t w =>
    simp only [call, pushObj, mutTimestep_const m o hc] at h
    simp only [if_true, Option.some.injEq] at h
    subst h; exact ⟨rfl, rfl, by simp⟩
  | interpolate src =>
    simp only [call] at h
    cases hp : o.points with
    | nil =>
      rw [hp] at h
      simp only [List.length_nil, interpolateLoop, Option.some.injEq] at h
      subst h; exact ⟨rfl, rfl, fun _ => ⟨rfl, src, rfl⟩⟩
    | cons p ps =>
      rw [hp] at h
      simp only [List.length_cons, interpolateLoop, hp, List.getElem?_cons_zero,
        mutTimestep_const m o hc] at h
      cases he : eval (look m src) p with
      | ub => rw [he] at h; cases h
      | throws =>
        rw [he] at h; simp only [Option.some.injEq] at h
        subst h; exact ⟨rfl, rfl, by simp⟩
      | ok w =>
        rw [he] at h; simp only [if_true, Option.some.injEq] at h
        subst h; exact ⟨rfl, rfl, by simp⟩
  | assign src =>
    simp only [call, assignObj] at h
    by_cases hs : haveSameStructure (look m src) (look m o) = true
    · obtain ⟨hi, hp⟩ := (haveSameStructure_iff _ _).mp hs
      have hi' : src.inner = o.inner := hi
      have hp' : src.points = o.points := hp
      have ho : ({ o with points := src.points, inner := src.inner } : Obj K) = o := by
        rw [hi', hp']
      have hps : partlyShared o src = false := by
        unfold partlyShared
        unfold isConst at hc
        cases h1 : o.store <;> simp_all
      simp only [hs, hps, ho, assignSegment_const m o _ _ hc] at h
      simp at h
      subst h; exact ⟨rfl, rfl, by simp⟩
    · have h' : haveSameStructure (look m src) (look m o) = false := by simpa using hs
      simp only [h'] at h
      simp at h
      subst h; exact ⟨rfl, rfl, by simp⟩

/-! ## Histories -/

/-- The caller's memory and the vectors that exist. -/
structure World (K : Type*) where
  mem : Mem K
  objs : List (Obj K)

/-- Things that happen: a call on a vector, the caller (for example Ipopt) changes a cell of its own, a
read-only view is pointed to other cells, a vector is copied into a new owning one. -/
inductive Event (K : Type*) where
  | use (k : ℕ) (c : Call K ℕ)
  | poke (a : ℕ) (x : K)
  | reset (k start len : ℕ)
  | copy (k : ℕ)

/-- A call with the number of its source replaced by the source; a vector is not its own source
(that case is not modelled). -/
def resolve (objs : List (Obj K)) (k : ℕ) : Call K ℕ → Option (Call K (Obj K))
  | .write i w => some (.write i w)
  | .bulk w => some (.bulk w)
  | .zero => some .zero
  | .push i t w => some (.push i t w)
  | .interpolate j => if j = k then none else (objs[j]?).map .interpolate
  | .assign j => if j = k then none else (objs[j]?).map .assign

/-- What one event does; an exception is caught by the caller, who goes on.  `none` is undefined
behaviour or a vector that does not exist. -/
def step (s : World K) : Event K → Option (World K)
  | .use k c =>
    match s.objs[k]?, resolve s.objs k c with
    | some o, some c' => (call s.mem o c').map fun r => ⟨r.mem, s.objs.set k r.obj⟩
    | _, _ => none
  | .poke a x => some ⟨fun b => if b = a then x else s.mem b, s.objs⟩
  | .reset k start len =>
    match s.objs[k]? with
    | some o =>
      if isConst o then
        match resetObj s.mem o start len with
        | .ok o' => some ⟨s.mem, s.objs.set k o'⟩
        | .throws => some s
        | .ub => none
      else none
    | none => none
  | .copy k => (s.objs[k]?).map fun o => ⟨s.mem, s.objs ++ [copyObj s.mem o]⟩

/-- A history. -/
def run (s : World K) : List (Event K) → Option (World K)
  | [] => some s
  | e :: es => (step s e).bind fun s' => run s' es

/-- The invariant of the classes: as many values as points times inner length. -/
def Sound (o : Obj K) : Prop :=
  match o.store with
  | .own v => v.length = o.points.length * o.inner
  | .mapped _ n => n = o.points.length * o.inner
  | .constMapped _ n => n = o.points.length * o.inner

theorem sound_iff (m : Mem K) (o : Obj K) : Sound o ↔ (look m o).WF := by
  unfold Sound IV.WF look allvalues
  cases o.store <;> simp [readMem_length]

theorem assignSegment_frame (m : Mem K) (o : Obj K) (start : ℕ) (w : List K)
    (h : start + w.length ≤ (allvalues m o).length) :
    (∀ a, ¬ Cells o a → (assignSegment m o start w).mem a = m a) ∧
    place (assignSegment m o start w).obj = place o ∧
    (Sound o → Sound (assignSegment m o start w).obj) := by
  cases hc : isConst o with
  | true => rw [assignSegment_const m o start w hc]; exact ⟨fun _ _ => rfl, rfl, id⟩
  | false =>
    obtain ⟨-, t2, t3, t4⟩ := assignSegment_spec m o start w hc h
    refine ⟨t3, t4, fun hs => ?_⟩
    rw [sound_iff (assignSegment m o start w).mem, t2]
    unfold IV.WF
    rw [writeSegment_length h]
    exact (sound_iff m o).mp hs

theorem mutTimestep_frame (m : Mem K) (o : Obj K) (i : ℤ) (w : List K) (r : After K)
    (h : mutTimestep m o i w = some r) :
    (∀ a, ¬ Cells o a → r.mem a = m a) ∧ place r.obj = place o ∧ (Sound o → Sound r.obj) := by
  unfold mutTimestep at h
  simp only at h
  split_ifs at h with h0 h1 h2 h3
  · injection h with h; subst h; exact ⟨fun _ _ => rfl, rfl, id⟩
  · injection h with h; subst h; exact ⟨fun _ _ => rfl, rfl, id⟩
  · injection h with h; subst h; exact ⟨fun _ _ => rfl, rfl, id⟩
  · injection h with h; subst h
    exact assignSegment_frame m o _ w (by omega)

theorem interpolateLoop_frame (src : Obj K) (n : ℕ) : ∀ (m : Mem K) (o : Obj K) (index : ℕ)
    (r : After K), interpolateLoop m o src index n = some r →
    (∀ a, ¬ Cells o a → r.mem a = m a) ∧ place r.obj = place o ∧ (Sound o → Sound r.obj) := by
  induction n with
  | zero =>
    intro m o index r h
    simp only [interpolateLoop, Option.some.injEq] at h
    subst h; exact ⟨fun _ _ => rfl, rfl, id⟩
  | succ n ih =>
    intro m o index r h
    unfold interpolateLoop at h
    cases hp : o.points[index]? with
    | none => rw [hp] at h; cases h
    | some p =>
      rw [hp] at h
      simp only at h
      cases he : eval (look m src) p with
      | ub => rw [he] at h; cases h
      | throws =>
        rw [he] at h; simp only [Option.some.injEq] at h
        subst h; exact ⟨fun _ _ => rfl, rfl, id⟩
      | ok w =>
        rw [he] at h
        simp only at h
        cases hm : mutTimestep m o (index : ℤ) w with
        | none => rw [hm] at h; cases h
        | some q =>
          rw [hm] at h
          obtain ⟨f1, f2, f3⟩ := mutTimestep_frame m o _ w q hm
          simp only at h
          split_ifs at h with ht
          · injection h with h; subst h; exact ⟨f1, f2, f3⟩
          · obtain ⟨g1, g2, g3⟩ := ih q.mem q.obj (index + 1) r h
            exact ⟨fun a ha => (g1 a fun hc => ha ((Cells_of_place f2 a).mp hc)).trans (f1 a ha),
              g2.trans f2, fun hs => g3 (f3 hs)⟩

/-- Whatever a call does, it changes no cell outside of the object, and the values stay where they
are. -/
theorem call_frame (m : Mem K) (o : Obj K) (hwf : Sound o) (c : Call K (Obj K))
    (hsrc : ∀ src, source c = some src → Sound src) (r : After K) (h : call m o c = some r) :
    (∀ a, ¬ Cells o a → r.mem a = m a) ∧ place r.obj = place o ∧ Sound r.obj := by
  cases c with
  | write i w =>
    obtain ⟨f1, f2, f3⟩ := mutTimestep_frame m o i w r h
    exact ⟨f1, f2, f3 hwf⟩
  | bulk w =>
    simp only [call, Option.some.injEq, setBulk] at h
    subst h
    split_ifs with h1 h2
    · exact ⟨fun _ _ => rfl, rfl, hwf⟩
    · exact ⟨fun _ _ => rfl, rfl, hwf⟩
    · obtain ⟨f1, f2, f3⟩ := assignSegment_frame m o 0 w (by omega)
      exact ⟨f1, f2, f3 hwf⟩
  | zero =>
    simp only [call, Option.some.injEq, setZeroObj] at h
    subst h
    obtain ⟨f1, f2, f3⟩ := assignSegment_frame m o 0 ((allvalues m o).map fun _ => (0 : K)) (by simp)
    exact ⟨f1, f2, f3 hwf⟩
  | push i t w =>
    simp only [call, pushObj] at h
    cases hm : mutTimestep m o i w with
    | none => rw [hm] at h; cases h
    | some q =>
      rw [hm] at h
      obtain ⟨f1, f2, f3⟩ := mutTimestep_frame m o i w q hm
      simp only at h
      split_ifs at h with h1 h2
      · injection h with h; subst h; exact ⟨f1, f2, f3 hwf⟩
      · injection h with h; subst h
        refine ⟨f1, f2, ?_⟩
        have := f3 hwf
        unfold Sound at this ⊢
        simpa using this
  | interpolate src =>
    obtain ⟨f1, f2, f3⟩ := interpolateLoop_frame src _ m o 0 r h
    exact ⟨f1, f2, f3 hwf⟩
  | assign src =>
    simp only [call, assignObj] at h
    split_ifs at h with h1 h2
    · injection h with h; subst h; exact ⟨fun _ _ => rfl, rfl, hwf⟩
    · injection h with h; subst h
      have hss : haveSameStructure (look m src) (look m o) = true := by simpa using h1
      obtain ⟨hi, hp⟩ := (haveSameStructure_iff _ _).mp hss
      have hi' : src.inner = o.inner := hi
      have hp' : src.points = o.points := hp
      have ho : ({ o with points := src.points, inner := src.inner } : Obj K) = o := by
        rw [hi', hp']
      have hlen : (allvalues m src).length = (allvalues m o).length := by
        have e1 : (allvalues m src).length = src.points.length * src.inner :=
          (sound_iff m src).mp (hsrc src rfl)
        have e2 : (allvalues m o).length = o.points.length * o.inner := (sound_iff m o).mp hwf
        rw [e1, e2, hi', hp']
      rw [ho]
      obtain ⟨f1, f2, f3⟩ := assignSegment_frame m o 0 (allvalues m src) (by omega)
      exact ⟨f1, f2, f3 hwf⟩

theorem resolve_source {objs : List (Obj K)} {k : ℕ} {c : Call K ℕ} {c' : Call K (Obj K)}
    (h : resolve objs k c = some c') {src : Obj K} (hs : source c' = some src) : src ∈ objs := by
  cases c with
  | write i w => simp only [resolve, Option.some.injEq] at h; subst h; cases hs
  | bulk w => simp only [resolve, Option.some.injEq] at h; subst h; cases hs
  | zero => simp only [resolve, Option.some.injEq] at h; subst h; cases hs
  | push i t w => simp only [resolve, Option.some.injEq] at h; subst h; cases hs
  | interpolate j =>
    simp only [resolve] at h
    split_ifs at h
    obtain ⟨o, ho, rfl⟩ := Option.map_eq_some_iff.mp h
    injection hs with hs; subst hs
    exact List.mem_of_getElem? ho
  | assign j =>
    simp only [resolve] at h
    split_ifs at h
    obtain ⟨o, ho, rfl⟩ := Option.map_eq_some_iff.mp h
    injection hs with hs; subst hs
    exact List.mem_of_getElem? ho

/-- Does the event change (or try to change) vector `k`? -/
def Targets (k : ℕ) : Event K → Prop
  | .use k' _ => k' = k
  | .reset k' _ _ => k' = k
  | _ => False

/-- May the event change cell `a`?  The caller's own change of this cell, or a call on a mutable view that
has the cell. -/
def Touches (objs : List (Obj K)) (a : ℕ) : Event K → Prop
  | .poke b _ => b = a
  | .use k _ => ∃ o, objs[k]? = some o ∧ Cells o a
  | _ => False

theorem cells_iff_place (o : Obj K) (a : ℕ) :
    Cells o a ↔ ∃ s n, place o = some (true, s, n) ∧ s ≤ a ∧ a < s + n := by
  unfold Cells place
  cases o.store <;> simp

theorem step_spec (s s' : World K) (hs : ∀ o ∈ s.objs, Sound o) (e : Event K) (h : step s e = some s') :
    (∀ o ∈ s'.objs, Sound o) ∧
    (∀ a, ¬ Touches s.objs a e → s'.mem a = s.mem a) ∧
    (∀ k o, s.objs[k]? = some o → ¬ Targets k e → s'.objs[k]? = some o) ∧
    (∀ (k : ℕ) (a : ℕ), (∃ o', s'.objs[k]? = some o' ∧ Cells o' a) →
      ∃ o, s.objs[k]? = some o ∧ Cells o a) := by
  cases e with
  | use k c =>
    unfold step at h
    simp only at h
    cases ho : s.objs[k]? with
    | none => rw [ho] at h; cases h
    | some o =>
      cases hr : resolve s.objs k c with
      | none => rw [ho, hr] at h; cases h
      | some c' =>
        rw [ho, hr] at h
        obtain ⟨r, hcall, rfl⟩ := Option.map_eq_some_iff.mp h
        have hmem : o ∈ s.objs := List.mem_of_getElem? ho
        obtain ⟨f1, f2, f3⟩ := call_frame s.mem o (hs o hmem) c'
          (fun src h' => hs src (resolve_source hr h')) r hcall
        refine ⟨?_, ?_, ?_, ?_⟩
        · intro x hx
          rcases List.mem_or_eq_of_mem_set hx with h' | rfl
          · exact hs x h'
          · exact f3
        · intro a ha
          exact f1 a fun hc => ha ⟨o, ho, hc⟩
        · intro k' o' ho' hk'
          have hne : k ≠ k' := hk'
          show (s.objs.set k r.obj)[k']? = some o'
          rw [List.getElem?_set_ne hne]; exact ho'
        · rintro k' a ⟨o', ho', hc'⟩
          by_cases hk : k = k'
          · subst hk
            have ho'' : (s.objs.set k r.obj)[k]? = some o' := ho'
            rw [List.getElem?_set_self (List.getElem?_eq_some_iff.mp ho).1] at ho''
            injection ho'' with e; subst e
            exact ⟨o, ho, (Cells_of_place f2 a).mp hc'⟩
          · have ho'' : (s.objs.set k r.obj)[k']? = some o' := ho'
            rw [List.getElem?_set_ne hk] at ho''
            exact ⟨o', ho'', hc'⟩
  | poke b x =>
    simp only [step, Option.some.injEq] at h
    subst h
    refine ⟨hs, ?_, fun _ _ h _ => h, fun _ _ h => h⟩
    intro a ha
    have : a ≠ b := fun e => ha e.symm
    simp [this]
  | reset k start len =>
    unfold step at h
    simp only at h
    cases ho : s.objs[k]? with
    | none => rw [ho] at h; cases h
    | some o =>
      rw [ho] at h
      simp only at h
      split_ifs at h with hc
      unfold resetObj at h
      split_ifs at h with hl
      · simp only [Option.some.injEq] at h
        subst h
        exact ⟨hs, fun _ _ => rfl, fun _ _ h _ => h, fun _ _ h => h⟩
      · simp only [Option.some.injEq] at h
        subst h
        have hl' : len = (allvalues s.mem o).length := by simpa using hl
        have hso : (allvalues s.mem o).length = o.points.length * o.inner :=
          (sound_iff s.mem o).mp (hs o (List.mem_of_getElem? ho))
        refine ⟨?_, fun _ _ => rfl, ?_, ?_⟩
        · intro x hx
          rcases List.mem_or_eq_of_mem_set hx with h' | rfl
          · exact hs x h'
          · show len = o.points.length * o.inner
            rw [hl', hso]
        · intro k' o' ho' hk'
          have hne : k ≠ k' := hk'
          show (s.objs.set k _)[k']? = some o'
          rw [List.getElem?_set_ne hne]; exact ho'
        · rintro k' a ⟨o', ho', hc'⟩
          by_cases hk : k = k'
          · subst hk
            have ho'' : (s.objs.set k { o with store := .constMapped start len })[k]? = some o' := ho'
            rw [List.getElem?_set_self (List.getElem?_eq_some_iff.mp ho).1] at ho''
            injection ho'' with e; subst e
            exact absurd hc' (by simp [Cells])
          · have ho'' : (s.objs.set k { o with store := .constMapped start len })[k']? = some o' := ho'
            rw [List.getElem?_set_ne hk] at ho''
            exact ⟨o', ho'', hc'⟩
  | copy k =>
    simp only [step] at h
    obtain ⟨o, ho, rfl⟩ := Option.map_eq_some_iff.mp h
    refine ⟨?_, fun _ _ => rfl, ?_, ?_⟩
    · intro x hx
      rcases List.mem_append.mp hx with h' | h'
      · exact hs x h'
      · rw [List.mem_singleton.mp h']
        exact (sound_iff s.mem o).mp (hs o (List.mem_of_getElem? ho))
    · intro k' o' ho' _
      show (s.objs ++ [_])[k']? = some o'
      rw [List.getElem?_append_left (List.getElem?_eq_some_iff.mp ho').1]; exact ho'
    · rintro k' a ⟨o', ho', hc'⟩
      have ho'' : (s.objs ++ [copyObj s.mem o])[k']? = some o' := ho'
      by_cases hk : k' < s.objs.length
      · rw [List.getElem?_append_left hk] at ho''
        exact ⟨o', ho'', hc'⟩
      · rw [List.getElem?_append_right (by omega)] at ho''
        have : o' = copyObj s.mem o := by
          have := List.mem_of_getElem? ho''
          simpa using this
        subst this
        exact absurd hc' (by simp [Cells, copyObj])

/-- C141, histories.  Let any number of calls on any vectors, changes by the caller, redirections of
read-only views and copies happen.  (1) A cell of the caller that neither the caller changes nor
any call on a mutable view with this cell may change keeps its contents, no matter what was called on
owning vectors, read-only views and copies.  (2) A vector that owns its values and is not itself the target
of an event shows what it showed at the start.  (3) A view that is not itself the target shows at the end
what is in its cells at the end. -/
theorem C141_history (s s' : World K) (hs : ∀ o ∈ s.objs, Sound o) (es : List (Event K))
    (h : run s es = some s') :
    (∀ a, (∀ e ∈ es, ¬ Touches s.objs a e) → s'.mem a = s.mem a) ∧
    (∀ k pts n v, s.objs[k]? = some ⟨pts, n, .own v⟩ → (∀ e ∈ es, ¬ Targets k e) →
      ∃ o, s'.objs[k]? = some o ∧ look s'.mem o = ⟨pts, n, v⟩) ∧
    (∀ k pts n st len, (s.objs[k]? = some ⟨pts, n, .mapped st len⟩ ∨
        s.objs[k]? = some ⟨pts, n, .constMapped st len⟩) → (∀ e ∈ es, ¬ Targets k e) →
      ∃ o, s'.objs[k]? = some o ∧
        look s'.mem o = ⟨pts, n, (List.range len).map fun i => s'.mem (st + i)⟩) := by
  have key : (∀ a, (∀ e ∈ es, ¬ Touches s.objs a e) → s'.mem a = s.mem a) ∧
      (∀ k o, s.objs[k]? = some o → (∀ e ∈ es, ¬ Targets k e) → s'.objs[k]? = some o) := by
    induction es generalizing s with
    | nil =>
      simp only [run, Option.some.injEq] at h
      subst h
      exact ⟨fun _ _ => rfl, fun _ _ h _ => h⟩
    | cons e es ih =>
      simp only [run] at h
      obtain ⟨s1, h1, h2⟩ := Option.bind_eq_some_iff.mp h
      obtain ⟨a1, a2, a3, a4⟩ := step_spec s s1 hs e h1
      obtain ⟨b1, b2⟩ := ih s1 a1 h2
      constructor
      · intro a ha
        rw [b1 a ?_, a2 a (ha e (by simp))]
        intro e' he' ht
        apply ha e' (by simp [he'])
        cases e' with
        | use k c => exact a4 k a ht
        | poke b x => exact ht
        | reset k st n => exact ht
        | copy k => exact ht
      · intro k o ho hk
        exact b2 k o (a3 k o ho (hk e (by simp))) fun e' he' => hk e' (by simp [he'])
  obtain ⟨k1, k2⟩ := key
  refine ⟨k1, ?_, ?_⟩
  · intro k pts n v ho hk
    exact ⟨_, k2 k _ ho hk, rfl⟩
  · intro k pts n st len ho hk
    rcases ho with ho | ho
    · exact ⟨_, k2 k _ ho hk, rfl⟩
    · exact ⟨_, k2 k _ ho hk, rfl⟩

/-- C141, construction.  A view of `len` cells is made iff that is the number of values needed, and shows
the contents of the cells; a read-only view can be pointed to other cells of the same number and
then shows those; a copy shows what the original shows. -/
theorem C141_construct (m : Mem K) (const : Bool) (pts : List K) (inner start len : ℕ) (o : Obj K) :
    ((∃ v, mapObj const pts inner start len = Res.ok v) ↔ len = pts.length * inner) ∧
    (∀ v, mapObj const pts inner start len = Res.ok v → isConst v = const ∧ Sound v ∧
      look m v = ⟨pts, inner, (List.range len).map fun i => m (start + i)⟩) ∧
    (∀ v, resetObj m o start len = Res.ok v →
      look m v = ⟨o.points, o.inner, (List.range len).map fun i => m (start + i)⟩) ∧
    ((∃ v, resetObj m o start len = Res.ok v) ↔ len = (look m o).values.length) ∧
    look m (copyObj m o) = look m o ∧ ∀ a, ¬ Reads (copyObj m o) a := by
  refine ⟨?_, ?_, ?_, ?_, rfl, fun a h => h⟩
  · unfold mapObj
    by_cases h : inner * pts.length ≠ len
    · rw [if_pos h]
      constructor
      · rintro ⟨v, hv⟩; cases hv
      · rintro rfl; exact absurd (Nat.mul_comm _ _) h
    · rw [if_neg h]
      exact ⟨fun _ => by rw [Nat.mul_comm]; exact (not_not.mp h).symm, fun _ => ⟨_, rfl⟩⟩
  · intro v hv
    unfold mapObj at hv
    split_ifs at hv with h1 h2
    · injection hv with hv; subst hv
      subst h2
      exact ⟨rfl, by show len = _; rw [Nat.mul_comm]; exact (not_not.mp h1).symm, rfl⟩
    · injection hv with hv; subst hv
      have : const = false := by simpa using h2
      subst this
      exact ⟨rfl, by show len = _; rw [Nat.mul_comm]; exact (not_not.mp h1).symm, rfl⟩
  · intro v hv
    unfold resetObj at hv
    split_ifs at hv with h1
    injection hv with hv; subst hv
    rfl
  · unfold resetObj
    by_cases h : len ≠ (allvalues m o).length
    · rw [if_pos h]
      constructor
      · rintro ⟨v, hv⟩; cases hv
      · intro e; exact absurd e h
    · rw [if_neg h]
      exact ⟨fun _ => not_not.mp h, fun _ => ⟨_, rfl⟩⟩

/-- The hypotheses are met: Ipopt's array of four numbers is seen through a mutable and a read-only view,
a third vector is a copy made before the write.  The write through the first view is seen through the
second one and not in the copy; the write through the second one is refused. -/
example :
    let m : Mem ℚ := fun a => a
    let v : Obj ℚ := ⟨[0, 1], 2, .mapped 10 4⟩
    let c : Obj ℚ := ⟨[0, 1], 2, .constMapped 10 4⟩
    let s : World ℚ := ⟨m, [v, c]⟩
    (∀ o ∈ s.objs, Sound o) ∧
    ∃ s', run s [.copy 0, .use 0 (.write 1 [7, 8]), .use 1 (.write 0 [5, 5]), .poke 10 3] = some s' ∧
      s'.objs.map (fun o => (look s'.mem o).values) =
        [[3, 11, 7, 8], [3, 11, 7, 8], [10, 11, 12, 13]] := by
  refine ⟨by simp [Sound], _, rfl, by decide +kernel⟩

end Verif.Interp.Views
