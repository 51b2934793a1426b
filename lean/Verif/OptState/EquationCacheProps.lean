import Verif.OptState.EquationCache
import Verif.Handler.Props
import Verif.Interp.Props

/-!
# Property C182: the cache for derivatives of the equations
-/

set_option autoImplicit false

namespace Verif.OptState

open Verif.Handler Verif.Interp

variable {K : Type} [Field K] [LinearOrder K] [IsStrictOrderedRing K]

/-! ## Specification -/

/-- What is given to the cache in one call. -/
structure Query (K : Type) where
  controls : IV K
  states : IV K

/-- The derivatives of the equations in time step `i`, as contributions to the three matrices: those at the states of this and the last time and at the control of this
time. -/
def Query.Step (eqs : Equations K) (q : Query K) (i : ℕ) (a b d : List (Contribution K)) : Prop :=
  ∃ t0 t1 y z u, q.states.points[i - 1]? = some t0 ∧ q.states.points[i]? = some t1 ∧ vectorAtIndex q.states ((i : ℤ) - 1) = Res.ok y ∧
    vectorAtIndex q.states i = Res.ok z ∧ eval q.controls t1 = Res.ok u ∧ eqs.new t0 t1 y z u = Res.ok a ∧ eqs.last t0 t1 y z u = Res.ok b ∧
    eqs.control t0 t1 y z u = Res.ok d

/-- The states have `n` times and `m` entries at each time, and the derivatives exist in every time step and lie in matrices with `m` rows and columns. -/
structure Query.Fits (eqs : Equations K) (n m : ℕ) (q : Query K) : Prop where
  times : q.states.points.length = n
  inner : q.states.inner = m
  states : q.states.WF
  controls : q.controls.WF
  steps : ∀ i, 1 ≤ i → i < n → ∃ a b d, q.Step eqs i a b d ∧ ∀ c ∈ a ++ b ++ d, (0 ≤ c.1 ∧ c.1 < m) ∧ 0 ≤ c.2.1 ∧ c.2.1 < m

/-- The derivatives by the new state always go to the same positions. -/
def FixedPattern (eqs : Equations K) : Prop :=
  ∃ P : List (ℤ × ℤ), ∀ t0 t1 y z u a, eqs.new t0 t1 y z u = Res.ok a → ∀ p, p ∈ P ↔ ∃ c ∈ a, (c.1, c.2.1) = p

/-- The cache holds the derivatives that belong to the query in step `i`: the solver has factorized the derivative by the new state, and the two matrices are the derivatives by the
last state and by the control. -/
def HoldsStep (eqs : Equations K) (q : Query K) (i : ℕ) (c : EquationCache K) : Prop :=
  ∀ a b d, q.Step eqs i a b d → ∃ positions M L U, c.solvers[i]? = some (some (positions, M)) ∧ c.last[i]? = some L ∧ c.control[i]? = some U ∧
    ∀ row col, M.coeff row col = total a row col ∧ L.coeff row col = total b row col ∧ U.coeff row col = total d row col

/-- The cache holds the derivatives that belong to the query. -/
def Holds (eqs : Equations K) (q : Query K) (c : EquationCache K) : Prop :=
  ∀ i, 1 ≤ i → i < q.states.points.length → HoldsStep eqs q i c

/-- The caches after calls of `compute_derivatives`, one for each query. -/
def calls (asserts : Bool) (eqs : Equations K) (c : EquationCache K) : List (Query K) → List (Res Unit × EquationCache K)
  | [] => []
  | q :: qs =>
    let r := computeEquations asserts eqs c q.controls q.states
    r :: calls asserts eqs r.2 qs

/-- Queries with the same controls, times and initial state have the same states. This is so if the states are simulated. -/
def Determined (qs : List (Query K)) : Prop :=
  ∀ p ∈ qs, ∀ q ∈ qs, p.controls = q.controls → p.states.points = q.states.points → vectorAtIndex p.states 0 = vectorAtIndex q.states 0 → p.states = q.states

/-! ## Lemmas -/

theorem stepInput_eq {eqs : Equations K} {q : Query K} {i : ℕ} {a b d : List (Contribution K)} (h : q.Step eqs i a b d) :
    stepInput eqs q.controls q.states i = Res.ok (a, b, d) := by
  obtain ⟨t0, t1, y, z, u, h1, h2, h3, h4, h5, h6, h7, h8⟩ := h
  unfold stepInput interpolationPointAtIndex
  rw [Res.get_eq_ok.mpr h1, Res.get_eq_ok.mpr h2, h3, h4, Res.ok_bind, Res.ok_bind, Res.ok_bind, Res.ok_bind, h5, Res.ok_bind, h6, Res.ok_bind, h7,
    Res.ok_bind, h8]
  rfl

theorem step_unique {eqs : Equations K} {q : Query K} {i : ℕ} {a b d a' b' d' : List (Contribution K)} (h : q.Step eqs i a b d) (h' : q.Step eqs i a' b' d') :
    a = a' ∧ b = b' ∧ d = d' := by
  have := (stepInput_eq h).symm.trans (stepInput_eq h')
  injection this with this
  simpa [Prod.ext_iff] using this

/-- Filling a matrix, with either handler. -/
theorem fill_spec (kind : Kind) (m : Sparse K) (cs : List (Contribution K)) (hin : ∀ c ∈ cs, (0 ≤ c.1 ∧ c.1 < m.rows) ∧ 0 ≤ c.2.1 ∧ c.2.1 < m.cols) :
    ∃ m', fill kind false m cs = Res.ok m' ∧ m'.rows = m.rows ∧ m'.cols = m.cols ∧ (∀ r c, m'.coeff r c = total cs r c) ∧
      ∀ p, p ∈ m'.stored.map Prod.fst ↔ (kind = .coeffref ∧ p ∈ m.stored.map Prod.fst) ∨ ∃ c ∈ cs, (c.1, c.2.1) = p := by
  have hin' : AllInside false m cs := fun c hc => by simpa using hin c hc
  obtain ⟨m', h1, h2, h3, h4⟩ := C27_entries kind false m cs hin'
  refine ⟨m', h1, h2, h3, fun r c => by simpa using h4 r c, fun p => ?_⟩
  rw [fill_eq kind false m cs hin'] at h1
  injection h1 with h1
  subst h1
  cases kind with
  | triplet => simpa [place] using mem_pour_keys false cs p ([] : List ((ℤ × ℤ) × K))
  | coeffref => simpa [place, Function.comp_def] using mem_pour_keys false cs p (m.stored.map fun e => (e.1, (0 : K)))

/-- The vectors of the cache have the right length. -/
def Sized (n : ℕ) (c : EquationCache K) : Prop := c.solvers.length = n ∧ c.last.length = n ∧ c.control.length = n

/-- The matrix that is used in all steps has the right size. -/
def NewSize (m : ℕ) (c : EquationCache K) : Prop := c.newMatrix.rows = m ∧ c.newMatrix.cols = m

/-- … and the right positions. -/
def NewPattern (P : List (ℤ × ℤ)) (c : EquationCache K) : Prop := ∀ p, p ∈ c.newMatrix.stored.map Prod.fst ↔ p ∈ P

/-- Step `i` was initialized. -/
def Ready (m : ℕ) (P : List (ℤ × ℤ)) (c : EquationCache K) (i : ℕ) : Prop :=
  ∃ positions M L U, c.solvers[i]? = some (some (positions, M)) ∧ c.last[i]? = some L ∧ c.control[i]? = some U ∧ (∀ p, p ∈ positions ↔ p ∈ P) ∧
    (L.rows = m ∧ L.cols = m) ∧ U.rows = m ∧ U.cols = m

/-- What a step leaves alone. -/
structure Kept (i : ℕ) (c c' : EquationCache K) : Prop where
  solvers : ∀ j, j ≠ i → c'.solvers[j]? = c.solvers[j]?
  last : ∀ j, j ≠ i → c'.last[j]? = c.last[j]?
  control : ∀ j, j ≠ i → c'.control[j]? = c.control[j]?
  initialized : c'.initialized = c.initialized

theorem Kept.ready {i j m : ℕ} {P : List (ℤ × ℤ)} {c c' : EquationCache K} (h : Kept i c c') (hj : j ≠ i) (hr : Ready m P c j) : Ready m P c' j := by
  obtain ⟨p, M, L, U, h1, h2, h3, h4⟩ := hr
  exact ⟨p, M, L, U, (h.solvers j hj).trans h1, (h.last j hj).trans h2, (h.control j hj).trans h3, h4⟩

theorem Kept.holds {i j : ℕ} {eqs : Equations K} {q : Query K} {c c' : EquationCache K} (h : Kept i c c') (hj : j ≠ i) (hr : HoldsStep eqs q j c) :
    HoldsStep eqs q j c' := by
  intro a b d hs
  obtain ⟨p, M, L, U, h1, h2, h3, h4⟩ := hr a b d hs
  exact ⟨p, M, L, U, (h.solvers j hj).trans h1, (h.last j hj).trans h2, (h.control j hj).trans h3, h4⟩

/-- What a step achieves. -/
structure Done (eqs : Equations K) (n m : ℕ) (P : List (ℤ × ℤ)) (q : Query K) (i : ℕ) (c c' : EquationCache K) : Prop where
  sized : Sized n c'
  size : NewSize m c'
  pattern : NewPattern P c'
  ready : Ready m P c' i
  holds : HoldsStep eqs q i c'
  kept : Kept i c c'

theorem done_of {eqs : Equations K} {n m : ℕ} {P : List (ℤ × ℤ)} {q : Query K} {i : ℕ} {c : EquationCache K} (hs : Sized n c) (hi : i < n)
    {a b d : List (Contribution K)} (h : q.Step eqs i a b d) {positions : List (ℤ × ℤ)} {M L U : Sparse K} (hM : M.rows = m ∧ M.cols = m)
    (hL : L.rows = m ∧ L.cols = m) (hU : U.rows = m ∧ U.cols = m) (hpos : ∀ p, p ∈ positions ↔ p ∈ P) (hP : ∀ p, p ∈ M.stored.map Prod.fst ↔ p ∈ P)
    (hval : ∀ row col, M.coeff row col = total a row col ∧ L.coeff row col = total b row col ∧ U.coeff row col = total d row col) :
    Done eqs n m P q i c { c with last := c.last.set i L, control := c.control.set i U, newMatrix := M, solvers := c.solvers.set i (some (positions, M)) } := by
  obtain ⟨s1, s2, s3⟩ := hs
  refine ⟨⟨by simpa using s1, by simpa using s2, by simpa using s3⟩, hM, hP, ⟨positions, M, L, U, ?_, ?_, ?_, hpos, hL, hU⟩, ?_, ⟨?_, ?_, ?_, rfl⟩⟩
  · simp [s1, hi]
  · simp [s2, hi]
  · simp [s3, hi]
  · intro a' b' d' h'
    obtain ⟨rfl, rfl, rfl⟩ := step_unique h h'
    exact ⟨positions, M, L, U, by simp [s1, hi], by simp [s2, hi], by simp [s3, hi], hval⟩
  all_goals exact fun j hj => List.getElem?_set_ne (Ne.symm hj)

theorem initStep_spec {eqs : Equations K} {n m : ℕ} {P : List (ℤ × ℤ)}
    (hP : ∀ t0 t1 y z u a, eqs.new t0 t1 y z u = Res.ok a → ∀ p, p ∈ P ↔ ∃ c ∈ a, (c.1, c.2.1) = p) {q : Query K} (hq : q.Fits eqs n m)
    {c : EquationCache K} (hs : Sized n c) (hn : NewSize m c) {i : ℕ} (h1 : 1 ≤ i) (hi : i < n) :
    ∃ c', initStep false eqs q.controls q.states c i = (Res.ok (), c') ∧ Done eqs n m P q i c c' := by
  obtain ⟨a, b, d, hstep, hin⟩ := hq.steps i h1 hi
  have hpos : ∀ p, p ∈ P ↔ ∃ c ∈ a, (c.1, c.2.1) = p := by
    obtain ⟨t0, t1, y, z, u, -, -, -, -, -, e, -⟩ := hstep
    exact hP _ _ _ _ _ _ e
  obtain ⟨M, eM, r1, r2, r3, r4⟩ := fill_spec .triplet c.newMatrix a fun x hx => by rw [hn.1, hn.2]; exact hin x (by simp [hx])
  obtain ⟨L, eL, l1, l2, l3, -⟩ := fill_spec .triplet ⟨q.states.inner, q.states.inner, []⟩ b fun x hx => by
    simpa [hq.inner] using hin x (by simp [hx])
  obtain ⟨U, eU, u1, u2, u3, -⟩ := fill_spec .triplet ⟨q.states.inner, q.states.inner, []⟩ d fun x hx => by
    simpa [hq.inner] using hin x (by simp [hx])
  have hkeys : ∀ p, p ∈ M.stored.map Prod.fst ↔ p ∈ P := fun p => by rw [r4, hpos]; simp
  refine ⟨_, ?_, done_of hs hi hstep (positions := M.stored.map Prod.fst) ⟨r1.trans hn.1, r2.trans hn.2⟩ ⟨l1.trans ?_, l2.trans ?_⟩ ⟨u1.trans ?_, u2.trans ?_⟩ hkeys hkeys
    fun row col => ⟨r3 row col, l3 row col, u3 row col⟩⟩
  · unfold initStep
    rw [if_neg (by obtain ⟨s1, s2, s3⟩ := hs; omega)]
    simp only [Bool.false_and, Bool.false_eq_true, if_false, stepInput_eq hstep, eL, eU, eM]
  all_goals simp [hq.inner]

theorem updateStep_spec {eqs : Equations K} {n m : ℕ} {P : List (ℤ × ℤ)}
    (hP : ∀ t0 t1 y z u a, eqs.new t0 t1 y z u = Res.ok a → ∀ p, p ∈ P ↔ ∃ c ∈ a, (c.1, c.2.1) = p) {q : Query K} (hq : q.Fits eqs n m)
    {c : EquationCache K} (hs : Sized n c) (hn : NewSize m c) (hp : NewPattern P c) {i : ℕ} (h1 : 1 ≤ i) (hi : i < n) (hr : Ready m P c i) :
    ∃ c', updateStep eqs q.controls q.states c i = (Res.ok (), c') ∧ Done eqs n m P q i c c' := by
  obtain ⟨a, b, d, hstep, hin⟩ := hq.steps i h1 hi
  have hpos : ∀ p, p ∈ P ↔ ∃ c ∈ a, (c.1, c.2.1) = p := by
    obtain ⟨t0, t1, y, z, u, -, -, -, -, -, e, -⟩ := hstep
    exact hP _ _ _ _ _ _ e
  obtain ⟨positions, M0, L0, U0, g1, g2, g3, hpp, hL0, hU0⟩ := hr
  obtain ⟨M, eM, r1, r2, r3, r4⟩ := fill_spec .coeffref c.newMatrix a fun x hx => by rw [hn.1, hn.2]; exact hin x (by simp [hx])
  obtain ⟨L, eL, l1, l2, l3, -⟩ := fill_spec .coeffref L0 b fun x hx => by rw [hL0.1, hL0.2]; exact hin x (by simp [hx])
  obtain ⟨U, eU, u1, u2, u3, -⟩ := fill_spec .coeffref U0 d fun x hx => by rw [hU0.1, hU0.2]; exact hin x (by simp [hx])
  have hkeys : ∀ p, p ∈ M.stored.map Prod.fst ↔ p ∈ P := fun p => by
    rw [r4, ← hpos, hp p]
    simp
  refine ⟨_, ?_, done_of hs hi hstep (positions := positions) ⟨r1.trans hn.1, r2.trans hn.2⟩ ⟨l1.trans hL0.1, l2.trans hL0.2⟩ ⟨u1.trans hU0.1, u2.trans hU0.2⟩ hpp hkeys
    fun row col => ⟨r3 row col, l3 row col, u3 row col⟩⟩
  unfold updateStep
  rw [g1, g2, g3]
  simp only [stepInput_eq hstep, eL, eU, eM]
  rw [if_pos ⟨fun p h => (hkeys p).mpr ((hpp p).mp h), fun p h => (hpp p).mpr ((hkeys p).mp h)⟩]

/-- The loops. -/
theorem loop_spec {eqs : Equations K} {n m : ℕ} {P : List (ℤ × ℤ)} {q : Query K} {step : EquationCache K → ℕ → Res Unit × EquationCache K}
    {I : EquationCache K → Prop} {R : EquationCache K → ℕ → Prop}
    (hstep : ∀ c i, I c → R c i → 1 ≤ i → i < n → ∃ c', step c i = (Res.ok (), c') ∧ Done eqs n m P q i c c')
    (hI : ∀ c, Sized n c → NewSize m c → NewPattern P c → I c) (hR : ∀ c c' i j, Kept i c c' → j ≠ i → R c j → R c' j) :
    ∀ (is : List ℕ) (c : EquationCache K), is.Nodup → (∀ i ∈ is, 1 ≤ i ∧ i < n) → I c → (∀ i ∈ is, R c i) → is ≠ [] →
      ∃ c', loop step c is = (Res.ok (), c') ∧ c'.initialized = c.initialized ∧ Sized n c' ∧ NewSize m c' ∧ NewPattern P c' ∧ ∀ i ∈ is, Ready m P c' i ∧ HoldsStep eqs q i c' := by
  have keep : ∀ (is : List ℕ) (c : EquationCache K), is.Nodup → (∀ i ∈ is, 1 ≤ i ∧ i < n) → Sized n c → NewSize m c → NewPattern P c → (∀ i ∈ is, R c i) →
      ∃ c', loop step c is = (Res.ok (), c') ∧ c'.initialized = c.initialized ∧ Sized n c' ∧ NewSize m c' ∧ NewPattern P c' ∧ (∀ i ∈ is, Ready m P c' i ∧ HoldsStep eqs q i c') ∧
        ∀ j, j ∉ is → Ready m P c j → HoldsStep eqs q j c → Ready m P c' j ∧ HoldsStep eqs q j c' := by
    intro is
    induction is with
    | nil => exact fun c _ _ h1 h2 h3 _ => ⟨c, rfl, rfl, h1, h2, h3, by simp, fun j _ a b => ⟨a, b⟩⟩
    | cons i is ih =>
      intro c hnd hr h1 h2 h3 hR'
      obtain ⟨hni, hnd⟩ := List.nodup_cons.mp hnd
      obtain ⟨c1, e1, d1⟩ := hstep c i (hI c h1 h2 h3) (hR' i (by simp)) (hr i (by simp)).1 (hr i (by simp)).2
      obtain ⟨c2, e2, k0, k1, k2, k3, k4, k5⟩ := ih c1 hnd (fun j hj => hr j (by simp [hj])) d1.sized d1.size d1.pattern fun j hj =>
        hR _ _ _ _ d1.kept (fun e => hni (e ▸ hj)) (hR' j (by simp [hj]))
      refine ⟨c2, ?_, k0.trans d1.kept.initialized, k1, k2, k3, fun j hj => ?_, fun j hj r1 r2 => ?_⟩
      · unfold loop
        rw [e1]
        exact e2
      · rcases List.mem_cons.mp hj with rfl | hj
        · exact k5 _ hni d1.ready d1.holds
        · exact k4 j hj
      · have hji : j ≠ i := fun e => hj (by simp [e])
        exact k5 j (fun e => hj (by simp [e])) (d1.kept.ready hji r1) (d1.kept.holds hji r2)
  intro is c hnd hr hc hRc hne
  cases is with
  | nil => exact absurd rfl hne
  | cons i is =>
    obtain ⟨hni, hnd⟩ := List.nodup_cons.mp hnd
    obtain ⟨c1, e1, d1⟩ := hstep c i hc (hRc i (by simp)) (hr i (by simp)).1 (hr i (by simp)).2
    obtain ⟨c2, e2, k0, k1, k2, k3, k4, k5⟩ := keep is c1 hnd (fun j hj => hr j (by simp [hj])) d1.sized d1.size d1.pattern fun j hj =>
      hR _ _ _ _ d1.kept (fun e => hni (e ▸ hj)) (hRc j (by simp [hj]))
    refine ⟨c2, ?_, k0.trans d1.kept.initialized, k1, k2, k3, fun j hj => ?_⟩
    · unfold loop
      rw [e1]
      exact e2
    · rcases List.mem_cons.mp hj with rfl | hj
      · exact k5 _ hni d1.ready d1.holds
      · exact k4 j hj

theorem range_steps {n : ℕ} (hn : 2 ≤ n) : (List.range' 1 (n - 1)).Nodup ∧ (∀ i ∈ List.range' 1 (n - 1), 1 ≤ i ∧ i < n) ∧ List.range' 1 (n - 1) ≠ [] ∧
    ∀ i, 1 ≤ i → i < n → i ∈ List.range' 1 (n - 1) := by
  refine ⟨List.nodup_range', fun i hi => ?_, fun h => ?_, fun i h1 h2 => ?_⟩
  · rw [List.mem_range'_1] at hi; omega
  · have := congrArg List.length h
    simp at this
    omega
  · rw [List.mem_range'_1]; omega

theorem Query.Fits.initial {eqs : Equations K} {n m : ℕ} {q : Query K} (hq : q.Fits eqs n m) (hn : 2 ≤ n) :
    ∃ x, vectorAtIndex q.states 0 = Res.ok x ∧ x.length = m := by
  have hl : q.states.values.length = n * m := by rw [hq.states, hq.times, hq.inner]
  have hle : m ≤ n * m := Nat.le_mul_of_pos_left _ (by omega)
  refine ⟨(q.states.values.drop 0).take m, ?_, by simp; omega⟩
  unfold vectorAtIndex segment
  simp only [hq.inner]
  rw [if_neg (by omega), if_neg (by simp; omega), if_pos (by simp; omega)]
  simp

/-- The states of the cache between calls: as constructed, or with the derivatives of an earlier query. -/
def Between (eqs : Equations K) (n m : ℕ) (P : List (ℤ × ℤ)) (qs : List (Query K)) (c : EquationCache K) : Prop :=
  Sized n c ∧ ((c.initialized = false ∧ c.controls = ⟨[], 0, []⟩) ∨
    (c.initialized = true ∧ NewSize m c ∧ NewPattern P c ∧ (∀ i, 1 ≤ i → i < n → Ready m P c i) ∧
      ∃ q ∈ qs, q.Fits eqs n m ∧ c.controls = q.controls ∧ c.times = q.states.points ∧ vectorAtIndex q.states 0 = Res.ok c.initial ∧ Holds eqs q c))

theorem compute_spec {eqs : Equations K} {n m : ℕ} {P : List (ℤ × ℤ)} (hn : 2 ≤ n)
    (hP : ∀ t0 t1 y z u a, eqs.new t0 t1 y z u = Res.ok a → ∀ p, p ∈ P ↔ ∃ c ∈ a, (c.1, c.2.1) = p) {qs : List (Query K)} (hd : Determined qs)
    {q : Query K} (hq : q.Fits eqs n m) (hmem : q ∈ qs) {c : EquationCache K} (hc : Between eqs n m P qs c) :
    ∃ c', computeEquations false eqs c q.controls q.states = (Res.ok (), c') ∧ Holds eqs q c' ∧ Between eqs n m P qs c' := by
  obtain ⟨x, hx, hxl⟩ := hq.initial hn
  obtain ⟨w1, w2, w3, w4⟩ := range_steps hn
  obtain ⟨hs, hc⟩ := hc
  -- after a computation
  have finish : ∀ c' : EquationCache K, Sized n c' → NewSize m c' → NewPattern P c' → (∀ i ∈ List.range' 1 (n - 1), Ready m P c' i ∧ HoldsStep eqs q i c') →
      Holds eqs q { c' with controls := q.controls, times := q.states.points, initial := x, initialized := true } ∧
      Between eqs n m P qs { c' with controls := q.controls, times := q.states.points, initial := x, initialized := true } := by
    intro c' h1 h2 h3 h4
    have hh : Holds eqs q { c' with controls := q.controls, times := q.states.points, initial := x, initialized := true } := fun i a b =>
      (h4 i (w4 i a (by rw [← hq.times]; exact b))).2
    exact ⟨hh, h1, Or.inr ⟨rfl, h2, h3, fun i a b => (h4 i (w4 i a b)).1, q, hmem, hq, rfl, rfl, hx, hh⟩⟩
  unfold computeEquations
  rcases hc with ⟨hi, hc⟩ | ⟨hi, hns, hnp, hr, q', hq', hf', hc1, hc2, hc3, hh⟩
  · -- the first call
    have hne : q.controls.points ≠ [] := by
      obtain ⟨a, b, d, ⟨t0, t1, y, z, u, -, -, -, -, h, -⟩, -⟩ := hq.steps 1 le_rfl (by omega)
      intro e
      unfold eval at h
      simp [e] at h
    have hhit : hit c q.controls q.states = Res.ok false := by
      obtain ⟨r, e, hr⟩ := C07_eq_iff q.controls c.controls hq.controls (by rw [hc]; rfl)
      unfold hit
      rw [e, Res.ok_bind]
      have : r = false := by
        cases r with
        | false => rfl
        | true => rw [hc] at hr; exact absurd (hr.mp rfl).2.1 hne
      rw [this]
      rfl
    obtain ⟨c', e, k0, k1, k2, k3, k4⟩ := loop_spec (eqs := eqs) (n := n) (m := m) (P := P) (q := q) (step := initStep false eqs q.controls q.states)
      (I := fun c => Sized n c ∧ NewSize m c) (R := fun _ _ => True) (fun c i h _ a b => initStep_spec hP hq h.1 h.2 a b) (fun c a b _ => ⟨a, b⟩)
      (fun _ _ _ _ _ _ _ => trivial) _ { c with newMatrix := ⟨q.states.inner, q.states.inner, []⟩ } w1 w2 ⟨hs, by simp [NewSize, hq.inner]⟩
      (fun _ _ => trivial) w3
    obtain ⟨f1, f2⟩ := finish c' k1 k2 k3 k4
    refine ⟨_, ?_, f1, f2⟩
    rw [hi] at e
    rw [hhit]
    simp only [Bool.false_and, Bool.false_eq_true, if_false, hq.times, hi, e, hx]
    rw [if_neg (by omega)]
  · obtain ⟨r, e, hr'⟩ := C07_eq_iff q.controls c.controls hq.controls (by rw [hc1]; exact hf'.controls)
    obtain ⟨x', hx', hxl'⟩ := hf'.initial hn
    have hlen : c.initial.length = m := by
      rw [hc3] at hx'
      injection hx' with hx'
      rw [hx', hxl']
    have hhit : hit c q.controls q.states = Res.ok (r && decide (x = c.initial ∧ q.states.points = c.times)) := by
      unfold hit
      rw [e, Res.ok_bind]
      cases r with
      | false => rfl
      | true =>
        simp only [if_true, hx, Res.ok_bind]
        rw [if_neg (by rw [hxl, hlen]; simp), Bool.true_and]
    rw [hhit]
    by_cases hb : (r && decide (x = c.initial ∧ q.states.points = c.times)) = true
    · rw [hb]
      refine ⟨c, rfl, ?_, hs, Or.inr ⟨hi, hns, hnp, hr, q', hq', hf', hc1, hc2, hc3, hh⟩⟩
      obtain ⟨b1, b2⟩ := (Bool.and_eq_true _ _).mp hb
      obtain ⟨b3, b4⟩ := of_decide_eq_true b2
      have hcq : q.controls = q'.controls := by
        obtain ⟨a1, a2, a3⟩ := hr'.mp b1
        rw [← hc1]
        cases hqc : q.controls
        cases hcc : c.controls
        simp_all
      have hst : q.states = q'.states := hd q hmem q' hq' hcq (b4.trans hc2) (by rw [hx, hc3, b3])
      have : q = q' := by
        cases q; cases q'
        simp_all
      rw [this]
      exact hh
    · rw [Bool.not_eq_true] at hb
      rw [hb]
      obtain ⟨c', e, k0, k1, k2, k3, k4⟩ := loop_spec (eqs := eqs) (n := n) (m := m) (P := P) (q := q) (step := updateStep eqs q.controls q.states)
        (I := fun c => Sized n c ∧ NewSize m c ∧ NewPattern P c) (R := Ready m P) (fun c i h r a b => updateStep_spec hP hq h.1 h.2.1 h.2.2 a b r)
        (fun c a b d => ⟨a, b, d⟩) (fun _ _ _ _ k hj r => k.ready hj r) _ c w1 w2 ⟨hs, hns, hnp⟩ (fun i h => hr i (w2 i h).1 (w2 i h).2) w3
      obtain ⟨f1, f2⟩ := finish c' k1 k2 k3 k4
      have hci : c'.initialized = true := k0.trans hi
      refine ⟨_, ?_, f1, f2⟩
      simp only [Bool.false_and, Bool.false_eq_true, if_false, hq.times, hi, if_true, e, hx]
      rw [if_neg (by omega), ← hci]

/-! ## The property -/

/-- **C182**, what holds. If nothing throws, the number of times and the length of the states do not change and the states belong to controls, times and initial state, then in a build
without assertions each call, however many calls there were, returns the derivatives that belong to its controls and states. Missing: calls after one that threw
(`C182_exception_false`), builds with assertions (`C182_asserts_false`) and states that were not simulated (`C182_states_false`). -/
theorem C182_partial (eqs : Equations K) (hP : FixedPattern eqs) (n m : ℕ) (c : EquationCache K) (hc : EquationCache.construct n = Res.ok c)
    (qs : List (Query K)) (hq : ∀ q ∈ qs, q.Fits eqs n m) (hd : Determined qs) :
    ∀ (k : ℕ) (q : Query K), qs[k]? = some q → ∃ c', (calls false eqs c qs)[k]? = some (Res.ok (), c') ∧ Holds eqs q c' := by
  obtain ⟨P, hP⟩ := hP
  have hn : 2 ≤ n := by
    unfold EquationCache.construct at hc
    by_contra h
    rw [if_pos (by omega)] at hc
    cases hc
  have hb : Between eqs n m P qs c := by
    unfold EquationCache.construct at hc
    rw [if_neg (by omega)] at hc
    injection hc with hc
    subst hc
    exact ⟨⟨by simp, by simp, by simp⟩, Or.inl ⟨rfl, rfl⟩⟩
  have main : ∀ (rest : List (Query K)) (c : EquationCache K), (∀ q ∈ rest, q ∈ qs) → Between eqs n m P qs c → ∀ (k : ℕ) (q : Query K), rest[k]? = some q →
      ∃ c', (calls false eqs c rest)[k]? = some (Res.ok (), c') ∧ Holds eqs q c' := by
    intro rest
    induction rest with
    | nil => intro c _ _ k q h; simp at h
    | cons p rest ih =>
      intro c hr hc k q h
      obtain ⟨c', e, h1, h2⟩ := compute_spec hn hP hd (hq p (hr p (by simp))) (hr p (by simp)) hc
      cases k with
      | zero =>
        simp only [List.getElem?_cons_zero, Option.some.injEq] at h
        subst h
        exact ⟨c', by simp [calls, e], h1⟩
      | succ k =>
        obtain ⟨c2, e2, h3⟩ := ih c' (fun q hq => hr q (by simp [hq])) h2 k q (by simpa using h)
        exact ⟨c2, by simp [calls, e, e2], h3⟩
  exact main qs c (fun _ h => h) hb

/-- A step leaves a matrix that is not empty. -/
theorem initStep_nonempty {eqs : Equations K} (ha : ∀ t0 t1 y z u a, eqs.new t0 t1 y z u = Res.ok a → a ≠ []) {asserts : Bool} {controls states : IV K} {i : ℕ}
    {c c' : EquationCache K} (h : initStep asserts eqs controls states c i = (Res.ok (), c')) : c'.newMatrix.stored ≠ [] := by
  unfold initStep at h
  split at h
  · simp at h
  simp only at h
  split at h
  · simp at h
  split at h
  · simp at h
  · simp at h
  rename_i a b d hin
  split at h
  · rename_i l u m e1 e2 e3
    simp only [Prod.mk.injEq, true_and] at h
    subst h
    show m.stored ≠ []
    have hane : a ≠ [] := by
      unfold stepInput at hin
      obtain ⟨_, -, hin⟩ := Res.bind_eq_ok.mp hin
      obtain ⟨_, -, hin⟩ := Res.bind_eq_ok.mp hin
      obtain ⟨_, -, hin⟩ := Res.bind_eq_ok.mp hin
      obtain ⟨_, -, hin⟩ := Res.bind_eq_ok.mp hin
      obtain ⟨_, -, hin⟩ := Res.bind_eq_ok.mp hin
      obtain ⟨_, e, hin⟩ := Res.bind_eq_ok.mp hin
      obtain ⟨_, -, hin⟩ := Res.bind_eq_ok.mp hin
      obtain ⟨_, -, hin⟩ := Res.bind_eq_ok.mp hin
      injection hin with hin
      injection hin with hin
      subst hin
      exact ha _ _ _ _ _ _ e
    by_cases hall : AllInside false c.newMatrix a
    · rw [fill_eq _ _ _ _ hall] at e3
      injection e3 with e3
      subst e3
      obtain ⟨x, a, rfl⟩ := List.exists_cons_of_ne_nil hane
      have := (mem_pour_keys false (x :: a) (place false x) ([] : List ((ℤ × ℤ) × K))).mpr (Or.inr ⟨x, by simp, rfl⟩)
      intro e
      simp only at e
      rw [e] at this
      simp at this
    · rw [C27_outside _ _ _ _ hall] at e3
      cases e3
  · simp at h

/-- With assertions the second step fails. -/
theorem loop_asserts {eqs : Equations K} (ha : ∀ t0 t1 y z u a, eqs.new t0 t1 y z u = Res.ok a → a ≠ []) {controls states : IV K} (c : EquationCache K) (i j : ℕ)
    (is : List ℕ) : (loop (initStep true eqs controls states) c (i :: j :: is)).1 ≠ Res.ok () := by
  unfold loop
  rcases h : initStep true eqs controls states c i with ⟨r, c1⟩
  cases r with
  | throws => simp
  | ub => simp
  | ok _ =>
    have hne := initStep_nonempty ha h
    have : (initStep true eqs controls states c1 j).1 ≠ Res.ok () := by
      unfold initStep
      split
      · simp
      · simp only
        rw [if_pos (by cases hs : c1.newMatrix.stored with
          | nil => exact absurd hs hne
          | cons _ _ => rfl)]
        simp
    simp only
    unfold loop
    rcases h2 : initStep true eqs controls states c1 j with ⟨r, c2⟩
    rw [h2] at this
    cases r with
    | throws => simp
    | ub => simp
    | ok _ => exact absurd rfl this

/-- **C182**, builds with assertions: with at least three times the first call always ends the program, since the second step fills a matrix that is not empty. -/
theorem C182_asserts_false (eqs : Equations K) (n : ℕ) (hn : 3 ≤ n) (c : EquationCache K) (hc : EquationCache.construct n = Res.ok c) (q : Query K)
    (hq : q.states.points.length = n) (hp : q.controls.points ≠ []) (ha : ∀ t0 t1 y z u a, eqs.new t0 t1 y z u = Res.ok a → a ≠ []) :
    (computeEquations true eqs c q.controls q.states).1 ≠ Res.ok () := by
  unfold EquationCache.construct at hc
  rw [if_neg (by omega)] at hc
  injection hc with hc
  have hi : c.initialized = false := by rw [← hc]
  have hu : c.controls.points = [] := by rw [← hc]
  have hrange : List.range' 1 (n - 1) = 1 :: 2 :: List.range' 3 (n - 3) := by
    obtain ⟨k, rfl⟩ := Nat.exists_eq_add_of_le hn
    rw [show 3 + k - 1 = k + 1 + 1 by omega, show 3 + k - 3 = k by omega]
    rfl
  intro h
  unfold computeEquations at h
  split at h
  · cases h
  · cases h
  · rename_i e
    unfold hit at e
    obtain ⟨same, e1, e2⟩ := Res.bind_eq_ok.mp e
    cases same with
    | false => simp at e2
    | true =>
      have hsame : haveSameStructure q.controls c.controls = false := by
        unfold haveSameStructure
        rw [hu]
        split
        · rfl
        · split
          · rfl
          · rfl
      unfold ivEq at e1
      rw [hsame] at e1
      cases e1
  · split at h
    · cases h
    · split at h
      · cases h
      · have hl := loop_asserts ha (controls := q.controls) (states := q.states) { c with newMatrix := ⟨q.states.inner, q.states.inner, []⟩ } 1 2 (List.range' 3 (n - 3))
        rw [← hrange, ← hq] at hl
        rw [hi] at h hl
        simp only [Bool.false_eq_true, if_false] at h
        rcases hr : loop (initStep true eqs q.controls q.states) { c with newMatrix := ⟨q.states.inner, q.states.inner, []⟩, initialized := false }
          (List.range' 1 (q.states.points.length - 1)) with ⟨r, c2⟩
        rw [hr] at h hl
        cases r with
        | throws => cases h
        | ub => cases h
        | ok _ => exact hl rfl

/-! ## Examples -/

/-- An equation with one unknown: the new state times the control minus the last state. -/
def product : Equations ℚ where
  new _ _ _ _ u := Res.ok [(0, 0, u.headD 0)]
  last _ _ _ _ _ := Res.ok [(0, 0, -1)]
  control _ _ _ z _ := Res.ok [(0, 0, z.headD 0)]

theorem product_pattern : FixedPattern product :=
  ⟨[(0, 0)], fun t0 t1 y z u a h p => by injection h with h; subst h; simp [eq_comm]⟩

/-- Control 2 and the states 8, 4, 2 at the times 0, 1, 2; control 4 and the states 16, 4, 1. -/
def halves : Query ℚ := ⟨⟨[0, 2], 1, [2, 2]⟩, ⟨[0, 1, 2], 1, [8, 4, 2]⟩⟩
def quarters : Query ℚ := ⟨⟨[0, 2], 1, [4, 4]⟩, ⟨[0, 1, 2], 1, [16, 4, 1]⟩⟩
/-- Controls are known until time 1 only. -/
def ended : Query ℚ := ⟨⟨[0, 1], 1, [4, 4]⟩, ⟨[0, 1, 2], 1, [16, 4, 1]⟩⟩
/-- The same controls and the same initial state as `halves`, but other states. -/
def other : Query ℚ := ⟨⟨[0, 2], 1, [2, 2]⟩, ⟨[0, 1, 2], 1, [8, 5, 3]⟩⟩

/-- A cache for three times. -/
def three : EquationCache ℚ :=
  ⟨⟨[], 0, []⟩, [], [], [none, none, none], ⟨0, 0, []⟩, [⟨0, 0, []⟩, ⟨0, 0, []⟩, ⟨0, 0, []⟩], [⟨0, 0, []⟩, ⟨0, 0, []⟩, ⟨0, 0, []⟩], false⟩

theorem three_eq : EquationCache.construct 3 = Res.ok three := rfl

theorem fits_of (q : Query ℚ) (h1 : q.states.points = [0, 1, 2]) (h2 : q.states.inner = 1) (h3 : q.states.WF) (h4 : q.controls.WF)
    (h5 : ∃ y1 y2 y3 u v, vectorAtIndex q.states 0 = Res.ok y1 ∧ vectorAtIndex q.states 1 = Res.ok y2 ∧ vectorAtIndex q.states 2 = Res.ok y3 ∧
      eval q.controls 1 = Res.ok u ∧ eval q.controls 2 = Res.ok v) : q.Fits product 3 1 := by
  obtain ⟨y1, y2, y3, u, v, e1, e2, e3, e4, e5⟩ := h5
  refine ⟨by rw [h1]; rfl, h2, h3, h4, fun i a b => ?_⟩
  obtain rfl | rfl : i = 1 ∨ i = 2 := by omega
  · exact ⟨_, _, _, ⟨0, 1, y1, y2, u, by rw [h1]; rfl, by rw [h1]; rfl, e1, e2, e4, rfl, rfl, rfl⟩, by simp⟩
  · exact ⟨_, _, _, ⟨1, 2, y2, y3, v, by rw [h1]; rfl, by rw [h1]; rfl, e2, e3, e5, rfl, rfl, rfl⟩, by simp⟩

/-- C182 applies to repeated and changed controls. -/
example : ∀ (k : ℕ) (q : Query ℚ), [halves, halves, quarters, halves][k]? = some q →
    ∃ c', (calls false product three [halves, halves, quarters, halves])[k]? = some (Res.ok (), c') ∧ Holds product q c' := by
  have f1 : halves.Fits product 3 1 := fits_of _ rfl rfl rfl rfl ⟨[8], [4], [2], [2], [2], by decide +kernel, by decide +kernel, by decide +kernel,
    by decide +kernel, by decide +kernel⟩
  have f2 : quarters.Fits product 3 1 := fits_of _ rfl rfl rfl rfl ⟨[16], [4], [1], [4], [4], by decide +kernel, by decide +kernel, by decide +kernel,
    by decide +kernel, by decide +kernel⟩
  refine C182_partial product product_pattern 3 1 three three_eq _ (by simp [f1, f2]) fun p hp q hq h _ _ => ?_
  have hne : halves.controls ≠ quarters.controls := by decide +kernel
  have h1 : p = halves ∨ p = quarters := by simp at hp; tauto
  have h2 : q = halves ∨ q = quarters := by simp at hq; tauto
  rcases h1 with rfl | rfl <;> rcases h2 with rfl | rfl
  · rfl
  · exact absurd h hne
  · exact absurd h.symm hne
  · rfl

/-- With assertions these queries end the program. -/
example : (computeEquations true product three halves.controls halves.states).1 ≠ Res.ok () :=
  C182_asserts_false product 3 le_rfl three three_eq halves rfl (by simp [halves]) fun t0 t1 y z u a h => by injection h with h; subst h; simp

/-- The entry of the matrix factorized in step 1. -/
def firstEntry (c : EquationCache ℚ) : Option ℚ :=
  match c.solvers[1]? with
  | some (some (_, M)) => some (M.coeff 0 0)
  | _ => none

/-- The entry of the derivative by the control in step 1. -/
def firstControl (c : EquationCache ℚ) : Option ℚ := c.control[1]?.map fun M => M.coeff 0 0

theorem halves_fits : halves.Fits product 3 1 := fits_of _ rfl rfl rfl rfl ⟨[8], [4], [2], [2], [2], by decide +kernel, by decide +kernel, by decide +kernel,
  by decide +kernel, by decide +kernel⟩

theorem halves_step : halves.Step product 1 [(0, 0, 2)] [(0, 0, -1)] [(0, 0, 4)] :=
  ⟨0, 1, [8], [4], [2], rfl, rfl, by decide +kernel, by decide +kernel, by decide +kernel, rfl, rfl, rfl⟩

theorem other_step : other.Step product 1 [(0, 0, 2)] [(0, 0, -1)] [(0, 0, 5)] :=
  ⟨0, 1, [8], [5], [2], rfl, rfl, by decide +kernel, by decide +kernel, by decide +kernel, rfl, rfl, rfl⟩

theorem halves_holds : Holds product halves (computeEquations false product three halves.controls halves.states).2 := by
  obtain ⟨c', e, h1⟩ := C182_partial product product_pattern 3 1 three three_eq [halves] (by simp [halves_fits]) (fun p hp q hq _ _ _ => by
    rw [List.mem_singleton.mp hp, List.mem_singleton.mp hq]) 0 halves rfl
  have : computeEquations false product three halves.controls halves.states = (Res.ok (), c') := by simpa [calls] using e
  rw [this]
  exact h1

/-- **C182** is false after an exception: the call for `ended` throws in the second step and leaves its derivatives in the first step, and the next call for `halves`, whose
controls are still noted as those of the cache, returns them. -/
theorem C182_exception_false : ∃ (eqs : Equations ℚ) (c : EquationCache ℚ) (p q : Query ℚ), FixedPattern eqs ∧ EquationCache.construct 3 = Res.ok c ∧ p.Fits eqs 3 1 ∧
    ∃ c1 c2 c3, calls false eqs c [p, q, p] = [(Res.ok (), c1), (Res.throws, c2), (Res.ok (), c3)] ∧ Holds eqs p c1 ∧ ¬ Holds eqs p c3 := by
  refine ⟨product, three, halves, ended, product_pattern, three_eq, halves_fits, (computeEquations false product three halves.controls halves.states).2,
    (computeEquations false product (computeEquations false product three halves.controls halves.states).2 ended.controls ended.states).2,
    (computeEquations false product (computeEquations false product (computeEquations false product three halves.controls halves.states).2
      ended.controls ended.states).2 halves.controls halves.states).2, ?_, halves_holds, fun h => ?_⟩
  · have e1 : (computeEquations false product three halves.controls halves.states).1 = Res.ok () := by decide +kernel
    have e2 : (computeEquations false product (computeEquations false product three halves.controls halves.states).2 ended.controls ended.states).1 = Res.throws := by
      decide +kernel
    have e3 : (computeEquations false product (computeEquations false product (computeEquations false product three halves.controls halves.states).2
      ended.controls ended.states).2 halves.controls halves.states).1 = Res.ok () := by decide +kernel
    exact congrArg₂ List.cons (Prod.ext e1 rfl) (congrArg₂ List.cons (Prod.ext e2 rfl) (congrArg₂ List.cons (Prod.ext e3 rfl) rfl))
  · obtain ⟨pos, M, L, U, h1, -, -, hv⟩ := h 1 le_rfl (by decide) _ _ _ halves_step
    have e : firstEntry (computeEquations false product (computeEquations false product (computeEquations false product three halves.controls halves.states).2
      ended.controls ended.states).2 halves.controls halves.states).2 = some 4 := by decide +kernel
    unfold firstEntry at e
    rw [h1] at e
    have h2 := (hv 0 0).1
    have h3 : M.coeff 0 0 = 4 := by injection e
    rw [h3] at h2
    exact absurd h2 (by decide +kernel)

/-- **C182** is false if the states are not those of a simulation: the cache does not compare them beyond the initial one. -/
theorem C182_states_false : ∃ (eqs : Equations ℚ) (c : EquationCache ℚ) (p q : Query ℚ), FixedPattern eqs ∧ EquationCache.construct 3 = Res.ok c ∧ p.Fits eqs 3 1 ∧
    q.Fits eqs 3 1 ∧ ∃ c1 c2, calls false eqs c [p, q] = [(Res.ok (), c1), (Res.ok (), c2)] ∧ Holds eqs p c1 ∧ ¬ Holds eqs q c2 := by
  refine ⟨product, three, halves, other, product_pattern, three_eq, halves_fits,
    fits_of _ rfl rfl rfl rfl ⟨[8], [5], [3], [2], [2], by decide +kernel, by decide +kernel, by decide +kernel, by decide +kernel, by decide +kernel⟩,
    (computeEquations false product three halves.controls halves.states).2,
    (computeEquations false product (computeEquations false product three halves.controls halves.states).2 other.controls other.states).2, ?_, halves_holds, fun h => ?_⟩
  · have e1 : (computeEquations false product three halves.controls halves.states).1 = Res.ok () := by decide +kernel
    have e2 : (computeEquations false product (computeEquations false product three halves.controls halves.states).2 other.controls other.states).1 = Res.ok () := by
      decide +kernel
    exact congrArg₂ List.cons (Prod.ext e1 rfl) (congrArg₂ List.cons (Prod.ext e2 rfl) rfl)
  · obtain ⟨pos, M, L, U, -, -, h1, hv⟩ := h 1 le_rfl (by decide) _ _ _ other_step
    have e : firstControl (computeEquations false product (computeEquations false product three halves.controls halves.states).2 other.controls other.states).2 = some 4 := by
      decide +kernel
    unfold firstControl at e
    rw [h1] at e
    have h2 := (hv 0 0).2.2
    have h3 : U.coeff 0 0 = 4 := by injection e
    rw [h3] at h2
    exact absurd h2 (by decide +kernel)

end Verif.OptState
