import Verif.Read.AcceptGraph
import Verif.Read.DefinedOpt

/-!
# Initial values and controls without mistakes

Lemmas for C127.
-/

set_option autoImplicit false

namespace Verif.Read

open Verif.Json Verif.Factory Verif.Interp Verif.Schema Verif.Initial Verif.Times Verif.Newton Verif.Evolve Network Net

/-! ## Vectors -/

/-- Between the first and the last point there is a value. -/
theorem eval_exists {v : IV ℝ} (hv : Initial.Proper v) {t : ℝ} (h1 : ∃ p ∈ v.points, p ≤ t) (h2 : ∃ q ∈ v.points, t ≤ q) :
    ∃ r, eval v t = Res.ok r ∧ r.length = v.inner := by
  obtain ⟨h3, h4, h5⟩ := C03_eval_range v hv.1 hv.2.1 hv.2.2 t
  have he := EPSILON_pos (K := ℝ)
  cases h : eval v t with
  | ok r => exact ⟨r, rfl, h5 r h⟩
  | ub => exact absurd h h4
  | throws =>
    exfalso
    obtain ⟨p, hp, h1⟩ := h1
    obtain ⟨q, hq, h2⟩ := h2
    obtain ⟨i, hi, rfl⟩ := List.mem_iff_getElem.mp hp
    obtain ⟨j, hj, rfl⟩ := List.mem_iff_getElem.mp hq
    have a := getElem_le_of_pairwise hv.2.1 (Nat.zero_le i) hi
    have b := getElem_le_of_pairwise hv.2.1 (show j ≤ v.points.length - 1 by omega) (by omega)
    rcases h3.mp h with h | h <;> linarith

/-- A list of points and values gives a vector. -/
theorem construct_proper {k : ℕ} (mem : ℕ → ℝ) {l : List (ℚ × List ℚ)} (hne : l ≠ []) (hk : ∀ p ∈ l, p.2.length = k)
    (hs : (l.map Prod.fst).Pairwise (· < ·)) :
    ∃ v, constructFromJson mem (Gas.real l) = Res.ok v ∧ Initial.Proper v ∧ v.inner = k ∧ ∀ p ∈ l, (p.1 : ℝ) ∈ v.points := by
  obtain ⟨v, h4, hwf, hin, hpts, -⟩ := C66_from_json mem (Gas.real l) (by simp [Gas.real, hne]) k (by
    intro y hy
    obtain ⟨x, hx, rfl⟩ := List.mem_map.mp hy
    simpa using hk x hx)
  have e : (Gas.real l).map Prod.fst = (l.map Prod.fst).map fun q : ℚ => (q : ℝ) := by simp [Gas.real]
  refine ⟨v, h4, ⟨hwf, ?_, ?_⟩, hin, fun p hp => ?_⟩
  · rw [hpts, e, List.pairwise_map]
    exact hs.imp fun h => by exact_mod_cast h
  · rw [hpts]
    have := List.length_pos_iff.mpr hne
    simpa [Gas.real] using this
  · rw [hpts, e]
    exact List.mem_map_of_mem (f := fun q : ℚ => (q : ℝ)) (List.mem_map_of_mem (f := Prod.fst) hp)

theorem readInitial_exists {k : ℕ} {mem : ℕ → ℝ} {schema : Res Json} {s : Json} (hok : schema = Res.ok s) {e : Json}
    (hacc : accepts s e = true) {l : List (ℚ × List ℚ)} (hl : Describes "x" e l) (hne : l ≠ []) (hk : ∀ p ∈ l, p.2.length = k)
    (hs : (l.map Prod.fst).Pairwise (· < ·)) :
    ∃ v, readInitial mem schema e = Res.ok v ∧ Initial.Proper v ∧ v.inner = k ∧ ∀ p ∈ l, (p.1 : ℝ) ∈ v.points := by
  obtain ⟨v, h1, h2⟩ := construct_proper mem hne hk hs
  refine ⟨v, ?_, h2⟩
  obtain ⟨-, es, -, hd, he⟩ := hl
  unfold readInitial Gas.readVector
  rw [hok, Res.ok_bind, if_pos hacc, index_of_find hd, Res.ok_bind]
  cases he with
  | nil => exact absurd rfl hne
  | @cons j y es l h3 h4 =>
    have e1 := each_point (.cons h3 h4)
    simp only [contains, h3.1, Option.isSome_some, if_true, e1, Res.ok_bind]
    exact h1

theorem readVector_exists {k : ℕ} {mem : ℕ → ℝ} {e : Json} {s : String} (hid : e.find? "id" = some (str s))
    {l : List (ℚ × List ℚ)} (hl : Lists e l) (hne : l ≠ []) (hk : ∀ p ∈ l, p.2.length = k)
    (hs : (l.map Prod.fst).Pairwise (· < ·)) :
    ∃ v, Gas.readVector (accepts (boundaryOf k)) mem e = Res.ok v ∧ Initial.Proper v ∧ v.inner = k ∧
      ∀ p ∈ l, (p.1 : ℝ) ∈ v.points := by
  obtain ⟨v, h1, h2⟩ := construct_proper mem hne hk hs
  refine ⟨v, ?_, h2⟩
  have hacc := lists_accepted hid hl hk
  obtain ⟨es, hd, he⟩ := hl
  unfold Gas.readVector
  rw [if_pos hacc, index_of_find hd, Res.ok_bind]
  cases he with
  | nil => exact absurd rfl hne
  | @cons j y es l h3 h4 =>
    have e1 := Gas.each_readEntry (.cons h3 h4)
    simp only [contains, h3.1, Option.isSome_none, Bool.false_eq_true, if_false, e1, Res.ok_bind]
    exact h1

/-! ## Setting values -/

theorem setPoints_exists {c : StateComponent ℝ} {v : IV ℝ}
    (hc : ∀ x : List ℝ, x.length = v.inner → ∃ w, c.convert x = Res.ok w ∧ w.length = v.inner) {n i : ℕ} {vector : List ℝ}
    (he : ∀ j, i ≤ j → j < i + n → ∃ r, eval v ((j : ℝ) * c.dx) = Res.ok r ∧ r.length = v.inner)
    (hl : c.start + (i + n) * v.inner ≤ vector.length) :
    ∃ w, setPoints c v i vector n = Res.ok w ∧ w.length = vector.length := by
  induction n generalizing i vector with
  | zero => exact ⟨vector, rfl, rfl⟩
  | succ n ih =>
    obtain ⟨x, h1, h2⟩ := he i le_rfl (by omega)
    obtain ⟨w, h3, h4⟩ := hc x h2
    have e3 : (i + 1) * v.inner ≤ (i + (n + 1)) * v.inner := Nat.mul_le_mul_right _ (by omega)
    have e1 : (i + 1) * v.inner = i * v.inner + v.inner := by ring
    have e2 : (i + 1 + n) * v.inner = (i + (n + 1)) * v.inner := by ring
    have ha : assign vector (c.start + i * v.inner) v.inner w = Res.ok (writeSegment vector (c.start + i * v.inner) w) :=
      if_pos ⟨by omega, h4⟩
    have hlen : (writeSegment vector (c.start + i * v.inner) w).length = vector.length :=
      writeSegment_length (by rw [h4]; omega)
    obtain ⟨r, h5, h6⟩ := ih (i := i + 1) (vector := writeSegment vector (c.start + i * v.inner) w)
      (fun j h7 h8 => he j (by omega) (by omega)) (by rw [hlen, e2]; exact hl)
    refine ⟨r, ?_, h6.trans hlen⟩
    unfold setPoints
    simp only [h1, h3, ha, Res.ok_bind]
    exact h5

theorem setTimes_exists {c : ControlComponent ℝ} {v : IV ℝ} {times : List ℝ} {i : ℕ} {u : IV ℝ} (hwf : u.WF)
    (he : ∀ t ∈ times, ∃ r, eval v t = Res.ok r ∧ r.length = v.inner)
    (hl : i + times.length ≤ u.points.length) (hin : c.start + v.inner ≤ u.inner) :
    ∃ w, setTimes c v i u times = Res.ok w ∧ w.WF ∧ w.points = u.points ∧ w.inner = u.inner := by
  induction times generalizing i u with
  | nil => exact ⟨u, rfl, hwf, rfl, rfl⟩
  | cons t times ih =>
    simp only [List.length_cons] at hl
    have hi : i < u.points.length := by omega
    obtain ⟨w, h1, h2⟩ := he t (by simp)
    have hold : ((u.values.drop (i * u.inner)).take u.inner).length = u.inner := by
      have := step_le hwf hi
      rw [List.length_take, List.length_drop]
      have e : u.inner * i = i * u.inner := by ring
      omega
    have ha : assign ((u.values.drop (i * u.inner)).take u.inner) c.start v.inner w =
        Res.ok (writeSegment ((u.values.drop (i * u.inner)).take u.inner) c.start w) := if_pos ⟨by rw [hold]; exact hin, h2⟩
    obtain ⟨a1, -, -⟩ := assign_ok ha
    obtain ⟨u', b1, b2, b3, b4, -, -⟩ := writeTimestep_spec u hwf i hi _ (a1.trans hold)
    obtain ⟨r, h5, h6, h7, h8⟩ := ih (i := i + 1) b2 (fun t ht => he t (by simp [ht])) (by rw [b3]; omega) (by rw [b4]; exact hin)
    refine ⟨r, ?_, h6, h7.trans b3, h8.trans b4⟩
    unfold setTimes
    rw [h1, Res.ok_bind, vectorAtIndex_ok hwf hi, Res.ok_bind, ha, Res.ok_bind, b1, Res.ok_bind]
    exact h5

/-! ## The time steps -/

section Steps
variable {T X C Y K : Type} [Field K] [LinearOrder K]

/-- Newton's method succeeds in a time step, and gives the state `y`. -/
def Succeeds (S : System X Y K) (tol : K) (maxIter : ℤ) (full : Bool) (fuel : ℕ) (x y : X) : Prop :=
  ∃ sol, solve S tol maxIter full fuel x = some (Res.ok (y, sol)) ∧ sol.success = true

/-- Newton's method fails in a time step: it is not successful although it uses the full Jacobian (this is tried in the end unless the number of retries is
negative), or it gives no result at all. -/
def Fails (S : System X Y K) (tol : K) (maxIter : ℤ) (retries : ℤ) (fuel : ℕ) (x : X) : Prop :=
  ∃ full, (∀ y, ¬ Succeeds S tol maxIter full fuel x y) ∧
    (full = true ∨ retries < 0 ∨ ∀ r, solve S tol maxIter full fuel x ≠ some (Res.ok r))

theorem newtonSolver_succeeds {sys : T → T → X → C → System X Y K} {tol : K} {maxIter : ℤ} {fuel : ℕ} {hist : List (Attempt T X C)}
    {a : Attempt T X C} {y : X} : newtonSolver sys tol maxIter fuel hist a = Res.ok (true, y) ↔
      Succeeds (sys a.lastTime a.newTime a.lastState a.control) tol maxIter a.full fuel a.guess y := by
  unfold newtonSolver Succeeds
  generalize solve (sys a.lastTime a.newTime a.lastState a.control) tol maxIter a.full fuel a.guess = o
  match o with
  | none => simp
  | some Res.throws => simp
  | some Res.ub => simp
  | some (Res.ok (x, sol)) =>
    simp only [Res.ok.injEq, Prod.mk.injEq, Option.some.injEq]
    constructor
    · rintro ⟨h1, rfl⟩
      exact ⟨sol, ⟨rfl, rfl⟩, h1⟩
    · rintro ⟨sol', ⟨rfl, rfl⟩, h1⟩
      exact ⟨h1, rfl⟩

/-- One step succeeds with one of the attempts, or some attempt fails. -/
theorem step_outcome (R : ℤ) (sm : Bool) (sys : T → T → X → C → System X Y K) (tol : K) (maxIter : ℤ) (fuel : ℕ) (last new : T) (x : X)
    (c : C) (hist : List (Attempt T X C)) :
    (∃ full y, (makeOneStep R sm (newtonSolver sys tol maxIter fuel) last new x x c hist).1 = Res.ok y ∧
      Succeeds (sys last new x c) tol maxIter full fuel x y) ∨
    Fails (sys last new x c) tol maxIter R fuel x := by
  obtain ⟨as, a, -, -, h3, h4, -, h6, h7⟩ := C25_attempts R sm (newtonSolver sys tol maxIter fuel) last new x x c hist
  obtain ⟨e1, e2, e3, e4, e5⟩ := h3 a (by simp)
  by_cases hs : ∃ y, Succeeds (sys last new x c) tol maxIter a.full fuel x y
  · left
    obtain ⟨y, hs⟩ := hs
    refine ⟨a.full, y, ?_, hs⟩
    have : newtonSolver sys tol maxIter fuel (hist ++ as) a = Res.ok (true, y) :=
      newtonSolver_succeeds.mpr (by rw [e1, e2, e3, e4, e5]; exact hs)
    rw [h6, this]
  · right
    refine ⟨a.full, fun y h => hs ⟨y, h⟩, ?_⟩
    by_cases hR : R < 0
    · exact Or.inr (Or.inl hR)
    by_cases hr : ∀ r, solve (sys last new x c) tol maxIter a.full fuel x ≠ some (Res.ok r)
    · exact Or.inr (Or.inr hr)
    · left
      push Not at hr
      obtain ⟨⟨y, sol⟩, hr⟩ := hr
      have hno : sol.success = false := by
        rw [← Bool.not_eq_true]
        exact fun h => hs ⟨y, sol, hr, h⟩
      have hlast := h7 y (by
        unfold newtonSolver
        rw [e1, e2, e3, e4, e5, hr]
        simp [hno])
      have := (h4 as.length (by simp)).mpr (by
        refine ⟨?_, fun _ => by omega⟩
        unfold fullAt
        unfold maxAttempts at hlast
        rw [if_neg hR] at hlast
        split
        · next h =>
          rw [if_pos h] at hlast
          simp only [decide_eq_true_eq]
          omega
        · rfl)
      simpa using this

/-- If the controls are there, the time loop goes on until some attempt of Newton's method fails. -/
theorem loop_outcome (R : ℤ) (sm : Bool) (sys : T → T → X → C → System X Y K) (tol : K) (maxIter : ℤ) (fuel : ℕ) (controls : T → Res C)
    (ts : List T) (hc : ∀ t ∈ ts, ∃ c, controls t = Res.ok c) (last : T) (x : X) (hist : List (Attempt T X C)) :
    (∃ xs, (loop R sm (newtonSolver sys tol maxIter fuel) controls ts last x x hist).1 = Res.ok xs) ∨
    ∃ i, ∃ hi : i < ts.length, ∃ states : ℕ → X, states 0 = x ∧
      (∀ j (hj : j < i), ∃ c full, controls ts[j] = Res.ok c ∧
        Succeeds (sys ((last :: ts)[j]'(by simp; omega)) ts[j] (states j) c) tol maxIter full fuel (states j) (states (j + 1))) ∧
      ∃ c, controls ts[i] = Res.ok c ∧
        Fails (sys ((last :: ts)[i]'(by simp; omega)) ts[i] (states i) c) tol maxIter R fuel (states i) := by
  induction ts generalizing last x hist with
  | nil => exact Or.inl ⟨[], rfl⟩
  | cons t ts ih =>
    obtain ⟨c, hcc⟩ := hc t (by simp)
    unfold loop
    simp only [hcc]
    rcases step_outcome R sm sys tol maxIter fuel last t x c hist with ⟨full, y, h1, h2⟩ | h1
    · obtain ⟨r, hist', hr⟩ : ∃ r hist', makeOneStep R sm (newtonSolver sys tol maxIter fuel) last t x x c hist = (r, hist') :=
        ⟨_, _, rfl⟩
      rw [hr] at h1
      simp only at h1
      subst h1
      simp only [hr]
      rcases ih (fun t ht => hc t (by simp [ht])) t y hist' with ⟨xs, h3⟩ | ⟨i, hi, states, h3, h4, c', h5, h6⟩
      · left
        obtain ⟨r, hist'', hr'⟩ : ∃ r hist'', loop R sm (newtonSolver sys tol maxIter fuel) controls ts t y y hist' = (r, hist'') :=
          ⟨_, _, rfl⟩
        rw [hr'] at h3
        simp only at h3
        subst h3
        simp only [hr']
        exact ⟨_, rfl⟩
      · right
        refine ⟨i + 1, by simpa using hi, fun j => if j = 0 then x else states (j - 1), rfl, fun j hj => ?_, c', ?_, ?_⟩
        · cases j with
          | zero => exact ⟨c, full, by simpa using hcc, by simpa [h3] using h2⟩
          | succ j =>
            obtain ⟨c, full, h7, h8⟩ := h4 j (by omega)
            exact ⟨c, full, by simpa using h7, by simpa using h8⟩
        · simpa using h5
        · simpa using h6
    · right
      exact ⟨0, by simp, fun _ => x, rfl, fun j hj => by omega, c, by simpa using hcc, by simpa using h1⟩

end Steps

end Verif.Read
