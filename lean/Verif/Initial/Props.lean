import Verif.Initial.Check
import Verif.Interp.Props
import Verif.Network.Index

/-!
# Property C64: initial values land in the right entries

Setting initial values of a component writes the interpolated values of each point to the component's own segment and nothing
else, or throws if they do not fit.
-/

set_option autoImplicit false
set_option linter.unusedSectionVars false

namespace Verif.Initial

open Verif.Json Verif.Interp

variable {K : Type} [Field K] [LinearOrder K] [IsStrictOrderedRing K]

/-! ## Specification -/

/-- The vector holds the values `v`, converted at each point, in the segment of the component. -/
def Holds (c : StateComponent K) (v : IV K) (vector : List K) : Prop :=
  ∀ i < c.points, ∃ x w, eval v ((i : K) * c.dx) = Res.ok x ∧ c.convert x = Res.ok w ∧ w.length = v.inner ∧
    ∀ j < v.inner, vector[c.start + i * v.inner + j]? = w[j]?

/-- The index belongs to the component. -/
def Owns (c : StateComponent K) (k : ℕ) : Prop := c.start ≤ k ∧ k < c.start + c.states

/-- What is read from a json makes sense: at least one point, strictly increasing points and values of the same length. -/
def Proper (v : IV K) : Prop := v.WF ∧ v.points.Pairwise (· < ·) ∧ 0 < v.points.length

/-! ## One component -/

theorem assign_ok {vector w r : List K} {start len : ℕ} (h : assign vector start len w = Res.ok r) :
    r.length = vector.length ∧ w.length = len ∧
    ∀ k, r[k]? = if start ≤ k ∧ k < start + len then w[k - start]? else vector[k]? := by
  unfold assign at h
  split at h
  · next hc =>
    injection h with h
    subst h
    obtain ⟨h1, rfl⟩ := hc
    exact ⟨writeSegment_length h1, rfl, fun k => writeSegment_get h1⟩
  · cases h

theorem setPoints_ok {c : StateComponent K} {v : IV K} {n i : ℕ} {vector r : List K}
    (h : setPoints c v i vector n = Res.ok r) :
    r.length = vector.length ∧
    (∀ m, i ≤ m → m < i + n → ∃ x w, eval v ((m : K) * c.dx) = Res.ok x ∧ c.convert x = Res.ok w ∧ w.length = v.inner ∧
      ∀ j < v.inner, r[c.start + m * v.inner + j]? = w[j]?) ∧
    ∀ k, (k < c.start + i * v.inner ∨ c.start + (i + n) * v.inner ≤ k) → r[k]? = vector[k]? := by
  induction n generalizing i vector with
  | zero =>
    injection h with h
    subst h
    exact ⟨rfl, fun m h1 h2 => by omega, fun _ _ => rfl⟩
  | succ n ih =>
    unfold setPoints at h
    obtain ⟨x, h1, h⟩ := Res.bind_eq_ok.mp h
    obtain ⟨w, h2, h⟩ := Res.bind_eq_ok.mp h
    obtain ⟨vector', h3, h4⟩ := Res.bind_eq_ok.mp h
    obtain ⟨h5, h6, h7⟩ := assign_ok h3
    obtain ⟨h8, h9, h10⟩ := ih h4
    have e1 : (i + 1) * v.inner = i * v.inner + v.inner := by ring
    have e2 : (i + 1 + n) * v.inner = (i + (n + 1)) * v.inner := by ring
    have e3 : i * v.inner + v.inner ≤ (i + (n + 1)) * v.inner := by
      rw [← e1]; exact Nat.mul_le_mul_right _ (by omega)
    refine ⟨h8.trans h5, fun m hm1 hm2 => ?_, fun k hk => ?_⟩
    · by_cases hm : m = i
      · subst hm
        refine ⟨x, w, h1, h2, h6, fun j hj => ?_⟩
        rw [h10 _ (Or.inl (by omega)), h7, if_pos (by omega)]
        congr 1
        omega
      · exact h9 m (by omega) (by omega)
    · rw [h10 k (by rw [e2, e1]; omega), h7, if_neg (by omega)]

/-- C64. Setting the initial values of a component, if it succeeds: the segment of the component holds the converted values at
each point, and all other entries are as before. -/
theorem C64_component {c : StateComponent K} {vector vector' : List K} {json : Json}
    (h : setInitial c vector json = Res.ok vector') :
    ∃ v, c.read json = Res.ok v ∧ v.inner * c.points ≤ c.states ∧ vector'.length = vector.length ∧ Holds c v vector' ∧
      ∀ k, ¬ Owns c k → vector'[k]? = vector[k]? := by
  unfold setInitial at h
  obtain ⟨v, h1, h2⟩ := Res.bind_eq_ok.mp h
  split at h2
  · cases h2
  · next hs =>
    obtain ⟨h3, h4, h5⟩ := setPoints_ok h2
    refine ⟨v, h1, by omega, h3, fun i hi => h4 i (by omega) (by omega), fun k hk => h5 k ?_⟩
    unfold Owns at hk
    rw [zero_add, Nat.mul_comm c.points]
    omega

theorem setPoints_defined {c : StateComponent K} {v : IV K} (hv : Proper v)
    (hc : ∀ x : List K, x.length = v.inner → c.convert x ≠ Res.ub ∧ ∀ w, c.convert x = Res.ok w → w.length = v.inner)
    {n i : ℕ} {vector : List K} (hl : c.start + (i + n) * v.inner ≤ vector.length) :
    setPoints c v i vector n ≠ Res.ub := by
  induction n generalizing i vector with
  | zero => simp [setPoints]
  | succ n ih =>
    unfold setPoints
    obtain ⟨-, h1, h2⟩ := C03_eval_range v hv.1 hv.2.1 hv.2.2 ((i : K) * c.dx)
    cases h : eval v ((i : K) * c.dx) with
    | ub => exact absurd h h1
    | throws => simp
    | ok x =>
      obtain ⟨h3, h4⟩ := hc x (h2 x h)
      cases h' : c.convert x with
      | ub => exact absurd h' h3
      | throws => simp [h']
      | ok w =>
        have e3 : (i + 1) * v.inner ≤ (i + (n + 1)) * v.inner := Nat.mul_le_mul_right _ (by omega)
        have e1 : (i + 1) * v.inner = i * v.inner + v.inner := by ring
        have e2 : (i + 1 + n) * v.inner = (i + (n + 1)) * v.inner := by ring
        have ha : assign vector (c.start + i * v.inner) v.inner w =
            Res.ok (writeSegment vector (c.start + i * v.inner) w) := if_pos ⟨by omega, h4 w h'⟩
        simp only [Res.ok_bind, h', ha]
        refine ih ?_
        rw [writeSegment_length (by rw [h4 w h']; omega), e2]
        exact hl

/-- C64. Setting initial values is never undefined if the segment of the component is in the vector, what is read makes sense and
the converter keeps the length. -/
theorem C64_component_defined {c : StateComponent K} {vector : List K} {json : Json}
    (hr : c.read json ≠ Res.ub) (hv : ∀ v, c.read json = Res.ok v → Proper v)
    (hc : ∀ x, c.convert x ≠ Res.ub ∧ ∀ w, c.convert x = Res.ok w → w.length = x.length)
    (hl : c.start + c.states ≤ vector.length) : setInitial c vector json ≠ Res.ub := by
  unfold setInitial
  cases h : c.read json with
  | ub => exact absurd h hr
  | throws => simp
  | ok v =>
    simp only [Res.ok_bind]
    split
    · simp
    · next hs =>
      refine setPoints_defined (hv v h) (fun x hx => ?_) ?_
      · rw [← hx]; exact hc x
      · rw [zero_add, Nat.mul_comm]; omega

/-- C64. If there are more values than the component has states, an exception is thrown. -/
theorem C64_too_many {c : StateComponent K} {vector : List K} {json : Json} {v : IV K} (h : c.read json = Res.ok v)
    (hs : c.states < v.inner * c.points) : setInitial c vector json = Res.throws := by
  unfold setInitial
  rw [h, Res.ok_bind, if_pos hs]

/-! ## All components -/

/-- The segments of the components are disjoint. -/
def Disjoint (cs : List (StateComponent K)) : Prop := ∀ a ∈ cs, ∀ b ∈ cs, ∀ k, Owns a k → Owns b k → a = b

theorem Holds.congr {c : StateComponent K} {v : IV K} {l l' : List K} (h : Holds c v l) (hs : v.inner * c.points ≤ c.states)
    (he : ∀ k, Owns c k → l'[k]? = l[k]?) : Holds c v l' := by
  intro i hi
  obtain ⟨x, w, h1, h2, h3, h4⟩ := h i hi
  refine ⟨x, w, h1, h2, h3, fun j hj => ?_⟩
  rw [he _ ?_, h4 j hj]
  have e : (i + 1) * v.inner ≤ c.points * v.inner := Nat.mul_le_mul_right _ hi
  have e1 : (i + 1) * v.inner = i * v.inner + v.inner := by ring
  have e2 : c.points * v.inner = v.inner * c.points := by ring
  unfold Owns
  omega

theorem setEntry_ok {cs : List (StateComponent K)} {vector vector' : List K} {e : Json}
    (h : setEntry cs vector e = Res.ok vector') :
    ∃ s, id? e = some s ∧ ((∃ c ∈ cs, c.id = s ∧ setInitial c vector e = Res.ok vector') ∨
      ((∀ c ∈ cs, c.id ≠ s) ∧ vector' = vector)) := by
  unfold setEntry at h
  obtain ⟨i, h1, h2⟩ := Res.bind_eq_ok.mp h
  obtain ⟨s, h3, h4⟩ := Res.bind_eq_ok.mp h2
  have hid : id? e = some s := by
    unfold id?
    cases e with
    | obj m =>
      simp only [index] at h1
      cases hl : m.lookup "id" with
      | none => simp [hl] at h1
      | some v =>
        rw [hl] at h1
        injection h1 with h1
        subst h1
        simp only [find?, hl]
        cases v <;> simp_all [getStr]
    | _ => simp [index] at h1
  refine ⟨s, hid, ?_⟩
  split at h4
  · next c hc =>
    exact Or.inl ⟨c, List.mem_of_find?_eq_some hc, (beq_iff_eq.mp (List.find?_some (p := fun c : StateComponent K => s == c.id) hc)).symm, h4⟩
  · next hc =>
    injection h4 with h4
    refine Or.inr ⟨fun c hc' he => ?_, h4.symm⟩
    have := List.find?_eq_none.mp hc c hc'
    exact this (by rw [he]; simp)

theorem fold_setEntry {cs : List (StateComponent K)} (hi : (cs.map StateComponent.id).Nodup) (hd : Disjoint cs)
    {l : List Json} {vector vector' : List K} (h : Res.fold l vector (setEntry cs) = Res.ok vector') :
    vector'.length = vector.length ∧ (∀ k, (∀ c ∈ cs, ¬ Owns c k) → vector'[k]? = vector[k]?) ∧
    ∀ c ∈ cs, ((∀ e ∈ l, id? e ≠ some c.id) ∧ ∀ k, Owns c k → vector'[k]? = vector[k]?) ∨
      ∃ before e after v, l = before ++ e :: after ∧ id? e = some c.id ∧ (∀ e' ∈ after, id? e' ≠ some c.id) ∧
        c.read e = Res.ok v ∧ v.inner * c.points ≤ c.states ∧ Holds c v vector' := by
  induction l generalizing vector with
  | nil =>
    injection h with h
    subst h
    exact ⟨rfl, fun _ _ => rfl, fun c _ => Or.inl ⟨by simp, fun _ _ => rfl⟩⟩
  | cons e l ih =>
    obtain ⟨vector1, h1, h2⟩ := Res.bind_eq_ok.mp h
    obtain ⟨h3, h4, h5⟩ := ih h2
    obtain ⟨s, hs, h6⟩ := setEntry_ok h1
    have frame : vector1.length = vector.length ∧ (∀ k, (∀ c ∈ cs, c.id = s → ¬ Owns c k) → vector1[k]? = vector[k]?) := by
      rcases h6 with ⟨c, hc, hcs, h7⟩ | ⟨-, rfl⟩
      · obtain ⟨v, -, -, h8, -, h9⟩ := C64_component h7
        exact ⟨h8, fun k hk => h9 k (hk c hc hcs)⟩
      · exact ⟨rfl, fun _ _ => rfl⟩
    refine ⟨h3.trans frame.1, fun k hk => (h4 k hk).trans (frame.2 k fun c hc _ => hk c hc), fun c hc => ?_⟩
    rcases h5 c hc with ⟨h7, h8⟩ | ⟨before, e', after, v, rfl, h8⟩
    · by_cases hcs : c.id = s
      · right
        rcases h6 with ⟨c', hc', hcs', h9⟩ | ⟨h9, -⟩
        · have : c' = c := by
            obtain ⟨a, ha, rfl⟩ := List.getElem_of_mem hc'
            obtain ⟨b, hb, rfl⟩ := List.getElem_of_mem hc
            have := (List.Nodup.getElem_inj_iff hi (i := a) (j := b) (hi := by simpa using ha) (hj := by simpa using hb)).mp
              (by simp [hcs, hcs'])
            subst this
            rfl
          subst this
          obtain ⟨v, h10, h11, -, h12, -⟩ := C64_component h9
          exact ⟨[], e, l, v, rfl, hcs ▸ hs, h7, h10, h11, h12.congr h11 h8⟩
        · exact absurd hcs (h9 c hc)
      · left
        refine ⟨fun e' he' => ?_, fun k hk => (h8 k hk).trans (frame.2 k fun c' hc' hcs' hk' => ?_)⟩
        · rcases List.mem_cons.mp he' with rfl | he'
          · rw [hs]
            exact fun h => hcs (Option.some.inj h).symm
          · exact h7 e' he'
        · exact hcs (hd c hc c' hc' k hk hk' ▸ hcs')
    · exact Or.inr ⟨e :: before, e', after, v, rfl, h8⟩

/-- C64. Setting the initial values of a network, if it succeeds: for each state component there is an entry with its id, and the
segment of the component holds the values of this entry (the last one if there are several). Entries of
the state vector that belong to no component are not changed. -/
theorem C64_network {cs : List (StateComponent K)} (hi : (cs.map StateComponent.id).Nodup) (hd : Disjoint cs)
    {vector vector' : List K} {json : Json} (h : setInitialValues cs vector json = Res.ok vector') :
    vector'.length = vector.length ∧ (∀ k, (∀ c ∈ cs, ¬ Owns c k) → vector'[k]? = vector[k]?) ∧
    ∀ c ∈ cs, ∃ before e after v, components json = before ++ e :: after ∧ id? e = some c.id ∧
      (∀ e' ∈ after, id? e' ≠ some c.id) ∧ c.read e = Res.ok v ∧ v.inner * c.points ≤ c.states ∧ Holds c v vector' := by
  have hm := C47_initial hi h
  unfold setInitialValues at h
  obtain ⟨w, -, h1⟩ := Res.bind_eq_ok.mp h
  obtain ⟨h2, h3, h4⟩ := fold_setEntry hi hd h1
  refine ⟨h2, h3, fun c hc => ?_⟩
  rcases h4 c hc with ⟨h5, -⟩ | h5
  · obtain ⟨e, he, hid⟩ := hm c hc
    exact absurd hid (h5 e he)
  · exact h5

/-- C64. The segments of components whose indices are assigned as in `Networkproblem::init` are disjoint. -/
theorem C64_disjoint {cs : List (StateComponent K)} {needs : List ℕ}
    (hn : cs.map StateComponent.states = needs)
    (hs : cs.map (fun c => (c.start : ℤ)) = (Network.setIndices 0 needs).1.map Prod.fst) : Disjoint cs := by
  have key : ∀ (a : ℕ) (h : a < cs.length), cs[a].start = (needs.take a).sum ∧ cs[a].states = needs[a]'(by
      rw [← hn]; simpa using h) := by
    intro a h
    have hl : a < needs.length := by rw [← hn]; simpa using h
    constructor
    · have h1 : (cs.map (fun c => (c.start : ℤ)))[a]? = ((Network.setIndices 0 needs).1.map Prod.fst)[a]? := by rw [hs]
      rw [List.getElem?_map, List.getElem?_map, List.getElem?_eq_getElem h,
        List.getElem?_eq_getElem (by rw [Network.setIndices_length]; exact hl), Network.setIndices_get 0 needs a hl] at h1
      simp only [Option.map_some, Option.some.injEq, zero_add] at h1
      exact_mod_cast h1
    · subst hn
      simp
  have lt : ∀ (a b : ℕ) (ha : a < cs.length) (hb : b < cs.length), a < b → ∀ k, Owns cs[a] k → ¬ Owns cs[b] k := by
    intro a b ha hb hab k h1 h2
    unfold Owns at h1 h2
    rw [(key a ha).1, (key a ha).2] at h1
    rw [(key b hb).1] at h2
    have hl : a < needs.length := by rw [← hn]; simpa using ha
    have := Network.take_sum_succ needs a hl
    have := Network.take_sum_mono needs (i := a + 1) (j := b) hab
    omega
  intro a ha b hb k h1 h2
  obtain ⟨i, hi, rfl⟩ := List.getElem_of_mem ha
  obtain ⟨j, hj, rfl⟩ := List.getElem_of_mem hb
  rcases Nat.lt_trichotomy i j with h | h | h
  · exact absurd h2 (lt i j hi hj h k h1)
  · subst h; rfl
  · exact absurd h1 (lt j i hj hi h k h2)

/-! ## Controls and bounds -/

/-- The time steps hold the values of `v`, interpolated, in the segment of the component. -/
def HoldsControl (c : ControlComponent K) (v : IV K) (controls : IV K) : Prop :=
  ∀ (i : ℕ) (t : K), controls.points[i]? = some t → ∃ x step, eval v t = Res.ok x ∧ x.length = v.inner ∧
    vectorAtIndex controls i = Res.ok step ∧ ∀ j < v.inner, step[c.start + j]? = x[j]?

/-- Both vectors agree except at the entries with index in a given range of each step. -/
def AgreeOutside (start len : ℕ) (a b : IV K) : Prop :=
  a.points = b.points ∧ a.inner = b.inner ∧ ∀ i < a.points.length, ∃ x y, vectorAtIndex a i = Res.ok x ∧
    vectorAtIndex b i = Res.ok y ∧ x.length = y.length ∧ ∀ k, (k < start ∨ start + len ≤ k) → y[k]? = x[k]?

theorem setTimes_ok {c : ControlComponent K} {v : IV K} {times : List K} {i : ℕ} {u r : IV K} (hwf : u.WF)
    (hl : i + times.length ≤ u.points.length) (h : setTimes c v i u times = Res.ok r) :
    r.WF ∧ r.points = u.points ∧ r.inner = u.inner ∧
    (∀ j t, times[j]? = some t → ∃ x step, eval v t = Res.ok x ∧ x.length = v.inner ∧
      vectorAtIndex r ((i + j : ℕ) : ℤ) = Res.ok step ∧ ∀ k < v.inner, step[c.start + k]? = x[k]?) ∧
    (∀ m : ℕ, m < u.points.length → ∃ x y, vectorAtIndex u m = Res.ok x ∧ vectorAtIndex r m = Res.ok y ∧
      x.length = y.length ∧ ∀ k, (k < c.start ∨ c.start + v.inner ≤ k) → y[k]? = x[k]?) ∧
    ∀ m : ℕ, m < i → m < u.points.length → vectorAtIndex r m = vectorAtIndex u m := by
  induction times generalizing i u with
  | nil =>
    injection h with h
    subst h
    refine ⟨hwf, rfl, rfl, by simp, fun m hm => ?_, fun _ _ _ => rfl⟩
    exact ⟨_, _, vectorAtIndex_ok hwf hm, vectorAtIndex_ok hwf hm, rfl, fun _ _ => rfl⟩
  | cons t times ih =>
    unfold setTimes at h
    obtain ⟨w, h1, h⟩ := Res.bind_eq_ok.mp h
    obtain ⟨old, h2, h⟩ := Res.bind_eq_ok.mp h
    obtain ⟨new, h3, h⟩ := Res.bind_eq_ok.mp h
    obtain ⟨u', h4, h5⟩ := Res.bind_eq_ok.mp h
    simp only [List.length_cons] at hl
    have hi : i < u.points.length := by omega
    obtain ⟨a1, a2, a3⟩ := assign_ok h3
    have hold : old.length = u.inner := by
      rw [vectorAtIndex_ok hwf hi] at h2
      injection h2 with h2
      subst h2
      have := step_le hwf hi
      rw [List.length_take, List.length_drop]
      have e : u.inner * i = i * u.inner := by ring
      omega
    obtain ⟨u'', b1, b2, b3, b4, b5, b6⟩ := writeTimestep_spec u hwf i hi new (a1.trans hold)
    rw [h4] at b1
    injection b1 with b1
    subst b1
    obtain ⟨c1, c2, c3, c4, c5, c6⟩ := ih b2 (by rw [b3]; omega) h5
    refine ⟨c1, c2.trans b3, c3.trans b4, fun j t' ht => ?_, fun m hm => ?_, fun m hm hm' => ?_⟩
    · cases j with
      | zero =>
        simp only [List.getElem?_cons_zero, Option.some.injEq] at ht
        subst ht
        refine ⟨w, new, h1, a2, ?_, fun k hk => ?_⟩
        · rw [show i + 0 = i from rfl, c6 i (by omega) (by rw [b3]; exact hi), b5]
        · rw [a3, if_pos (by omega)]
          congr 1
          omega
      | succ j =>
        simp only [List.getElem?_cons_succ] at ht
        have := c4 j t' ht
        rw [show i + 1 + j = i + (j + 1) by omega] at this
        exact this
    · obtain ⟨x, y, d1, d2, d3, d4⟩ := c5 m (by rw [b3]; exact hm)
      by_cases hmi : m = i
      · subst hmi
        rw [b5] at d1
        injection d1 with d1
        subst d1
        refine ⟨old, y, h2, d2, a1.symm.trans d3, fun k hk => ?_⟩
        rw [d4 k hk, a3, if_neg (by omega)]
      · rw [b6 m hm hmi] at d1
        exact ⟨x, y, d1, d2, d3, d4⟩
    · rw [c6 m (by omega) (by rw [b3]; exact hm'), b6 m hm' (by omega)]

/-- C64. Setting the controls (or bounds) of a component, if it succeeds: at each time point of the controls the segment
of the component holds the interpolated values, and all other entries are as before. -/
theorem C64_controls {c : ControlComponent K} {u u' : IV K} {json : Json} (hwf : u.WF)
    (h : setControl c u json = Res.ok u') :
    ∃ v, c.read json = Res.ok v ∧ HoldsControl c v u' ∧ AgreeOutside c.start v.inner u u' := by
  unfold setControl at h
  obtain ⟨v, h1, h2⟩ := Res.bind_eq_ok.mp h
  obtain ⟨h3, h4, h5, h6, h7, -⟩ := setTimes_ok hwf (by omega) h2
  refine ⟨v, h1, fun i t ht => ?_, h4.symm, h5.symm, h7⟩
  rw [h4] at ht
  have := h6 i t ht
  rw [zero_add] at this
  exact this

/-- The segments of the components, of the given sizes, are disjoint. -/
def DisjointControls (size : ControlComponent K → ℕ) (cs : List (ControlComponent K)) : Prop :=
  ∀ a ∈ cs, ∀ b ∈ cs, ∀ k, a.start ≤ k → k < a.start + size a → b.start ≤ k → k < b.start + size b → a = b

theorem setControl_wf {c : ControlComponent K} {u u' : IV K} {json : Json} (hwf : u.WF)
    (h : setControl c u json = Res.ok u') : u'.WF := by
  unfold setControl at h
  obtain ⟨v, h1, h2⟩ := Res.bind_eq_ok.mp h
  exact (setTimes_ok hwf (by omega) h2).1

theorem setControlEntry_ok {cs : List (ControlComponent K)} {u u' : IV K} {e : Json}
    (h : setControlEntry cs u e = Res.ok u') :
    ∃ s, id? e = some s ∧ ((∃ c ∈ cs, c.id = s ∧ setControl c u e = Res.ok u') ∨ ((∀ c ∈ cs, c.id ≠ s) ∧ u' = u)) := by
  unfold setControlEntry at h
  obtain ⟨i, h1, h2⟩ := Res.bind_eq_ok.mp h
  obtain ⟨s, h3, h4⟩ := Res.bind_eq_ok.mp h2
  have hid : id? e = some s := by
    unfold id?
    cases e with
    | obj m =>
      simp only [index] at h1
      cases hl : m.lookup "id" with
      | none => simp [hl] at h1
      | some v =>
        rw [hl] at h1
        injection h1 with h1
        subst h1
        simp only [find?, hl]
        cases v <;> simp_all [getStr]
    | _ => simp [index] at h1
  refine ⟨s, hid, ?_⟩
  split at h4
  · next c hc =>
    exact Or.inl ⟨c, List.mem_of_find?_eq_some hc,
      (beq_iff_eq.mp (List.find?_some (p := fun c : ControlComponent K => s == c.id) hc)).symm, h4⟩
  · next hc =>
    injection h4 with h4
    refine Or.inr ⟨fun c hc' he => ?_, h4.symm⟩
    have := List.find?_eq_none.mp hc c hc'
    exact this (by rw [he]; simp)

theorem HoldsControl.frame {c c' : ControlComponent K} {v : IV K} {n : ℕ} {u u' : IV K} (h : HoldsControl c v u)
    (ha : AgreeOutside c'.start n u u') (hd : ∀ k, c.start ≤ k → k < c.start + v.inner → k < c'.start ∨ c'.start + n ≤ k) :
    HoldsControl c v u' := by
  obtain ⟨a1, a2, a3⟩ := ha
  intro i t ht
  rw [← a1] at ht
  obtain ⟨x, step, h1, h2, h3, h4⟩ := h i t ht
  obtain ⟨y, z, b1, b2, b3, b4⟩ := a3 i (List.getElem?_eq_some_iff.mp ht).1
  rw [b1] at h3
  injection h3 with h3
  subst h3
  refine ⟨x, z, h1, h2, b2, fun j hj => ?_⟩
  rw [b4 _ (hd _ (by omega) (by omega)), h4 j hj]

/-- C64. Setting the initial controls (or bounds) of a network, if it succeeds: for each control component there is an
entry with its id, and at each time point the segment of the component holds the interpolated values of this entry (the last one
if there are several). The schemas make sure that there are not more values than the component has controls. -/
theorem C64_network_controls {cs : List (ControlComponent K)} {size : ControlComponent K → ℕ}
    (hi : (cs.map ControlComponent.id).Nodup) (hd : DisjointControls size cs)
    (hr : ∀ c ∈ cs, ∀ e v, c.read e = Res.ok v → v.inner ≤ size c) {u u' : IV K} (hwf : u.WF) {json : Json}
    (h : setInitialControls cs u json = Res.ok u') :
    u'.points = u.points ∧ u'.inner = u.inner ∧
    ∀ c ∈ cs, ∃ before e after v, components json = before ++ e :: after ∧ id? e = some c.id ∧
      (∀ e' ∈ after, id? e' ≠ some c.id) ∧ c.read e = Res.ok v ∧ HoldsControl c v u' := by
  have hm := C47_controls hi h
  unfold setInitialControls at h
  obtain ⟨w, -, h1⟩ := Res.bind_eq_ok.mp h
  have unique : ∀ c ∈ cs, ∀ c' ∈ cs, c.id = c'.id → c = c' := by
    intro c hc c' hc' he
    obtain ⟨a, ha, rfl⟩ := List.getElem_of_mem hc
    obtain ⟨b, hb, rfl⟩ := List.getElem_of_mem hc'
    have := (List.Nodup.getElem_inj_iff hi (i := a) (j := b) (hi := by simpa using ha) (hj := by simpa using hb)).mp
      (by simp [he])
    subst this
    rfl
  have frame : ∀ (l : List Json) (u : IV K), u.WF → Res.fold l u (setControlEntry cs) = Res.ok u' →
      u'.points = u.points ∧ u'.inner = u.inner ∧ ∀ c ∈ cs,
        ((∀ e ∈ l, id? e ≠ some c.id) ∧ ∀ v, v.inner ≤ size c → HoldsControl c v u → HoldsControl c v u') ∨
        ∃ before e after v, l = before ++ e :: after ∧ id? e = some c.id ∧ (∀ e' ∈ after, id? e' ≠ some c.id) ∧
          c.read e = Res.ok v ∧ HoldsControl c v u' := by
    intro l
    induction l with
    | nil =>
      intro u _ h
      injection h with h
      subst h
      exact ⟨rfl, rfl, fun c _ => Or.inl ⟨by simp, fun _ _ h => h⟩⟩
    | cons e l ih =>
      intro u hwf h
      obtain ⟨u1, h2, h3⟩ := Res.bind_eq_ok.mp h
      obtain ⟨s, hs, h4⟩ := setControlEntry_ok h2
      have hwf1 : u1.WF := by
        rcases h4 with ⟨c, -, -, h5⟩ | ⟨-, rfl⟩
        · exact setControl_wf hwf h5
        · exact hwf
      obtain ⟨h5, h6, h7⟩ := ih u1 hwf1 h3
      have same : u1.points = u.points ∧ u1.inner = u.inner := by
        rcases h4 with ⟨c, -, -, h8⟩ | ⟨-, rfl⟩
        · obtain ⟨v, -, -, h9, h10, -⟩ := C64_controls hwf h8
          exact ⟨h9.symm, h10.symm⟩
        · exact ⟨rfl, rfl⟩
      refine ⟨h5.trans same.1, h6.trans same.2, fun c hc => ?_⟩
      rcases h7 c hc with ⟨h8, h9⟩ | ⟨before, e', after, v, rfl, h8⟩
      · by_cases hcs : c.id = s
        · right
          rcases h4 with ⟨c', hc', hcs', h10⟩ | ⟨h10, -⟩
          · have := unique c' hc' c hc (hcs'.trans hcs.symm)
            subst this
            obtain ⟨v, h11, h12, -⟩ := C64_controls hwf h10
            exact ⟨[], e, l, v, rfl, hcs ▸ hs, h8, h11, h9 v (hr _ hc e v h11) h12⟩
          · exact absurd hcs (h10 c hc)
        · left
          refine ⟨fun e' he' => ?_, fun v hv hh => h9 v hv ?_⟩
          · rcases List.mem_cons.mp he' with rfl | he'
            · rw [hs]
              exact fun h => hcs (Option.some.inj h).symm
            · exact h8 e' he'
          · rcases h4 with ⟨c', hc', hcs', h10⟩ | ⟨-, rfl⟩
            · obtain ⟨v', h11, -, h12⟩ := C64_controls hwf h10
              refine hh.frame h12 fun k k1 k2 => ?_
              by_contra hk
              have hv' := hr c' hc' e v' h11
              have := hd c hc c' hc' k k1 (by omega) (by omega) (by omega)
              exact hcs (this ▸ hcs')
            · exact hh
      · exact Or.inr ⟨e :: before, e', after, v, rfl, h8⟩
  obtain ⟨h2, h3, h4⟩ := frame _ u hwf h1
  refine ⟨h2, h3, fun c hc => ?_⟩
  rcases h4 c hc with ⟨h5, -⟩ | h5
  · obtain ⟨e, he, hid⟩ := hm c hc
    exact absurd hid (h5 e he)
  · exact h5

/-! ## Examples -/

/-- A component with two points at 0 and 1 with one value each, beginning at index 1; the values are read as 3 and 5 and doubled. -/
def sample : StateComponent ℚ where
  id := "p"
  start := 1
  states := 2
  points := 2
  dx := 1
  convert x := Res.ok (x.map (2 * ·))
  read _ := Res.ok ⟨[0, 1], 1, [3, 5]⟩

example : setInitial sample [7, 7, 7, 7] (obj [("id", str "p")]) = Res.ok [7, 6, 10, 7] := by decide +kernel

example : setInitialValues [sample] [7, 7, 7, 7]
    (obj [("connections", obj [("Pipe", arr [obj [("id", str "p")]])])]) = Res.ok [7, 6, 10, 7] := by
  have h1 : checkComponents ["p"] (obj [("connections", obj [("Pipe", arr [obj [("id", str "p")]])])]) = Res.ok [] := by
    have h : compareIds ["p"] ["p"] = ([], []) := by
      rw [compareIds, if_neg (by decide), if_neg (by decide), compareIds]
    show (if (compareIds ["p"] ["p"]).1.isEmpty then Res.ok (compareIds ["p"] ["p"]).2 else _) = _
    rw [h]
    rfl
  unfold setInitialValues
  show (checkComponents ["p"] _).bind _ = _
  rw [h1]
  decide +kernel

example : Disjoint [sample] := by
  intro a ha b hb k _ _
  simp only [List.mem_cons, List.not_mem_nil, or_false] at ha hb
  rw [ha, hb]

example : setControl ⟨"c", 1, fun _ => Res.ok ⟨[0, 2], 1, [3, 5]⟩⟩ (⟨[0, 1], 2, [0, 0, 0, 0]⟩ : IV ℚ) null =
    Res.ok ⟨[0, 1], 2, [0, 3, 0, 4]⟩ := by decide +kernel

end Verif.Initial
