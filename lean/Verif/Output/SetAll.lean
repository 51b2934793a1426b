import Verif.Initial.Check
import Verif.Initial.Props

/-!
# Setting all controls

Lemmas for C81 and C116: if a file has an entry for each control component and the values of the entries are those of a vector of
controls, then setting the controls gives this vector.
-/

set_option autoImplicit false

namespace Verif.Output

open Verif.Json Verif.Interp Verif.Initial

variable {K : Type} [Field K] [LinearOrder K] [IsStrictOrderedRing K]

omit [LinearOrder K] [IsStrictOrderedRing K] in
theorem getD_some' {l : List K} {i : ℕ} (h : i < l.length) : l[i]? = some (l.getD i 0) := by
  simp [List.getD, h]

theorem step_get {v : IV K} (hwf : v.WF) {i : ℕ} (hi : i < v.points.length) : ∃ x, vectorAtIndex v (i : ℤ) = Res.ok x ∧
    x.length = v.inner ∧ ∀ k < v.inner, x[k]? = some (v.values.getD (i * v.inner + k) 0) := by
  have h := step_le hwf hi
  refine ⟨_, vectorAtIndex_ok hwf hi, by simp; omega, fun k hk => ?_⟩
  rw [List.getElem?_take, if_pos hk, List.getElem?_drop, getD_some' (by omega)]

/-- Both have the same values at one index for all time points. -/
def SameAt (k : ℕ) (u target : IV K) : Prop :=
  ∀ i < target.points.length, ∃ x y, vectorAtIndex u (i : ℤ) = Res.ok x ∧ vectorAtIndex target (i : ℤ) = Res.ok y ∧ x[k]? = y[k]?

theorem setTimes_defined {c : ControlComponent K} {v : IV K} {times : List K} {i : ℕ} {u : IV K} (hwf : u.WF)
    (hl : i + times.length ≤ u.points.length) (hc : c.start + v.inner ≤ u.inner)
    (hv : ∀ t ∈ times, ∃ x, eval v t = Res.ok x ∧ x.length = v.inner) : ∃ r, setTimes c v i u times = Res.ok r := by
  induction times generalizing i u with
  | nil => exact ⟨u, rfl⟩
  | cons t times ih =>
    simp only [List.length_cons] at hl
    obtain ⟨x, h1, h2⟩ := hv t (by simp)
    obtain ⟨old, h3, h4, -⟩ := step_get hwf (i := i) (by omega)
    have h5 : assign old c.start v.inner x = Res.ok (writeSegment old c.start x) := by
      rw [assign, if_pos ⟨by omega, h2⟩]
    obtain ⟨u', h6, h7, h8, h9, -⟩ := writeTimestep_spec u hwf i (by omega) (writeSegment old c.start x)
      ((assign_ok h5).1.trans h4)
    obtain ⟨r, h10⟩ := ih (i := i + 1) h7 (by rw [h8]; omega) (by rw [h9]; exact hc) fun t' ht' => hv t' (by simp [ht'])
    exact ⟨r, by simp only [setTimes, h1, h3, h5, h6, h10, Res.ok_bind]⟩

/-- What a component reads from the entry are the values of the controls at its indices. -/
def ReadsTarget (c : ControlComponent K) (number : ℕ) (target : IV K) (e : Json) : Prop :=
  ∃ v, c.read e = Res.ok v ∧ v.inner = number ∧ ∀ i (hi : i < target.points.length), eval v target.points[i] =
    Res.ok ((List.range number).map fun k => target.values.getD (i * target.inner + c.start + k) 0)

/-- Setting the controls of one component from its output. -/
theorem setControl_target {c : ControlComponent K} {number : ℕ} {target u : IV K} {e : Json} (hwt : target.WF) (hwf : u.WF)
    (hp : u.points = target.points) (hin : u.inner = target.inner) (hc : c.start + number ≤ target.inner)
    (he : ReadsTarget c number target e) :
    ∃ u', setControl c u e = Res.ok u' ∧ u'.WF ∧ u'.points = target.points ∧
      u'.inner = target.inner ∧ (∀ k, SameAt k u target → SameAt k u' target) ∧
      ∀ k, c.start ≤ k → k < c.start + number → SameAt k u' target := by
  obtain ⟨v, hr, hv, heval⟩ := he
  obtain ⟨u', h7⟩ := setTimes_defined (c := c) (v := v) (times := u.points) (i := 0) hwf (by omega)
    (by rw [hv, hin]; exact hc) (by
      intro t ht
      rw [hp] at ht
      obtain ⟨i, hi, rfl⟩ := List.getElem_of_mem ht
      exact ⟨_, heval i hi, by simp [hv]⟩)
  obtain ⟨g1, g2, g3, g4, g5, -⟩ := setTimes_ok hwf (by omega) h7
  have hnew : ∀ k, c.start ≤ k → k < c.start + number → SameAt k u' target := by
    intro k hk1 hk2 i hi
    obtain ⟨x, step, e1, e2, e3, e4⟩ := g4 i target.points[i] (by rw [hp, List.getElem?_eq_getElem hi])
    rw [heval i hi] at e1
    injection e1 with e1
    obtain ⟨y, f1, f2, f3⟩ := step_get hwt hi
    rw [zero_add] at e3
    refine ⟨step, y, e3, f1, ?_⟩
    have := e4 (k - c.start) (by rw [hv]; omega)
    rw [show c.start + (k - c.start) = k from by omega] at this
    rw [this, f3 k (by omega), ← e1, List.getElem?_map, List.getElem?_range (by omega)]
    simp only [Option.map_some, Option.some.injEq]
    congr 1
    omega
  refine ⟨u', ?_, g1, g2.trans hp, g3.trans hin, fun k hk => ?_, hnew⟩
  · rw [setControl, hr, Res.ok_bind, h7]
  · by_cases hin' : c.start ≤ k ∧ k < c.start + number
    · exact hnew k hin'.1 hin'.2
    · intro i hi
      obtain ⟨x, y, e1, e2, e3⟩ := hk i hi
      obtain ⟨x', z, e4, e5, -, e6⟩ := g5 i (by rw [hp]; exact hi)
      rw [e1] at e4
      injection e4 with e4
      subst e4
      refine ⟨z, y, e5, e2, ?_⟩
      rw [e6 k (by rw [hv]; omega), e3]

theorem eq_of_sameAt {u target : IV K} (hw : u.WF) (hwt : target.WF) (hp : u.points = target.points)
    (hin : u.inner = target.inner) (h : ∀ k < target.inner, SameAt k u target) : u = target := by
  have hv : u.values = target.values := by
    refine List.ext_getElem? fun n => ?_
    by_cases hn : n < target.values.length
    · have hwt' := hwt
      unfold IV.WF at hwt'
      have hpos : 0 < target.inner := by
        rcases Nat.eq_zero_or_pos target.inner with h0 | h0
        · rw [h0, Nat.mul_zero] at hwt'; omega
        · exact h0
      have hi : n / target.inner < target.points.length := by
        rw [Nat.div_lt_iff_lt_mul hpos]; omega
      obtain ⟨x, y, h1, h2, h3⟩ := h _ (Nat.mod_lt n hpos) _ hi
      obtain ⟨x', e1, -, e2⟩ := step_get hw (i := n / target.inner) (by rw [hp]; exact hi)
      obtain ⟨y', e3, -, e4⟩ := step_get hwt hi
      rw [h1] at e1
      injection e1 with e1
      subst e1
      rw [h2] at e3
      injection e3 with e3
      subst e3
      rw [e2 _ (by rw [hin]; exact Nat.mod_lt n hpos), e4 _ (Nat.mod_lt n hpos), hin] at h3
      have hd : n / target.inner * target.inner + n % target.inner = n := Nat.div_add_mod' n _
      rw [hd] at h3
      have hl : u.values.length = target.values.length := by
        rw [hw, hwt, hp, hin]
      rw [getD_some' hn, getD_some' (by omega), h3]
    · have hl : u.values.length = target.values.length := by
        rw [hw, hwt, hp, hin]
      rw [List.getElem?_eq_none (by omega), List.getElem?_eq_none (by omega)]
  cases u
  cases target
  simp_all

/-- Setting all controls from a file whose entries are those of the components. -/
theorem setInitialControls_target {cs : List (ControlComponent K)} (hids : (cs.map ControlComponent.id).Nodup)
    {number : ControlComponent K → ℕ} {target : IV K} (hwf : target.WF) (hc : ∀ c ∈ cs, c.start + number c ≤ target.inner)
    (hcover : ∀ k < target.inner, ∃ c ∈ cs, c.start ≤ k ∧ k < c.start + number c) {j : Json}
    (hcomp : ∀ e ∈ components j, ∃ c ∈ cs, e.find? "id" = some (str c.id) ∧ ReadsTarget c (number c) target e)
    (hentry : ∀ c ∈ cs, ∃ e ∈ components j, id? e = some c.id) {u : IV K} (hu : u.WF) (hp : u.points = target.points)
    (hin : u.inner = target.inner) : setInitialControls cs u j = Res.ok target := by
  have huniq : ∀ a ∈ cs, ∀ b ∈ cs, a.id = b.id → a = b := fun a ha b hb h => List.inj_on_of_nodup_map hids ha hb h
  have hcheck : ∃ w, checkComponents (cs.map ControlComponent.id) j = Res.ok w := by
    obtain ⟨g1, g2, -⟩ := C47_missing hids j
    cases hk : checkComponents (cs.map ControlComponent.id) j with
    | ok w => exact ⟨w, rfl⟩
    | ub => exact absurd hk g1
    | throws =>
      rcases g2.mp hk with h | ⟨id, hid, h⟩
      · exact absurd (fun e he => by obtain ⟨c, _, h, _⟩ := hcomp e he; exact ⟨c.id, by rw [id?, h]⟩) h
      · obtain ⟨c, hcm, rfl⟩ := List.mem_map.mp hid
        exact absurd (hentry c hcm) h
  have loop : ∀ (l : List Json) (u : IV K), (∀ e ∈ l, e ∈ components j) → u.WF → u.points = target.points →
      u.inner = target.inner → ∃ u', Res.fold l u (setControlEntry cs) = Res.ok u' ∧
        u'.WF ∧ u'.points = target.points ∧ u'.inner = target.inner ∧ (∀ k, SameAt k u target → SameAt k u' target) ∧
        ∀ e ∈ l, ∀ c ∈ cs, id? e = some c.id → ∀ k, c.start ≤ k → k < c.start + number c → SameAt k u' target := by
    intro l
    induction l with
    | nil => exact fun u _ h1 h2 h3 => ⟨u, rfl, h1, h2, h3, fun _ h => h, by simp⟩
    | cons e l ih =>
      intro u hl hu hp hin
      obtain ⟨c, hcm, hfid, hio⟩ := hcomp e (hl e (by simp))
      have hid : id? e = some c.id := by rw [id?, hfid]
      obtain ⟨u1, a1, a2, a3, a4, a5, a6⟩ := setControl_target hwf hu hp hin (hc c hcm) hio
      obtain ⟨u2, b1, b2, b3, b4, b5, b6⟩ := ih u1 (fun e' he' => hl e' (by simp [he'])) a2 a3 a4
      have hfind : cs.find? (fun d => c.id == d.id) = some c := by
        cases hf : cs.find? (fun d => c.id == d.id) with
        | none => exact absurd (List.find?_eq_none.mp hf c hcm) (by simp)
        | some d =>
          have h5 : c.id = d.id := by simpa using List.find?_some hf
          rw [huniq c hcm d (List.mem_of_find?_eq_some hf) h5]
      have hstep : setControlEntry cs u e = Res.ok u1 := by
        unfold setControlEntry
        rw [index_of_find hfid]
        simp only [Res.ok_bind, getStr, hfind, a1]
      refine ⟨u2, by simp only [Res.fold, hstep, Res.ok_bind, b1], b2, b3, b4, fun k hk => b5 k (a5 k hk), ?_⟩
      intro e' he' c' hc' hid' k hk1 hk2
      rcases List.mem_cons.mp he' with rfl | he'
      · rw [hid] at hid'
        obtain rfl := huniq c hcm c' hc' (by injection hid')
        exact b5 k (a6 k hk1 hk2)
      · exact b6 e' he' c' hc' hid' k hk1 hk2
  obtain ⟨w, hw⟩ := hcheck
  obtain ⟨u', a1, a2, a3, a4, -, a5⟩ := loop (components j) u (fun _ h => h) hu hp hin
  rw [setInitialControls, hw, Res.ok_bind, a1]
  congr 1
  refine eq_of_sameAt a2 hwf a3 a4 fun k hk => ?_
  obtain ⟨c, hcm, hk1, hk2⟩ := hcover k hk
  obtain ⟨e, he, hid⟩ := hentry c hcm
  exact a5 e he c hcm hid k hk1 hk2

end Verif.Output
