import Verif.Editor.Defaults

/-!
# The generated schemas of one type, and the validation by the program

The program validates an entry of the topology together with its boundary values, editors see these in two files.
-/

set_option autoImplicit false

namespace Verif.Editor

open Verif.Json Verif.Factory Verif.Schema Verif.Read

theorem each_exists {α β : Type} {f : α → Res β} : ∀ {l : List α}, (∀ a ∈ l, ∃ b, f a = Res.ok b) →
    ∃ r, Res.each l f = Res.ok r
  | [], _ => ⟨[], rfl⟩
  | a :: l, h => by
    obtain ⟨b, hb⟩ := h a (by simp)
    obtain ⟨r, hr⟩ := each_exists fun a' ha' => h a' (List.mem_cons_of_mem _ ha')
    exact ⟨b :: r, Res.each_eq_ok.mpr (.cons hb (Res.each_eq_ok.mp hr))⟩

theorem set_exists {j : Json} (h : j.isObj = true) (k : String) (v : Json) : ∃ j', j.set k v = Res.ok j' := by
  cases j with
  | obj m => exact ⟨_, rfl⟩
  | _ => cases h

/-! ## Removing always works -/

theorem removes_level {s : Json} {ps : List (String × Json)} (hs : ObjectSchema s ps)
    (h : ∀ x ∈ ps, ∃ y, removeDefaults x.2 = Res.ok y) : ∃ s', removeDefaults s = Res.ok s' := by
  have h1 : ∃ s1, pruneLevel s (obj ps) = Res.ok s1 ∧ s1.isObj = true := by
    unfold pruneLevel
    cases hr : s.find? "required" with
    | none => exact ⟨s, rfl, hs.isObj⟩
    | some r =>
      obtain ⟨l, rfl, hl⟩ := hs.required r hr
      have : ∃ r', pruneRequired (obj ps) (arr l) = Res.ok r' := by
        simp only [pruneRequired]
        rw [if_pos (firstIsStr_of hl)]
        obtain ⟨l', hl'⟩ := each_exists (l := l) (f := fun r => do
          let k ← r.getStr
          if (obj ps).isObj then
            Res.ok (if (((obj ps).find? k).getD (obj [])).contains "default" then [] else [r])
          else Res.throws) (by
            intro a ha
            obtain ⟨k, rfl⟩ := hl a ha
            exact ⟨_, rfl⟩)
        exact ⟨_, by rw [hl', Res.ok_bind]⟩
      obtain ⟨r', h2⟩ := this
      obtain ⟨s1, h3⟩ := set_exists hs.isObj "required" r'
      exact ⟨s1, by simp only [h2]; exact h3, set_result h3⟩
  obtain ⟨s1, h1, h2⟩ := h1
  obtain ⟨ps', h3⟩ := each_exists (l := ps) (f := fun x => (removeDefaults x.2).bind fun v => Res.ok (x.1, v)) (by
    intro x hx
    obtain ⟨y, hy⟩ := h x hx
    exact ⟨(x.1, y), by rw [hy]; rfl⟩)
  obtain ⟨s', h4⟩ := set_exists h2 "properties" (obj ps')
  refine ⟨s', ?_⟩
  rw [removeDefaults_eq, hs.nested]
  simp only [h1, removeAll, h3]
  exact h4

theorem removes_added {D : Json} {ps ps1 : List (String × Json)}
    (hf : ∀ x ∈ ps, ∀ y, addStep D x = Res.ok y → ∃ z, removeDefaults y.2 = Res.ok z)
    (h : List.Forall₂ (fun x y => addStep D x = Res.ok y) ps ps1) : ∀ y ∈ ps1, ∃ z, removeDefaults y.2 = Res.ok z := by
  intro y hy
  obtain ⟨x, hx, hxy⟩ := forall₂_mem_right h hy
  exact hf x hx y hxy

theorem Form.removes {s : Json} (h : Form s) : ∀ D k y, addStep D (k, s) = Res.ok y →
    ∃ z, removeDefaults y.2 = Res.ok z := by
  induction h with
  | leaf s hnest ht hd hn =>
    intro D k y hadd
    obtain ⟨-, -, -, h4, h5⟩ := addStep_ok hadd
    have : nested? y.2 = none := by
      cases hD : D.find? k with
      | none => rw [h4 hD]; exact hnest
      | some dv => exact (h5 dv hD).2.1 hnest
    exact ⟨y.2, by rw [removeDefaults_eq, this]⟩
  | object s ps hs hn hp ih =>
    intro D k y hadd
    have hf : ∀ D', ∀ x ∈ ps, ∀ y, addStep D' x = Res.ok y → ∃ z, removeDefaults y.2 = Res.ok z := by
      intro D' x hx y hy
      exact ih x.1 x.2 (lookup_of_mem hs.keys hx) D' x.1 y hy
    obtain ⟨-, -, -, h4, h5⟩ := addStep_ok hadd
    cases hD : D.find? k with
    | none =>
      rw [h4 hD]
      refine removes_level hs (removes_added (hf (obj [])) (List.forall₂_same.mpr fun x hx => addStep_empty ?_))
      exact (hp x.1 x.2 (lookup_of_mem hs.keys hx)).contains_type
    | some dv =>
      obtain ⟨-, -, h7⟩ := h5 dv hD
      obtain ⟨hdo, p', h8, h9⟩ := h7 (obj ps) hs.nested
      obtain ⟨ps1, rfl, hadd'⟩ := addUnsafe_ok h8
      unfold addStep at hadd
      rw [if_pos (by simp [contains, hs.type])] at hadd
      simp only [hD] at hadd
      obtain ⟨def1, h10, h11⟩ := Res.bind_eq_ok.mp hadd
      have ht : def1.index "type" = Res.ok (str "object") := by
        rw [index_eq_ok, find_set h10, if_neg (by decide), hs.type]
      rw [ht, Res.ok_bind, if_pos (by rfl), hs.props] at h11
      simp only [hdo, if_true, h8, Res.ok_bind] at h11
      obtain ⟨def2, h12, h13⟩ := Res.bind_eq_ok.mp h11
      injection h13 with h13
      subst h13
      have hs1 : ObjectSchema def2 ps1 := (hs.set_default h10).set_properties (added_keys hadd' ▸ hs.keys) h12
      exact removes_level hs1 (removes_added (hf dv) hadd')

/-! ## Without defaults nothing changes -/

theorem each_same {α : Type} {f : α → Res α} : ∀ {l : List α}, (∀ a ∈ l, f a = Res.ok a) → Res.each l f = Res.ok l
  | [], _ => rfl
  | a :: l, h => Res.each_eq_ok.mpr (.cons (h a (by simp)) (Res.each_eq_ok.mp (each_same fun a' ha' =>
      h a' (List.mem_cons_of_mem _ ha'))))

theorem prune_same {ps : List (String × Json)} (hd : ∀ k d, ps.lookup k = some d → d.find? "default" = none) {l : List Json}
    (hl : ∀ x ∈ l, ∃ k, x = str k) : pruneRequired (obj ps) (arr l) = Res.ok (arr l) := by
  simp only [pruneRequired]
  rw [if_pos (firstIsStr_of hl)]
  have : ∀ l' : List Json, (∀ x ∈ l', ∃ k, x = str k) → Res.each l' (fun r => do
      let k ← r.getStr
      if (obj ps).isObj then
        Res.ok (if (((obj ps).find? k).getD (obj [])).contains "default" then [] else [r])
      else Res.throws) = Res.ok (l'.map fun r => [r]) := by
    intro l' h'
    induction l' with
    | nil => rfl
    | cons a l' ih =>
      refine Res.each_eq_ok.mpr (.cons ?_ (Res.each_eq_ok.mp (ih fun x hx => h' x (by simp [hx]))))
      obtain ⟨k, rfl⟩ := h' a (by simp)
      show Res.ok (if (((obj ps).find? k).getD (obj [])).contains "default" then [] else [str k]) = _
      rw [if_neg]
      cases hk : (obj ps).find? k with
      | none => simp [contains, find?]
      | some d => simp [contains, hd k d hk]
  rw [this l hl, Res.ok_bind]
  have flat : ∀ l' : List Json, (l'.map fun r => [r]).flatten = l' := by
    intro l'
    induction l' with
    | nil => rfl
    | cons a l' ih => simp [ih]
  rw [flat]

theorem Form.removes_same {s : Json} (h : Form s) : removeDefaults s = Res.ok s := by
  induction h with
  | leaf s hnest ht hd hn => rw [removeDefaults_eq, hnest]
  | object s ps hs hn hp ih =>
    rw [removeDefaults_eq, hs.nested]
    have h1 : pruneLevel s (obj ps) = Res.ok s := by
      unfold pruneLevel
      cases hr : s.find? "required" with
      | none => rfl
      | some r =>
        obtain ⟨l, rfl, hl⟩ := hs.required r hr
        simp only [prune_same (fun k d hk => (hp k d hk).no_default) hl]
        exact set_same hr
    have h2 : removeAll (obj ps) = Res.ok (obj ps) := by
      simp only [removeAll]
      rw [each_same]
      · rfl
      intro x hx
      rw [ih x.1 x.2 (lookup_of_mem hs.keys hx)]
      rfl
    simp only [h1, h2]
    exact set_same hs.props

theorem adds_none {s : Json} {ps : List (String × Json)} (hs : ObjectSchema s ps)
    (hp : ∀ k d, ps.lookup k = some d → Form d) : addDefaults s (obj []) = Res.ok s := by
  unfold addDefaults
  rw [hs.type, hs.props]
  show (addUnsafe (obj ps) (obj [])).bind _ = _
  rw [addUnsafe_obj]
  simp only [items, List.any_nil, Bool.false_eq_true, if_false]
  rw [each_same fun x hx => addStep_empty (hp x.1 x.2 (lookup_of_mem hs.keys hx)).contains_type]
  exact set_same hs.props

/-! ## Adding defaults -/

theorem addDefaults_ok {s s1 D : Json} {ps : List (String × Json)} (hs : ObjectSchema s ps)
    (h : addDefaults s D = Res.ok s1) : D.isObj = true ∧ (∀ x ∈ D.items, (obj ps).contains x.1 = true) ∧
    ∃ ps1, ObjectSchema s1 ps1 ∧ (∀ k, k ≠ "properties" → s1.find? k = s.find? k) ∧
      List.Forall₂ (fun x y => addStep D x = Res.ok y) ps ps1 := by
  unfold addDefaults at h
  rw [hs.type, hs.props] at h
  simp only at h
  split at h
  · next hc =>
    obtain ⟨p, h1, h2⟩ := Res.bind_eq_ok.mp h
    obtain ⟨ps1, rfl, h3⟩ := addUnsafe_ok h1
    refine ⟨(Bool.and_eq_true_iff.mp hc).2, ?_, ps1, hs.set_properties (added_keys h3 ▸ hs.keys) h2,
      fun k hk => by rw [find_set h2, if_neg hk], h3⟩
    rw [addUnsafe_obj] at h1
    split at h1
    · cases h1
    · next hn =>
      intro x hx
      by_contra hne
      exact hn (List.any_eq_true.mpr ⟨x, hx, by simpa using hne⟩)
  · cases h

theorem addDefaults_exists {s D : Json} {ps : List (String × Json)} (hs : ObjectSchema s ps) (hD : D.isObj = true)
    (hk : ∀ x ∈ D.items, (obj ps).contains x.1 = true) (hp : ∀ x ∈ ps, ∃ y, addStep D x = Res.ok y) :
    ∃ s1, addDefaults s D = Res.ok s1 := by
  obtain ⟨ps1, h1⟩ := each_exists hp
  obtain ⟨s1, h2⟩ := set_exists hs.isObj "properties" (obj ps1)
  refine ⟨s1, ?_⟩
  unfold addDefaults
  rw [hs.type, hs.props]
  simp only
  rw [if_pos (by simp [hD, isStr]), addUnsafe_obj, if_neg, h1]
  · exact h2
  · intro hany
    obtain ⟨x, hx, hne⟩ := List.any_eq_true.mp hany
    rw [hk x hx] at hne
    cases hne

theorem addRequired_ok {s s' v : Json} {name : String} {ps : List (String × Json)} (hs : ObjectSchema s ps)
    (h : addRequired s name v = Res.ok s') : ∃ ps', ObjectSchema s' ps' ∧
      (∀ k, ps'.lookup k = if k = name then some v else ps.lookup k) ∧ (∀ k, Requires s' k ↔ Requires s k ∨ k = name) ∧
      ∀ k, k ≠ "required" → k ≠ "properties" → s'.find? k = s.find? k := by
  unfold addRequired at h
  obtain ⟨r, h1, hA⟩ := Res.bind_eq_ok.mp h
  obtain ⟨s1, h2, hB⟩ := Res.bind_eq_ok.mp hA
  obtain ⟨p, h3, h4⟩ := Res.bind_eq_ok.mp hB
  clear h hA hB
  have f1 := find_set h2
  have f2 := find_set h4
  rw [f1, if_neg (by decide), hs.props] at h3
  have h3' : p = obj (insert name v ps) := by
    simp only [Option.getD_some, Json.set, Res.ok.injEq] at h3
    exact h3.symm
  subst h3'
  have hr : ∃ l0 : List Json, (∀ k, Requires s k ↔ str k ∈ l0) ∧ r = arr (l0 ++ [str name]) ∧
      ∀ x ∈ l0, ∃ k, x = str k := by
    cases hq : s.find? "required" with
    | none =>
      rw [hq] at h1
      simp only [Option.getD_none, pushName, Res.ok.injEq] at h1
      exact ⟨[], fun k => by simp [Requires, hq], by simpa using h1.symm, by simp⟩
    | some r0 =>
      obtain ⟨l, rfl, hl⟩ := hs.required r0 hq
      rw [hq] at h1
      simp only [Option.getD_some, pushName, Res.ok.injEq] at h1
      exact ⟨l, fun k => by simp [Requires, hq], h1.symm, hl⟩
  obtain ⟨l0, hl0, rfl, hstr⟩ := hr
  refine ⟨insert name v ps, ⟨set_result h4, (hs.distinct.set h2).set h4, ?_, ?_, ?_, ?_, ?_⟩, ?_, ?_, ?_⟩
  · rw [f2, if_neg (by decide), f1, if_neg (by decide), hs.type]
  · rw [f2, if_pos rfl]
  · intro r' hr'
    rw [f2, if_neg (by decide), f1, if_pos rfl] at hr'
    injection hr' with hr'
    refine ⟨_, hr'.symm, ?_⟩
    intro x hx
    rcases List.mem_append.mp hx with hx | hx
    · exact hstr x hx
    · exact ⟨name, by simpa using hx⟩
  · intro k hk
    rw [f2, if_neg (by rintro rfl; revert hk; decide), f1, if_neg (by rintro rfl; revert hk; decide)]
    exact hs.others k hk
  · have : DistinctKeys (obj (insert name v ps)) :=
      DistinctKeys.set (j := obj ps) (fun m hm => by injection hm with hm; exact hm ▸ hs.keys) h3
    exact this _ rfl
  · intro k
    have := find_set h3 k
    simpa [find?] using this
  · intro k
    have : Requires s' k ↔ str k ∈ l0 ++ [str name] := by
      unfold Requires
      rw [f2, if_neg (by decide), f1, if_pos rfl]
      simp
    rw [this, hl0]
    simp
  · intro k hk1 hk2
    rw [f2, if_neg hk2, f1, if_neg hk1]

theorem addRequired_exists {s v : Json} {name : String} {ps : List (String × Json)} (hs : ObjectSchema s ps) :
    ∃ s', addRequired s name v = Res.ok s' := by
  have h1 : ∃ r, pushName name ((s.find? "required").getD null) = Res.ok r := by
    cases hq : s.find? "required" with
    | none => exact ⟨_, rfl⟩
    | some r0 =>
      obtain ⟨l, rfl, hl⟩ := hs.required r0 hq
      exact ⟨_, rfl⟩
  obtain ⟨r, h1⟩ := h1
  obtain ⟨s1, h2⟩ := set_exists hs.isObj "required" r
  obtain ⟨s', h3⟩ := set_exists (set_result h2) "properties" (obj (insert name v ps))
  refine ⟨s', ?_⟩
  unfold addRequired
  rw [h1, Res.ok_bind, h2, Res.ok_bind, find_set h2, if_neg (by decide), hs.props]
  exact h3

/-! ## One type -/

/-- The schema of a type in the topology. -/
structure TypeForm (s : Json) (ps : List (String × Json)) : Prop where
  object : ObjectSchema s ps
  forms : ∀ k d, ps.lookup k = some d → Form d
  noValues : ps.lookup "boundary_values" = none
  notRequired : ¬ Requires s "boundary_values"
  additional : s.find? "additionalProperties" = none

/-- The defaults of a type are values that the schemas of the keys accept. -/
def ValidDefaults (ps : List (String × Json)) (D : Json) : Prop :=
  ∀ k d v, ps.lookup k = some d → D.find? k = some v → accepts d v = true

/-- What is known after generation, for the schema with or without boundary values. -/
theorem applied_iff {s s1 s2 D : Json} {ps : List (String × Json)} (hs : ObjectSchema s ps)
    (hp : ∀ k d, ps.lookup k = some d → Form d) (h1 : addDefaults s D = Res.ok s1) (h2 : removeDefaults s1 = Res.ok s2) :
    (∀ x x', x.isObj = true → applyDefaults s1 x = Res.ok x' → accepts s1 x' = true → accepts s2 x = true) ∧
    (ValidDefaults ps D → ∀ x, accepts s2 x = true → ∃ x', applyDefaults s1 x = Res.ok x' ∧ accepts s1 x' = true) := by
  obtain ⟨-, -, ps1, hs1, hsame, hadd⟩ := addDefaults_ok hs h1
  obtain ⟨o1, o2, o3⟩ := object_level hs (fun k d hk => ⟨(hp k d hk).works, hp k d hk⟩) hs1 (fun k hk _ => hsame k hk) hadd h2
  have happ : ∀ x, applyDefaults s1 x = applyUnsafe (obj ps1) x := by
    intro x
    unfold applyDefaults
    rw [hs1.type, hs1.props]
    rfl
  constructor
  · intro x x' hx ha hacc
    rw [happ] at ha
    rw [o1] at hacc
    exact o2 x x' hx ha hacc
  · intro hv x hx
    obtain ⟨-, x', h3, h4⟩ := o3 hv x hx
    exact ⟨x', by rw [happ, h3], by rw [o1, h4]⟩

/-- The required keys and the definitions after generation. -/
theorem generated {s s1 s2 D : Json} {ps : List (String × Json)} (hs : ObjectSchema s ps)
    (hp : ∀ k d, ps.lookup k = some d → Form d) (h1 : addDefaults s D = Res.ok s1) (h2 : removeDefaults s1 = Res.ok s2) :
    ∃ ps2, ObjectSchema s2 ps2 ∧ s2.find? "additionalProperties" = s.find? "additionalProperties" ∧
      (∀ k, ps.lookup k = none → ps2.lookup k = none) ∧
      (∀ k d, ps.lookup k = some d → ∃ d1 d2, addStep D (k, d) = Res.ok (k, d1) ∧ removeDefaults d1 = Res.ok d2 ∧
        ps2.lookup k = some d2) ∧
      ∀ k, Requires s2 k ↔ Requires s k ∧ ¬ ((ps.lookup k).isSome ∧ (D.find? k).isSome) := by
  obtain ⟨-, -, ps1, hs1, hsame, hadd⟩ := addDefaults_ok hs h1
  obtain ⟨ps2, hs2, hrm, hreq, haddl⟩ := removed_object hs1 h2
  refine ⟨ps2, hs2, by rw [haddl, hsame _ (by decide)], ?_, ?_, ?_⟩
  · intro k hk
    rw [lookup_none_iff] at hk ⊢
    rwa [removed_keys hrm, added_keys hadd]
  · intro k d hk
    obtain ⟨d1, h3, h4⟩ := lookup_added hadd hk
    obtain ⟨d2, h5, h6⟩ := lookup_removed hrm h3
    exact ⟨d1, d2, h4, h6, h5⟩
  · intro k
    rw [hreq]
    have hr : Requires s1 k ↔ Requires s k := by unfold Requires; rw [hsame "required" (by decide)]
    have hd : HasDefault (obj ps1) k ↔ ((ps.lookup k).isSome ∧ (D.find? k).isSome) := by
      unfold HasDefault
      constructor
      · rintro ⟨v, hv, hc⟩
        obtain ⟨d, hd⟩ := lookup_some_of_keys (added_keys hadd).symm hv
        refine ⟨by simp [hd], ?_⟩
        obtain ⟨d1, h3, h4⟩ := lookup_added hadd hd
        have e : d1 = v := by
          have hv : ps1.lookup k = some v := hv
          rw [hv] at h3; injection h3 with h3; exact h3.symm
        subst e
        cases hD : D.find? k with
        | some w => rfl
        | none =>
          have := (addStep_ok h4).2.2.2.1 hD
          injection this with _ this
          subst this
          simp [contains, (hp k _ hd).no_default] at hc
      · rintro ⟨h3, h4⟩
        obtain ⟨d, hd⟩ := Option.isSome_iff_exists.mp h3
        obtain ⟨w, hw⟩ := Option.isSome_iff_exists.mp h4
        obtain ⟨d1, h5, h6⟩ := lookup_added hadd hd
        exact ⟨d1, h5, by simp [contains, ((addStep_ok h6).2.2.2.2 w hw).1]⟩
    rw [hr, hd]

/-- A type without boundary values: the validation by the program, and the generated schema. -/
theorem component_plain {α : Type} {t : ComponentType α} {ps : List (String × Json)} (hs : TypeForm t.schema ps)
    (hb : t.boundary = none) {G : Json} (hG : topologyPart t = Res.ok G) :
    (∀ j data, j.isObj = true → prepare accepts t j = Res.ok data → accepts G j = true) ∧
    (ValidDefaults ps t.defaults → ∀ j, accepts G j = true → ∃ data, prepare accepts t j = Res.ok data) := by
  unfold topologyPart at hG
  obtain ⟨s1, h1, h2⟩ := Res.bind_eq_ok.mp hG
  have ht : typeSchema t = Res.ok s1 := by
    unfold typeSchema
    rw [hb]
    exact h1
  obtain ⟨a, b⟩ := applied_iff hs.object hs.forms h1 h2
  constructor
  · intro j data hj h
    unfold prepare at h
    rw [ht, Res.ok_bind] at h
    obtain ⟨data', h3, h⟩ := Res.bind_eq_ok.mp h
    split at h
    · next hacc => exact a j data' hj h3 hacc
    · cases h
  · intro hv j hj
    obtain ⟨x', h3, h4⟩ := b hv j hj
    refine ⟨x', ?_⟩
    unfold prepare
    rw [ht, Res.ok_bind, h3, Res.ok_bind, if_pos h4]

/-- The generated schema does not look at boundary values. -/
theorem accepts_keeps {α : Type} {t : ComponentType α} {ps : List (String × Json)} (hs : TypeForm t.schema ps)
    {G : Json} (hG : topologyPart t = Res.ok G) {e j : Json} (he : e.isObj = true) (hk : Keeps e j)
    (hj : j.isObj = true) : accepts G j = accepts G e := by
  unfold topologyPart at hG
  obtain ⟨s1, h1, h2⟩ := Res.bind_eq_ok.mp hG
  obtain ⟨ps2, hs2, hadd, hnone, -, hreq⟩ := generated hs.object hs.forms h1 h2
  rw [Bool.eq_iff_iff, accepts_object hs2, accepts_object hs2]
  have hne : ∀ k, Requires G k → k ≠ "boundary_values" := by
    rintro k hk rfl
    exact hs.notRequired ((hreq _).mp hk).1
  have hne2 : ∀ k d, ps2.lookup k = some d → k ≠ "boundary_values" := by
    rintro k d hk rfl
    rw [hnone _ hs.noValues] at hk
    cases hk
  have hadd' : G.find? "additionalProperties" ≠ some (Json.bool false) := by rw [hadd, hs.additional]; simp
  have hc : ∀ k, k ≠ "boundary_values" → j.contains k = e.contains k := fun k hk' => by simp [contains, hk k hk']
  constructor
  · rintro ⟨-, h4, h5, -⟩
    exact ⟨he, fun k hk' => hc k (hne k hk') ▸ h4 k hk', fun k d hd v hv => h5 k d hd v (by rw [hk k (hne2 k d hd), hv]),
      fun h => absurd h hadd'⟩
  · rintro ⟨-, h4, h5, -⟩
    exact ⟨hj, fun k hk' => (hc k (hne k hk')).symm ▸ h4 k hk', fun k d hd v hv => h5 k d hd v (by
      rw [← hk k (hne2 k d hd), hv]), fun h => absurd h hadd'⟩

/-- A type with boundary values: the validation by the program, and the generated schemas. -/
theorem component_boundary {α : Type} {t : ComponentType α} {ps pb : List (String × Json)} (hs : TypeForm t.schema ps)
    {B : Json} (hb : t.boundary = some B) (hB : ObjectSchema B pb) (hpb : ∀ k d, pb.lookup k = some d → Form d)
    (hn : B.find? "default" = none) {G GB : Json} (hG : topologyPart t = Res.ok G)
    (hGB : otherPart "boundary_values" t.defaults B = Res.ok GB) :
    GB = B ∧ (∀ j data, j.isObj = true → prepare accepts t j = Res.ok data →
      accepts G j = true ∧ ∃ b, j.find? "boundary_values" = some b ∧ accepts GB b = true) ∧
    (ValidDefaults ps t.defaults → ∀ j b, accepts G j = true → j.find? "boundary_values" = some b → accepts GB b = true →
      ∃ data, prepare accepts t j = Res.ok data) := by
  unfold topologyPart at hG
  obtain ⟨s1, h1, h2⟩ := Res.bind_eq_ok.mp hG
  obtain ⟨hD, hkeys, ps1, hs1, hsame, hadd⟩ := addDefaults_ok hs.object h1
  have hnone : t.defaults.find? "boundary_values" = none := by
    cases hf : t.defaults.find? "boundary_values" with
    | none => rfl
    | some v =>
      have hmem : ("boundary_values", v) ∈ t.defaults.items := by
        cases hdd : t.defaults with
        | obj m => rw [hdd] at hf; exact mem_of_lookup hf
        | _ => rw [hdd] at hf; simp [find?] at hf
      have := hkeys _ hmem
      simp [contains, find?, hs.noValues] at this
  have hval : valueOr t.defaults "boundary_values" = Res.ok (obj []) := by
    unfold valueOr
    rw [if_pos hD, hnone]
    rfl
  have hBF : Form B := .object B pb hB hn hpb
  have hGB' : GB = B := by
    unfold otherPart at hGB
    rw [hval, Res.ok_bind, adds_none hB hpb, Res.ok_bind, hBF.removes_same] at hGB
    injection hGB with hGB
    exact hGB.symm
  refine ⟨hGB', ?_⟩
  subst hGB'
  obtain ⟨S, hS⟩ := addRequired_exists (name := "boundary_values") (v := GB) hs.object
  obtain ⟨qs, hq, hlook, hreqS, hsameS⟩ := addRequired_ok hs.object hS
  have hqf : ∀ k d, qs.lookup k = some d → Form d := by
    intro k d hk
    rw [hlook] at hk
    split at hk
    · injection hk with hk; exact hk ▸ hBF
    · exact hs.forms k d hk
  have hstep : ∀ x ∈ qs, ∃ y, addStep t.defaults x = Res.ok y := by
    rintro ⟨k, d⟩ hx
    have hx' := lookup_of_mem hq.keys hx
    rw [hlook] at hx'
    split at hx'
    · next hk =>
      injection hx' with hx'
      subst hk
      subst hx'
      refine ⟨("boundary_values", GB), ?_⟩
      unfold addStep
      rw [if_pos (by simp [contains, hB.type]), hnone]
    · obtain ⟨d1, -, h⟩ := lookup_added hadd hx'
      exact ⟨_, h⟩
  obtain ⟨S1, hS1⟩ := addDefaults_exists hq hD (by
    intro x hx
    have := hkeys x hx
    obtain ⟨v, hv⟩ := contains_iff.mp this
    have hv : ps.lookup x.1 = some v := hv
    refine contains_iff.mpr ⟨v, ?_⟩
    show qs.lookup x.1 = some v
    rw [hlook, if_neg, hv]
    intro e
    rw [e, hs.noValues] at hv
    cases hv) hstep
  have hrem : ∃ S2, removeDefaults S1 = Res.ok S2 := by
    obtain ⟨-, -, qs1, hq1, -, hqadd⟩ := addDefaults_ok hq hS1
    exact removes_level hq1 (removes_added (fun x hx y hy => (hqf x.1 x.2 (lookup_of_mem hq.keys hx)).removes _ _ y hy) hqadd)
  obtain ⟨S2, hS2⟩ := hrem
  have ht : typeSchema t = Res.ok S1 := by
    unfold typeSchema
    rw [hb]
    simp only
    rw [hval, Res.ok_bind, adds_none hB hpb, Res.ok_bind, hS, Res.ok_bind, hS1]
  obtain ⟨ps2, g1, gadd, gnone, gdef, greq⟩ := generated hs.object hs.forms h1 h2
  obtain ⟨qs2, q1, qadd, qnone, qdef, qreq⟩ := generated hq hqf hS1 hS2
  -- the schema with both kinds of data
  have both : ∀ j, accepts S2 j = true ↔ accepts G j = true ∧ ∃ b, j.find? "boundary_values" = some b ∧ accepts GB b = true := by
    intro j
    rw [accepts_object q1, accepts_object g1, qadd, gadd, hs.additional, hsameS _ (by decide) (by decide), hs.additional]
    have hreq2 : ∀ k, Requires S2 k ↔ Requires G k ∨ k = "boundary_values" := by
      intro k
      rw [qreq, greq, hreqS, hlook]
      by_cases hk : k = "boundary_values"
      · subst hk
        simp [hnone]
      · simp [hk]
    have hbv : qs2.lookup "boundary_values" = some GB := by
      obtain ⟨d1, d2, h3, h4, h5⟩ := qdef "boundary_values" GB (by rw [hlook, if_pos rfl])
      have := (addStep_ok h3).2.2.2.1 hnone
      injection this with _ this
      subst this
      rw [hBF.removes_same] at h4
      injection h4 with h4
      rw [h5, h4]
    have hother : ∀ k, k ≠ "boundary_values" → qs2.lookup k = ps2.lookup k := by
      intro k hk
      cases hl : ps.lookup k with
      | none => rw [gnone k hl, qnone k (by rw [hlook, if_neg hk, hl])]
      | some d =>
        obtain ⟨d1, d2, h3, h4, h5⟩ := gdef k d hl
        obtain ⟨d1', d2', h3', h4', h5'⟩ := qdef k d (by rw [hlook, if_neg hk, hl])
        rw [h3] at h3'
        injection h3' with h3'
        injection h3' with _ h3'
        subst h3'
        rw [h4] at h4'
        injection h4' with h4'
        rw [h5, h5', h4']
    constructor
    · rintro ⟨a1, a2, a3, -⟩
      obtain ⟨b, hbj⟩ := contains_iff.mp (a2 "boundary_values" ((hreq2 _).mpr (Or.inr rfl)))
      refine ⟨⟨a1, fun k hk => a2 k ((hreq2 k).mpr (Or.inl hk)), fun k d hk v hv => ?_, by simp⟩, b, hbj, a3 _ _ hbv b hbj⟩
      refine a3 k d ?_ v hv
      rw [hother k, hk]
      rintro rfl
      rw [gnone _ hs.noValues] at hk
      cases hk
    · rintro ⟨⟨a1, a2, a3, -⟩, b, hbj, hacc⟩
      refine ⟨a1, fun k hk => ?_, fun k d hk v hv => ?_, by simp⟩
      · rcases (hreq2 k).mp hk with hk | rfl
        · exact a2 k hk
        · exact contains_iff.mpr ⟨b, hbj⟩
      · by_cases hkb : k = "boundary_values"
        · subst hkb
          rw [hbv] at hk
          injection hk with hk
          rw [hbj] at hv
          injection hv with hv
          rw [← hk, ← hv]
          exact hacc
        · rw [hother k hkb] at hk
          exact a3 k d hk v hv
  obtain ⟨a, b⟩ := applied_iff hq hqf hS1 hS2
  constructor
  · intro j data hj h
    unfold prepare at h
    rw [ht, Res.ok_bind] at h
    obtain ⟨data', h3, h⟩ := Res.bind_eq_ok.mp h
    split at h
    · next hacc => exact (both j).mp (a j data' hj h3 hacc)
    · cases h
  · intro hv j bv hj hjb hbv
    obtain ⟨x', h3, h4⟩ := b (by
      intro k d v hk hd
      rw [hlook] at hk
      split at hk
      · next e => rw [e, hnone] at hd; cases hd
      · exact hv k d v hk hd) j ((both j).mpr ⟨hj, bv, hjb, hbv⟩)
    refine ⟨x', ?_⟩
    unfold prepare
    rw [ht, Res.ok_bind, h3, Res.ok_bind, if_pos h4]

end Verif.Editor
