import Verif.Graph.Boundary
import Verif.Json.Order

/-!
# Which values a component is constructed from

A value that an entry does not have is taken from the defaults for the type; inside of objects with known properties also
single properties are.
-/

set_option autoImplicit false

namespace Verif.Factory

open Verif.Json

/-! ## Specification -/

/-- The defaults for a type. -/
def defaultsFor (all : Json) (name : String) : Json := (all.find? name).getD (obj [])

/-- The value under a key: that of the entry if it has one, or else the default. -/
def Given (defaults j : Json) (key : String) (v : Json) : Prop :=
  j.find? key = some v ∨ j.find? key = none ∧ defaults.find? key = some v

/-- The value under a key of an object under a key: that of the entry if it has one, or else the default. -/
def GivenPart (defaults j : Json) (key sub : String) (v : Json) : Prop :=
  (∃ m, j.find? key = some m ∧ m.find? sub = some v) ∨
    (∀ m, j.find? key = some m → m.find? sub = none) ∧ ∃ m, defaults.find? key = some m ∧ m.find? sub = some v

/-! ## Proofs -/

theorem added_keys {d : Json} {m mm : List (String × Json)} (h : List.Forall₂ (fun x y => addStep d x = Res.ok y) m mm) :
    mm.map Prod.fst = m.map Prod.fst := by
  induction h with
  | nil => rfl
  | cons h1 _ ih => simp [(addStep_ok h1).1, ih]

theorem lookup_added {d : Json} {m mm : List (String × Json)} (h : List.Forall₂ (fun x y => addStep d x = Res.ok y) m mm)
    {key : String} {s : Json} (hs : m.lookup key = some s) :
    ∃ s', mm.lookup key = some s' ∧ addStep d (key, s) = Res.ok (key, s') := by
  induction h with
  | nil => cases hs
  | @cons x y m mm h1 _ ih =>
    have e := (addStep_ok h1).1
    rw [lookup_cons] at hs
    rw [lookup_cons, e]
    split at hs
    · next hk =>
      injection hs with hs
      rw [if_pos hk]
      refine ⟨y.2, rfl, ?_⟩
      subst hs
      have hx : (key, x.2) = x := by rw [hk]
      have hy : (key, y.2) = y := by rw [hk, ← e]
      rw [hx, hy]
      exact h1
    · next hk => rw [if_neg hk]; exact ih hs

/-- One level: the value of a key of the schema after adding defaults to the schema and applying these. -/
theorem level {m mm : List (String × Json)} (hn : (m.map Prod.fst).Nodup) {d : Json}
    (hadd : List.Forall₂ (fun x y => addStep d x = Res.ok y) m mm) {j data : Json} (hj : j.isObj = true)
    (happ : applyUnsafe (obj mm) j = Res.ok data) {key : String} {s : Json} (hs : m.lookup key = some s) :
    (j.find? key = none → s.find? "default" = none → data.find? key = d.find? key) ∧
    (∀ v, j.find? key = some v → nested? s = none → data.find? key = some v) ∧
    ∀ v p, j.find? key = some v → nested? s = some p → ∃ v', data.find? key = some v' ∧
      ((d.find? key = none ∧ applyUnsafe p v = Res.ok v') ∨
        ∃ e p', d.find? key = some e ∧ addUnsafe p e = Res.ok p' ∧ applyUnsafe p' v = Res.ok v') := by
  obtain ⟨s', hs', hstep⟩ := lookup_added hadd hs
  obtain ⟨-, -, -, h1, h2⟩ := addStep_ok hstep
  obtain ⟨-, e2, e3, e4⟩ := C50_exact (added_keys hadd ▸ hn) hj happ key
  refine ⟨fun h3 h4 => ?_, fun v h3 h4 => ?_, fun v p h3 h4 => ?_⟩
  · rw [e2 s' hs' h3]
    cases hd : d.find? key with
    | none =>
      have := h1 hd
      injection this with _ this
      rw [this]
      exact h4
    | some e => exact (h2 e hd).1
  · refine e3 s' v hs' h3 ?_
    cases hd : d.find? key with
    | none =>
      have := h1 hd
      injection this with _ this
      rw [this]
      exact h4
    | some e => exact (h2 e hd).2.1 h4
  · cases hd : d.find? key with
    | none =>
      have := h1 hd
      injection this with _ this
      obtain ⟨v', h5, h6⟩ := e4 s' v p hs' h3 (by rw [this]; exact h4)
      exact ⟨v', h6, Or.inl ⟨rfl, h5⟩⟩
    | some e =>
      obtain ⟨-, p', h7, h8⟩ := (h2 e hd).2.2 p h4
      obtain ⟨v', h5, h6⟩ := e4 s' v p' hs' h3 h8
      exact ⟨v', h6, Or.inr ⟨e, p', rfl, h7, h5⟩⟩

/-- The schema of a type, and its properties. -/
theorem prepare_level {α : Type} {valid : Json → Json → Bool} {t : ComponentType α} {j data : Json}
    (h : prepare valid t j = Res.ok data) {m : List (String × Json)} (hm : t.schema.find? "properties" = some (obj m))
    (hn : (m.map Prod.fst).Nodup) :
    ∃ m0 mm, (m0.map Prod.fst).Nodup ∧ (∀ k, k ≠ "boundary_values" → m0.lookup k = m.lookup k) ∧
      List.Forall₂ (fun x y => addStep t.defaults x = Res.ok y) m0 mm ∧ applyUnsafe (obj mm) j = Res.ok data := by
  unfold prepare at h
  obtain ⟨s, h1, h⟩ := Res.bind_eq_ok.mp h
  obtain ⟨data', h2, h⟩ := Res.bind_eq_ok.mp h
  split at h
  · injection h with h
    subst h
    have key : ∀ s0 : Json, ∀ m0 : List (String × Json), s0.find? "properties" = some (obj m0) →
        addDefaults s0 t.defaults = Res.ok s →
        ∃ mm, List.Forall₂ (fun x y => addStep t.defaults x = Res.ok y) m0 mm ∧
        applyUnsafe (obj mm) j = Res.ok data' := by
      intro s0 m0 h3 h4
      unfold addDefaults at h4
      split at h4
      · next type p h5 h6 =>
        rw [h3] at h6
        injection h6 with h6
        subst h6
        split at h4
        · obtain ⟨p', h7, h8⟩ := Res.bind_eq_ok.mp h4
          obtain ⟨mm, rfl, h9⟩ := addUnsafe_ok h7
          refine ⟨mm, h9, ?_⟩
          unfold applyDefaults at h2
          split at h2
          · next type' q h10 h11 =>
            rw [find_set h8, if_pos rfl] at h11
            injection h11 with h11
            subst h11
            split at h2
            · exact h2
            · cases h2
          · cases h2
        · cases h4
      · cases h4
    unfold typeSchema at h1
    cases hb : t.boundary with
    | none =>
      rw [hb] at h1
      obtain ⟨mm, h3, h4⟩ := key t.schema m hm h1
      exact ⟨m, mm, hn, fun _ _ => rfl, h3, h4⟩
    | some b =>
      rw [hb] at h1
      obtain ⟨d, h3, h1⟩ := Res.bind_eq_ok.mp h1
      obtain ⟨b', h4, h1⟩ := Res.bind_eq_ok.mp h1
      obtain ⟨s1, h5, h1⟩ := Res.bind_eq_ok.mp h1
      unfold addRequired at h5
      obtain ⟨r, -, h5⟩ := Res.bind_eq_ok.mp h5
      obtain ⟨s2, hs2, h5⟩ := Res.bind_eq_ok.mp h5
      obtain ⟨p, hp, hs1⟩ := Res.bind_eq_ok.mp h5
      rw [find_set hs2, if_neg (by decide), hm] at hp
      simp only [Option.getD_some, Json.set, Res.ok.injEq] at hp
      subst hp
      obtain ⟨mm, h6, h7⟩ := key s1 (Json.insert "boundary_values" b' m) (by rw [find_set hs1, if_pos rfl]) h1
      refine ⟨_, mm, keys_insert_nodup hn _ _, fun k hk => ?_, h6, h7⟩
      exact lookup_insert_of_ne _ _ hk
  · cases h

/-- What the constructor gets under a key is given in the entry or as default. -/
theorem prepare_given {α : Type} {valid : Json → Json → Bool} {t : ComponentType α} {j data : Json} (hj : j.isObj = true)
    (h : prepare valid t j = Res.ok data) {m : List (String × Json)} (hm : t.schema.find? "properties" = some (obj m))
    (hn : (m.map Prod.fst).Nodup) {key : String} (hk : key ≠ "boundary_values") {s : Json} (hs : m.lookup key = some s)
    (hd : s.find? "default" = none) (hns : nested? s = none) {v : Json} (hv : data.find? key = some v) :
    Given t.defaults j key v := by
  obtain ⟨m0, mm, h1, h2, h3, h4⟩ := prepare_level h hm hn
  obtain ⟨e1, e2, -⟩ := level h1 h3 hj h4 ((h2 key hk).trans hs)
  cases hf : j.find? key with
  | none =>
    rw [e1 hf hd] at hv
    exact Or.inr ⟨hf, hv⟩
  | some w =>
    rw [e2 w hf hns] at hv
    injection hv with hv
    subst hv
    exact Or.inl hf

/-- The same for a property of a property. -/
theorem prepare_part {α : Type} {valid : Json → Json → Bool} {t : ComponentType α} {j data : Json} (hj : j.isObj = true)
    (h : prepare valid t j = Res.ok data) {m : List (String × Json)} (hm : t.schema.find? "properties" = some (obj m))
    (hn : (m.map Prod.fst).Nodup) {key : String} (hk : key ≠ "boundary_values") {s : Json} (hs : m.lookup key = some s)
    (hd : s.find? "default" = none) {p : List (String × Json)} (hp : nested? s = some (obj p))
    (hpn : (p.map Prod.fst).Nodup) {sub : String} {s' : Json} (hs' : p.lookup sub = some s')
    (hd' : s'.find? "default" = none) (hns : nested? s' = none) {w : Json} (hw : data.find? key = some w)
    (ho : w.isObj = true) {v : Json} (hv : w.find? sub = some v) : GivenPart t.defaults j key sub v := by
  obtain ⟨m0, mm, h1, h2, h3, h4⟩ := prepare_level h hm hn
  obtain ⟨e1, -, e3⟩ := level h1 h3 hj h4 ((h2 key hk).trans hs)
  cases hf : j.find? key with
  | none =>
    rw [e1 hf hd] at hw
    exact Or.inr ⟨fun m hm => (by rw [hf] at hm; cases hm), w, hw, hv⟩
  | some old =>
    obtain ⟨w', h5, h6⟩ := e3 old _ hf hp
    rw [hw] at h5
    injection h5 with h5
    subst h5
    have hold : old.isObj = true := by
      obtain ⟨w', h7, h8⟩ := prepare_kept hj h hf
      rw [hw] at h7
      injection h7 with h7
      subst h7
      cases h8 with
      | same => exact ho
      | extended => rfl
    cases hf' : old.find? sub with
    | some u =>
      have : w.find? sub = some u := by
        rcases h6 with ⟨-, h8⟩ | ⟨e, p', -, h8, h9⟩
        · exact (C50_exact hpn hold h8 sub).2.2.1 s' u hs' hf' hns
        · obtain ⟨pp, rfl, h10⟩ := addUnsafe_ok h8
          exact (level hpn h10 hold h9 hs').2.1 u hf' hns
      rw [hv] at this
      injection this with this
      subst this
      exact Or.inl ⟨old, hf, hf'⟩
    | none =>
      rcases h6 with ⟨-, h8⟩ | ⟨e, p', h7, h8, h9⟩
      · rw [(C50_exact hpn hold h8 sub).2.1 s' hs' hf', hd'] at hv
        cases hv
      · obtain ⟨pp, rfl, h10⟩ := addUnsafe_ok h8
        rw [(level hpn h10 hold h9 hs').1 hf' hd'] at hv
        refine Or.inr ⟨fun m hm => ?_, e, h7, hv⟩
        rw [hf] at hm
        injection hm with hm
        subst hm
        exact hf'

/-- At most one value is given. -/
theorem Given.unique {d j : Json} {key : String} {v v' : Json} (h : Given d j key v) (h' : Given d j key v') : v = v' := by
  rcases h with h | ⟨h, h1⟩ <;> rcases h' with h' | ⟨h', h1'⟩ <;> simp_all

theorem GivenPart.unique {d j : Json} {key sub : String} {v v' : Json} (h : GivenPart d j key sub v)
    (h' : GivenPart d j key sub v') : v = v' := by
  rcases h with ⟨m, h1, h2⟩ | ⟨h0, m, h1, h2⟩ <;> rcases h' with ⟨m', h1', h2'⟩ | ⟨h0', m', h1', h2'⟩
  · rw [h1] at h1'; injection h1' with e; subst e; rw [h2] at h2'; injection h2'
  · rw [h0' m h1] at h2; cases h2
  · rw [h0 m' h1'] at h2'; cases h2'
  · rw [h1] at h1'; injection h1' with e; subst e; rw [h2] at h2'; injection h2'

end Verif.Factory
