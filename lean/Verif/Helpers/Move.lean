import Verif.Helpers.Scale
import Verif.Json.Insert

/-!
# Programs that move and add components

Sources: `/repo/helper_functions/move_to_category.cpp`, `construct_gaspowerconnection.cpp`.

Both programs work in the directory of a problem and go through four files, one after another. A file that cannot be read
is `none`: reading it raises an exception. Exceptions end the programs, with the files as they are then.
-/

set_option autoImplicit false

namespace Verif.Helpers

open Verif.Json Verif.Schema Edit

/-! ## The programs -/

/-- `a["id"].get<std::string>() == id` — `move_to_category.cpp` 50-52, `construct_gaspowerconnection.cpp` 51-53. -/
def hasId (id : String) (a : Json) : Res Bool := do
  let i ← a.index "id"
  let s ← i.getStr
  Res.ok (s == id)

/-- `std::find_if` — `move_to_category.cpp` 54, `construct_gaspowerconnection.cpp` 55. -/
def findId (id : String) : List Json → Res (Option ℕ)
  | [] => Res.ok none
  | a :: l =>
    match hasId id a with
    | Res.ok true => Res.ok (some 0)
    | Res.ok false => do
      let i ← findId id l
      Res.ok (i.map (· + 1))
    | Res.throws => Res.throws
    | Res.ub => Res.ub

/-- `currcat.erase(it)` — `move_to_category.cpp` 59. -/
def eraseAt : Json → ℕ → Json
  | arr l, i => arr (l.eraseIdx i)
  | obj m, i => obj (m.eraseIdx i)
  | j, _ => j

/-- `push_back` after a missing type has been added — `move_to_category.cpp` 60-63. -/
def pushTo (target : String) (c : Json) (m : List (String × Json)) : Res (List (String × Json)) :=
  match m.lookup target with
  | none => Res.ok (put target (arr [c]) m)
  | some null => Res.ok (put target (arr [c]) m)
  | some (arr l) => Res.ok (put target (arr (l ++ [c])) m)
  | some _ => Res.throws

/-- One round of the loop over nodes and connections — `move_to_category.cpp` 46-65: the value and whether the component was
found. -/
def moveIn (source target id : String) (class' : Json) : Res (Json × Bool) :=
  match class' with
  | obj m =>
    match m.lookup source with
    | none => Res.ok (class', false)
    | some current => do
      let found ← findId id (elements current)
      match found with
      | none => Res.ok (class', false)
      | some i => do
        let c ← Res.get (elements current) i
        let m' ← pushTo target c (put source (eraseAt current i) m)
        Res.ok (obj m', true)
  | _ => Res.ok (class', false)

/-- A loop over the values of an object. -/
def eachValue {α : Type} (f : Json → Res (Json × α)) : List (String × Json) → Res (List (String × Json) × List α)
  | [] => Res.ok ([], [])
  | (k, v) :: m => do
    let r ← f v
    let rest ← eachValue f m
    Res.ok ((k, r.1) :: rest.1, r.2 :: rest.2)

/-- What is done with one file — `move_to_category.cpp` 39-75: `none` if it is not written. Files are objects; with anything else
in it there is nothing to be found. -/
def moveFile (source target id : String) : Json → Res (Option Json)
  | obj m => do
    let r ← eachValue (moveIn source target id) m
    Res.ok (if r.2.any (· == true) then some (obj r.1) else none)
  | _ => Res.ok none

/-- The loop over files: the files afterwards and how it ended. `f` gives the new contents of a file. -/
def overFiles (f : Json → Res (Option Json)) : List (Option Json) → List (Option Json) × Res Unit
  | [] => ([], Res.ok ())
  | none :: l => (none :: l, Res.throws)
  | some j :: l =>
    match f j with
    | Res.ok none => (some j :: (overFiles f l).1, (overFiles f l).2)
    | Res.ok (some j') => (some j' :: (overFiles f l).1, (overFiles f l).2)
    | Res.throws => (some j :: l, Res.throws)
    | Res.ub => (some j :: l, Res.ub)

/-- `move_to_category` — `move_to_category.cpp` 25-77. -/
def moveToCategory (source target id : String) (files : List (Option Json)) : List (Option Json) × Res Unit :=
  overFiles (moveFile source target id) files

/-! ## Specification -/

/-- The entry has the id. -/
def IdIs (c : Json) (id : String) : Prop := value? c [.at "id"] = some (str id)

/-- The entry has some id. -/
def HasId (c : Json) : Prop := ∃ id, IdIs c id

/-- A file with lists of components, each with an id. -/
def Listed (source target : String) (file : Json) : Prop :=
  ∃ m, file = obj m ∧
    (∀ k v, (k, v) ∈ m → ∀ w, value? v [.at source] = some w → ∃ l, w = arr l ∧ ∀ c ∈ l, HasId c) ∧
    ∀ k v, (k, v) ∈ m → ∀ w, value? v [.at target] = some w → ∃ l, w = arr l

/-- The component with the id is moved from one type to the other and everything else is as it was. -/
structure Moved (source target id : String) (file out : Json) : Prop where
  moves : ∀ k l₁ c l₂, value? file [.at k, .at source] = some (arr (l₁ ++ c :: l₂)) → IdIs c id → (∀ x ∈ l₁, ¬ IdIs x id) →
    value? out [.at k, .at source] = some (arr (l₁ ++ l₂)) ∧
    ((∃ old, value? file [.at k, .at target] = some (arr old) ∧ value? out [.at k, .at target] = some (arr (old ++ [c]))) ∨
      value? file [.at k, .at target] = none ∧ value? out [.at k, .at target] = some (arr [c]))
  stays : ∀ k, (∀ l, value? file [.at k, .at source] = some (arr l) → ∀ x ∈ l, ¬ IdIs x id) →
    value? out [.at k] = value? file [.at k]
  others : ∀ k p, Apart p [.at source] → Apart p [.at target] → value? out (.at k :: p) = value? file (.at k :: p)

/-! ## Lemmas -/

theorem hasId_eq {id : String} {a : Json} {b : Bool} : hasId id a = Res.ok b → (b = true ↔ IdIs a id) := by
  intro h
  obtain ⟨i, hi, h⟩ := Res.bind_eq_ok.mp h
  obtain ⟨s, hs, h⟩ := Res.bind_eq_ok.mp h
  have hi := index_eq_ok.mp hi
  cases i with
  | str s' =>
    simp only [getStr, Res.ok.injEq] at hs
    subst hs
    simp only [Res.ok.injEq] at h
    subst h
    rw [IdIs, find_value hi]
    simp [value?]
  | _ => simp [getStr] at hs

theorem hasId_exists {id : String} {a : Json} (h : HasId a) : ∃ b, hasId id a = Res.ok b := by
  obtain ⟨id', h⟩ := h
  obtain ⟨w, hw, h⟩ := find_of_value h
  simp only [value?, Option.some.injEq] at h
  subst h
  exact ⟨id' == id, by simp [hasId, index_of_find hw, getStr]⟩

theorem findId_spec {id : String} : ∀ {l : List Json} {r : Option ℕ}, findId id l = Res.ok r →
    match r with
    | none => ∀ x ∈ l, ¬ IdIs x id
    | some i => ∃ l₁ c l₂, l = l₁ ++ c :: l₂ ∧ l₁.length = i ∧ IdIs c id ∧ ∀ x ∈ l₁, ¬ IdIs x id
  | [], r, h => by
    simp only [findId, Res.ok.injEq] at h
    subst h; simp
  | a :: l, r, h => by
    simp only [findId] at h
    cases hh : hasId id a with
    | ok b =>
      have hb := hasId_eq hh
      rw [hh] at h
      cases b with
      | true =>
        simp only [Res.ok.injEq] at h
        subst h
        exact ⟨[], a, l, rfl, rfl, hb.mp rfl, by simp⟩
      | false =>
        obtain ⟨i, hi, h⟩ := Res.bind_eq_ok.mp h
        simp only [Res.ok.injEq] at h
        subst h
        have hn : ¬ IdIs a id := fun h => by simpa using hb.mpr h
        have ih := findId_spec hi
        cases i with
        | none =>
          intro x hx
          rcases List.mem_cons.mp hx with rfl | hx
          · exact hn
          · exact ih x hx
        | some i =>
          obtain ⟨l₁, c, l₂, rfl, rfl, hc, hl⟩ := ih
          refine ⟨a :: l₁, c, l₂, rfl, rfl, hc, fun x hx => ?_⟩
          rcases List.mem_cons.mp hx with rfl | hx
          · exact hn
          · exact hl x hx
    | throws => rw [hh] at h; cases h
    | ub => rw [hh] at h; cases h

theorem findId_exists {id : String} : ∀ {l : List Json}, (∀ x ∈ l, HasId x) → ∃ r, findId id l = Res.ok r
  | [], _ => ⟨none, rfl⟩
  | a :: l, h => by
    obtain ⟨b, hb⟩ := hasId_exists (id := id) (h a (by simp))
    obtain ⟨r, hr⟩ := findId_exists (id := id) fun x hx => h x (List.mem_cons_of_mem _ hx)
    cases b with
    | true => exact ⟨some 0, by simp [findId, hb]⟩
    | false => exact ⟨r.map (· + 1), by simp [findId, hb, hr]⟩

theorem first_unique {id : String} {l₁ l₂ l₁' l₂' : List Json} {c c' : Json} (h : l₁ ++ c :: l₂ = l₁' ++ c' :: l₂')
    (hc : IdIs c id) (hl : ∀ x ∈ l₁, ¬ IdIs x id) (hc' : IdIs c' id) (hl' : ∀ x ∈ l₁', ¬ IdIs x id) :
    l₁ = l₁' ∧ c = c' ∧ l₂ = l₂' := by
  induction l₁ generalizing l₁' with
  | nil =>
    cases l₁' with
    | nil => simpa using h
    | cons b l₁' =>
      simp only [List.nil_append, List.cons_append, List.cons.injEq] at h
      exact absurd (h.1 ▸ hc) (hl' b (by simp))
  | cons a l₁ ih =>
    cases l₁' with
    | nil =>
      simp only [List.nil_append, List.cons_append, List.cons.injEq] at h
      exact absurd (h.1 ▸ hc') (hl a (by simp))
    | cons b l₁' =>
      simp only [List.cons_append, List.cons.injEq] at h
      obtain ⟨h1, h2, h3⟩ := ih h.2 (fun x hx => hl x (by simp [hx])) (fun x hx => hl' x (by simp [hx]))
      exact ⟨by rw [h.1, h1], h2, h3⟩

theorem eachValue_lookup {α : Type} {f : Json → Res (Json × α)} : ∀ {m : List (String × Json)} {r : List (String × Json) × List α},
    eachValue f m = Res.ok r → ∀ k, match m.lookup k with
      | none => r.1.lookup k = none
      | some v => ∃ w b, f v = Res.ok (w, b) ∧ r.1.lookup k = some w
  | [], r, h, k => by
    simp only [eachValue, Res.ok.injEq] at h
    subst h; simp
  | (c, v) :: m, r, h, k => by
    obtain ⟨x, hx, h⟩ := Res.bind_eq_ok.mp h
    obtain ⟨rest, hrest, h⟩ := Res.bind_eq_ok.mp h
    simp only [Res.ok.injEq] at h
    subst h
    have ih := eachValue_lookup hrest k
    simp only [lookup_cons]
    by_cases hk : k = c
    · simp only [if_pos hk]; exact ⟨x.1, x.2, hx, rfl⟩
    · simp only [if_neg hk]; exact ih

theorem eachValue_exists {α : Type} {f : Json → Res (Json × α)} : ∀ {m : List (String × Json)},
    (∀ k v, (k, v) ∈ m → ∃ r, f v = Res.ok r) → ∃ r, eachValue f m = Res.ok r
  | [], _ => ⟨_, rfl⟩
  | (c, v) :: m, h => by
    obtain ⟨x, hx⟩ := h c v (by simp)
    obtain ⟨r, hr⟩ := eachValue_exists fun k v hkv => h k v (List.mem_cons_of_mem _ hkv)
    exact ⟨((c, x.1) :: r.1, x.2 :: r.2), by simp only [eachValue, hx, hr, Res.ok_bind]⟩

theorem eachValue_same {f : Json → Res (Json × Bool)} (hf : ∀ v w, f v = Res.ok (w, false) → w = v) :
    ∀ {m : List (String × Json)} {r : List (String × Json) × List Bool}, eachValue f m = Res.ok r →
      r.2.any (· == true) = false → r.1 = m
  | [], r, h, _ => by
    simp only [eachValue, Res.ok.injEq] at h
    subst h; rfl
  | (c, v) :: m, r, h, hr => by
    obtain ⟨x, hx, h⟩ := Res.bind_eq_ok.mp h
    obtain ⟨rest, hrest, h⟩ := Res.bind_eq_ok.mp h
    simp only [Res.ok.injEq] at h
    subst h
    obtain ⟨w, b⟩ := x
    simp only [List.any_cons, Bool.or_eq_false_iff] at hr
    obtain ⟨hb, hr⟩ := hr
    have hb : b = false := by cases b <;> simp_all
    subst hb
    rw [hf v w hx, eachValue_same hf hrest hr]

theorem lookup_put_ne {k k' : String} {v : Json} {m : List (String × Json)} (h : k' ≠ k) : (put k v m).lookup k' = m.lookup k' := by
  rw [lookup_put, if_neg h]

theorem lookup_put_self {k : String} {v : Json} {m : List (String × Json)} : (put k v m).lookup k = some v := by
  rw [lookup_put, if_pos rfl]

/-- What one round of the loop does with lists of components. -/
theorem moveIn_spec {source target id : String} (hne : source ≠ target) {m : List (String × Json)} {w : Json} {b : Bool}
    (hl : ∀ v, m.lookup source = some v → ∃ l, v = arr l) (h : moveIn source target id (obj m) = Res.ok (w, b)) :
    (w = obj m ∧ b = false ∧ ∀ l, m.lookup source = some (arr l) → ∀ x ∈ l, ¬ IdIs x id) ∨
    ∃ l₁ c l₂ m', m.lookup source = some (arr (l₁ ++ c :: l₂)) ∧ IdIs c id ∧ (∀ x ∈ l₁, ¬ IdIs x id) ∧ w = obj m' ∧ b = true ∧
      m'.lookup source = some (arr (l₁ ++ l₂)) ∧ (∀ k, k ≠ source → k ≠ target → m'.lookup k = m.lookup k) ∧
      ((∃ old, m.lookup target = some (arr old) ∧ m'.lookup target = some (arr (old ++ [c]))) ∨
        (m.lookup target = none ∨ m.lookup target = some null) ∧ m'.lookup target = some (arr [c])) := by
  simp only [moveIn] at h
  cases hs : m.lookup source with
  | none =>
    simp only [hs, Res.ok.injEq, Prod.mk.injEq] at h
    exact .inl ⟨h.1.symm, h.2.symm, fun l e => by cases e⟩
  | some v =>
    obtain ⟨l, rfl⟩ := hl v hs
    rw [hs] at h
    obtain ⟨found, hf, h⟩ := Res.bind_eq_ok.mp h
    have hspec := findId_spec hf
    cases found with
    | none =>
      simp only [Res.ok.injEq, Prod.mk.injEq] at h
      refine .inl ⟨h.1.symm, h.2.symm, fun l' e => ?_⟩
      cases e
      exact hspec
    | some i =>
      obtain ⟨l₁, c, l₂, hll, hi, hc, hx⟩ := hspec
      have hll : l = l₁ ++ c :: l₂ := hll
      subst hll hi
      obtain ⟨c', hc', h⟩ := Res.bind_eq_ok.mp h
      have hc' : c = c' := by
        have := Res.get_eq_ok.mp hc'
        simpa [elements] using this
      subst hc'
      obtain ⟨m', hm', h⟩ := Res.bind_eq_ok.mp h
      simp only [Res.ok.injEq, Prod.mk.injEq] at h
      have he : eraseAt (arr (l₁ ++ c :: l₂)) l₁.length = arr (l₁ ++ l₂) := by
        simp [eraseAt, List.eraseIdx_append_of_length_le]
      rw [he] at hm'
      have hto : (put source (arr (l₁ ++ l₂)) m).lookup target = m.lookup target := lookup_put_ne hne.symm
      refine .inr ⟨l₁, c, l₂, m', rfl, hc, hx, h.1.symm, h.2.symm, ?_⟩
      simp only [pushTo, hto] at hm'
      have key : ∀ x, m' = put target x (put source (arr (l₁ ++ l₂)) m) → m'.lookup source = some (arr (l₁ ++ l₂)) ∧
          (∀ k, k ≠ source → k ≠ target → m'.lookup k = m.lookup k) ∧ m'.lookup target = some x := by
        rintro x rfl
        exact ⟨by rw [lookup_put_ne hne, lookup_put_self], fun k h1 h2 => by rw [lookup_put_ne h2, lookup_put_ne h1],
          lookup_put_self⟩
      cases ht : m.lookup target with
      | none =>
        rw [ht] at hm'
        obtain ⟨h1, h2, h3⟩ := key _ (Res.ok.inj hm').symm
        exact ⟨h1, h2, .inr ⟨.inl rfl, h3⟩⟩
      | some v =>
        rw [ht] at hm'
        cases v with
        | null =>
          obtain ⟨h1, h2, h3⟩ := key _ (Res.ok.inj hm').symm
          exact ⟨h1, h2, .inr ⟨.inr rfl, h3⟩⟩
        | arr old =>
          obtain ⟨h1, h2, h3⟩ := key _ (Res.ok.inj hm').symm
          exact ⟨h1, h2, .inl ⟨old, rfl, h3⟩⟩
        | _ => cases hm'

theorem value_at {m : List (String × Json)} {k : String} {p : List Step} :
    value? (obj m) (.at k :: p) = (m.lookup k).bind fun v => value? v p := by
  simp only [value?]
  cases m.lookup k <;> rfl

theorem value_one {m : List (String × Json)} {k : String} : value? (obj m) [.at k] = m.lookup k := by
  rw [value_at]
  cases m.lookup k <;> simp [value?]

/-- Is every value which the first round meets as expected, the round does not fail. -/
theorem moveIn_exists {source target id : String} (hne : source ≠ target) {v : Json}
    (h1 : ∀ w, value? v [.at source] = some w → ∃ l, w = arr l ∧ ∀ c ∈ l, HasId c)
    (h2 : ∀ w, value? v [.at target] = some w → ∃ l, w = arr l) : ∃ r, moveIn source target id v = Res.ok r := by
  cases v with
  | obj m =>
    simp only [value_one] at h1 h2
    simp only [moveIn]
    cases hs : m.lookup source with
    | none => exact ⟨_, rfl⟩
    | some w =>
      obtain ⟨l, rfl, hl⟩ := h1 w hs
      obtain ⟨r, hr⟩ := findId_exists (id := id) hl
      have hspec := findId_spec hr
      simp only [elements, hr, Res.ok_bind]
      cases r with
      | none => exact ⟨_, rfl⟩
      | some i =>
        obtain ⟨l₁, c, l₂, rfl, rfl, _, _⟩ := hspec
        have hget : Res.get (l₁ ++ c :: l₂) l₁.length = Res.ok c := Res.get_eq_ok.mpr (by simp)
        simp only [hget, Res.ok_bind, pushTo, lookup_put_ne hne.symm]
        cases ht : m.lookup target with
        | none => exact ⟨_, rfl⟩
        | some w =>
          obtain ⟨l, rfl⟩ := h2 w ht
          exact ⟨_, rfl⟩
  | _ => exact ⟨_, rfl⟩

theorem moveIn_same {source target id : String} {v w : Json} (h : moveIn source target id v = Res.ok (w, false)) : w = v := by
  cases v with
  | obj m =>
    simp only [moveIn] at h
    cases hs : m.lookup source with
    | none => simp only [hs, Res.ok.injEq, Prod.mk.injEq] at h; exact h.1.symm
    | some c =>
      rw [hs] at h
      obtain ⟨found, _, h⟩ := Res.bind_eq_ok.mp h
      cases found with
      | none => simp only [Res.ok.injEq, Prod.mk.injEq] at h; exact h.1.symm
      | some i =>
        obtain ⟨c', _, h⟩ := Res.bind_eq_ok.mp h
        obtain ⟨m', _, h⟩ := Res.bind_eq_ok.mp h
        simp at h
  | _ => simp only [moveIn, Res.ok.injEq, Prod.mk.injEq] at h; exact h.1.symm

/-- What is done with one file. -/
theorem moveFile_spec {source target id : String} (hne : source ≠ target) {file : Json} (h : Listed source target file) :
    ∃ r, moveFile source target id file = Res.ok r ∧ Moved source target id file (r.getD file) := by
  obtain ⟨m, rfl, h1, h2⟩ := h
  obtain ⟨r, hr⟩ := eachValue_exists (f := moveIn source target id) (m := m)
    fun k v hkv => moveIn_exists hne (h1 k v hkv) (h2 k v hkv)
  refine ⟨if r.2.any (· == true) then some (obj r.1) else none, by simp only [moveFile, hr, Res.ok_bind], ?_⟩
  have hout : (if r.2.any (· == true) then some (obj r.1) else none).getD (obj m) = obj r.1 := by
    cases hb : r.2.any (· == true) with
    | true => rfl
    | false => simp [eachValue_same (fun v w => moveIn_same) hr hb]
  rw [hout]
  have hlook := eachValue_lookup hr
  -- every class is either as before or the component is moved in it
  have hcase : ∀ k v, m.lookup k = some v → ∃ w, r.1.lookup k = some w ∧
      ((w = v ∧ ∀ l, value? v [.at source] = some (arr l) → ∀ x ∈ l, ¬ IdIs x id) ∨
      ∃ n n' l₁ c l₂, v = obj n ∧ w = obj n' ∧ n.lookup source = some (arr (l₁ ++ c :: l₂)) ∧ IdIs c id ∧ (∀ x ∈ l₁, ¬ IdIs x id) ∧
        n'.lookup source = some (arr (l₁ ++ l₂)) ∧ (∀ k, k ≠ source → k ≠ target → n'.lookup k = n.lookup k) ∧
        ((∃ old, n.lookup target = some (arr old) ∧ n'.lookup target = some (arr (old ++ [c]))) ∨
          n.lookup target = none ∧ n'.lookup target = some (arr [c]))) := by
    intro k v hv
    have := hlook k
    rw [hv] at this
    obtain ⟨w, b, hf, hw⟩ := this
    refine ⟨w, hw, ?_⟩
    have hmem : (k, v) ∈ m := Json.mem_of_lookup hv
    cases v with
    | obj n =>
      rcases moveIn_spec hne (fun v' hv' => by
        obtain ⟨l, hl, _⟩ := h1 k _ hmem v' (by rw [value_one]; exact hv')
        exact ⟨l, hl⟩) hf with ⟨rfl, _, hx⟩ | ⟨l₁, c, l₂, n', hs, hc, hx, rfl, _, hs', ho, ht⟩
      · exact .inl ⟨rfl, fun l hl => hx l (by rwa [value_one] at hl)⟩
      · refine .inr ⟨n, n', l₁, c, l₂, rfl, rfl, hs, hc, hx, hs', ho, ?_⟩
        rcases ht with ht | ⟨ht | ht, ht'⟩
        · exact .inl ht
        · exact .inr ⟨ht, ht'⟩
        · obtain ⟨l, hl⟩ := h2 k _ hmem null (by rw [value_one]; exact ht)
          cases hl
    | _ =>
      simp only [moveIn, Res.ok.injEq, Prod.mk.injEq] at hf
      exact .inl ⟨hf.1.symm, fun l hl => by simp [value?] at hl⟩
  have hnone : ∀ k, m.lookup k = none → r.1.lookup k = none := fun k hk => by
    have := hlook k
    rwa [hk] at this
  constructor
  · intro k l₁ c l₂ hv hc hx
    rw [value_at] at hv
    obtain ⟨v, hk, hv⟩ := Option.bind_eq_some_iff.mp hv
    obtain ⟨w, hw, ⟨rfl, hno⟩ | ⟨n, n', l₁', c', l₂', rfl, rfl, hs, hc', hx', hs', ho, ht⟩⟩ := hcase k v hk
    · exact absurd hc (hno _ hv c (by simp))
    · rw [value_one, hs] at hv
      obtain ⟨rfl, rfl, rfl⟩ := first_unique (Json.arr.inj (Option.some.inj hv)) hc' hx' hc hx
      simp only [hw, hk, value?]
      refine ⟨by simp [hs'], ?_⟩
      rcases ht with ⟨old, h1, h2⟩ | ⟨h1, h2⟩
      · exact .inl ⟨old, by simp [h1], by simp [h2]⟩
      · exact .inr ⟨by simp [h1], by simp [h2]⟩
  · intro k hno
    simp only [value_one]
    cases hk : m.lookup k with
    | none => exact hnone k hk
    | some v =>
      obtain ⟨w, hw, ⟨rfl, _⟩ | ⟨n, n', l₁', c', l₂', rfl, rfl, hs, hc', _⟩⟩ := hcase k v hk
      · exact hw
      · exact absurd hc' (hno (l₁' ++ c' :: l₂') (by rw [value_at, hk]; exact value_one.trans hs) c' (by simp))
  · intro k p hp1 hp2
    simp only [value_at]
    cases hk : m.lookup k with
    | none => rw [hnone k hk]
    | some v =>
      obtain ⟨w, hw, ⟨rfl, _⟩ | ⟨n, n', l₁', c', l₂', rfl, rfl, hs, hc', _, _, ho, _⟩⟩ := hcase k v hk
      · rw [hw]
      · rw [hw]
        simp only [Option.bind_some]
        match p, hp1, hp2 with
        | [], hp1, _ => exact absurd hp1 (not_apart_nil _)
        | .nth i :: p, _, _ => simp [value?]
        | .at c :: p, hp1, hp2 =>
          have hc1 : c ≠ source := fun e => (apart_cons.mp hp1 (by rw [e])).2 List.nil_prefix
          have hc2 : c ≠ target := fun e => (apart_cons.mp hp2 (by rw [e])).2 List.nil_prefix
          simp only [value_at, ho c hc1 hc2]

theorem overFiles_ok {f : Json → Res (Option Json)} {R : Json → Json → Prop} : ∀ {files : List Json},
    (∀ j ∈ files, ∃ r, f j = Res.ok r ∧ R j (r.getD j)) →
    ∃ out, overFiles f (files.map some) = (out.map some, Res.ok ()) ∧ List.Forall₂ R files out
  | [], _ => ⟨[], rfl, .nil⟩
  | j :: files, h => by
    obtain ⟨r, hr, hR⟩ := h j (by simp)
    obtain ⟨out, ho, hall⟩ := overFiles_ok (files := files) fun x hx => h x (List.mem_cons_of_mem _ hx)
    refine ⟨r.getD j :: out, ?_, .cons hR hall⟩
    cases r with
    | none => simp only [List.map_cons, overFiles, hr, ho]; rfl
    | some j' => simp only [List.map_cons, overFiles, hr, ho]; rfl

/-- **C131**, if all files can be read and are as expected: the component is moved in every file, and nothing else is changed. What is
missing: if one of the files is missing or not as expected, the files before it are changed and those after it are not, see
`C131_false`. -/
theorem C131_partial {source target id : String} (hne : source ≠ target) {files : List Json} (h : ∀ j ∈ files, Listed source target j) :
    ∃ out, moveToCategory source target id (files.map some) = (out.map some, Res.ok ()) ∧
      List.Forall₂ (Moved source target id) files out :=
  overFiles_ok fun j hj => moveFile_spec hne (h j hj)

end Verif.Helpers
