import Verif.Json.Basic
import Verif.Basic.Loop
import Mathlib.Data.List.Sort
import Mathlib.Data.List.Perm.Basic

/-!
# Property C45: reading and sorting the ids of the components

Source: `/repo/src/Auxillary/ComponentJsonHelpers/ComponentJsonHelpers.cpp`.
-/

set_option autoImplicit false

namespace Verif.Json

/-- The two classes of components — 23, 71. -/
def classes : List String := ["nodes", "connections"]

/-- The jsons of all components, in the order of the nested loops in lines 23-28. -/
def components (j : Json) : List Json :=
  classes.flatMap fun c =>
    match j.find? c with
    | some types => types.elements.flatMap elements
    | none => []

/-- Reading the id of a component — 29-45. -/
def readId (c : Json) : Res String :=
  if c.contains "id" then do
    let i ← c.index "id"
    i.getStr
  else Res.throws

/-- `get_sorted_ids_of_json` — 20-52. `std::sort` is modelled by insertion sort; the order of strings is total, so
that the sorted list does not depend on the algorithm. -/
def sortedIds (j : Json) : Res (List String) := do
  let ids ← Res.each (components j) readId
  Res.ok (ids.insertionSort (· ≤ ·))

/-- `std::adjacent_find` finds something. -/
def adjacentEqual : List String → Bool
  | a :: b :: l => a == b || adjacentEqual (b :: l)
  | _ => false

/-- `check_for_duplicates` — 54-62. -/
def checkForDuplicates (j : Json) : Res Unit := do
  let ids ← sortedIds j
  if adjacentEqual ids then Res.throws else Res.ok ()

/-- `std::sort` of one list of components — 78-87. The ids are read before sorting instead of in each comparison.
An object that is not empty has no random access iterators; `nlohmann::json` throws. -/
def sortList : Json → Res Json
  | arr l => do
    let ids ← Res.each l fun c => do
      let i ← c.index "id"
      i.getStr
    Res.ok (arr (((ids.zip l).insertionSort fun a b => a.1 ≤ b.1).map Prod.snd))
  | obj (_ :: _) => Res.throws
  | j => Res.ok j

/-- The loop over the component types of one class — 75-88. The keys of `items()` are distinct, so that looking up
the key gives the value at hand. Looking up a string in an array throws. -/
def sortClass : Json → Res Json
  | obj m => do
    let m' ← Res.each m fun x => do
      let v ← sortList x.2
      Res.ok (x.1, v)
    Res.ok (obj m')
  | null => Res.ok null
  | arr [] => Res.ok (arr [])
  | _ => Res.throws

/-- `sort_json_vectors_by_id` — 64-89. -/
def sortById (j : Json) : Res Json := do
  checkForDuplicates j
  Res.fold classes j fun j c =>
    match j.find? c with
    | some types => do
      let types' ← sortClass types
      j.set c types'
    | none => Res.ok j

/-! ## Specification -/

/-- The id of a component, if it has one. -/
def id? (c : Json) : Option String :=
  match c.find? "id" with
  | some (str s) => some s
  | _ => none

/-- The shape demanded by the schemas: nodes and connections are objects whose entries are lists. -/
def Shaped (j : Json) : Prop :=
  ∀ c ∈ classes, ∀ v, j.find? c = some v → ∃ m, v = obj m ∧ ∀ x ∈ m, ∃ l, x.2 = arr l

/-- The list is in strictly increasing order of the ids. -/
def SortedById (l : List Json) : Prop :=
  l.Pairwise fun a b => ∃ s t, id? a = some s ∧ id? b = some t ∧ s < t

/-! ## Proofs -/

theorem readId_eq (c : Json) : readId c = match id? c with
    | some s => Res.ok s
    | none => Res.throws := by
  unfold readId id? contains
  cases h : c.find? "id" with
  | none => simp
  | some v =>
    simp only [Option.isSome_some, if_true, index_of_find h, Res.ok_bind]
    cases v <;> rfl

theorem readId_ne_ub (c : Json) : readId c ≠ Res.ub := by
  rw [readId_eq]; cases id? c <;> simp

theorem readId_ok {c : Json} {s : String} : readId c = Res.ok s ↔ id? c = some s := by
  rw [readId_eq]; cases id? c <;> simp

theorem readId_throws {c : Json} : readId c = Res.throws ↔ id? c = none := by
  rw [readId_eq]; cases id? c <;> simp

theorem index_id {c : Json} {s : String} (h : id? c = some s) :
    (do let i ← c.index "id"; i.getStr) = Res.ok s := by
  unfold id? at h
  cases hf : c.find? "id" with
  | none => simp [hf] at h
  | some v =>
    rw [hf] at h
    rw [index_of_find hf]
    cases v <;> simp_all [getStr]

/-- Reading the ids succeeds exactly if all components have one. -/
theorem each_readId {l : List Json} {ids : List String} :
    Res.each l readId = Res.ok ids ↔ l.map id? = ids.map some := by
  rw [Res.each_eq_ok]
  simp only [readId_ok]
  induction l generalizing ids with
  | nil =>
    simp only [List.forall₂_nil_left_iff, List.map_nil]
    cases ids <;> simp
  | cons a l ih =>
    cases ids with
    | nil => simp
    | cons s ids => simp [List.forall₂_cons, ih]

theorem adjacentEqual_iff {l : List String} (h : l.Pairwise (· ≤ ·)) : adjacentEqual l = true ↔ ¬ l.Nodup := by
  induction l with
  | nil => simp [adjacentEqual]
  | cons a l ih =>
    cases l with
    | nil => simp [adjacentEqual]
    | cons b l =>
      have hp := List.pairwise_cons.mp h
      have := ih hp.2
      simp only [adjacentEqual, Bool.or_eq_true, beq_iff_eq, this, List.nodup_cons (a := a)]
      by_cases hab : a = b
      · simp [hab]
      · have hnot : a ∉ b :: l := by
          intro hm
          rcases List.mem_cons.mp hm with h1 | h1
          · exact hab h1
          · have h2 := hp.1 b (by simp)
            have h3 := (List.pairwise_cons.mp hp.2).1 a h1
            exact hab (le_antisymm h2 h3)
        simp [hab, hnot]

theorem checkForDuplicates_ne_ub (j : Json) : checkForDuplicates j ≠ Res.ub := by
  unfold checkForDuplicates sortedIds
  have := Res.each_ne_ub (l := components j) (f := readId) fun a _ => readId_ne_ub a
  cases h : Res.each (components j) readId with
  | ub => exact absurd h this
  | throws => simp
  | ok ids => simp only [Res.ok_bind]; split <;> simp

theorem checkForDuplicates_ok {j : Json} :
    checkForDuplicates j = Res.ok () ↔
      ∃ ids : List String, (components j).map id? = ids.map some ∧ ids.Nodup := by
  unfold checkForDuplicates sortedIds
  constructor
  · intro h
    obtain ⟨s, hs, h⟩ := Res.bind_eq_ok.mp h
    obtain ⟨ids, hids, hs⟩ := Res.bind_eq_ok.mp hs
    injection hs with hs
    subst hs
    refine ⟨ids, each_readId.mp hids, ?_⟩
    by_contra hn
    rw [if_pos] at h
    · cases h
    · rw [adjacentEqual_iff (List.pairwise_insertionSort _ _)]
      exact fun hn' => hn ((List.perm_insertionSort _ ids).nodup_iff.mp hn')
  · rintro ⟨ids, hids, hn⟩
    rw [each_readId.mpr hids]
    simp only [Res.ok_bind]
    rw [if_neg]
    rw [adjacentEqual_iff (List.pairwise_insertionSort _ _)]
    exact fun h => h ((List.perm_insertionSort _ ids).nodup_iff.mpr hn)

theorem sortList_arr {l : List Json} {ids : List String} (h : l.map id? = ids.map some) (hn : ids.Nodup) :
    ∃ l', sortList (arr l) = Res.ok (arr l') ∧ l'.Perm l ∧ SortedById l' := by
  have hlen : l.length = ids.length := by simpa using congrArg List.length h
  have hr : (Res.each l fun c => do let i ← c.index "id"; i.getStr) = Res.ok ids := by
    rw [Res.each_eq_ok]
    rw [List.forall₂_iff_get]
    refine ⟨hlen, fun i h1 h2 => index_id ?_⟩
    have := congrArg (fun x => x[i]?) h
    simp only [List.getElem?_map, List.getElem?_eq_getElem h1, List.getElem?_eq_getElem h2, Option.map_some] at this
    simpa using this
  refine ⟨((ids.zip l).insertionSort fun a b => a.1 ≤ b.1).map Prod.snd,
    by simp only [sortList, hr, Res.ok_bind], ?_, ?_⟩
  · have := ((List.perm_insertionSort (fun a b : String × Json => a.1 ≤ b.1) (ids.zip l)).map Prod.snd)
    rwa [List.map_snd_zip (by omega)] at this
  · have hs : ((ids.zip l).insertionSort fun a b => a.1 ≤ b.1).Pairwise fun a b => a.1 ≤ b.1 := by
      have : Std.Total fun a b : String × Json => a.1 ≤ b.1 := ⟨fun a b => le_total _ _⟩
      have : IsTrans (String × Json) fun a b => a.1 ≤ b.1 := ⟨fun a b c h1 h2 => le_trans h1 h2⟩
      exact List.pairwise_insertionSort _ _
    have hnd : (((ids.zip l).insertionSort fun a b => a.1 ≤ b.1).map Prod.fst).Nodup := by
      have := ((List.perm_insertionSort (fun a b : String × Json => a.1 ≤ b.1) (ids.zip l)).map Prod.fst)
      rw [List.map_fst_zip (by omega)] at this
      exact this.nodup_iff.mpr hn
    have hid : ∀ x ∈ (ids.zip l).insertionSort fun a b => a.1 ≤ b.1, id? x.2 = some x.1 := by
      intro x hx
      rw [List.mem_insertionSort] at hx
      obtain ⟨i, hi, rfl⟩ := List.getElem_of_mem hx
      have h1 : i < l.length := by simp at hi; omega
      have h2 : i < ids.length := by omega
      have := congrArg (fun x => x[i]?) h
      simp only [List.getElem?_map, List.getElem?_eq_getElem h1, List.getElem?_eq_getElem h2, Option.map_some] at this
      simpa using this
    unfold SortedById
    rw [List.pairwise_map]
    have hlt := List.Pairwise.and hs (List.pairwise_map.mp hnd)
    refine List.Pairwise.imp_of_mem ?_ hlt
    intro a b ha hb hab
    exact ⟨a.1, b.1, hid a ha, hid b hb, lt_of_le_of_ne hab.1 hab.2⟩

/-- All components have ids and these are distinct. -/
def Distinct (l : List Json) : Prop := ∃ ids : List String, l.map id? = ids.map some ∧ ids.Nodup

theorem Distinct.sublist {l l' : List Json} (h : Distinct l) (hs : l'.Sublist l) : Distinct l' := by
  obtain ⟨ids, h1, h2⟩ := h
  refine ⟨l'.filterMap id?, ?_, ?_⟩
  · have : ∀ c ∈ l', ∃ s, id? c = some s := by
      intro c hc
      have : id? c ∈ ids.map some := h1 ▸ List.mem_map_of_mem (hs.subset hc)
      obtain ⟨s, -, hs⟩ := List.mem_map.mp this
      exact ⟨s, hs.symm⟩
    clear hs
    induction l' with
    | nil => rfl
    | cons a l' ih =>
      obtain ⟨s, hs⟩ := this a (by simp)
      simp [hs, ih fun c hc => this c (by simp [hc])]
  · have h3 : l.filterMap id? = ids := by
      have : l.filterMap id? = (l.map id?).filterMap id := by simp [List.filterMap_map]
      rw [this, h1, List.filterMap_map]
      exact List.filterMap_some
    rw [← h3] at h2
    exact h2.sublist (hs.filterMap id?)

/-- The lists of the second json are those of the first, sorted. -/
def Sorts (m m' : List (String × Json)) : Prop :=
  List.Forall₂ (fun x y => x.1 = y.1 ∧ ∃ l l', x.2 = arr l ∧ y.2 = arr l' ∧ l'.Perm l ∧ SortedById l') m m'

theorem sublist_flatMap {α β : Type} {l : List α} {f : α → List β} {a : α} (h : a ∈ l) :
    (f a).Sublist (l.flatMap f) := by
  obtain ⟨s, t, rfl⟩ := List.append_of_mem h
  simp only [List.flatMap_append, List.flatMap_cons]
  exact (List.sublist_append_left _ _).trans (List.sublist_append_right _ _)

theorem sortClass_ne_ub {v : Json} (h : Distinct (v.elements.flatMap elements)) : sortClass v ≠ Res.ub := by
  cases v with
  | obj m =>
    have : ∀ x ∈ m, (do let v ← sortList x.2; Res.ok (x.1, v) : Res (String × Json)) ≠ Res.ub := by
      intro x hx
      have hsub : (elements x.2).Sublist ((obj m).elements.flatMap elements) :=
        sublist_flatMap (List.mem_map_of_mem hx)
      cases hx2 : x.2 with
      | arr l =>
        rw [hx2] at hsub
        obtain ⟨ids, h1, h2⟩ := h.sublist (l' := l) hsub
        obtain ⟨l', hl', -⟩ := sortList_arr h1 h2
        rw [hl']; simp
      | obj m => cases m <;> simp [sortList]
      | _ => simp [sortList]
    have := Res.each_ne_ub this
    simp only [sortClass]
    cases he : Res.each m fun x => (do let v ← sortList x.2; Res.ok (x.1, v) : Res (String × Json)) with
    | ub => exact absurd he this
    | _ => simp
  | arr l => cases l <;> simp [sortClass]
  | _ => simp [sortClass]

theorem sortClass_ok {m : List (String × Json)} (hm : ∀ x ∈ m, ∃ l, x.2 = arr l)
    (h : Distinct ((obj m).elements.flatMap elements)) :
    ∃ m', sortClass (obj m) = Res.ok (obj m') ∧ Sorts m m' := by
  suffices ∃ m', (Res.each m fun x => (do let v ← sortList x.2; Res.ok (x.1, v) : Res (String × Json))) = Res.ok m' ∧
      Sorts m m' by
    obtain ⟨m', h1, h2⟩ := this
    exact ⟨m', by simp only [sortClass, h1, Res.ok_bind], h2⟩
  induction m with
  | nil => exact ⟨[], rfl, .nil⟩
  | cons x m ih =>
    obtain ⟨m', h1, h2⟩ := ih (fun y hy => hm y (by simp [hy])) (h.sublist (by
      simp only [elements, List.map_cons, List.flatMap_cons]
      exact List.sublist_append_right _ _))
    obtain ⟨l, hl⟩ := hm x (by simp)
    obtain ⟨ids, h3, h4⟩ := h.sublist (l' := l) (by
      simp only [elements, List.map_cons, List.flatMap_cons, hl]
      exact List.sublist_append_left _ _)
    obtain ⟨l', hl', hp, hs⟩ := sortList_arr h3 h4
    refine ⟨(x.1, arr l') :: m', by simp [Res.each, hl, hl', h1], ?_⟩
    exact .cons ⟨rfl, l, l', hl, rfl, hp, hs⟩ h2

theorem find_set {j j' v : Json} {c : String} (h : j.set c v = Res.ok j') (key : String) :
    j'.find? key = if key = c then some v else j.find? key := by
  cases j with
  | obj m =>
    simp only [set, Res.ok.injEq] at h
    subst h
    split
    · next e => subst e; exact lookup_insert_self _ _ _
    · next e => exact lookup_insert_of_ne _ _ e
  | null =>
    simp only [set, Res.ok.injEq] at h
    subst h
    simp only [find?]
    split
    · next e => subst e; simp [List.lookup]
    · next e => have : (key == c) = false := by simpa using e
                simp [List.lookup, this]
  | _ => simp [set] at h

theorem set_of_find {j v w : Json} {c : String} (h : j.find? c = some w) : ∃ j', j.set c v = Res.ok j' := by
  cases j <;> simp_all [set, find?]

/-- The body of the loop over the classes. -/
theorem sortStep_ok {j v w : Json} {c : String} (h : j.find? c = some v) (hw : sortClass v = Res.ok w) :
    ∃ j', (do let types' ← sortClass v; j.set c types' : Res Json) = Res.ok j' ∧
      ∀ key, j'.find? key = if key = c then some w else j.find? key := by
  obtain ⟨j', hj'⟩ := set_of_find (v := w) h
  exact ⟨j', by simp [hw, hj'], find_set hj'⟩

/-- What the second part of `sortById` does to a class. -/
def ClassSorted (v v' : Option Json) : Prop :=
  match v with
  | none => v' = none
  | some w => ∃ m m', w = obj m ∧ v' = some (obj m') ∧ Sorts m m'

theorem components_eq (j : Json) : components j =
    (match j.find? "nodes" with | some t => t.elements.flatMap elements | none => []) ++
    (match j.find? "connections" with | some t => t.elements.flatMap elements | none => []) := by
  simp [components, classes]

theorem class_sublist {j v : Json} {c : String} (hc : c ∈ classes) (h : j.find? c = some v) :
    (v.elements.flatMap elements).Sublist (components j) := by
  have := sublist_flatMap (l := classes) (f := fun c =>
    match j.find? c with
    | some types => types.elements.flatMap elements
    | none => []) hc
  simp only [h] at this
  exact this

/-- One step of the loop over the classes. -/
def sortStep (j : Json) (c : String) : Res Json :=
  match j.find? c with
  | some types => do
    let types' ← sortClass types
    j.set c types'
  | none => Res.ok j

theorem sortStep_shaped {j : Json} {c : String} (hs : ∀ v, j.find? c = some v → ∃ m, v = obj m ∧ ∀ x ∈ m, ∃ l, x.2 = arr l)
    (hd : ∀ v, j.find? c = some v → Distinct (v.elements.flatMap elements)) :
    ∃ j', sortStep j c = Res.ok j' ∧ ClassSorted (j.find? c) (j'.find? c) ∧
      ∀ key, key ≠ c → j'.find? key = j.find? key := by
  unfold sortStep
  cases h : j.find? c with
  | none => exact ⟨j, rfl, h, fun _ _ => rfl⟩
  | some v =>
    obtain ⟨m, rfl, hm⟩ := hs v h
    obtain ⟨m', h1, h2⟩ := sortClass_ok hm (hd _ h)
    obtain ⟨j', h3, h4⟩ := sortStep_ok h h1
    refine ⟨j', h3, ⟨m, m', rfl, by rw [h4, if_pos rfl], h2⟩, fun key hk => by rw [h4, if_neg hk]⟩

theorem sortStep_ne_ub {j : Json} {c : String} (hd : ∀ v, j.find? c = some v → Distinct (v.elements.flatMap elements)) :
    sortStep j c ≠ Res.ub ∧ ∀ j', sortStep j c = Res.ok j' → ∀ key, key ≠ c → j'.find? key = j.find? key := by
  unfold sortStep
  cases h : j.find? c with
  | none => exact ⟨by simp, fun j' h => by injection h with h; subst h; exact fun _ _ => rfl⟩
  | some v =>
    have := sortClass_ne_ub (hd v h)
    cases hv : sortClass v with
    | ub => exact absurd hv this
    | throws => simp [hv]
    | ok w =>
      obtain ⟨j', h3, h4⟩ := sortStep_ok h hv
      refine ⟨by simp only [h3]; simp, fun j'' h5 key hk => ?_⟩
      simp only [h3] at h5
      injection h5 with h5
      subst h5
      rw [h4, if_neg hk]

theorem sortById_eq (j : Json) : sortById j = (do
    checkForDuplicates j
    let j1 ← sortStep j "nodes"
    sortStep j1 "connections") := by
  unfold sortById
  simp only [classes, Res.fold]
  cases checkForDuplicates j with
  | ok u =>
    simp only [Res.ok_bind]
    show (sortStep j "nodes" >>= fun s => sortStep s "connections" >>= fun t => Res.ok t) = _
    cases sortStep j "nodes" with
    | ok x => simp only [Res.ok_bind]; cases sortStep x "connections" <;> rfl
    | _ => rfl
  | _ => rfl

theorem sortById_shaped {j : Json} (hs : Shaped j) (hd : Distinct (components j)) :
    ∃ j', sortById j = Res.ok j' ∧ (∀ c ∈ classes, ClassSorted (j.find? c) (j'.find? c)) ∧
      ∀ key ∉ classes, j'.find? key = j.find? key := by
  obtain ⟨j1, h1, h2, h3⟩ := sortStep_shaped (c := "nodes") (hs "nodes" (by simp [classes]))
    fun v hv => hd.sublist (class_sublist (by simp [classes]) hv)
  have hne : "connections" ≠ "nodes" := by decide
  obtain ⟨j2, h4, h5, h6⟩ := sortStep_shaped (j := j1) (c := "connections")
    (by rw [h3 _ hne]; exact hs "connections" (by simp [classes]))
    (by rw [h3 _ hne]; exact fun v hv => hd.sublist (class_sublist (by simp [classes]) hv))
  refine ⟨j2, ?_, ?_, ?_⟩
  · rw [sortById_eq, checkForDuplicates_ok.mpr hd]
    simp only [Res.ok_bind, h1, h4]
  · intro c hc
    simp only [classes, List.mem_cons, List.not_mem_nil, or_false] at hc
    rcases hc with rfl | rfl
    · rw [h6 _ hne.symm]; exact h2
    · rw [← h3 _ hne]; exact h5
  · intro key hk
    simp only [classes, List.mem_cons, List.not_mem_nil, or_false, not_or] at hk
    rw [h6 _ hk.2, h3 _ hk.1]

/-! ## C45 -/

/-- The list of the components of a type, if there is one. -/
def list? (j : Json) (c type : String) : Option (List Json) :=
  match (j.find? c).bind fun v => v.find? type with
  | some (arr l) => some l
  | _ => none

/-- C45. Sorting is never undefined, whatever the json is. -/
theorem C45_defined (j : Json) : sortById j ≠ Res.ub := by
  rw [sortById_eq]
  cases hc : checkForDuplicates j with
  | ub => exact absurd hc (checkForDuplicates_ne_ub j)
  | throws => simp
  | ok u =>
    have hd := checkForDuplicates_ok.mp hc
    simp only [Res.ok_bind]
    obtain ⟨h1, h2⟩ := sortStep_ne_ub (j := j) (c := "nodes")
      fun v hv => Distinct.sublist hd (class_sublist (by simp [classes]) hv)
    cases hn : sortStep j "nodes" with
    | ub => exact absurd hn h1
    | throws => simp
    | ok j1 =>
      simp only [Res.ok_bind]
      refine (sortStep_ne_ub (j := j1) (c := "connections") ?_).1
      rw [h2 _ hn _ (by decide)]
      exact fun v hv => Distinct.sublist hd (class_sublist (by simp [classes]) hv)

/-- C45. For every json with lists of components: sorting throws exactly if a component has no id or two
components, of whatever types, have the same one. -/
theorem C45_throws {j : Json} (hs : Shaped j) :
    sortById j = Res.throws ↔
      (∃ c ∈ components j, id? c = none) ∨ ¬ ((components j).map id?).Nodup := by
  constructor
  · intro h
    by_contra hn
    push Not at hn
    have hd : Distinct (components j) := by
      refine ⟨(components j).filterMap id?, ?_, ?_⟩
      · have := hn.1
        generalize components j = l at this
        induction l with
        | nil => rfl
        | cons a l ih =>
          obtain ⟨s, hs⟩ := Option.ne_none_iff_exists'.mp (this a (by simp))
          simp [hs, ih fun c hc => this c (by simp [hc])]
      · have : (components j).filterMap id? = ((components j).map id?).filterMap id := by
          simp [List.filterMap_map]
        rw [this]
        refine List.Nodup.filterMap ?_ hn.2
        simp only [id]
        rintro (_ | a) (_ | b) c h1 h2 <;> simp_all
    obtain ⟨j', hj', -⟩ := sortById_shaped hs hd
    rw [hj'] at h
    cases h
  · intro h
    have hc : checkForDuplicates j = Res.throws := by
      cases hc : checkForDuplicates j with
      | ub => exact absurd hc (checkForDuplicates_ne_ub j)
      | throws => rfl
      | ok u =>
        obtain ⟨ids, h1, h2⟩ := checkForDuplicates_ok.mp hc
        rcases h with ⟨c, hc, hn⟩ | hn
        · have : id? c ∈ ids.map some := h1 ▸ List.mem_map_of_mem hc
          rw [hn] at this
          simp at this
        · rw [h1] at hn
          exact absurd (h2.map (Option.some_injective _)) hn
    rw [sortById_eq, hc]
    rfl

/-- C45. After sorting there are the same lists, each has the same components and is in strictly increasing
order of the ids. Nothing else is changed. -/
theorem C45_sorted {j j' : Json} (hs : Shaped j) (h : sortById j = Res.ok j') :
    (∀ c ∈ classes, ∀ type l, list? j c type = some l →
      ∃ l', list? j' c type = some l' ∧ l'.Perm l ∧ SortedById l') ∧
    (∀ c ∈ classes, ∀ type, list? j c type = none → list? j' c type = none) ∧
    ∀ key ∉ classes, j'.find? key = j.find? key := by
  have hd : Distinct (components j) := by
    rw [sortById_eq] at h
    obtain ⟨u, hu, -⟩ := Res.bind_eq_ok.mp h
    exact checkForDuplicates_ok.mp hu
  obtain ⟨j'', h1, h2, h3⟩ := sortById_shaped hs hd
  rw [h] at h1
  injection h1 with h1
  subst h1
  have key : ∀ m m' : List (String × Json), Sorts m m' → ∀ type,
      match m.lookup type with
      | some v => ∃ l l', v = arr l ∧ m'.lookup type = some (arr l') ∧ l'.Perm l ∧ SortedById l'
      | none => m'.lookup type = none := by
    intro m m' hm type
    induction hm with
    | nil => simp [List.lookup]
    | @cons x y m m' hxy _ ih =>
      obtain ⟨x1, x2⟩ := x
      obtain ⟨y1, y2⟩ := y
      obtain ⟨rfl, l, l', rfl, rfl, hp, hl⟩ := hxy
      simp only [List.lookup]
      cases type == x1 with
      | true => exact ⟨l, l', rfl, rfl, hp, hl⟩
      | false => exact ih
  refine ⟨?_, ?_, h3⟩
  · intro c hc type l hl
    have := h2 c hc
    unfold list? at hl ⊢
    cases hj : j.find? c with
    | none => simp [hj] at hl
    | some v =>
      rw [hj] at this hl
      obtain ⟨m, m', rfl, hm', hsort⟩ := this
      have := key m m' hsort type
      rw [hm']
      simp only [Option.bind_some, find?] at hl ⊢
      cases hm : m.lookup type with
      | none => simp [hm] at hl
      | some w =>
        rw [hm] at this hl
        obtain ⟨l0, l', rfl, h5, h6, h7⟩ := this
        simp only [Option.some.injEq] at hl
        subst hl
        exact ⟨l', by rw [h5], h6, h7⟩
  · intro c hc type hl
    have := h2 c hc
    unfold list? at hl ⊢
    cases hj : j.find? c with
    | none => rw [hj] at this; rw [show j'.find? c = none from this]; rfl
    | some v =>
      rw [hj] at this hl
      obtain ⟨m, m', rfl, hm', hsort⟩ := this
      have := key m m' hsort type
      rw [hm']
      simp only [Option.bind_some, find?] at hl ⊢
      cases hm : m.lookup type with
      | none => rw [hm] at this; simp only at this; rw [this]
      | some w =>
        rw [hm] at this hl
        obtain ⟨l0, l', rfl, -⟩ := this
        simp at hl

/-! ### Examples -/

/-- A component with this id. -/
def entry (s : String) : Json := obj [("id", str s)]

/-- Two sources and a pipe. -/
def exampleTopology : Json :=
  obj [("connections", obj [("Pipe", arr [entry "p"])]), ("nodes", obj [("Source", arr [entry "b", entry "a"])])]

theorem exampleTopology_shaped : Shaped exampleTopology := by
  intro c hc v hv
  simp only [classes, List.mem_cons, List.not_mem_nil, or_false] at hc
  rcases hc with rfl | rfl
  · injection hv with hv; subst hv; exact ⟨_, rfl, by simp⟩
  · injection hv with hv; subst hv; exact ⟨_, rfl, by simp⟩

example : sortById exampleTopology = Res.ok
    (obj [("connections", obj [("Pipe", arr [entry "p"])]), ("nodes", obj [("Source", arr [entry "a", entry "b"])])]) := by
  rfl

/-- A node and an edge with the same id. -/
example : sortById (obj [("connections", obj [("Pipe", arr [entry "a"])]),
    ("nodes", obj [("Source", arr [entry "b", entry "a"])])]) = Res.throws := by rfl

/-- A component without an id. -/
example : sortById (obj [("nodes", obj [("Source", arr [obj []])])]) = Res.throws := by rfl

end Verif.Json
