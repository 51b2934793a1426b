import Verif.Graph.Model
import Verif.Json.Insert

/-!
# Property C95: the order of the entries of the topology and the boundary values does not matter

Sources: `/repo/src/Auxillary/ComponentJsonHelpers/ComponentJsonHelpers.cpp`, `/repo/src/Model/Netfactory/Netfactory.cpp`.
-/

set_option autoImplicit false

namespace Verif.Json

/-! ## Specification -/

/-- Two lists of components with the same entries, possibly in another order (or the same json). -/
def ReorderedList (v v' : Json) : Prop := v = v' ∨ ∃ l l', v = arr l ∧ v' = arr l' ∧ l.Perm l'

/-- The same types, each with the same entries, possibly in another order. -/
def ReorderedTypes (v v' : Json) : Prop :=
  v = v' ∨ ∃ m m', v = obj m ∧ v' = obj m' ∧ List.Forall₂ (fun x y => x.1 = y.1 ∧ ReorderedList x.2 y.2) m m'

/-- Two jsons that differ only in the order of the entries of lists of components, of whatever types. -/
def Reordered (j j' : Json) : Prop :=
  j = j' ∨ ∃ m m', j = obj m ∧ j' = obj m' ∧
    List.Forall₂ (fun x y => x.1 = y.1 ∧ (x.2 = y.2 ∨ x.1 ∈ classes ∧ ReorderedTypes x.2 y.2)) m m'

/-! ## Proofs -/

theorem ReorderedList.refl (v : Json) : ReorderedList v v := Or.inl rfl

theorem ReorderedList.elements {v v' : Json} (h : ReorderedList v v') : v.elements.Perm v'.elements := by
  rcases h with rfl | ⟨l, l', rfl, rfl, h⟩
  · exact .refl _
  · exact h

theorem ReorderedTypes.perm {v v' : Json} (h : ReorderedTypes v v') :
    (v.elements.flatMap elements).Perm (v'.elements.flatMap elements) := by
  rcases h with rfl | ⟨m, m', rfl, rfl, h⟩
  · exact .refl _
  · simp only [elements]
    induction h with
    | nil => exact .refl _
    | cons h1 _ ih =>
      simp only [List.map_cons, List.flatMap_cons]
      exact h1.2.elements.append ih

/-- What is at a class in both jsons. -/
def ReorderedAt (v v' : Option Json) : Prop :=
  match v, v' with
  | some w, some w' => ReorderedTypes w w'
  | none, none => True
  | _, _ => False

theorem ReorderedAt.refl (v : Option Json) : ReorderedAt v v := by
  cases v with
  | none => trivial
  | some w => exact Or.inl rfl

theorem Reordered.at {j j' : Json} (h : Reordered j j') (c : String) : ReorderedAt (j.find? c) (j'.find? c) := by
  rcases h with rfl | ⟨m, m', rfl, rfl, h⟩
  · exact .refl _
  · simp only [find?]
    induction h with
    | nil => trivial
    | @cons x y m m' h1 _ ih =>
      obtain ⟨k, w⟩ := x
      obtain ⟨k', w'⟩ := y
      obtain ⟨e, h2⟩ := h1
      simp only at e h2
      subst e
      rw [lookup_cons, lookup_cons]
      split
      · rcases h2 with rfl | ⟨-, h2⟩
        · exact .refl _
        · exact h2
      · exact ih

theorem Reordered.components {j j' : Json} (h : Reordered j j') : (components j).Perm (components j') := by
  unfold Json.components
  refine List.Perm.flatMap_left _ fun c _ => ?_
  have := h.at c
  revert this
  cases j.find? c <;> cases j'.find? c <;> intro h
  · exact .refl _
  · exact h.elim
  · exact h.elim
  · exact ReorderedTypes.perm h

theorem Distinct.perm {l l' : List Json} (h : l.Perm l') (hd : Distinct l) : Distinct l' := by
  obtain ⟨ids, h1, h2⟩ := hd
  have h3 : ∀ c ∈ l', ∃ s, id? c = some s := by
    intro c hc
    have : id? c ∈ ids.map some := h1 ▸ List.mem_map_of_mem (h.mem_iff.mpr hc)
    obtain ⟨s, -, hs⟩ := List.mem_map.mp this
    exact ⟨s, hs.symm⟩
  have h4 : l.filterMap id? = ids := by
    have : l.filterMap id? = (l.map id?).filterMap id := by simp [List.filterMap_map]
    rw [this, h1, List.filterMap_map]
    exact List.filterMap_some
  refine ⟨l'.filterMap id?, ?_, ((h.filterMap id?).nodup_iff).mp (h4 ▸ h2)⟩
  clear h h1 h2 h4
  induction l' with
  | nil => rfl
  | cons a l' ih =>
    obtain ⟨s, hs⟩ := h3 a (by simp)
    simp [hs, ih fun c hc => h3 c (by simp [hc])]

theorem checkForDuplicates_perm {j j' : Json} (h : (components j).Perm (components j')) :
    checkForDuplicates j = checkForDuplicates j' := by
  have key : checkForDuplicates j = Res.ok () ↔ checkForDuplicates j' = Res.ok () := by
    rw [checkForDuplicates_ok, checkForDuplicates_ok]
    exact ⟨Distinct.perm h, Distinct.perm h.symm⟩
  have h1 := checkForDuplicates_ne_ub j
  have h2 := checkForDuplicates_ne_ub j'
  cases h3 : checkForDuplicates j <;> cases h4 : checkForDuplicates j' <;> simp_all

/-- Lists in strictly increasing order of the ids with the same entries are the same. -/
theorem SortedById.eq_of_perm {l l' : List Json} (h : l.Perm l') (hs : SortedById l) (hs' : SortedById l') : l = l' := by
  refine List.Perm.eq_of_pairwise ?_ hs hs' h
  rintro a b - - ⟨s, t, h1, h2, h3⟩ ⟨s', t', h4, h5, h6⟩
  rw [h1] at h5
  rw [h2] at h4
  cases h4
  cases h5
  exact absurd h3 (lt_asymm h6)

theorem sortList_reordered {v v' : Json} (h : ReorderedList v v') (hd : Distinct v.elements) :
    sortList v = sortList v' := by
  rcases h with rfl | ⟨l, l', rfl, rfl, h⟩
  · rfl
  · obtain ⟨ids, h1, h2⟩ := hd
    simp only [elements] at h1
    obtain ⟨ids', h1', h2'⟩ := Distinct.perm h ⟨ids, h1, h2⟩
    obtain ⟨r, h3, h4, h5⟩ := sortList_arr h1 h2
    obtain ⟨r', h3', h4', h5'⟩ := sortList_arr h1' h2'
    rw [h3, h3', h5.eq_of_perm (h4.trans (h.trans h4'.symm)) h5']

theorem sortClass_reordered {v v' : Json} (h : ReorderedTypes v v') (hd : Distinct (v.elements.flatMap elements)) :
    sortClass v = sortClass v' := by
  rcases h with rfl | ⟨m, m', rfl, rfl, h⟩
  · rfl
  · simp only [sortClass]
    congr 1
    induction h with
    | nil => rfl
    | @cons x y m m' h1 _ ih =>
      obtain ⟨k, w⟩ := x
      obtain ⟨k', w'⟩ := y
      obtain ⟨e, h2⟩ := h1
      simp only at e h2
      subst e
      simp only [elements, List.map_cons, List.flatMap_cons] at hd ih
      simp only [Res.each]
      rw [sortList_reordered h2 (hd.sublist (List.sublist_append_left _ _)),
        ih (hd.sublist (List.sublist_append_right _ _))]

theorem forall₂_replaceKey {m m' : List (String × Json)} {R : String × Json → String × Json → Prop}
    (h : List.Forall₂ R m m') (hk : ∀ x y, R x y → x.1 = y.1) (c : String) (w : Json) (hr : R (c, w) (c, w)) :
    List.Forall₂ R (replaceKey c w m) (replaceKey c w m') := by
  induction h with
  | nil => exact .nil
  | @cons x y m m' h1 h2 ih =>
    obtain ⟨k, v⟩ := x
    obtain ⟨k', v'⟩ := y
    have := hk _ _ h1
    simp only at this
    subst this
    simp only [replaceKey]
    split
    · next e => subst e; exact .cons hr h2
    · exact .cons h1 ih

theorem forall₂_insertKey {m m' : List (String × Json)} {R : String × Json → String × Json → Prop}
    (h : List.Forall₂ R m m') (hk : ∀ x y, R x y → x.1 = y.1) (c : String) (w : Json) (hr : R (c, w) (c, w)) :
    List.Forall₂ R (insertKey c w m) (insertKey c w m') := by
  induction h with
  | nil => exact .cons hr .nil
  | @cons x y m m' h1 h2 ih =>
    obtain ⟨k, v⟩ := x
    obtain ⟨k', v'⟩ := y
    have := hk _ _ h1
    simp only at this
    subst this
    simp only [insertKey]
    split
    · exact .cons hr (.cons h1 h2)
    · exact .cons h1 ih

/-- Giving both jsons the same value at a key. -/
theorem Reordered.set {j j' r : Json} (h : Reordered j j') {c : String} {w : Json} (hs : j.set c w = Res.ok r) :
    ∃ r', j'.set c w = Res.ok r' ∧ Reordered r r' := by
  rcases h with rfl | ⟨m, m', rfl, rfl, h⟩
  · exact ⟨r, hs, Or.inl rfl⟩
  · simp only [Json.set, Res.ok.injEq] at hs
    subst hs
    refine ⟨_, rfl, Or.inr ⟨_, _, rfl, rfl, ?_⟩⟩
    have hl : (m.lookup c).isSome = (m'.lookup c).isSome := by
      clear w
      induction h with
      | nil => rfl
      | @cons x y m m' h1 _ ih =>
        obtain ⟨k, v⟩ := x
        obtain ⟨k', v'⟩ := y
        have := h1.1
        simp only at this
        subst this
        rw [lookup_cons, lookup_cons]
        split
        · rfl
        · exact ih
    unfold Json.insert
    rw [hl]
    split
    · exact forall₂_replaceKey h (fun _ _ h => h.1) c w ⟨rfl, Or.inl rfl⟩
    · exact forall₂_insertKey h (fun _ _ h => h.1) c w ⟨rfl, Or.inl rfl⟩

/-- The values of both jsons at a class are the same. -/
def SameAt (c : String) (j j' : Json) : Prop := j.find? c = j'.find? c

theorem sortStep_reordered {j j' : Json} (h : Reordered j j') {c : String}
    (hd : ∀ v, j.find? c = some v → Distinct (v.elements.flatMap elements)) :
    (sortStep j c = Res.throws ∧ sortStep j' c = Res.throws) ∨
    ∃ r r', sortStep j c = Res.ok r ∧ sortStep j' c = Res.ok r' ∧ Reordered r r' ∧ r.find? c = r'.find? c ∧
      (∀ k, k ≠ c → r.find? k = j.find? k) ∧ ∀ k, k ≠ c → r'.find? k = j'.find? k := by
  have hat := h.at c
  unfold sortStep
  revert hat hd
  cases h1 : j.find? c with
  | none =>
    cases h2 : j'.find? c with
    | none => intro _ _; exact Or.inr ⟨j, j', rfl, rfl, h, h1.trans h2.symm, fun _ _ => rfl, fun _ _ => rfl⟩
    | some v' => intro _ hat; exact hat.elim
  | some v =>
    cases h2 : j'.find? c with
    | none => intro _ hat; exact hat.elim
    | some v' =>
      intro hd hat
      have he := sortClass_reordered hat (hd v rfl)
      simp only
      rw [← he]
      cases hv : sortClass v with
      | ub => exact absurd hv (sortClass_ne_ub (hd v rfl))
      | throws => exact Or.inl ⟨rfl, rfl⟩
      | ok w =>
        simp only [Res.ok_bind]
        obtain ⟨r, hr⟩ := set_of_find (v := w) h1
        obtain ⟨r', hr', hrr⟩ := h.set hr
        refine Or.inr ⟨r, r', hr, hr', hrr, ?_, fun k hk => ?_, fun k hk => ?_⟩
        · rw [find_set hr, find_set hr', if_pos rfl, if_pos rfl]
        · rw [find_set hr, if_neg hk]
        · rw [find_set hr', if_neg hk]

/-- Jsons that differ at most in the order of the entries of the classes, and do not differ there, are the same, if the keys
of objects are distinct. -/
theorem Reordered.eq {j j' : Json} (h : Reordered j j') (hn : ∀ m, j = obj m → (m.map Prod.fst).Nodup)
    (hc : ∀ c ∈ classes, j.find? c = j'.find? c) : j = j' := by
  rcases h with rfl | ⟨m, m', rfl, rfl, h⟩
  · rfl
  · congr 1
    replace hn := hn m rfl
    simp only [find?] at hc
    induction h with
    | nil => rfl
    | @cons x y m m' h1 h2 ih =>
      obtain ⟨k, v⟩ := x
      obtain ⟨k', v'⟩ := y
      obtain ⟨e, h3⟩ := h1
      simp only at e h3
      subst e
      simp only [List.map_cons, List.nodup_cons] at hn
      have hk : m'.map Prod.fst = m.map Prod.fst := by
        clear ih hc hn
        induction h2 with
        | nil => rfl
        | cons h1 _ ih => simp [h1.1, ih]
      have hv : v = v' := by
        rcases h3 with h3 | ⟨h3, -⟩
        · exact h3
        · have := hc k h3
          rw [lookup_cons, lookup_cons, if_pos rfl, if_pos rfl] at this
          exact Option.some.inj this
      subst hv
      congr 1
      refine ih (fun c hcc => ?_) hn.2
      have := hc c hcc
      rw [lookup_cons, lookup_cons] at this
      split at this
      · next e =>
        subst e
        rw [lookup_none_of_notMem hn.1, lookup_none_of_notMem (hk ▸ hn.1)]
      · exact this

theorem keys_insert_nodup {m : List (String × Json)} (hn : (m.map Prod.fst).Nodup) (c : String) (w : Json) :
    ((Json.insert c w m).map Prod.fst).Nodup := by
  unfold Json.insert
  split
  · have : ∀ m : List (String × Json), (replaceKey c w m).map Prod.fst = m.map Prod.fst := by
      intro m
      induction m with
      | nil => rfl
      | cons x m ih =>
        obtain ⟨k, v⟩ := x
        simp only [replaceKey]
        split
        · rfl
        · simp [ih]
    rw [this]; exact hn
  · next h =>
    have hp : ∀ m : List (String × Json), ((insertKey c w m).map Prod.fst).Perm (c :: m.map Prod.fst) := by
      intro m
      induction m with
      | nil => exact .refl _
      | cons x m ih =>
        obtain ⟨k, v⟩ := x
        simp only [insertKey]
        split
        · exact .refl _
        · simp only [List.map_cons]
          exact (ih.cons k).trans (.swap _ _ _)
    rw [(hp m).nodup_iff, List.nodup_cons]
    refine ⟨fun hm => h ?_, hn⟩
    obtain ⟨x, hx, rfl⟩ := List.mem_map.mp hm
    rw [lookup_of_mem hn hx]
    rfl

/-- No key occurs twice at the top level. This holds for every `nlohmann::json`. -/
def DistinctKeys (j : Json) : Prop := ∀ m, j = obj m → (m.map Prod.fst).Nodup

theorem DistinctKeys.set {j r w : Json} {c : String} (h : DistinctKeys j) (hs : j.set c w = Res.ok r) : DistinctKeys r := by
  cases j with
  | null => simp only [Json.set, Res.ok.injEq] at hs; subst hs; intro m hm; injection hm with hm; subst hm; simp
  | obj m =>
    simp only [Json.set, Res.ok.injEq] at hs
    subst hs
    intro m' hm
    injection hm with hm
    subst hm
    exact keys_insert_nodup (h m rfl) c w
  | _ => simp [Json.set] at hs

theorem DistinctKeys.sortStep {j r : Json} {c : String} (h : DistinctKeys j) (hs : sortStep j c = Res.ok r) :
    DistinctKeys r := by
  unfold Json.sortStep at hs
  split at hs
  · obtain ⟨w, -, hs⟩ := Res.bind_eq_ok.mp hs
    exact h.set hs
  · injection hs with hs
    subst hs
    exact h

/-- C95. Sorting the components gives the same json for every order of the entries in a file, or throws for every order. -/
theorem C95_sorted {j j' : Json} (hn : DistinctKeys j) (h : Reordered j j') : sortById j = sortById j' := by
  rw [sortById_eq, sortById_eq, checkForDuplicates_perm h.components]
  cases hc : checkForDuplicates j' with
  | ub => rfl
  | throws => rfl
  | ok u =>
    have hd : Distinct (components j) := Distinct.perm h.components.symm (checkForDuplicates_ok.mp hc)
    simp only [Res.ok_bind]
    have hne : "connections" ≠ "nodes" := by decide
    rcases sortStep_reordered h (c := "nodes") fun v hv => hd.sublist (class_sublist (by simp [classes]) hv) with
      ⟨h1, h2⟩ | ⟨r, r', h1, h2, h3, h4, h5, h6⟩
    · rw [h1, h2]
    · rw [h1, h2]
      simp only [Res.ok_bind]
      rcases sortStep_reordered h3 (c := "connections")
          (by rw [h5 _ hne]; exact fun v hv => hd.sublist (class_sublist (by simp [classes]) hv)) with
        ⟨g1, g2⟩ | ⟨s, s', g1, g2, g3, g4, g5, g6⟩
      · rw [g1, g2]
      · rw [g1, g2]
        congr 1
        refine g3.eq ((hn.sortStep h1).sortStep g1) fun c hcc => ?_
        simp only [classes, List.mem_cons, List.not_mem_nil, or_false] at hcc
        rcases hcc with rfl | rfl
        · rw [g5 _ hne.symm, g6 _ hne.symm, h4]
        · exact g4

end Verif.Json

namespace Verif.Factory

open Verif.Json

/-- C95. The network does not depend on the order of the entries in the topology and in the boundary values: for every order the
same nodes and edges are built, with the same numbers, or building throws (or is undefined) for every order. -/
theorem C95_network {ν ε : Type} (valid : Json → Json → Bool) (nodeTypes : List (String × ComponentType ν))
    (edgeTypes : List (String × ComponentType ε)) {topology topology' boundary boundary' : Json}
    (ht : DistinctKeys topology) (hb : DistinctKeys boundary) (h : Reordered topology topology')
    (h' : Reordered boundary boundary') :
    buildNet valid nodeTypes edgeTypes topology boundary = buildNet valid nodeTypes edgeTypes topology' boundary' := by
  unfold buildNet buildFull
  rw [C95_sorted ht h, C95_sorted hb h']

/-- The hypotheses are met: two pipes in different order. -/
example : Reordered
    (obj [("connections", obj [("Pipe", arr [obj [("id", str "b")], obj [("id", str "a")]])]), ("nodes", obj [])])
    (obj [("connections", obj [("Pipe", arr [obj [("id", str "a")], obj [("id", str "b")]])]), ("nodes", obj [])]) :=
  Or.inr ⟨_, _, rfl, rfl, .cons ⟨rfl, Or.inr ⟨by decide, Or.inr ⟨_, _, rfl, rfl,
    .cons ⟨rfl, Or.inr ⟨_, _, rfl, rfl, .swap _ _ _⟩⟩ .nil⟩⟩⟩ (.cons ⟨rfl, Or.inl rfl⟩ .nil)⟩

example : sortById
    (obj [("connections", obj [("Pipe", arr [obj [("id", str "b")], obj [("id", str "a")]])]), ("nodes", obj [])]) =
    Res.ok (obj [("connections", obj [("Pipe", arr [obj [("id", str "a")], obj [("id", str "b")]])]), ("nodes", obj [])]) := by
  rfl

end Verif.Factory
