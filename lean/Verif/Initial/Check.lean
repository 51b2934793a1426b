import Verif.Initial.Model

/-!
# Property C47: missing data are detected

Loading initial values, controls or bounds throws if some component of the network has no entry.
-/

set_option autoImplicit false

namespace Verif.Initial

open Verif.Json

/-! ## Specification -/

/-- The json has an entry with this id. -/
def HasEntry (json : Json) (id : String) : Prop := ∃ e ∈ components json, id? e = some id

/-- All entries of the json have an id. -/
def AllHaveIds (json : Json) : Prop := ∀ e ∈ components json, ∃ s, id? e = some s

/-! ## Proofs -/

theorem compareIds_error {ids json : List String} (hi : ids.Pairwise (· < ·)) (hj : json.Pairwise (· ≤ ·)) :
    ∀ s, s ∈ (compareIds ids json).1 ↔ s ∈ ids ∧ s ∉ json := by
  induction hn : ids.length + json.length using Nat.strong_induction_on generalizing ids json with
  | _ n ih =>
    intro s
    cases json with
    | nil => rw [compareIds]; simp
    | cons b json =>
      cases ids with
      | nil => rw [compareIds]; · simp
               · simp
      | cons a ids =>
        have hi' := List.pairwise_cons.mp hi
        have hj' := List.pairwise_cons.mp hj
        rw [compareIds]
        split
        · next hba =>
          show s ∈ (compareIds (a :: ids) json).1 ↔ _
          rw [ih _ (by simp at hn ⊢; omega) hi hj'.2 rfl s]
          refine and_congr_right fun hs => ?_
          rw [List.mem_cons, not_or]
          refine ⟨fun h => ⟨?_, h⟩, fun h => h.2⟩
          rintro rfl
          rcases List.mem_cons.mp hs with rfl | hs
          · exact lt_irrefl _ hba
          · exact lt_asymm hba (hi'.1 _ hs)
        · next hba =>
          split
          · next hab =>
            show s ∈ a :: (compareIds ids (b :: json)).1 ↔ _
            rw [List.mem_cons, ih _ (by simp at hn ⊢; omega) hi'.2 hj rfl s, List.mem_cons (a := s) (b := a) (l := ids)]
            constructor
            · rintro (rfl | ⟨h1, h2⟩)
              · refine ⟨Or.inl rfl, fun h => ?_⟩
                rcases List.mem_cons.mp h with h | h
                · exact absurd hab (h ▸ lt_irrefl _)
                · exact absurd (lt_of_lt_of_le hab (hj'.1 _ h)) (lt_irrefl _)
              · exact ⟨Or.inr h1, h2⟩
            · rintro ⟨h1 | h1, h2⟩
              · exact Or.inl h1
              · exact Or.inr ⟨h1, h2⟩
          · next hab =>
            have e : a = b := le_antisymm (not_lt.mp hba) (not_lt.mp hab)
            subst e
            rw [ih _ (by simp at hn ⊢; omega) hi'.2 hj'.2 rfl s, List.mem_cons, List.mem_cons]
            constructor
            · rintro ⟨h1, h2⟩
              refine ⟨Or.inr h1, not_or.mpr ⟨?_, h2⟩⟩
              rintro rfl
              exact lt_irrefl _ (hi'.1 _ h1)
            · rintro ⟨h1, h2⟩
              obtain ⟨h3, h4⟩ := not_or.mp h2
              exact ⟨h1.resolve_left h3, h4⟩

theorem compareIds_warning {ids json : List String} (hi : ids.Pairwise (· < ·)) (hj : json.Pairwise (· ≤ ·)) :
    (∀ s ∈ json, s ∉ ids → s ∈ (compareIds ids json).2) ∧
    ((compareIds ids json).2.Sublist json) ∧
    (json.Nodup → ∀ s ∈ (compareIds ids json).2, s ∉ ids) := by
  induction hn : ids.length + json.length using Nat.strong_induction_on generalizing ids json with
  | _ n ih =>
    cases json with
    | nil => rw [compareIds]; simp
    | cons b json =>
      cases ids with
      | nil => rw [compareIds]; · simp
               · simp
      | cons a ids =>
        have hi' := List.pairwise_cons.mp hi
        have hj' := List.pairwise_cons.mp hj
        rw [compareIds]
        split
        · next hba =>
          obtain ⟨h1, h2, h3⟩ := ih _ (by simp at hn ⊢; omega) hi hj'.2 rfl
          refine ⟨fun s hs hs' => ?_, h2.cons_cons b, fun hnd s hs hs' => ?_⟩
          · rcases List.mem_cons.mp hs with rfl | hs
            · exact List.mem_cons_self
            · exact List.mem_cons_of_mem _ (h1 s hs hs')
          · rcases List.mem_cons.mp hs with rfl | hs
            · rcases List.mem_cons.mp hs' with rfl | hs'
              · exact lt_irrefl _ hba
              · exact lt_asymm hba (hi'.1 _ hs')
            · exact h3 (List.nodup_cons.mp hnd).2 s hs hs'
        · next hba =>
          split
          · next hab =>
            obtain ⟨h1, h2, h3⟩ := ih _ (by simp at hn ⊢; omega) hi'.2 hj rfl
            refine ⟨fun s hs hs' => h1 s hs fun h => hs' (List.mem_cons_of_mem _ h), h2, fun hnd s hs hs' => ?_⟩
            rcases List.mem_cons.mp hs' with rfl | hs'
            · rcases List.mem_cons.mp (h2.subset hs) with h | h
              · exact absurd hab (h ▸ lt_irrefl _)
              · exact absurd (lt_of_lt_of_le hab (hj'.1 _ h)) (lt_irrefl _)
            · exact h3 hnd s hs hs'
          · next hab =>
            have e : a = b := le_antisymm (not_lt.mp hba) (not_lt.mp hab)
            subst e
            obtain ⟨h1, h2, h3⟩ := ih _ (by simp at hn ⊢; omega) hi'.2 hj'.2 rfl
            refine ⟨fun s hs hs' => ?_, h2.cons a, fun hnd s hs hs' => ?_⟩
            · rcases List.mem_cons.mp hs with rfl | hs
              · exact absurd List.mem_cons_self hs'
              · exact h1 s hs fun h => hs' (List.mem_cons_of_mem _ h)
            · rcases List.mem_cons.mp hs' with rfl | hs'
              · exact (List.nodup_cons.mp hnd).1 (h2.subset hs)
              · exact h3 (List.nodup_cons.mp hnd).2 s hs hs'

theorem sorted_of_nodup {ids : List String} (h : ids.Nodup) : (ids.insertionSort (· ≤ ·)).Pairwise (· < ·) := by
  have h1 : (ids.insertionSort (· ≤ ·)).Pairwise (· ≤ ·) := List.pairwise_insertionSort _ _
  have h2 : (ids.insertionSort (· ≤ ·)).Nodup := (List.perm_insertionSort _ ids).nodup_iff.mpr h
  exact h1.imp₂ (fun _ _ h h' => lt_of_le_of_ne h h') h2

theorem sortedIds_spec (json : Json) : sortedIds json ≠ Res.ub ∧ (sortedIds json = Res.throws ↔ ¬ AllHaveIds json) ∧
    ∀ l, sortedIds json = Res.ok l → l.Pairwise (· ≤ ·) ∧ (∀ s, s ∈ l ↔ HasEntry json s) ∧
      (l.Nodup ↔ ((components json).map id?).Nodup) := by
  unfold sortedIds
  have hub := Res.each_ne_ub (l := components json) (f := readId) fun a _ => readId_ne_ub a
  cases h : Res.each (components json) readId with
  | ub => exact absurd h hub
  | throws =>
    refine ⟨by simp, ?_, by simp⟩
    simp only [Res.throws_bind, true_iff]
    intro hall
    have : ∃ ids : List String, (components json).map id? = ids.map some := by
      clear h hub
      unfold AllHaveIds at hall
      revert hall
      induction components json with
      | nil => exact fun _ => ⟨[], rfl⟩
      | cons a l ih =>
        intro hall
        obtain ⟨s, hs⟩ := hall a (by simp)
        obtain ⟨ids, hids⟩ := ih fun e he => hall e (by simp [he])
        exact ⟨s :: ids, by simp [hs, hids]⟩
    obtain ⟨ids, hids⟩ := this
    rw [each_readId.mpr hids] at h
    cases h
  | ok ids =>
    have hids := each_readId.mp h
    refine ⟨by simp, ?_, ?_⟩
    · simp only [Res.ok_bind, reduceCtorEq, false_iff, not_not]
      intro e he
      have : id? e ∈ ids.map some := hids ▸ List.mem_map_of_mem he
      obtain ⟨s, -, hs⟩ := List.mem_map.mp this
      exact ⟨s, hs.symm⟩
    · intro l hl
      simp only [Res.ok_bind, Res.ok.injEq] at hl
      subst hl
      refine ⟨List.pairwise_insertionSort _ _, fun s => ?_, ?_⟩
      · rw [(List.perm_insertionSort _ ids).mem_iff]
        unfold HasEntry
        rw [← List.mem_map_of_injective (Option.some_injective _), ← hids, List.mem_map]
      · rw [(List.perm_insertionSort _ ids).nodup_iff, hids, List.nodup_map_iff (Option.some_injective _)]

/-- C47. For components with distinct ids (see C48): the check is never undefined. It throws exactly if some entry of the
json has no id or some component has no entry. Entries that belong to no component only lead to a warning,
which lists all of them, and nothing else if the ids in the json are distinct. -/
theorem C47_missing {ids : List String} (hi : ids.Nodup) (json : Json) :
    checkComponents ids json ≠ Res.ub ∧
    (checkComponents ids json = Res.throws ↔ ¬ AllHaveIds json ∨ ∃ id ∈ ids, ¬ HasEntry json id) ∧
    ∀ warned, checkComponents ids json = Res.ok warned →
      (∀ s, HasEntry json s → s ∉ ids → s ∈ warned) ∧
      (((components json).map id?).Nodup → ∀ s ∈ warned, HasEntry json s ∧ s ∉ ids) := by
  obtain ⟨h1, h2, h3⟩ := sortedIds_spec json
  unfold checkComponents
  cases h : sortedIds json with
  | ub => exact absurd h h1
  | throws => exact ⟨by simp, by simp [h2.mp h], by simp⟩
  | ok l =>
    obtain ⟨h4, h5, h6⟩ := h3 l h
    have hall : AllHaveIds json := by
      by_contra hc
      rw [h2.mpr hc] at h
      cases h
    have he := compareIds_error (sorted_of_nodup hi) h4
    obtain ⟨w1, w2, w3⟩ := compareIds_warning (sorted_of_nodup hi) h4
    have hm : ∀ s, s ∈ ids.insertionSort (· ≤ ·) ↔ s ∈ ids := fun s => (List.perm_insertionSort _ ids).mem_iff
    simp only [Res.ok_bind]
    refine ⟨by split <;> simp, ?_, ?_⟩
    · simp only [hall, not_true_eq_false, false_or]
      split
      · next hemp =>
        rw [List.isEmpty_iff] at hemp
        rw [hemp] at he
        simp only [reduceCtorEq, false_iff, not_exists, not_and, not_not]
        intro s hs
        by_contra hc
        exact absurd ((he s).mpr ⟨(hm s).mpr hs, fun hl => hc ((h5 s).mp hl)⟩) (by simp)
      · next hemp =>
        rw [List.isEmpty_iff] at hemp
        obtain ⟨s, hs⟩ := List.exists_mem_of_ne_nil _ hemp
        obtain ⟨h7, h8⟩ := (he s).mp hs
        exact ⟨fun _ => ⟨s, (hm s).mp h7, fun hc => h8 ((h5 s).mpr hc)⟩, fun _ => rfl⟩
    · intro warned hw
      split at hw
      · injection hw with hw
        subst hw
        refine ⟨fun s hs hs' => w1 s ((h5 s).mpr hs) fun hc => hs' ((hm s).mp hc), fun hnd s hs => ⟨?_, ?_⟩⟩
        · exact (h5 s).mp (w2.subset hs)
        · exact fun hc => w3 (h6.mpr hnd) s hs ((hm s).mpr hc)
      · cases hw

variable {K : Type} [Field K] [LinearOrder K]

/-- C47. Initial values are only loaded if all components have an entry. -/
theorem C47_initial {cs : List (StateComponent K)} (hi : (cs.map StateComponent.id).Nodup) {vector vector' : List K}
    {json : Json} (h : setInitialValues cs vector json = Res.ok vector') : ∀ c ∈ cs, HasEntry json c.id := by
  unfold setInitialValues at h
  obtain ⟨w, h1, -⟩ := Res.bind_eq_ok.mp h
  intro c hc
  by_contra hn
  rw [(C47_missing hi json).2.1.mpr (Or.inr ⟨c.id, List.mem_map_of_mem hc, hn⟩)] at h1
  cases h1

/-- C47. Controls and bounds are only loaded if all components have an entry. -/
theorem C47_controls {cs : List (ControlComponent K)} (hi : (cs.map ControlComponent.id).Nodup)
    {controls controls' : Interp.IV K} {json : Json} (h : setInitialControls cs controls json = Res.ok controls') :
    ∀ c ∈ cs, HasEntry json c.id := by
  unfold setInitialControls at h
  obtain ⟨w, h1, -⟩ := Res.bind_eq_ok.mp h
  intro c hc
  by_contra hn
  rw [(C47_missing hi json).2.1.mpr (Or.inr ⟨c.id, List.mem_map_of_mem hc, hn⟩)] at h1
  cases h1

/-- Two components, of which one has no entry. -/
example : checkComponents ["p", "q"] (obj [("connections", obj [("Pipe", arr [obj [("id", str "r")],
    obj [("id", str "p")]])])]) = Res.throws := by
  refine (C47_missing (by decide) _).2.1.mpr (Or.inr ⟨"q", by decide, ?_⟩)
  rintro ⟨e, he, hid⟩
  change e ∈ [obj [("id", str "r")], obj [("id", str "p")]] at he
  simp only [List.mem_cons, List.not_mem_nil, or_false] at he
  rcases he with rfl | rfl
  · exact absurd (show id? (obj [("id", str "r")]) = some "r" from rfl) (by rw [hid]; decide)
  · exact absurd (show id? (obj [("id", str "p")]) = some "p" from rfl) (by rw [hid]; decide)

end Verif.Initial
