import Verif.Json.Insert
import Verif.Json.Positions

/-!
# Property C140 for whole files

Source: `/repo/helper_functions/insert_positions.cpp`. Files are jsons whose keys are in the order of the file
(`ordered_json`); what is said here does not depend on the order of keys.
-/

set_option autoImplicit false

namespace Verif.Json

/-! ## Model -/

/-- `sort_json_vectors_by_id` — 108-128: as `sortById`, but without looking for duplicates. -/
def sortFile (j : Json) : Res Json :=
  Res.fold classes j fun j c =>
    match j.find? c with
    | some types => do
      let types' ← sortClass types
      j.set c types'
    | none => Res.ok j

/-- The lists of one type in both files — 69-101. Values that are no lists are null or empty objects, as sorting them throws
otherwise. -/
def placeType : Json → Json → Res Json
  | arr second, arr top => do
    let l ← placeLists second top
    Res.ok (arr l)
  | _, top => Res.ok top

/-- The loop over the types of a class of the positions — 60-102: types that the topology does not have are passed over. -/
def placeClass (second : List (String × Json)) (top : Json) : Res Json :=
  Res.fold second top fun top x =>
    match top.find? x.1 with
    | none => Res.ok top
    | some v => do
      let v' ← placeType x.2 v
      top.set x.1 v'

/-- `insert_positions` — 54-104. `topology[component]` becomes null if it was missing. -/
def placeFile (top second : Json) : Res Json :=
  Res.fold classes top fun top c =>
    match second.find? c with
    | some (obj (x :: m)) => do
      let v ← placeClass (x :: m) ((top.find? c).getD null)
      top.set c v
    | _ => Res.ok top

/-- `main` — 31-52, from the two files that are read to the file that is written. -/
def positionsProgram (top positions : Json) : Res Json := do
  let positions' ← sortFile positions
  let top' ← sortFile top
  placeFile top' positions'

/-! ## Proofs -/

theorem sortFile_eq {j : Json} (hd : Distinct (components j)) : sortFile j = sortById j := by
  unfold sortById
  rw [checkForDuplicates_ok.mpr hd]
  rfl

/-- One step of the loop over the types. -/
def placeStep (top : Json) (x : String × Json) : Res Json :=
  match top.find? x.1 with
  | none => Res.ok top
  | some v => do
    let v' ← placeType x.2 v
    top.set x.1 v'

theorem placeClass_eq (m : List (String × Json)) (top : Json) :
    placeClass m top = Res.fold m top (placeStep) := rfl

/-- What the loop over the types does to one type. -/
def TypePlaced (s t t' : Option Json) : Prop :=
  match s, t with
  | some s, some t => ∃ v, placeType s t = Res.ok v ∧ t' = some v
  | _, _ => t' = t

theorem placeStep_ok {top top' : Json} {x : String × Json} (h : placeStep top x = Res.ok top') :
    TypePlaced (some x.2) (top.find? x.1) (top'.find? x.1) ∧ ∀ k, k ≠ x.1 → top'.find? k = top.find? k := by
  unfold placeStep at h
  cases hf : top.find? x.1 with
  | none =>
    rw [hf] at h
    injection h with h
    subst h
    exact ⟨hf, fun _ _ => rfl⟩
  | some v =>
    rw [hf] at h
    obtain ⟨v', hv, h⟩ := Res.bind_eq_ok.mp h
    have := find_set h
    exact ⟨⟨v', hv, by rw [this, if_pos rfl]⟩, fun k hk => by rw [this, if_neg hk]⟩

theorem placeClass_ok {m : List (String × Json)} (hn : (m.map Prod.fst).Nodup) {top top' : Json}
    (h : placeClass m top = Res.ok top') (k : String) :
    TypePlaced (m.lookup k) (top.find? k) (top'.find? k) := by
  rw [placeClass_eq] at h
  induction m generalizing top with
  | nil =>
    simp only [Res.fold, Res.ok.injEq] at h
    subst h
    simp [List.lookup, TypePlaced]
  | cons x m ih =>
    simp only [Res.fold] at h
    obtain ⟨t1, h1, h⟩ := Res.bind_eq_ok.mp h
    simp only [List.map_cons, List.nodup_cons] at hn
    have := ih hn.2 h
    obtain ⟨h2, h3⟩ := placeStep_ok h1
    obtain ⟨k', w⟩ := x
    simp only [List.lookup]
    cases he : k == k' with
    | true =>
      have := eq_of_beq he
      subst this
      rw [lookup_none_of_notMem hn.1] at this
      simp only [TypePlaced] at this
      simp only at h2 ⊢
      rw [show top'.find? k = t1.find? k from this]
      exact h2
    | false =>
      have hk : k ≠ k' := by simpa using he
      rw [h3 k hk] at this
      exact this

theorem placeClass_throws {m : List (String × Json)} (hn : (m.map Prod.fst).Nodup) {top : Json}
    (hub : ∀ x ∈ m, ∀ v, top.find? x.1 = some v → placeType x.2 v ≠ Res.ub) :
    placeClass m top ≠ Res.ub ∧ (placeClass m top = Res.throws ↔
      ∃ x ∈ m, ∃ v, top.find? x.1 = some v ∧ placeType x.2 v = Res.throws) := by
  rw [placeClass_eq]
  induction m generalizing top with
  | nil => simp [Res.fold]
  | cons x m ih =>
    simp only [List.map_cons, List.nodup_cons] at hn
    simp only [Res.fold]
    cases h1 : placeStep top x with
    | ub =>
      exfalso
      unfold placeStep at h1
      cases hf : top.find? x.1 with
      | none => rw [hf] at h1; cases h1
      | some v =>
        simp only [hf] at h1
        have := hub x (by simp) v hf
        cases hm : placeType x.2 v with
        | ub => exact this hm
        | throws => rw [hm] at h1; cases h1
        | ok v' =>
          obtain ⟨j', hj'⟩ := set_of_find (v := v') hf
          rw [hm, Res.ok_bind, hj'] at h1
          cases h1
    | throws =>
      simp only [Res.throws_bind, ne_eq, reduceCtorEq, not_false_eq_true, true_and, true_iff]
      unfold placeStep at h1
      cases hf : top.find? x.1 with
      | none => rw [hf] at h1; cases h1
      | some v =>
        simp only [hf] at h1
        refine ⟨x, by simp, v, hf, ?_⟩
        cases hm : placeType x.2 v with
        | ub => exact absurd hm (hub x (by simp) v hf)
        | throws => rfl
        | ok v' =>
          obtain ⟨j', hj'⟩ := set_of_find (v := v') hf
          rw [hm, Res.ok_bind, hj'] at h1
          cases h1
    | ok t1 =>
      obtain ⟨h2, h3⟩ := placeStep_ok h1
      have hsame : ∀ y ∈ m, t1.find? y.1 = top.find? y.1 := fun y hy =>
        h3 y.1 fun e => hn.1 (e ▸ List.mem_map_of_mem hy)
      have := ih hn.2 (top := t1) fun y hy v hv => hub y (by simp [hy]) v (hsame y hy ▸ hv)
      simp only [Res.ok_bind]
      refine ⟨this.1, this.2.trans ⟨?_, ?_⟩⟩
      · rintro ⟨y, hy, v, hv, h⟩
        exact ⟨y, by simp [hy], v, hsame y hy ▸ hv, h⟩
      · rintro ⟨y, hy, v, hv, h⟩
        rcases List.mem_cons.mp hy with rfl | hy
        · rw [hv] at h2
          obtain ⟨v', h4, -⟩ := h2
          rw [h] at h4
          cases h4
        · exact ⟨y, hy, v, (hsame y hy).symm ▸ hv, h⟩

/-- One step of the loop over the classes. -/
def placeClassStep (second top : Json) (c : String) : Res Json :=
  match second.find? c with
  | some (obj (x :: m)) => do
    let v ← placeClass (x :: m) ((top.find? c).getD null)
    top.set c v
  | _ => Res.ok top

theorem placeFile_eq (top second : Json) : placeFile top second = (do
    let t ← placeClassStep second top "nodes"
    placeClassStep second t "connections") := by
  show (placeClassStep second top "nodes" >>= fun s => placeClassStep second s "connections" >>= fun t => Res.ok t) = _
  cases placeClassStep second top "nodes" with
  | ok x => simp only [Res.ok_bind]; cases placeClassStep second x "connections" <;> rfl
  | _ => rfl

theorem placeClassStep_spec {second top : Json} {c : String} (ht : top.isObj = true)
    (hc : ∀ v, second.find? c = some v → ∃ m, v = obj m ∧ (m.map Prod.fst).Nodup)
    (hub : ∀ k s t, type? second c k = some s → type? top c k = some t → placeType s t ≠ Res.ub) :
    placeClassStep second top c ≠ Res.ub ∧
    (placeClassStep second top c = Res.throws ↔
      ∃ k s t, type? second c k = some s ∧ type? top c k = some t ∧ placeType s t = Res.throws) ∧
    ∀ r, placeClassStep second top c = Res.ok r → r.isObj = true ∧
      (∀ k, TypePlaced (type? second c k) (type? top c k) (type? r c k)) ∧
      ∀ k, k ≠ c → r.find? k = top.find? k := by
  unfold placeClassStep
  cases hf : second.find? c with
  | none =>
    refine ⟨by simp, by simp [type?, hf], fun r hr => ?_⟩
    injection hr with hr
    subst hr
    exact ⟨ht, fun k => by simp [type?, hf, TypePlaced], fun _ _ => rfl⟩
  | some v =>
    obtain ⟨m, rfl, hn⟩ := hc v hf
    cases m with
    | nil =>
      have hs : ∀ k, type? second c k = none := fun k => by unfold type?; rw [hf]; rfl
      refine ⟨by simp, by simp [hs], fun r hr => ?_⟩
      injection hr with hr
      subst hr
      exact ⟨ht, fun k => by rw [hs]; simp [TypePlaced], fun _ _ => rfl⟩
    | cons x m =>
      have hs : ∀ k, type? second c k = (x :: m).lookup k := fun k => by unfold type?; rw [hf]; rfl
      obtain ⟨h1, h2⟩ := placeClass_throws hn (top := (top.find? c).getD null) (by
        intro y hy v hv
        rw [type_null] at hv
        exact hub y.1 y.2 v (by rw [hs, lookup_of_mem hn hy]) hv)
      have h3 : placeClass (x :: m) ((top.find? c).getD null) = Res.throws ↔
          ∃ k s t, type? second c k = some s ∧ type? top c k = some t ∧ placeType s t = Res.throws := by
        rw [h2]
        constructor
        · rintro ⟨y, hy, v, hv, h⟩
          exact ⟨y.1, y.2, v, by rw [hs, lookup_of_mem hn hy], type_null c top y.1 ▸ hv, h⟩
        · rintro ⟨k, s, t, h4, h5, h6⟩
          rw [hs] at h4
          exact ⟨(k, s), mem_of_lookup h4, t, (type_null c top k).symm ▸ h5, h6⟩
      simp only
      cases hm : placeClass (x :: m) ((top.find? c).getD null) with
      | ub => exact absurd hm h1
      | throws =>
        rw [hm] at h3
        simp only [Res.throws_bind]
        exact ⟨by simp, by simpa using h3, by simp⟩
      | ok v =>
        rw [hm] at h3
        obtain ⟨j', hj'⟩ := set_isObj ht c v
        simp only [Res.ok_bind, hj']
        refine ⟨by simp, by simpa using h3, fun r hr => ?_⟩
        injection hr with hr
        subst hr
        have hfind := find_set hj'
        refine ⟨isObj_set ht hj', fun k => ?_, fun k hk => by rw [hfind, if_neg hk]⟩
        have := placeClass_ok hn hm k
        rw [type_null, ← hs] at this
        have e : type? j' c k = v.find? k := by simp [type?, hfind]
        rw [e]
        exact this

theorem placeFile_spec {second top : Json} (ht : top.isObj = true)
    (hc : ∀ c ∈ classes, ∀ v, second.find? c = some v → ∃ m, v = obj m ∧ (m.map Prod.fst).Nodup)
    (hub : ∀ c ∈ classes, ∀ k s t, type? second c k = some s → type? top c k = some t → placeType s t ≠ Res.ub) :
    placeFile top second ≠ Res.ub ∧
    (placeFile top second = Res.throws ↔
      ∃ c ∈ classes, ∃ k s t, type? second c k = some s ∧ type? top c k = some t ∧ placeType s t = Res.throws) ∧
    ∀ r, placeFile top second = Res.ok r →
      (∀ c ∈ classes, ∀ k, TypePlaced (type? second c k) (type? top c k) (type? r c k)) ∧
      ∀ k ∉ classes, r.find? k = top.find? k := by
  have hne : "connections" ≠ "nodes" := by decide
  rw [placeFile_eq]
  obtain ⟨h1, h2, h3⟩ := placeClassStep_spec (c := "nodes") ht (hc _ (by simp [classes]))
    (hub _ (by simp [classes]))
  have split : (∃ c ∈ classes, ∃ k s t, type? second c k = some s ∧ type? top c k = some t ∧
        placeType s t = Res.throws) ↔
      (∃ k s t, type? second "nodes" k = some s ∧ type? top "nodes" k = some t ∧ placeType s t = Res.throws) ∨
      (∃ k s t, type? second "connections" k = some s ∧ type? top "connections" k = some t ∧
        placeType s t = Res.throws) := by simp [classes]
  rw [split]
  cases hn : placeClassStep second top "nodes" with
  | ub => exact absurd hn h1
  | throws =>
    simp only [Res.throws_bind, true_iff]
    exact ⟨by simp, Or.inl (h2.mp hn), by simp⟩
  | ok t =>
    obtain ⟨h4, h5, h6⟩ := h3 t hn
    have hnn : ¬ ∃ k s t, type? second "nodes" k = some s ∧ type? top "nodes" k = some t ∧
        placeType s t = Res.throws := by
      rw [← h2, hn]; simp
    have hsame := type?_congr (h6 "connections" hne)
    obtain ⟨h7, h8, h9⟩ := placeClassStep_spec (second := second) (top := t) (c := "connections") h4
      (hc _ (by simp [classes])) (by simp only [hsame]; exact hub _ (by simp [classes]))
    simp only [hsame] at h8 h9
    simp only [Res.ok_bind, hnn, false_or]
    refine ⟨h7, h8, fun r hr => ?_⟩
    obtain ⟨-, h10, h11⟩ := h9 r hr
    refine ⟨fun c hc k => ?_, fun k hk => ?_⟩
    · simp only [classes, List.mem_cons, List.not_mem_nil, or_false] at hc
      rcases hc with rfl | rfl
      · rw [type?_congr (h11 "nodes" hne.symm)]; exact h5 k
      · exact h10 k
    · simp only [classes, List.mem_cons, List.not_mem_nil, or_false, not_or] at hk
      rw [h11 _ hk.2, h6 _ hk.1]

/-- Results of the merge of whole jsons. -/
theorem placeFile_lists {second top : Json} (ht : top.isObj = true) (hs : Shaped second)
    (hd : DistinctTypes second) (ss : SortedLists second) (st : SortedLists top) :
    placeFile top second ≠ Res.ub ∧
    (placeFile top second = Res.throws ↔ ∃ c ∈ classes, ∃ k ls lt, list? second c k = some ls ∧
      list? top c k = some lt ∧ ∃ x ∈ lt, (∀ e ∈ ls, id? e ≠ id? x) ∧ ∃ e ∈ ls, Before x e) ∧
    ∀ r, placeFile top second = Res.ok r →
      (∀ c ∈ classes, ∀ k ls lt, list? second c k = some ls → list? top c k = some lt →
        ∃ l, list? r c k = some l ∧ List.Forall₂ (PlaceFate ls) lt l) ∧
      (∀ c ∈ classes, ∀ k, list? second c k = none ∨ list? top c k = none → list? r c k = list? top c k) ∧
      ∀ k ∉ classes, r.find? k = top.find? k := by
  have shape : ∀ c ∈ classes, ∀ k s, type? second c k = some s → ∃ l, s = arr l := by
    intro c hc k s h
    unfold type? at h
    cases hv : second.find? c with
    | none => simp [hv] at h
    | some v =>
      obtain ⟨m, rfl, hm⟩ := hs c hc v hv
      rw [hv] at h
      exact hm (k, s) (mem_of_lookup h)
  have merge : ∀ c ∈ classes, ∀ k ls lt, list? second c k = some ls → list? top c k = some lt →
      (placeLists ls lt = Res.throws ↔ ∃ x ∈ lt, (∀ e ∈ ls, id? e ≠ id? x) ∧ ∃ e ∈ ls, Before x e) ∧
      placeLists ls lt ≠ Res.ub ∧ ∀ r, placeLists ls lt = Res.ok r → List.Forall₂ (PlaceFate ls) lt r := by
    intro c hc k ls lt h1 h2
    exact placeLists_spec (ss c hc k ls h1).1 (st c hc k lt h2).1 (ss c hc k ls h1).2 (st c hc k lt h2).2
  obtain ⟨h1, h2, h3⟩ := placeFile_spec (second := second) (top := top) ht
    (fun c hc v hv => by
      obtain ⟨m, rfl, -⟩ := hs c hc v hv
      exact ⟨m, rfl, hd c hc m hv⟩)
    (by
      intro c hc k s t h4 h5
      obtain ⟨ls, rfl⟩ := shape c hc k s h4
      cases t with
      | arr lt =>
        have := (merge c hc k ls lt (list_of_type h4) (list_of_type h5)).2.1
        simp only [placeType]
        cases hm : placeLists ls lt with
        | ub => exact absurd hm this
        | _ => simp
      | _ => simp [placeType])
  refine ⟨h1, h2.trans ?_, fun r hr => ?_⟩
  · constructor
    · rintro ⟨c, hc, k, s, t, h4, h5, h6⟩
      obtain ⟨ls, rfl⟩ := shape c hc k s h4
      cases t with
      | arr lt =>
        refine ⟨c, hc, k, ls, lt, list_of_type h4, list_of_type h5, ?_⟩
        rw [← (merge c hc k ls lt (list_of_type h4) (list_of_type h5)).1]
        simp only [placeType] at h6
        cases hm : placeLists ls lt with
        | throws => rfl
        | _ => rw [hm] at h6; cases h6
      | _ => simp [placeType] at h6
    · rintro ⟨c, hc, k, ls, lt, h4, h5, h6⟩
      refine ⟨c, hc, k, arr ls, arr lt, type_of_list h4, type_of_list h5, ?_⟩
      rw [← (merge c hc k ls lt h4 h5).1] at h6
      simp [placeType, h6]
  · obtain ⟨h4, h5⟩ := h3 r hr
    refine ⟨fun c hc k ls lt h6 h7 => ?_, fun c hc k h6 => ?_, h5⟩
    · have := h4 c hc k
      rw [type_of_list h6, type_of_list h7] at this
      obtain ⟨v, hv, hr⟩ := this
      simp only [placeType] at hv
      obtain ⟨l, hl, hv⟩ := Res.bind_eq_ok.mp hv
      injection hv with hv
      subst hv
      exact ⟨l, list_of_type hr, (merge c hc k ls lt h6 h7).2.2 l hl⟩
    · have := h4 c hc k
      have e : type? r c k = type? top c k ∨ ∃ s t, type? second c k = some s ∧ type? top c k = some t ∧
          placeType s t = Res.ok t ∧ type? r c k = some t := by
        cases hs' : type? second c k with
        | none => rw [hs'] at this; left; exact this
        | some s =>
          cases ht' : type? top c k with
          | none => rw [hs', ht'] at this; left; exact this
          | some t =>
            rw [hs', ht'] at this
            obtain ⟨v, hv, hr⟩ := this
            obtain ⟨ls, rfl⟩ := shape c hc k s hs'
            right
            refine ⟨arr ls, t, rfl, rfl, ?_, ?_⟩
            all_goals
              cases t with
              | arr lt =>
                rcases h6 with h6 | h6
                · rw [list_of_type hs'] at h6; cases h6
                · rw [list_of_type ht'] at h6; cases h6
              | _ =>
                simp only [placeType, Res.ok.injEq] at hv ⊢
                try (subst hv; exact hr)
      have : type? r c k = type? top c k := by
        rcases e with e | ⟨s, t, -, h7, -, h8⟩
        · exact e
        · rw [h7, h8]
      show (match type? r c k with | some (arr l) => some l | _ => none) =
        (match type? top c k with | some (arr l) => some l | _ => none)
      rw [this]


/-! ## C140 -/

/-- **C140 for whole files (partial)**: for every topology and every file of positions, in which no id appears twice: the behaviour of the program is never
undefined. It throws exactly if, for a type that both files have, some component has no position although there is a position of this type with a
greater id. If it does not throw, then in the file that is written: a type that both files have has the same components, in the order of their ids, each with
its own position and otherwise unchanged, or unchanged if its id is greater than those of all positions of this type; a type without positions has
the same components, in the order of their ids; no type is added and nothing else is changed. Missing: an exception for a
component without position whose id is greater than those of all positions. -/
theorem C140_file_partial {top positions : Json} (ht : top.isObj = true) (st : Shaped top) (sp : Shaped positions)
    (hd : DistinctTypes positions) (dt : Distinct (components top)) (dp : Distinct (components positions)) :
    positionsProgram top positions ≠ Res.ub ∧
    (positionsProgram top positions = Res.throws ↔
      ∃ c ∈ classes, ∃ k ls lt, list? positions c k = some ls ∧ list? top c k = some lt ∧
        ∃ x ∈ lt, (∀ e ∈ ls, id? e ≠ id? x) ∧ ∃ e ∈ ls, ∃ s t, id? x = some s ∧ id? e = some t ∧ s < t) ∧
    ∀ r, positionsProgram top positions = Res.ok r →
      (∀ c ∈ classes, ∀ k ls lt, list? positions c k = some ls → list? top c k = some lt →
        ∃ sorted l, list? r c k = some l ∧ sorted.Perm lt ∧ SortedById sorted ∧
          List.Forall₂ (fun x x' => (∃ e ∈ ls, id? e = id? x ∧ Placed e x x') ∨
            (x' = x ∧ ∀ e ∈ ls, ∃ s t, id? e = some s ∧ id? x = some t ∧ s < t)) sorted l) ∧
      (∀ c ∈ classes, ∀ k lt, list? positions c k = none → list? top c k = some lt →
        ∃ l, list? r c k = some l ∧ l.Perm lt ∧ SortedById l) ∧
      (∀ c ∈ classes, ∀ k, list? top c k = none → list? r c k = none) ∧
      ∀ k ∉ classes, r.find? k = top.find? k := by
  unfold positionsProgram
  rw [sortFile_eq dt, sortFile_eq dp]
  obtain ⟨top', h1, -⟩ := sortById_shaped st dt
  obtain ⟨positions', h2, -⟩ := sortById_shaped sp dp
  rw [h1, h2]
  simp only [Res.ok_bind]
  obtain ⟨a1, a2, a3, a4⟩ := sortById_after st h1
  obtain ⟨b1, b2, b3, b4⟩ := sortById_after sp h2
  obtain ⟨c1, c2, c3⟩ := C45_sorted st h1
  obtain ⟨d1, d2, d3⟩ := C45_sorted sp h2
  obtain ⟨e1, e2, e3⟩ := placeFile_lists (a4 ht) b2 (b3 hd) b1 a1
  refine ⟨e1, e2.trans ?_, fun r hr => ?_⟩
  · constructor
    · rintro ⟨c, hc, k, ls, lt, h3, h4, x, hx, hn, e, he, hb⟩
      cases hls : list? positions c k with
      | none => rw [d2 c hc k hls] at h3; cases h3
      | some ls0 =>
        cases hlt : list? top c k with
        | none => rw [c2 c hc k hlt] at h4; cases h4
        | some lt0 =>
          obtain ⟨_, h5, h6, -⟩ := d1 c hc k ls0 hls
          obtain ⟨_, h7, h8, -⟩ := c1 c hc k lt0 hlt
          rw [h3] at h5
          rw [h4] at h7
          injection h5 with h5
          injection h7 with h7
          subst h5
          subst h7
          exact ⟨c, hc, k, ls0, lt0, hls, hlt, x, h8.subset hx, fun e he => hn e (h6.symm.subset he), e,
            h6.subset he, hb⟩
    · rintro ⟨c, hc, k, ls, lt, h3, h4, x, hx, hn, e, he, hb⟩
      obtain ⟨ls', h5, h6, -⟩ := d1 c hc k ls h3
      obtain ⟨lt', h7, h8, -⟩ := c1 c hc k lt h4
      exact ⟨c, hc, k, ls', lt', h5, h7, x, h8.symm.subset hx, fun e he => hn e (h6.subset he), e,
        h6.symm.subset he, hb⟩
  · obtain ⟨f1, f2, f3⟩ := e3 r hr
    refine ⟨fun c hc k ls lt h3 h4 => ?_, fun c hc k lt h3 h4 => ?_, fun c hc k h3 => ?_, fun k hk => (f3 k hk).trans (c3 k hk)⟩
    · obtain ⟨ls', h5, h6, -⟩ := d1 c hc k ls h3
      obtain ⟨lt', h7, h8, h9⟩ := c1 c hc k lt h4
      obtain ⟨l, h10, h11⟩ := f1 c hc k ls' lt' h5 h7
      refine ⟨lt', l, h10, h8, h9, h11.imp ?_⟩
      rintro x x' (⟨e, he, h⟩ | ⟨h, h'⟩)
      · exact Or.inl ⟨e, h6.subset he, h⟩
      · exact Or.inr ⟨h, fun e he => h' e (h6.symm.subset he)⟩
    · obtain ⟨l, h7, h8, h9⟩ := c1 c hc k lt h4
      exact ⟨l, by rw [f2 c hc k (Or.inl (d2 c hc k h3)), h7], h8, h9⟩
    · have h4 := c2 c hc k h3
      rw [f2 c hc k (Or.inr h4), h4]

/-- C140 for whole files in which every component of a type with positions has a position: the program does not throw, and every component has its
position afterwards. -/
theorem C140_file_complete_partial {top positions : Json} (ht : top.isObj = true) (st : Shaped top) (sp : Shaped positions)
    (hd : DistinctTypes positions) (dt : Distinct (components top)) (dp : Distinct (components positions))
    (hall : ∀ c ∈ classes, ∀ k ls lt, list? positions c k = some ls → list? top c k = some lt → ∀ x ∈ lt, ∃ e ∈ ls, id? e = id? x) :
    ∃ r, positionsProgram top positions = Res.ok r ∧
      ∀ c ∈ classes, ∀ k ls lt, list? positions c k = some ls → list? top c k = some lt →
        ∃ sorted l, list? r c k = some l ∧ sorted.Perm lt ∧ SortedById sorted ∧
          List.Forall₂ (fun x x' => ∃ e ∈ ls, id? e = id? x ∧ Placed e x x') sorted l := by
  obtain ⟨h1, h2, h3⟩ := C140_file_partial ht st sp hd dt dp
  cases hr : positionsProgram top positions with
  | ub => exact absurd hr h1
  | throws =>
    obtain ⟨c, hc, k, ls, lt, h4, h5, x, hx, hn, -⟩ := h2.mp hr
    obtain ⟨e, he, hid⟩ := hall c hc k ls lt h4 h5 x hx
    exact absurd hid (hn e he)
  | ok r =>
    refine ⟨r, rfl, fun c hc k ls lt h4 h5 => ?_⟩
    obtain ⟨sorted, l, h6, h7, h8, h9⟩ := (h3 r hr).1 c hc k ls lt h4 h5
    refine ⟨sorted, l, h6, h7, h8, ?_⟩
    rw [List.forall₂_iff_get] at h9 ⊢
    refine ⟨h9.1, fun i hi hi' => ?_⟩
    rcases h9.2 i hi hi' with h | ⟨-, h⟩
    · exact h
    · obtain ⟨e, he, hid⟩ := hall c hc k ls lt h4 h5 _ (h7.subset (List.get_mem _ _))
      obtain ⟨s, t, h10, h11, h12⟩ := h e he
      rw [h10, h11] at hid
      injection hid with hid
      exact absurd hid h12.ne

/-- Positions for the topology of the examples, in another order, with a position that is not needed and a type that the topology does not have. -/
def examplePositions : Json :=
  obj [("nodes", obj [("Sink", arr [located "z" 0 0]), ("Source", arr [located "c" 5 6, located "a" 1 2, located "b" 3 4])])]

/-- A concrete case. -/
example : positionsProgram exampleTopology examplePositions =
    Res.ok (obj [("connections", obj [("Pipe", arr [entry "p"])]),
      ("nodes", obj [("Source", arr [located "a" 1 2, located "b" 3 4])])]) := rfl

/-- The hypotheses of `C140_file_partial` and `C140_file_complete_partial` hold in this case. -/
example : exampleTopology.isObj = true ∧ Shaped exampleTopology ∧ Shaped examplePositions ∧ DistinctTypes examplePositions ∧
    Distinct (components exampleTopology) ∧ Distinct (components examplePositions) := by
  refine ⟨rfl, exampleTopology_shaped, fun c hc v hv => ?_, fun c hc m hm => ?_, ⟨["b", "a", "p"], rfl, by decide⟩,
    ⟨["z", "c", "a", "b"], rfl, by decide⟩⟩
  · simp only [classes, List.mem_cons, List.not_mem_nil, or_false] at hc
    rcases hc with rfl | rfl
    · injection hv with hv; subst hv; exact ⟨_, rfl, by simp⟩
    · cases hv
  · simp only [classes, List.mem_cons, List.not_mem_nil, or_false] at hc
    rcases hc with rfl | rfl
    · injection hm with hm; injection hm with hm; subst hm; simp
    · cases hm

end Verif.Json
