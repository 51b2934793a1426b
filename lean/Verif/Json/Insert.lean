import Verif.Json.Merge

/-!
# Property C46 for whole jsons

Source: `/repo/src/Model/Netfactory/Netfactory.cpp`.
-/

set_option autoImplicit false

namespace Verif.Json

/-- `build_full_networkproblem_json` — 35-57, after both files have been read. -/
def buildFull (top boundary : Json) : Res Json := do
  let top' ← sortById top
  let boundary' ← sortById boundary
  insertSecond "boundary_values" top' boundary'

/-! ## Specification -/

/-- No type is listed twice in a class. This holds for every `nlohmann::json`. -/
def DistinctTypes (j : Json) : Prop := ∀ c ∈ classes, ∀ m, j.find? c = some (obj m) → (m.map Prod.fst).Nodup

/-! ## Proofs -/

/-- One step of the loop over the types. -/
def mergeStep (name : String) (top : Json) (x : String × Json) : Res Json :=
  match top.find? x.1 with
  | none => Res.ok top
  | some v => do
    let v' ← mergeType name x.2 v
    top.set x.1 v'

theorem mergeClass_eq (name : String) (m : List (String × Json)) (top : Json) :
    mergeClass name m top = Res.fold m top (mergeStep name) := rfl

/-- What the loop over the types does to one type. -/
def TypeMerged (name : String) (s t t' : Option Json) : Prop :=
  match s, t with
  | some s, some t => ∃ v, mergeType name s t = Res.ok v ∧ t' = some v
  | _, _ => t' = t

theorem mergeStep_ok {name : String} {top top' : Json} {x : String × Json} (h : mergeStep name top x = Res.ok top') :
    TypeMerged name (some x.2) (top.find? x.1) (top'.find? x.1) ∧ ∀ k, k ≠ x.1 → top'.find? k = top.find? k := by
  unfold mergeStep at h
  cases hf : top.find? x.1 with
  | none =>
    rw [hf] at h
    injection h with h
    subst h
    exact ⟨hf, fun _ _ => rfl⟩
  | some v =>
    rw [hf] at h
    obtain ⟨v', hv, h⟩ := Res.bind_eq_ok.mp h
    have := find_set h
    exact ⟨⟨v', hv, by rw [this, if_pos rfl]⟩, fun k hk => by rw [this, if_neg hk]⟩

theorem lookup_none_of_notMem {m : List (String × Json)} {k : String} (h : k ∉ m.map Prod.fst) : m.lookup k = none := by
  rw [List.lookup_eq_none_iff]
  intro p hp
  have : k ≠ p.1 := fun e => h (e ▸ List.mem_map_of_mem hp)
  simpa using this

theorem lookup_of_mem {m : List (String × Json)} (hn : (m.map Prod.fst).Nodup) {x : String × Json} (hx : x ∈ m) :
    m.lookup x.1 = some x.2 := by
  induction m with
  | nil => cases hx
  | cons y m ih =>
    obtain ⟨k, w⟩ := y
    simp only [List.map_cons, List.nodup_cons] at hn
    simp only [List.lookup]
    rcases List.mem_cons.mp hx with rfl | hx
    · simp
    · have : x.1 ≠ k := fun e => hn.1 (e ▸ List.mem_map_of_mem hx)
      have : (x.1 == k) = false := by simpa using this
      rw [this]
      exact ih hn.2 hx

theorem mem_of_lookup {m : List (String × Json)} {k : String} {v : Json} (h : m.lookup k = some v) : (k, v) ∈ m := by
  induction m with
  | nil => cases h
  | cons y m ih =>
    obtain ⟨k', w⟩ := y
    simp only [List.lookup] at h
    cases he : k == k' with
    | true =>
      rw [he] at h
      injection h with h
      rw [eq_of_beq he, h]
      exact List.mem_cons_self ..
    | false =>
      rw [he] at h
      exact List.mem_cons_of_mem _ (ih h)

theorem mergeClass_ok {name : String} {m : List (String × Json)} (hn : (m.map Prod.fst).Nodup) {top top' : Json}
    (h : mergeClass name m top = Res.ok top') (k : String) :
    TypeMerged name (m.lookup k) (top.find? k) (top'.find? k) := by
  rw [mergeClass_eq] at h
  induction m generalizing top with
  | nil =>
    simp only [Res.fold, Res.ok.injEq] at h
    subst h
    simp [List.lookup, TypeMerged]
  | cons x m ih =>
    simp only [Res.fold] at h
    obtain ⟨t1, h1, h⟩ := Res.bind_eq_ok.mp h
    simp only [List.map_cons, List.nodup_cons] at hn
    have := ih hn.2 h
    obtain ⟨h2, h3⟩ := mergeStep_ok h1
    obtain ⟨k', w⟩ := x
    simp only [List.lookup]
    cases he : k == k' with
    | true =>
      have := eq_of_beq he
      subst this
      rw [lookup_none_of_notMem hn.1] at this
      simp only [TypeMerged] at this
      simp only at h2 ⊢
      rw [show top'.find? k = t1.find? k from this]
      exact h2
    | false =>
      have hk : k ≠ k' := by simpa using he
      rw [h3 k hk] at this
      exact this

theorem mergeClass_throws {name : String} {m : List (String × Json)} (hn : (m.map Prod.fst).Nodup) {top : Json}
    (hub : ∀ x ∈ m, ∀ v, top.find? x.1 = some v → mergeType name x.2 v ≠ Res.ub) :
    mergeClass name m top ≠ Res.ub ∧ (mergeClass name m top = Res.throws ↔
      ∃ x ∈ m, ∃ v, top.find? x.1 = some v ∧ mergeType name x.2 v = Res.throws) := by
  rw [mergeClass_eq]
  induction m generalizing top with
  | nil => simp [Res.fold]
  | cons x m ih =>
    simp only [List.map_cons, List.nodup_cons] at hn
    simp only [Res.fold]
    cases h1 : mergeStep name top x with
    | ub =>
      exfalso
      unfold mergeStep at h1
      cases hf : top.find? x.1 with
      | none => rw [hf] at h1; cases h1
      | some v =>
        simp only [hf] at h1
        have := hub x (by simp) v hf
        cases hm : mergeType name x.2 v with
        | ub => exact this hm
        | throws => rw [hm] at h1; cases h1
        | ok v' =>
          obtain ⟨j', hj'⟩ := set_of_find (v := v') hf
          rw [hm, Res.ok_bind, hj'] at h1
          cases h1
    | throws =>
      simp only [Res.throws_bind, ne_eq, reduceCtorEq, not_false_eq_true, true_and, true_iff]
      unfold mergeStep at h1
      cases hf : top.find? x.1 with
      | none => rw [hf] at h1; cases h1
      | some v =>
        simp only [hf] at h1
        refine ⟨x, by simp, v, hf, ?_⟩
        cases hm : mergeType name x.2 v with
        | ub => exact absurd hm (hub x (by simp) v hf)
        | throws => rfl
        | ok v' =>
          obtain ⟨j', hj'⟩ := set_of_find (v := v') hf
          rw [hm, Res.ok_bind, hj'] at h1
          cases h1
    | ok t1 =>
      obtain ⟨h2, h3⟩ := mergeStep_ok h1
      have hsame : ∀ y ∈ m, t1.find? y.1 = top.find? y.1 := fun y hy =>
        h3 y.1 fun e => hn.1 (e ▸ List.mem_map_of_mem hy)
      have := ih hn.2 (top := t1) fun y hy v hv => hub y (by simp [hy]) v (hsame y hy ▸ hv)
      simp only [Res.ok_bind]
      refine ⟨this.1, this.2.trans ⟨?_, ?_⟩⟩
      · rintro ⟨y, hy, v, hv, h⟩
        exact ⟨y, by simp [hy], v, hsame y hy ▸ hv, h⟩
      · rintro ⟨y, hy, v, hv, h⟩
        rcases List.mem_cons.mp hy with rfl | hy
        · rw [hv] at h2
          obtain ⟨v', h4, -⟩ := h2
          rw [h] at h4
          cases h4
        · exact ⟨y, hy, v, (hsame y hy).symm ▸ hv, h⟩

/-- One step of the loop over the classes. -/
def insertStep (name : String) (second top : Json) (c : String) : Res Json :=
  match second.find? c with
  | some (obj (x :: m)) => do
    let v ← mergeClass name (x :: m) ((top.find? c).getD null)
    top.set c v
  | _ => Res.ok top

theorem insertSecond_eq (name : String) (top second : Json) : insertSecond name top second = (do
    let t ← insertStep name second top "nodes"
    insertStep name second t "connections") := by
  show (insertStep name second top "nodes" >>= fun s => insertStep name second s "connections" >>= fun t => Res.ok t) = _
  cases insertStep name second top "nodes" with
  | ok x => simp only [Res.ok_bind]; cases insertStep name second x "connections" <;> rfl
  | _ => rfl

/-- The value of a type of a class. -/
def type? (j : Json) (c type : String) : Option Json := (j.find? c).bind fun v => v.find? type

theorem isObj_set {j j' v : Json} {c : String} (hj : j.isObj = true) (h : j.set c v = Res.ok j') : j'.isObj = true := by
  cases j <;> simp_all [isObj, set]
  subst h; rfl

theorem set_isObj {j : Json} (hj : j.isObj = true) (c : String) (v : Json) : ∃ j', j.set c v = Res.ok j' := by
  cases j <;> simp_all [isObj, set]

/-- A class of the second json is nothing, or an object. -/
theorem type_null (c : String) (top : Json) (k : String) :
    ((top.find? c).getD null).find? k = type? top c k := by
  unfold type?
  cases top.find? c <;> rfl

theorem insertStep_spec {name : String} {second top : Json} {c : String} (ht : top.isObj = true)
    (hc : ∀ v, second.find? c = some v → ∃ m, v = obj m ∧ (m.map Prod.fst).Nodup)
    (hub : ∀ k s t, type? second c k = some s → type? top c k = some t → mergeType name s t ≠ Res.ub) :
    insertStep name second top c ≠ Res.ub ∧
    (insertStep name second top c = Res.throws ↔
      ∃ k s t, type? second c k = some s ∧ type? top c k = some t ∧ mergeType name s t = Res.throws) ∧
    ∀ r, insertStep name second top c = Res.ok r → r.isObj = true ∧
      (∀ k, TypeMerged name (type? second c k) (type? top c k) (type? r c k)) ∧
      ∀ k, k ≠ c → r.find? k = top.find? k := by
  unfold insertStep
  cases hf : second.find? c with
  | none =>
    refine ⟨by simp, by simp [type?, hf], fun r hr => ?_⟩
    injection hr with hr
    subst hr
    exact ⟨ht, fun k => by simp [type?, hf, TypeMerged], fun _ _ => rfl⟩
  | some v =>
    obtain ⟨m, rfl, hn⟩ := hc v hf
    cases m with
    | nil =>
      have hs : ∀ k, type? second c k = none := fun k => by unfold type?; rw [hf]; rfl
      refine ⟨by simp, by simp [hs], fun r hr => ?_⟩
      injection hr with hr
      subst hr
      exact ⟨ht, fun k => by rw [hs]; simp [TypeMerged], fun _ _ => rfl⟩
    | cons x m =>
      have hs : ∀ k, type? second c k = (x :: m).lookup k := fun k => by unfold type?; rw [hf]; rfl
      obtain ⟨h1, h2⟩ := mergeClass_throws (name := name) hn (top := (top.find? c).getD null) (by
        intro y hy v hv
        rw [type_null] at hv
        exact hub y.1 y.2 v (by rw [hs, lookup_of_mem hn hy]) hv)
      have h3 : mergeClass name (x :: m) ((top.find? c).getD null) = Res.throws ↔
          ∃ k s t, type? second c k = some s ∧ type? top c k = some t ∧ mergeType name s t = Res.throws := by
        rw [h2]
        constructor
        · rintro ⟨y, hy, v, hv, h⟩
          exact ⟨y.1, y.2, v, by rw [hs, lookup_of_mem hn hy], type_null c top y.1 ▸ hv, h⟩
        · rintro ⟨k, s, t, h4, h5, h6⟩
          rw [hs] at h4
          exact ⟨(k, s), mem_of_lookup h4, t, (type_null c top k).symm ▸ h5, h6⟩
      simp only
      cases hm : mergeClass name (x :: m) ((top.find? c).getD null) with
      | ub => exact absurd hm h1
      | throws =>
        rw [hm] at h3
        simp only [Res.throws_bind]
        exact ⟨by simp, by simpa using h3, by simp⟩
      | ok v =>
        rw [hm] at h3
        obtain ⟨j', hj'⟩ := set_isObj ht c v
        simp only [Res.ok_bind, hj']
        refine ⟨by simp, by simpa using h3, fun r hr => ?_⟩
        injection hr with hr
        subst hr
        have hfind := find_set hj'
        refine ⟨isObj_set ht hj', fun k => ?_, fun k hk => by rw [hfind, if_neg hk]⟩
        have := mergeClass_ok hn hm k
        rw [type_null, ← hs] at this
        have e : type? j' c k = v.find? k := by simp [type?, hfind]
        rw [e]
        exact this

theorem type?_congr {j j' : Json} {c : String} (h : j.find? c = j'.find? c) (k : String) : type? j c k = type? j' c k := by
  unfold type?; rw [h]

theorem insertSecond_spec {name : String} {second top : Json} (ht : top.isObj = true)
    (hc : ∀ c ∈ classes, ∀ v, second.find? c = some v → ∃ m, v = obj m ∧ (m.map Prod.fst).Nodup)
    (hub : ∀ c ∈ classes, ∀ k s t, type? second c k = some s → type? top c k = some t → mergeType name s t ≠ Res.ub) :
    insertSecond name top second ≠ Res.ub ∧
    (insertSecond name top second = Res.throws ↔
      ∃ c ∈ classes, ∃ k s t, type? second c k = some s ∧ type? top c k = some t ∧ mergeType name s t = Res.throws) ∧
    ∀ r, insertSecond name top second = Res.ok r →
      (∀ c ∈ classes, ∀ k, TypeMerged name (type? second c k) (type? top c k) (type? r c k)) ∧
      ∀ k ∉ classes, r.find? k = top.find? k := by
  have hne : "connections" ≠ "nodes" := by decide
  rw [insertSecond_eq]
  obtain ⟨h1, h2, h3⟩ := insertStep_spec (name := name) (c := "nodes") ht (hc _ (by simp [classes]))
    (hub _ (by simp [classes]))
  have split : (∃ c ∈ classes, ∃ k s t, type? second c k = some s ∧ type? top c k = some t ∧
        mergeType name s t = Res.throws) ↔
      (∃ k s t, type? second "nodes" k = some s ∧ type? top "nodes" k = some t ∧ mergeType name s t = Res.throws) ∨
      (∃ k s t, type? second "connections" k = some s ∧ type? top "connections" k = some t ∧
        mergeType name s t = Res.throws) := by simp [classes]
  rw [split]
  cases hn : insertStep name second top "nodes" with
  | ub => exact absurd hn h1
  | throws =>
    simp only [Res.throws_bind, true_iff]
    exact ⟨by simp, Or.inl (h2.mp hn), by simp⟩
  | ok t =>
    obtain ⟨h4, h5, h6⟩ := h3 t hn
    have hnn : ¬ ∃ k s t, type? second "nodes" k = some s ∧ type? top "nodes" k = some t ∧
        mergeType name s t = Res.throws := by
      rw [← h2, hn]; simp
    have hsame := type?_congr (h6 "connections" hne)
    obtain ⟨h7, h8, h9⟩ := insertStep_spec (name := name) (second := second) (top := t) (c := "connections") h4
      (hc _ (by simp [classes])) (by simp only [hsame]; exact hub _ (by simp [classes]))
    simp only [hsame] at h8 h9
    simp only [Res.ok_bind, hnn, false_or]
    refine ⟨h7, h8, fun r hr => ?_⟩
    obtain ⟨-, h10, h11⟩ := h9 r hr
    refine ⟨fun c hc k => ?_, fun k hk => ?_⟩
    · simp only [classes, List.mem_cons, List.not_mem_nil, or_false] at hc
      rcases hc with rfl | rfl
      · rw [type?_congr (h11 "nodes" hne.symm)]; exact h5 k
      · exact h10 k
    · simp only [classes, List.mem_cons, List.not_mem_nil, or_false, not_or] at hk
      rw [h11 _ hk.2, h6 _ hk.1]

/-! ## C46 -/

/-- The lists of the json are sorted and all their components have ids. -/
def SortedLists (j : Json) : Prop :=
  ∀ c ∈ classes, ∀ k l, list? j c k = some l → SortedById l ∧ HaveIds l

theorem type_of_list {j : Json} {c k : String} {l : List Json} (h : list? j c k = some l) : type? j c k = some (arr l) := by
  unfold list? at h
  unfold type?
  cases hj : (j.find? c).bind fun v => v.find? k with
  | none => simp [hj] at h
  | some v => cases v <;> simp_all

theorem list_of_type {j : Json} {c k : String} {l : List Json} (h : type? j c k = some (arr l)) : list? j c k = some l := by
  unfold type? at h
  unfold list?
  rw [h]

/-- Results of the merge of whole jsons. -/
theorem insertSecond_lists (name : String) {second top : Json} (ht : top.isObj = true) (hs : Shaped second)
    (hd : DistinctTypes second) (ss : SortedLists second) (st : SortedLists top) :
    insertSecond name top second ≠ Res.ub ∧
    (insertSecond name top second = Res.throws ↔ ∃ c ∈ classes, ∃ k ls lt, list? second c k = some ls ∧
      list? top c k = some lt ∧ ∃ x ∈ lt, (∀ e ∈ ls, id? e ≠ id? x) ∧ ∃ e ∈ ls, Before x e) ∧
    ∀ r, insertSecond name top second = Res.ok r →
      (∀ c ∈ classes, ∀ k ls lt, list? second c k = some ls → list? top c k = some lt →
        ∃ l, list? r c k = some l ∧ List.Forall₂ (Fate name ls) lt l) ∧
      (∀ c ∈ classes, ∀ k, list? second c k = none ∨ list? top c k = none → list? r c k = list? top c k) ∧
      ∀ k ∉ classes, r.find? k = top.find? k := by
  have shape : ∀ c ∈ classes, ∀ k s, type? second c k = some s → ∃ l, s = arr l := by
    intro c hc k s h
    unfold type? at h
    cases hv : second.find? c with
    | none => simp [hv] at h
    | some v =>
      obtain ⟨m, rfl, hm⟩ := hs c hc v hv
      rw [hv] at h
      exact hm (k, s) (mem_of_lookup h)
  have merge : ∀ c ∈ classes, ∀ k ls lt, list? second c k = some ls → list? top c k = some lt →
      (mergeLists name ls lt = Res.throws ↔ ∃ x ∈ lt, (∀ e ∈ ls, id? e ≠ id? x) ∧ ∃ e ∈ ls, Before x e) ∧
      mergeLists name ls lt ≠ Res.ub ∧ ∀ r, mergeLists name ls lt = Res.ok r → List.Forall₂ (Fate name ls) lt r := by
    intro c hc k ls lt h1 h2
    exact mergeLists_spec name (ss c hc k ls h1).1 (st c hc k lt h2).1 (ss c hc k ls h1).2 (st c hc k lt h2).2
  obtain ⟨h1, h2, h3⟩ := insertSecond_spec (name := name) (second := second) (top := top) ht
    (fun c hc v hv => by
      obtain ⟨m, rfl, -⟩ := hs c hc v hv
      exact ⟨m, rfl, hd c hc m hv⟩)
    (by
      intro c hc k s t h4 h5
      obtain ⟨ls, rfl⟩ := shape c hc k s h4
      cases t with
      | arr lt =>
        have := (merge c hc k ls lt (list_of_type h4) (list_of_type h5)).2.1
        simp only [mergeType]
        cases hm : mergeLists name ls lt with
        | ub => exact absurd hm this
        | _ => simp
      | _ => simp [mergeType])
  refine ⟨h1, h2.trans ?_, fun r hr => ?_⟩
  · constructor
    · rintro ⟨c, hc, k, s, t, h4, h5, h6⟩
      obtain ⟨ls, rfl⟩ := shape c hc k s h4
      cases t with
      | arr lt =>
        refine ⟨c, hc, k, ls, lt, list_of_type h4, list_of_type h5, ?_⟩
        rw [← (merge c hc k ls lt (list_of_type h4) (list_of_type h5)).1]
        simp only [mergeType] at h6
        cases hm : mergeLists name ls lt with
        | throws => rfl
        | _ => rw [hm] at h6; cases h6
      | _ => simp [mergeType] at h6
    · rintro ⟨c, hc, k, ls, lt, h4, h5, h6⟩
      refine ⟨c, hc, k, arr ls, arr lt, type_of_list h4, type_of_list h5, ?_⟩
      rw [← (merge c hc k ls lt h4 h5).1] at h6
      simp [mergeType, h6]
  · obtain ⟨h4, h5⟩ := h3 r hr
    refine ⟨fun c hc k ls lt h6 h7 => ?_, fun c hc k h6 => ?_, h5⟩
    · have := h4 c hc k
      rw [type_of_list h6, type_of_list h7] at this
      obtain ⟨v, hv, hr⟩ := this
      simp only [mergeType] at hv
      obtain ⟨l, hl, hv⟩ := Res.bind_eq_ok.mp hv
      injection hv with hv
      subst hv
      exact ⟨l, list_of_type hr, (merge c hc k ls lt h6 h7).2.2 l hl⟩
    · have := h4 c hc k
      have e : type? r c k = type? top c k ∨ ∃ s t, type? second c k = some s ∧ type? top c k = some t ∧
          mergeType name s t = Res.ok t ∧ type? r c k = some t := by
        cases hs' : type? second c k with
        | none => rw [hs'] at this; left; exact this
        | some s =>
          cases ht' : type? top c k with
          | none => rw [hs', ht'] at this; left; exact this
          | some t =>
            rw [hs', ht'] at this
            obtain ⟨v, hv, hr⟩ := this
            obtain ⟨ls, rfl⟩ := shape c hc k s hs'
            right
            refine ⟨arr ls, t, rfl, rfl, ?_, ?_⟩
            all_goals
              cases t with
              | arr lt =>
                rcases h6 with h6 | h6
                · rw [list_of_type hs'] at h6; cases h6
                · rw [list_of_type ht'] at h6; cases h6
              | _ =>
                simp only [mergeType, Res.ok.injEq] at hv ⊢
                try (subst hv; exact hr)
      have : type? r c k = type? top c k := by
        rcases e with e | ⟨s, t, -, h7, -, h8⟩
        · exact e
        · rw [h7, h8]
      show (match type? r c k with | some (arr l) => some l | _ => none) =
        (match type? top c k with | some (arr l) => some l | _ => none)
      rw [this]

theorem haveIds_of_sublist {j : Json} (hd : Distinct (components j)) {l : List Json} (hl : ∀ c ∈ l, c ∈ components j) :
    HaveIds l := by
  intro c hc
  obtain ⟨ids, h1, -⟩ := hd
  have : id? c ∈ ids.map some := h1 ▸ List.mem_map_of_mem (hl c hc)
  obtain ⟨s, -, hs⟩ := List.mem_map.mp this
  exact ⟨s, hs.symm⟩

theorem list_mem_components {j : Json} {c k : String} (hc : c ∈ classes) {l : List Json} (h : list? j c k = some l) :
    ∀ x ∈ l, x ∈ components j := by
  intro x hx
  have ht := type_of_list h
  unfold type? at ht
  cases hv : j.find? c with
  | none => simp [hv] at ht
  | some v =>
    rw [hv] at ht
    refine (class_sublist hc hv).subset ?_
    rw [List.mem_flatMap]
    refine ⟨arr l, ?_, hx⟩
    cases v with
    | obj m =>
      have := mem_of_lookup (m := m) (k := k) (v := arr l) ht
      exact List.mem_map.mpr ⟨(k, arr l), this, rfl⟩
    | _ => simp [find?] at ht

/-- After sorting, lists are sorted, and types are still distinct. -/
theorem sortById_after {j j' : Json} (hs : Shaped j) (h : sortById j = Res.ok j') :
    SortedLists j' ∧ Shaped j' ∧ (DistinctTypes j → DistinctTypes j') ∧ (j.isObj = true → j'.isObj = true) := by
  have hd : Distinct (components j) := by
    rw [sortById_eq] at h
    obtain ⟨u, hu, -⟩ := Res.bind_eq_ok.mp h
    exact checkForDuplicates_ok.mp hu
  obtain ⟨h1, h2, h3⟩ := C45_sorted hs h
  obtain ⟨j'', h4, h5, h6⟩ := sortById_shaped hs hd
  rw [h] at h4
  injection h4 with h4
  subst h4
  refine ⟨?_, ?_, ?_, ?_⟩
  · intro c hc k l hl
    cases hj : list? j c k with
    | none => rw [h2 c hc k hj] at hl; cases hl
    | some l0 =>
      obtain ⟨l', h7, h8, h9⟩ := h1 c hc k l0 hj
      rw [hl] at h7
      injection h7 with h7
      subst h7
      exact ⟨h9, haveIds_of_sublist hd fun x hx => list_mem_components hc hj x (h8.subset hx)⟩
  · intro c hc v hv
    have := h5 c hc
    rw [hv] at this
    cases hj : j.find? c with
    | none => rw [hj] at this; cases this
    | some w =>
      rw [hj] at this
      obtain ⟨m, m', rfl, h7, h8⟩ := this
      injection h7 with h7
      subst h7
      refine ⟨m', rfl, fun x hx => ?_⟩
      obtain ⟨i, hi, rfl⟩ := List.getElem_of_mem hx
      have h8' := List.forall₂_iff_get.mp h8
      obtain ⟨-, l, l', -, h9, -⟩ := h8'.2 i (by rw [h8'.1]; exact hi) hi
      exact ⟨l', h9⟩
  · intro hdt c hc m' hm'
    have := h5 c hc
    rw [hm'] at this
    cases hj : j.find? c with
    | none => rw [hj] at this; cases this
    | some w =>
      rw [hj] at this
      obtain ⟨m, m'', rfl, h7, h8⟩ := this
      injection h7 with h7
      injection h7 with h7
      subst h7
      have e : m.map Prod.fst = m'.map Prod.fst := by
        clear hj hm'
        induction h8 with
        | nil => rfl
        | cons h _ ih => simp [h.1, ih]
      rw [← e]
      exact hdt c hc m hj
  · intro ho
    rw [sortById_eq] at h
    obtain ⟨-, -, h⟩ := Res.bind_eq_ok.mp h
    obtain ⟨j1, h7, h8⟩ := Res.bind_eq_ok.mp h
    have step : ∀ (a b : Json) (c : String), a.isObj = true → sortStep a c = Res.ok b → b.isObj = true := by
      intro a b c ha hab
      unfold sortStep at hab
      cases hf : a.find? c with
      | none => rw [hf] at hab; injection hab with hab; exact hab ▸ ha
      | some v =>
        rw [hf] at hab
        obtain ⟨w, -, hab⟩ := Res.bind_eq_ok.mp hab
        exact isObj_set ha hab
    exact step _ _ _ (step _ _ _ ho h7) h8

/-- C46 for whole jsons, what holds: loading topology and boundary data is never undefined. It throws
exactly if an id is missing or doubled in one of them, or if some component has no entry while there is an
entry of the same type with a greater id. If it does not throw: the lists of each type are sorted by id and have the same
components as before, where each component with an entry got its own; a component without an entry has
an id that is greater than all of the entries of this type. Types that are in one of the jsons only are only sorted.
Missing: an exception for a component without an entry. -/
theorem C46_json_partial {top boundary : Json} (ht : top.isObj = true) (st : Shaped top) (sb : Shaped boundary)
    (hd : DistinctTypes boundary) :
    buildFull top boundary ≠ Res.ub ∧
    (buildFull top boundary = Res.throws ↔
      sortById top = Res.throws ∨ sortById boundary = Res.throws ∨
      ∃ c ∈ classes, ∃ k ls lt, list? boundary c k = some ls ∧ list? top c k = some lt ∧
        ∃ x ∈ lt, (∀ e ∈ ls, id? e ≠ id? x) ∧ ∃ e ∈ ls, ∃ s t, id? x = some s ∧ id? e = some t ∧ s < t) ∧
    ∀ r, buildFull top boundary = Res.ok r →
      (∀ c ∈ classes, ∀ k ls lt, list? boundary c k = some ls → list? top c k = some lt →
        ∃ sorted l, list? r c k = some l ∧ sorted.Perm lt ∧ SortedById sorted ∧
          List.Forall₂ (fun x x' => (∃ e ∈ ls, id? e = id? x ∧ Extended "boundary_values" e x x') ∨
            (x' = x ∧ ∀ e ∈ ls, ∃ s t, id? e = some s ∧ id? x = some t ∧ s < t)) sorted l) ∧
      (∀ c ∈ classes, ∀ k lt, list? boundary c k = none → list? top c k = some lt →
        ∃ l, list? r c k = some l ∧ l.Perm lt ∧ SortedById l) ∧
      ∀ k ∉ classes, r.find? k = top.find? k := by
  unfold buildFull
  cases h1 : sortById top with
  | ub => exact absurd h1 (C45_defined top)
  | throws => simp
  | ok top' =>
    cases h2 : sortById boundary with
    | ub => exact absurd h2 (C45_defined boundary)
    | throws => simp
    | ok boundary' =>
      simp only [Res.ok_bind, reduceCtorEq, false_or]
      obtain ⟨a1, a2, a3, a4⟩ := sortById_after st h1
      obtain ⟨b1, b2, b3, b4⟩ := sortById_after sb h2
      obtain ⟨c1, c2, c3⟩ := C45_sorted st h1
      obtain ⟨d1, d2, d3⟩ := C45_sorted sb h2
      obtain ⟨e1, e2, e3⟩ := insertSecond_lists "boundary_values" (a4 ht) b2 (b3 hd) b1 a1
      refine ⟨e1, e2.trans ?_, fun r hr => ?_⟩
      · constructor
        · rintro ⟨c, hc, k, ls, lt, h3, h4, x, hx, hn, e, he, hb⟩
          cases hls : list? boundary c k with
          | none => rw [d2 c hc k hls] at h3; cases h3
          | some ls0 =>
            cases hlt : list? top c k with
            | none => rw [c2 c hc k hlt] at h4; cases h4
            | some lt0 =>
              obtain ⟨_, h5, h6, -⟩ := d1 c hc k ls0 hls
              obtain ⟨_, h7, h8, -⟩ := c1 c hc k lt0 hlt
              rw [h3] at h5
              rw [h4] at h7
              injection h5 with h5
              injection h7 with h7
              subst h5
              subst h7
              exact ⟨c, hc, k, ls0, lt0, hls, hlt, x, h8.subset hx, fun e he => hn e (h6.symm.subset he), e,
                h6.subset he, hb⟩
        · rintro ⟨c, hc, k, ls, lt, h3, h4, x, hx, hn, e, he, hb⟩
          obtain ⟨ls', h5, h6, -⟩ := d1 c hc k ls h3
          obtain ⟨lt', h7, h8, -⟩ := c1 c hc k lt h4
          exact ⟨c, hc, k, ls', lt', h5, h7, x, h8.symm.subset hx, fun e he => hn e (h6.subset he), e,
            h6.symm.subset he, hb⟩
      · obtain ⟨f1, f2, f3⟩ := e3 r hr
        refine ⟨fun c hc k ls lt h3 h4 => ?_, fun c hc k lt h3 h4 => ?_, fun k hk => (f3 k hk).trans (c3 k hk)⟩
        · obtain ⟨ls', h5, h6, -⟩ := d1 c hc k ls h3
          obtain ⟨lt', h7, h8, h9⟩ := c1 c hc k lt h4
          obtain ⟨l, h10, h11⟩ := f1 c hc k ls' lt' h5 h7
          refine ⟨lt', l, h10, h8, h9, h11.imp ?_⟩
          rintro x x' (⟨e, he, h⟩ | ⟨h, h'⟩)
          · exact Or.inl ⟨e, h6.subset he, h⟩
          · exact Or.inr ⟨h, fun e he => h' e (h6.symm.subset he)⟩
        · obtain ⟨l, h7, h8, h9⟩ := c1 c hc k lt h4
          exact ⟨l, by rw [f2 c hc k (Or.inl (d2 c hc k h3)), h7], h8, h9⟩

/-- Sources with boundary values, given in another order. -/
example : buildFull exampleTopology (obj [("nodes", obj [("Source", arr [entry "a", entry "b"])])]) =
    Res.ok (obj [("connections", obj [("Pipe", arr [entry "p"])]),
      ("nodes", obj [("Source", arr [obj [("boundary_values", entry "a"), ("id", str "a")],
        obj [("boundary_values", entry "b"), ("id", str "b")]])])]) := rfl

/-- The hypotheses of `C46_json_partial` hold in this example. -/
example : exampleTopology.isObj = true ∧ Shaped exampleTopology ∧ DistinctTypes exampleTopology :=
  ⟨rfl, exampleTopology_shaped, fun c hc m hm => by
    simp only [classes, List.mem_cons, List.not_mem_nil, or_false] at hc
    rcases hc with rfl | rfl
    · injection hm with hm; injection hm with hm; subst hm; simp
    · injection hm with hm; injection hm with hm; subst hm; simp⟩

end Verif.Json
