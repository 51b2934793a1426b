import Verif.Json.Defaults

/-!
# Properties C50 and C51: adding defaults to a schema, and removing defaulted keys from the required ones

Source: `/repo/src/Auxillary/json_schema/make_schema.cpp`.
-/

set_option autoImplicit false

namespace Verif.Json

/-- `add_defaults_unsafe` — 191-239. (The exception that is built but not thrown in line 211 has no effect, since a
definition that is no object has no type either.) For an array of properties the first loop only lets pass empty
defaults. -/
def addUnsafe (properties defaults : Json) : Res Json :=
  if defaults.items.any fun x => !properties.contains x.1 then Res.throws
  else match properties with
  | obj m => do
    let m' ← Res.each m.attach fun x =>
      if x.1.2.contains "type" then
        match defaults.find? x.1.1 with
        | none => Res.ok x.1
        | some d => do
          let definition ← x.1.2.set "default" d
          let type ← definition.index "type"
          if type.isStr "object" then
            match _h : x.1.2.find? "properties" with
            | none => Res.ok (x.1.1, definition)
            | some p =>
              if d.isObj then do
                let p' ← addUnsafe p d
                let definition' ← definition.set "properties" p'
                Res.ok (x.1.1, definition')
              else Res.throws
          else Res.ok (x.1.1, definition)
      else Res.throws
    Res.ok (obj m')
  | null => Res.ok null
  | arr l => if l.all fun x => x.contains "type" then Res.ok (arr l) else Res.throws
  | _ => Res.throws
termination_by sizeOf properties
decreasing_by
  have h1 := sizeOf_items (j := obj m) x.2
  have h2 := sizeOf_find _h
  omega

/-- `add_defaults` — 241-267. -/
def addDefaults (schema defaults : Json) : Res Json :=
  match schema.find? "type", schema.find? "properties" with
  | some type, some properties =>
    if type.isStr "object" && defaults.isObj then do
      let p ← addUnsafe properties defaults
      schema.set "properties" p
    else Res.throws
  | _, _ => Res.throws

/-- The check of the list of required keys — 289-296: only its first element is looked at. -/
def firstIsStr : List Json → Bool
  | [] => true
  | str _ :: _ => true
  | _ => false

/-- The first part of `remove_defaults_from_required` — 272-303: the list of required keys afterwards. In
`properties.value(...)` an exception is thrown if the properties are no object. -/
def pruneRequired (properties : Json) : Json → Res Json
  | arr l =>
    if firstIsStr l then do
      let l' ← Res.each l fun r => do
        let k ← r.getStr
        if properties.isObj then
          Res.ok (if ((properties.find? k).getD (obj [])).contains "default" then [] else [r])
        else Res.throws
      Res.ok (arr l'.flatten)
    else Res.throws
  | _ => Res.throws

/-- `remove_defaults_from_required` — 269-311. -/
def removeDefaults (schema : Json) : Res Json :=
  match schema.find? "type", _h : schema.find? "properties" with
  | some type, some properties =>
    if type.isStr "object" then do
      let schema1 ← match schema.find? "required" with
        | none => Res.ok schema
        | some r => do
          let r' ← pruneRequired properties r
          schema.set "required" r'
      let properties' ← match _hp : properties with
        | obj m => do
          let m' ← Res.each m.attach fun x => do
            let v ← removeDefaults x.1.2
            Res.ok (x.1.1, v)
          Res.ok (obj m')
        | arr l => do
          let l' ← Res.each l.attach fun x => removeDefaults x.1
          Res.ok (arr l')
        | j => Res.ok j
      schema1.set "properties" properties'
    else Res.ok schema
  | _, _ => Res.ok schema
termination_by sizeOf schema
decreasing_by
  · have h1 := sizeOf_items (j := obj m) x.2
    have h2 := sizeOf_find _h
    subst _hp
    omega
  · subst _hp
    have h1 := List.sizeOf_lt_of_mem x.2
    have h2 := sizeOf_find _h
    simp only [arr.sizeOf_spec] at h2
    omega

/-! ## Specification -/

/-- A schema as it is in the code before defaults are added: distinct keys, each definition has a type and no default, and
so on for the definitions of nested objects. -/
inductive Plain : Json → Prop
  | intro (m : List (String × Json)) (hn : (m.map Prod.fst).Nodup)
    (ht : ∀ x ∈ m, x.2.contains "type" = true) (hd : ∀ x ∈ m, x.2.find? "default" = none)
    (hp : ∀ x ∈ m, ∀ p, nested? x.2 = some p → Plain p) : Plain (obj m)

/-- The key is listed as required. -/
def Requires (schema : Json) (k : String) : Prop := ∃ l, schema.find? "required" = some (arr l) ∧ str k ∈ l

/-- There is a default for the key. -/
def HasDefault (properties : Json) (k : String) : Prop :=
  ∃ v, properties.find? k = some v ∧ v.contains "default" = true

/-- No key with a default is required, at any depth. -/
inductive Clean : Json → Prop
  | other (j : Json) (h : nested? j = none) : Clean j
  | object (j p : Json) (h : nested? j = some p) (hr : ∀ k, Requires j k → ¬ HasDefault p k)
    (hp : ∀ v ∈ p.elements, Clean v) : Clean j

/-- The second schema is the first one without the required keys that have a default. -/
inductive Pruned : Json → Json → Prop
  | other (j : Json) (h : nested? j = none) : Pruned j j
  | object (j j' : Json) (m m' : List (String × Json)) (h : nested? j = some (obj m)) (h' : nested? j' = some (obj m'))
    (hk : ∀ k, k ≠ "required" → k ≠ "properties" → j'.find? k = j.find? k)
    (hr : ∀ k, Requires j' k ↔ Requires j k ∧ ¬ HasDefault (obj m) k)
    (keys : m.map Prod.fst = m'.map Prod.fst)
    (hp : ∀ x x', (x, x') ∈ m.zip m' → Pruned x.2 x'.2) : Pruned j j'

/-! ## Adding defaults -/

/-- The body of the second loop. -/
def addStep (defaults : Json) (x : String × Json) : Res (String × Json) :=
  if x.2.contains "type" then
    match defaults.find? x.1 with
    | none => Res.ok x
    | some d => do
      let definition ← x.2.set "default" d
      let type ← definition.index "type"
      if type.isStr "object" then
        match x.2.find? "properties" with
        | none => Res.ok (x.1, definition)
        | some p =>
          if d.isObj then do
            let p' ← addUnsafe p d
            let definition' ← definition.set "properties" p'
            Res.ok (x.1, definition')
          else Res.throws
      else Res.ok (x.1, definition)
  else Res.throws

theorem each_attach {α β : Type} (l : List α) (f : α → Res β) : Res.each l.attach (fun x => f x.1) = Res.each l f := by
  have : ∀ (l' : List α) (h : ∀ x ∈ l', x ∈ l),
      Res.each (l'.attachWith (· ∈ l) h) (fun x => f x.1) = Res.each l' f := by
    intro l' h
    induction l' with
    | nil => rfl
    | cons a l' ih => simp only [List.attachWith_cons, Res.each, ih fun x hx => h x (by simp [hx])]
  exact this l fun _ h => h

theorem addUnsafe_obj (m : List (String × Json)) (defaults : Json) : addUnsafe (obj m) defaults =
    if defaults.items.any fun x => !(obj m).contains x.1 then Res.throws
    else (Res.each m (addStep defaults)).bind fun m' => Res.ok (obj m') := by
  rw [addUnsafe]
  split
  · rfl
  · rw [← each_attach m]
    congr 2
    funext x
    unfold addStep
    split
    · cases defaults.find? x.1.1 with
      | none => rfl
      | some d =>
        simp only
        cases x.1.2.set "default" d with
        | ok definition =>
          simp only [Res.ok_bind]
          cases definition.index "type" with
          | ok type =>
            simp only [Res.ok_bind]
            split
            · split
              · next h => simp only [h]
              · next p h => simp only [h]
            · rfl
          | _ => rfl
        | _ => rfl
    · rfl

/-- What adding defaults does to one definition. -/
theorem addStep_ok {defaults : Json} {x y : String × Json} (h : addStep defaults x = Res.ok y) :
    y.1 = x.1 ∧ y.2.find? "type" = x.2.find? "type" ∧ x.2.contains "type" = true ∧
    (defaults.find? x.1 = none → y = x) ∧
    ∀ d, defaults.find? x.1 = some d → y.2.find? "default" = some d ∧
      (nested? x.2 = none → nested? y.2 = none) ∧
      ∀ p, nested? x.2 = some p → d.isObj = true ∧ ∃ p', addUnsafe p d = Res.ok p' ∧ nested? y.2 = some p' := by
  unfold addStep at h
  split at h
  · next hc =>
    cases hd : defaults.find? x.1 with
    | none =>
      rw [hd] at h
      injection h with h
      subst h
      exact ⟨rfl, rfl, hc, fun _ => rfl, by simp⟩
    | some d =>
      simp only [hd] at h
      obtain ⟨def1, h1, h⟩ := Res.bind_eq_ok.mp h
      obtain ⟨type, h2, h⟩ := Res.bind_eq_ok.mp h
      have hf := find_set h1
      rw [index_eq_ok] at h2
      have hnd : "type" ≠ "default" := by decide
      have hpd : "properties" ≠ "default" := by decide
      have htype : x.2.find? "type" = some type := by rw [hf, if_neg hnd] at h2; exact h2
      split at h
      · next hobj =>
        split at h
        · next hp =>
          injection h with h
          subst h
          refine ⟨rfl, by rw [hf, if_neg hnd], hc, by simp, ?_⟩
          rintro d' hd'
          injection hd' with hd'
          subst hd'
          refine ⟨by rw [hf, if_pos rfl], fun _ => ?_, fun p hp' => ?_⟩
          · unfold nested?
            simp only [hf, if_neg hnd, if_neg hpd, htype, hp]
          · unfold nested? at hp'
            simp [htype, hp] at hp'
        · next p hp =>
          split at h
          · next ho =>
            obtain ⟨p', h3, h⟩ := Res.bind_eq_ok.mp h
            obtain ⟨def2, h4, h⟩ := Res.bind_eq_ok.mp h
            have hf2 := find_set h4
            injection h with h
            subst h
            have e1 : def2.find? "type" = some type := by
              rw [hf2, if_neg (by decide), hf, if_neg hnd, htype]
            have e2 : def2.find? "properties" = some p' := by rw [hf2, if_pos rfl]
            refine ⟨rfl, e1.trans htype.symm, hc, by simp, ?_⟩
            rintro d' hd'
            injection hd' with hd'
            subst hd'
            refine ⟨by rw [hf2, if_neg (by decide), hf, if_pos rfl], fun hn => ?_, fun q hq => ?_⟩
            · rw [nested_of htype hp hobj] at hn; cases hn
            · rw [nested_of htype hp hobj] at hq
              injection hq with hq
              subst hq
              exact ⟨ho, p', h3, nested_of e1 e2 hobj⟩
          · cases h
      · next hobj =>
        injection h with h
        subst h
        refine ⟨rfl, by rw [hf, if_neg hnd], hc, by simp, ?_⟩
        rintro d' hd'
        injection hd' with hd'
        subst hd'
        refine ⟨by rw [hf, if_pos rfl], fun _ => ?_, fun p hp' => ?_⟩
        · unfold nested?
          simp only [hf, if_neg hnd, if_neg hpd, htype]
          cases x.2.find? "properties" <;> simp [hobj]
        · obtain ⟨t, h3, h4, -⟩ := nested_type hp'
          rw [htype] at h3
          injection h3 with h3
          subst h3
          exact absurd h4 hobj
  · cases h

/-- A step of applying defaults that changes nothing. -/
theorem applyStep_same {d : Json} {x : String × Json} (ht : x.2.contains "type" = true)
    (h : (d.find? x.1 = none ∧ x.2.find? "default" = none) ∨ ∃ v, d.find? x.1 = some v ∧
      ∀ p, nested? x.2 = some p → v.isObj = true ∧ applyUnsafe p v = Res.ok v) : applyStep d x = Res.ok d := by
  obtain ⟨type, htype⟩ := contains_iff.mp ht
  unfold applyStep
  rcases h with ⟨h1, h2⟩ | ⟨v, h1, h2⟩
  · rw [if_neg (by simp [contains, h2]), index_of_find htype, Res.ok_bind]
    split
    · split
      · rfl
      · simp only [h1]
    · rfl
  · rw [if_neg (by simp [contains, h1]), index_of_find htype, Res.ok_bind]
    split
    · next hobj =>
      split
      · rfl
      · next p hp =>
        obtain ⟨h3, h4⟩ := h2 p (nested_of htype hp hobj)
        simp only [h1, h3, if_true, h4, Res.ok_bind]
        exact set_same h1
    · rfl

theorem fold_same {m : List (String × Json)} {d : Json} (h : ∀ x ∈ m, applyStep d x = Res.ok d) :
    applyUnsafe (obj m) d = Res.ok d := by
  rw [applyUnsafe_eq]
  show Res.fold m d applyStep = Res.ok d
  induction m with
  | nil => rfl
  | cons x m ih =>
    simp only [Res.fold, h x (by simp), Res.ok_bind]
    exact ih fun y hy => h y (by simp [hy])

/-- Without any defaults, applying them changes nothing. -/
theorem Plain.apply {schema : Json} (hs : Plain schema) {d d' : Json} (hd : d.isObj = true)
    (h : applyUnsafe schema d = Res.ok d') : d' = d := by
  induction hs generalizing d d' with
  | intro m hn ht hdef hp ih =>
    rw [applyUnsafe_eq] at h
    change Res.fold m d applyStep = Res.ok d' at h
    clear hn
    induction m generalizing d with
    | nil => simp only [Res.fold, Res.ok.injEq] at h; exact h.symm
    | cons x m ihm =>
      simp only [Res.fold] at h
      obtain ⟨d1, h1, h0⟩ := Res.bind_eq_ok.mp h
      have : d1 = d := by
        unfold applyStep at h1
        rw [if_neg (by simp [contains, hdef x (by simp)])] at h1
        obtain ⟨type, h2, h1⟩ := Res.bind_eq_ok.mp h1
        rw [index_eq_ok] at h2
        split at h1
        · next hobj =>
          split at h1
          · injection h1 with h1; exact h1.symm
          · next p hp' =>
            split at h1
            · injection h1 with h1; exact h1.symm
            · next old hold =>
              split at h1
              · next ho =>
                obtain ⟨new, h3, h4⟩ := Res.bind_eq_ok.mp h1
                have := ih x (by simp) p (nested_of h2 hp' hobj) ho h3
                rw [this, set_same hold] at h4
                injection h4 with h4
                exact h4.symm
              · cases h1
        · injection h1 with h1; exact h1.symm
      subst this
      exact ihm (fun y hy => ht y (by simp [hy])) (fun y hy => hdef y (by simp [hy]))
        (fun y hy => hp y (by simp [hy])) (fun y hy p hp' => ih y (by simp [hy]) p hp') hd h0

theorem addUnsafe_ok {m : List (String × Json)} {defaults s' : Json} (h : addUnsafe (obj m) defaults = Res.ok s') :
    ∃ m', s' = obj m' ∧ List.Forall₂ (fun x y => addStep defaults x = Res.ok y) m m' := by
  rw [addUnsafe_obj] at h
  split at h
  · cases h
  · obtain ⟨m', h1, h⟩ := Res.bind_eq_ok.mp h
    injection h with h
    exact ⟨m', h.symm, Res.each_eq_ok.mp h1⟩

theorem forall₂_mem_right {α β : Type} {R : α → β → Prop} {l : List α} {l' : List β} (h : List.Forall₂ R l l') {b : β}
    (hb : b ∈ l') : ∃ a ∈ l, R a b := by
  induction h with
  | nil => cases hb
  | cons h1 _ ih =>
    rcases List.mem_cons.mp hb with rfl | hb
    · exact ⟨_, by simp, h1⟩
    · obtain ⟨a, ha, h2⟩ := ih hb
      exact ⟨a, by simp [ha], h2⟩

/-- The defaults that were added are complete. -/
theorem apply_added {p e p' : Json} (hp : Plain p) (he : e.isObj = true) (h : addUnsafe p e = Res.ok p') :
    applyUnsafe p' e = Res.ok e := by
  induction hp generalizing e p' with
  | intro m hn ht hdef hpl ih =>
    obtain ⟨m', rfl, hm⟩ := addUnsafe_ok h
    refine fold_same fun y hy => ?_
    obtain ⟨x, hx, hxy⟩ := forall₂_mem_right hm hy
    obtain ⟨h1, h2, h3, h4, h5⟩ := addStep_ok hxy
    refine applyStep_same (by simpa [contains, h2] using h3) ?_
    rw [h1]
    cases hex : e.find? x.1 with
    | none => left; rw [h4 hex]; exact ⟨rfl, hdef x hx⟩
    | some d =>
      right
      refine ⟨d, rfl, fun q hq => ?_⟩
      obtain ⟨-, h6, h7⟩ := h5 d hex
      cases hnx : nested? x.2 with
      | none => rw [h6 hnx] at hq; cases hq
      | some p =>
        obtain ⟨h8, p', h9, h10⟩ := h7 p hnx
        rw [h10] at hq
        injection hq with hq
        subst hq
        exact ⟨h8, ih x hx p hnx h8 h9⟩

/-- If applying succeeded, then a nested definition was applied to an object. -/
theorem applied_isObj {m : List (String × Json)} (hn : (m.map Prod.fst).Nodup) {d d' : Json}
    (h : applyUnsafe (obj m) d = Res.ok d') {x : String × Json} (hx : x ∈ m) {v p : Json} (hv : d.find? x.1 = some v)
    (hp : nested? x.2 = some p) : v.isObj = true := by
  rw [applyUnsafe_eq] at h
  change Res.fold m d applyStep = Res.ok d' at h
  induction m generalizing d with
  | nil => cases hx
  | cons y m ih =>
    simp only [Res.fold] at h
    obtain ⟨d1, h1, h⟩ := Res.bind_eq_ok.mp h
    simp only [List.map_cons, List.nodup_cons] at hn
    rcases List.mem_cons.mp hx with rfl | hx
    · obtain ⟨type, h9, h10, h11⟩ := nested_type hp
      unfold applyStep at h1
      rw [if_neg (by simp [contains, hv]), index_of_find h9, Res.ok_bind, if_pos h10, h11] at h1
      simp only [hv] at h1
      split at h1
      · next h => exact h
      · cases h1
    · refine ih hn.2 hx ?_ h
      have hne : x.1 ≠ y.1 := fun e => hn.1 (e ▸ List.mem_map_of_mem hx)
      rw [← hv]
      unfold applyStep at h1
      split at h1
      · obtain ⟨w, -, h1⟩ := Res.bind_eq_ok.mp h1
        rw [find_set h1, if_neg hne]
      · obtain ⟨type, -, h1⟩ := Res.bind_eq_ok.mp h1
        split at h1
        · split at h1
          · injection h1 with h1; rw [h1]
          · split at h1
            · injection h1 with h1; rw [h1]
            · split at h1
              · obtain ⟨w, -, h1⟩ := Res.bind_eq_ok.mp h1
                rw [find_set h1, if_neg hne]
              · cases h1
        · injection h1 with h1; rw [h1]

/-- C50. If all defaults of a schema, nested or not, were added by `add_defaults`, the result of applying them does not depend
on how often this is done. -/
theorem C50_added_once {p defaults p' data data' : Json} (hp : Plain p)
    (h : addUnsafe p defaults = Res.ok p') (hd : data.isObj = true) (ha : applyUnsafe p' data = Res.ok data') :
    applyUnsafe p' data' = Res.ok data' := by
  induction hp generalizing defaults p' data data' with
  | intro m hn ht hdef hpl ih =>
    obtain ⟨m', rfl, hm⟩ := addUnsafe_ok h
    have hn' : (m'.map Prod.fst).Nodup := by
      have : m'.map Prod.fst = m.map Prod.fst := by
        clear h ha hn ht hdef hpl ih
        induction hm with
        | nil => rfl
        | cons h1 _ ih => simp [(addStep_ok h1).1, ih]
      rw [this]; exact hn
    refine fold_same fun y hy => ?_
    obtain ⟨x, hx, hxy⟩ := forall₂_mem_right hm hy
    obtain ⟨h1, h2, h3, h4, h5⟩ := addStep_ok hxy
    refine applyStep_same (by simpa [contains, h2] using h3) ?_
    have hlook := lookup_of_mem hn' hy
    obtain ⟨-, e2, e3, e4⟩ := C50_exact hn' hd ha y.1
    cases hold : data.find? y.1 with
    | none =>
      have hnew := e2 y.2 hlook hold
      cases hex : defaults.find? x.1 with
      | none =>
        left
        have := h4 hex
        subst this
        exact ⟨by rw [hnew]; exact hdef _ hx, hdef _ hx⟩
      | some d =>
        right
        obtain ⟨h8, h6, h7⟩ := h5 d hex
        refine ⟨d, by rw [hnew, h8], fun q hq => ?_⟩
        cases hnx : nested? x.2 with
        | none => rw [h6 hnx] at hq; cases hq
        | some p =>
          obtain ⟨h8, p', h9, h10⟩ := h7 p hnx
          rw [h10] at hq
          injection hq with hq
          subst hq
          exact ⟨h8, apply_added (hpl x hx p hnx) h8 h9⟩
    | some v =>
      right
      cases hny : nested? y.2 with
      | none => exact ⟨v, e3 y.2 v hlook hold hny, by simp⟩
      | some q =>
        obtain ⟨v', h6, h7⟩ := e4 y.2 v q hlook hold hny
        have hv := applied_isObj hn' ha hy hold hny
        refine ⟨v', h7, ?_⟩
        rintro q' hq'
        injection hq' with hq'
        subst hq'
        refine ⟨(C50_kept hv h6).1, ?_⟩
        cases hex : defaults.find? x.1 with
        | none =>
          have := h4 hex
          subst this
          have := (hpl _ hx q hny).apply hv h6
          rw [this] at h6 ⊢
          exact h6
        | some d =>
          obtain ⟨-, h8, h9⟩ := h5 d hex
          cases hnx : nested? x.2 with
          | none => rw [h8 hnx] at hny; cases hny
          | some p =>
            obtain ⟨h10, p', h11, h12⟩ := h9 p hnx
            rw [h12] at hny
            injection hny with hny
            subst hny
            exact ih x hx p hnx h11 hv h6

/-- C50, for whole schemas: defaults from `add_defaults`, applied by `apply_defaults`. -/
theorem C50_added {schema schema' defaults data data' : Json} (hp : ∀ p, nested? schema = some p → Plain p)
    (h : addDefaults schema defaults = Res.ok schema') (hd : data.isObj = true)
    (ha : applyDefaults schema' data = Res.ok data') : applyDefaults schema' data' = Res.ok data' := by
  unfold addDefaults at h
  split at h
  · next type properties h1 h2 =>
    split at h
    · next ht =>
      simp only [Bool.and_eq_true] at ht
      obtain ⟨p', h3, h4⟩ := Res.bind_eq_ok.mp h
      have hf := find_set h4
      have e1 : schema'.find? "type" = some type := by rw [hf, if_neg (by decide), h1]
      have e2 : schema'.find? "properties" = some p' := by rw [hf, if_pos rfl]
      unfold applyDefaults at ha ⊢
      simp only [e1, e2, if_pos ht.1] at ha ⊢
      exact C50_added_once (hp _ (nested_of h1 h2 ht.1)) h3 hd ha
    · cases h
  · cases h

/-- A schema with a nested object, whose definitions have no defaults. -/
def examplePlain : Json :=
  obj [("properties", obj [("a", obj [("properties", obj [("b", obj [("type", str "number")])]), ("type", str "object")]),
    ("c", obj [("type", str "number")])]), ("type", str "object")]

theorem examplePlain_plain : ∀ p, nested? examplePlain = some p → Plain p := by
  intro p h
  injection h with h
  subst h
  refine Plain.intro _ (by decide) ?_ ?_ ?_
  · simp [contains, find?, lookup_cons]
  · simp [find?, lookup_cons]
  · simp only [List.mem_cons, List.not_mem_nil, or_false]
    rintro x (rfl | rfl) p hp
    · injection hp with hp
      subst hp
      refine Plain.intro _ (by decide) ?_ ?_ ?_
      · simp [contains, find?]
      · simp [find?, lookup_cons]
      · simp [nested?, find?, lookup_cons]
    · cases hp

/-- Defaults for it. -/
example : addDefaults examplePlain (obj [("a", obj [("b", num 1)])]) = Res.ok (obj [("properties",
    obj [("a", obj [("default", obj [("b", num 1)]),
      ("properties", obj [("b", obj [("default", num 1), ("type", str "number")])]), ("type", str "object")]),
      ("c", obj [("type", str "number")])]), ("type", str "object")]) := by
  have : addUnsafe (obj [("b", obj [("type", str "number")])]) (obj [("b", num 1)]) =
      Res.ok (obj [("b", obj [("default", num 1), ("type", str "number")])]) := by
    rw [addUnsafe_obj]; rfl
  have step : addStep (obj [("a", obj [("b", num 1)])])
      ("a", obj [("properties", obj [("b", obj [("type", str "number")])]), ("type", str "object")]) =
      Res.ok ("a", obj [("default", obj [("b", num 1)]),
      ("properties", obj [("b", obj [("default", num 1), ("type", str "number")])]), ("type", str "object")]) := by
    show (addUnsafe (obj [("b", obj [("type", str "number")])]) (obj [("b", num 1)])).bind _ = _
    rw [this]; rfl
  have all : addUnsafe (obj [("a", obj [("properties", obj [("b", obj [("type", str "number")])]),
      ("type", str "object")]), ("c", obj [("type", str "number")])]) (obj [("a", obj [("b", num 1)])]) =
      Res.ok (obj [("a", obj [("default", obj [("b", num 1)]),
      ("properties", obj [("b", obj [("default", num 1), ("type", str "number")])]), ("type", str "object")]),
      ("c", obj [("type", str "number")])]) := by
    rw [addUnsafe_obj]
    simp only [Res.each, step]
    rfl
  show (addUnsafe (obj [("a", obj [("properties", obj [("b", obj [("type", str "number")])]),
      ("type", str "object")]), ("c", obj [("type", str "number")])]) (obj [("a", obj [("b", num 1)])])).bind _ = _
  rw [all]; rfl

/-! ## Required keys -/

/-- What happens to the list of required keys of one object. -/
def pruneLevel (schema properties : Json) : Res Json :=
  match schema.find? "required" with
  | none => Res.ok schema
  | some r => (pruneRequired properties r).bind fun r' => schema.set "required" r'

/-- What happens to the definitions of one object. -/
def removeAll : Json → Res Json
  | obj m => (Res.each m fun x => (removeDefaults x.2).bind fun v => Res.ok (x.1, v)).bind fun m' => Res.ok (obj m')
  | arr l => (Res.each l removeDefaults).bind fun l' => Res.ok (arr l')
  | j => Res.ok j

theorem removeDefaults_eq (schema : Json) : removeDefaults schema =
    match nested? schema with
    | none => Res.ok schema
    | some p => (pruneLevel schema p).bind fun s => (removeAll p).bind fun p' => s.set "properties" p' := by
  rw [removeDefaults]
  unfold nested?
  cases h1 : schema.find? "type" with
  | none => rfl
  | some type =>
    cases h2 : schema.find? "properties" with
    | none => rfl
    | some p =>
      simp only
      split
      · have key : ∀ s : Json, (match p with
            | obj m => (Res.each m.attach fun x => (removeDefaults x.1.2).bind fun v => Res.ok (x.1.1, v)).bind
              fun m' => s.set "properties" (obj m')
            | arr l => (Res.each l.attach fun x => removeDefaults x.1).bind fun l' => s.set "properties" (arr l')
            | j => s.set "properties" j) = (removeAll p).bind fun p' => s.set "properties" p' := by
          intro s
          cases p with
          | obj m =>
            simp only [removeAll]
            rw [each_attach m fun x => (removeDefaults x.2).bind fun v => Res.ok (x.1, v)]
            cases Res.each m fun x => (removeDefaults x.2).bind fun v => Res.ok (x.1, v) <;> rfl
          | arr l =>
            simp only [removeAll]
            rw [each_attach l removeDefaults]
            cases Res.each l removeDefaults <;> rfl
          | _ => rfl
        unfold pruneLevel
        simp only [← key]
        cases schema.find? "required" with
        | none => cases p <;> rfl
        | some r =>
          simp only
          cases pruneRequired p r with
          | ok r' =>
            show (schema.set "required" r').bind _ = (schema.set "required" r').bind _
            cases p <;> rfl
          | _ => rfl
      · rfl

theorem mem_pruned {p r r' : Json} (h : pruneRequired p r = Res.ok r') :
    ∃ l l', r = arr l ∧ r' = arr l' ∧ ∀ k, str k ∈ l' ↔ str k ∈ l ∧ ¬ HasDefault p k := by
  unfold pruneRequired at h
  split at h
  · next l =>
    split at h
    · next hc =>
      obtain ⟨l', h1, h2⟩ := Res.bind_eq_ok.mp h
      injection h2 with h2
      subst h2
      refine ⟨l, _, rfl, rfl, ?_⟩
      rw [Res.each_eq_ok] at h1
      clear h hc
      have hdef : ∀ k, ((p.find? k).getD (obj [])).contains "default" = true ↔ HasDefault p k := by
        intro k
        unfold HasDefault
        cases p.find? k <;> simp [contains, find?]
      induction h1 with
      | nil => simp
      | cons h3 _ ih =>
        intro k
        obtain ⟨k1, h4, h5⟩ := Res.bind_eq_ok.mp h3
        split at h5
        · injection h5 with h5
          subst h5
          rename_i a _ _ _ _
          have : a = str k1 := by
            unfold getStr at h4
            split at h4
            · injection h4 with h4; rw [h4]
            · cases h4
          subst this
          rw [List.flatten_cons, List.mem_append, ih k, List.mem_cons]
          by_cases hk : HasDefault p k1
          · rw [if_pos ((hdef k1).mpr hk)]
            constructor
            · rintro (h | h)
              · cases h
              · exact ⟨Or.inr h.1, h.2⟩
            · rintro ⟨h | h, h'⟩
              · injection h with h; subst h; exact absurd hk h'
              · exact Or.inr ⟨h, h'⟩
          · rw [if_neg (fun h => hk ((hdef k1).mp h))]
            constructor
            · rintro (h | h)
              · simp only [List.mem_singleton, str.injEq] at h
                subst h
                exact ⟨Or.inl rfl, hk⟩
              · exact ⟨Or.inr h.1, h.2⟩
            · rintro ⟨h | h, h'⟩
              · left; simp [h]
              · exact Or.inr ⟨h, h'⟩
        · cases h5
    · cases h
  · cases h

theorem pruneLevel_ok {s s1 p : Json} (h : pruneLevel s p = Res.ok s1) :
    (∀ k, k ≠ "required" → s1.find? k = s.find? k) ∧ ∀ k, Requires s1 k ↔ Requires s k ∧ ¬ HasDefault p k := by
  unfold pruneLevel at h
  split at h
  · next hn =>
    injection h with h
    subst h
    refine ⟨fun _ _ => rfl, fun k => ?_⟩
    unfold Requires
    simp [hn]
  · next r hr =>
    obtain ⟨r', h1, h2⟩ := Res.bind_eq_ok.mp h
    have hf := find_set h2
    refine ⟨fun k hk => by rw [hf, if_neg hk], fun k => ?_⟩
    obtain ⟨l, l', rfl, rfl, h3⟩ := mem_pruned h1
    unfold Requires
    rw [hf, if_pos rfl, hr]
    constructor
    · rintro ⟨l1, h4, h5⟩
      injection h4 with h4
      injection h4 with h4
      subst h4
      exact ⟨⟨l, rfl, ((h3 k).mp h5).1⟩, ((h3 k).mp h5).2⟩
    · rintro ⟨⟨l1, h4, h5⟩, h6⟩
      injection h4 with h4
      injection h4 with h4
      subst h4
      exact ⟨l', rfl, (h3 k).mpr ⟨h5, h6⟩⟩

theorem removeDefaults_find {s s' : Json} (h : removeDefaults s = Res.ok s') {k : String} (h1 : k ≠ "required")
    (h2 : k ≠ "properties") : s'.find? k = s.find? k := by
  rw [removeDefaults_eq] at h
  split at h
  · injection h with h; rw [h]
  · next p hp =>
    obtain ⟨s1, h3, h4⟩ := Res.bind_eq_ok.mp h
    obtain ⟨p', h5, h6⟩ := Res.bind_eq_ok.mp h4
    rw [find_set h6, if_neg h2, (pruneLevel_ok h3).1 k h1]

theorem removeAll_obj {m : List (String × Json)} {p' : Json} (h : removeAll (obj m) = Res.ok p') :
    ∃ m', p' = obj m' ∧ List.Forall₂ (fun x y => x.1 = y.1 ∧ removeDefaults x.2 = Res.ok y.2) m m' := by
  obtain ⟨m', h1, h2⟩ := Res.bind_eq_ok.mp h
  injection h2 with h2
  refine ⟨m', h2.symm, (Res.each_eq_ok.mp h1).imp ?_⟩
  intro x y h3
  obtain ⟨v, h4, h5⟩ := Res.bind_eq_ok.mp h3
  injection h5 with h5
  subst h5
  exact ⟨rfl, h4⟩

theorem hasDefault_removeAll {p p' : Json} (h : removeAll p = Res.ok p') (k : String) :
    HasDefault p' k ↔ HasDefault p k := by
  unfold HasDefault
  cases p with
  | obj m =>
    obtain ⟨m', rfl, hm⟩ := removeAll_obj h
    clear h
    simp only [find?]
    induction hm with
    | nil => rfl
    | @cons x y m m' h1 _ ih =>
      obtain ⟨k1, v1⟩ := x
      obtain ⟨k2, v2⟩ := y
      obtain ⟨h1, h2⟩ := h1
      simp only at h1 h2
      subst h1
      simp only [lookup_cons]
      by_cases hk : k = k1
      · simp only [if_pos hk]
        have := removeDefaults_find h2 (k := "default") (by decide) (by decide)
        simp [contains, this]
      · simp only [if_neg hk]
        exact ih
  | arr l =>
    obtain ⟨l', h1, h2⟩ := Res.bind_eq_ok.mp h
    injection h2 with h2
    subst h2
    simp [find?]
  | _ => injection h with h; subst h; rfl

/-- C51. Afterwards no property with a default is required, at any depth. -/
theorem C51_clean {s s' : Json} (h : removeDefaults s = Res.ok s') : Clean s' := by
  generalize hn : sizeOf s = n
  induction n using Nat.strong_induction_on generalizing s s' with
  | _ n ih =>
    have h0 := h
    rw [removeDefaults_eq] at h
    split at h
    · next hp => injection h with h; subst h; exact Clean.other _ hp
    · next p hp =>
      obtain ⟨s1, h3, h4⟩ := Res.bind_eq_ok.mp h
      obtain ⟨p', h5, h6⟩ := Res.bind_eq_ok.mp h4
      obtain ⟨type, ht, hobj, hpr⟩ := nested_type hp
      have hsize := sizeOf_find hpr
      have hf := find_set h6
      have hp' : nested? s' = some p' :=
        nested_of (by rw [removeDefaults_find h0 (by decide) (by decide), ht]) (by rw [hf, if_pos rfl]) hobj
      have hreq : ∀ k, Requires s' k ↔ Requires s1 k := by
        intro k; unfold Requires; rw [hf, if_neg (by decide)]
      refine Clean.object _ _ hp' (fun k hk => ?_) fun v hv => ?_
      · rw [hasDefault_removeAll h5]
        exact (((pruneLevel_ok h3).2 k).mp ((hreq k).mp hk)).2
      · cases p with
        | obj m =>
          obtain ⟨m', rfl, hm⟩ := removeAll_obj h5
          obtain ⟨y, hy, rfl⟩ := List.mem_map.mp hv
          obtain ⟨x, hx, -, h7⟩ := forall₂_mem_right hm hy
          have := sizeOf_items (j := obj m) hx
          exact ih _ (by omega) h7 rfl
        | arr l =>
          obtain ⟨l', h7, h8⟩ := Res.bind_eq_ok.mp h5
          injection h8 with h8
          subst h8
          obtain ⟨x, hx, h9⟩ := forall₂_mem_right (Res.each_eq_ok.mp h7) hv
          have h1 := List.sizeOf_lt_of_mem hx
          simp only [arr.sizeOf_spec] at hsize
          exact ih _ (by omega) h9 rfl
        | null => injection h5 with h5; subst h5; cases hv
        | _ =>
          injection h5 with h5
          subst h5
          have := List.mem_singleton.mp hv
          subst this
          exact Clean.other _ rfl

/-- All properties of a schema are given by an object, at any depth. -/
inductive Schema : Json → Prop
  | other (j : Json) (h : nested? j = none) : Schema j
  | object (j : Json) (m : List (String × Json)) (h : nested? j = some (obj m)) (hp : ∀ x ∈ m, Schema x.2) : Schema j

/-- C51. The other required keys stay, and nothing else changes, at any depth. -/
theorem C51_pruned {s s' : Json} (hs : Schema s) (h : removeDefaults s = Res.ok s') : Pruned s s' := by
  induction hs generalizing s' with
  | other j hj =>
    rw [removeDefaults_eq, hj] at h
    injection h with h
    subst h
    exact Pruned.other _ hj
  | object j m hj hs ih =>
    have h0 := h
    rw [removeDefaults_eq, hj] at h
    obtain ⟨s1, h3, h4⟩ := Res.bind_eq_ok.mp h
    obtain ⟨p', h5, h6⟩ := Res.bind_eq_ok.mp h4
    obtain ⟨type, ht, hobj, hpr⟩ := nested_type hj
    have hf := find_set h6
    obtain ⟨m', rfl, hm⟩ := removeAll_obj h5
    refine Pruned.object j s' m m' hj ?_ (fun k h1 h2 => removeDefaults_find h0 h1 h2) (fun k => ?_) ?_ ?_
    · exact nested_of (by rw [removeDefaults_find h0 (by decide) (by decide), ht]) (by rw [hf, if_pos rfl]) hobj
    · rw [← (pruneLevel_ok h3).2 k]
      unfold Requires; rw [hf, if_neg (by decide)]
    · clear hj ih hs h3 h4 h5 h6 hpr hf h h0
      induction hm with
      | nil => rfl
      | cons h1 _ ih => simp [h1.1, ih]
    · intro x x' hx
      have : x ∈ m ∧ removeDefaults x.2 = Res.ok x'.2 := by
        clear hj ih hs h3 h4 h5 h6 hpr hf h h0
        induction hm with
        | nil => cases hx
        | cons h1 _ ih =>
          rw [List.zip_cons_cons, List.mem_cons] at hx
          rcases hx with hx | hx
          · injection hx with h2 h3
            subst h2 h3
            exact ⟨by simp, h1.2⟩
          · exact ⟨by simp [(ih hx).1], (ih hx).2⟩
      exact ih x this.1 this.2

/-- `a` and `b` are required, `b` has a default. -/
example : removeDefaults (obj [("properties", obj [("a", obj [("type", str "number")]),
      ("b", obj [("default", num 1), ("type", str "number")])]), ("required", arr [str "a", str "b"]),
      ("type", str "object")]) =
    Res.ok (obj [("properties", obj [("a", obj [("type", str "number")]),
      ("b", obj [("default", num 1), ("type", str "number")])]), ("required", arr [str "a"]),
      ("type", str "object")]) := by
  have h1 : removeDefaults (obj [("type", str "number")]) = Res.ok (obj [("type", str "number")]) := by
    rw [removeDefaults_eq]; rfl
  have h2 : removeDefaults (obj [("default", num 1), ("type", str "number")]) =
      Res.ok (obj [("default", num 1), ("type", str "number")]) := by
    rw [removeDefaults_eq]; rfl
  rw [removeDefaults_eq]
  simp [nested?, find?, lookup_cons, isStr, firstIsStr, pruneLevel, pruneRequired, removeAll, Res.each, h1, h2,
    Res.bind, getStr, isObj, contains, set, insert, replaceKey]

end Verif.Json
