import Verif.Json.Insert

/-!
# Property C50: applying defaults

Source: `/repo/src/Auxillary/json_schema/schema_validation.cpp` 99-148.
-/

set_option autoImplicit false

namespace Verif.Json

/-- `items()`: keys and values; the keys of an array are its indices. -/
def items : Json → List (String × Json)
  | null => []
  | obj m => m
  | arr l => l.zipIdx.map fun x => (toString x.2, x.1)
  | j => [("", j)]

/-- `j == "object"`. -/
def isStr (j : Json) (s : String) : Bool :=
  match j with
  | str t => t == s
  | _ => false

theorem sizeOf_lookup {m : List (String × Json)} {k : String} {v : Json} (h : m.lookup k = some v) :
    sizeOf v < sizeOf (obj m) := by
  have := List.sizeOf_lt_of_mem (mem_of_lookup h)
  simp only [obj.sizeOf_spec, Prod.mk.sizeOf_spec] at this ⊢
  omega

theorem sizeOf_find {j v : Json} {k : String} (h : j.find? k = some v) : sizeOf v < sizeOf j := by
  cases j with
  | obj m => exact sizeOf_lookup h
  | _ => simp [find?] at h

theorem sizeOf_items {j : Json} {x : String × Json} (h : x ∈ j.items) : sizeOf x.2 ≤ sizeOf j := by
  obtain ⟨k, v⟩ := x
  cases j with
  | null => simp [items] at h
  | obj m =>
    have := List.sizeOf_lt_of_mem (a := (k, v)) (as := m) h
    simp only [obj.sizeOf_spec, Prod.mk.sizeOf_spec] at this ⊢
    omega
  | arr l =>
    simp only [items, List.mem_map, Prod.mk.injEq] at h
    obtain ⟨y, hy, -, rfl⟩ := h
    have : y.1 ∈ l := by
      have := List.mem_zipIdx hy
      simp only [this.2.2]
      exact List.getElem_mem _
    have := List.sizeOf_lt_of_mem this
    simp only [arr.sizeOf_spec] at this ⊢
    omega
  | _ => simp only [items, List.mem_singleton, Prod.mk.injEq] at h; rw [h.2]

/-- `apply_defaults_unsafe` — 99-123. The first argument is the json of the properties of a schema. In line 103,
`value["type"]` is undefined behaviour if this key is missing. -/
def applyUnsafe (schema data : Json) : Res Json :=
  Res.fold schema.items.attach data fun data x =>
    if x.1.2.contains "default" && !data.contains x.1.1 then do
      let d ← x.1.2.index "default"
      data.set x.1.1 d
    else do
      let type ← x.1.2.index "type"
      if type.isStr "object" then
        match _h : x.1.2.find? "properties" with
        | none => Res.ok data
        | some properties =>
          match data.find? x.1.1 with
          | none => Res.ok data
          | some old =>
            if old.isObj then do
              let new ← applyUnsafe properties old
              data.set x.1.1 new
            else Res.throws
      else Res.ok data
termination_by sizeOf schema
decreasing_by
  have h1 := sizeOf_items x.2
  have h2 := sizeOf_find _h
  omega

/-- `apply_defaults` — 125-148. -/
def applyDefaults (schema data : Json) : Res Json :=
  match schema.find? "type", schema.find? "properties" with
  | some type, some properties => if type.isStr "object" then applyUnsafe properties data else Res.throws
  | _, _ => Res.throws

/-! ## Specification -/

/-- Everything in the first json is also in the second one. -/
inductive Kept : Json → Json → Prop
  | same (j : Json) : Kept j j
  | extended (m m' : List (String × Json))
    (hk : ∀ k v, m.lookup k = some v → ∃ v', m'.lookup k = some v')
    (hv : ∀ k v v', m.lookup k = some v → m'.lookup k = some v' → Kept v v') : Kept (obj m) (obj m')

/-- The definition of a property that is itself an object with listed properties. -/
def nested? (value : Json) : Option Json :=
  match value.find? "type", value.find? "properties" with
  | some type, some properties => if type.isStr "object" then some properties else none
  | _, _ => none

/-! ## Proofs -/

/-- The body of the loop. -/
def applyStep (data : Json) (x : String × Json) : Res Json :=
  if x.2.contains "default" && !data.contains x.1 then do
    let d ← x.2.index "default"
    data.set x.1 d
  else do
    let type ← x.2.index "type"
    if type.isStr "object" then
      match x.2.find? "properties" with
      | none => Res.ok data
      | some properties =>
        match data.find? x.1 with
        | none => Res.ok data
        | some old =>
          if old.isObj then do
            let new ← applyUnsafe properties old
            data.set x.1 new
          else Res.throws
    else Res.ok data

theorem fold_attach {α σ : Type} (l : List α) (s : σ) (f : σ → α → Res σ) :
    Res.fold l.attach s (fun s x => f s x.1) = Res.fold l s f := by
  have : ∀ (l' : List α) (h : ∀ x ∈ l', x ∈ l) (s : σ),
      Res.fold (l'.attachWith (· ∈ l) h) s (fun s x => f s x.1) = Res.fold l' s f := by
    intro l' h s
    induction l' generalizing s with
    | nil => rfl
    | cons a l' ih =>
      simp only [List.attachWith_cons, Res.fold]
      cases f s a with
      | ok t => simp only [Res.ok_bind]; exact ih _ t
      | _ => rfl
  exact this l (fun _ h => h) s

theorem applyUnsafe_eq (schema data : Json) : applyUnsafe schema data = Res.fold schema.items data applyStep := by
  rw [applyUnsafe]
  refine Eq.trans ?_ (fold_attach _ _ _)
  congr 1
  funext data x
  unfold applyStep
  split
  · rfl
  · cases x.1.2.index "type" with
    | ok type =>
      simp only [Res.ok_bind]
      split
      · split
        · next h => simp only [h]
        · next p h => simp only [h]
      · rfl
    | _ => rfl


/-- A loop over distinct keys, where each round affects its own key only. -/
theorem fold_keys {R : Json → Option Json → Option Json → Prop} {step : Json → String × Json → Res Json}
    {I : Json → Prop}
    (hstep : ∀ d x d', I d → step d x = Res.ok d' →
      I d' ∧ R x.2 (d.find? x.1) (d'.find? x.1) ∧ ∀ k, k ≠ x.1 → d'.find? k = d.find? k)
    {m : List (String × Json)} (hn : (m.map Prod.fst).Nodup) {d d' : Json} (hI : I d)
    (h : Res.fold m d step = Res.ok d') : I d' ∧ ∀ k, match m.lookup k with
      | some s => R s (d.find? k) (d'.find? k)
      | none => d'.find? k = d.find? k := by
  induction m generalizing d with
  | nil =>
    simp only [Res.fold, Res.ok.injEq] at h
    subst h
    exact ⟨hI, fun k => by simp [List.lookup]⟩
  | cons x m ih =>
    simp only [Res.fold] at h
    obtain ⟨t1, h1, h⟩ := Res.bind_eq_ok.mp h
    simp only [List.map_cons, List.nodup_cons] at hn
    obtain ⟨h2, h3, h4⟩ := hstep d x t1 hI h1
    obtain ⟨h5, h6⟩ := ih hn.2 h2 h
    refine ⟨h5, fun k => ?_⟩
    have := h6 k
    obtain ⟨k', w⟩ := x
    simp only [List.lookup]
    cases he : k == k' with
    | true =>
      have e := eq_of_beq he
      subst e
      rw [lookup_none_of_notMem hn.1] at this
      simp only at this ⊢ h3
      rw [this]
      exact h3
    | false =>
      have hk : k ≠ k' := by simpa using he
      rw [h4 k hk] at this
      exact this

/-- The value of a key after applying defaults, from its definition in the schema (if there is one) and its value before. -/
def Field (definition old new : Option Json) : Prop :=
  match definition, old with
  | none, _ => new = old
  | some s, none => new = s.find? "default"
  | some s, some v =>
    match nested? s with
    | some p => ∃ v', applyUnsafe p v = Res.ok v' ∧ new = some v'
    | none => new = some v

theorem nested_of {s type p : Json} (h1 : s.find? "type" = some type) (h2 : s.find? "properties" = some p)
    (h3 : type.isStr "object" = true) : nested? s = some p := by
  unfold nested?; rw [h1, h2]; simp [h3]

theorem nested_type {s p : Json} (h : nested? s = some p) :
    ∃ type, s.find? "type" = some type ∧ type.isStr "object" = true ∧ s.find? "properties" = some p := by
  unfold nested? at h
  cases h1 : s.find? "type" with
  | none => simp [h1] at h
  | some type =>
    cases h2 : s.find? "properties" with
    | none => simp [h1, h2] at h
    | some q =>
      simp only [h1, h2] at h
      split at h
      · next h3 => injection h with h; subst h; exact ⟨type, rfl, h3, rfl⟩
      · cases h

theorem applyStep_spec {d d' : Json} {x : String × Json} (hd : d.isObj = true) (h : applyStep d x = Res.ok d') :
    d'.isObj = true ∧ Field (some x.2) (d.find? x.1) (d'.find? x.1) ∧ ∀ k, k ≠ x.1 → d'.find? k = d.find? k := by
  unfold applyStep at h
  cases hc : d.find? x.1 with
  | none =>
    have hcont : d.contains x.1 = false := by simp [contains, hc]
    cases hdef : x.2.find? "default" with
    | some v =>
      rw [if_pos (by simp [contains, hdef, hc])] at h
      rw [index_of_find hdef, Res.ok_bind] at h
      have hf := find_set h
      exact ⟨isObj_set hd h, by simp only [Field, hdef]; rw [hf, if_pos rfl], fun k hk => by rw [hf, if_neg hk]⟩
    | none =>
      rw [if_neg (by simp [contains, hdef])] at h
      obtain ⟨type, ht, h⟩ := Res.bind_eq_ok.mp h
      have : d' = d := by
        split at h
        · split at h
          · injection h with h; exact h.symm
          · rw [hc] at h; injection h with h; exact h.symm
        · injection h with h; exact h.symm
      subst this
      exact ⟨hd, by simp only [Field, hdef]; exact hc, fun _ _ => rfl⟩
  | some v =>
    rw [if_neg (by simp [contains, hc])] at h
    obtain ⟨type, ht, h⟩ := Res.bind_eq_ok.mp h
    rw [index_eq_ok] at ht
    simp only [Field]
    split at h
    · next hobj =>
      split at h
      · next hp =>
        injection h with h
        subst h
        have : nested? x.2 = none := by unfold nested?; rw [ht, hp]
        rw [this]
        exact ⟨hd, hc, fun _ _ => rfl⟩
      · next p hp =>
        rw [nested_of ht hp hobj]
        simp only [hc] at h
        split at h
        · obtain ⟨new, hnew, h⟩ := Res.bind_eq_ok.mp h
          have hf := find_set h
          exact ⟨isObj_set hd h, ⟨new, hnew, by rw [hf, if_pos rfl]⟩, fun k hk => by rw [hf, if_neg hk]⟩
        · cases h
    · next hobj =>
      injection h with h
      subst h
      have : nested? x.2 = none := by
        unfold nested?; rw [ht]; cases x.2.find? "properties" <;> simp [hobj]
      rw [this]
      exact ⟨hd, hc, fun _ _ => rfl⟩

theorem Kept.trans {a b c : Json} (h : Kept a b) (h' : Kept b c) : Kept a c := by
  induction h generalizing c with
  | same j => exact h'
  | extended m m' hk hv ih =>
    cases h' with
    | same => exact .extended m m' hk hv
    | extended _ m'' hk' hv' =>
      refine .extended m m'' (fun k v h => ?_) fun k v v'' h h'' => ?_
      · obtain ⟨v', h1⟩ := hk k v h
        exact hk' k v' h1
      · obtain ⟨v', h1⟩ := hk k v h
        exact ih k v v' h h1 (hv' k v' v'' h1 h'')

theorem kept_of_find {d d' : Json} (h : d.isObj = true) (h' : d'.isObj = true)
    (hf : ∀ k v, d.find? k = some v → ∃ v', d'.find? k = some v' ∧ Kept v v') : Kept d d' := by
  cases d with
  | obj m =>
    cases d' with
    | obj m' =>
      refine .extended m m' (fun k v hk => ?_) fun k v v' hk hk' => ?_
      · obtain ⟨v', h1, -⟩ := hf k v hk
        exact ⟨v', h1⟩
      · obtain ⟨w, h1, h2⟩ := hf k v hk
        have : some v' = some w := hk'.symm.trans h1
        injection this with this
        exact this ▸ h2
    | _ => simp [isObj] at h'
  | _ => simp [isObj] at h

theorem fold_invariant {α σ : Type} {P : σ → Prop} {l : List α} {f : σ → α → Res σ}
    (h : ∀ s a s', a ∈ l → P s → f s a = Res.ok s' → P s') {s s' : σ} (hs : P s) (hf : Res.fold l s f = Res.ok s') :
    P s' := by
  induction l generalizing s with
  | nil => simp only [Res.fold, Res.ok.injEq] at hf; exact hf ▸ hs
  | cons a l ih =>
    simp only [Res.fold] at hf
    obtain ⟨t, h1, hf⟩ := Res.bind_eq_ok.mp hf
    exact ih (fun s b s' hb => h s b s' (by simp [hb])) (h s a t (by simp) hs h1) hf

/-! ## C50 -/

/-- C50. Applying the defaults of any schema keeps everything in the data: keys stay, values that are no
objects stay the same, objects are only extended. -/
theorem C50_kept {schema data data' : Json} (hd : data.isObj = true) (h : applyUnsafe schema data = Res.ok data') :
    data'.isObj = true ∧ Kept data data' := by
  induction hn : sizeOf schema using Nat.strong_induction_on generalizing schema data data' with
  | _ n ih =>
    rw [applyUnsafe_eq] at h
    refine fold_invariant (P := fun d => d.isObj = true ∧ Kept data d) ?_ ⟨hd, .same data⟩ h
    rintro d x d' hx ⟨h1, h2⟩ h3
    obtain ⟨h4, h5, h6⟩ := applyStep_spec h1 h3
    refine ⟨h4, h2.trans (kept_of_find h1 h4 fun k v hk => ?_)⟩
    by_cases hkx : k = x.1
    · subst hkx
      rw [hk] at h5
      simp only [Field] at h5
      cases hp : nested? x.2 with
      | none => rw [hp] at h5; exact ⟨v, h5, .same v⟩
      | some p =>
        rw [hp] at h5
        obtain ⟨v', h7, h8⟩ := h5
        refine ⟨v', h8, ?_⟩
        obtain ⟨type, h9, h10, h11⟩ := nested_type hp
        have hv : v.isObj = true := by
          unfold applyStep at h3
          rw [if_neg (by simp [contains, hk]), index_of_find h9, Res.ok_bind, if_pos h10, h11] at h3
          simp only [hk] at h3
          split at h3
          · next h => exact h
          · cases h3
        exact (ih (sizeOf p) (by have := sizeOf_items hx; have := sizeOf_find h11; omega) hv h7 rfl).2
    · exact ⟨v, by rw [h6 k hkx, hk], .same v⟩

/-- C50. Exactly the missing keys with a default are added, with this default. A key whose definition is an object with
properties of its own, and that is in the data, has these applied to it. Everything else stays the same. -/
theorem C50_exact {m : List (String × Json)} (hn : (m.map Prod.fst).Nodup) {data data' : Json}
    (hd : data.isObj = true) (h : applyUnsafe (obj m) data = Res.ok data') (k : String) :
    (m.lookup k = none → data'.find? k = data.find? k) ∧
    (∀ s, m.lookup k = some s → data.find? k = none → data'.find? k = s.find? "default") ∧
    (∀ s v, m.lookup k = some s → data.find? k = some v → nested? s = none → data'.find? k = some v) ∧
    ∀ s v p, m.lookup k = some s → data.find? k = some v → nested? s = some p →
      ∃ v', applyUnsafe p v = Res.ok v' ∧ data'.find? k = some v' := by
  rw [applyUnsafe_eq] at h
  have := (fold_keys (R := fun s => Field (some s)) (I := fun d => d.isObj = true)
    (fun d x d' h1 h2 => applyStep_spec h1 h2) hn hd h).2 k
  refine ⟨fun h1 => ?_, fun s h1 h2 => ?_, fun s v h1 h2 h3 => ?_, fun s v p h1 h2 h3 => ?_⟩
  · rw [h1] at this; exact this
  · rw [h1, h2] at this; exact this
  · rw [h1, h2] at this; simp only [Field, h3] at this; exact this
  · rw [h1, h2] at this; simp only [Field, h3] at this; exact this

/-- C50, as a whole. A schema that isn't one of an object with listed properties is rejected. -/
theorem C50_rejected {schema : Json} (h : nested? schema = none) (data : Json) : applyDefaults schema data = Res.throws := by
  unfold nested? at h
  unfold applyDefaults
  split
  · next type properties h1 h2 =>
    rw [h1, h2] at h
    simp only at h
    split
    · next ht => rw [if_pos ht] at h; cases h
    · rfl
  · rfl

/-- C50, as a whole. With the schema of an object, everything in the data is kept, and a key of the data's top level that was missing is there
afterwards exactly if it has a default, which it then has as its value. -/
theorem C50_applied {schema data data' : Json} (hd : data.isObj = true) (h : applyDefaults schema data = Res.ok data') :
    ∃ properties, nested? schema = some properties ∧ Kept data data' ∧
      ∀ m, properties = obj m → (m.map Prod.fst).Nodup → ∀ k, data.find? k = none →
        data'.find? k = (m.lookup k).bind fun s => s.find? "default" := by
  cases hn : nested? schema with
  | none => rw [C50_rejected hn] at h; cases h
  | some properties =>
    have he : applyDefaults schema data = applyUnsafe properties data := by
      unfold nested? at hn
      unfold applyDefaults
      split at hn
      · next type p h1 h2 =>
        split at hn
        · next ht =>
          injection hn with hn
          subst hn
          rw [if_pos ht]
        · cases hn
      · cases hn
    rw [he] at h
    refine ⟨properties, rfl, (C50_kept hd h).2, ?_⟩
    rintro m rfl hm k hk
    obtain ⟨h1, h2, -⟩ := C50_exact hm hd h k
    cases hl : m.lookup k with
    | none => rw [h1 hl, hk]; rfl
    | some s => rw [h2 s hl hk]; rfl

/-- A schema with a default, and data without the key: it is added. A schema of an array is rejected. -/
example : applyDefaults (obj [("properties", obj [("a", obj [("default", num 1), ("type", str "number")])]), ("type", str "object")]) (obj [("b", num 2)]) =
      Res.ok (obj [("a", num 1), ("b", num 2)]) ∧
    applyDefaults (obj [("properties", obj []), ("type", str "array")]) (obj []) = Res.throws := by
  constructor
  · unfold applyDefaults
    simp only [Json.find?, List.lookup]
    change applyUnsafe _ _ = _
    rw [applyUnsafe_eq]; rfl
  · exact C50_rejected (by rfl) _

/-- Every definition has a type, and at no depth there is something else. -/
inductive Typed : Json → Prop
  | intro (schema : Json) (h : ∀ x ∈ schema.items, x.2.contains "type" = true)
    (hp : ∀ x ∈ schema.items, ∀ p, nested? x.2 = some p → Typed p) : Typed schema

/-- C50. If all definitions have types, applying defaults to an object is defined. -/
theorem C50_defined {schema data : Json} (ht : Typed schema) (hd : data.isObj = true) :
    applyUnsafe schema data ≠ Res.ub := by
  induction ht generalizing data with
  | intro schema h hp ih =>
    rw [applyUnsafe_eq]
    have : ∀ l : List (String × Json), (∀ x ∈ l, x ∈ schema.items) → ∀ d : Json, d.isObj = true →
        Res.fold l d applyStep ≠ Res.ub := by
      intro l
      induction l with
      | nil => intro _ d _; simp [Res.fold]
      | cons x l ihl =>
        intro hl d hd
        simp only [Res.fold]
        cases h1 : applyStep d x with
        | throws => simp
        | ok d' =>
          simp only [Res.ok_bind]
          exact ihl (fun y hy => hl y (by simp [hy])) d' (applyStep_spec hd h1).1
        | ub =>
          exfalso
          unfold applyStep at h1
          split at h1
          · next hc =>
            simp only [Bool.and_eq_true] at hc
            obtain ⟨v, hv⟩ := contains_iff.mp hc.1
            obtain ⟨j', hj'⟩ := set_isObj hd x.1 v
            rw [index_of_find hv, Res.ok_bind, hj'] at h1
            cases h1
          · obtain ⟨type, htype⟩ := contains_iff.mp (h x (hl x (by simp)))
            rw [index_of_find htype, Res.ok_bind] at h1
            split at h1
            · next hobj =>
              split at h1
              · cases h1
              · next p hp' =>
                split at h1
                · cases h1
                · next old hold =>
                  split at h1
                  · next ho =>
                    have := ih x (hl x (by simp)) p (nested_of htype hp' hobj) ho
                    cases ha : applyUnsafe p old with
                    | ub => exact this ha
                    | throws => rw [ha] at h1; cases h1
                    | ok new =>
                      obtain ⟨j', hj'⟩ := set_isObj hd x.1 new
                      rw [ha, Res.ok_bind, hj'] at h1
                      cases h1
                  · cases h1
            · cases h1
    exact this _ (fun _ h => h) data hd

/-- C50. For a flat schema, applying the defaults to an object succeeds, and doing so again changes nothing. -/
theorem C50_flat {m : List (String × Json)} (hn : (m.map Prod.fst).Nodup)
    (ht : ∀ x ∈ m, x.2.contains "type" = true) (hflat : ∀ x ∈ m, nested? x.2 = none) {data : Json}
    (hd : data.isObj = true) :
    ∃ data', applyUnsafe (obj m) data = Res.ok data' ∧ applyUnsafe (obj m) data' = Res.ok data' := by
  have step : ∀ x ∈ m, ∀ d : Json, d.isObj = true →
      ∃ d', applyStep d x = Res.ok d' ∧ (d.contains x.1 = true ∨ x.2.contains "default" = false → d' = d) := by
    intro x hx d hd
    unfold applyStep
    obtain ⟨type, htype⟩ := contains_iff.mp (ht x hx)
    by_cases hc : (x.2.contains "default" && !d.contains x.1) = true
    · rw [if_pos hc]
      simp only [Bool.and_eq_true, Bool.not_eq_true'] at hc
      obtain ⟨v, hv⟩ := contains_iff.mp hc.1
      obtain ⟨j', hj'⟩ := set_isObj hd x.1 v
      rw [index_of_find hv, Res.ok_bind, hj']
      refine ⟨j', rfl, ?_⟩
      rintro (h | h)
      · rw [hc.2] at h; cases h
      · rw [hc.1] at h; cases h
    · rw [if_neg hc, index_of_find htype, Res.ok_bind]
      refine ⟨d, ?_, fun _ => rfl⟩
      split
      · next hobj =>
        split
        · rfl
        · next p hp => have := hflat x hx; rw [nested_of htype hp hobj] at this; cases this
      · rfl
  have exist : ∀ l : List (String × Json), (∀ x ∈ l, x ∈ m) → ∀ d : Json, d.isObj = true →
      ∃ d', Res.fold l d applyStep = Res.ok d' := by
    intro l
    induction l with
    | nil => intro _ d _; exact ⟨d, rfl⟩
    | cons x l ih =>
      intro hl d hd
      obtain ⟨d1, h1, -⟩ := step x (hl x (by simp)) d hd
      obtain ⟨d2, h2⟩ := ih (fun y hy => hl y (by simp [hy])) d1 (applyStep_spec hd h1).1
      exact ⟨d2, by simp only [Res.fold, h1, Res.ok_bind, h2]⟩
  obtain ⟨data', h⟩ := exist m (fun _ h => h) data hd
  have h' : applyUnsafe (obj m) data = Res.ok data' := by rw [applyUnsafe_eq]; exact h
  refine ⟨data', h', ?_⟩
  have hd' := (C50_kept hd h').1
  rw [applyUnsafe_eq]
  have again : ∀ l : List (String × Json), (∀ x ∈ l, x ∈ m) → Res.fold l data' applyStep = Res.ok data' := by
    intro l
    induction l with
    | nil => intro _; rfl
    | cons x l ih =>
      intro hl
      obtain ⟨d1, h1, h2⟩ := step x (hl x (by simp)) data' hd'
      have : d1 = data' := h2 (by
        have hx := lookup_of_mem hn (hl x (by simp))
        obtain ⟨-, h3, h4, -⟩ := C50_exact hn hd h' x.1
        cases hold : data.find? x.1 with
        | none =>
          have := h3 x.2 hx hold
          cases hdef : x.2.find? "default" with
          | none => right; simp [contains, hdef]
          | some v => left; simp [contains, this, hdef]
        | some v => left; simp [contains, h4 x.2 v hx hold (hflat x (hl x (by simp)))])
      rw [this] at h1
      simp only [Res.fold, h1, Res.ok_bind]
      exact ih fun y hy => hl y (by simp [hy])
  exact again m fun _ h => h

/-- A schema with a nested object: its default has no key `b`, but `b` has a default itself. -/
def exampleNested : Json :=
  obj [("a", obj [("default", obj []), ("properties", obj [("b", obj [("default", num 1), ("type", str "number")])]),
    ("type", str "object")])]

/-- For nested defaults the result depends on how often they are applied. -/
theorem C50_nested_twice :
    applyUnsafe exampleNested (obj []) = Res.ok (obj [("a", obj [])]) ∧
    applyUnsafe exampleNested (obj [("a", obj [])]) = Res.ok (obj [("a", obj [("b", num 1)])]) := by
  constructor
  · rw [applyUnsafe_eq]; rfl
  · rw [applyUnsafe_eq]
    have : applyUnsafe (obj [("b", obj [("default", num 1), ("type", str "number")])]) (obj []) =
        Res.ok (obj [("b", num 1)]) := by rw [applyUnsafe_eq]; rfl
    simp [items, exampleNested, Res.fold, applyStep, contains, find?, index, isStr, isObj, set, this, lookup_cons,
      insert, replaceKey]

/-- One key is given, one has a default, one has neither. -/
example : applyUnsafe (obj [("diameter", obj [("default", num 1), ("type", str "number")]),
      ("length", obj [("default", num 5), ("type", str "number")]), ("roughness", obj [("type", str "number")])])
    (obj [("diameter", num 3), ("id", str "p")]) =
    Res.ok (obj [("diameter", num 3), ("id", str "p"), ("length", num 5)]) := by
  rw [applyUnsafe_eq]; rfl

end Verif.Json
