import Verif.Editor.Model
import Verif.Read.Props
import Verif.Json.Order

/-!
# Schemas with defaults, and with required keys that have no default

The program adds the defaults to the schema, applies them to the data and validates the result. The schema for editors has the
defaults too, and its required keys are those without default. Here these two are compared for all schemas of the kind used
for components.
-/

set_option autoImplicit false

namespace Verif.Editor

open Verif.Json Verif.Factory Verif.Schema Verif.Read

/-! ## Accepting objects -/

theorem keyword_congr {m m' : List (String × Json)} (h : m.lookup "properties" = m'.lookup "properties") (k : String)
    (v y : Json) : keyword m k v y = keyword m' k v y := by
  unfold keyword simpleKeyword
  rw [h]

theorem mem_iff_lookup {m : List (String × Json)} (hn : (m.map Prod.fst).Nodup) {k : String} {v : Json} :
    (k, v) ∈ m ↔ m.lookup k = some v := ⟨fun h => lookup_of_mem hn h, mem_of_lookup⟩

theorem accepts_iff {m : List (String × Json)} (hn : (m.map Prod.fst).Nodup) (y : Json) :
    accepts (obj m) y = true ↔ ∀ k v, m.lookup k = some v → keyword m k v y = true := by
  rw [accepts_obj, List.all_eq_true]
  constructor
  · intro h k v hk
    exact h (k, v) (mem_of_lookup hk)
  · rintro h ⟨k, v⟩ hx
    exact h k v (lookup_of_mem hn hx)

/-- A schema with listed properties, for objects, without any other conditions. -/
structure ObjectSchema (s : Json) (ps : List (String × Json)) : Prop where
  isObj : s.isObj = true
  distinct : DistinctKeys s
  type : s.find? "type" = some (str "object")
  props : s.find? "properties" = some (obj ps)
  required : ∀ r, s.find? "required" = some r → ∃ l, r = arr l ∧ ∀ x ∈ l, ∃ k, x = str k
  others : ∀ k ∈ ["items", "contains", "allOf", "minItems", "maxItems", "minimum", "maximum"], s.find? k = none
  keys : (ps.map Prod.fst).Nodup

theorem ObjectSchema.nested {s : Json} {ps : List (String × Json)} (h : ObjectSchema s ps) : nested? s = some (obj ps) :=
  nested_of h.type h.props rfl

theorem keyword_type (m : List (String × Json)) (t : String) (y : Json) :
    keyword m "type" (str t) y = hasType t y := by
  unfold keyword simpleKeyword
  rw [if_neg (by decide), if_neg (by decide), if_neg (by decide), if_neg (by decide), if_pos rfl]

theorem keyword_required (m : List (String × Json)) (l : List Json) (d : List (String × Json)) :
    keyword m "required" (arr l) (obj d) = l.all fun key => match key with
      | str s => (obj d).contains s
      | _ => false := by
  unfold keyword simpleKeyword
  rw [if_neg (by decide), if_neg (by decide), if_neg (by decide), if_neg (by decide), if_neg (by decide), if_pos rfl]
  rfl

theorem keyword_properties (m ps d : List (String × Json)) :
    keyword m "properties" (obj ps) (obj d) = ps.all fun p => match d.lookup p.1 with
      | some y => accepts p.2 y
      | none => true := by
  unfold keyword
  rw [if_pos rfl]
  rfl

theorem keyword_additional (m d : List (String × Json)) (v : Json) :
    keyword m "additionalProperties" v (obj d) = match v with
      | Json.bool false => d.all fun x => (((m.lookup "properties").getD null).find? x.1).isSome
      | _ => true := by
  unfold keyword simpleKeyword
  rw [if_neg (by decide), if_neg (by decide), if_neg (by decide), if_neg (by decide), if_neg (by decide),
    if_neg (by decide), if_pos rfl]
  cases v with
  | bool b => cases b <;> rfl
  | _ => rfl

theorem keyword_other {k : String} (h : k ∉ ["properties", "items", "contains", "allOf", "type", "required",
    "additionalProperties", "minItems", "maxItems", "minimum", "maximum"]) (m : List (String × Json)) (v y : Json) :
    keyword m k v y = true := by
  simp only [List.mem_cons, List.not_mem_nil, or_false, not_or] at h
  obtain ⟨h1, h2, h3, h4, h5, h6, h7, h8, h9, h10, h11⟩ := h
  unfold keyword simpleKeyword
  rw [if_neg h1, if_neg h2, if_neg h3, if_neg h4, if_neg h5, if_neg h6, if_neg h7, if_neg h8, if_neg h9, if_neg h10,
    if_neg h11]

theorem contains_of_mem {m : List (String × Json)} {x : String × Json} (h : x ∈ m) : (obj m).contains x.1 = true := by
  rw [contains, find?, Option.isSome_iff_ne_none]
  intro h'
  rw [List.lookup_eq_none_iff] at h'
  have := h' x h
  simp at this

theorem hasType_object {y : Json} : hasType "object" y = true ↔ y.isObj = true := by
  cases y <;> simp [hasType, Json.isObj]

/-- What such a schema accepts. -/
theorem accepts_object {s : Json} {ps : List (String × Json)} (h : ObjectSchema s ps) (y : Json) :
    accepts s y = true ↔ y.isObj = true ∧ (∀ k, Requires s k → y.contains k = true) ∧
      (∀ k d, ps.lookup k = some d → ∀ v, y.find? k = some v → accepts d v = true) ∧
      (s.find? "additionalProperties" = some (Json.bool false) → ∀ k, y.contains k = true → ∃ d, ps.lookup k = some d) := by
  obtain ⟨hobj, hd, htype, hprops, hreq, hoth, hkeys⟩ := h
  cases s with
  | obj m =>
    have hn := hd m rfl
    change m.lookup "type" = _ at htype
    change m.lookup "properties" = _ at hprops
    rw [accepts_iff hn]
    constructor
    · intro h
      have h1 := h _ _ htype
      rw [keyword_type, hasType_object] at h1
      cases y with
      | obj my =>
        refine ⟨rfl, ?_, ?_, ?_⟩
        · rintro k ⟨l, h2, h3⟩
          have h4 := h _ _ h2
          rw [keyword_required] at h4
          exact (List.all_eq_true.mp h4) _ h3
        · intro k d h2 v h3
          have h4 := h _ _ hprops
          rw [keyword_properties] at h4
          have := (List.all_eq_true.mp h4) (k, d) (mem_of_lookup h2)
          have h3' : my.lookup k = some v := h3
          simp only [h3'] at this
          exact this
        · intro h2 k hk
          have h4 := h _ _ h2
          rw [keyword_additional] at h4
          obtain ⟨v, hv⟩ := contains_iff.mp hk
          have := (List.all_eq_true.mp h4) (k, v) (mem_of_lookup hv)
          rw [hprops] at this
          exact Option.isSome_iff_exists.mp this
      | _ => cases h1
    · rintro ⟨h1, h2, h3, h4⟩ k v hk
      cases y with
      | obj my =>
        by_cases e1 : k = "properties"
        · subst e1
          rw [hprops] at hk
          injection hk with hk
          subst hk
          rw [keyword_properties, List.all_eq_true]
          rintro ⟨k, d⟩ hx
          cases hv : my.lookup k with
          | none => rfl
          | some v => exact h3 k d (lookup_of_mem hkeys hx) v hv
        by_cases e9 : k = "type"
        · subst e9
          rw [htype] at hk
          injection hk with hk
          subst hk
          rw [keyword_type]
          rfl
        by_cases e10 : k = "required"
        · subst e10
          obtain ⟨l, rfl, hl⟩ := hreq v hk
          rw [keyword_required, List.all_eq_true]
          intro x hx
          obtain ⟨k, rfl⟩ := hl x hx
          exact h2 k ⟨l, hk, hx⟩
        by_cases e11 : k = "additionalProperties"
        · subst e11
          rw [keyword_additional]
          split
          · rw [List.all_eq_true]
            intro z hz
            rw [hprops]
            exact Option.isSome_iff_exists.mpr (h4 hk z.1 (contains_of_mem hz))
          · rfl
        refine keyword_other ?_ _ _ _
        intro hmem
        have : k ∈ ["items", "contains", "allOf", "minItems", "maxItems", "minimum", "maximum"] := by
          simp only [List.mem_cons, List.not_mem_nil, or_false] at hmem ⊢
          tauto
        have h5 : m.lookup k = none := hoth k this
        rw [h5] at hk
        cases hk
      | _ => cases h1
  | _ => cases hobj

/-- Adding a default does not change what is accepted. -/
theorem accepts_default {s s' d : Json} (hd : DistinctKeys s) (ho : s.isObj = true) (h : s.set "default" d = Res.ok s')
    (hn : s.find? "default" = none) (y : Json) : accepts s' y = accepts s y := by
  have hd' := hd.set h
  have ho' := isObj_set ho h
  have hf := find_set h
  cases s with
  | obj m =>
    cases s' with
    | obj m' =>
      simp only [find?] at hf hn
      have hp : m'.lookup "properties" = m.lookup "properties" := by rw [hf, if_neg (by decide)]
      rw [Bool.eq_iff_iff, accepts_iff (hd' _ rfl), accepts_iff (hd _ rfl)]
      constructor
      · intro h1 k v hk
        rw [← keyword_congr hp]
        refine h1 k v ?_
        rw [hf, if_neg (by rintro rfl; rw [hn] at hk; cases hk), hk]
      · intro h1 k v hk
        rw [hf] at hk
        split at hk
        · next e => subst e; rfl
        · rw [keyword_congr hp]; exact h1 k v hk
    | _ => cases ho'
  | _ => cases ho

/-! ## The kind of schemas -/

/-- The definition of a key: of an object with listed keys, or of something else. -/
inductive Form : Json → Prop
  | leaf (s : Json) (h : nested? s = none) (ht : s.contains "type" = true) (hd : DistinctKeys s)
    (hn : s.find? "default" = none) : Form s
  | object (s : Json) (ps : List (String × Json)) (h : ObjectSchema s ps) (hn : s.find? "default" = none)
    (hp : ∀ k d, ps.lookup k = some d → Form d) : Form s

theorem Form.contains_type {s : Json} (h : Form s) : s.contains "type" = true := by
  cases h with
  | leaf _ h ht => exact ht
  | object _ ps h => simp [contains, h.type]

theorem Form.no_default {s : Json} (h : Form s) : s.find? "default" = none := by
  cases h with
  | leaf _ _ _ _ hn => exact hn
  | object _ _ _ hn => exact hn

theorem isObj_of_find {s v : Json} {k : String} (h : s.find? k = some v) : s.isObj = true := by
  cases s <;> first | rfl | cases h

/-- Everything needed about a definition `s`, with defaults added (`s'`) and then required keys removed (`s''`). -/
def Works (s : Json) : Prop :=
  ∀ D k s', addStep D (k, s) = Res.ok (k, s') → ∀ s'', removeDefaults s' = Res.ok s'' →
    (∀ y, accepts s' y = accepts s y) ∧
    (nested? s' = none → ∀ x, accepts s'' x = accepts s x) ∧
    (∀ p', nested? s' = some p' → ∀ x x', x.isObj = true → applyUnsafe p' x = Res.ok x' → accepts s x' = true →
      accepts s'' x = true) ∧
    (∀ p', nested? s' = some p' → (∀ d, D.find? k = some d → accepts s d = true) → ∀ x, accepts s'' x = true →
      x.isObj = true ∧ ∃ x', applyUnsafe p' x = Res.ok x' ∧ accepts s x' = true)

theorem lookup_removed {m m' : List (String × Json)}
    (h : List.Forall₂ (fun x y => x.1 = y.1 ∧ removeDefaults x.2 = Res.ok y.2) m m') {k : String} {s : Json}
    (hs : m.lookup k = some s) : ∃ s', m'.lookup k = some s' ∧ removeDefaults s = Res.ok s' := by
  induction h with
  | nil => cases hs
  | @cons x y m m' h1 _ ih =>
    rw [lookup_cons] at hs ⊢
    rw [← h1.1]
    split at hs
    · next e => injection hs with hs; subst hs; rw [if_pos e]; exact ⟨_, rfl, h1.2⟩
    · next e => rw [if_neg e]; exact ih hs

theorem removed_keys {m m' : List (String × Json)}
    (h : List.Forall₂ (fun x y => x.1 = y.1 ∧ removeDefaults x.2 = Res.ok y.2) m m') :
    m'.map Prod.fst = m.map Prod.fst := by
  induction h with
  | nil => rfl
  | cons h1 _ ih => simp [h1.1, ih]

theorem lookup_none_iff {m : List (String × Json)} {k : String} : m.lookup k = none ↔ k ∉ m.map Prod.fst := by
  constructor
  · intro h hk
    obtain ⟨x, hx, rfl⟩ := List.mem_map.mp hk
    rw [List.lookup_eq_none_iff] at h
    have := h x hx
    simp at this
  · exact lookup_none_of_notMem

theorem lookup_keys {m m' : List (String × Json)} (h : m'.map Prod.fst = m.map Prod.fst) (k : String) :
    m'.lookup k = none ↔ m.lookup k = none := by
  rw [lookup_none_iff, lookup_none_iff, h]

theorem lookup_some_of_keys {m m' : List (String × Json)} (h : m'.map Prod.fst = m.map Prod.fst) {k : String} {v : Json}
    (hk : m.lookup k = some v) : ∃ v', m'.lookup k = some v' := by
  cases h' : m'.lookup k with
  | some v' => exact ⟨v', rfl⟩
  | none => rw [(lookup_keys h k).mp h'] at hk; cases hk

/-- A loop over distinct keys succeeds if each round does for every state with the same value at its key. -/
theorem fold_ok {m : List (String × Json)} (hn : (m.map Prod.fst).Nodup) {d : Json} (hd : d.isObj = true)
    (h : ∀ x ∈ m, ∀ e : Json, e.isObj = true → e.find? x.1 = d.find? x.1 → ∃ r, applyStep e x = Res.ok r) :
    ∃ r, applyUnsafe (obj m) d = Res.ok r := by
  rw [applyUnsafe_eq]
  show ∃ r, Res.fold m d applyStep = Res.ok r
  have : ∀ (l : List (String × Json)) (e : Json), (l.map Prod.fst).Nodup → (∀ x ∈ l, x ∈ m) → e.isObj = true →
      (∀ x ∈ l, e.find? x.1 = d.find? x.1) → ∃ r, Res.fold l e applyStep = Res.ok r := by
    intro l
    induction l with
    | nil => intro e _ _ _ _; exact ⟨e, rfl⟩
    | cons x l ih =>
      intro e hl hm he hf
      simp only [List.map_cons, List.nodup_cons] at hl
      obtain ⟨r, hr⟩ := h x (hm x (by simp)) e he (hf x (by simp))
      obtain ⟨h1, -, h3⟩ := applyStep_spec he hr
      simp only [Res.fold, hr, Res.ok_bind]
      refine ih r hl.2 (fun y hy => hm y (by simp [hy])) h1 fun y hy => ?_
      rw [h3 y.1 (fun e => hl.1 (e ▸ List.mem_map.mpr ⟨y, hy, rfl⟩))]
      exact hf y (by simp [hy])
  exact this m d hn (fun _ h => h) hd fun _ _ => rfl

theorem firstIsStr_of {l : List Json} (h : ∀ x ∈ l, ∃ k, x = str k) : firstIsStr l = true := by
  cases l with
  | nil => rfl
  | cons a l => obtain ⟨k, rfl⟩ := h a (by simp); rfl

/-- The schema of an object after the required keys with defaults are removed. -/
theorem removed_object {s s' : Json} {ps : List (String × Json)} (h : ObjectSchema s ps) (hr : removeDefaults s = Res.ok s') :
    ∃ ps', ObjectSchema s' ps' ∧ List.Forall₂ (fun x y => x.1 = y.1 ∧ removeDefaults x.2 = Res.ok y.2) ps ps' ∧
      (∀ k, Requires s' k ↔ Requires s k ∧ ¬ HasDefault (obj ps) k) ∧
      s'.find? "additionalProperties" = s.find? "additionalProperties" := by
  have h0 := hr
  rw [removeDefaults_eq, h.nested] at hr
  obtain ⟨s1, h1, h2⟩ := Res.bind_eq_ok.mp hr
  obtain ⟨p', h3, h4⟩ := Res.bind_eq_ok.mp h2
  obtain ⟨ps', rfl, h5⟩ := removeAll_obj h3
  obtain ⟨h6, h7⟩ := pruneLevel_ok h1
  have hf := find_set h4
  have hs1 : DistinctKeys s1 := by
    unfold pruneLevel at h1
    split at h1
    · injection h1 with h1; subst h1; exact h.distinct
    · obtain ⟨r', -, h9⟩ := Res.bind_eq_ok.mp h1; exact h.distinct.set h9
  refine ⟨ps', ⟨set_result h4, hs1.set h4, ?_, ?_, ?_, ?_, ?_⟩, h5, ?_, ?_⟩
  · rw [removeDefaults_find h0 (by decide) (by decide), h.type]
  · rw [hf, if_pos rfl]
  · intro r hr'
    rw [hf, if_neg (by decide)] at hr'
    unfold pruneLevel at h1
    split at h1
    · injection h1 with h1
      subst h1
      exact h.required r hr'
    · next r0 hr0 =>
      obtain ⟨r', h8, h9⟩ := Res.bind_eq_ok.mp h1
      rw [find_set h9, if_pos rfl] at hr'
      injection hr' with hr'
      subst hr'
      obtain ⟨l, rfl, hl⟩ := h.required r0 hr0
      simp only [pruneRequired, firstIsStr_of hl, if_true] at h8
      obtain ⟨l', h10, h11⟩ := Res.bind_eq_ok.mp h8
      injection h11 with h11
      subst h11
      refine ⟨_, rfl, ?_⟩
      rw [Res.each_eq_ok] at h10
      intro x hx
      obtain ⟨q, hq, hxq⟩ := List.mem_flatten.mp hx
      obtain ⟨a, ha, h12⟩ := forall₂_mem_right h10 hq
      obtain ⟨k, h13, h14⟩ := Res.bind_eq_ok.mp h12
      simp only [Json.isObj, if_true] at h14
      injection h14 with h14
      subst h14
      split at hxq
      · cases hxq
      · rw [List.mem_singleton.mp hxq]
        exact hl a ha
  · intro k hk
    have e1 : k ≠ "properties" := by rintro rfl; revert hk; decide
    have e2 : k ≠ "required" := by rintro rfl; revert hk; decide
    rw [removeDefaults_find h0 e2 e1]
    exact h.others k hk
  · rw [removed_keys h5]; exact h.keys
  · intro k
    rw [← h7 k]
    unfold Requires
    rw [hf, if_neg (by decide)]
  · exact removeDefaults_find h0 (by decide) (by decide)

/-- One level: a schema `s`, with defaults added to its properties (`s1`), and then without the required keys that have a
default (`s2`). -/
theorem object_level {s s1 s2 d : Json} {ps ps1 : List (String × Json)} (hs : ObjectSchema s ps)
    (hw : ∀ k def', ps.lookup k = some def' → Works def' ∧ Form def') (h1 : ObjectSchema s1 ps1)
    (hsame : ∀ k, k ≠ "properties" → k ≠ "default" → s1.find? k = s.find? k)
    (hadd : List.Forall₂ (fun x y => addStep d x = Res.ok y) ps ps1) (hrem : removeDefaults s1 = Res.ok s2) :
    (∀ y, accepts s1 y = accepts s y) ∧
    (∀ x x', x.isObj = true → applyUnsafe (obj ps1) x = Res.ok x' → accepts s x' = true → accepts s2 x = true) ∧
    ((∀ k def' v, ps.lookup k = some def' → d.find? k = some v → accepts def' v = true) → ∀ x, accepts s2 x = true →
      x.isObj = true ∧ ∃ x', applyUnsafe (obj ps1) x = Res.ok x' ∧ accepts s x' = true) := by
  obtain ⟨ps2, h2, hrm, hreq, haddl⟩ := removed_object h1 hrem
  have k1 := added_keys hadd
  have k2 := removed_keys hrm
  have k21 : ps2.map Prod.fst = ps.map Prod.fst := k2.trans k1
  have hreq1 : ∀ k, Requires s1 k ↔ Requires s k := fun k => by
    unfold Requires; rw [hsame "required" (by decide) (by decide)]
  have hA1 : s1.find? "additionalProperties" = s.find? "additionalProperties" := hsame _ (by decide) (by decide)
  -- the three definitions of a key
  have trio : ∀ k def0, ps.lookup k = some def0 → ∃ def1 def2, ps1.lookup k = some def1 ∧ ps2.lookup k = some def2 ∧
      addStep d (k, def0) = Res.ok (k, def1) ∧ removeDefaults def1 = Res.ok def2 := by
    intro k def0 h0
    obtain ⟨def1, h3, h4⟩ := lookup_added hadd h0
    obtain ⟨def2, h5, h6⟩ := lookup_removed hrm h3
    exact ⟨def1, def2, h3, h5, h4, h6⟩
  have back : ∀ k def1, ps1.lookup k = some def1 → ∃ def0, ps.lookup k = some def0 := fun k def1 h =>
    lookup_some_of_keys k1.symm h
  have back2 : ∀ k def2, ps2.lookup k = some def2 → ∃ def0, ps.lookup k = some def0 := fun k def2 h =>
    lookup_some_of_keys k21.symm h
  have hdefault : ∀ k def0 def1, ps.lookup k = some def0 → addStep d (k, def0) = Res.ok (k, def1) →
      def1.find? "default" = d.find? k := by
    intro k def0 def1 h0 h3
    obtain ⟨-, -, -, h4, h5⟩ := addStep_ok h3
    cases hd : d.find? k with
    | none =>
      have := h4 hd
      injection this with _ this
      rw [this]
      exact (hw k def0 h0).2.no_default
    | some v => exact (h5 v hd).1
  refine ⟨fun y => ?_, fun x x' hx happ hacc => ?_, fun hvalid x hacc => ?_⟩
  · rw [Bool.eq_iff_iff, accepts_object h1, accepts_object hs, hA1]
    simp only [hreq1]
    have e1 : (∀ k d1, ps1.lookup k = some d1 → ∀ v, y.find? k = some v → accepts d1 v = true) ↔
        ∀ k d0, ps.lookup k = some d0 → ∀ v, y.find? k = some v → accepts d0 v = true := by
      constructor
      · intro h k d0 h0 v hv
        obtain ⟨d1, d2, h3, -, h5, h6⟩ := trio k d0 h0
        rw [← ((hw k d0 h0).1 d k d1 h5 d2 h6).1]
        exact h k d1 h3 v hv
      · intro h k d1 h3 v hv
        obtain ⟨d0, h0⟩ := back k d1 h3
        obtain ⟨d1', d2, h3', -, h5, h6⟩ := trio k d0 h0
        rw [h3] at h3'
        injection h3' with h3'
        subst h3'
        rw [((hw k d0 h0).1 d k d1 h5 d2 h6).1]
        exact h k d0 h0 v hv
    have e2 : (∀ k, y.contains k = true → ∃ d, ps1.lookup k = some d) ↔
        ∀ k, y.contains k = true → ∃ d, ps.lookup k = some d := by
      refine forall_congr' fun k => imp_congr_right fun _ => ?_
      exact ⟨fun ⟨v, hv⟩ => lookup_some_of_keys k1.symm hv, fun ⟨v, hv⟩ => lookup_some_of_keys k1 hv⟩
    rw [e1, e2]
  · have ex := C50_exact (k1 ▸ hs.keys) hx happ
    obtain ⟨-, a2, a3, a4⟩ := (accepts_object hs x').mp hacc
    refine (accepts_object h2 x).mpr ⟨hx, fun k hk => ?_, fun k def2 h2' v hv => ?_, fun hf k hk => ?_⟩
    · obtain ⟨h3, h4⟩ := (hreq k).mp hk
      obtain ⟨w, hw'⟩ := contains_iff.mp (a2 k ((hreq1 k).mp h3))
      obtain ⟨e1, e2, -, -⟩ := ex k
      cases hxk : x.find? k with
      | some v => simp [contains, hxk]
      | none =>
        exfalso
        cases hl : ps1.lookup k with
        | none => rw [e1 hl, hxk] at hw'; cases hw'
        | some def1 =>
          rw [e2 def1 hl hxk] at hw'
          exact h4 ⟨def1, hl, by simp [contains, hw']⟩
    · obtain ⟨def0, h0⟩ := back2 k def2 h2'
      obtain ⟨def1, def2', h3, h4, h5, h6⟩ := trio k def0 h0
      rw [h2'] at h4
      injection h4 with h4
      subst h4
      obtain ⟨-, w2, w3, -⟩ := (hw k def0 h0).1 d k def1 h5 def2 h6
      obtain ⟨-, -, e3, e4⟩ := ex k
      cases hnest : nested? def1 with
      | none =>
        rw [w2 hnest]
        exact a3 k def0 h0 v (e3 def1 v h3 hv hnest)
      | some p =>
        obtain ⟨v', h7, h8⟩ := e4 def1 v p h3 hv hnest
        have ho : v.isObj = true := applied_isObj (k1 ▸ hs.keys) happ (x := (k, def1)) (mem_of_lookup h3) hv hnest
        exact w3 p hnest v v' ho h7 (a3 k def0 h0 v' h8)
    · rw [haddl, hA1] at hf
      obtain ⟨v, hv⟩ := contains_iff.mp hk
      have : x'.contains k = true := by
        obtain ⟨e1, -, e3, e4⟩ := ex k
        cases hl : ps1.lookup k with
        | none => simp [contains, e1 hl, hv]
        | some def1 =>
          cases hnest : nested? def1 with
          | none => simp [contains, e3 def1 v hl hv hnest]
          | some p => obtain ⟨v', -, h8⟩ := e4 def1 v p hl hv hnest; simp [contains, h8]
      obtain ⟨d0, h0⟩ := a4 hf k this
      exact lookup_some_of_keys k21 h0
  · obtain ⟨hx, a2, a3, a4⟩ := (accepts_object h2 x).mp hacc
    have hex : ∃ r, applyUnsafe (obj ps1) x = Res.ok r := by
      refine fold_ok (k1 ▸ hs.keys) hx ?_
      rintro ⟨k, def1⟩ hmem e he hfe
      have h3 := lookup_of_mem (k1 ▸ hs.keys : (ps1.map Prod.fst).Nodup) hmem
      obtain ⟨def0, h0⟩ := back k def1 h3
      obtain ⟨def1', def2, h3', h4, h5, h6⟩ := trio k def0 h0
      rw [h3] at h3'
      injection h3' with h3'
      subst h3'
      obtain ⟨-, -, -, w4⟩ := (hw k def0 h0).1 d k def1 h5 def2 h6
      simp only at hfe
      obtain ⟨type, htype⟩ := contains_iff.mp (show def1.contains "type" = true by
        have := (addStep_ok h5).2.1
        simp only at this
        rw [contains, this]
        exact (hw k def0 h0).2.contains_type)
      unfold applyStep
      cases hxk : x.find? k with
      | none =>
        rw [hxk] at hfe
        cases hdef : def1.find? "default" with
        | some v =>
          rw [if_pos (by simp [contains, hdef, hfe]), index_of_find hdef, Res.ok_bind]
          exact set_isObj he _ _
        | none =>
          rw [if_neg (by simp [contains, hdef]), index_of_find htype, Res.ok_bind]
          split
          · split
            · exact ⟨_, rfl⟩
            · simp only [hfe]; exact ⟨_, rfl⟩
          · exact ⟨_, rfl⟩
      | some v =>
        rw [hxk] at hfe
        rw [if_neg (by simp [contains, hfe]), index_of_find htype, Res.ok_bind]
        split
        · next hobj =>
          split
          · exact ⟨_, rfl⟩
          · next p hp =>
            obtain ⟨ho, v', h7, -⟩ := w4 p (nested_of htype hp hobj) (fun dv hdv => hvalid k def0 dv h0 hdv) v
              (a3 k def2 h4 v hxk)
            simp only [hfe, ho, if_true, h7, Res.ok_bind]
            exact set_isObj he _ _
        · exact ⟨_, rfl⟩
    obtain ⟨x', happ⟩ := hex
    refine ⟨hx, x', happ, ?_⟩
    have ex := C50_exact (k1 ▸ hs.keys) hx happ
    have hx' := (C50_kept hx happ).1
    have stays : ∀ k, x.contains k = true → x'.contains k = true := by
      intro k hk
      obtain ⟨v, hv⟩ := contains_iff.mp hk
      obtain ⟨e1, -, e3, e4⟩ := ex k
      cases hl : ps1.lookup k with
      | none => simp [contains, e1 hl, hv]
      | some def1 =>
        cases hnest : nested? def1 with
        | none => simp [contains, e3 def1 v hl hv hnest]
        | some p => obtain ⟨v', -, h8⟩ := e4 def1 v p hl hv hnest; simp [contains, h8]
    refine (accepts_object hs x').mpr ⟨hx', fun k hk => ?_, fun k def0 h0 w hxw => ?_, fun hf k hk => ?_⟩
    · by_cases hdef : HasDefault (obj ps1) k
      · cases hxk : x.find? k with
        | some v => exact stays k (by simp [contains, hxk])
        | none =>
          obtain ⟨def1, h3, h4⟩ := hdef
          rw [contains, (ex k).2.1 def1 h3 hxk]
          exact h4
      · exact stays k (a2 k ((hreq k).mpr ⟨(hreq1 k).mpr hk, hdef⟩))
    · obtain ⟨def1, def2, h3, h4, h5, h6⟩ := trio k def0 h0
      obtain ⟨-, w2, -, w4⟩ := (hw k def0 h0).1 d k def1 h5 def2 h6
      obtain ⟨-, e2, e3, e4⟩ := ex k
      cases hxk : x.find? k with
      | none =>
        rw [e2 def1 h3 hxk, hdefault k def0 def1 h0 h5] at hxw
        exact hvalid k def0 w h0 hxw
      | some v =>
        have hv := a3 k def2 h4 v hxk
        cases hnest : nested? def1 with
        | none =>
          rw [e3 def1 v h3 hxk hnest] at hxw
          injection hxw with hxw
          subst hxw
          rw [← w2 hnest]
          exact hv
        | some p =>
          obtain ⟨v', h7, h8⟩ := e4 def1 v p h3 hxk hnest
          rw [h8] at hxw
          injection hxw with hxw
          subst hxw
          obtain ⟨-, v'', h9, h10⟩ := w4 p hnest (fun dv hdv => hvalid k def0 dv h0 hdv) v hv
          rw [h7] at h9
          injection h9 with h9
          subst h9
          exact h10
    · cases hl : ps.lookup k with
      | some d0 => exact ⟨d0, rfl⟩
      | none =>
        exfalso
        have hl1 : ps1.lookup k = none := (lookup_keys k1 k).mpr hl
        obtain ⟨v, hv⟩ := contains_iff.mp hk
        rw [(ex k).1 hl1] at hv
        obtain ⟨d2, h2'⟩ := a4 (by rw [haddl, hA1]; exact hf) k (by simp [contains, hv])
        rw [(lookup_keys k21 k).mpr hl] at h2'
        cases h2'

theorem addStep_empty {x : String × Json} (h : x.2.contains "type" = true) : addStep (obj []) x = Res.ok x := by
  unfold addStep
  rw [if_pos h]
  rfl

/-- Setting keys of the schema of an object. -/
theorem ObjectSchema.set_default {s s' d : Json} {ps : List (String × Json)} (h : ObjectSchema s ps)
    (hs : s.set "default" d = Res.ok s') : ObjectSchema s' ps := by
  have hf := find_set hs
  refine ⟨set_result hs, h.distinct.set hs, ?_, ?_, ?_, ?_, h.keys⟩
  · rw [hf, if_neg (by decide), h.type]
  · rw [hf, if_neg (by decide), h.props]
  · intro r hr; rw [hf, if_neg (by decide)] at hr; exact h.required r hr
  · intro k hk
    rw [hf, if_neg (by rintro rfl; revert hk; decide)]
    exact h.others k hk

theorem ObjectSchema.set_properties {s s' : Json} {ps ps' : List (String × Json)} (h : ObjectSchema s ps)
    (hk : (ps'.map Prod.fst).Nodup) (hs : s.set "properties" (obj ps') = Res.ok s') : ObjectSchema s' ps' := by
  have hf := find_set hs
  refine ⟨set_result hs, h.distinct.set hs, ?_, ?_, ?_, ?_, hk⟩
  · rw [hf, if_neg (by decide), h.type]
  · rw [hf, if_pos rfl]
  · intro r hr; rw [hf, if_neg (by decide)] at hr; exact h.required r hr
  · intro k hk
    rw [hf, if_neg (by rintro rfl; revert hk; decide)]
    exact h.others k hk

/-- All definitions of this kind work. -/
theorem Form.works {s : Json} (h : Form s) : Works s := by
  induction h with
  | leaf s hnest ht hd hn =>
    intro D k s' hadd s'' hrem
    obtain ⟨-, -, -, h4, h5⟩ := addStep_ok hadd
    have hs' : nested? s' = none ∧ ∀ y, accepts s' y = accepts s y := by
      cases hD : D.find? k with
      | none =>
        have := h4 hD
        injection this with _ this
        subst this
        exact ⟨hnest, fun _ => rfl⟩
      | some dv =>
        refine ⟨(h5 dv hD).2.1 hnest, ?_⟩
        unfold addStep at hadd
        rw [if_pos ht] at hadd
        simp only [hD] at hadd
        obtain ⟨def1, h6, h7⟩ := Res.bind_eq_ok.mp hadd
        obtain ⟨type, h8, h7⟩ := Res.bind_eq_ok.mp h7
        have ho : s.isObj = true := by obtain ⟨v, hv⟩ := contains_iff.mp ht; exact isObj_of_find hv
        have e : s' = def1 := by
          split at h7
          · next hobj =>
            split at h7
            · injection h7 with h7; injection h7 with _ h7; exact h7.symm
            · next p hp =>
              rw [index_eq_ok, find_set h6, if_neg (by decide)] at h8
              rw [nested_of h8 hp hobj] at hnest
              cases hnest
          · injection h7 with h7; injection h7 with _ h7; exact h7.symm
        subst e
        exact accepts_default hd ho h6 hn
    rw [removeDefaults_eq, hs'.1] at hrem
    injection hrem with hrem
    subst hrem
    refine ⟨hs'.2, fun _ => hs'.2, fun p hp => ?_, fun p hp => ?_⟩ <;> (rw [hs'.1] at hp; cases hp)
  | object s ps hs hn hp ih =>
    intro D k s' hadd s'' hrem
    have hw : ∀ k def', ps.lookup k = some def' → Works def' ∧ Form def' := fun k d hk => ⟨ih k d hk, hp k d hk⟩
    obtain ⟨-, -, -, h4, h5⟩ := addStep_ok hadd
    cases hD : D.find? k with
    | none =>
      have := h4 hD
      injection this with _ this
      subst this
      have hadd' : List.Forall₂ (fun x y => addStep (obj []) x = Res.ok y) ps ps := by
        refine List.forall₂_same.mpr fun x hx => addStep_empty ?_
        exact (hp x.1 x.2 (lookup_of_mem hs.keys hx)).contains_type
      obtain ⟨o1, o2, o3⟩ := object_level hs hw hs (fun _ _ _ => rfl) hadd' hrem
      refine ⟨fun _ => rfl, fun hne => ?_, fun p' hp' => ?_, fun p' hp' hv => ?_⟩
      · rw [hs.nested] at hne; cases hne
      · rw [hs.nested] at hp'
        injection hp' with hp'
        subst hp'
        exact o2
      · rw [hs.nested] at hp'
        injection hp' with hp'
        subst hp'
        exact o3 (by intro k d v _ hd; cases hd)
    | some dv =>
      obtain ⟨-, -, h7⟩ := h5 dv hD
      obtain ⟨hdo, p', h8, h9⟩ := h7 (obj ps) hs.nested
      obtain ⟨ps1, rfl, hadd'⟩ := addUnsafe_ok h8
      unfold addStep at hadd
      rw [if_pos (by simp [contains, hs.type])] at hadd
      simp only [hD] at hadd
      obtain ⟨def1, h10, h11⟩ := Res.bind_eq_ok.mp hadd
      have ht : def1.index "type" = Res.ok (str "object") := by
        rw [index_eq_ok, find_set h10, if_neg (by decide), hs.type]
      rw [ht, Res.ok_bind, if_pos (by rfl), hs.props] at h11
      simp only [hdo, if_true, h8, Res.ok_bind] at h11
      obtain ⟨def2, h12, h13⟩ := Res.bind_eq_ok.mp h11
      injection h13 with h13
      injection h13 with _ h13
      subst h13
      have hs1 : ObjectSchema def2 ps1 := (hs.set_default h10).set_properties (added_keys hadd' ▸ hs.keys) h12
      obtain ⟨o1, o2, o3⟩ := object_level hs hw hs1 (fun k h1 h2 => by rw [find_set h12, if_neg h1, find_set h10, if_neg h2])
        hadd' hrem
      refine ⟨o1, fun hne => ?_, fun p' hp' => ?_, fun p' hp' hv => ?_⟩
      · rw [hs1.nested] at hne; cases hne
      · rw [hs1.nested] at hp'
        injection hp' with hp'
        subst hp'
        exact o2
      · rw [hs1.nested] at hp'
        injection hp' with hp'
        subst hp'
        refine o3 fun k def' v hk hd => ?_
        exact ((accepts_object hs dv).mp (hv dv rfl)).2.2.1 k def' hk v hd

end Verif.Editor
