import Verif.Editor.Component
import Verif.Read.Compute

/-!
# Properties C110 and C111: the schemas for editors, and the validation by the program

Property C110: what an editor accepts, the program does not reject as invalid: each entry of the topology that conforms to the
generated schema, with its boundary values if these conform too, passes the validation by the program.

Property C111: what the program accepts, the editor does not complain about: the topology of every network that is built
conforms to the generated schema.
-/

set_option autoImplicit false

namespace Verif.Editor

open Verif.Json Verif.Factory Verif.Schema Verif.Read

/-! ## Specification -/

/-- The types of a class with their schemas for the topology. -/
def typesWithSchemas {α : Type} (l : List (String × Json × Option Json × (Json → Res α))) : List (String × Json) :=
  l.map fun x => (x.1, x.2.1)

/-- The schema of a key in a schema of objects. -/
def propertyOf (schema : Json) (key : String) : Option Json := (schema.find? "properties").bind fun p => p.find? key

/-- Each default is a value that the schema of its key accepts. -/
def AcceptableDefaults (draws : Json → Res (ℝ → Res (ℝ × ℝ))) (mem : ℕ → ℝ) (defaults : Json) : Prop :=
  ∀ x ∈ typesWithSchemas (nodeList draws mem) ++ typesWithSchemas edgeList, ∀ key s v, propertyOf x.2 key = some s →
    (defaultsFor defaults x.1).find? key = some v → accepts s v = true

/-- The program accepts the data as those of a component of this type: there is a type of this name and the data with defaults
are valid. -/
def Passes {α : Type} (types : List (String × ComponentType α)) (name : String) (data : Json) : Prop :=
  ∃ t, (name, t) ∈ types ∧ ∃ data', prepare accepts t data = Res.ok data'

/-- The type of this name needs boundary values. -/
def Needs {α : Type} (types : List (String × ComponentType α)) (name : String) : Prop :=
  ∃ t, (name, t) ∈ types ∧ t.boundary ≠ none

/-! ## Checking forms -/

/-- A check of `ObjectSchema`. -/
def objectB (m ps : List (String × Json)) : Bool :=
  decide (m.map Prod.fst).Nodup &&
  (match m.lookup "type" with
    | some (str t) => t == "object"
    | _ => false) &&
  (match m.lookup "required" with
    | none => true
    | some (arr l) => l.all fun x => match x with
      | str _ => true
      | _ => false
    | some _ => false) &&
  (["items", "contains", "allOf", "minItems", "maxItems", "minimum", "maximum"].all fun k => (m.lookup k).isNone) &&
  decide (ps.map Prod.fst).Nodup

theorem objectB_ok {m ps : List (String × Json)} (hp : m.lookup "properties" = some (obj ps)) (h : objectB m ps = true) :
    ObjectSchema (obj m) ps := by
  simp only [objectB, Bool.and_eq_true, decide_eq_true_eq] at h
  obtain ⟨⟨⟨⟨h1, h2⟩, h3⟩, h4⟩, h5⟩ := h
  refine ⟨rfl, fun m' hm' => by injection hm' with hm'; exact hm' ▸ h1, ?_, hp, ?_, ?_, h5⟩
  · split at h2
    · next t ht => rw [beq_iff_eq] at h2; rw [← h2]; exact ht
    · cases h2
  · intro r hr
    have hr : m.lookup "required" = some r := hr
    rw [hr] at h3
    cases r with
    | arr l =>
      refine ⟨l, rfl, fun x hx => ?_⟩
      have := List.all_eq_true.mp h3 x hx
      cases x with
      | str k => exact ⟨k, rfl⟩
      | _ => cases this
    | _ => cases h3
  · intro k hk
    have := List.all_eq_true.mp h4 k hk
    show m.lookup k = none
    simpa using this

/-- A check of `Form`, with a bound on the depth. -/
def formB : ℕ → Json → Bool
  | n + 1, obj m =>
    decide (m.map Prod.fst).Nodup && (m.lookup "type").isSome && (m.lookup "default").isNone &&
    match m.lookup "properties" with
    | none => true
    | some (obj ps) => objectB m ps && ps.all fun x => formB n x.2
    | some _ => false
  | _, _ => false

theorem formB_ok {n : ℕ} : ∀ {s : Json}, formB n s = true → Form s := by
  induction n with
  | zero => intro s h; cases s <;> cases h
  | succ n ih =>
    intro s h
    cases s with
    | obj m =>
      simp only [formB, Bool.and_eq_true, decide_eq_true_eq] at h
      obtain ⟨⟨⟨h1, h2⟩, h3⟩, h4⟩ := h
      cases hp : m.lookup "properties" with
      | none =>
        refine .leaf _ ?_ h2 (fun m' hm' => by injection hm' with hm'; exact hm' ▸ h1) (by simpa [find?] using h3)
        obtain ⟨ty, hty⟩ := Option.isSome_iff_exists.mp h2
        unfold nested?
        simp only [find?, hp, hty]
      | some p =>
        rw [hp] at h4
        cases p with
        | obj ps =>
          simp only [Bool.and_eq_true] at h4
          refine .object _ ps (objectB_ok hp h4.1) (by simpa [find?] using h3) ?_
          intro k d hk
          exact ih (List.all_eq_true.mp h4.2 (k, d) (mem_of_lookup hk))
        | _ => cases h4
    | _ => cases h

/-- A check of `TypeForm`. -/
def typeB (n : ℕ) : Json → Bool
  | obj m =>
    match m.lookup "properties" with
    | some (obj ps) => objectB m ps && (ps.all fun x => formB n x.2) && (ps.lookup "boundary_values").isNone &&
      (m.lookup "additionalProperties").isNone &&
      (match m.lookup "required" with
        | some (arr l) => l.all fun x => !x.isStr "boundary_values"
        | _ => true)
    | _ => false
  | _ => false

theorem typeB_ok {n : ℕ} {s : Json} (h : typeB n s = true) : ∃ ps, TypeForm s ps ∧ s.find? "properties" = some (obj ps) := by
  cases s with
  | obj m =>
    simp only [typeB] at h
    split at h
    · next ps hp =>
      simp only [Bool.and_eq_true] at h
      obtain ⟨⟨⟨⟨h1, h2⟩, h3⟩, h4⟩, h5⟩ := h
      refine ⟨ps, ⟨objectB_ok hp h1, ?_, by simpa using h3, ?_, by simpa [find?] using h4⟩, hp⟩
      · intro k d hk
        exact formB_ok (List.all_eq_true.mp h2 (k, d) (mem_of_lookup hk))
      · rintro ⟨l, hl, hmem⟩
        have hl : m.lookup "required" = some (arr l) := hl
        rw [hl] at h5
        have := List.all_eq_true.mp h5 _ hmem
        simp [isStr] at this
    · cases h
  | _ => cases h

theorem nodeForms (draws : Json → Res (ℝ → Res (ℝ × ℝ))) (mem : ℕ → ℝ) :
    ∀ x ∈ nodeList draws mem, typeB 5 x.2.1 = true ∧ ∀ b, x.2.2.1 = some b → typeB 5 b = true ∧
      b.find? "default" = none := by
  simp only [nodeList, List.mem_cons, List.not_mem_nil, or_false, forall_eq_or_imp, forall_eq]
  refine ⟨?_, ?_, ?_, ?_, ?_, ?_, ?_, ?_, ?_, ?_⟩ <;>
    refine ⟨by decide +kernel, fun b hb => ?_⟩ <;> cases hb
  all_goals exact ⟨by decide +kernel, rfl⟩

theorem edgeForms : ∀ x ∈ edgeList, typeB 5 x.2.1 = true ∧ x.2.2.1 = none := by
  simp only [edgeList, List.mem_cons, List.not_mem_nil, or_false, forall_eq_or_imp, forall_eq]
  refine ⟨?_, ?_, ?_, ?_, ?_, ?_⟩ <;> exact ⟨by decide +kernel, trivial⟩

/-! ## Schemas of files -/

theorem accepts_list {s l y : Json} (h : listSchema s (obj []) = Res.ok l) :
    accepts l y = true ↔ ∃ es, y = arr es ∧ ∀ e ∈ es, accepts s e = true := by
  have main : ∀ m : List (String × Json), m = [("items", s), ("type", str "array")] ∨
      m = [("description", str ""), ("items", s), ("type", str "array")] →
      (accepts (obj m) y = true ↔ ∃ es, y = arr es ∧ ∀ e ∈ es, accepts s e = true) := by
    rintro m (rfl | rfl)
    all_goals
      rw [accepts_obj]
      simp only [keyword, simpleKeyword, hasType, List.all_cons, List.all_nil, Bool.and_true, Bool.and_eq_true,
        String.reduceEq, if_false, if_true]
      cases y <;> simp
  have e : l = obj [("items", s), ("type", str "array")] ∨
      l = obj [("description", str ""), ("items", s), ("type", str "array")] := by
    unfold listSchema at h
    simp only [update, items, Res.fold] at h
    by_cases hc : s.contains "description" = true
    · simp only [hc, if_true] at h
      injection h with h
      exact Or.inr h.symm
    · simp only [hc, if_false, Bool.false_eq_true] at h
      injection h with h
      exact Or.inl h.symm
  rcases e with rfl | rfl
  · exact main _ (Or.inl rfl)
  · exact main _ (Or.inr rfl)

theorem classSchema_object {l : List (String × Json)} (h : (l.map Prod.fst).Nodup) : ObjectSchema (classSchema l) l := by
  refine ⟨rfl, fun m hm => ?_, rfl, rfl, fun r hr => ?_, fun k hk => ?_, h⟩
  · injection hm with hm
    subst hm
    simp
  · simp [classSchema, find?, List.lookup] at hr
  · simp only [List.mem_cons, List.not_mem_nil, or_false] at hk
    rcases hk with rfl | rfl | rfl | rfl | rfl | rfl | rfl <;> rfl

theorem accepts_class {l : List (String × Json)} (h : (l.map Prod.fst).Nodup) (y : Json) :
    accepts (classSchema l) y = true ↔ y.isObj = true ∧ (∀ k s, l.lookup k = some s → ∀ v, y.find? k = some v →
      accepts s v = true) ∧ ∀ k, y.contains k = true → ∃ s, l.lookup k = some s := by
  rw [accepts_object (classSchema_object h)]
  constructor
  · rintro ⟨h1, -, h3, h4⟩
    exact ⟨h1, h3, h4 rfl⟩
  · rintro ⟨h1, h3, h4⟩
    refine ⟨h1, ?_, h3, fun _ => h4⟩
    rintro k ⟨r, hr, -⟩
    simp [classSchema, find?, List.lookup] at hr

theorem accepts_file {ns es : List (String × Json)} {f : Json} (hf : f.isObj = true) :
    accepts (fileSchema ns es) f = true ↔ f.contains "nodes" = true ∧ f.contains "connections" = true ∧
      (∀ v, f.find? "nodes" = some v → accepts (classSchema ns) v = true) ∧
      ∀ v, f.find? "connections" = some v → accepts (classSchema es) v = true := by
  cases f with
  | obj m =>
    unfold fileSchema
    rw [accepts_iff (by simp)]
    constructor
    · intro h
      have h1 := h "required" _ rfl
      have h2 := h "properties" _ rfl
      rw [keyword_required] at h1
      rw [keyword_properties] at h2
      simp only [List.all_cons, List.all_nil, Bool.and_true, Bool.and_eq_true] at h1 h2
      refine ⟨h1.1, h1.2, fun v hv => ?_, fun v hv => ?_⟩
      · have hv : m.lookup "nodes" = some v := hv
        have := h2.2
        rw [hv] at this
        exact this
      · have hv : m.lookup "connections" = some v := hv
        have := h2.1
        rw [hv] at this
        exact this
    · rintro ⟨h1, h2, h3, h4⟩ k v hk
      by_cases e1 : k = "required"
      · subst e1
        injection hk with hk
        subst hk
        rw [keyword_required]
        simp only [List.all_cons, List.all_nil, Bool.and_true, Bool.and_eq_true]
        exact ⟨h1, h2⟩
      · by_cases e2 : k = "properties"
        · subst e2
          injection hk with hk
          subst hk
          rw [keyword_properties]
          simp only [List.all_cons, List.all_nil, Bool.and_true, Bool.and_eq_true]
          constructor
          · cases hv : m.lookup "connections" with
            | none => rfl
            | some v => exact h4 v hv
          · cases hv : m.lookup "nodes" with
            | none => rfl
            | some v => exact h3 v hv
        · refine keyword_other ?_ _ _ _
          have hm := mem_of_lookup hk
          simp only [List.mem_cons, List.not_mem_nil, or_false, Prod.mk.injEq] at hm
          rcases hm with ⟨rfl, -⟩ | ⟨rfl, -⟩ | ⟨rfl, -⟩ | ⟨rfl, -⟩ | ⟨rfl, -⟩
          · decide
          · decide
          · exact absurd rfl e2
          · exact absurd rfl e1
          · decide
  | _ => cases hf

/-! ## Tables -/

theorem topologyEntry_ok {α : Type} {t : String × ComponentType α} {x : String × Json} (h : topologyEntry t = Res.ok x) :
    x.1 = t.1 ∧ ∃ G, topologyPart t.2 = Res.ok G ∧ listSchema G (obj []) = Res.ok x.2 := by
  unfold topologyEntry at h
  obtain ⟨G, h1, h⟩ := Res.bind_eq_ok.mp h
  obtain ⟨l, h2, h⟩ := Res.bind_eq_ok.mp h
  injection h with h
  subst h
  exact ⟨rfl, G, h1, h2⟩

theorem topology_table {α : Type} {types : List (String × ComponentType α)} {ns : List (String × Json)}
    (h : Res.each types topologyEntry = Res.ok ns) : ns.map Prod.fst = types.map Prod.fst ∧
    ((types.map Prod.fst).Nodup → ∀ k t, (k, t) ∈ types → ∃ G s, topologyPart t = Res.ok G ∧
      listSchema G (obj []) = Res.ok s ∧ ns.lookup k = some s) := by
  have h := Res.each_eq_ok.mp h
  have keys : ns.map Prod.fst = types.map Prod.fst := by
    clear * - h
    induction h with
    | nil => rfl
    | cons h1 _ ih => simp [ih, (topologyEntry_ok h1).1]
  refine ⟨keys, fun hn k t ht => ?_⟩
  obtain ⟨x, hx, hxt⟩ := forall₂_mem_left h ht
  obtain ⟨e, G, h1, h2⟩ := topologyEntry_ok hxt
  refine ⟨G, x.2, h1, h2, ?_⟩
  have := lookup_of_mem (by rw [keys]; exact hn) hx
  rwa [e] at this

theorem otherEntry_ok {key : String} {t : String × Json × Option (Res Json)} {r : List (String × Json)}
    (h : otherEntry key t = Res.ok r) : (r = [] ∧ t.2.2 = none) ∨
    ∃ B G s, t.2.2 = some (Res.ok B) ∧ otherPart key t.2.1 B = Res.ok G ∧ listSchema G (obj []) = Res.ok s ∧
      r = [(t.1, s)] := by
  unfold otherEntry at h
  split at h
  · next hn => injection h with h; exact Or.inl ⟨h.symm, hn⟩
  · next schema hs =>
    obtain ⟨B, h1, h⟩ := Res.bind_eq_ok.mp h
    obtain ⟨G, h2, h⟩ := Res.bind_eq_ok.mp h
    obtain ⟨s, h3, h⟩ := Res.bind_eq_ok.mp h
    injection h with h
    exact Or.inr ⟨B, G, s, by rw [hs, h1], h2, h3, h.symm⟩

theorem other_table {α : Type} {key : String} {types : List (String × ComponentType α)}
    {part : String × ComponentType α → Option (Res Json)} {bs : List (List (String × Json))}
    (h : Res.each types (fun t => otherEntry key (t.1, t.2.defaults, part t)) = Res.ok bs) :
    (bs.flatten.map Prod.fst).Sublist (types.map Prod.fst) ∧
    ((types.map Prod.fst).Nodup → ∀ k t B, (k, t) ∈ types → part (k, t) = some (Res.ok B) →
      ∃ G s, otherPart key t.defaults B = Res.ok G ∧ listSchema G (obj []) = Res.ok s ∧ bs.flatten.lookup k = some s) := by
  have h := Res.each_eq_ok.mp h
  have keys : (bs.flatten.map Prod.fst).Sublist (types.map Prod.fst) := by
    clear * - h
    induction h with
    | nil => exact .slnil
    | cons h1 _ ih =>
      rcases otherEntry_ok h1 with ⟨rfl, -⟩ | ⟨B, G, s, -, -, -, rfl⟩
      · exact ih.cons _
      · exact ih.cons_cons _
  refine ⟨keys, fun hn k t B ht hp => ?_⟩
  obtain ⟨r, hr, hxt⟩ := forall₂_mem_left h ht
  rcases otherEntry_ok hxt with ⟨-, h1⟩ | ⟨B', G, s, h1, h2, h3, rfl⟩
  · simp only [hp] at h1
    cases h1
  · simp only [hp, Option.some.injEq, Res.ok.injEq] at h1
    subst h1
    refine ⟨G, s, h2, h3, ?_⟩
    exact lookup_of_mem (x := (k, s)) (keys.nodup hn) (List.mem_flatten.mpr ⟨_, hr, by simp⟩)

/-- What is known about a type of a table. -/
theorem type_known {α : Type} {defaults : Json} {l : List (String × Json × Option Json × (Json → Res α))}
    {types : List (String × ComponentType α)} (h : Res.each l (withDefaults defaults) = Res.ok types)
    (hf : ∀ x ∈ l, typeB 5 x.2.1 = true ∧ ∀ b, x.2.2.1 = some b → typeB 5 b = true ∧ b.find? "default" = none)
    {k : String} {t : ComponentType α} (ht : (k, t) ∈ types) :
    t.defaults = defaultsFor defaults k ∧ (k, t.schema) ∈ typesWithSchemas l ∧
    (∃ ps, TypeForm t.schema ps ∧ t.schema.find? "properties" = some (obj ps)) ∧
    ∀ b, t.boundary = some b → ∃ pb, ObjectSchema b pb ∧ (∀ k d, pb.lookup k = some d → Form d) ∧ b.find? "default" = none := by
  obtain ⟨s, b, c, d, h1, h2, rfl⟩ := table_mem h ht
  refine ⟨valueOr_ok h2, List.mem_map.mpr ⟨_, h1, rfl⟩, typeB_ok (hf _ h1).1, fun b' hb' => ?_⟩
  obtain ⟨h3, h4⟩ := (hf _ h1).2 b' hb'
  obtain ⟨pb, h5, -⟩ := typeB_ok h3
  exact ⟨pb, h5.object, h5.forms, h4⟩

theorem mem_types {j v : Json} {c : String} (h : j.find? c = some v) (hv : v.isObj = true) : types j c = v.items := by
  cases v with
  | obj m => unfold types; rw [h]; rfl
  | _ => cases hv

/-- C110 for one class of components. -/
theorem class_passes {α : Type} {defaults : Json} {l : List (String × Json × Option Json × (Json → Res α))}
    {table : List (String × ComponentType α)} (h : Res.each l (withDefaults defaults) = Res.ok table)
    (hn : (l.map Prod.fst).Nodup)
    (hf : ∀ x ∈ l, typeB 5 x.2.1 = true ∧ ∀ b, x.2.2.1 = some b → typeB 5 b = true ∧ b.find? "default" = none)
    (hd : ∀ x ∈ typesWithSchemas l, ∀ key s v, propertyOf x.2 key = some s →
      (defaultsFor defaults x.1).find? key = some v → accepts s v = true)
    {ns : List (String × Json)} (hns : Res.each table topologyEntry = Res.ok ns) {bs : List (List (String × Json))}
    (hbs : Res.each table (fun t => otherEntry "boundary_values" (t.1, t.2.defaults, t.2.boundary.map Res.ok)) = Res.ok bs)
    {topology boundary : Json} {c : String} (htop : ∀ v, topology.find? c = some v → accepts (classSchema ns) v = true)
    (hbou : ∀ v, boundary.find? c = some v → accepts (classSchema bs.flatten) v = true)
    (dt : ∀ m, topology.find? c = some (obj m) → (m.map Prod.fst).Nodup)
    (db : ∀ m, boundary.find? c = some (obj m) → (m.map Prod.fst).Nodup)
    {name : String} {e : Json} (he : (name, e) ∈ entries (types topology c)) :
    (¬ Needs table name → Passes table name e) ∧
    (Needs table name → ∀ b j, (name, b) ∈ entries (types boundary c) → e.set "boundary_values" b = Res.ok j →
      Passes table name j) := by
  have hT : (table.map Prod.fst).Nodup := by rw [table_names h]; exact hn
  obtain ⟨k1, hns2⟩ := topology_table hns
  obtain ⟨k2, hbs2⟩ := other_table hbs
  -- the entry is accepted by the schema of its type
  have elem : ∀ (j : Json) (sch : List (String × Json)), (sch.map Prod.fst).Nodup →
      (∀ v, j.find? c = some v → accepts (classSchema sch) v = true) →
      (∀ m, j.find? c = some (obj m) → (m.map Prod.fst).Nodup) →
      ∀ x, (name, x) ∈ entries (types j c) → ∃ s v, sch.lookup name = some s ∧ accepts s v = true ∧ x ∈ v.elements := by
    intro j sch hsch hacc hnod x hx
    obtain ⟨v, hv, hxv⟩ := mem_entries.mp hx
    unfold types at hv
    split at hv
    · next m hm =>
      obtain ⟨-, h2, h3⟩ := (accepts_class hsch _).mp (hacc _ hm)
      have hv' : (obj m).find? name = some v := lookup_of_mem (hnod m hm) hv
      obtain ⟨s, hs⟩ := h3 name (contains_iff.mpr ⟨v, hv'⟩)
      exact ⟨s, v, hs, h2 name s hs v hv', hxv⟩
    · cases hv
  obtain ⟨s, v, hs, hsv, hev⟩ := elem topology ns (by rw [k1]; exact hT) htop dt e he
  have hmem : name ∈ table.map Prod.fst := by
    rw [← k1]
    exact List.mem_map.mpr ⟨_, mem_of_lookup hs, rfl⟩
  obtain ⟨⟨name', t⟩, ht, hname⟩ := List.mem_map.mp hmem
  simp only at hname
  subst hname
  obtain ⟨G, s', hG, hl, hs'⟩ := hns2 hT _ t ht
  rw [hs] at hs'
  injection hs' with hs'
  subst hs'
  obtain ⟨es, rfl, hes⟩ := (accepts_list hl).mp hsv
  have heG : accepts G e = true := hes e hev
  obtain ⟨hdef, hschema, ⟨ps, hform, hprop⟩, hB⟩ := type_known h hf ht
  have hvalid : ValidDefaults ps t.defaults := by
    intro k d v hk hv
    refine hd _ hschema k d v ?_ (by rw [← hdef]; exact hv)
    unfold propertyOf
    rw [hprop]
    exact hk
  have uniq : ∀ t', (name', t') ∈ table → t' = t := fun t' ht' => type_unique hT ht' ht
  constructor
  · intro hneeds
    have hb : t.boundary = none := by
      by_contra hb
      exact hneeds ⟨t, ht, hb⟩
    obtain ⟨data, h1⟩ := (component_plain hform hb hG).2 hvalid e heG
    exact ⟨t, ht, data, h1⟩
  · rintro ⟨t', ht', hb⟩ b j hbe hset
    rw [uniq t' ht'] at hb
    obtain ⟨B, hBt⟩ := Option.ne_none_iff_exists'.mp hb
    obtain ⟨GB, sb, h1, h2, h3⟩ := hbs2 hT name' t B ht (by simp [hBt])
    obtain ⟨pb, p1, p2, p3⟩ := hB B hBt
    obtain ⟨sb', vb, hs1, hs2, hs3⟩ := elem boundary bs.flatten (k2.nodup hT) hbou db b hbe
    rw [h3] at hs1
    injection hs1 with hs1
    subst hs1
    obtain ⟨esb, rfl, hesb⟩ := (accepts_list h2).mp hs2
    obtain ⟨-, -, h4⟩ := component_boundary hform hBt p1 p2 p3 hG h1
    have heo : e.isObj = true := by
      unfold topologyPart at hG
      obtain ⟨s1, g1, g2⟩ := Res.bind_eq_ok.mp hG
      obtain ⟨ps2, g3, -⟩ := generated hform.object hform.forms g1 g2
      exact ((accepts_object g3 e).mp heG).1
    have hk : Keeps e j := fun k hk => by rw [find_set hset, if_neg hk]
    obtain ⟨data, h5⟩ := h4 hvalid j b (by rw [accepts_keeps hform hG heo hk (set_result hset)]; exact heG)
      (by rw [find_set hset, if_pos rfl]) (hesb b hs3)
    exact ⟨t, ht, data, h5⟩

theorem nodeNames (draws : Json → Res (ℝ → Res (ℝ × ℝ))) (mem : ℕ → ℝ) :
    ((nodeList draws mem).map Prod.fst).Nodup := by
  simp only [nodeList, List.map_cons, List.map_nil]
  decide

theorem edgeNames : (edgeList.map Prod.fst).Nodup := by
  simp only [edgeList, List.map_cons, List.map_nil]
  decide

theorem generate_ok {draws : Json → Res (ℝ → Res (ℝ × ℝ))} {mem : ℕ → ℝ} {defaults : Json} {S : Schemas}
    (h : generate draws mem defaults = Res.ok S) : ∃ nodes edges ns es bn be,
      Res.each (nodeList draws mem) (withDefaults defaults) = Res.ok nodes ∧
      Res.each edgeList (withDefaults defaults) = Res.ok edges ∧ Res.each nodes topologyEntry = Res.ok ns ∧
      Res.each edges topologyEntry = Res.ok es ∧
      Res.each nodes (fun t => otherEntry "boundary_values" (t.1, t.2.defaults, t.2.boundary.map Res.ok)) = Res.ok bn ∧
      Res.each edges (fun t => otherEntry "boundary_values" (t.1, t.2.defaults, t.2.boundary.map Res.ok)) = Res.ok be ∧
      S.topology = fileSchema ns es ∧ S.boundary = fileSchema bn.flatten be.flatten := by
  unfold generate at h
  obtain ⟨t, h1, h⟩ := Res.bind_eq_ok.mp h
  obtain ⟨i, -, h⟩ := Res.bind_eq_ok.mp h
  obtain ⟨b, h2, h⟩ := Res.bind_eq_ok.mp h
  obtain ⟨c, -, h⟩ := Res.bind_eq_ok.mp h
  injection h with h
  subst h
  unfold topologyFile at h1
  obtain ⟨nodes, h3, h1⟩ := Res.bind_eq_ok.mp h1
  obtain ⟨edges, h4, h1⟩ := Res.bind_eq_ok.mp h1
  obtain ⟨ns, h5, h1⟩ := Res.bind_eq_ok.mp h1
  obtain ⟨es, h6, h1⟩ := Res.bind_eq_ok.mp h1
  injection h1 with h1
  unfold boundaryFile otherFile at h2
  obtain ⟨nodes', h3', hA⟩ := Res.bind_eq_ok.mp h2
  obtain ⟨edges', h4', hB⟩ := Res.bind_eq_ok.mp hA
  obtain ⟨bn, h7, hC⟩ := Res.bind_eq_ok.mp hB
  obtain ⟨be, h8, hE⟩ := Res.bind_eq_ok.mp hC
  injection hE with hE
  rw [h3] at h3'
  injection h3' with h3'
  subst h3'
  rw [h4] at h4'
  injection h4' with h4'
  subst h4'
  exact ⟨nodes, edges, ns, es, bn, be, h3, h4, h5, h6, h7, h8, h1.symm, hE.symm⟩

/-- C110, if all defaults are acceptable values. Full statement: also for other defaults with which the program runs, which
is not so, see `C110_false`. Whatever files of topology and boundary values an editor accepts: each component of the topology
passes the validation by the program, as it is if its type needs no boundary values, and with any entry of its type in the
file of boundary values as boundary values otherwise. -/
theorem C110_partial {draws : Json → Res (ℝ → Res (ℝ × ℝ))} {mem : ℕ → ℝ} {defaults : Json}
    (hd : AcceptableDefaults draws mem defaults) {S : Schemas} (hS : generate draws mem defaults = Res.ok S)
    {topology boundary : Json} (ot : topology.isObj = true) (ob : boundary.isObj = true) (dt : DistinctTypes topology)
    (db : DistinctTypes boundary) (ht : accepts S.topology topology = true) (hb : accepts S.boundary boundary = true) :
    ∃ nodes edges, nodeTypes draws mem defaults = Res.ok nodes ∧ edgeTypes defaults = Res.ok edges ∧
    (∀ name e, (name, e) ∈ entries (types topology "nodes") →
      (¬ Needs nodes name → Passes nodes name e) ∧
      (Needs nodes name → ∀ b j, (name, b) ∈ entries (types boundary "nodes") → e.set "boundary_values" b = Res.ok j →
        Passes nodes name j)) ∧
    ∀ name e, (name, e) ∈ entries (types topology "connections") → Passes edges name e := by
  obtain ⟨nodes, edges, ns, es, bn, be, h3, h4, h5, h6, h7, h8, e1, e2⟩ := generate_ok hS
  rw [e1, accepts_file ot] at ht
  rw [e2, accepts_file ob] at hb
  refine ⟨nodes, edges, h3, h4, fun name e he => ?_, fun name e he => ?_⟩
  · exact class_passes h3 (nodeNames draws mem) (nodeForms draws mem) (fun x hx => hd x (List.mem_append_left _ hx)) h5 h7
      ht.2.2.1 hb.2.2.1 (dt "nodes" (by simp [classes])) (db "nodes" (by simp [classes])) he
  · refine (class_passes h4 edgeNames (fun x hx => ⟨(edgeForms x hx).1, fun b hb => ?_⟩)
      (fun x hx => hd x (List.mem_append_right _ hx)) h6 h8
      ht.2.2.2 hb.2.2.2 (dt "connections" (by simp [classes])) (db "connections" (by simp [classes])) he).1 ?_
    · rw [(edgeForms x hx).2] at hb; cases hb
    · rintro ⟨t, h9, h10⟩
      obtain ⟨s, b, c, d, h11, -, rfl⟩ := table_mem h4 h9
      exact h10 (edgeForms _ h11).2

/-! ## C111 -/

theorem known_of {τ : Type} {table : List (String × τ)} {j : Json} (h : unknownType table j = false) {x : String × Json}
    (hx : x ∈ j.items) : ∃ t, (x.1, t) ∈ table := by
  unfold unknownType at h
  rw [List.any_eq_false] at h
  have := h x hx
  cases hl : table.lookup x.1 with
  | none => rw [hl] at this; exact absurd rfl this
  | some t => exact ⟨t, mem_of_lookup' hl⟩

/-- C111 for one class of components. -/
theorem class_accepted {α : Type} {defaults : Json} {l : List (String × Json × Option Json × (Json → Res α))}
    {table : List (String × ComponentType α)} (h : Res.each l (withDefaults defaults) = Res.ok table)
    (hn : (l.map Prod.fst).Nodup)
    (hf : ∀ x ∈ l, typeB 5 x.2.1 = true ∧ ∀ b, x.2.2.1 = some b → typeB 5 b = true ∧ b.find? "default" = none)
    {ns : List (String × Json)} (hns : Res.each table topologyEntry = Res.ok ns) {bs : List (List (String × Json))}
    (hbs : Res.each table (fun t => otherEntry "boundary_values" (t.1, t.2.defaults, t.2.boundary.map Res.ok)) = Res.ok bs)
    {m : List (String × Json)} (harr : ∀ x ∈ m, ∃ es, x.2 = arr es)
    (hknown : ∀ x ∈ m, ∃ t, (x.1, t) ∈ table)
    (hp : ∀ e ∈ entries m, (∃ s, id? e.2 = some s) ∧ ∃ c, Prepared accepts table e c) :
    accepts (classSchema ns) (obj m) = true := by
  have hT : (table.map Prod.fst).Nodup := by rw [table_names h]; exact hn
  obtain ⟨k1, hns2⟩ := topology_table hns
  obtain ⟨-, hbs2⟩ := other_table hbs
  rw [accepts_class (by rw [k1]; exact hT)]
  refine ⟨rfl, fun k s hk v hv => ?_, fun k hk => ?_⟩
  · have hkm : (k, v) ∈ m := mem_of_lookup hv
    obtain ⟨es, he⟩ := harr _ hkm
    simp only at he
    subst he
    obtain ⟨t, ht⟩ := hknown _ hkm
    obtain ⟨G, s', hG, hl, hs'⟩ := hns2 hT k t ht
    rw [hk] at hs'
    injection hs' with hs'
    subst hs'
    refine (accepts_list hl).mpr ⟨es, rfl, fun e he => ?_⟩
    obtain ⟨⟨id, hid⟩, c, t', data, j, ht', -, hj, hkeep, hprep⟩ := hp (k, e) (mem_entries.mpr ⟨_, hkm, he⟩)
    have := type_unique hT ht' ht
    subst this
    obtain ⟨-, -, ⟨ps, hform, -⟩, hB⟩ := type_known h hf ht
    have hacc : accepts G j = true := by
      cases hb : t'.boundary with
      | none => exact (component_plain hform hb hG).1 j data hj hprep
      | some B =>
        obtain ⟨pb, p1, p2, p3⟩ := hB B hb
        obtain ⟨GB, sb, h1, -, -⟩ := hbs2 hT k t' B ht (by simp [hb])
        exact ((component_boundary hform hb p1 p2 p3 hG h1).2.1 j data hj hprep).1
    rw [← accepts_keeps hform hG (isObj_of_id hid) hkeep hj]
    exact hacc
  · obtain ⟨v, hv⟩ := contains_iff.mp hk
    obtain ⟨t, ht⟩ := hknown _ (mem_of_lookup hv)
    obtain ⟨G, s, -, -, hs⟩ := hns2 hT k t ht
    exact ⟨s, hs⟩

/-- All types in the topology of a network that is built are known. -/
theorem types_known {ν ε : Type} {nodes : List (String × ComponentType ν)} {edges : List (String × ComponentType ε)}
    {topology boundary : Json} (hs : Shaped topology) {g : Graph ν ε}
    (h : buildNet accepts nodes edges topology boundary = Res.ok g) :
    (∀ x ∈ types topology "nodes", ∃ t, (x.1, t) ∈ nodes) ∧ ∀ x ∈ types topology "connections", ∃ t, (x.1, t) ∈ edges := by
  unfold buildNet at h
  obtain ⟨full, h1, h2⟩ := Res.bind_eq_ok.mp h
  obtain ⟨-, hsame⟩ := buildFull_same hs h1
  obtain ⟨nm, hn, sn⟩ := (hsame "nodes" (by simp [classes])).types
  obtain ⟨em, he, se⟩ := (hsame "connections" (by simp [classes])).types
  unfold buildGraph at h2
  obtain ⟨vs, h3, h4⟩ := Res.bind_eq_ok.mp h2
  obtain ⟨g', h5, -⟩ := Res.bind_eq_ok.mp h4
  have u1 : unknownType nodes ((full.find? "nodes").getD null) = false := by
    unfold buildNodes at h3
    split at h3
    · cases h3
    · next hu => simpa using hu
  have u2 : unknownType edges ((full.find? "connections").getD null) = false := by
    unfold buildEdges at h5
    split at h5
    · cases h5
    · next hu => simpa using hu
  have main : ∀ {τ : Type} {table : List (String × τ)} {j : Json} {m m' : List (String × Json)},
      unknownType table j = false → (j = obj m' ∨ j = null ∧ m' = []) → SameTypes m m' →
      ∀ x ∈ m, ∃ t, (x.1, t) ∈ table := by
    intro τ table j m m' hu hj hst x hx
    obtain ⟨y, hy, hxy, -⟩ := forall₂_mem_left hst hx
    rw [hxy]
    rcases hj with rfl | ⟨-, rfl⟩
    · exact known_of hu hy
    · cases hy
  exact ⟨main u1 hn sn, main u2 he se⟩

/-- C111, for files with both sections. Full statement: also for other files, which is not so, see `C111_false`. Whenever the
program builds a network and the schemas are generated with the same defaults, the topology is accepted by the schema for
topologies. -/
theorem C111_partial {draws : Json → Res (ℝ → Res (ℝ × ℝ))} {mem : ℕ → ℝ} {defaults topology boundary : Json} {S : Schemas}
    (hS : generate draws mem defaults = Res.ok S) (hs : Shaped topology) (hd : DistinctTypes topology)
    (hn : topology.contains "nodes" = true) (hc : topology.contains "connections" = true)
    {g : Graph Network.Node Network.EdgeKind} (h : readNet draws mem defaults topology boundary = Res.ok g) :
    accepts S.topology topology = true := by
  obtain ⟨nodes, edges, ns, es, bn, be, h3, h4, h5, h6, h7, h8, e1, -⟩ := generate_ok hS
  obtain ⟨nodes', edges', h3', h4', hbuild⟩ := readNet_ok h
  rw [h3] at h3'
  injection h3' with h3'
  subst h3'
  rw [h4] at h4'
  injection h4' with h4'
  subst h4'
  obtain ⟨-, -, ⟨l1, p1, f1⟩, l2, p2, f2⟩ := buildNet_made (proper_of h3 h4 hs hd) hbuild
  obtain ⟨kn, ke⟩ := types_known hs hbuild
  have ot : topology.isObj = true := by
    obtain ⟨v, hv⟩ := contains_iff.mp hn
    exact isObj_of_find hv
  have cls : ∀ {c : String}, c ∈ classes → ∀ v, topology.find? c = some v →
      ∃ m, v = obj m ∧ types topology c = m ∧ ∀ x ∈ m, ∃ es, x.2 = arr es := by
    intro c hc v hv
    obtain ⟨m, rfl, hm⟩ := hs c hc v hv
    exact ⟨m, rfl, by unfold types; rw [hv], hm⟩
  rw [e1, accepts_file ot]
  refine ⟨hn, hc, fun v hv => ?_, fun v hv => ?_⟩
  · obtain ⟨m, rfl, hm, h10⟩ := cls (by simp [classes]) v hv
    refine class_accepted h3 (nodeNames draws mem) (nodeForms draws mem) h5 h7 h10 (by rw [← hm]; exact kn) ?_
    intro e he
    rw [← hm] at he
    obtain ⟨n, -, hid, hp⟩ := forall₂_mem_left f1 (p1.mem_iff.mpr he)
    exact ⟨⟨_, hid⟩, _, hp⟩
  · obtain ⟨m, rfl, hm, h10⟩ := cls (by simp [classes]) v hv
    refine class_accepted h4 edgeNames (fun x hx => ⟨(edgeForms x hx).1, fun b hb => ?_⟩) h6 h8 h10
      (by rw [← hm]; exact ke) ?_
    · rw [(edgeForms x hx).2] at hb; cases hb
    · intro e he
      rw [← hm] at he
      obtain ⟨x, -, hid, hp⟩ := forall₂_mem_left f2 (p2.mem_iff.mpr he)
      exact ⟨⟨_, hid.1⟩, _, hp⟩

end Verif.Editor
