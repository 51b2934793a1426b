import Verif.Editor.Props
import Verif.Read.Example

/-!
# When schemas are generated, and examples for C110 and C111
-/

set_option autoImplicit false

namespace Verif.Editor

open Verif.Json Verif.Factory Verif.Schema Verif.Read

/-! ## Generation works iff the defaults belong to the schemas -/

theorem list_exists (s : Json) : ∃ l, listSchema s (obj []) = Res.ok l := by
  unfold listSchema
  simp only [update, items, Res.fold]
  by_cases hc : s.contains "description" = true
  · simp only [hc, if_true]; exact ⟨_, rfl⟩
  · simp only [hc, if_false, Bool.false_eq_true]; exact ⟨_, rfl⟩

theorem topologyEntry_exists {α : Type} {t : String × ComponentType α} {ps : List (String × Json)}
    (hs : TypeForm t.2.schema ps) {s1 : Json} (h : addDefaults t.2.schema t.2.defaults = Res.ok s1) :
    ∃ x, topologyEntry t = Res.ok x := by
  obtain ⟨-, -, ps1, h1, -, h2⟩ := addDefaults_ok hs.object h
  obtain ⟨G, hG⟩ := removes_level h1 (removes_added (fun x hx y hy =>
    (hs.forms x.1 x.2 (lookup_of_mem hs.object.keys hx)).removes _ _ y hy) h2)
  obtain ⟨l, hl⟩ := list_exists G
  refine ⟨(t.1, l), ?_⟩
  unfold topologyEntry topologyPart
  simp only [h, hG, Res.ok_bind, hl]

/-- The keys of the other files are no keys of the topology. -/
def otherKeys : List String := ["boundary_values", "control_values", "initial_values"]

def noKeys (s : Json) : Bool := otherKeys.all fun k => !((s.find? "properties").getD null).contains k

theorem noKeys_nodes (draws : Json → Res (ℝ → Res (ℝ × ℝ))) (mem : ℕ → ℝ) : ∀ x ∈ nodeList draws mem, noKeys x.2.1 = true := by
  simp only [nodeList, List.mem_cons, List.not_mem_nil, or_false, forall_eq_or_imp, forall_eq]
  refine ⟨?_, ?_, ?_, ?_, ?_, ?_, ?_, ?_, ?_, ?_⟩ <;> decide +kernel

theorem noKeys_edges : ∀ x ∈ edgeList, noKeys x.2.1 = true := by
  simp only [edgeList, List.mem_cons, List.not_mem_nil, or_false, forall_eq_or_imp, forall_eq]
  refine ⟨?_, ?_, ?_, ?_, ?_, ?_⟩ <;> decide +kernel

theorem defaults_without {s s1 D : Json} {ps : List (String × Json)} (hs : ObjectSchema s ps)
    (h : addDefaults s D = Res.ok s1) {key : String} (hk : ps.lookup key = none) : D.isObj = true ∧ D.find? key = none := by
  obtain ⟨hD, hkeys, -⟩ := addDefaults_ok hs h
  refine ⟨hD, ?_⟩
  cases hf : D.find? key with
  | none => rfl
  | some v =>
    have hmem : (key, v) ∈ D.items := by
      cases hdd : D with
      | obj m => rw [hdd] at hf; exact mem_of_lookup hf
      | _ => rw [hdd] at hf; simp [find?] at hf
    have := hkeys _ hmem
    simp [contains, find?, hk] at this

theorem otherEntry_exists {key name : String} {D : Json} {part : Option (Res Json)} (hD : D.isObj = true)
    (hk : D.find? key = none) (hp : ∀ r, part = some r → ∃ B, r = Res.ok B ∧ typeB 5 B = true ∧ B.find? "default" = none) :
    ∃ x, otherEntry key (name, D, part) = Res.ok x := by
  unfold otherEntry
  cases part with
  | none => exact ⟨_, rfl⟩
  | some r =>
    obtain ⟨B, rfl, h1, h2⟩ := hp r rfl
    obtain ⟨pb, h3, -⟩ := typeB_ok h1
    obtain ⟨l, hl⟩ := list_exists B
    have h4 : otherPart key D B = Res.ok B := by
      have : valueOr D key = Res.ok (obj []) := by
        unfold valueOr
        rw [if_pos hD, hk]
        rfl
      unfold otherPart
      rw [this, Res.ok_bind, adds_none h3.object h3.forms, Res.ok_bind, (Form.object B pb h3.object h2 h3.forms).removes_same]
    refine ⟨[(name, l)], ?_⟩
    simp only [Res.ok_bind, h4, hl]

/-- A check of schemas. -/
def goodB : Res Json → Bool
  | .ok B => typeB 5 B && (B.find? "default").isNone
  | _ => false

theorem goodB_ok {r : Res Json} (h : goodB r = true) : ∃ B, r = Res.ok B ∧ typeB 5 B = true ∧ B.find? "default" = none := by
  cases r with
  | ok B =>
    simp only [goodB, Bool.and_eq_true, Option.isNone_iff_eq_none] at h
    exact ⟨B, rfl, h⟩
  | _ => cases h

theorem initial_form (name : String) : ∀ r, initialOf name = some r →
    ∃ B, r = Res.ok B ∧ typeB 5 B = true ∧ B.find? "default" = none := by
  intro r h
  unfold initialOf at h
  split at h
  all_goals first
    | (injection h with h; subst h; exact goodB_ok (by decide +kernel))
    | cases h

theorem control_form (name : String) : ∀ r, controlOf name = some r →
    ∃ B, r = Res.ok B ∧ typeB 5 B = true ∧ B.find? "default" = none := by
  intro r h
  unfold controlOf at h
  split at h
  all_goals first
    | (injection h with h; subst h; exact goodB_ok (by decide +kernel))
    | cases h

/-- The defaults of each type only have keys of the schema of the type, which may have defaults. -/
def FittingDefaults (draws : Json → Res (ℝ → Res (ℝ × ℝ))) (mem : ℕ → ℝ) (defaults : Json) : Prop :=
  defaults.isObj = true ∧ ∀ x ∈ typesWithSchemas (nodeList draws mem) ++ typesWithSchemas edgeList,
    ∃ s, addDefaults x.2 (defaultsFor defaults x.1) = Res.ok s

theorem table_exists {α : Type} {defaults : Json} (hd : defaults.isObj = true)
    (l : List (String × Json × Option Json × (Json → Res α))) : ∃ t, Res.each l (withDefaults defaults) = Res.ok t :=
  each_exists fun x _ => ⟨(x.1, ⟨x.2.1, x.2.2.1, defaultsFor defaults x.1, x.2.2.2⟩), by
    unfold withDefaults valueOr
    rw [if_pos hd]
    rfl⟩

/-- Schemas are generated for all such defaults. -/
theorem generates {draws : Json → Res (ℝ → Res (ℝ × ℝ))} {mem : ℕ → ℝ} {defaults : Json}
    (hd : FittingDefaults draws mem defaults) : ∃ S, generate draws mem defaults = Res.ok S := by
  obtain ⟨ho, hd⟩ := hd
  obtain ⟨nodes, hn⟩ := table_exists ho (nodeList draws mem)
  obtain ⟨edges, he⟩ := table_exists ho edgeList
  have fN := nodeForms draws mem
  have fE : ∀ x ∈ edgeList, typeB 5 x.2.1 = true ∧ ∀ b, x.2.2.1 = some b → typeB 5 b = true ∧ b.find? "default" = none :=
    fun x hx => ⟨(edgeForms x hx).1, fun b hb => by rw [(edgeForms x hx).2] at hb; cases hb⟩
  -- one table
  have main : ∀ {α : Type} {l : List (String × Json × Option Json × (Json → Res α))} {table : List (String × ComponentType α)},
      Res.each l (withDefaults defaults) = Res.ok table →
      (∀ x ∈ l, typeB 5 x.2.1 = true ∧ ∀ b, x.2.2.1 = some b → typeB 5 b = true ∧ b.find? "default" = none) →
      (∀ x ∈ l, noKeys x.2.1 = true) →
      (∀ x ∈ typesWithSchemas l, ∃ s, addDefaults x.2 (defaultsFor defaults x.1) = Res.ok s) →
      (∃ r, Res.each table topologyEntry = Res.ok r) ∧
      ∀ key ∈ otherKeys, ∀ part : String × ComponentType α → Option (Res Json),
        (∀ t ∈ table, ∀ r, part t = some r → ∃ B, r = Res.ok B ∧ typeB 5 B = true ∧ B.find? "default" = none) →
        ∃ r, Res.each table (fun t => otherEntry key (t.1, t.2.defaults, part t)) = Res.ok r := by
    intro α l table ht hf hno hadd
    have each : ∀ t ∈ table, ∃ ps s1, TypeForm t.2.schema ps ∧ addDefaults t.2.schema t.2.defaults = Res.ok s1 ∧
        ∀ key ∈ otherKeys, ps.lookup key = none := by
      rintro ⟨k, t⟩ hmem
      obtain ⟨s, b, c, d, h1, h2, rfl⟩ := table_mem ht hmem
      obtain ⟨ps, hps, hprop⟩ := typeB_ok (hf _ h1).1
      obtain ⟨s1, hs1⟩ := hadd (k, s) (List.mem_map.mpr ⟨_, h1, rfl⟩)
      refine ⟨ps, s1, hps, by rw [valueOr_ok h2]; exact hs1, fun key hkey => ?_⟩
      have : (!((s.find? "properties").getD null).contains key) = true := List.all_eq_true.mp (hno _ h1) key hkey
      rw [hprop] at this
      cases hl : ps.lookup key with
      | none => rfl
      | some d => simp [contains, find?, hl] at this
    refine ⟨each_exists fun t htm => ?_, fun key hkey part hpart => each_exists fun t htm => ?_⟩
    · obtain ⟨ps, s1, h1, h2, -⟩ := each t htm
      exact topologyEntry_exists h1 h2
    · obtain ⟨ps, s1, h1, h2, h3⟩ := each t htm
      obtain ⟨hD, hk⟩ := defaults_without h1.object h2 (h3 key hkey)
      exact otherEntry_exists hD hk (hpart t htm)
  obtain ⟨⟨ns, h1⟩, hN⟩ := main hn fN (noKeys_nodes draws mem) fun x hx => hd x (List.mem_append_left _ hx)
  obtain ⟨⟨es, h2⟩, hE⟩ := main he fE noKeys_edges fun x hx => hd x (List.mem_append_right _ hx)
  have bpart : ∀ {α : Type} {l : List (String × Json × Option Json × (Json → Res α))} {table : List (String × ComponentType α)},
      Res.each l (withDefaults defaults) = Res.ok table →
      (∀ x ∈ l, typeB 5 x.2.1 = true ∧ ∀ b, x.2.2.1 = some b → typeB 5 b = true ∧ b.find? "default" = none) →
      ∀ t ∈ table, ∀ r, t.2.boundary.map Res.ok = some r → ∃ B, r = Res.ok B ∧ typeB 5 B = true ∧ B.find? "default" = none := by
    rintro α l table ht hf ⟨k, t⟩ hmem r hr
    obtain ⟨s, b, c, d, h1, -, rfl⟩ := table_mem ht hmem
    cases b with
    | none => cases hr
    | some B =>
      injection hr with hr
      exact ⟨B, hr.symm, (hf _ h1).2 B rfl⟩
  obtain ⟨bn, h3⟩ := hN "boundary_values" (by simp [otherKeys]) (fun t => t.2.boundary.map Res.ok) (bpart hn fN)
  obtain ⟨be, h4⟩ := hE "boundary_values" (by simp [otherKeys]) (fun t => t.2.boundary.map Res.ok) (bpart he fE)
  obtain ⟨i1, h5⟩ := hN "initial_values" (by simp [otherKeys]) (fun t => initialOf t.1) fun t _ => initial_form t.1
  obtain ⟨i2, h6⟩ := hE "initial_values" (by simp [otherKeys]) (fun t => initialOf t.1) fun t _ => initial_form t.1
  obtain ⟨c1, h7⟩ := hN "control_values" (by simp [otherKeys]) (fun t => controlOf t.1) fun t _ => control_form t.1
  obtain ⟨c2, h8⟩ := hE "control_values" (by simp [otherKeys]) (fun t => controlOf t.1) fun t _ => control_form t.1
  refine ⟨⟨fileSchema ns es, fileSchema bn.flatten be.flatten, fileSchema i1.flatten i2.flatten,
    fileSchema c1.flatten c2.flatten⟩, ?_⟩
  have hn' : nodeTypes draws mem defaults = Res.ok nodes := hn
  have he' : edgeTypes defaults = Res.ok edges := he
  unfold generate topologyFile initialFile boundaryFile controlFile otherFile
  simp only [hn', he', Res.ok_bind, h1, h2, h3, h4, h5, h6, h7, h8]

/-- Schemas are generated for no other defaults. -/
theorem fitting_of {draws : Json → Res (ℝ → Res (ℝ × ℝ))} {mem : ℕ → ℝ} {defaults : Json} {S : Schemas}
    (h : generate draws mem defaults = Res.ok S) : FittingDefaults draws mem defaults := by
  obtain ⟨nodes, edges, ns, es, bn, be, h3, h4, h5, h6, -⟩ := generate_ok h
  have main : ∀ {α : Type} {l : List (String × Json × Option Json × (Json → Res α))} {table : List (String × ComponentType α)}
      {ns : List (String × Json)}, Res.each l (withDefaults defaults) = Res.ok table →
      Res.each table topologyEntry = Res.ok ns →
      ∀ x ∈ typesWithSchemas l, ∃ s, addDefaults x.2 (defaultsFor defaults x.1) = Res.ok s := by
    intro α l table ns ht hns x hx
    obtain ⟨y, hy, rfl⟩ := List.mem_map.mp hx
    obtain ⟨d, h1, h2⟩ := mem_table (k := y.1) (s := y.2.1) (b := y.2.2.1) (c := y.2.2.2) ht hy
    obtain ⟨z, -, hz⟩ := forall₂_mem_left (Res.each_eq_ok.mp hns) h2
    obtain ⟨-, G, hG, -⟩ := topologyEntry_ok hz
    unfold topologyPart at hG
    obtain ⟨s1, h5, -⟩ := Res.bind_eq_ok.mp hG
    exact ⟨s1, by rw [← valueOr_ok h1]; exact h5⟩
  refine ⟨?_, fun x hx => ?_⟩
  · obtain ⟨d, h1, -⟩ := mem_table (k := "Pipe") (s := pipeTopology) (b := none) (c := pipe) h4 (by simp [edgeList])
    unfold valueOr at h1
    split at h1
    · assumption
    · cases h1
  · rcases List.mem_append.mp hx with hx | hx
    · exact main h3 h5 x hx
    · exact main h4 h6 x hx

/-! ## Evaluation -/

/-- `removeDefaults` with a bound. -/
def removeN : ℕ → Json → Res Json
  | 0, _ => Res.throws
  | n + 1, s =>
    match nested? s with
    | none => Res.ok s
    | some (obj m) => (pruneLevel s (obj m)).bind fun s1 =>
      ((Res.each m fun x => (removeN n x.2).bind fun v => Res.ok (x.1, v)).bind fun m' => Res.ok (obj m')).bind fun p' =>
        s1.set "properties" p'
    | some _ => Res.throws

theorem removeN_ok {n : ℕ} : ∀ {s r : Json}, removeN n s = Res.ok r → removeDefaults s = Res.ok r := by
  induction n with
  | zero => intro _ _ h; cases h
  | succ n ih =>
    intro s r h
    rw [removeDefaults_eq]
    simp only [removeN] at h
    cases hp : nested? s with
    | none => rw [hp] at h; exact h
    | some p =>
      rw [hp] at h
      cases p with
      | obj m =>
        simp only at h ⊢
        obtain ⟨s1, h1, h⟩ := Res.bind_eq_ok.mp h
        obtain ⟨p', h2, h⟩ := Res.bind_eq_ok.mp h
        obtain ⟨m', h3, h2⟩ := Res.bind_eq_ok.mp h2
        have h4 : Res.each m (fun x => (removeDefaults x.2).bind fun v => Res.ok (x.1, v)) = Res.ok m' := by
          refine each_mono ?_ h3
          intro x y hxy
          obtain ⟨v, h5, h6⟩ := Res.bind_eq_ok.mp hxy
          rw [ih h5]
          exact h6
        simp only [h1, removeAll, h4]
        show ((Res.ok m').bind fun m' => Res.ok (obj m')).bind (fun p' => s1.set "properties" p') = _
        injection h2 with h2
        subst h2
        exact h
      | _ => cases h

/-- The types with their schemas. -/
def nodeSchemas : List (String × Json) :=
  [("ConstraintSink", idSchema), ("ExternalPowerplant", powerTopology), ("Innode", idSchema), ("PQnode", powerTopology),
    ("PVnode", powerTopology), ("Pressureboundarynode", idSchema), ("Sink", idSchema), ("Source", idSchema),
    ("StochasticPQnode", stochasticTopology), ("Vphinode", powerTopology)]

def edgeSchemas : List (String × Json) :=
  [("Compressorstation", edgeSchema), ("Controlvalve", edgeSchema), ("Gaspowerconnection", connectionTopology),
    ("Pipe", pipeTopology), ("Shortpipe", edgeSchema), ("Transmissionline", lineTopology)]

def isOk : Res Json → Bool
  | .ok _ => true
  | _ => false

def fittingB (defaults : Json) : Bool :=
  defaults.isObj && (nodeSchemas ++ edgeSchemas).all fun x => isOk (addDefaultsN 20 x.2 (defaultsFor defaults x.1))

theorem fittingB_ok (draws : Json → Res (ℝ → Res (ℝ × ℝ))) (mem : ℕ → ℝ) {defaults : Json} (h : fittingB defaults = true) :
    FittingDefaults draws mem defaults := by
  simp only [fittingB, Bool.and_eq_true] at h
  refine ⟨h.1, fun x hx => ?_⟩
  have := List.all_eq_true.mp h.2 x hx
  cases hr : addDefaultsN 20 x.2 (defaultsFor defaults x.1) with
  | ok s => exact ⟨s, addDefaultsN_ok hr⟩
  | _ => rw [hr] at this; cases this

def acceptableB (defaults : Json) : Bool :=
  (nodeSchemas ++ edgeSchemas).all fun x => (defaultsFor defaults x.1).items.all fun y =>
    match propertyOf x.2 y.1 with
    | none => true
    | some s => acceptsN 20 s y.2

theorem acceptableB_ok (draws : Json → Res (ℝ → Res (ℝ × ℝ))) (mem : ℕ → ℝ) {defaults : Json}
    (h : acceptableB defaults = true) : AcceptableDefaults draws mem defaults := by
  intro x hx key s v hs hv
  have h1 := List.all_eq_true.mp (List.all_eq_true.mp h x hx)
  have hmem : (key, v) ∈ (defaultsFor defaults x.1).items := by
    cases hd : defaultsFor defaults x.1 with
    | obj m => rw [hd] at hv; exact mem_of_lookup hv
    | _ => rw [hd] at hv; simp [find?] at hv
  have h2 := h1 _ hmem
  simp only [hs] at h2
  exact acceptsN_ok h2

/-! ## C110 -/

theorem empty_class {l : List (String × Json)} (h : (l.map Prod.fst).Nodup) : accepts (classSchema l) (obj []) = true := by
  rw [accepts_class h]
  exact ⟨rfl, fun k s _ v hv => (nomatch hv), fun k hk => (nomatch hk)⟩

/-- An entry of a generated schema. -/
theorem generated_class {α : Type} {defaults : Json} {l : List (String × Json × Option Json × (Json → Res α))}
    {table : List (String × ComponentType α)} (h : Res.each l (withDefaults defaults) = Res.ok table)
    (hn : (l.map Prod.fst).Nodup) {ns : List (String × Json)} (hns : Res.each table topologyEntry = Res.ok ns)
    {k : String} {s : Json} {b : Option Json} {c : Json → Res α} (hmem : (k, s, b, c) ∈ l) {s1 G : Json}
    (h1 : addDefaultsN 20 s (defaultsFor defaults k) = Res.ok s1) (h2 : removeN 20 s1 = Res.ok G) {es : List Json}
    (hes : ∀ e ∈ es, acceptsN 20 G e = true) : accepts (classSchema ns) (obj [(k, arr es)]) = true := by
  have hT : (table.map Prod.fst).Nodup := by rw [table_names h]; exact hn
  obtain ⟨k1, h3⟩ := topology_table hns
  obtain ⟨d, h4, h5⟩ := mem_table h hmem
  obtain ⟨G', ls, h6, h7, h8⟩ := h3 hT k _ h5
  have e : G' = G := by
    unfold topologyPart at h6
    simp only [valueOr_ok h4, addDefaultsN_ok h1, Res.ok_bind, removeN_ok h2] at h6
    injection h6 with h6
    exact h6.symm
  subst e
  rw [accepts_class (by rw [k1]; exact hT)]
  refine ⟨rfl, fun k' s' hk' v hv => ?_, fun k' hk' => ?_⟩
  · have hm := mem_of_lookup hv
    simp only [List.mem_singleton, Prod.mk.injEq] at hm
    obtain ⟨rfl, rfl⟩ := hm
    rw [h8] at hk'
    injection hk' with hk'
    subst hk'
    exact (accepts_list h7).mpr ⟨es, rfl, fun e he => acceptsN_ok (hes e he)⟩
  · obtain ⟨v, hv⟩ := contains_iff.mp hk'
    have hm := mem_of_lookup hv
    simp only [List.mem_singleton, Prod.mk.injEq] at hm
    obtain ⟨rfl, rfl⟩ := hm
    exact ⟨_, h8⟩

def resultOf : Res Json → Json
  | .ok j => j
  | _ => null

theorem resultOf_ok {r : Res Json} (h : isOk r = true) : r = Res.ok (resultOf r) := by
  cases r <;> first | rfl | cases h

/-- Lengths of pipes are in metres unless something else is said. -/
def defaultsM : Json := obj [("Pipe", obj [("length", obj [("unit", str "m")])])]

def defaultsP : Json := obj [("length", obj [("unit", str "m")])]

/-- A pipe without length. -/
def pipeW : Json := obj [("balancelaw", str "Isothermaleulerequation"), ("desired_delta_x", num 1000),
  ("diameter", obj [("unit", str "m"), ("value", num 1)]), ("from", str "a"), ("id", str "p"),
  ("roughness", obj [("unit", str "m"), ("value", num 1)]), ("scheme", str "Implicitboxscheme"), ("to", str "b")]

/-- A pipe with a length. -/
def pipeL : Json := obj [("balancelaw", str "Isothermaleulerequation"), ("desired_delta_x", num 1000),
  ("diameter", obj [("unit", str "m"), ("value", num 1)]), ("from", str "a"), ("id", str "p"),
  ("length", obj [("value", num 5000)]),
  ("roughness", obj [("unit", str "m"), ("value", num 1)]), ("scheme", str "Implicitboxscheme"), ("to", str "b")]

def schemaM : Json := resultOf (addDefaultsN 20 pipeTopology defaultsP)

def generatedM : Json := resultOf (removeN 20 schemaM)

def appliedW : Json := resultOf (applyN 20 ((schemaM.find? "properties").getD null) pipeW)

/-- The schema of pipes requires lengths to have values. -/
def needsValue : Bool :=
  match schemaM with
  | obj m => match m.lookup "properties" with
    | some (obj ps) => objectB m ps && match ps.lookup "length" with
      | some (obj m1) => match m1.lookup "properties", m1.lookup "required" with
        | some (obj ps1), some (arr l) => objectB m1 ps1 && l.any fun x => match x with
          | str t => t == "value"
          | _ => false
        | _, _ => false
      | _ => false
    | _ => false
  | _ => false

def hasUnit : Bool :=
  match appliedW.find? "length" with
  | some v => !v.contains "value"
  | none => false

theorem rejected_w : accepts schemaM appliedW = false := by
  rw [Bool.eq_false_iff]
  intro h
  have h1 : needsValue = true := by decide +kernel
  have h2 : hasUnit = true := by decide +kernel
  unfold hasUnit at h2
  unfold needsValue at h1
  split at h2
  · rename_i v hv
    split at h1
    · rename_i m e
      split at h1
      · rename_i ps e1
        rw [Bool.and_eq_true] at h1
        obtain ⟨h1, h3⟩ := h1
        split at h3
        · rename_i m1 e2
          split at h3
          · rename_i ps1 l e3 e4
            rw [Bool.and_eq_true] at h3
            obtain ⟨h3, h4⟩ := h3
            rw [e] at h
            have h8 := ((accepts_object (objectB_ok e1 h1) _).mp h).2.2.1 "length" _ e2 v hv
            have h9 := ((accepts_object (objectB_ok e3 h3) _).mp h8).2.1 "value" ⟨l, e4, ?_⟩
            · rw [h9] at h2; cases h2
            · obtain ⟨x, h5, h6⟩ := List.any_eq_true.mp h4
              cases x with
              | str t => rw [beq_iff_eq] at h6; rw [← h6]; exact h5
              | _ => cases h6
          · cases h3
        · cases h3
      · cases h1
    · cases h1
  · cases h2

theorem prepare_w (c : Json → Res Network.EdgeKind) (data : Json) :
    prepare accepts (⟨pipeTopology, none, defaultsP, c⟩ : ComponentType Network.EdgeKind) pipeW ≠ Res.ok data := by
  intro hp
  have s1 : addDefaultsN 20 pipeTopology defaultsP = Res.ok schemaM := resultOf_ok (by decide +kernel)
  unfold prepare at hp
  have ht : typeSchema (⟨pipeTopology, none, defaultsP, c⟩ : ComponentType Network.EdgeKind) = Res.ok schemaM :=
    addDefaultsN_ok s1
  have ha : applyDefaults schemaM pipeW = Res.ok appliedW := by
    unfold applyDefaults
    exact applyN_ok (n := 20) (resultOf_ok (by decide +kernel))
  rw [ht, Res.ok_bind, ha, Res.ok_bind, rejected_w] at hp
  cases hp

/-- C110 is false: with a default for the unit of lengths, the generated schema does not require lengths any more. An
editor accepts a pipe without length, the program does not (while these defaults are fine for pipes with a
length). -/
theorem C110_false (draws : Json → Res (ℝ → Res (ℝ × ℝ))) (mem : ℕ → ℝ) :
    ∃ defaults S topology boundary edges, generate draws mem defaults = Res.ok S ∧ edgeTypes defaults = Res.ok edges ∧
      (∃ e, Passes edges "Pipe" e) ∧ (topology.isObj = true ∧ DistinctTypes topology) ∧
      (boundary.isObj = true ∧ DistinctTypes boundary) ∧
      accepts S.topology topology = true ∧ accepts S.boundary boundary = true ∧
      ∃ e, ("Pipe", e) ∈ entries (types topology "connections") ∧ ¬ Passes edges "Pipe" e := by
  obtain ⟨S, hS⟩ := generates (fittingB_ok draws mem (defaults := defaultsM) (by decide +kernel))
  obtain ⟨nodes, edges, ns, es, bn, be, h3, h4, h5, h6, h7, h8, e1, e2⟩ := generate_ok hS
  have hT : (nodes.map Prod.fst).Nodup := by rw [table_names h3]; exact nodeNames draws mem
  have hE : (edges.map Prod.fst).Nodup := by rw [table_names h4]; exact edgeNames
  obtain ⟨d, h9, h10⟩ := mem_table (k := "Pipe") (s := pipeTopology) (b := none) (c := pipe) h4 (by simp [edgeList])
  have hd : d = defaultsP := valueOr_ok h9
  subst hd
  have s1 : addDefaultsN 20 pipeTopology defaultsP = Res.ok schemaM := resultOf_ok (by decide +kernel)
  have s2 : removeN 20 schemaM = Res.ok generatedM := resultOf_ok (by decide +kernel)
  refine ⟨defaultsM, S, obj [("connections", obj [("Pipe", arr [pipeW])]), ("nodes", obj [])],
    obj [("connections", obj []), ("nodes", obj [])], edges, hS, h4, ?_, ⟨rfl, (shaped_of (by decide +kernel)).2⟩,
    ⟨rfl, (shaped_of (by decide +kernel)).2⟩, ?_, ?_, pipeW, ?_, ?_⟩
  · refine ⟨pipeL, _, h10, _, prepareN_ok (n := 20) (resultOf_ok ?_)⟩
    decide +kernel
  · rw [e1, accepts_file rfl]
    refine ⟨rfl, rfl, fun v hv => ?_, fun v hv => ?_⟩
    · injection hv with hv
      subst hv
      exact empty_class (by rw [(topology_table h5).1]; exact hT)
    · injection hv with hv
      subst hv
      refine generated_class h4 edgeNames h6 (k := "Pipe") (s := pipeTopology) (b := none) (c := pipe) (by simp [edgeList]) s1 s2 ?_
      simp only [List.mem_singleton, forall_eq]
      decide +kernel
  · rw [e2, accepts_file rfl]
    refine ⟨rfl, rfl, fun v hv => ?_, fun v hv => ?_⟩
    · injection hv with hv
      subst hv
      exact empty_class ((other_table h7).1.nodup hT)
    · injection hv with hv
      subst hv
      exact empty_class ((other_table h8).1.nodup hE)
  · exact List.mem_singleton.mpr rfl
  · rintro ⟨t, ht, data, hp⟩
    have := type_unique hE ht h10
    subst this
    exact prepare_w _ _ hp

end Verif.Editor
