import Verif.Editor.Witness
import Verif.Read.DefinedRun
import Verif.Read.ResultsNet

/-!
# C142: the generated schemas for values

Which files of initial values, boundary values and controls editors accept, and that the program reads exactly such entries.
-/

set_option autoImplicit false

namespace Verif.Editor

open Verif.Json Verif.Factory Verif.Schema Verif.Read Verif.Interp Verif.Initial Network

/-! ## Specification -/

/-- The file has this class of components, and in it only the listed types, with lists of entries that are as described. -/
def Class (file : Json) (name : String) (allowed : List (String × (Json → Prop))) : Prop :=
  ∃ m, file.find? name = some (obj m) ∧ ∀ x ∈ m, ∃ P es, (x.1, P) ∈ allowed ∧ x.2 = arr es ∧ ∀ e ∈ es, P e

/-- Two values at zero. -/
def OnePoint (e : Json) : Prop := ∃ a b, Describes "x" e [(0, [a, b])]

/-- Two values at zero and two at one, in any order. -/
def TwoPoints (e : Json) : Prop :=
  ∃ a b c d, Describes "x" e [(0, [a, b]), (1, [c, d])] ∨ Describes "x" e [(1, [a, b]), (0, [c, d])]

/-- Two values at each of some points, one of which is zero. -/
def Profile (e : Json) : Prop := ∃ data, Describes "x" e data ∧ (∀ x ∈ data, x.2.length = 2) ∧ ∃ x ∈ data, x.1 = 0

/-- An id and a list of entries, in which times are numbers and values are `k` numbers. -/
def Timed (k : ℕ) (e : Json) : Prop :=
  ∃ id entries, e.find? "id" = some (str id) ∧ e.find? "data" = some (arr entries) ∧
    ∀ x ∈ entries, (∀ t, x.find? "time" = some t → ∃ q, t = num q) ∧
      ∀ v, x.find? "values" = some v → ∃ l : List ℚ, l.length = k ∧ v = arr (l.map num)

/-- The same with numbers as seed, if there is one. -/
def TimedWithSeed (e : Json) : Prop :=
  Timed 2 e ∧ ∀ v, e.find? "seed" = some v → ∃ l : List ℚ, v = arr (l.map num)

/-- A file with one entry, in the first class. -/
def oneEntry (class₁ class₂ type : String) (e : Json) : Json := obj [(class₁, obj [(type, arr [e])]), (class₂, obj [])]

/-! ## Proofs -/

theorem otherPart_same {key : String} {D B : Json} (hD : D.isObj = true) (hk : D.find? key = none) (h1 : typeB 5 B = true)
    (h2 : B.find? "default" = none) : otherPart key D B = Res.ok B := by
  obtain ⟨pb, h3, -⟩ := typeB_ok h1
  have : valueOr D key = Res.ok (obj []) := by
    unfold valueOr
    rw [if_pos hD, hk]
    rfl
  unfold otherPart
  rw [this, Res.ok_bind, adds_none h3.object h3.forms, Res.ok_bind, (Form.object B pb h3.object h2 h3.forms).removes_same]

/-- One class of a file other than the topology. -/
theorem other_class {α : Type} {key : String} {table : List (String × ComponentType α)} (hT : (table.map Prod.fst).Nodup)
    {part : String × ComponentType α → Option (Res Json)} {bs : List (List (String × Json))}
    (hbs : Res.each table (fun t => otherEntry key (t.1, t.2.defaults, part t)) = Res.ok bs)
    (hpart : ∀ t ∈ table, ∀ r, part t = some r → ∃ B, r = Res.ok B ∧ typeB 5 B = true ∧ B.find? "default" = none)
    (hD : ∀ t ∈ table, t.2.defaults.isObj = true ∧ t.2.defaults.find? key = none) {v : Json}
    (hv : ∀ m, v = obj m → (m.map Prod.fst).Nodup) :
    accepts (classSchema bs.flatten) v = true ↔ ∃ m, v = obj m ∧ ∀ x ∈ m, ∃ t B es, (x.1, t) ∈ table ∧
      part (x.1, t) = some (Res.ok B) ∧ x.2 = arr es ∧ ∀ e ∈ es, accepts B e = true := by
  obtain ⟨sub, look⟩ := other_table hbs
  have hn : (bs.flatten.map Prod.fst).Nodup := sub.nodup hT
  -- the schema of a type
  have of : ∀ k t B, (k, t) ∈ table → part (k, t) = some (Res.ok B) →
      ∃ s, listSchema B (obj []) = Res.ok s ∧ bs.flatten.lookup k = some s := by
    intro k t B ht hB
    obtain ⟨G, s, h1, h2, h3⟩ := look hT k t B ht hB
    obtain ⟨B', hB', h4, h5⟩ := hpart _ ht _ hB
    injection hB' with hB'
    subst hB'
    rw [otherPart_same (hD _ ht).1 (hD _ ht).2 h4 h5] at h1
    injection h1 with h1
    subst h1
    exact ⟨s, h2, h3⟩
  have known : ∀ k s, bs.flatten.lookup k = some s → ∃ t B, (k, t) ∈ table ∧ part (k, t) = some (Res.ok B) := by
    intro k s h
    obtain ⟨b, hb, hkb⟩ := List.mem_flatten.mp (mem_of_lookup' h)
    obtain ⟨t, ht, h1⟩ := forall₂_mem_right (Res.each_eq_ok.mp hbs) hb
    rcases otherEntry_ok h1 with ⟨rfl, -⟩ | ⟨B, G, s', h2, -, -, rfl⟩
    · cases hkb
    · simp only [List.mem_singleton, Prod.mk.injEq] at hkb
      obtain ⟨rfl, rfl⟩ := hkb
      exact ⟨t.2, B, ht, h2⟩
  rw [accepts_class hn]
  constructor
  · rintro ⟨h1, h2, h3⟩
    cases v with
    | obj m =>
      refine ⟨m, rfl, fun x hx => ?_⟩
      have hf : (obj m).find? x.1 = some x.2 := lookup_of_mem (hv m rfl) hx
      obtain ⟨s, hs⟩ := h3 x.1 (contains_iff.mpr ⟨_, hf⟩)
      obtain ⟨t, B, ht, hB⟩ := known _ _ hs
      obtain ⟨s', h4, h5⟩ := of _ _ _ ht hB
      rw [hs] at h5
      injection h5 with h5
      subst h5
      obtain ⟨es, h6, h7⟩ := (accepts_list h4).mp (h2 _ _ hs _ hf)
      exact ⟨t, B, es, ht, hB, h6, h7⟩
    | _ => cases h1
  · rintro ⟨m, rfl, h⟩
    refine ⟨rfl, fun k s hs v hkv => ?_, fun k hk => ?_⟩
    · obtain ⟨t, B, es, ht, hB, h1, h2⟩ := h (k, v) (mem_of_lookup hkv)
      obtain ⟨s', h4, h5⟩ := of _ _ _ ht hB
      rw [hs] at h5
      injection h5 with h5
      subst h5
      exact (accepts_list h4).mpr ⟨es, h1, h2⟩
    · obtain ⟨v, hv'⟩ := contains_iff.mp hk
      obtain ⟨t, B, es, ht, hB, -, -⟩ := h (k, v) (mem_of_lookup hv')
      obtain ⟨s, -, h5⟩ := of _ _ _ ht hB
      exact ⟨s, h5⟩

/-- What is known of the tables when schemas are generated. -/
theorem table_facts {α : Type} {defaults : Json} {l : List (String × Json × Option Json × (Json → Res α))}
    {table : List (String × ComponentType α)} (h : Res.each l (withDefaults defaults) = Res.ok table)
    (hf : ∀ x ∈ l, typeB 5 x.2.1 = true) (hno : ∀ x ∈ l, noKeys x.2.1 = true) {ns : List (String × Json)}
    (hns : Res.each table topologyEntry = Res.ok ns) {key : String} (hkey : key ∈ otherKeys) :
    ∀ t ∈ table, t.2.defaults.isObj = true ∧ t.2.defaults.find? key = none := by
  rintro ⟨k, t⟩ ht
  obtain ⟨s, b, c, d, h1, h2, rfl⟩ := table_mem h ht
  obtain ⟨ps, h3, hprop⟩ := typeB_ok (hf _ h1)
  obtain ⟨z, -, hz⟩ := forall₂_mem_left (Res.each_eq_ok.mp hns) ht
  obtain ⟨-, G, hG, -⟩ := topologyEntry_ok hz
  unfold topologyPart at hG
  obtain ⟨s1, h5, -⟩ := Res.bind_eq_ok.mp hG
  refine defaults_without h3.object h5 ?_
  have : (!((s.find? "properties").getD null).contains key) = true := List.all_eq_true.mp (hno _ h1) key hkey
  rw [hprop] at this
  cases hl : ps.lookup key with
  | none => rfl
  | some d => simp [contains, find?, hl] at this

/-- The other files. -/
theorem generate_values {draws : Json → Res (ℝ → Res (ℝ × ℝ))} {mem : ℕ → ℝ} {defaults : Json} {S : Schemas}
    (h : generate draws mem defaults = Res.ok S) : ∃ nodes edges i1 i2 c1 c2,
      Res.each (nodeList draws mem) (withDefaults defaults) = Res.ok nodes ∧
      Res.each edgeList (withDefaults defaults) = Res.ok edges ∧
      Res.each nodes (fun t => otherEntry "initial_values" (t.1, t.2.defaults, initialOf t.1)) = Res.ok i1 ∧
      Res.each edges (fun t => otherEntry "initial_values" (t.1, t.2.defaults, initialOf t.1)) = Res.ok i2 ∧
      Res.each nodes (fun t => otherEntry "control_values" (t.1, t.2.defaults, controlOf t.1)) = Res.ok c1 ∧
      Res.each edges (fun t => otherEntry "control_values" (t.1, t.2.defaults, controlOf t.1)) = Res.ok c2 ∧
      S.initial = fileSchema i1.flatten i2.flatten ∧ S.control = fileSchema c1.flatten c2.flatten := by
  unfold generate at h
  obtain ⟨t, -, h⟩ := Res.bind_eq_ok.mp h
  obtain ⟨i, h1, h⟩ := Res.bind_eq_ok.mp h
  obtain ⟨b, -, h⟩ := Res.bind_eq_ok.mp h
  obtain ⟨c, h2, h⟩ := Res.bind_eq_ok.mp h
  injection h with h
  subst h
  unfold initialFile otherFile at h1
  obtain ⟨nodes, h3, h1⟩ := Res.bind_eq_ok.mp h1
  obtain ⟨edges, h4, h1⟩ := Res.bind_eq_ok.mp h1
  obtain ⟨i1, h5, h1⟩ := Res.bind_eq_ok.mp h1
  obtain ⟨i2, h6, h1⟩ := Res.bind_eq_ok.mp h1
  injection h1 with h1
  unfold controlFile otherFile at h2
  obtain ⟨nodes', h3', hA⟩ := Res.bind_eq_ok.mp h2
  obtain ⟨edges', h4', hB⟩ := Res.bind_eq_ok.mp hA
  obtain ⟨c1, h7, hC⟩ := Res.bind_eq_ok.mp hB
  obtain ⟨c2, h8, hE⟩ := Res.bind_eq_ok.mp hC
  injection hE with hE
  rw [h3] at h3'
  injection h3' with h3'
  subst h3'
  rw [h4] at h4'
  injection h4' with h4'
  subst h4'
  exact ⟨nodes, edges, i1, i2, c1, c2, h3, h4, h5, h6, h7, h8, h1.symm, hE.symm⟩

/-- A file is accepted iff both classes are as described. -/
theorem file_classes {draws : Json → Res (ℝ → Res (ℝ × ℝ))} {mem : ℕ → ℝ} {defaults : Json} {S : Schemas}
    (hS : generate draws mem defaults = Res.ok S) {key : String} (hkey : key ∈ otherKeys)
    {nodes : List (String × ComponentType Network.Node)} {edges : List (String × ComponentType EdgeKind)}
    (h3 : Res.each (nodeList draws mem) (withDefaults defaults) = Res.ok nodes)
    (h4 : Res.each edgeList (withDefaults defaults) = Res.ok edges)
    {part₁ : String × ComponentType Network.Node → Option (Res Json)} {part₂ : String × ComponentType EdgeKind → Option (Res Json)}
    {b1 b2 : List (List (String × Json))}
    (h5 : Res.each nodes (fun t => otherEntry key (t.1, t.2.defaults, part₁ t)) = Res.ok b1)
    (h6 : Res.each edges (fun t => otherEntry key (t.1, t.2.defaults, part₂ t)) = Res.ok b2)
    (p1 : ∀ t ∈ nodes, ∀ r, part₁ t = some r → ∃ B, r = Res.ok B ∧ typeB 5 B = true ∧ B.find? "default" = none)
    (p2 : ∀ t ∈ edges, ∀ r, part₂ t = some r → ∃ B, r = Res.ok B ∧ typeB 5 B = true ∧ B.find? "default" = none)
    {file : Json} (ho : file.isObj = true) (hd : DistinctTypes file) (A₁ A₂ : List (String × (Json → Prop)))
    (a1 : ∀ x : String × Json, (∃ t B es, (x.1, t) ∈ nodes ∧ part₁ (x.1, t) = some (Res.ok B) ∧ x.2 = arr es ∧ ∀ e ∈ es, accepts B e = true) ↔
      ∃ P es, (x.1, P) ∈ A₁ ∧ x.2 = arr es ∧ ∀ e ∈ es, P e)
    (a2 : ∀ x : String × Json, (∃ t B es, (x.1, t) ∈ edges ∧ part₂ (x.1, t) = some (Res.ok B) ∧ x.2 = arr es ∧ ∀ e ∈ es, accepts B e = true) ↔
      ∃ P es, (x.1, P) ∈ A₂ ∧ x.2 = arr es ∧ ∀ e ∈ es, P e) :
    accepts (fileSchema b1.flatten b2.flatten) file = true ↔ Class file "nodes" A₁ ∧ Class file "connections" A₂ := by
  obtain ⟨nodes', edges', ns, es, bn, be, h3', h4', h7, h8, -⟩ := generate_ok hS
  rw [h3] at h3'
  injection h3' with h3'
  subst h3'
  rw [h4] at h4'
  injection h4' with h4'
  subst h4'
  have dN := table_facts h3 (fun x hx => (nodeForms draws mem x hx).1) (noKeys_nodes draws mem) h7 hkey
  have dE := table_facts h4 (fun x hx => (edgeForms x hx).1) noKeys_edges h8 hkey
  have tN : (nodes.map Prod.fst).Nodup := by rw [table_names h3]; exact nodeNames draws mem
  have tE : (edges.map Prod.fst).Nodup := by rw [table_names h4]; exact edgeNames
  have c1 : ∀ v, file.find? "nodes" = some v → (accepts (classSchema b1.flatten) v = true ↔ Class file "nodes" A₁) := by
    intro v hv
    rw [other_class tN h5 p1 dN (fun m hm => hd "nodes" (by simp [classes]) m (by rw [hv, hm]))]
    unfold Class
    rw [hv]
    constructor
    · rintro ⟨m, rfl, h⟩
      exact ⟨m, rfl, fun x hx => (a1 x).mp (h x hx)⟩
    · rintro ⟨m, hm, h⟩
      injection hm with hm
      exact ⟨m, hm, fun x hx => (a1 x).mpr (h x hx)⟩
  have c2 : ∀ v, file.find? "connections" = some v → (accepts (classSchema b2.flatten) v = true ↔ Class file "connections" A₂) := by
    intro v hv
    rw [other_class tE h6 p2 dE (fun m hm => hd "connections" (by simp [classes]) m (by rw [hv, hm]))]
    unfold Class
    rw [hv]
    constructor
    · rintro ⟨m, rfl, h⟩
      exact ⟨m, rfl, fun x hx => (a2 x).mp (h x hx)⟩
    · rintro ⟨m, hm, h⟩
      injection hm with hm
      exact ⟨m, hm, fun x hx => (a2 x).mpr (h x hx)⟩
  rw [accepts_file ho]
  constructor
  · rintro ⟨k1, k2, k3, k4⟩
    obtain ⟨v, hv⟩ := contains_iff.mp k1
    obtain ⟨w, hw⟩ := contains_iff.mp k2
    exact ⟨(c1 v hv).mp (k3 v hv), (c2 w hw).mp (k4 w hw)⟩
  · rintro ⟨k1, k2⟩
    have k1' := k1
    have k2' := k2
    obtain ⟨m, hm, -⟩ := k1'
    obtain ⟨n, hn, -⟩ := k2'
    exact ⟨contains_iff.mpr ⟨_, hm⟩, contains_iff.mpr ⟨_, hn⟩, fun v hv => (c1 v hv).mpr k1, fun v hv => (c2 v hv).mpr k2⟩

theorem mem_names {α : Type} {defaults : Json} {l : List (String × Json × Option Json × (Json → Res α))}
    {table : List (String × ComponentType α)} (h : Res.each l (withDefaults defaults) = Res.ok table) {k : String} :
    (∃ t, (k, t) ∈ table) ↔ k ∈ l.map Prod.fst := by
  rw [← table_names h]
  simp

theorem plan_of {α : Type} {table : List (String × ComponentType α)} {names : List String} (hnames : ∀ k, (∃ t, (k, t) ∈ table) ↔ k ∈ names)
    {part : String → Option (Res Json)} {A : List (String × (Json → Prop))}
    (h1 : ∀ k ∈ names, ∀ r, part k = some r → ∃ B P, r = Res.ok B ∧ (k, P) ∈ A ∧ ∀ e, accepts B e = true ↔ P e)
    (h2 : ∀ k P, (k, P) ∈ A → k ∈ names ∧ ∃ B, part k = some (Res.ok B) ∧ ∀ e, accepts B e = true ↔ P e) (x : String × Json) :
    (∃ t B es, (x.1, t) ∈ table ∧ part x.1 = some (Res.ok B) ∧ x.2 = arr es ∧ ∀ e ∈ es, accepts B e = true) ↔
      ∃ P es, (x.1, P) ∈ A ∧ x.2 = arr es ∧ ∀ e ∈ es, P e := by
  constructor
  · rintro ⟨t, B, es, ht, hB, h3, h4⟩
    obtain ⟨B', P, h5, h6, h7⟩ := h1 _ ((hnames _).mp ⟨t, ht⟩) _ hB
    injection h5 with h5
    subst h5
    exact ⟨P, es, h6, h3, fun e he => (h7 e).mp (h4 e he)⟩
  · rintro ⟨P, es, h3, h4, h5⟩
    obtain ⟨h6, B, h7, h8⟩ := h2 _ _ h3
    obtain ⟨t, ht⟩ := (hnames _).mpr h6
    exact ⟨t, B, es, ht, h7, h4, fun e he => (h8 e).mpr (h5 e he)⟩

/-- C142. The generated schema for initial values accepts exactly the files with two sections in which only components with
states have entries: two values at zero for the nodes of the grid and for the connections of gas and power, two values at zero
and at one for the short components, and a profile with two values at each point for pipes. -/
theorem C142_initial {draws : Json → Res (ℝ → Res (ℝ × ℝ))} {mem : ℕ → ℝ} {defaults : Json} {S : Schemas}
    (hS : generate draws mem defaults = Res.ok S) {file : Json} (ho : file.isObj = true) (hd : DistinctTypes file) :
    accepts S.initial file = true ↔
      Class file "nodes" [("ExternalPowerplant", OnePoint), ("PQnode", OnePoint), ("PVnode", OnePoint), ("StochasticPQnode", OnePoint),
        ("Vphinode", OnePoint)] ∧
      Class file "connections" [("Compressorstation", TwoPoints), ("Controlvalve", TwoPoints), ("Gaspowerconnection", OnePoint),
        ("Pipe", Profile), ("Shortpipe", TwoPoints)] := by
  obtain ⟨nodes, edges, i1, i2, c1, c2, h3, h4, h5, h6, -, -, e1, -⟩ := generate_values hS
  obtain ⟨s1, hs1⟩ := singleSchema_ok
  obtain ⟨s2, hs2⟩ := shortSchema_ok
  obtain ⟨s3, hs3⟩ := pipeSchema_ok
  rw [e1]
  refine file_classes hS (by simp [otherKeys]) h3 h4 (part₁ := fun t => initialOf t.1) (part₂ := fun t => initialOf t.1) h5 h6
    (fun t _ => initial_form t.1) (fun t _ => initial_form t.1) ho hd _ _
    (plan_of (names := (nodeList draws mem).map Prod.fst) (part := initialOf) (fun k => mem_names h3) ?_ ?_)
    (plan_of (names := edgeList.map Prod.fst) (part := initialOf) (fun k => mem_names h4) ?_ ?_)
  · intro k hk r hr
    simp only [nodeList, List.map_cons, List.map_nil, List.mem_cons, List.not_mem_nil, or_false] at hk
    rcases hk with rfl | rfl | rfl | rfl | rfl | rfl | rfl | rfl | rfl | rfl
    all_goals first
      | exact absurd (show none = some r from hr) (by simp)
      | exact ⟨s1, OnePoint, (Option.some.inj hr).symm.trans hs1, by simp, C77_single hs1⟩
  · intro k P hk
    simp only [List.mem_cons, List.not_mem_nil, or_false, Prod.mk.injEq] at hk
    rcases hk with ⟨rfl, rfl⟩ | ⟨rfl, rfl⟩ | ⟨rfl, rfl⟩ | ⟨rfl, rfl⟩ | ⟨rfl, rfl⟩
    all_goals exact ⟨by simp [nodeList], s1, hs1 ▸ rfl, C77_single hs1⟩
  · intro k hk r hr
    simp only [edgeList, List.map_cons, List.map_nil, List.mem_cons, List.not_mem_nil, or_false] at hk
    rcases hk with rfl | rfl | rfl | rfl | rfl | rfl
    · exact ⟨s2, TwoPoints, (Option.some.inj hr).symm.trans hs2, by simp, C77_short hs2⟩
    · exact ⟨s2, TwoPoints, (Option.some.inj hr).symm.trans hs2, by simp, C77_short hs2⟩
    · exact ⟨s1, OnePoint, (Option.some.inj hr).symm.trans hs1, by simp, C77_single hs1⟩
    · exact ⟨s3, Profile, (Option.some.inj hr).symm.trans hs3, by simp, C77_pipe hs3⟩
    · exact ⟨s2, TwoPoints, (Option.some.inj hr).symm.trans hs2, by simp, C77_short hs2⟩
    · exact absurd (show none = some r from hr) (by simp)
  · intro k P hk
    simp only [List.mem_cons, List.not_mem_nil, or_false, Prod.mk.injEq] at hk
    rcases hk with ⟨rfl, rfl⟩ | ⟨rfl, rfl⟩ | ⟨rfl, rfl⟩ | ⟨rfl, rfl⟩ | ⟨rfl, rfl⟩
    · exact ⟨by simp [edgeList], s2, hs2 ▸ rfl, C77_short hs2⟩
    · exact ⟨by simp [edgeList], s2, hs2 ▸ rfl, C77_short hs2⟩
    · exact ⟨by simp [edgeList], s1, hs1 ▸ rfl, C77_single hs1⟩
    · exact ⟨by simp [edgeList], s3, hs3 ▸ rfl, C77_pipe hs3⟩
    · exact ⟨by simp [edgeList], s2, hs2 ▸ rfl, C77_short hs2⟩

/-- C142. The generated schema for controls accepts exactly the files with two sections in which only compressors and control
valves have entries, with one value at each time. -/
theorem C142_control {draws : Json → Res (ℝ → Res (ℝ × ℝ))} {mem : ℕ → ℝ} {defaults : Json} {S : Schemas}
    (hS : generate draws mem defaults = Res.ok S) {file : Json} (ho : file.isObj = true) (hd : DistinctTypes file) :
    accepts S.control file = true ↔ Class file "nodes" [] ∧
      Class file "connections" [("Compressorstation", Timed 1), ("Controlvalve", Timed 1)] := by
  obtain ⟨nodes, edges, i1, i2, c1, c2, h3, h4, -, -, h5, h6, -, e1⟩ := generate_values hS
  rw [e1]
  have hb := boundaryOf_ok 1
  refine file_classes hS (by simp [otherKeys]) h3 h4 (part₁ := fun t => controlOf t.1) (part₂ := fun t => controlOf t.1) h5 h6
    (fun t _ => control_form t.1) (fun t _ => control_form t.1) ho hd _ _
    (plan_of (names := (nodeList draws mem).map Prod.fst) (part := controlOf) (fun k => mem_names h3) ?_ ?_)
    (plan_of (names := edgeList.map Prod.fst) (part := controlOf) (fun k => mem_names h4) ?_ ?_)
  · intro k hk r hr
    simp only [nodeList, List.map_cons, List.map_nil, List.mem_cons, List.not_mem_nil, or_false] at hk
    rcases hk with rfl | rfl | rfl | rfl | rfl | rfl | rfl | rfl | rfl | rfl
    all_goals exact absurd (show none = some r from hr) (by simp)
  · intro k P hk
    cases hk
  · intro k hk r hr
    simp only [edgeList, List.map_cons, List.map_nil, List.mem_cons, List.not_mem_nil, or_false] at hk
    rcases hk with rfl | rfl | rfl | rfl | rfl | rfl
    all_goals first
      | exact absurd (show none = some r from hr) (by simp)
      | exact ⟨_, Timed 1, (Option.some.inj hr).symm.trans hb, by simp, C78_accepts hb⟩
  · intro k P hk
    simp only [List.mem_cons, List.not_mem_nil, or_false, Prod.mk.injEq] at hk
    rcases hk with ⟨rfl, rfl⟩ | ⟨rfl, rfl⟩
    all_goals exact ⟨by simp [edgeList], _, hb ▸ rfl, C78_accepts hb⟩

set_option maxRecDepth 20000 in
theorem stochasticBoundary_eq : stochasticBoundary = obj [
    ("properties", obj [("data", timedList 2), ("id", obj [("type", str "string")]),
      ("seed", obj [("items", numberType), ("type", str "array")])]),
    ("required", arr [str "id", str "data"]), ("type", str "object")] := by
  unfold stochasticBoundary boundaryOf
  rw [boundary_eq]
  rfl

theorem accepts_seed (v : Json) :
    accepts (obj [("items", numberType), ("type", str "array")]) v = true ↔ ∃ l : List ℚ, v = arr (l.map num) := by
  rw [accepts_obj]
  cases v with
  | arr es =>
    simp only [keyword, simpleKeyword, hasType, List.all_cons, List.all_nil, Bool.and_true, String.reduceEq, if_false, if_true,
      beq_self_eq_true, List.all_eq_true]
    constructor
    · intro h
      induction es with
      | nil => exact ⟨[], rfl⟩
      | cons e es ih =>
        obtain ⟨q, rfl⟩ := accepts_number.mp (h e (by simp))
        obtain ⟨l, hl⟩ := ih fun x hx => h x (by simp [hx])
        injection hl with hl
        exact ⟨q :: l, by rw [hl]; rfl⟩
    · rintro ⟨l, hl⟩ x hx
      injection hl with hl
      subst hl
      obtain ⟨q, -, rfl⟩ := List.mem_map.mp hx
      exact accepts_number.mpr ⟨q, rfl⟩
  | _ => simp [keyword, simpleKeyword, hasType]

theorem accepts_stochastic (e : Json) : accepts stochasticBoundary e = true ↔ TimedWithSeed e := by
  have main : ∀ D I Q : Json, accepts (obj [("properties", obj [("data", D), ("id", I), ("seed", Q)]),
      ("required", arr [str "id", str "data"]), ("type", str "object")]) e = true ↔
      accepts (obj [("properties", obj [("data", D), ("id", I)]), ("required", arr [str "id", str "data"]), ("type", str "object")]) e = true ∧
        ∀ v, e.find? "seed" = some v → accepts Q v = true := by
    intro D I Q
    rw [accepts_obj, accepts_obj]
    cases e with
    | obj m =>
      simp only [keyword, simpleKeyword, hasType, List.all_cons, List.all_nil, Bool.and_true, find?, Json.contains]
      cases h1 : m.lookup "seed" with
      | none => simp
      | some a => simp; tauto
    | _ => simp [keyword, simpleKeyword, hasType, find?]
  have h2 := boundary_eq 2
  rw [stochasticBoundary_eq, main, C78_accepts h2]
  unfold TimedWithSeed Timed
  simp only [accepts_seed]

/-- C142. The generated schema for boundary values accepts exactly the files with two sections in which only nodes that take boundary
values have entries, with one value at each time for nodes of the gas network and two for those of the grid. -/
theorem C142_boundary {draws : Json → Res (ℝ → Res (ℝ × ℝ))} {mem : ℕ → ℝ} {defaults : Json} {S : Schemas}
    (hS : generate draws mem defaults = Res.ok S) {file : Json} (ho : file.isObj = true) (hd : DistinctTypes file) :
    accepts S.boundary file = true ↔
      Class file "nodes" [("ConstraintSink", Timed 1), ("ExternalPowerplant", Timed 2), ("PQnode", Timed 2), ("PVnode", Timed 2),
        ("Pressureboundarynode", Timed 1), ("Sink", Timed 1), ("Source", Timed 1), ("StochasticPQnode", TimedWithSeed),
        ("Vphinode", Timed 2)] ∧ Class file "connections" [] := by
  obtain ⟨nodes, edges, ns, es, bn, be, h3, h4, -, -, h5, h6, -, e1⟩ := generate_ok hS
  have t1 := C78_accepts (boundaryOf_ok 1)
  have t2 := C78_accepts (boundaryOf_ok 2)
  rw [e1]
  refine file_classes hS (by simp [otherKeys]) h3 h4 (part₁ := fun t => t.2.boundary.map Res.ok) (part₂ := fun t => t.2.boundary.map Res.ok) h5 h6
    ?_ ?_ ho hd _ _ ?_ ?_
  · rintro ⟨k, t⟩ ht r hr
    obtain ⟨s, b, c, d, h7, -, rfl⟩ := table_mem h3 ht
    cases b with
    | none => cases hr
    | some B => exact ⟨B, (Option.some.inj hr).symm, (nodeForms draws mem _ h7).2 B rfl⟩
  · rintro ⟨k, t⟩ ht r hr
    obtain ⟨s, b, c, d, h7, -, rfl⟩ := table_mem h4 ht
    have := (edgeForms _ h7).2
    simp only at this
    subst this
    cases hr
  · intro x
    constructor
    · rintro ⟨t, B, es, ht, hB, h8, h9⟩
      obtain ⟨s, b, c, d, h7, -, rfl⟩ := table_mem h3 ht
      simp only [nodeList, List.mem_cons, List.not_mem_nil, or_false, Prod.mk.injEq] at h7
      rcases h7 with ⟨hn, -, rfl, -⟩ | ⟨hn, -, rfl, -⟩ | ⟨hn, -, rfl, -⟩ | ⟨hn, -, rfl, -⟩ | ⟨hn, -, rfl, -⟩ | ⟨hn, -, rfl, -⟩ |
        ⟨hn, -, rfl, -⟩ | ⟨hn, -, rfl, -⟩ | ⟨hn, -, rfl, -⟩ | ⟨hn, -, rfl, -⟩
      all_goals first
        | exact absurd (show none = some (Res.ok B) from hB) (by simp)
        | skip
      all_goals
        rw [← Res.ok.inj (Option.some.inj hB)] at h9
        rw [hn]
      all_goals first
        | exact ⟨Timed 1, es, by simp, h8, fun e he => (t1 e).mp (h9 e he)⟩
        | exact ⟨Timed 2, es, by simp, h8, fun e he => (t2 e).mp (h9 e he)⟩
        | exact ⟨TimedWithSeed, es, by simp, h8, fun e he => (accepts_stochastic e).mp (h9 e he)⟩
    · rintro ⟨P, es, hP, h8, h9⟩
      have key : ∀ {s : Json} {B : Json} {c : Json → Res Network.Node}, (x.1, s, some B, c) ∈ nodeList draws mem → (∀ e, accepts B e = true ↔ P e) →
          ∃ t B es, (x.1, t) ∈ nodes ∧ t.boundary.map Res.ok = some (Res.ok B) ∧ x.2 = arr es ∧ ∀ e ∈ es, accepts B e = true := by
        intro s B c hmem hB
        obtain ⟨d, -, ht⟩ := mem_table h3 hmem
        exact ⟨_, B, es, ht, rfl, h8, fun e he => (hB e).mpr (h9 e he)⟩
      simp only [List.mem_cons, List.not_mem_nil, or_false, Prod.mk.injEq] at hP
      rcases hP with ⟨hn, rfl⟩ | ⟨hn, rfl⟩ | ⟨hn, rfl⟩ | ⟨hn, rfl⟩ | ⟨hn, rfl⟩ | ⟨hn, rfl⟩ | ⟨hn, rfl⟩ | ⟨hn, rfl⟩ | ⟨hn, rfl⟩
      · exact key (c := sink mem) (s := idSchema) (by simp [nodeList, hn]) t1
      · exact key (c := powerNode .plant mem) (s := powerTopology) (by simp [nodeList, hn]) t2
      · exact key (c := powerNode (.power .pq) mem) (s := powerTopology) (by simp [nodeList, hn]) t2
      · exact key (c := powerNode (.power .pv) mem) (s := powerTopology) (by simp [nodeList, hn]) t2
      · exact key (c := pressureNode mem) (s := idSchema) (by simp [nodeList, hn]) t1
      · exact key (c := sink mem) (s := idSchema) (by simp [nodeList, hn]) t1
      · exact key (c := source mem) (s := idSchema) (by simp [nodeList, hn]) t1
      · exact key (c := stochasticNode draws mem) (s := stochasticTopology) (by simp [nodeList, hn]) accepts_stochastic
      · exact key (c := powerNode (.power .vphi) mem) (s := powerTopology) (by simp [nodeList, hn]) t2
  · intro x
    constructor
    · rintro ⟨t, B, es, ht, hB, -⟩
      obtain ⟨s, b, c, d, h7, -, rfl⟩ := table_mem h4 ht
      have := (edgeForms _ h7).2
      simp only at this
      subst this
      cases hB
    · rintro ⟨P, es, hP, -⟩
      cases hP

/-! ## The program -/

theorem readInitial_iff {mem : ℕ → ℝ} {points : Option ℤ} {k : ℕ} {xs : List Json} {s : Json} (h : initialSchema points k xs = Res.ok s)
    (hx : xs ≠ []) (e : Json) : (∃ v, readInitial mem (initialSchema points k xs) e = Res.ok v) ↔ accepts s e = true := by
  unfold readInitial
  rw [h, Res.ok_bind]
  by_cases hv : accepts s e = true
  · refine ⟨fun _ => hv, fun _ => ?_⟩
    obtain ⟨l, hl, hk, -, hin⟩ := (C77_accepts h e).mp hv
    have hne : l ≠ [] := by
      obtain ⟨c, hc⟩ := List.exists_mem_of_ne_nil _ hx
      obtain ⟨x, hx, -⟩ := hin c hc
      exact List.ne_nil_of_mem hx
    obtain ⟨v, h4, -⟩ := C66_from_json mem (Gas.real l) (by simp [Gas.real, hne]) k (by
      intro y hy
      obtain ⟨x, hx, rfl⟩ := List.mem_map.mp hy
      simpa using hk x hx)
    refine ⟨v, ?_⟩
    obtain ⟨-, es, -, hd, he⟩ := hl
    unfold Gas.readVector
    rw [if_pos hv, index_of_find hd, Res.ok_bind]
    cases he with
    | nil => exact absurd rfl hne
    | @cons j y es l h3 h4' =>
      have e1 := each_point (.cons h3 h4')
      simp only [contains, h3.1, Option.isSome_some, if_true, e1, Res.ok_bind]
      exact h4
  · refine ⟨?_, fun h => absurd h hv⟩
    rintro ⟨v, h⟩
    unfold Gas.readVector at h
    rw [if_neg hv] at h
    cases h

theorem control_read {k : ℕ} {mem : ℕ → ℝ} {e : Json} :
    ((∃ w, Gas.readVector (accepts (boundaryOf k)) mem e = Res.ok w) → Timed k e) ∧
    ∀ l, l ≠ [] → Lists e l → Timed k e → ∃ w, Gas.readVector (accepts (boundaryOf k)) mem e = Res.ok w := by
  constructor
  · rintro ⟨w, h⟩
    unfold Gas.readVector at h
    split at h
    · next hv => exact (C78_accepts (boundaryOf_ok k) e).mp hv
    · cases h
  · rintro l hne ⟨es, hd, he⟩ ht
    have hv := (C78_accepts (boundaryOf_ok k) e).mpr ht
    obtain ⟨id, es', -, h1, h2⟩ := ht
    rw [hd] at h1
    injection h1 with h1
    injection h1 with h1
    subst h1
    obtain ⟨v, h4, -⟩ := C66_from_json mem (Gas.real l) (by simp [Gas.real, hne]) k (by
      intro y hy
      obtain ⟨x, hx, rfl⟩ := List.mem_map.mp hy
      obtain ⟨j, hj, h3⟩ := forall₂_mem_right he hx
      obtain ⟨w, h4, h5⟩ := (h2 j hj).2 _ h3.2.2
      injection h5 with h5
      have := congrArg List.length h5
      simp only [List.length_map] at this
      simpa using this.trans h4)
    refine ⟨v, ?_⟩
    unfold Gas.readVector
    rw [if_pos hv, index_of_find hd, Res.ok_bind]
    cases he with
    | nil => exact absurd rfl hne
    | @cons j e es l h3 h4' =>
      have e1 := Gas.each_readEntry (.cons h3 h4')
      simp only [contains, h3.1, Option.isSome_none, Bool.false_eq_true, if_false, e1, Res.ok_bind]
      exact h4

theorem one_classes {c₁ c₂ type : String} (hc : (c₁ = "nodes" ∧ c₂ = "connections") ∨ (c₁ = "connections" ∧ c₂ = "nodes")) (e : Json)
    (A₁ A₂ : List (String × (Json → Prop))) :
    (oneEntry c₁ c₂ type e).isObj = true ∧ DistinctTypes (oneEntry c₁ c₂ type e) ∧
    (Class (oneEntry c₁ c₂ type e) c₁ A₁ ↔ ∃ P, (type, P) ∈ A₁ ∧ P e) ∧ Class (oneEntry c₁ c₂ type e) c₂ A₂ := by
  have h12 : (c₂ == c₁) = false := by rcases hc with ⟨rfl, rfl⟩ | ⟨rfl, rfl⟩ <;> decide
  have f1 : (oneEntry c₁ c₂ type e).find? c₁ = some (obj [(type, arr [e])]) := by simp [oneEntry, find?, List.lookup]
  have f2 : (oneEntry c₁ c₂ type e).find? c₂ = some (obj []) := by simp [oneEntry, find?, List.lookup, h12]
  refine ⟨rfl, fun c hcl m hm => ?_, ?_, [], f2, by simp⟩
  · have : c = c₁ ∨ c = c₂ := by
      simp only [classes, List.mem_cons, List.not_mem_nil, or_false] at hcl
      rcases hc with ⟨rfl, rfl⟩ | ⟨rfl, rfl⟩ <;> rcases hcl with rfl | rfl <;> simp
    rcases this with rfl | rfl
    · rw [f1] at hm
      injection hm with hm
      injection hm with hm
      subst hm
      simp
    · rw [f2] at hm
      injection hm with hm
      injection hm with hm
      subst hm
      simp
  · unfold Class
    rw [f1]
    constructor
    · rintro ⟨m, hm, h⟩
      injection hm with hm
      injection hm with hm
      subst hm
      obtain ⟨P, es, h1, h2, h3⟩ := h _ (List.mem_singleton.mpr rfl)
      injection h2 with h2
      subst h2
      exact ⟨P, h1, h3 e (by simp)⟩
    · rintro ⟨P, h1, h2⟩
      refine ⟨_, rfl, ?_⟩
      simp only [List.mem_singleton, forall_eq]
      exact ⟨P, [e], h1, rfl, by simpa using h2⟩

/-- C142. The program reads what editors accept. Each component of a network that is read comes from an entry of the topology; under the
type of this entry, the generated schema for initial values accepts exactly what the component reads as initial values, and nothing if the
component has no state. The same for the generated schema for controls and entries that list times and values; and nothing else is
read as controls. -/
theorem C142_program {draws : Json → Res (ℝ → Res (ℝ × ℝ))} {mem : ℕ → ℝ} {defaults topology boundary : Json} {S : Schemas}
    (hS : generate draws mem defaults = Res.ok S) (hs : Shaped topology) (hd : DistinctTypes topology)
    {g : Graph Network.Node EdgeKind} (h : readNet draws mem defaults topology boundary = Res.ok g) (hc : Consistent g) :
    (∀ v : Fin g.nodes.length, ∃ type x, (type, x) ∈ entries (types topology "nodes") ∧ id? x = some g.nodes[v].id ∧ ∀ e,
      (accepts S.initial (oneEntry "nodes" "connections" type e) = true ↔
        ∃ c w, stateNode hc mem v = some c ∧ c.read e = Res.ok w) ∧
      accepts S.control (oneEntry "nodes" "connections" type e) = false) ∧
    ∀ k : Fin g.edges.length, ∃ type x, (type, x) ∈ entries (types topology "connections") ∧ id? x = some g.edges[k].id ∧ ∀ e,
      (accepts S.initial (oneEntry "connections" "nodes" type e) = true ↔
        ∃ c w, stateEdge hc mem k = some c ∧ c.read e = Res.ok w) ∧
      ((∃ c w, controlEdge hc mem k = some c ∧ c.read e = Res.ok w) →
        accepts S.control (oneEntry "connections" "nodes" type e) = true) ∧
      ∀ l, l ≠ [] → Lists e l → accepts S.control (oneEntry "connections" "nodes" type e) = true →
        ∃ c w, controlEdge hc mem k = some c ∧ c.read e = Res.ok w := by
  obtain ⟨nodes, edges, h1, h2, h3⟩ := readNet_ok h
  obtain ⟨-, -, ⟨ns, p1, f1⟩, es, p2, f2⟩ := buildNet_made (proper_of h1 h2 hs hd) h3
  obtain ⟨node, rfl, hn⟩ := function_of f1
  obtain ⟨edge, rfl, he⟩ := function_of f2
  obtain ⟨s1, hs1⟩ := singleSchema_ok
  obtain ⟨s2, hs2⟩ := shortSchema_ok
  obtain ⟨s3, hs3⟩ := pipeSchema_ok
  have r1 : ∀ e, (∃ v, readInitial mem singleSchema e = Res.ok v) ↔ OnePoint e := fun e =>
    (readInitial_iff hs1 (by simp) e).trans (C77_single hs1 e)
  have r2 : ∀ e, (∃ v, readInitial mem shortSchema e = Res.ok v) ↔ TwoPoints e := fun e =>
    (readInitial_iff hs2 (by simp) e).trans (C77_short hs2 e)
  have r3 : ∀ e, (∃ v, readInitial mem pipeSchema e = Res.ok v) ↔ Profile e := fun e =>
    (readInitial_iff hs3 (by simp) e).trans (C77_pipe hs3 e)
  refine ⟨fun v => ⟨(node v).1, (node v).2, p1.mem_iff.mp (List.mem_ofFn.mpr ⟨v, rfl⟩), (hn v).1, fun e => ?_⟩,
    fun k => ⟨(edge k).1, (edge k).2, p2.mem_iff.mp (List.mem_ofFn.mpr ⟨k, rfl⟩), (he k).1.1, fun e => ?_⟩⟩
  · have hm : NodeMatches (defaultsFor defaults (node v).1) (node v) ((toNet hc).node v) := node_matches h1 (hn v).2
    have hkind := hm.kind
    obtain ⟨o1, o2, o3, o4⟩ := one_classes (type := (node v).1) (Or.inl ⟨rfl, rfl⟩) e
      [("ExternalPowerplant", OnePoint), ("PQnode", OnePoint), ("PVnode", OnePoint), ("StochasticPQnode", OnePoint), ("Vphinode", OnePoint)]
      [("Compressorstation", TwoPoints), ("Controlvalve", TwoPoints), ("Gaspowerconnection", OnePoint), ("Pipe", Profile), ("Shortpipe", TwoPoints)]
    constructor
    · rw [C142_initial hS o1 o2, o3, and_iff_left o4]
      have yes : ((toNet hc).node v).kind.isPower = true →
          ((∃ c w, stateNode hc mem v = some c ∧ c.read e = Res.ok w) ↔ OnePoint e) := by
        intro hp
        rw [← r1 e]
        have hst : stateNode hc mem v = some ⟨g.nodes[v].id, ((toNet hc).nodeRange v).1.toNat, 2, 1, 1, Res.ok, readInitial mem singleSchema⟩ :=
          if_pos hp
        rw [hst]
        constructor
        · rintro ⟨c, w, h5, h6⟩
          injection h5 with h5
          subst h5
          exact ⟨w, h6⟩
        · rintro ⟨w, h6⟩
          exact ⟨_, w, rfl, h6⟩
      have no : ((toNet hc).node v).kind.isPower = false → ¬ ∃ c w, stateNode hc mem v = some c ∧ c.read e = Res.ok w := by
        rintro hp ⟨c, w, h5, -⟩
        unfold stateNode at h5
        rw [hp] at h5
        cases h5
      generalize ((toNet hc).node v).kind = kind at hkind yes no
      generalize (node v).1 = type at hkind
      unfold kindOf at hkind
      split at hkind <;> first
        | (injection hkind with hkind; subst hkind; rw [yes rfl]; simp)
        | (injection hkind with hkind; subst hkind; exact ⟨fun h => by simp at h, fun h => absurd h (no rfl)⟩)
        | cases hkind
    · rw [Bool.eq_false_iff]
      intro h5
      obtain ⟨h6, -⟩ := (C142_control hS o1 o2).mp h5
      obtain ⟨-, -, q3, -⟩ := one_classes (type := (node v).1) (Or.inl ⟨rfl, rfl⟩) e [] []
      obtain ⟨P, hP, -⟩ := q3.mp h6
      cases hP
  · have hm : EdgeMatches (defaultsFor defaults (edge k).1) (edge k).2 (edge k).1 ((toNet hc).edge k) := edge_matches h2 (he k).2
    obtain ⟨o1, o2, o3, o4⟩ := one_classes (type := (edge k).1) (Or.inr ⟨rfl, rfl⟩) e
      [("Compressorstation", TwoPoints), ("Controlvalve", TwoPoints), ("Gaspowerconnection", OnePoint), ("Pipe", Profile), ("Shortpipe", TwoPoints)]
      [("ExternalPowerplant", OnePoint), ("PQnode", OnePoint), ("PVnode", OnePoint), ("StochasticPQnode", OnePoint), ("Vphinode", OnePoint)]
    obtain ⟨-, -, o5, o6⟩ := one_classes (type := (edge k).1) (Or.inr ⟨rfl, rfl⟩) e
      [("Compressorstation", Timed 1), ("Controlvalve", Timed 1)] []
    rw [C142_initial hS o1 o2, o3, and_iff_right o4, C142_control hS o1 o2, o5, and_iff_right o6]
    have state : ∀ {P : Json → Prop} {r : Json → Res (IV ℝ)} {id start n p dx conv}, stateEdge hc mem k = some ⟨id, start, n, p, dx, conv, r⟩ →
        ((∃ w, r e = Res.ok w) ↔ P e) → ((∃ c w, stateEdge hc mem k = some c ∧ c.read e = Res.ok w) ↔ P e) := by
      intro P r id start n p dx conv hst hP
      rw [← hP, hst]
      constructor
      · rintro ⟨c, w, h5, h6⟩
        injection h5 with h5
        subst h5
        exact ⟨w, h6⟩
      · rintro ⟨w, h6⟩
        exact ⟨_, w, rfl, h6⟩
    have yes : ((toNet hc).edge k).isControl = true → (∃ P, (P = Timed 1) ∧ P e) →
        ∀ l, l ≠ [] → Lists e l → ∃ c w, controlEdge hc mem k = some c ∧ c.read e = Res.ok w := by
      rintro hp ⟨P, rfl, hP⟩ l hl hle
      obtain ⟨w, hw⟩ := control_read.2 l hl hle hP
      exact ⟨_, w, if_pos hp, hw⟩
    have yes' : (∃ c w, controlEdge hc mem k = some c ∧ c.read e = Res.ok w) → ((toNet hc).edge k).isControl = true ∧ Timed 1 e := by
      rintro ⟨c, w, h5, h6⟩
      unfold controlEdge at h5
      split at h5
      · next hp =>
        injection h5 with h5
        subst h5
        exact ⟨hp, control_read.1 ⟨w, h6⟩⟩
      · cases h5
    have hst : stateEdge hc mem k = stateEdge hc mem k := rfl
    conv_rhs at hst => unfold stateEdge
    generalize (toNet hc).edge k = kind at hm hst yes yes'
    generalize (edge k).1 = type at hm ⊢
    cases hm
    case compressor n =>
      rw [state hst (r2 e)]
      exact ⟨by simp, fun h => ⟨Timed 1, by simp, (yes' h).2⟩, fun l hl hle h => yes rfl (by simpa using h) l hl hle⟩
    case controlvalve n =>
      rw [state hst (r2 e)]
      exact ⟨by simp, fun h => ⟨Timed 1, by simp, (yes' h).2⟩, fun l hl hle h => yes rfl (by simpa using h) l hl hle⟩
    case shortpipe n =>
      rw [state hst (r2 e)]
      exact ⟨by simp, fun h => absurd (yes' h).1 (by simp [EdgeKind.isControl]), fun l hl hle h => absurd h (by simp)⟩
    case gaspower =>
      rw [state hst (r1 e)]
      exact ⟨by simp, fun h => absurd (yes' h).1 (by simp [EdgeKind.isControl]), fun l hl hle h => absurd h (by simp)⟩
    case pipe =>
      rw [state hst (r3 e)]
      exact ⟨by simp, fun h => absurd (yes' h).1 (by simp [EdgeKind.isControl]), fun l hl hle h => absurd h (by simp)⟩
    case line =>
      refine ⟨?_, fun h => absurd (yes' h).1 (by simp [EdgeKind.isControl]), fun l hl hle h => absurd h (by simp)⟩
      rw [hst]
      simp

end Verif.Editor
