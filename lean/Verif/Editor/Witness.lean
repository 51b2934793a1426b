import Verif.Editor.Example

/-!
# Which files are accepted by the generated schemas, and when schemas are generated

Continues `Verif.Editor.Example`: C111 and C112, and examples for C110.
-/

set_option autoImplicit false

namespace Verif.Editor

open Verif.Json Verif.Factory Verif.Schema Verif.Read

/-! ## Specification -/

/-- The schema lists the keys of its objects. -/
def Listed (schema : Json) : Prop := schema.find? "type" = some (str "object") ∧ schema.contains "properties" = true

/-- The defaults only have keys that the schema lists, at every depth. -/
inductive Fits : Json → Json → Prop
  | mk (schema defaults : Json) (isObj : defaults.isObj = true)
    (keys : ∀ key d, defaults.find? key = some d → ∃ s, propertyOf schema key = some s)
    (inner : ∀ key d s, defaults.find? key = some d → propertyOf schema key = some s → Listed s → Fits s d) : Fits schema defaults

/-- The defaults of each type fit the schema of the type in the topology. -/
def DefaultsFit (draws : Json → Res (ℝ → Res (ℝ × ℝ))) (mem : ℕ → ℝ) (defaults : Json) : Prop :=
  defaults.isObj = true ∧ ∀ x ∈ typesWithSchemas (nodeList draws mem) ++ typesWithSchemas edgeList,
    Fits x.2 (defaultsFor defaults x.1)

/-! ## Proofs -/

theorem listed_iff {s : Json} : Listed s ↔ ∃ p, nested? s = some p := by
  unfold Listed nested?
  rw [contains_iff]
  constructor
  · rintro ⟨h1, p, h2⟩
    exact ⟨p, by rw [h1, h2]; simp [isStr]⟩
  · rintro ⟨p, h⟩
    split at h
    · next h1 h2 =>
      split at h
      · next ht =>
        refine ⟨?_, _, h2⟩
        rw [h1]
        unfold isStr at ht
        split at ht
        · rw [beq_iff_eq] at ht; rw [ht]
        · cases ht
      · cases h
    · cases h

/-- One level. -/
theorem level_iff {ps : List (String × Json)} (hk : (ps.map Prod.fst).Nodup)
    (ih : ∀ k p, ps.lookup k = some p → ∀ D d, D.find? k = some d → ((∃ y, addStep D (k, p) = Res.ok y) ↔ (Listed p → Fits p d)))
    (ht : ∀ k p, ps.lookup k = some p → p.contains "type" = true) {s : Json} (hs : s.find? "properties" = some (obj ps)) {D : Json}
    (hD : D.isObj = true) : (∃ r, addUnsafe (obj ps) D = Res.ok r) ↔ Fits s D := by
  have hprop : ∀ k, propertyOf s k = ps.lookup k := fun k => by unfold propertyOf; rw [hs]; rfl
  have hitems : ∀ {k d}, D.find? k = some d → (k, d) ∈ D.items := by
    intro k d h
    cases D with
    | obj m => exact mem_of_lookup h
    | _ => cases hD
  have hfind : ∀ {x}, x ∈ D.items → ∃ d, D.find? x.1 = some d := by
    intro x hx
    cases D with
    | obj m =>
      cases h : (obj m).find? x.1 with
      | some d => exact ⟨d, rfl⟩
      | none =>
        exfalso
        simp only [find?] at h
        rw [List.lookup_eq_none_iff] at h
        have := h x hx
        simp at this
    | _ => cases hD
  rw [addUnsafe_obj]
  constructor
  · rintro ⟨r, h⟩
    split at h
    · cases h
    · next hany =>
      obtain ⟨m', h1, -⟩ := Res.bind_eq_ok.mp h
      have h1 := Res.each_eq_ok.mp h1
      have hkeys : ∀ key d, D.find? key = some d → ∃ p, ps.lookup key = some p := by
        intro key d hd
        by_contra hne
        refine hany (List.any_eq_true.mpr ⟨_, hitems hd, ?_⟩)
        simp only [contains, find?, Bool.not_eq_true']
        cases hl : ps.lookup key with
        | none => rfl
        | some p => exact absurd ⟨p, hl⟩ hne
      refine Fits.mk _ _ hD (fun key d hd => ?_) (fun key d p hd hp hl => ?_)
      · rw [hprop]
        exact hkeys key d hd
      · rw [hprop] at hp
        obtain ⟨y, -, hy⟩ := forall₂_mem_left h1 (mem_of_lookup hp)
        exact (ih key p hp D d hd).mp ⟨y, hy⟩ hl
  · intro hf
    have keys : ∀ key d, D.find? key = some d → ∃ p, propertyOf s key = some p := by cases hf; assumption
    have inner : ∀ key d p, D.find? key = some d → propertyOf s key = some p → Listed p → Fits p d := by cases hf; assumption
    rw [if_neg]
    · obtain ⟨m', h1⟩ := each_exists (l := ps) (f := addStep D) fun x hx => by
        have hl := lookup_of_mem hk hx
        cases hd : D.find? x.1 with
        | none =>
          refine ⟨x, ?_⟩
          unfold addStep
          rw [if_pos (ht _ _ hl), hd]
        | some d => exact (ih _ _ hl D d hd).mpr (inner _ d _ hd (by rw [hprop]; exact hl))
      exact ⟨obj m', by rw [h1]; rfl⟩
    · intro hany
      obtain ⟨x, hx, hne⟩ := List.any_eq_true.mp hany
      obtain ⟨d, hd⟩ := hfind hx
      obtain ⟨p, hp⟩ := keys _ _ hd
      rw [hprop] at hp
      simp [contains, find?, hp] at hne

theorem step_iff {p : Json} (hf : Form p) : ∀ (k : String) (D d : Json), D.find? k = some d →
    ((∃ y, addStep D (k, p) = Res.ok y) ↔ (Listed p → Fits p d)) := by
  induction hf with
  | leaf s h ht hd hn =>
    intro k D d hkd
    refine ⟨fun _ hl => ?_, fun _ => ?_⟩
    · obtain ⟨q, hq⟩ := listed_iff.mp hl
      rw [h] at hq
      cases hq
    · obtain ⟨type, h1⟩ := contains_iff.mp ht
      obtain ⟨s', h2⟩ := set_exists (isObj_of_find h1) "default" d
      refine ⟨(k, s'), ?_⟩
      have h3 : s'.find? "type" = some type := by rw [find_set h2, if_neg (by decide), h1]
      unfold addStep
      rw [if_pos ht]
      simp only [hkd, h2, Res.ok_bind, index_of_find h3]
      by_cases hto : type.isStr "object" = true
      · rw [if_pos hto]
        cases hp : s.find? "properties" with
        | none => rfl
        | some q =>
          rw [nested_of h1 hp hto] at h
          cases h
      · rw [if_neg hto]
  | object s ps h hn hp ih =>
    intro k D d hkd
    have hl : Listed s := ⟨h.type, contains_iff.mpr ⟨_, h.props⟩⟩
    have ht : s.contains "type" = true := contains_iff.mpr ⟨_, h.type⟩
    obtain ⟨s', h2⟩ := set_exists h.isObj "default" d
    have h3 : s'.find? "type" = some (str "object") := by rw [find_set h2, if_neg (by decide), h.type]
    have hlevel := fun (hd : d.isObj = true) => level_iff h.keys (fun k p hkp D d hd => ih k p hkp k D d hd)
      (fun k p hkp => (hp k p hkp).contains_type) h.props hd
    have e : addStep D (k, s) = if d.isObj then (addUnsafe (obj ps) d).bind fun p' => (s'.set "properties" p').bind
        fun definition' => Res.ok (k, definition') else Res.throws := by
      unfold addStep
      rw [if_pos ht]
      simp only [hkd, h2, Res.ok_bind, index_of_find h3, h.props]
      rfl
    rw [e]
    constructor
    · rintro ⟨y, hy⟩ -
      split at hy
      · next hd =>
        obtain ⟨r, h4, -⟩ := Res.bind_eq_ok.mp hy
        exact (hlevel hd).mp ⟨r, h4⟩
      · cases hy
    · intro hf
      have hf := hf hl
      have hd : d.isObj = true := by cases hf; assumption
      obtain ⟨r, h4⟩ := (hlevel hd).mpr hf
      have ho : s'.isObj = true := isObj_of_find h3
      obtain ⟨s'', h5⟩ := set_exists ho "properties" r
      refine ⟨(k, s''), ?_⟩
      rw [if_pos hd, h4]
      show (s'.set "properties" r).bind _ = _
      rw [h5]
      rfl

theorem added_iff {s : Json} {ps : List (String × Json)} (hs : TypeForm s ps) {D : Json} :
    (∃ s1, addDefaults s D = Res.ok s1) ↔ Fits s D := by
  have hlevel := fun (hd : D.isObj = true) => level_iff hs.object.keys (fun k p hkp D d hd => step_iff (hs.forms k p hkp) k D d hd)
    (fun k p hkp => (hs.forms k p hkp).contains_type) hs.object.props hd
  constructor
  · rintro ⟨s1, h⟩
    have hD := (addDefaults_ok hs.object h).1
    unfold addDefaults at h
    rw [hs.object.type, hs.object.props] at h
    simp only at h
    split at h
    · obtain ⟨p, h1, -⟩ := Res.bind_eq_ok.mp h
      exact (hlevel hD).mp ⟨p, h1⟩
    · cases h
  · intro hf
    have hD : D.isObj = true := by cases hf; assumption
    obtain ⟨p, h1⟩ := (hlevel hD).mpr hf
    obtain ⟨s1, h2⟩ := set_exists hs.object.isObj "properties" p
    refine ⟨s1, ?_⟩
    unfold addDefaults
    rw [hs.object.type, hs.object.props]
    simp only
    rw [if_pos (by simp [hD, isStr]), h1]
    exact h2

theorem fitting_iff {draws : Json → Res (ℝ → Res (ℝ × ℝ))} {mem : ℕ → ℝ} {defaults : Json} :
    FittingDefaults draws mem defaults ↔ DefaultsFit draws mem defaults := by
  have forms : ∀ x ∈ typesWithSchemas (nodeList draws mem) ++ typesWithSchemas edgeList, ∃ ps, TypeForm x.2 ps := by
    intro x hx
    rcases List.mem_append.mp hx with hx | hx
    · obtain ⟨y, hy, rfl⟩ := List.mem_map.mp hx
      obtain ⟨ps, h, -⟩ := typeB_ok (nodeForms draws mem y hy).1
      exact ⟨ps, h⟩
    · obtain ⟨y, hy, rfl⟩ := List.mem_map.mp hx
      obtain ⟨ps, h, -⟩ := typeB_ok (edgeForms y hy).1
      exact ⟨ps, h⟩
  refine and_congr_right fun _ => forall₂_congr fun x hx => ?_
  obtain ⟨ps, h⟩ := forms x hx
  exact added_iff h

/-- C112, for the defaults of the components in the topology. Full statement: whenever the program reads the network, which is
not so, see `C112_false`. The schemas are generated exactly if the defaults of each type only have keys that the schema of the type
lists for the topology. -/
theorem C112_partial {draws : Json → Res (ℝ → Res (ℝ × ℝ))} {mem : ℕ → ℝ} {defaults : Json} :
    (∃ S, generate draws mem defaults = Res.ok S) ↔ DefaultsFit draws mem defaults :=
  ⟨fun ⟨_, h⟩ => fitting_iff.mp (fitting_of h), fun h => generates (fitting_iff.mpr h)⟩

example (draws : Json → Res (ℝ → Res (ℝ × ℝ))) (mem : ℕ → ℝ) : DefaultsFit draws mem defaultsEx :=
  fitting_iff.mp (fittingB_ok draws mem (by decide +kernel))

/-- Boundary values for all sources. -/
def valuesS : Json := obj [("data", arr [obj [("time", num 0), ("values", arr [num 100])]]), ("id", str "s")]

def defaultsS : Json := obj [("Source", obj [("boundary_values", valuesS)])]

def topologyS : Json := obj [("connections", obj []), ("nodes", obj [("Source", arr [obj [("id", str "s")]])])]

def noBoundary : Json := obj [("connections", obj []), ("nodes", obj [])]

def nodeS : Json := obj [("boundary_values", valuesS), ("id", str "s")]

theorem lists_s : List.Forall₂ Gas.Entry [obj [("time", num 0), ("values", arr [num 100])]] [(0, [100])] :=
  .cons ⟨rfl, rfl, rfl⟩ .nil

theorem construct_s (mem : ℕ → ℝ) : source mem nodeS = Res.ok ⟨.flow, one ⟨[0], 1, [100]⟩, 0, 0⟩ := by
  have h := readVector_of (n := 20) mem (k := 1) (b := valuesS) (by decide +kernel) rfl lists_s (by simp) (by simp)
  show ((Gas.readVector (accepts (boundaryOf 1)) mem valuesS).bind _) = _
  rw [h]
  show Res.ok _ = _
  simp

theorem prepare_s : prepareN 20 idSchema (some (boundaryOf 1)) (obj [("boundary_values", valuesS)]) (obj [("id", str "s")]) =
    Res.ok nodeS :=
  is_ok (n := 20) (by decide +kernel)

theorem full_s : buildFull topologyS noBoundary = Res.ok topologyS :=
  is_ok (n := 20) (by decide +kernel)

noncomputable def graphS : Graph Network.Node Network.EdgeKind := ⟨[⟨"s", ⟨.flow, one ⟨[0], 1, [100]⟩, 0, 0⟩, [], []⟩], []⟩

theorem read_s (draws : Json → Res (ℝ → Res (ℝ × ℝ))) (mem : ℕ → ℝ) :
    readNet draws mem defaultsS topologyS noBoundary = Res.ok graphS := by
  let xs : Node Network.Node := ⟨"s", ⟨.flow, one ⟨[0], 1, [100]⟩, 0, 0⟩, [], []⟩
  let ns : ComponentType Network.Node := ⟨idSchema, some (boundaryOf 1), obj [("boundary_values", valuesS)], source mem⟩
  have ma : makeNode accepts ns (obj [("id", str "s")]) = Res.ok xs :=
    makeNode_of prepare_s rfl (construct_s mem)
  have ns' : Res.each [obj [("id", str "s")]] (makeNode accepts ns) = _ := Res.each_eq_ok.mpr (.cons ma .nil)
  refine readNet_of (nodes := [_, _, _, _, _, _, _, ("Source", ns), _, _])
    (edges := [_, _, _, _, _, _]) (vs := [[], [], [], [], [], [], [], [xs], [], []])
    rfl rfl full_s (nj := obj [("Source", arr [obj [("id", str "s")]])]) (ej := obj []) rfl rfl rfl rfl ?_ ?_ rfl
  · exact .cons rfl (.cons rfl (.cons rfl (.cons rfl (.cons rfl (.cons rfl (.cons rfl (.cons ns' (.cons rfl (.cons rfl
      .nil)))))))))
  · rfl

/-- C112 is false: the program takes default boundary values, with which no schemas are generated. -/
theorem C112_false (draws : Json → Res (ℝ → Res (ℝ × ℝ))) (mem : ℕ → ℝ) :
    ∃ defaults topology boundary g, readNet draws mem defaults topology boundary = Res.ok g ∧
      ¬ ∃ S, generate draws mem defaults = Res.ok S := by
  refine ⟨defaultsS, topologyS, noBoundary, graphS, read_s draws mem, fun h => ?_⟩
  have h := (C112_partial.mp h).2 ("Source", idSchema) (List.mem_append_left _ (by simp [typesWithSchemas, nodeList]))
  cases h with
  | mk _ _ _ keys _ =>
    obtain ⟨s, hs⟩ := keys "boundary_values" valuesS rfl
    have : propertyOf idSchema "boundary_values" = none := by decide +kernel
    rw [this] at hs
    cases hs

/-! ## C111 -/

def topologyI : Json := obj [("nodes", obj [("Innode", arr [obj [("id", str "a")]])])]

def graphI : Graph Network.Node Network.EdgeKind := ⟨[⟨"a", ⟨.innode, fun _ => Res.ok (0, 0), 0, 0⟩, [], []⟩], []⟩

theorem prepare_i : prepareN 20 idSchema none (obj []) (obj [("id", str "a")]) = Res.ok (obj [("id", str "a")]) :=
  is_ok (n := 20) (by decide +kernel)

theorem full_i : buildFull topologyI noBoundary = Res.ok topologyI :=
  is_ok (n := 20) (by decide +kernel)

theorem read_i (draws : Json → Res (ℝ → Res (ℝ × ℝ))) (mem : ℕ → ℝ) :
    readNet draws mem (obj []) topologyI noBoundary = Res.ok graphI := by
  let xs : Node Network.Node := ⟨"a", ⟨.innode, fun _ => Res.ok (0, 0), 0, 0⟩, [], []⟩
  let ns : ComponentType Network.Node := ⟨idSchema, none, obj [], innode⟩
  have ma : makeNode accepts ns (obj [("id", str "a")]) = Res.ok xs := makeNode_of prepare_i rfl rfl
  have ns' : Res.each [obj [("id", str "a")]] (makeNode accepts ns) = _ := Res.each_eq_ok.mpr (.cons ma .nil)
  refine readNet_of (nodes := [_, _, ("Innode", ns), _, _, _, _, _, _, _])
    (edges := [_, _, _, _, _, _]) (vs := [[], [], [xs], [], [], [], [], [], [], []])
    rfl rfl full_i (nj := obj [("Innode", arr [obj [("id", str "a")]])]) (ej := null) rfl rfl rfl rfl ?_ ?_ rfl
  · exact .cons rfl (.cons rfl (.cons ns' (.cons rfl (.cons rfl (.cons rfl (.cons rfl (.cons rfl (.cons rfl (.cons rfl
      .nil)))))))))
  · rfl

/-- C111 is false: the program reads a network without connections, the schema wants the key. -/
theorem C111_false (draws : Json → Res (ℝ → Res (ℝ × ℝ))) (mem : ℕ → ℝ) :
    ∃ defaults topology boundary g S, generate draws mem defaults = Res.ok S ∧ Shaped topology ∧ DistinctTypes topology ∧
      readNet draws mem defaults topology boundary = Res.ok g ∧ accepts S.topology topology = false := by
  obtain ⟨S, hS⟩ := generates (fittingB_ok draws mem (defaults := obj []) (by decide +kernel))
  have hs : Shaped topologyI ∧ DistinctTypes topologyI := shaped_of (by decide +kernel)
  refine ⟨obj [], topologyI, noBoundary, graphI, S, hS, hs.1, hs.2, read_i draws mem, ?_⟩
  obtain ⟨nodes, edges, ns, es, bn, be, -, -, -, -, -, -, e1, -⟩ := generate_ok hS
  rw [Bool.eq_false_iff, e1]
  intro h
  have := ((accepts_file rfl).mp h).2.1
  revert this
  decide

/-- The topology of a pipe between a node with given pressure and a sink is accepted. -/
example (draws : Json → Res (ℝ → Res (ℝ × ℝ))) (mem : ℕ → ℝ) :
    ∃ S, generate draws mem defaultsEx = Res.ok S ∧ accepts S.topology topologyEx = true := by
  obtain ⟨S, hS⟩ := generates (fittingB_ok draws mem (defaults := defaultsEx) (by decide +kernel))
  exact ⟨S, hS, C111_partial hS shaped_ex.1.1 shaped_ex.1.2 rfl rfl (read_ex draws mem)⟩

/-! ## C110 -/

def boundaryC : Json := obj [("connections", obj []),
  ("nodes", obj [("Pressureboundarynode", arr [boundaryA]), ("Sink", arr [boundaryB])])]

/-- The schema of boundary values for one type. -/
theorem boundary_lookup {α : Type} {defaults : Json} {l : List (String × Json × Option Json × (Json → Res α))}
    {table : List (String × ComponentType α)} (h : Res.each l (withDefaults defaults) = Res.ok table)
    (hn : (l.map Prod.fst).Nodup) {ns : List (String × Json)} (hns : Res.each table topologyEntry = Res.ok ns)
    {bs : List (List (String × Json))} (hbs : Res.each table
      (fun t => otherEntry "boundary_values" (t.1, t.2.defaults, t.2.boundary.map Res.ok)) = Res.ok bs)
    {k : String} {s B : Json} {c : Json → Res α} (hmem : (k, s, some B, c) ∈ l) (hs : typeB 5 s = true) (hB : typeB 5 B = true)
    (hd : B.find? "default" = none) : ∃ ls, listSchema B (obj []) = Res.ok ls ∧ bs.flatten.lookup k = some ls := by
  have hT : (table.map Prod.fst).Nodup := by rw [table_names h]; exact hn
  obtain ⟨d, h4, h5⟩ := mem_table h hmem
  obtain ⟨G, s1, h6, -, -⟩ := (topology_table hns).2 hT k _ h5
  obtain ⟨GB, ls, h7, h8, h9⟩ := (other_table hbs).2 hT k _ B h5 rfl
  obtain ⟨ps, hps, -⟩ := typeB_ok hs
  obtain ⟨pb, hpb, -⟩ := typeB_ok hB
  obtain ⟨rfl, -⟩ := component_boundary hps rfl hpb.object hpb.forms hd h6 h7
  exact ⟨ls, h8, h9⟩

/-- The hypotheses of C110 are met, and so the pipe, in which some values are left to the defaults, passes. -/
example (draws : Json → Res (ℝ → Res (ℝ × ℝ))) (mem : ℕ → ℝ) :
    ∃ edges, edgeTypes defaultsEx = Res.ok edges ∧ Passes edges "Pipe" pipeEx := by
  obtain ⟨S, hS⟩ := generates (fittingB_ok draws mem (defaults := defaultsEx) (by decide +kernel))
  have ht : accepts S.topology topologyEx = true :=
    C111_partial hS shaped_ex.1.1 shaped_ex.1.2 rfl rfl (read_ex draws mem)
  have hb : accepts S.boundary boundaryC = true := by
    obtain ⟨nodes, edges, ns, es, bn, be, h3, h4, h5, h6, h7, h8, e1, e2⟩ := generate_ok hS
    have hT : (nodes.map Prod.fst).Nodup := by rw [table_names h3]; exact nodeNames draws mem
    have hE : (edges.map Prod.fst).Nodup := by rw [table_names h4]; exact edgeNames
    rw [e2, accepts_file rfl]
    refine ⟨rfl, rfl, fun v hv => ?_, fun v hv => ?_⟩
    · injection hv with hv
      subst hv
      obtain ⟨la, ha1, ha2⟩ := boundary_lookup h3 (nodeNames draws mem) h5 h7 (k := "Pressureboundarynode") (s := idSchema)
        (B := boundaryOf 1) (c := pressureNode mem) (by simp [nodeList]) (by decide +kernel) (by decide +kernel) rfl
      obtain ⟨lb, hb1, hb2⟩ := boundary_lookup h3 (nodeNames draws mem) h5 h7 (k := "Sink") (s := idSchema)
        (B := boundaryOf 1) (c := sink mem) (by simp [nodeList]) (by decide +kernel) (by decide +kernel) rfl
      rw [accepts_class ((other_table h7).1.nodup hT)]
      refine ⟨rfl, fun k s hk v hv => ?_, fun k hk => ?_⟩
      · have hm := mem_of_lookup hv
        simp only [List.mem_cons, Prod.mk.injEq, List.not_mem_nil, or_false] at hm
        rcases hm with ⟨rfl, rfl⟩ | ⟨rfl, rfl⟩
        · rw [ha2] at hk
          injection hk with hk
          subst hk
          refine (accepts_list ha1).mpr ⟨_, rfl, ?_⟩
          simp only [List.mem_singleton, forall_eq]
          exact acceptsN_ok (n := 20) (by decide +kernel)
        · rw [hb2] at hk
          injection hk with hk
          subst hk
          refine (accepts_list hb1).mpr ⟨_, rfl, ?_⟩
          simp only [List.mem_singleton, forall_eq]
          exact acceptsN_ok (n := 20) (by decide +kernel)
      · obtain ⟨v, hv⟩ := contains_iff.mp hk
        have hm := mem_of_lookup hv
        simp only [List.mem_cons, Prod.mk.injEq, List.not_mem_nil, or_false] at hm
        rcases hm with ⟨rfl, rfl⟩ | ⟨rfl, rfl⟩
        · exact ⟨_, ha2⟩
        · exact ⟨_, hb2⟩
    · injection hv with hv
      subst hv
      exact empty_class ((other_table h8).1.nodup hE)
  obtain ⟨nodes, edges, -, h4, -, h⟩ := C110_partial (acceptableB_ok draws mem (by decide +kernel)) hS rfl rfl shaped_ex.1.2
    (shaped_of (by decide +kernel)).2 ht hb
  exact ⟨edges, h4, h "Pipe" pipeEx (List.mem_singleton.mpr rfl)⟩

end Verif.Editor
