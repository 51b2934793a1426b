import Verif.Read.AcceptNet

/-!
# Property C126, second part: the network is built
-/

set_option autoImplicit false

namespace Verif.Read

open Verif.Json Verif.Factory Verif.Interp Verif.Schema Verif.Editor

theorem fold_exists {α σ : Type} {P : σ → Prop} {f : σ → α → Res σ} {l : List α} {s : σ} (hs : P s)
    (h : ∀ s, P s → ∀ a ∈ l, ∃ s', f s a = Res.ok s' ∧ P s') : ∃ s', Res.fold l s f = Res.ok s' ∧ P s' := by
  induction l generalizing s with
  | nil => exact ⟨s, rfl, hs⟩
  | cons a l ih =>
    obtain ⟨t, h1, h2⟩ := h s hs a (by simp)
    obtain ⟨u, h3, h4⟩ := ih h2 fun s hs b hb => h s hs b (by simp [hb])
    exact ⟨u, by simp only [Res.fold, h1]; exact h3, h4⟩

theorem component_of_entry {j : Json} (hs : Shaped j) {c : String} (hc : c ∈ classes) {k : String} {x : Json}
    (hx : (k, x) ∈ entries (types j c)) : x ∈ components j := by
  rw [components_entries hs, List.mem_append]
  simp only [classes, List.mem_cons, List.not_mem_nil, or_false] at hc
  rcases hc with rfl | rfl
  · exact Or.inl (List.mem_map_of_mem (f := Prod.snd) hx)
  · exact Or.inr (List.mem_map_of_mem (f := Prod.snd) hx)

theorem Components.sorts {j : Json} (h : Components j) : sortById j ≠ Res.throws := by
  intro ht
  rcases (C45_throws h.shaped).mp ht with ⟨x, hx, hn⟩ | hn
  · obtain ⟨s, hs⟩ := h.ids x hx
    rw [hs] at hn; cases hn
  · exact hn h.different

/-- Boundary values are inserted. -/
theorem full_ok {defaults topology boundary : Json} (h : WellFormed defaults topology boundary) :
    ∃ full, buildFull topology boundary = Res.ok full := by
  obtain ⟨h1, h2, -⟩ := C46_json_partial h.components.isObj h.components.shaped h.prescribed.shaped h.prescribed.distinct
  cases hf : buildFull topology boundary with
  | ok full => exact ⟨full, rfl⟩
  | ub => exact absurd hf h1
  | throws =>
    exfalso
    rcases h2.mp hf with ht | ht | ⟨c, hc, k, ls, lt, hls, hlt, x, hx, hn, e, he, -⟩
    · exact h.components.sorts ht
    · exact h.prescribed.sorts ht
    · have hes := entries_of_list h.prescribed.shaped hc hls he
      have hxs := entries_of_list h.components.shaped hc hlt hx
      simp only [classes, List.mem_cons, List.not_mem_nil, or_false] at hc
      rcases hc with rfl | rfl
      · obtain ⟨n, hn'⟩ := Option.isSome_iff_exists.mp (h.only.1 _ hes)
        obtain ⟨b, hb, hid, -⟩ := h.values _ hxs n hn'
        obtain ⟨ls', h3, h4⟩ := list_of_entry h.prescribed.shaped h.prescribed.distinct (by simp [classes]) hb
        simp only at h3
        rw [hls] at h3
        injection h3 with h3
        subst h3
        exact hn b h4 hid
      · rw [h.only.2] at hes; cases hes

theorem has_keeps {d x y : Json} (h : Keeps x y) {key : String} (hk : key ≠ "boundary_values") {w : Want}
    (hx : Has d x key w) : Has d y key w := by
  have e := h key hk
  cases w with
  | text => simpa only [Has, Given, e] using hx
  | number => simpa only [Has, Number, Given, e] using hx
  | quantity => simpa only [Has, GivenPart, e] using hx

theorem kept_str {v v' : Json} (h : Kept v v') {k s : String} (hk : v.find? k = some (str s)) : v'.find? k = some (str s) := by
  cases h with
  | same => exact hk
  | extended m m' h1 h2 =>
    obtain ⟨w, hw⟩ := h1 k _ hk
    have := h2 k _ _ hk hw
    cases this
    exact hw

theorem keys_ne {name key : String} {w : Want} (h : (key, w) ∈ keysOf name) : key ≠ "boundary_values" := by
  rintro rfl
  unfold keysOf at h
  split at h <;> simp at h

/-- Boundary values by type. -/
theorem node_boundary {draws : Json → Res (ℝ → Res (ℝ × ℝ))} {mem : ℕ → ℝ} :
    ∀ x ∈ nodeList draws mem, ("id", Want.text) ∈ keysOf x.1 ∧ (x.2.2.1 = none ∧ boundaryCount x.1 = none ∨
      ∃ k, boundaryCount x.1 = some k ∧ (x.2.2.1 = some (boundaryOf k) ∨ k = 2 ∧ x.2.2.1 = some stochasticBoundary)) := by
  simp only [nodeList, List.mem_cons, List.not_mem_nil, or_false, forall_eq_or_imp, forall_eq]
  refine ⟨?_, ?_, ?_, ?_, ?_, ?_, ?_, ?_, ?_, ?_⟩ <;> refine ⟨by simp [keysOf], ?_⟩
  · exact Or.inr ⟨_, rfl, Or.inl rfl⟩
  · exact Or.inr ⟨_, rfl, Or.inl rfl⟩
  · exact Or.inl (by simp [boundaryCount])
  · exact Or.inr ⟨_, rfl, Or.inl rfl⟩
  · exact Or.inr ⟨_, rfl, Or.inl rfl⟩
  · exact Or.inr ⟨_, rfl, Or.inl rfl⟩
  · exact Or.inr ⟨_, rfl, Or.inl rfl⟩
  · exact Or.inr ⟨_, rfl, Or.inl rfl⟩
  · exact Or.inr ⟨_, rfl, Or.inr (by simp)⟩
  · exact Or.inr ⟨_, rfl, Or.inl rfl⟩

/-- An entry of the boundary json is determined by its id. -/
theorem boundary_unique {j : Json} (h : Components j) {c : String} (hc : c ∈ classes) {k k' : String} {x y : Json}
    (hx : (k, x) ∈ entries (types j c)) (hy : (k', y) ∈ entries (types j c)) (he : id? x = id? y) : x = y :=
  List.inj_on_of_nodup_map h.different (component_of_entry h.shaped hc hx) (component_of_entry h.shaped hc hy) he

/-- Each node is made. -/
theorem node_made {draws : Json → Res (ℝ → Res (ℝ × ℝ))} {mem : ℕ → ℝ} {defaults topology boundary full : Json}
    (h : WellFormed defaults topology boundary) (hfull : buildFull topology boundary = Res.ok full)
    (hdraws : (∃ x, ("StochasticPQnode", x) ∈ entries (types topology "nodes")) → ∀ data, ∃ f, draws data = Res.ok f)
    {table : List (String × ComponentType Network.Node)} (hn : Res.each (nodeList draws mem) (withDefaults defaults) = Res.ok table)
    {name : String} {ty : ComponentType Network.Node} (hty : (name, ty) ∈ table) {v y : Json}
    (hv : ((full.find? "nodes").getD null).find? name = some v) (hy : y ∈ v.elements) :
    ∃ n, makeNode accepts ty y = Res.ok n := by
  have hc : "nodes" ∈ classes := by simp [classes]
  obtain ⟨x, hx, hyo, hk, hfate⟩ := full_entry h.components.isObj h.components.shaped h.components.distinct
    h.prescribed.shaped h.prescribed.distinct hfull hc hv hy
  obtain ⟨s, b, c, d, hl, hdef, rfl⟩ := table_mem hn hty
  obtain ⟨hp, hr⟩ := node_props _ hl
  obtain ⟨hf, hbf⟩ := nodeForms draws mem _ hl
  obtain ⟨hidk, hbound⟩ := node_boundary _ hl
  have hd := h.proper _ hc _ hx
  have hkeys := h.keys _ hc _ hx
  simp only at hp hr hf hbf hidk hbound hd hkeys
  rw [← valueOr_ok hdef] at hd hkeys
  have hkeys' : ∀ x ∈ keysOf name, Has d y x.1 x.2 := fun z hz => has_keeps hk (keys_ne hz) (hkeys z hz)
  have fin : ∀ data, prepare accepts (⟨s, b, d, c⟩ : ComponentType Network.Node) y = Res.ok data →
      (∀ x ∈ keysOf name, ∃ v, data.find? x.1 = some v ∧ accepts (wantSchema x.2) v = true) →
      (∀ k, boundaryCount name = some k → ∃ e s l, data.find? "boundary_values" = some e ∧ e.find? "id" = some (str s) ∧
        Lists e l ∧ l ≠ [] ∧ ∀ p ∈ l, p.2.length = k) →
      ∃ n, makeNode accepts (⟨s, b, d, c⟩ : ComponentType Network.Node) y = Res.ok n := by
    intro data hdata hvals hlists
    obtain ⟨w, hw, hacc⟩ := hvals _ hidk
    obtain ⟨i, rfl⟩ := accepts_string.mp hacc
    obtain ⟨n, hcon⟩ := node_construct_ok hl (fun e => hdraws ⟨x, e ▸ hx⟩ data) hvals hlists
    unfold makeNode
    simp only [hdata, Res.ok_bind, rawId_of (find_id.mpr hw), hcon]
    exact ⟨_, rfl⟩
  rcases hbound with ⟨rfl, hnone⟩ | ⟨k, hsome, hb⟩
  · obtain ⟨data, hdata, hvals⟩ := plain_prepared (t := (⟨s, none, d, c⟩ : ComponentType Network.Node)) hf hp hr rfl hd hyo hkeys'
    exact fin data hdata hvals fun k hk => by rw [hnone] at hk; cases hk
  · obtain ⟨e, he, hide, ⟨l, hl1, hl2, hl3⟩, hseed⟩ := h.values _ hx k hsome
    simp only at he hide
    have hye : y.find? "boundary_values" = some e := by
      rcases hfate with ⟨-, hno⟩ | ⟨e', he', hide', hext⟩
      · exact absurd hide (hno e he)
      · rw [boundary_unique h.prescribed hc he he' (hide.trans hide'.symm), hext, if_pos rfl]
    obtain ⟨i, hi⟩ := h.prescribed.ids e (component_of_entry h.prescribed.shaped hc he)
    rw [find_id] at hi
    have hacc := lists_accepted hi hl1 hl3
    have : ∃ b', b = some b' ∧ accepts b' e = true := by
      rcases hb with rfl | ⟨rfl, rfl⟩
      · exact ⟨_, rfl, hacc⟩
      · exact ⟨_, rfl, stochastic_accepted hacc hseed⟩
    obtain ⟨b', rfl, hacc'⟩ := this
    obtain ⟨hbf1, hbf2⟩ := hbf b' rfl
    obtain ⟨data, hdata, hvals⟩ := boundary_prepared (t := (⟨s, some b', d, c⟩ : ComponentType Network.Node)) hf hp hr rfl hbf1 hbf2
      hd hyo hkeys' hye hacc'
    refine fin data hdata hvals fun k' hk' => ?_
    rw [hsome] at hk'
    injection hk' with hk'
    subst hk'
    obtain ⟨e', h6, h7⟩ := prepare_kept hyo hdata hye
    exact ⟨e', i, l, h6, kept_str h7 hi, Kept.lists h7 hl1, hl2, hl3⟩

theorem types_nodup {j : Json} (hs : Shaped j) (hd : DistinctTypes j) {c : String} (hc : c ∈ classes) :
    ((types j c).map Prod.fst).Nodup := by
  unfold types
  cases hf : j.find? c with
  | none => simp
  | some v =>
    obtain ⟨m, rfl, -⟩ := hs c hc v hf
    exact hd c hc m hf

theorem known_types {τ : Type} {names : List (String × τ)} {topology full : Json} {c : String}
    (h : SameClass (topology.find? c) (full.find? c)) (hk : ∀ x ∈ types topology c, x.1 ∈ names.map Prod.fst) :
    unknownType names ((full.find? c).getD null) = false := by
  obtain ⟨m, hm, hst⟩ := h.types
  rcases hm with hm | ⟨hm, -⟩
  · rw [hm, Bool.eq_false_iff]
    intro hu
    obtain ⟨x, hx, hno⟩ := (unknownType_iff _ _).mp hu
    have : x.1 ∈ (types topology c).map Prod.fst := by rw [hst.keys]; exact List.mem_map_of_mem hx
    obtain ⟨y, hy, he⟩ := List.mem_map.mp this
    exact hno (he ▸ hk y hy)
  · rw [hm]; rfl

/-- All nodes are made. -/
theorem nodes_ok {draws : Json → Res (ℝ → Res (ℝ × ℝ))} {mem : ℕ → ℝ} {defaults topology boundary full : Json}
    (h : WellFormed defaults topology boundary) (hfull : buildFull topology boundary = Res.ok full)
    (hdraws : (∃ x, ("StochasticPQnode", x) ∈ entries (types topology "nodes")) → ∀ data, ∃ f, draws data = Res.ok f)
    {table : List (String × ComponentType Network.Node)} (hn : Res.each (nodeList draws mem) (withDefaults defaults) = Res.ok table) :
    ∃ ns, buildNodes accepts table ((full.find? "nodes").getD null) = Res.ok ns ∧
      (∀ n ∈ ns, n.starting = [] ∧ n.ending = []) ∧ ∀ a type, HasNode topology a type → a ∈ ns.map Node.id := by
  have hc : "nodes" ∈ classes := by simp [classes]
  obtain ⟨-, hsame⟩ := buildFull_same h.components.shaped hfull
  have hnames : table.map Prod.fst = (nodeList draws mem).map Prod.fst := table_names hn
  have hknown : unknownType table ((full.find? "nodes").getD null) = false := by
    refine known_types (hsame _ hc) fun x hx => ?_
    rw [hnames]
    have := h.nodes x hx
    simp only [gasNodes, powerNodes, List.cons_append, List.nil_append, List.mem_cons, List.not_mem_nil, or_false] at this
    simp only [nodeList, List.map_cons, List.map_nil, List.mem_cons, List.not_mem_nil, or_false]
    tauto
  have hex : ∀ f : String × ComponentType Network.Node → Res (List (Node Network.Node)), (∀ t ∈ table, ∃ b, f t = Res.ok b) →
      ∃ ns, (do let vs ← Res.each table f; Res.ok vs.flatten) = Res.ok ns := by
    intro f hf
    obtain ⟨vs, hvs⟩ := Verif.Editor.each_exists hf
    exact ⟨_, by rw [hvs, Res.ok_bind]⟩
  have hb : ∃ ns, buildNodes accepts table ((full.find? "nodes").getD null) = Res.ok ns := by
    unfold buildNodes
    rw [hknown]
    refine hex _ fun t ht => ?_
    cases hv : ((full.find? "nodes").getD null).find? t.1 with
    | none => exact ⟨_, rfl⟩
    | some v => exact Verif.Editor.each_exists fun y hy => node_made h hfull hdraws hn ht hv hy
  obtain ⟨ns, hbuild⟩ := hb
  obtain ⟨m, hm, hst⟩ := (hsame _ hc).types
  have hbuild' : buildNodes accepts table (obj m) = Res.ok ns := by
    rcases hm with hm | ⟨hm, rfl⟩
    · rw [← hm]; exact hbuild
    · rw [← buildNodes_null, ← hm]; exact hbuild
  have hnd : (table.map Prod.fst).Nodup := by
    rw [hnames]
    simp only [nodeList, List.map_cons, List.map_nil]
    decide
  obtain ⟨es, hperm, hmade⟩ := C49_nodes hnd (by rw [← hst.keys]; exact types_nodup h.components.shaped h.components.distinct hc) hbuild'
  refine ⟨_, hbuild, fun n hn => ?_, ?_⟩
  · obtain ⟨e, -, t, -, h3⟩ := forall₂_mem_right hmade hn
    obtain ⟨h4, h5, -⟩ := makeNode_ok h3
    exact ⟨h4, h5⟩
  · rintro a type ⟨x, hx, hid⟩
    obtain ⟨es0, hp0, hf0⟩ := hst.entries
    obtain ⟨e', he', hty, hk⟩ := forall₂_mem_left hf0 (hp0.mem_iff.mpr hx)
    obtain ⟨n, hn, t, -, h3⟩ := forall₂_mem_left hmade (hperm.mem_iff.mpr he')
    obtain ⟨-, -, data, h4, h5, -⟩ := makeNode_ok h3
    have hid' : id? e'.2 = some a := by rw [hk.id]; exact hid
    have := prepare_find (isObj_of_id hid') h4 (find_id.mp hid')
    rw [← find_id, h5] at this
    injection this with this
    exact this ▸ List.mem_map_of_mem hn

theorem endNode_exists {ν : Type} {key a : String} {data : Json} {nodes : List (Node ν)} (h : data.find? key = some (str a))
    (ha : a ∈ nodes.map Node.id) : ∃ v, endNode key data nodes = Res.ok v ∧ (nodes.map Node.id)[v]? = some a := by
  have hex : ∃ v, endNode key data nodes = Res.ok v := by
    unfold endNode
    rw [index_of_find h]
    simp only [Res.ok_bind, getStr]
    cases hf : nodes.findIdx? fun n => a == n.id with
    | some v => exact ⟨v, rfl⟩
    | none =>
      exfalso
      obtain ⟨n, hn, rfl⟩ := List.mem_map.mp ha
      have := List.findIdx?_eq_none_iff.mp hf n hn
      simp at this
  obtain ⟨v, hv⟩ := hex
  obtain ⟨a', h1, h2⟩ := endNode_ok hv
  rw [h] at h1
  injection h1 with h1
  injection h1 with h1
  subst h1
  exact ⟨v, hv, h2⟩

/-- Each edge is made. -/
theorem edge_made {defaults topology boundary full : Json}
    (h : WellFormed defaults topology boundary) (hfull : buildFull topology boundary = Res.ok full)
    {table : List (String × ComponentType Network.EdgeKind)} (hn : Res.each edgeList (withDefaults defaults) = Res.ok table)
    {name : String} {ty : ComponentType Network.EdgeKind} (hty : (name, ty) ∈ table) {v y : Json}
    (hv : ((full.find? "connections").getD null).find? name = some v) (hy : y ∈ v.elements)
    {g : Graph Network.Node Network.EdgeKind} (hg : ∀ a type, HasNode topology a type → a ∈ g.nodes.map Node.id) :
    ∃ g', makeEdge accepts ty g y = Res.ok g' ∧ g'.nodes.map Node.id = g.nodes.map Node.id := by
  have hc : "connections" ∈ classes := by simp [classes]
  obtain ⟨x, hx, hyo, hk, -⟩ := full_entry h.components.isObj h.components.shaped h.components.distinct
    h.prescribed.shaped h.prescribed.distinct hfull hc hv hy
  obtain ⟨s, b, c, d, hl, hdef, rfl⟩ := table_mem hn hty
  obtain ⟨hp, hr⟩ := edge_props _ hl
  obtain ⟨hf, hbf⟩ := edgeForms _ hl
  have hd := h.proper _ hc _ hx
  have hkeys := h.keys _ hc _ hx
  have hends := h.ends _ hx
  simp only at hp hr hf hbf hd hkeys hends
  rw [← valueOr_ok hdef] at hd hkeys hends
  subst hbf
  have hkeys' : ∀ x ∈ keysOf name, Has d y x.1 x.2 := fun z hz => has_keeps hk (keys_ne hz) (hkeys z hz)
  obtain ⟨data, hdata, hvals⟩ := plain_prepared (t := (⟨s, none, d, c⟩ : ComponentType Network.EdgeKind)) hf hp hr rfl hd hyo hkeys'
  have hfrom := from_prepare hyo hk hdata
  simp only at hfrom
  have hnd : ((propsOf name).map Prod.fst).Nodup ∧ (("id", Want.text) ∈ keysOf name ∧ ("from", Want.text) ∈ keysOf name ∧
      ("to", Want.text) ∈ keysOf name) := by
    simp only [edgeList, List.mem_cons, List.not_mem_nil, or_false, Prod.mk.injEq] at hl
    rcases hl with ⟨rfl, -⟩ | ⟨rfl, -⟩ | ⟨rfl, -⟩ | ⟨rfl, -⟩ | ⟨rfl, -⟩ | ⟨rfl, -⟩ <;>
      exact ⟨by decide +kernel, by simp [keysOf]⟩
  obtain ⟨hnd, k1, k2, k3⟩ := hnd
  have text : ∀ key a, (key, Want.text) ∈ keysOf name → Given d x key (str a) → data.find? key = some (str a) := by
    intro key a hkey hgiven
    obtain ⟨w, hw, -⟩ := hvals _ hkey
    have := (hfrom.given _ hp hnd key (keys_ne hkey) (Or.inr (props_of hnd hkey)) w hw).unique hgiven
    rw [hw, this]
  obtain ⟨a, e, ga, ge, hne, ⟨ta, hta⟩, te, hte⟩ := hends
  obtain ⟨w, hw, hacc⟩ := hvals _ k1
  obtain ⟨i, rfl⟩ := accepts_string.mp hacc
  obtain ⟨start, h1, h2⟩ := endNode_exists (text "from" a k2 ga) (hg a ta hta)
  obtain ⟨stop, h3, h4⟩ := endNode_exists (text "to" e k3 ge) (hg e te hte)
  have hdiff : start ≠ stop := by
    rintro rfl
    rw [h2] at h4
    injection h4 with h4
    exact hne h4
  obtain ⟨z, hz⟩ := edge_construct_ok hl hfrom hvals (by
    rintro rfl
    have := h.pipes x hx
    rw [← valueOr_ok hdef] at this
    exact this)
  refine ⟨⟨(g.nodes.modify start (attachStart g.edges.length)).modify stop (attachEnd g.edges.length),
      g.edges ++ [⟨i, z, start, stop⟩]⟩, ?_, ?_⟩
  · unfold makeEdge
    simp only [hdata, Res.ok_bind, rawId_of (find_id.mpr hw), h1, h3, hdiff, if_false, hz]
  · show List.map Node.id ((g.nodes.modify start _).modify stop _) = _
    rw [map_modify_of Node.id (attachEnd _) (fun _ => rfl), map_modify_of Node.id (attachStart _) (fun _ => rfl)]

/-! ## The property -/

/-- C126. Files without mistakes are read: if everything which is needed is given in the entries or in the defaults and is of
the right kind, with all ids different, boundary values for the nodes that need them and edges from one node to another one,
then a network is built. (With stochastic nodes also the construction of their demands has to succeed.) -/
theorem C126_read {draws : Json → Res (ℝ → Res (ℝ × ℝ))} {mem : ℕ → ℝ} {defaults topology boundary : Json}
    (h : WellFormed defaults topology boundary)
    (hdraws : (∃ x, ("StochasticPQnode", x) ∈ entries (types topology "nodes")) → ∀ data, ∃ f, draws data = Res.ok f) :
    ∃ g, readNet draws mem defaults topology boundary = Res.ok g := by
  have hc : "connections" ∈ classes := by simp [classes]
  obtain ⟨full, hfull⟩ := full_ok h
  obtain ⟨nt, hnt⟩ := table_exists h.isObj (nodeList draws mem)
  obtain ⟨et, het⟩ := table_exists h.isObj edgeList
  obtain ⟨ns, hns, hempty, hids⟩ := nodes_ok h hfull hdraws hnt
  obtain ⟨-, hsame⟩ := buildFull_same h.components.shaped hfull
  have hnames := table_names het
  have hknown : unknownType et ((full.find? "connections").getD null) = false := by
    refine known_types (hsame _ hc) fun x hx => ?_
    rw [hnames]
    exact h.edges x hx
  have hedges : ∃ g, buildEdges accepts et ((full.find? "connections").getD null) ns = Res.ok g ∧
      g.nodes.map Node.id = ns.map Node.id := by
    unfold buildEdges
    rw [hknown]
    refine fold_exists (P := fun g : Graph Network.Node Network.EdgeKind => g.nodes.map Node.id = ns.map Node.id) rfl fun g hg t ht => ?_
    cases hv : ((full.find? "connections").getD null).find? t.1 with
    | none => exact ⟨g, rfl, hg⟩
    | some v =>
      refine fold_exists (P := fun g : Graph Network.Node Network.EdgeKind => g.nodes.map Node.id = ns.map Node.id) hg fun g hg y hy => ?_
      obtain ⟨g', h1, h2⟩ := edge_made h hfull het ht hv hy (g := g) (by rw [hg]; exact hids)
      exact ⟨g', h1, h2.trans hg⟩
  obtain ⟨g, hg, -⟩ := hedges
  have hnd : (et.map Prod.fst).Nodup := by
    rw [hnames]
    simp only [edgeList, List.map_cons, List.map_nil]
    decide
  have hcons : Consistent g := by
    rw [buildEdges_eq hnd hknown] at hg
    exact (fold_makeTyped (consistent_nil hempty) hg).1
  refine ⟨g, ?_⟩
  unfold readNet
  simp only [hnt, het, Res.ok_bind]
  unfold buildNet buildGraph
  simp only [hfull, Res.ok_bind, hns, hg, hcons.check]

end Verif.Read
