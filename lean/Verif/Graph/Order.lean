import Verif.Graph.Props

/-!
# The order of components in a network

Components of the same type are in the order of their ids. Needed for results that are searched by bisection.
-/

set_option autoImplicit false

namespace Verif.Factory

open Verif.Json

variable {ν ε : Type}

/-- Entries of the same type are in the order of their ids. -/
def Grouped (es : List (String × Json)) : Prop :=
  es.Pairwise fun a b => a.1 = b.1 → ∃ s t, id? a.2 = some s ∧ id? b.2 = some t ∧ s < t

theorem mem_entriesOf {j : Json} {name : String} {e : String × Json} (h : e ∈ entriesOf j name) : e.1 = name := by
  unfold entriesOf at h
  split at h
  · cases h
  · obtain ⟨x, -, rfl⟩ := List.mem_map.mp h
    rfl

theorem grouped_of {τ : Type} {types : List (String × τ)} (ht : (types.map Prod.fst).Nodup) {j : Json}
    (hs : ∀ k v, j.find? k = some v → ∃ l, v = arr l ∧ SortedById l) :
    Grouped (types.flatMap fun t => entriesOf j t.1) := by
  unfold Grouped
  rw [List.pairwise_flatMap]
  constructor
  · intro t _
    unfold entriesOf
    cases hf : j.find? t.1 with
    | none => exact .nil
    | some v =>
      obtain ⟨l, rfl, hl⟩ := hs _ _ hf
      simp only [elements]
      rw [List.pairwise_map]
      exact hl.imp (S := fun a b => (t.1, a).1 = (t.1, b).1 → ∃ s t, id? a = some s ∧ id? b = some t ∧ s < t) fun h _ => h
  · rw [List.Nodup, List.pairwise_map] at ht
    refine ht.imp fun {a b} hab x hx y hy e => ?_
    exact absurd ((mem_entriesOf hx).symm.trans (e.trans (mem_entriesOf hy))) hab

/-- The lists of the full json are sorted. -/
theorem buildFull_sorted {top boundary full : Json} (ho : top.isObj = true) (st : Shaped top) (sb : Shaped boundary)
    (db : DistinctTypes boundary) (h : buildFull top boundary = Res.ok full) {c : String} (hc : c ∈ classes) :
    ∀ k v, ((full.find? c).getD null).find? k = some v → ∃ l, v = arr l ∧ SortedById l := by
  obtain ⟨-, -, hr⟩ := C46_json_partial ho st sb db
  obtain ⟨h1, h2, -⟩ := hr full h
  obtain ⟨-, hsame⟩ := buildFull_same st h
  have hcl := hsame c hc
  intro k v hv
  unfold SameClass at hcl
  cases hf : top.find? c with
  | none =>
    rw [hf] at hcl
    rcases hcl with e | e <;> rw [e] at hv <;> cases hv
  | some w =>
    rw [hf] at hcl
    obtain ⟨m, m', rfl, e2, e3⟩ := hcl
    rw [e2] at hv
    have hk : k ∈ m'.map Prod.fst := List.mem_map.mpr ⟨(k, v), mem_of_lookup hv, rfl⟩
    rw [← e3.keys] at hk
    obtain ⟨x, hx, rfl⟩ := List.mem_map.mp hk
    have hlt : ∃ lt, list? top c x.1 = some lt := by
      obtain ⟨m0, h4, h5⟩ := st c hc _ hf
      injection h4 with h4
      subst h4
      unfold list?
      rw [hf]
      simp only [Option.bind_some, find?]
      cases hl : m.lookup x.1 with
      | none => simpa using List.lookup_eq_none_iff.mp hl x hx
      | some w =>
        obtain ⟨l, hl'⟩ := h5 _ (mem_of_lookup hl)
        simp only at hl'
        subst hl'
        exact ⟨l, rfl⟩
    obtain ⟨lt, hlt⟩ := hlt
    have result : ∃ l, list? full c x.1 = some l ∧ SortedById l := by
      cases hls : list? boundary c x.1 with
      | none =>
        obtain ⟨l, h5, -, h6⟩ := h2 c hc x.1 lt hls hlt
        exact ⟨l, h5, h6⟩
      | some ls =>
        obtain ⟨sorted, l, h5, -, h6, h7⟩ := h1 c hc x.1 ls lt hls hlt
        refine ⟨l, h5, ?_⟩
        have hids : List.Forall₂ (fun a b => id? a = id? b) sorted l := h7.imp fun a b hab => by
          rcases hab with ⟨e, -, -, h8⟩ | ⟨rfl, -⟩
          · unfold id?
            rw [h8 "id", if_neg (by decide)]
          · rfl
        have hmap : sorted.map id? = l.map id? := by
          clear * - hids
          induction hids with
          | nil => rfl
          | cons h _ ih => simp [h, ih]
        have key : ∀ l : List Json, SortedById l ↔ (l.map id?).Pairwise fun a b => ∃ s t, a = some s ∧ b = some t ∧ s < t :=
          fun l => by rw [List.pairwise_map]; rfl
        rw [key, ← hmap, ← key]
        exact h6
    obtain ⟨l, h5, h6⟩ := result
    refine ⟨l, ?_, h6⟩
    unfold list? at h5
    rw [e2] at h5
    simp only [Option.bind_some] at h5
    simp only [Option.getD_some] at hv
    rw [hv] at h5
    cases v <;> simp_all

/-- Ids of components of the same type are in this order. -/
def InOrder (topology : Json) (c : String) (ids : List String) : Prop :=
  ids.Pairwise fun a b => ∀ type x y, (type, x) ∈ entries (types topology c) → (type, y) ∈ entries (types topology c) →
    id? x = some a → id? y = some b → a < b

/-- Entries of the full json come from entries of the topology. -/
theorem full_entry {top full : Json} {c : String} (h : SameClass (top.find? c) (full.find? c)) {name : String}
    {e : String × Json} (he : e ∈ entriesOf ((full.find? c).getD null) name) :
    ∃ e' ∈ entries (types top c), e'.1 = e.1 ∧ id? e'.2 = id? e.2 := by
  obtain ⟨m, hm, hs⟩ := h.types
  obtain ⟨l, hl, hf⟩ := hs.entries
  have hmem : e ∈ entries m := by
    unfold entriesOf at he
    rcases hm with hm | ⟨hm, -⟩
    · rw [hm] at he
      split at he
      · cases he
      · next w hw =>
        obtain ⟨x, hx, rfl⟩ := List.mem_map.mp he
        exact List.mem_flatMap.mpr ⟨(name, w), mem_of_lookup hw, List.mem_map.mpr ⟨x, hx, rfl⟩⟩
    · rw [hm] at he
      cases he
  obtain ⟨e', h1, h2, h3⟩ := forall₂_mem_right hf hmem
  exact ⟨e', hl.subset h1, h2, h3.id.symm⟩

/-- If components are made from grouped entries, then they are in order. -/
theorem inOrder_of {α : Type} {top : Json} {c : String} (hd : Distinct ((entries (types top c)).map Prod.snd))
    {id : α → String} {es : List (String × Json)} {cs : List α} (hg : Grouped es)
    (h : List.Forall₂ (fun e a => id? e.2 = some (id a) ∧
      ∃ e' ∈ entries (types top c), e'.1 = e.1 ∧ id? e'.2 = id? e.2) es cs) : InOrder top c (cs.map id) := by
  have huniq : ∀ a ∈ entries (types top c), ∀ b ∈ entries (types top c), ∀ s, id? a.2 = some s → id? b.2 = some s →
      a = b := by
    obtain ⟨ids, h1, h2⟩ := hd
    have hnd : ((entries (types top c)).map fun e => id? e.2).Nodup := by
      have := h2.map (Option.some_injective String)
      rw [← h1, List.map_map] at this
      exact this
    intro a ha b hb s hs hs'
    exact List.inj_on_of_nodup_map hnd ha hb (hs.trans hs'.symm)
  unfold InOrder
  rw [List.pairwise_map]
  unfold Grouped at hg
  induction h with
  | nil => exact .nil
  | @cons e a es cs h1 h2 ih =>
    obtain ⟨hg1, hg2⟩ := List.pairwise_cons.mp hg
    refine .cons ?_ (ih hg2)
    intro b hb type x y hx hy hix hiy
    obtain ⟨e2, he2, h3, e2', h4, h5, h6⟩ := forall₂_mem_right h2 hb
    obtain ⟨h7, e', h8, h9, h10⟩ := h1
    have e1 := huniq _ hx _ h8 _ hix (h10.trans h7)
    have e3 := huniq _ hy _ h4 _ hiy (h6.trans h3)
    obtain ⟨s, t, h11, h12, hlt⟩ := hg1 e2 he2 (by rw [← h9, ← h5, ← e1, ← e3])
    rw [h7] at h11
    rw [h3] at h12
    injection h11 with h11
    injection h12 with h12
    rw [h11, h12]
    exact hlt

/-- Nodes of the same type are in the order of their ids, and so are edges of the same type. -/
theorem buildNet_order {valid : Json → Json → Bool} {nodeTypes : List (String × ComponentType ν)}
    {edgeTypes : List (String × ComponentType ε)} {topology boundary : Json} (hp : Proper nodeTypes edgeTypes topology)
    (ho : topology.isObj = true) (sb : Shaped boundary) (db : DistinctTypes boundary) {g : Graph ν ε}
    (h : buildNet valid nodeTypes edgeTypes topology boundary = Res.ok g) :
    InOrder topology "nodes" (g.nodes.map Node.id) ∧ InOrder topology "connections" (g.edges.map Edge.id) := by
  unfold buildNet at h
  obtain ⟨full, h1, h2⟩ := Res.bind_eq_ok.mp h
  obtain ⟨hd, hsame⟩ := buildFull_same hp.shaped h1
  have ids := components_entries hp.shaped
  have hc1 : "nodes" ∈ classes := by simp [classes]
  have hc2 : "connections" ∈ classes := by simp [classes]
  have hasId : ∀ c ∈ components topology, ∃ s, id? c = some s := by
    obtain ⟨il, hil, -⟩ := hd
    intro c hc
    have : id? c ∈ il.map some := hil ▸ List.mem_map_of_mem hc
    obtain ⟨s, -, hs⟩ := List.mem_map.mp this
    exact ⟨s, hs.symm⟩
  have idOf : ∀ {c}, c ∈ classes → ∀ e ∈ entries (types topology c), ∃ s, id? e.2 = some s := by
    intro c hc e he
    refine hasId _ ?_
    rw [ids, List.mem_append]
    simp only [classes, List.mem_cons, List.not_mem_nil, or_false] at hc
    rcases hc with rfl | rfl
    · exact Or.inl (List.mem_map_of_mem he)
    · exact Or.inr (List.mem_map_of_mem he)
  have made : ∀ {c}, c ∈ classes → ∀ {τ : Type} {t : ComponentType τ} {name : String} {e : String × Json} {data : Json}
      {s : String}, e ∈ entriesOf ((full.find? c).getD null) name → prepare valid t e.2 = Res.ok data →
      id? data = some s → id? e.2 = some s ∧ ∃ e' ∈ entries (types topology c), e'.1 = e.1 ∧ id? e'.2 = id? e.2 := by
    intro c hc τ t name e data s he hprep hs
    obtain ⟨e', h3, h4, h5⟩ := full_entry (hsame c hc) he
    obtain ⟨s', hs'⟩ := idOf hc e' h3
    refine ⟨?_, e', h3, h4, h5⟩
    rw [h5] at hs'
    have := prepare_find (isObj_of_id hs') hprep (find_id.mp hs')
    rw [← find_id, hs] at this
    rw [hs', this]
  rw [buildGraph_eq] at h2
  obtain ⟨g1, h3, h4⟩ := Res.bind_eq_ok.mp h2
  obtain ⟨u, -, h5⟩ := Res.bind_eq_ok.mp h4
  injection h5 with h5
  subst h5
  unfold buildParts at h3
  obtain ⟨ns, h6, h7⟩ := Res.bind_eq_ok.mp h3
  unfold buildNodes at h6
  split at h6
  · cases h6
  obtain ⟨vs, h8, h9⟩ := Res.bind_eq_ok.mp h6
  injection h9 with h9
  subst h9
  have fn := nodes_made (fun _ h => h) (Res.each_eq_ok.mp h8)
  by_cases hk : unknownType edgeTypes ((full.find? "connections").getD null) = true
  · unfold buildEdges at h7
    rw [if_pos hk] at h7
    cases h7
  simp only [Bool.not_eq_true] at hk
  rw [buildEdges_eq hp.edgeTypes hk] at h7
  have hempty : ∀ n ∈ vs.flatten, n.starting = [] ∧ n.ending = [] := by
    intro n hn
    obtain ⟨e, -, t, -, h3⟩ := forall₂_mem_right fn hn
    obtain ⟨h4, h5, -⟩ := makeNode_ok h3
    exact ⟨h4, h5⟩
  obtain ⟨-, k, xs, e2, fe⟩ := fold_makeTyped (consistent_nil hempty) h7
  simp only [List.nil_append] at e2
  constructor
  · rw [ids_of_key k]
    refine inOrder_of ?_ (grouped_of hp.nodeTypes (buildFull_sorted ho hp.shaped sb db h1 hc1))
      ((forall₂_and_mem fn).imp ?_)
    · refine hd.sublist ?_
      rw [ids]
      exact List.sublist_append_left _ _
    · rintro e n ⟨he, t, -, h10⟩
      obtain ⟨t', -, he⟩ := List.mem_flatMap.mp he
      obtain ⟨-, -, data, h11, h12, -⟩ := makeNode_ok h10
      exact made hc1 he h11 h12
  · rw [e2]
    refine inOrder_of ?_ (grouped_of hp.edgeTypes (buildFull_sorted ho hp.shaped sb db h1 hc2))
      ((forall₂_and_mem fe).imp ?_)
    · refine hd.sublist ?_
      rw [ids]
      exact List.sublist_append_right _ _
    · rintro e x ⟨he, t, data, a, b, -, h11, h12, -⟩
      obtain ⟨t', -, he⟩ := List.mem_flatMap.mp he
      exact made hc2 he h11 h12

end Verif.Factory
