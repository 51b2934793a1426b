import Verif.Read.Defined

/-!
# Property C125, second part: reading the network is defined
-/

set_option autoImplicit false

namespace Verif.Read

open Verif.Json Verif.Factory Verif.Interp Verif.Schema

/-! ## Specification -/

/-- Files and settings with which reading a network is harmless: boundary values of stochastic nodes are listed at increasing times (for other nodes
see `Covers`), and no pipe has more cells than there are numbers of type `int`. -/
structure HarmlessNet (defaults topology boundary : Json) : Prop where
  stochastic : ∀ x, ("StochasticPQnode", x) ∈ entries (types topology "nodes") →
    ∀ e, ("StochasticPQnode", e) ∈ entries (types boundary "nodes") → id? e = id? x → ListsTimes e
  cells : ∀ j, ("Pipe", j) ∈ entries (types topology "connections") → ∀ L w,
    Metres (defaultsFor defaults "Pipe") j "length" L → Number (defaultsFor defaults "Pipe") j "desired_delta_x" w →
    L ≤ 2147483646 * w

/-! ## Schemas -/

/-- A check of types, down to some depth. -/
def checkTyped : ℕ → Json → Bool
  | 0, _ => false
  | n + 1, schema => schema.items.all fun x => x.2.contains "type" && match nested? x.2 with
    | none => true
    | some p => checkTyped n p

theorem checkTyped_sound {n : ℕ} {schema : Json} (h : checkTyped n schema = true) : Typed schema := by
  induction n generalizing schema with
  | zero => cases h
  | succ n ih =>
    simp only [checkTyped, List.all_eq_true, Bool.and_eq_true] at h
    refine .intro _ (fun x hx => (h x hx).1) fun x hx p hp => ?_
    have := (h x hx).2
    rw [hp] at this
    exact ih this

/-- The schemas of a type, checked. -/
def checkSchemas (s : Json) (b : Option Json) : Bool :=
  (match s.find? "properties" with
    | some p => checkTyped 4 p && p.items.all fun x => x.1 != "boundary_values"
    | none => false) &&
  match b with
  | none => true
  | some b => b.contains "type" && !b.contains "default" && match b.find? "properties" with
    | some p => checkTyped 4 p
    | none => false

theorem checkSchemas_sound {s : Json} {b : Option Json} (h : checkSchemas s b = true) :
    (∃ p, s.find? "properties" = some p ∧ Typed p ∧ ∀ x ∈ p.items, x.1 ≠ "boundary_values") ∧
    ∀ b', b = some b' → b'.contains "type" = true ∧ b'.find? "default" = none ∧
      ∃ p, b'.find? "properties" = some p ∧ Typed p := by
  unfold checkSchemas at h
  rw [Bool.and_eq_true] at h
  obtain ⟨h1, h2⟩ := h
  constructor
  · split at h1
    · next p hp =>
      rw [Bool.and_eq_true, List.all_eq_true] at h1
      exact ⟨p, hp, checkTyped_sound h1.1, fun x hx => by simpa using h1.2 x hx⟩
    · cases h1
  · rintro b' rfl
    simp only [Bool.and_eq_true, Bool.not_eq_true'] at h2
    obtain ⟨⟨h3, h4⟩, h5⟩ := h2
    refine ⟨h3, by simpa [contains] using h4, ?_⟩
    split at h5
    · next p hp => exact ⟨p, hp, checkTyped_sound h5⟩
    · cases h5

theorem nodeList_schemas {draws : Json → Res (ℝ → Res (ℝ × ℝ))} {mem : ℕ → ℝ} {name : String} {s : Json} {b : Option Json}
    {c : Json → Res Network.Node} (h : (name, s, b, c) ∈ nodeList draws mem) :
    checkSchemas s b = true ∧ (b = none → name = "Innode") ∧ (name ≠ "Innode" → ∃ b', b = some b') ∧ Requires s "id" ∧
    name ∈ gasNodes ++ powerNodes := by
  simp only [nodeList, List.mem_cons, List.not_mem_nil, or_false, Prod.mk.injEq] at h
  rcases h with ⟨rfl, rfl, rfl, -⟩ | ⟨rfl, rfl, rfl, -⟩ | ⟨rfl, rfl, rfl, -⟩ | ⟨rfl, rfl, rfl, -⟩ | ⟨rfl, rfl, rfl, -⟩ |
    ⟨rfl, rfl, rfl, -⟩ | ⟨rfl, rfl, rfl, -⟩ | ⟨rfl, rfl, rfl, -⟩ | ⟨rfl, rfl, rfl, -⟩ | ⟨rfl, rfl, rfl, -⟩ <;>
  exact ⟨by decide +kernel, by simp, by simp, ⟨_, rfl, by simp⟩, by decide⟩

theorem edgeList_schemas {name : String} {s : Json} {b : Option Json} {c : Json → Res Network.EdgeKind}
    (h : (name, s, b, c) ∈ edgeList) :
    checkSchemas s b = true ∧ Requires s "id" ∧ Requires s "from" ∧ Requires s "to" := by
  simp only [edgeList, List.mem_cons, List.not_mem_nil, or_false, Prod.mk.injEq] at h
  rcases h with ⟨rfl, rfl, rfl, -⟩ | ⟨rfl, rfl, rfl, -⟩ | ⟨rfl, rfl, rfl, -⟩ | ⟨rfl, rfl, rfl, -⟩ | ⟨rfl, rfl, rfl, -⟩ |
    ⟨rfl, rfl, rfl, -⟩ <;>
  exact ⟨by decide +kernel, ⟨_, rfl, by simp⟩, ⟨_, rfl, by simp⟩, ⟨_, rfl, by simp⟩⟩

theorem TypedSchema.of_check {α : Type} {s : Json} {b : Option Json} {d : Json} {c : Json → Res α} (h : checkSchemas s b = true) :
    TypedSchema (⟨s, b, d, c⟩ : ComponentType α) := by
  obtain ⟨⟨p, h1, h2, -⟩, h3⟩ := checkSchemas_sound h
  exact ⟨⟨p, h1, h2⟩, fun b' hb => ⟨(h3 b' hb).1, (h3 b' hb).2.2⟩⟩

/-! ## Entries -/

theorem list_of_types {topology : Json} (hs : Shaped topology) (hd : DistinctTypes topology) {c : String} (hc : c ∈ classes)
    {k : String} (hk : k ∈ (types topology c).map Prod.fst) : ∃ lt, list? topology c k = some lt := by
  obtain ⟨⟨k', v⟩, hv, rfl⟩ := List.mem_map.mp hk
  unfold types at hv
  cases hf : topology.find? c with
  | none => rw [hf] at hv; cases hv
  | some w =>
    obtain ⟨m, rfl, hm⟩ := hs c hc w hf
    rw [hf] at hv
    obtain ⟨lt, hlt⟩ := hm _ hv
    simp only at hlt
    subst hlt
    refine ⟨lt, ?_⟩
    unfold list?
    rw [hf]
    simp only [Option.bind_some, find?]
    rw [lookup_of_mem (hd c hc m hf) hv]

theorem entries_of_list {j : Json} (hs : Shaped j) {c : String} (hc : c ∈ classes) {k : String} {l : List Json}
    (h : list? j c k = some l) {x : Json} (hx : x ∈ l) : (k, x) ∈ entries (types j c) := by
  refine list_in_entries h ?_ hx
  unfold types
  cases hf : j.find? c with
  | none => right; exact ⟨rfl, rfl⟩
  | some v =>
    obtain ⟨m, rfl, -⟩ := hs c hc v hf
    left; rfl

theorem list_of_entry {j : Json} (hs : Shaped j) (hd : DistinctTypes j) {c : String} (hc : c ∈ classes) {k : String} {e : Json}
    (he : (k, e) ∈ entries (types j c)) : ∃ l, list? j c k = some l ∧ e ∈ l := by
  obtain ⟨v, hv, hev⟩ := mem_entries.mp he
  obtain ⟨ls, hls⟩ := list_of_types hs hd hc (List.mem_map_of_mem (f := Prod.fst) hv)
  refine ⟨ls, hls, ?_⟩
  unfold types at hv
  unfold list? at hls
  cases hf : j.find? c with
  | none => rw [hf] at hv; cases hv
  | some w =>
    obtain ⟨m, rfl, hm⟩ := hs c hc w hf
    rw [hf] at hv hls
    simp only [Option.bind_some, find?] at hls
    rw [lookup_of_mem (hd c hc m hf) hv] at hls
    simp only at hls
    split at hls
    · next heq => injection hls with hls; injection heq with heq; subst hls heq; exact hev
    · cases hls

/-- Everything in the full json is an entry of the topology, maybe with its boundary values. -/
theorem full_entry {topology boundary full : Json} (ho : topology.isObj = true) (hs : Shaped topology)
    (hd : DistinctTypes topology) (sb : Shaped boundary) (db : DistinctTypes boundary)
    (h : buildFull topology boundary = Res.ok full) {c : String} (hc : c ∈ classes) {k : String} {v y : Json}
    (hv : ((full.find? c).getD null).find? k = some v) (hy : y ∈ v.elements) :
    ∃ x, (k, x) ∈ entries (types topology c) ∧ y.isObj = true ∧ Keeps x y ∧
      ((y = x ∧ ∀ e, (k, e) ∈ entries (types boundary c) → id? e ≠ id? x) ∨
        ∃ e, (k, e) ∈ entries (types boundary c) ∧ id? e = id? x ∧ Extended "boundary_values" e x y) := by
  obtain ⟨⟨il, hil, -⟩, hsame⟩ := buildFull_same hs h
  obtain ⟨m, hm, hst⟩ := (hsame c hc).types
  have hvm : (k, v) ∈ m := by
    rcases hm with hm | ⟨hm, -⟩
    · rw [hm] at hv; exact mem_of_lookup hv
    · rw [hm] at hv; simp [find?] at hv
  obtain ⟨lt, hlt⟩ := list_of_types hs hd hc (k := k) (by rw [hst.keys]; exact List.mem_map_of_mem hvm)
  have hl : ∀ l, list? full c k = some l → y ∈ l := by
    intro l hl
    unfold list? at hl
    cases hf : full.find? c with
    | none => rw [hf] at hl; simp at hl
    | some w =>
      rw [hf] at hl hv
      simp only [Option.getD_some] at hv
      simp only [Option.bind_some, hv] at hl
      split at hl
      · next l' hl' =>
        injection hl with hl
        injection hl' with hl'
        subst hl hl'
        exact hy
      · cases hl
  have hid : ∀ x, (k, x) ∈ entries (types topology c) → ∃ s, id? x = some s := by
    intro x hx
    have : x ∈ components topology := by
      rw [components_entries hs, List.mem_append]
      simp only [classes, List.mem_cons, List.not_mem_nil, or_false] at hc
      rcases hc with rfl | rfl
      · exact Or.inl (List.mem_map_of_mem (f := Prod.snd) hx)
      · exact Or.inr (List.mem_map_of_mem (f := Prod.snd) hx)
    have : id? x ∈ il.map some := hil ▸ List.mem_map_of_mem this
    obtain ⟨s, -, hs⟩ := List.mem_map.mp this
    exact ⟨s, hs.symm⟩
  obtain ⟨-, -, h1⟩ := C46_json_partial ho hs sb db
  obtain ⟨h2, h3, -⟩ := h1 full h
  have hlists : ∀ e, (k, e) ∈ entries (types boundary c) → ∃ ls, list? boundary c k = some ls ∧ e ∈ ls :=
    fun e he => list_of_entry sb db hc he
  cases hb : list? boundary c k with
  | none =>
    obtain ⟨l, h4, h5, -⟩ := h3 c hc k lt hb hlt
    have hx := entries_of_list hs hc hlt (h5.mem_iff.mp (hl l h4))
    obtain ⟨s, hs⟩ := hid y hx
    exact ⟨y, hx, isObj_of_id hs, .refl _, Or.inl ⟨rfl, fun e he => by
      obtain ⟨ls, hls, -⟩ := hlists e he; rw [hb] at hls; cases hls⟩⟩
  | some ls =>
    obtain ⟨sorted, l, h4, h5, -, h6⟩ := h2 c hc k ls lt hb hlt
    obtain ⟨x, hx, hr⟩ := forall₂_mem_right h6 (hl l h4)
    have hx := entries_of_list hs hc hlt (h5.mem_iff.mp hx)
    obtain ⟨s, hids⟩ := hid x hx
    rcases hr with ⟨e, he, h7, h8⟩ | ⟨h7, h8⟩
    · have hk : Keeps x y := fun k' hk' => by rw [h8 k', if_neg hk']
      have hids' : id? y = some s := by rw [hk.id]; exact hids
      exact ⟨x, hx, isObj_of_id hids', hk, Or.inr ⟨e, entries_of_list sb hc hb he, h7, h8⟩⟩
    · subst h7
      refine ⟨y, hx, isObj_of_id hids, .refl _, Or.inl ⟨rfl, fun e he h9 => ?_⟩⟩
      obtain ⟨ls', hls, hels⟩ := hlists e he
      rw [hb] at hls
      injection hls with hls
      subst hls
      obtain ⟨s', t, h10, h11, h12⟩ := h8 e hels
      rw [h10, h11] at h9
      injection h9 with h9
      exact absurd (h9 ▸ h12) (lt_irrefl _)

theorem rawId_ne_ub {data : Json} (h : data.find? "id" ≠ none) : rawId data ≠ Res.ub := by
  unfold rawId
  exact res_bind_ne (index_defined h) fun _ _ => getStr_ne_ub _

theorem endNode_ne_ub {ν : Type} {key : String} {data : Json} (h : data.find? key ≠ none) (nodes : List (Node ν)) :
    endNode key data nodes ≠ Res.ub := by
  unfold endNode
  refine res_bind_ne (index_defined h) fun _ _ => res_bind_ne (getStr_ne_ub _) fun _ _ => ?_
  split <;> simp

theorem netCheck_ne_ub {ν ε : Type} (g : Graph ν ε) : netCheck g ≠ Res.ub := by
  unfold netCheck
  split <;> simp

theorem withDefaults_ne_ub {α : Type} (all : Json) (x : String × Json × Option Json × (Json → Res α)) :
    withDefaults all x ≠ Res.ub := res_bind_ne (valueOr_ne_ub _ _) fun _ _ => by simp

/-- Reading a network is defined. -/
theorem readNet_ne_ub {draws : Json → Res (ℝ → Res (ℝ × ℝ))} (hdraws : ∀ data, draws data ≠ Res.ub) {mem : ℕ → ℝ}
    {defaults topology boundary : Json} (ho : topology.isObj = true) (hs : Shaped topology) (hd : DistinctTypes topology)
    (sb : Shaped boundary) (db : DistinctTypes boundary) (hf : Fit defaults topology) {t : ℝ}
    (hcov : Covers defaults topology boundary t) (hh : HarmlessNet defaults topology boundary) :
    readNet draws mem defaults topology boundary ≠ Res.ub := by
  unfold readNet
  refine res_bind_ne (each_ne_ub fun _ _ => withDefaults_ne_ub _ _) fun nodes hn => ?_
  refine res_bind_ne (each_ne_ub fun _ _ => withDefaults_ne_ub _ _) fun edges he => ?_
  unfold buildNet
  refine res_bind_ne (C46_json_partial ho hs sb db).1 fun full hfull => ?_
  unfold buildGraph
  refine res_bind_ne ?_ fun ns _ => res_bind_ne ?_ fun g _ => res_bind_ne (netCheck_ne_ub g) fun _ _ => by simp
  · unfold buildNodes
    split
    · simp
    refine res_bind_ne (each_ne_ub ?_) fun _ _ => by simp
    rintro ⟨name, ty⟩ hty
    simp only
    split
    · simp
    next v hv =>
    refine each_ne_ub fun y hy => ?_
    obtain ⟨x, hx, hyo, hk, hfate⟩ := full_entry ho hs hd sb db hfull (by simp [classes]) hv hy
    obtain ⟨s, b, c, d, hl, hdef, rfl⟩ := table_mem hn hty
    obtain ⟨h1, h2, h3, h4, h5⟩ := nodeList_schemas hl
    have hts : TypedSchema (⟨s, b, d, c⟩ : ComponentType Network.Node) := .of_check h1
    unfold makeNode
    refine res_bind_ne (prepare_ne_ub hts hyo) fun data hdata => ?_
    obtain ⟨-, hreq, -⟩ := prepare_requires hts hyo hdata
    refine res_bind_ne (rawId_ne_ub (hreq _ h4)) fun _ _ => res_bind_ne ?_ fun _ _ => by simp
    refine node_construct_ne_ub hdraws hl hreq fun hin => ?_
    obtain ⟨b', rfl⟩ := h3 hin
    obtain ⟨⟨p, hp, -, hpk⟩, hb⟩ := checkSchemas_sound h1
    obtain ⟨ho1, ho2⟩ := hcov.only name x hx
    have needsb : NeedsBoundary (⟨s, some b', d, c⟩ : ComponentType Network.Node) := by
      refine ⟨⟨b', rfl, (hb b' rfl).2.1⟩, fun p' hp' => ?_, ?_⟩
      · change s.find? "properties" = _ at hp'
        rw [hp] at hp'
        injection hp' with hp'
        subst hp'
        exact hpk
      · show d.find? _ = none
        rw [valueOr_ok hdef]
        exact ho2
    obtain ⟨w, hw⟩ := prepare_boundary accepts_enforces needsb hyo hdata
    rcases hfate with ⟨rfl, -⟩ | ⟨e, he', hide, hext⟩
    · rw [ho1] at hw; cases hw
    · have hye : y.find? "boundary_values" = some e := by rw [hext, if_pos rfl]
      obtain ⟨e', h6, h7⟩ := prepare_kept hyo hdata hye
      refine ⟨e', h6, ?_⟩
      by_cases hst : name = "StochasticPQnode"
      · subst hst
        obtain ⟨l, hl1, hl2⟩ := hh.stochastic x hx e he' hide
        exact ⟨l, Kept.lists h7 hl1, hl2⟩
      · obtain ⟨l, hl1, hl2, ⟨q, hq, -⟩, -⟩ := hcov.listed name x hx h5 hin hst e he' hide
        exact ⟨l, Kept.lists h7 hl1, List.ne_nil_of_mem hq, hl2⟩
  · unfold buildEdges
    split
    · simp
    refine (fold_ne_ub (P := fun _ => True) trivial ?_).1
    rintro g - ⟨name, ty⟩ hty
    refine ⟨?_, fun _ _ => trivial⟩
    simp only
    split
    · simp
    next v hv =>
    refine (fold_ne_ub (P := fun _ => True) trivial ?_).1
    rintro g - y hy
    refine ⟨?_, fun _ _ => trivial⟩
    obtain ⟨x, hx, hyo, hk, hfate⟩ := full_entry ho hs hd sb db hfull (by simp [classes]) hv hy
    obtain ⟨s, b, c, d, hl, hdef, rfl⟩ := table_mem he hty
    obtain ⟨h1, h4, h5, h6⟩ := edgeList_schemas hl
    have hts : TypedSchema (⟨s, b, d, c⟩ : ComponentType Network.EdgeKind) := .of_check h1
    unfold makeEdge
    refine res_bind_ne (prepare_ne_ub hts hyo) fun data hdata => ?_
    obtain ⟨-, hreq, -⟩ := prepare_requires hts hyo hdata
    refine res_bind_ne (rawId_ne_ub (hreq _ h4)) fun _ _ => ?_
    refine res_bind_ne (endNode_ne_ub (hreq _ h5) _) fun _ _ => ?_
    refine res_bind_ne (endNode_ne_ub (hreq _ h6) _) fun _ _ => ?_
    split
    · simp
    refine res_bind_ne ?_ fun _ _ => by simp
    refine edge_construct_ne_ub hl hreq ?_
    rintro rfl L w hL hw
    have hfrom := from_prepare hyo hk hdata
    obtain ⟨rfl, rfl, rfl⟩ : s = pipeTopology ∧ b = none ∧ c = pipe := by simpa [edgeList] using hl
    simp only at hfrom
    rw [valueOr_ok hdef] at hfrom
    have e : pipeTopology.find? "properties" = some (obj [("balancelaw", stringType), ("desired_delta_x", numberType), ("diameter", measureSchema),
      ("from", stringType), ("id", stringType), ("length", measureSchema), ("roughness", measureSchema), ("scheme", stringType), ("to", stringType)]) := rfl
    have hL' := hfrom.metres e (by decide) (by decide) rfl hL
    have hw' := hfrom.number e (by decide) (by decide) rfl hw
    exact ⟨(hf.lengths x hx).1 L hL', (hf.lengths x hx).2 w hw', hh.cells x hx L w hL' hw'⟩

end Verif.Read
