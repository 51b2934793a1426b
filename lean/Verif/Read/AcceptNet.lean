import Verif.Read.Accept

/-!
# Property C126: files without mistakes are read
-/

set_option autoImplicit false

namespace Verif.Read

open Verif.Json Verif.Factory Verif.Interp Verif.Schema Verif.Editor

/-! ## Specification -/

/-- How many boundary values a node of some type has. -/
def boundaryCount : String → Option ℕ
  | "ConstraintSink" | "Pressureboundarynode" | "Sink" | "Source" => some 1
  | "ExternalPowerplant" | "PQnode" | "PVnode" | "StochasticPQnode" | "Vphinode" => some 2
  | _ => none

/-- Names of the types of edges. -/
def edgeTypes : List String := ["Compressorstation", "Controlvalve", "Gaspowerconnection", "Pipe", "Shortpipe", "Transmissionline"]

/-- An entry of the boundary json lists so many values at one or more times. If it has seeds, these are numbers. -/
structure Listed (k : ℕ) (e : Json) : Prop where
  listed : ∃ l, Lists e l ∧ l ≠ [] ∧ ∀ p ∈ l, p.2.length = k
  seed : ∀ s, e.find? "seed" = some s → ∃ q : List ℚ, s = arr (q.map num)

/-- The file has components in lists by type, and all of them have different ids. -/
structure Components (j : Json) : Prop where
  isObj : j.isObj = true
  shaped : Shaped j
  distinct : DistinctTypes j
  ids : ∀ x ∈ components j, ∃ s, id? x = some s
  different : ((components j).map id?).Nodup

/-- Files without mistakes: everything that is needed is there, and of the right kind. -/
structure WellFormed (defaults topology boundary : Json) : Prop where
  isObj : defaults.isObj = true
  components : Components topology
  prescribed : Components boundary
  /-- All types are known. -/
  nodes : ∀ x ∈ types topology "nodes", x.1 ∈ gasNodes ++ powerNodes
  edges : ∀ x ∈ types topology "connections", x.1 ∈ edgeTypes
  /-- Entries and defaults have what is needed for the type. -/
  proper : ∀ c ∈ classes, ∀ e ∈ entries (types topology c), ProperDefaults (defaultsFor defaults e.1) e.1
  keys : ∀ c ∈ classes, ∀ e ∈ entries (types topology c), ∀ x ∈ keysOf e.1, Has (defaultsFor defaults e.1) e.2 x.1 x.2
  /-- There are boundary values for nodes which need these, and only for nodes of such types. -/
  values : ∀ e ∈ entries (types topology "nodes"), ∀ k, boundaryCount e.1 = some k →
    ∃ b, (e.1, b) ∈ entries (types boundary "nodes") ∧ id? b = id? e.2 ∧ Listed k b
  only : (∀ e ∈ entries (types boundary "nodes"), (boundaryCount e.1).isSome) ∧ entries (types boundary "connections") = []
  /-- Edges lead from one node to another one. -/
  ends : ∀ e ∈ entries (types topology "connections"), ∃ a b, Given (defaultsFor defaults e.1) e.2 "from" (str a) ∧
    Given (defaultsFor defaults e.1) e.2 "to" (str b) ∧ a ≠ b ∧ (∃ type, HasNode topology a type) ∧ ∃ type, HasNode topology b type
  /-- Pipes have lengths that make sense, and the scheme that exists. -/
  pipes : ∀ j, ("Pipe", j) ∈ entries (types topology "connections") → ∃ L w D r,
    Metres (defaultsFor defaults "Pipe") j "length" L ∧ Number (defaultsFor defaults "Pipe") j "desired_delta_x" w ∧
    Metres (defaultsFor defaults "Pipe") j "diameter" D ∧ Metres (defaultsFor defaults "Pipe") j "roughness" r ∧
    0 < L ∧ 0 < w ∧ L ≤ 2147483646 * w ∧ Given (defaultsFor defaults "Pipe") j "scheme" (str "Implicitboxscheme")

/-! ## Boundary values -/

theorem lists_accepted {k : ℕ} {e : Json} {l : List (ℚ × List ℚ)} {s : String} (hid : e.find? "id" = some (str s))
    (hl : Lists e l) (hk : ∀ p ∈ l, p.2.length = k) : accepts (boundaryOf k) e = true := by
  obtain ⟨es, hd, hf⟩ := hl
  refine (C78_accepts (boundaryOf_ok k) e).mpr ⟨s, es, hid, hd, fun x hx => ?_⟩
  obtain ⟨p, hp, hxp⟩ := forall₂_mem_left hf hx
  refine ⟨fun t ht => ?_, fun v hv => ?_⟩
  · rw [hxp.2.1] at ht
    injection ht with ht
    exact ⟨p.1, ht.symm⟩
  · rw [hxp.2.2] at hv
    injection hv with hv
    exact ⟨p.2, hk p hp, hv.symm⟩

theorem stochastic_accepted {e : Json} (h : accepts (boundaryOf 2) e = true)
    (hs : ∀ s, e.find? "seed" = some s → ∃ q : List ℚ, s = arr (q.map num)) : accepts stochasticBoundary e = true := by
  obtain ⟨p1, h1, hp1⟩ := typeB_ok (n := 5) (s := boundaryOf 2) (by decide +kernel)
  obtain ⟨p2, h2, hp2⟩ := typeB_ok (n := 5) (s := stochasticBoundary) (by decide +kernel)
  obtain ⟨a1, a2, a3, -⟩ := (accepts_object h1.object e).mp h
  obtain ⟨l, hl⟩ : ∃ l, listSchema numberType (obj []) = Res.ok l := ⟨_, rfl⟩
  obtain ⟨s, hadd⟩ : ∃ s, addProperty (boundaryOf 2) "seed" l = Res.ok s := by
    unfold addProperty
    rw [hp1]
    exact set_exists h1.object.isObj _ _
  have heq : stochasticBoundary = s := by
    unfold stochasticBoundary
    simp only [hl, Res.ok_bind, hadd]
  subst heq
  unfold addProperty at hadd
  rw [hp1] at hadd
  obtain ⟨p, hset, hset'⟩ := Res.bind_eq_ok.mp hadd
  have hp : ∀ k, p2.lookup k = if k = "seed" then some l else p1.lookup k := by
    intro k
    have := find_set hset k
    rw [find_set hset', if_pos rfl] at hp2
    injection hp2 with hp2
    subst hp2
    exact this
  refine (accepts_object h2.object e).mpr ⟨a1, fun k hk => a2 k ?_, fun k d hk v hv => ?_, fun hf => ?_⟩
  · obtain ⟨r, h3, h4⟩ := hk
    rw [find_set hset', if_neg (by decide)] at h3
    exact ⟨r, h3, h4⟩
  · rw [hp] at hk
    split at hk
    · next e' =>
      subst e'
      injection hk with hk
      subst hk
      obtain ⟨q, rfl⟩ := hs v hv
      refine (accepts_list hl).mpr ⟨_, rfl, fun x hx => ?_⟩
      obtain ⟨y, -, rfl⟩ := List.mem_map.mp hx
      exact accepts_number.mpr ⟨y, rfl⟩
    · exact a3 k d hk v hv
  · rw [h2.additional] at hf; cases hf

theorem source_ok {k : ℕ} {mem : ℕ → ℝ} {data e : Json} {s : String} {l : List (ℚ × List ℚ)}
    (hb : data.find? "boundary_values" = some e) (hid : e.find? "id" = some (str s)) (hl : Lists e l) (hne : l ≠ [])
    (hk : ∀ p ∈ l, p.2.length = k) : ∃ v, Gas.source (accepts (boundaryOf k)) mem data = Res.ok v := by
  have hacc := lists_accepted hid hl hk
  obtain ⟨es, hd, he⟩ := hl
  unfold Gas.source Gas.readVector
  rw [index_of_find hb, Res.ok_bind, if_pos hacc, index_of_find hd, Res.ok_bind]
  cases he with
  | nil => exact absurd rfl hne
  | @cons j p es l h3 h4 =>
    have e1 := Gas.each_readEntry (.cons h3 h4)
    simp only [contains, h3.1, Option.isSome_none, Bool.false_eq_true, if_false, e1, Res.ok_bind]
    refine ⟨_, Gas.construct_flat (n := k) mem (Gas.real (p :: l)) (by simp [Gas.real]) ?_⟩
    intro x hx
    obtain ⟨y, hy, rfl⟩ := List.mem_map.mp hx
    simpa using hk y hy

theorem sink_ok {mem : ℕ → ℝ} {data e : Json} {s : String} {l : List (ℚ × List ℚ)}
    (hb : data.find? "boundary_values" = some e) (hid : e.find? "id" = some (str s)) (hl : Lists e l) (hne : l ≠ [])
    (hk : ∀ p ∈ l, p.2.length = 1) : ∃ v, Gas.sink (accepts (boundaryOf 1)) mem data = Res.ok v := by
  obtain ⟨es, hd, he⟩ := hl
  obtain ⟨es', h1, h2, h3⟩ := Gas.each_entries he
  have e1 : Gas.forElements (fun datum => Gas.edit datum "values" (Gas.forElements Gas.negate)) (arr es) = Res.ok (arr es') := by
    simp only [Gas.forElements, h1]; rfl
  have e2 : Gas.forElements (fun datum => Gas.edit datum "values" (Gas.forElements Gas.negate)) (arr es') = Res.ok (arr es) := by
    simp only [Gas.forElements, h2]; rfl
  obtain ⟨e', h4, h5, h6, h7⟩ := Gas.edit_find hd e1 e2
  obtain ⟨data', h8, -, h9, -⟩ := Gas.edit_find (f := fun b => Gas.edit b "data" fun d =>
    Gas.forElements (fun datum => Gas.edit datum "values" (Gas.forElements Gas.negate)) d) hb h4 h5
  have hr : Gas.revert data = Res.ok data' := by
    unfold Gas.revert
    rw [if_pos (contains_iff.mpr ⟨e, hb⟩)]
    exact h8
  unfold Gas.sink
  rw [hr, Res.ok_bind]
  refine source_ok h9 (s := s) (l := Gas.negative l) (by rw [h7 _ (by decide), hid]) ⟨es', h6, h3⟩ (by simpa [Gas.negative] using hne) ?_
  intro p hp
  obtain ⟨x, hx, rfl⟩ := List.mem_map.mp hp
  simpa using hk x hx

/-! ## Constructors -/

theorem number_of_value {data : Json} {key : String} (h : ∃ v, data.find? key = some v ∧ accepts numberType v = true) :
    ∃ q, number data key = Res.ok q := by
  obtain ⟨v, h1, h2⟩ := h
  obtain ⟨q, rfl⟩ := accepts_number.mp h2
  exact ⟨q, number_ok.mpr h1⟩

/-- Constructors of nodes succeed. -/
theorem node_construct_ok {draws : Json → Res (ℝ → Res (ℝ × ℝ))} {mem : ℕ → ℝ} {name : String} {s : Json} {bs : Option Json}
    {c : Json → Res Network.Node} (hm : (name, s, bs, c) ∈ nodeList draws mem) {data : Json}
    (hdraws : name = "StochasticPQnode" → ∃ f, draws data = Res.ok f)
    (hv : ∀ x ∈ keysOf name, ∃ v, data.find? x.1 = some v ∧ accepts (wantSchema x.2) v = true)
    (hb : ∀ k, boundaryCount name = some k → ∃ e s l, data.find? "boundary_values" = some e ∧ e.find? "id" = some (str s) ∧
      Lists e l ∧ l ≠ [] ∧ ∀ p ∈ l, p.2.length = k) : ∃ n, c data = Res.ok n := by
  have power : boundaryCount name = some 2 → ("G", Want.number) ∈ keysOf name → ("B", Want.number) ∈ keysOf name →
      ∀ kind, ∃ n, powerNode kind mem data = Res.ok n := by
    intro h0 hG hB kind
    obtain ⟨e, s, l, h1, h2, h3, h4, h5⟩ := hb 2 h0
    obtain ⟨v, h6⟩ := source_ok (mem := mem) h1 h2 h3 h4 h5
    obtain ⟨G, h7⟩ := number_of_value (hv _ hG)
    obtain ⟨B, h8⟩ := number_of_value (hv _ hB)
    exact ⟨_, by unfold powerNode; rw [h6, Res.ok_bind, h7, Res.ok_bind, h8, Res.ok_bind]⟩
  have src : boundaryCount name = some 1 → ∀ kind, ∃ n, (do
      let b ← Gas.source (accepts (boundaryOf 1)) mem data
      Res.ok (⟨kind, one b, 0, 0⟩ : Network.Node)) = Res.ok n := by
    intro h0 kind
    obtain ⟨e, s, l, h1, h2, h3, h4, h5⟩ := hb 1 h0
    obtain ⟨v, h6⟩ := source_ok (mem := mem) h1 h2 h3 h4 h5
    exact ⟨_, by rw [h6, Res.ok_bind]⟩
  have snk : boundaryCount name = some 1 → ∃ n, sink mem data = Res.ok n := by
    intro h0
    obtain ⟨e, s, l, h1, h2, h3, h4, h5⟩ := hb 1 h0
    obtain ⟨v, h6⟩ := sink_ok (mem := mem) h1 h2 h3 h4 h5
    exact ⟨_, by unfold sink; rw [h6, Res.ok_bind]⟩
  simp only [nodeList, List.mem_cons, List.not_mem_nil, or_false, Prod.mk.injEq] at hm
  rcases hm with ⟨rfl, rfl, -, rfl⟩ | ⟨rfl, rfl, -, rfl⟩ | ⟨rfl, rfl, -, rfl⟩ | ⟨rfl, rfl, -, rfl⟩ | ⟨rfl, rfl, -, rfl⟩ |
    ⟨rfl, rfl, -, rfl⟩ | ⟨rfl, rfl, -, rfl⟩ | ⟨rfl, rfl, -, rfl⟩ | ⟨rfl, rfl, -, rfl⟩ | ⟨rfl, rfl, -, rfl⟩
  · exact snk rfl
  · exact power rfl (by simp [keysOf]) (by simp [keysOf]) _
  · exact ⟨_, rfl⟩
  · exact power rfl (by simp [keysOf]) (by simp [keysOf]) _
  · exact power rfl (by simp [keysOf]) (by simp [keysOf]) _
  · exact src rfl _
  · exact snk rfl
  · exact src rfl _
  · obtain ⟨n, h1⟩ := power rfl (by simp [keysOf]) (by simp [keysOf]) (.power .pq)
    obtain ⟨f, h2⟩ := hdraws rfl
    exact ⟨_, by unfold stochasticNode; rw [h1, Res.ok_bind, h2, Res.ok_bind]⟩
  · exact power rfl (by simp [keysOf]) (by simp [keysOf]) _

/-- Metres which are given are read. -/
theorem metres_ok {d j data schema : Json} (h : From d j data schema) {m : List (String × Json)}
    (hm : schema.find? "properties" = some (obj m)) (hn : (m.map Prod.fst).Nodup) {key : String}
    (hk : key ≠ "boundary_values") (hs : m.lookup key = some measureSchema)
    (hv : ∃ v, data.find? key = some v ∧ accepts measureSchema v = true) {L : ℚ} (hL : Metres d j key L) :
    metres data key = Res.ok L := by
  obtain ⟨w, h1, h2⟩ := hv
  obtain ⟨o1, o2, o3, -⟩ := (accepts_object measure_object w).mp h2
  obtain ⟨value, unit, x, c, g1, g2, g3, g4⟩ := hL
  have hu : w.find? "unit" = some (str unit) := by
    obtain ⟨u, hu⟩ := contains_iff.mp (o2 "unit" ⟨_, rfl, by simp⟩)
    rw [hu, (h.part m hm hn key hk hs "unit" (Or.inr rfl) w h1 o1 u hu).unique g2]
  have hval : w.find? "value" = some (num value) := by
    obtain ⟨u, hu⟩ := contains_iff.mp (o2 "value" ⟨_, rfl, by simp⟩)
    rw [hu, (h.part m hm hn key hk hs "value" (Or.inl rfl) w h1 o1 u hu).unique g1]
  unfold metres
  rw [index_of_find h1, Res.ok_bind, if_pos h2, index_of_find hu, Res.ok_bind]
  show (number w "value").bind _ = _
  rw [number_ok.mpr hval]
  show Unit.parseToSi Unit.length value unit.toList = _
  rw [Unit.C52_meaning _ length_mem _ x c g3, g4]

/-- Constructors of edges succeed. -/
theorem edge_construct_ok {name : String} {s : Json} {bs : Option Json} {c : Json → Res Network.EdgeKind}
    (hm : (name, s, bs, c) ∈ edgeList) {d j data : Json} (hfrom : From d j data s)
    (hv : ∀ x ∈ keysOf name, ∃ v, data.find? x.1 = some v ∧ accepts (wantSchema x.2) v = true)
    (hp : name = "Pipe" → ∃ L w D r, Metres d j "length" L ∧ Number d j "desired_delta_x" w ∧ Metres d j "diameter" D ∧
      Metres d j "roughness" r ∧ 0 < L ∧ 0 < w ∧ L ≤ 2147483646 * w ∧ Given d j "scheme" (str "Implicitboxscheme")) :
    ∃ x, c data = Res.ok x := by
  simp only [edgeList, List.mem_cons, List.not_mem_nil, or_false, Prod.mk.injEq] at hm
  rcases hm with ⟨rfl, rfl, -, rfl⟩ | ⟨rfl, rfl, -, rfl⟩ | ⟨rfl, rfl, -, rfl⟩ | ⟨rfl, rfl, -, rfl⟩ | ⟨rfl, rfl, -, rfl⟩ |
    ⟨rfl, rfl, -, rfl⟩
  · exact ⟨_, rfl⟩
  · exact ⟨_, rfl⟩
  · obtain ⟨g, h1⟩ := number_of_value (hv ("gas2power_q_coeff", .number) (by simp [keysOf]))
    obtain ⟨p, h2⟩ := number_of_value (hv ("power2gas_q_coeff", .number) (by simp [keysOf]))
    exact ⟨_, by unfold connection; rw [h1, Res.ok_bind, h2, Res.ok_bind]⟩
  · obtain ⟨L, w, D, r, g1, g2, g3, g4, h0, h1, h2, g5⟩ := hp rfl
    have e : pipeTopology.find? "properties" = some (obj (propsOf "Pipe")) := rfl
    have hn : ((propsOf "Pipe").map Prod.fst).Nodup := by decide +kernel
    have m1 := metres_ok hfrom e hn (by decide) rfl (hv ("length", .quantity) (by simp [keysOf])) g1
    have m2 := metres_ok hfrom e hn (by decide) rfl (hv ("diameter", .quantity) (by simp [keysOf])) g3
    have m3 := metres_ok hfrom e hn (by decide) rfl (hv ("roughness", .quantity) (by simp [keysOf])) g4
    obtain ⟨w', hw'⟩ := number_of_value (hv ("desired_delta_x", .number) (by simp [keysOf]))
    have hw : w' = w := by
      have := (hfrom.number e hn (by decide) rfl hw').unique g2
      injection this
    subst hw
    have hsch : scheme data = Res.ok () := by
      obtain ⟨v, hv', -⟩ := hv ("scheme", .text) (by simp [keysOf])
      have := (hfrom.given _ e hn "scheme" (by decide) (Or.inr rfl) v hv').unique g5
      subst this
      unfold scheme
      rw [index_of_find hv', Res.ok_bind]
      rfl
    have h0' : (0 : ℝ) < L := by exact_mod_cast h0
    have h1' : (0 : ℝ) < w' := by exact_mod_cast h1
    have h2' : (L : ℝ) ≤ 2147483646 * w' := by exact_mod_cast h2
    obtain ⟨n, e1, e2, -⟩ := Gas.C38_widths (L : ℝ) w' h0' h1' ((div_le_iff₀ h1').mpr h2')
    refine ⟨.gas (.pipe (Gas.cellWidth L n) D r) n.toNat, ?_⟩
    unfold pipe
    simp only at m1 m2 m3 hw'
    simp only [m1, hw', m2, m3, hsch, Res.ok_bind, e1]
    rw [if_neg (by omega)]
  · exact ⟨_, rfl⟩
  · obtain ⟨g, h1⟩ := number_of_value (hv ("G", .number) (by simp [keysOf]))
    obtain ⟨p, h2⟩ := number_of_value (hv ("B", .number) (by simp [keysOf]))
    exact ⟨_, by unfold line; rw [h1, Res.ok_bind, h2, Res.ok_bind]⟩

end Verif.Read
