import Verif.Read.Model
import Verif.Read.Defaults
import Verif.Gas.Edges

/-!
# Property C99: the network that is simulated is the one in the files

Every entry of the topology becomes one component of the named type, between the named nodes, with the physical data of the
entry in SI units, and nothing else is there. The boundary condition of a node is the interpolation of the values listed for
its id in the boundary json, with the opposite sign for sinks.
-/

set_option autoImplicit false

namespace Verif.Read

open Verif.Json Verif.Factory Verif.Interp Verif.Schema

/-! ## Specification -/

/-- The names of the types of nodes in the files. -/
def kindOf : String → Option Network.NodeKind
  | "Innode" => some .innode
  | "Source" | "Sink" | "ConstraintSink" => some .flow
  | "Pressureboundarynode" => some .pressure
  | "PQnode" | "StochasticPQnode" => some (.power .pq)
  | "PVnode" => some (.power .pv)
  | "Vphinode" => some (.power .vphi)
  | "ExternalPowerplant" => some .plant
  | _ => none

/-- A number is given under a key, in the entry or as a default. -/
def Number (defaults j : Json) (key : String) (q : ℚ) : Prop := Given defaults j key (num q)

/-- So many metres are given under a key: a value and a unit with this meaning, each in the entry or as a default. -/
def Metres (defaults j : Json) (key : String) (L : ℚ) : Prop :=
  ∃ value unit x c, GivenPart defaults j key "value" (num value) ∧ GivenPart defaults j key "unit" (str unit) ∧
    Unit.Means Unit.length unit.toList x c ∧ L = c.factor * (value * x) + c.offset

/-- The node is what the entry says, with the defaults for its type. -/
structure NodeMatches (defaults : Json) (e : String × Json) (n : Network.Node) : Prop where
  kind : kindOf e.1 = some n.kind
  conductance : n.kind.isPower → ∃ q, Number defaults e.2 "G" q ∧ n.G = q
  susceptance : n.kind.isPower → ∃ q, Number defaults e.2 "B" q ∧ n.B = q

/-- The edge is what the entry says, with the defaults `d` for its type. A pipe is divided into the smallest number of
equal cells that are not wider than wished. -/
inductive EdgeMatches (d j : Json) : String → Network.EdgeKind → Prop
  | compressor (n : ℕ) : EdgeMatches d j "Compressorstation" (.gas .compressor n)
  | controlvalve (n : ℕ) : EdgeMatches d j "Controlvalve" (.gas .controlvalve n)
  | shortpipe (n : ℕ) : EdgeMatches d j "Shortpipe" (.gas .shortpipe n)
  | gaspower (g p : ℚ) (n : ℕ) (hg : Number d j "gas2power_q_coeff" g) (hp : Number d j "power2gas_q_coeff" p) :
    EdgeMatches d j "Gaspowerconnection" (.gas (.gaspower g p) n)
  | line (G B : ℚ) (hG : Number d j "G" G) (hB : Number d j "B" B) : EdgeMatches d j "Transmissionline" (.line G B)
  | pipe (L w D r : ℚ) (dx : ℝ) (n : ℕ) (hL : Metres d j "length" L) (hw : Number d j "desired_delta_x" w)
    (hd : Metres d j "diameter" D) (hr : Metres d j "roughness" r) (hs : Given d j "scheme" (str "Implicitboxscheme"))
    (hn : 0 < L → 0 < w → 2 ≤ n ∧ ((n : ℝ) - 1) * dx = L ∧ dx ≤ w ∧ ((n : ℝ) - 2) * w < L) :
    EdgeMatches d j "Pipe" (.gas (.pipe dx D r) n)

/-! ## The tables -/

theorem withRequired_ok : ∀ s ∈ [idSchema, edgeSchema, pipeTopology, lineTopology, connectionTopology, powerTopology,
    stochasticTopology, boundaryOf 1, boundaryOf 2, stochasticBoundary], s.isObj = true := by
  simp only [List.mem_cons, List.not_mem_nil, or_false, forall_eq_or_imp, forall_eq]
  refine ⟨?_, ?_, ?_, ?_, ?_, ?_, ?_, ?_, ?_, ?_⟩ <;> rfl

theorem withDefaults_ok {α : Type} {all : Json} {x : String × Json × Option Json × (Json → Res α)}
    {y : String × ComponentType α} (h : withDefaults all x = Res.ok y) :
    ∃ d, valueOr all x.1 = Res.ok d ∧ y = (x.1, ⟨x.2.1, x.2.2.1, d, x.2.2.2⟩) := by
  unfold withDefaults at h
  obtain ⟨d, h1, h⟩ := Res.bind_eq_ok.mp h
  injection h with h
  exact ⟨d, h1, h.symm⟩

theorem valueOr_ok {j d : Json} {key : String} (h : valueOr j key = Res.ok d) : d = defaultsFor j key := by
  unfold valueOr at h
  split at h
  · injection h with h; exact h.symm
  · cases h

theorem table_names {α : Type} {all : Json} {l : List (String × Json × Option Json × (Json → Res α))}
    {types : List (String × ComponentType α)} (h : Res.each l (withDefaults all) = Res.ok types) :
    types.map Prod.fst = l.map Prod.fst := by
  replace h := Res.each_eq_ok.mp h
  induction h with
  | nil => rfl
  | cons h1 _ ih =>
    obtain ⟨d, -, rfl⟩ := withDefaults_ok h1
    simp [ih]

theorem table_mem {α : Type} {all : Json} {l : List (String × Json × Option Json × (Json → Res α))}
    {types : List (String × ComponentType α)} (h : Res.each l (withDefaults all) = Res.ok types)
    {k : String} {t : ComponentType α} (ht : (k, t) ∈ types) :
    ∃ s b c d, (k, s, b, c) ∈ l ∧ valueOr all k = Res.ok d ∧ t = ⟨s, b, d, c⟩ := by
  replace h := Res.each_eq_ok.mp h
  induction h with
  | nil => cases ht
  | @cons x _ _ _ h1 _ ih =>
    obtain ⟨d, h2, rfl⟩ := withDefaults_ok h1
    rcases List.mem_cons.mp ht with ht | ht
    · injection ht with h3 h4
      subst h3 h4
      exact ⟨x.2.1, x.2.2.1, x.2.2.2, d, by simp, h2, rfl⟩
    · obtain ⟨s, b, c, d, h3, h4⟩ := ih ht
      exact ⟨s, b, c, d, by simp [h3], h4⟩

theorem mem_table {α : Type} {all : Json} {l : List (String × Json × Option Json × (Json → Res α))}
    {types : List (String × ComponentType α)} (h : Res.each l (withDefaults all) = Res.ok types)
    {k : String} {s : Json} {b : Option Json} {c : Json → Res α} (ht : (k, s, b, c) ∈ l) :
    ∃ d, valueOr all k = Res.ok d ∧ (k, (⟨s, b, d, c⟩ : ComponentType α)) ∈ types := by
  replace h := Res.each_eq_ok.mp h
  induction h with
  | nil => cases ht
  | @cons x _ _ _ h1 _ ih =>
    obtain ⟨d, h2, rfl⟩ := withDefaults_ok h1
    rcases List.mem_cons.mp ht with rfl | ht
    · exact ⟨d, h2, by simp⟩
    · obtain ⟨d, h3, h4⟩ := ih ht
      exact ⟨d, h3, by simp [h4]⟩

theorem readNet_ok {draws : Json → Res (ℝ → Res (ℝ × ℝ))} {mem : ℕ → ℝ} {defaults topology boundary : Json}
    {g : Graph Network.Node Network.EdgeKind} (h : readNet draws mem defaults topology boundary = Res.ok g) :
    ∃ nodes edges, Res.each (nodeList draws mem) (withDefaults defaults) = Res.ok nodes ∧
      Res.each edgeList (withDefaults defaults) = Res.ok edges ∧
      buildNet accepts nodes edges topology boundary = Res.ok g := by
  unfold readNet at h
  obtain ⟨nodes, h1, h⟩ := Res.bind_eq_ok.mp h
  obtain ⟨edges, h2, h⟩ := Res.bind_eq_ok.mp h
  exact ⟨nodes, edges, h1, h2, h⟩

theorem proper_of {draws : Json → Res (ℝ → Res (ℝ × ℝ))} {mem : ℕ → ℝ} {defaults topology : Json}
    {nodes : List (String × ComponentType Network.Node)} {edges : List (String × ComponentType Network.EdgeKind)}
    (hn : Res.each (nodeList draws mem) (withDefaults defaults) = Res.ok nodes)
    (he : Res.each edgeList (withDefaults defaults) = Res.ok edges) (hs : Shaped topology) (hd : DistinctTypes topology) :
    Proper nodes edges topology := by
  refine ⟨?_, ?_, hs, hd⟩
  · rw [table_names hn]
    show ["ConstraintSink", "ExternalPowerplant", "Innode", "PQnode", "PVnode", "Pressureboundarynode", "Sink", "Source",
      "StochasticPQnode", "Vphinode"].Nodup
    decide
  · rw [table_names he]
    show ["Compressorstation", "Controlvalve", "Gaspowerconnection", "Pipe", "Shortpipe", "Transmissionline"].Nodup
    decide

/-! ## The constructors -/

theorem number_ok {data : Json} {key : String} {q : ℚ} : number data key = Res.ok q ↔ data.find? key = some (num q) := by
  unfold number
  constructor
  · intro h
    obtain ⟨v, h1, h⟩ := Res.bind_eq_ok.mp h
    cases v with
    | num x => injection h with h; subst h; exact index_eq_ok.mp h1
    | _ => cases h
  · intro h
    rw [index_of_find h]
    rfl

/-- The data of the constructor come from this entry with these defaults; the schema has these properties. -/
structure From (d j data : Json) (schema : Json) : Prop where
  given : ∀ m, schema.find? "properties" = some (obj m) → (m.map Prod.fst).Nodup → ∀ key, key ≠ "boundary_values" →
    m.lookup key = some numberType ∨ m.lookup key = some stringType → ∀ v, data.find? key = some v → Given d j key v
  part : ∀ m, schema.find? "properties" = some (obj m) → (m.map Prod.fst).Nodup → ∀ key, key ≠ "boundary_values" →
    m.lookup key = some measureSchema → ∀ sub, sub = "value" ∨ sub = "unit" → ∀ w, data.find? key = some w →
    w.isObj = true → ∀ v, w.find? sub = some v → GivenPart d j key sub v

theorem from_prepare {α : Type} {t : ComponentType α} {e j data : Json} (hj : j.isObj = true) (hk : Keeps e j)
    (h : prepare accepts t j = Res.ok data) : From t.defaults e data t.schema := by
  constructor
  · intro m hm hn key hkey hs v hv
    have : Given t.defaults j key v := by
      rcases hs with hs | hs <;> exact prepare_given hj h hm hn hkey hs rfl rfl hv
    unfold Given at this
    rw [hk key hkey] at this
    exact this
  · intro m hm hn key hkey hs sub hsub w hw ho v hv
    suffices GivenPart t.defaults j key sub v by
      unfold GivenPart at this
      rw [hk key hkey] at this
      exact this
    rcases hsub with rfl | rfl
    · exact prepare_part hj h hm hn hkey hs rfl (p := [("unit", stringType), ("value", numberType)]) rfl (by decide)
        (s' := numberType) rfl rfl rfl hw ho hv
    · exact prepare_part hj h hm hn hkey hs rfl (p := [("unit", stringType), ("value", numberType)]) rfl (by decide)
        (s' := stringType) rfl rfl rfl hw ho hv

theorem From.number {d j data schema : Json} (h : From d j data schema) {m : List (String × Json)}
    (hm : schema.find? "properties" = some (obj m)) (hn : (m.map Prod.fst).Nodup) {key : String}
    (hk : key ≠ "boundary_values") (hs : m.lookup key = some numberType) {q : ℚ} (hd : number data key = Res.ok q) :
    Number d j key q := h.given m hm hn key hk (Or.inl hs) _ (number_ok.mp hd)

theorem From.scheme {d j data schema : Json} (h : From d j data schema) {m : List (String × Json)}
    (hm : schema.find? "properties" = some (obj m)) (hn : (m.map Prod.fst).Nodup) (hs : m.lookup "scheme" = some stringType)
    {u : Unit} (hd : Read.scheme data = Res.ok u) : Given d j "scheme" (str "Implicitboxscheme") := by
  unfold Read.scheme at hd
  obtain ⟨v, h1, hd⟩ := Res.bind_eq_ok.mp hd
  rw [index_eq_ok] at h1
  split at hd
  · next hv =>
    have : v = str "Implicitboxscheme" := by
      cases v with
      | str t => rw [beq_iff_eq.mp hv]
      | _ => cases hv
    subst this
    exact h.given m hm hn _ (by decide) (Or.inr hs) _ h1
  · cases hd

theorem length_mem : Unit.length ∈ Unit.measures := by simp [Unit.measures]

theorem From.metres {d j data schema : Json} (h : From d j data schema) {m : List (String × Json)}
    (hm : schema.find? "properties" = some (obj m)) (hn : (m.map Prod.fst).Nodup) {key : String}
    (hk : key ≠ "boundary_values") (hs : m.lookup key = some measureSchema) {L : ℚ}
    (hd : metres data key = Res.ok L) : Metres d j key L := by
  unfold Read.metres at hd
  obtain ⟨w, h4, hd⟩ := Res.bind_eq_ok.mp hd
  rw [index_eq_ok] at h4
  split at hd
  · obtain ⟨u, h5, hd⟩ := Res.bind_eq_ok.mp hd
    rw [index_eq_ok] at h5
    have ho : w.isObj = true := by cases w <;> first | rfl | cases h5
    obtain ⟨unit, h6, hd'⟩ := Res.bind_eq_ok.mp hd
    have : u = str unit := by cases u <;> simp_all [getStr]
    subst this
    obtain ⟨value, h7, hd'⟩ := Res.bind_eq_ok.mp hd'
    have hv := h.part m hm hn key hk hs "value" (Or.inl rfl) w h4 ho _ (number_ok.mp h7)
    have hu := h.part m hm hn key hk hs "unit" (Or.inr rfl) w h4 ho _ h5
    by_cases hex : ∃ x c, Unit.Means Unit.length unit.toList x c
    · obtain ⟨x, c, hx⟩ := hex
      rw [Unit.C52_meaning _ length_mem _ x c hx] at hd'
      injection hd' with hd'
      exact ⟨value, unit, x, c, hv, hu, hx, hd'.symm⟩
    · rw [Unit.C52_rejected _ length_mem _ hex] at hd'
      cases hd'
  · cases hd

theorem node_matches {draws : Json → Res (ℝ → Res (ℝ × ℝ))} {mem : ℕ → ℝ} {defaults : Json}
    {nodes : List (String × ComponentType Network.Node)}
    (hn : Res.each (nodeList draws mem) (withDefaults defaults) = Res.ok nodes) {e : String × Json} {n : Network.Node}
    (h : Prepared accepts nodes e n) : NodeMatches (defaultsFor defaults e.1) e n := by
  obtain ⟨t, data, j', ht, hc, hj, hk, hp⟩ := h
  obtain ⟨s, b, c, d, hl, hdef, rfl⟩ := table_mem hn ht
  obtain ⟨name, j⟩ := e
  have hd := from_prepare hj hk hp
  rw [valueOr_ok hdef] at hd
  have power : (∃ m, s.find? "properties" = some (obj m) ∧ (m.map Prod.fst).Nodup ∧ m.lookup "G" = some numberType ∧
      m.lookup "B" = some numberType) → ∀ kind : Network.NodeKind, powerNode kind mem data = Res.ok n → n.kind = kind ∧
      (∃ q, Number (defaultsFor defaults name) j "G" q ∧ n.G = q) ∧
      ∃ q, Number (defaultsFor defaults name) j "B" q ∧ n.B = q := by
    rintro ⟨m, hm, hnd, hmG, hmB⟩ kind h
    unfold powerNode at h
    obtain ⟨b, -, h⟩ := Res.bind_eq_ok.mp h
    obtain ⟨G, hG, h⟩ := Res.bind_eq_ok.mp h
    obtain ⟨B, hB, h⟩ := Res.bind_eq_ok.mp h
    injection h with h
    subst h
    exact ⟨rfl, ⟨G, hd.number hm hnd (by decide) hmG hG, rfl⟩, B, hd.number hm hnd (by decide) hmB hB, rfl⟩
  have gas : ∀ kind : Network.NodeKind, kindOf name = some kind → n.kind = kind → kind.isGas = true →
      NodeMatches (defaultsFor defaults name) (name, j) n := by
    intro kind h1 h2 h3
    subst h2
    have : ¬ n.kind.isPower = true := by
      generalize n.kind = k at h3
      cases k <;> simp_all [Network.NodeKind.isGas, Network.NodeKind.isPower]
    exact ⟨h1, fun h => absurd h this, fun h => absurd h this⟩
  have flow : ∀ f : Res (IV ℝ), (f.bind fun b => Res.ok (⟨.flow, one b, 0, 0⟩ : Network.Node)) = Res.ok n → n.kind = .flow := by
    intro f h
    obtain ⟨b, -, h⟩ := Res.bind_eq_ok.mp h
    injection h with h
    subst h
    rfl
  simp only [nodeList, List.mem_cons, List.not_mem_nil, or_false, Prod.mk.injEq] at hl
  rcases hl with ⟨rfl, rfl, -, rfl⟩ | ⟨rfl, rfl, -, rfl⟩ | ⟨rfl, rfl, -, rfl⟩ | ⟨rfl, rfl, -, rfl⟩ | ⟨rfl, rfl, -, rfl⟩ |
    ⟨rfl, rfl, -, rfl⟩ | ⟨rfl, rfl, -, rfl⟩ | ⟨rfl, rfl, -, rfl⟩ | ⟨rfl, rfl, -, rfl⟩ | ⟨rfl, rfl, -, rfl⟩
  · exact gas _ rfl (flow _ hc) rfl
  · obtain ⟨h1, h2, h3⟩ := power ⟨_, rfl, by decide, rfl, rfl⟩ _ hc
    exact ⟨by rw [h1]; rfl, fun _ => h2, fun _ => h3⟩
  · injection hc with hc
    subst hc
    exact gas _ rfl rfl rfl
  · obtain ⟨h1, h2, h3⟩ := power ⟨_, rfl, by decide, rfl, rfl⟩ _ hc
    exact ⟨by rw [h1]; rfl, fun _ => h2, fun _ => h3⟩
  · obtain ⟨h1, h2, h3⟩ := power ⟨_, rfl, by decide, rfl, rfl⟩ _ hc
    exact ⟨by rw [h1]; rfl, fun _ => h2, fun _ => h3⟩
  · obtain ⟨b, -, h⟩ := Res.bind_eq_ok.mp hc
    injection h with h
    subst h
    exact gas _ rfl rfl rfl
  · exact gas _ rfl (flow _ hc) rfl
  · exact gas _ rfl (flow _ hc) rfl
  · obtain ⟨n', h1, h⟩ := Res.bind_eq_ok.mp hc
    obtain ⟨dr, -, h⟩ := Res.bind_eq_ok.mp h
    injection h with h
    unfold powerNode at h1
    obtain ⟨b, -, h1⟩ := Res.bind_eq_ok.mp h1
    obtain ⟨G, hG, h1⟩ := Res.bind_eq_ok.mp h1
    obtain ⟨B, hB, h1⟩ := Res.bind_eq_ok.mp h1
    injection h1 with h1
    subst h1 h
    exact ⟨rfl, fun _ => ⟨G, hd.number rfl (by decide) (by decide) rfl hG, rfl⟩,
      fun _ => ⟨B, hd.number rfl (by decide) (by decide) rfl hB, rfl⟩⟩
  · obtain ⟨h1, h2, h3⟩ := power ⟨_, rfl, by decide, rfl, rfl⟩ _ hc
    exact ⟨by rw [h1]; rfl, fun _ => h2, fun _ => h3⟩

theorem edge_matches {defaults : Json} {edges : List (String × ComponentType Network.EdgeKind)}
    (hn : Res.each edgeList (withDefaults defaults) = Res.ok edges) {e : String × Json} {x : Network.EdgeKind}
    (h : Prepared accepts edges e x) : EdgeMatches (defaultsFor defaults e.1) e.2 e.1 x := by
  obtain ⟨t, data, j', ht, hc, hj, hk, hp⟩ := h
  obtain ⟨s, b, c, d, hl, hdef, rfl⟩ := table_mem hn ht
  obtain ⟨name, j⟩ := e
  have hd := from_prepare hj hk hp
  rw [valueOr_ok hdef] at hd
  simp only [edgeList, List.mem_cons, List.not_mem_nil, or_false, Prod.mk.injEq] at hl
  rcases hl with ⟨rfl, rfl, -, rfl⟩ | ⟨rfl, rfl, -, rfl⟩ | ⟨rfl, rfl, -, rfl⟩ | ⟨rfl, rfl, -, rfl⟩ | ⟨rfl, rfl, -, rfl⟩ |
    ⟨rfl, rfl, -, rfl⟩
  · injection hc with hc; subst hc; exact .compressor 0
  · injection hc with hc; subst hc; exact .controlvalve 0
  · change connection data = _ at hc
    unfold connection at hc
    obtain ⟨g, hg, hc⟩ := Res.bind_eq_ok.mp hc
    obtain ⟨p, hp, hc⟩ := Res.bind_eq_ok.mp hc
    injection hc with hc
    subst hc
    exact .gaspower _ _ _ (hd.number rfl (by decide) (by decide) rfl hg) (hd.number rfl (by decide) (by decide) rfl hp)
  · change pipe data = _ at hc
    unfold pipe at hc
    obtain ⟨L, hL, hc⟩ := Res.bind_eq_ok.mp hc
    obtain ⟨w, hw, hc⟩ := Res.bind_eq_ok.mp hc
    obtain ⟨n, hn, hc⟩ := Res.bind_eq_ok.mp hc
    obtain ⟨d, hdi, hc⟩ := Res.bind_eq_ok.mp hc
    obtain ⟨r, hr, hc⟩ := Res.bind_eq_ok.mp hc
    obtain ⟨u, hu, hc⟩ := Res.bind_eq_ok.mp hc
    split at hc
    · cases hc
    · injection hc with hc
      subst hc
      refine .pipe L w d r _ _ (hd.metres rfl (by decide) (by decide) rfl hL)
        (hd.number rfl (by decide) (by decide) rfl hw) (hd.metres rfl (by decide) (by decide) rfl hdi)
        (hd.metres rfl (by decide) (by decide) rfl hr) (hd.scheme rfl (by decide) rfl hu) fun h0 h1 => ?_
      have h0' : (0 : ℝ) < L := by exact_mod_cast h0
      have h1' : (0 : ℝ) < w := by exact_mod_cast h1
      have hi : (L : ℝ) / w ≤ 2147483646 := by
        unfold Gas.numberOfPoints at hn
        rw [if_neg h1'.ne'] at hn
        split at hn
        · next hh =>
          have := Int.le_ceil ((L : ℝ) / w)
          have h2 : (⌈(L : ℝ) / w⌉ : ℝ) ≤ 2147483646 := by
            have := hh.2
            have h3 : ⌈(L : ℝ) / w⌉ ≤ 2147483646 := by omega
            exact_mod_cast h3
          linarith
        · cases hn
      obtain ⟨n', e1, e2, e3, -, e4, e5⟩ := Gas.C38_widths _ _ h0' h1' hi
      rw [hn] at e1
      injection e1 with e1
      subst e1
      have hcast : ((n.toNat : ℕ) : ℝ) = (n : ℝ) := by
        have : ((n.toNat : ℕ) : ℤ) = n := Int.toNat_of_nonneg (by omega)
        exact_mod_cast this
      exact ⟨by omega, by rw [hcast]; exact e3, e4, by rw [hcast]; exact e5⟩
  · injection hc with hc; subst hc; exact .shortpipe 0
  · change line data = _ at hc
    unfold line at hc
    obtain ⟨g, hg, hc⟩ := Res.bind_eq_ok.mp hc
    obtain ⟨p, hp, hc⟩ := Res.bind_eq_ok.mp hc
    injection hc with hc
    subst hc
    exact .line _ _ (hd.number rfl (by decide) (by decide) rfl hg) (hd.number rfl (by decide) (by decide) rfl hp)

/-- C99. Whenever a network is read from jsons, its nodes and edges are exactly those of the topology, up to the order: each
has the id and the type of its entry and the physical data given there or in the defaults, in SI units, and each edge leads
from the node named "from" to the node named "to". -/
theorem C99_components {draws : Json → Res (ℝ → Res (ℝ × ℝ))} {mem : ℕ → ℝ} {defaults topology boundary : Json}
    (hs : Shaped topology) (hd : DistinctTypes topology) {g : Graph Network.Node Network.EdgeKind}
    (h : readNet draws mem defaults topology boundary = Res.ok g) :
    (∃ es, es.Perm (entries (types topology "nodes")) ∧
      List.Forall₂ (fun e n => id? e.2 = some n.id ∧ NodeMatches (defaultsFor defaults e.1) e n.data) es g.nodes) ∧
    ∃ es, es.Perm (entries (types topology "connections")) ∧
      List.Forall₂ (fun e x => id? e.2 = some x.id ∧ EdgeMatches (defaultsFor defaults e.1) e.2 e.1 x.data ∧
        (∀ a, e.2.find? "from" = some (str a) → g.nodeId x.src = some a) ∧
        ∀ b, e.2.find? "to" = some (str b) → g.nodeId x.dst = some b) es g.edges := by
  obtain ⟨nodes, edges, h1, h2, h3⟩ := readNet_ok h
  obtain ⟨-, -, ⟨ns, p1, f1⟩, es, p2, f2⟩ := buildNet_made (proper_of h1 h2 hs hd) h3
  exact ⟨⟨ns, p1, f1.imp fun _ _ h => ⟨h.1, node_matches h1 h.2⟩⟩, es, p2,
    f2.imp fun _ _ h => ⟨h.1.1, edge_matches h2 h.2, h.1.2.2⟩⟩

end Verif.Read
