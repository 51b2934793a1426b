import Verif.Read.Props

/-!
# Property C99: boundary conditions of the network that is simulated

The boundary condition of a node is the piecewise linear interpolation of the values listed for its id in the boundary json,
with the opposite sign for sinks.
-/

set_option autoImplicit false

namespace Verif.Read

open Verif.Json Verif.Factory Verif.Interp Verif.Schema

/-! ## Specification -/

/-- The types of nodes with boundary conditions, and the sign of the values listed for them. (The demand of a
`StochasticPQnode` is random, see `Verif.Stochastic`.) -/
def signOf : String → Option ℝ
  | "Source" | "Pressureboundarynode" | "PQnode" | "PVnode" | "Vphinode" | "ExternalPowerplant" => some 1
  | "Sink" | "ConstraintSink" => some (-1)
  | _ => none

/-- The json lists these values at these times. -/
def Lists (j : Json) (l : List (ℚ × List ℚ)) : Prop :=
  ∃ es, j.find? "data" = some (arr es) ∧ List.Forall₂ Gas.Entry es l

/-- The first and the second of the listed values, the second one is zero if there is only one. -/
noncomputable def listed (sign : ℝ) (e : ℚ × List ℚ) : ℝ × ℝ :=
  (sign * ((e.2.getD 0 0 : ℚ) : ℝ), sign * ((e.2.getD 1 0 : ℚ) : ℝ))

/-- The function has the listed values at the listed times, is affine between these and throws outside. -/
structure Interpolates (sign : ℝ) (l : List (ℚ × List ℚ)) (f : ℝ → Res (ℝ × ℝ)) : Prop where
  points : ∀ i (hi : i < l.length), f (l[i].1 : ℝ) = Res.ok (listed sign l[i])
  between : ∀ i (hi : i + 1 < l.length) (t : ℝ), (l[i].1 : ℝ) ≤ t → t ≤ (l[i + 1].1 : ℝ) →
    f t = Res.ok (listed sign l[i] + ((t - l[i].1) / (l[i + 1].1 - l[i].1)) • (listed sign l[i + 1] - listed sign l[i]))
  outside : ∀ (hi : 0 < l.length) (t : ℝ), t < l[0].1 - EPSILON ∨ (l[l.length - 1].1 : ℝ) + EPSILON < t → f t = Res.throws

/-! ## Reading -/

theorem boundaryOf_ok (k : ℕ) : boundarySchema k = Res.ok (boundaryOf k) := by
  unfold boundaryOf
  rw [boundary_eq]

/-- What is read from a list. -/
theorem readVector_ok {k : ℕ} {mem : ℕ → ℝ} {b : Json} {v : IV ℝ}
    (h : Gas.readVector (accepts (boundaryOf k)) mem b = Res.ok v) {l : List (ℚ × List ℚ)} (hl : Lists b l) :
    l ≠ [] ∧ (∀ e ∈ l, e.2.length = k) ∧ constructFromJson mem (Gas.real l) = Res.ok v := by
  obtain ⟨es, hd, he⟩ := hl
  unfold Gas.readVector at h
  split at h
  · next hv =>
    rw [index_of_find hd, Res.ok_bind] at h
    obtain ⟨id, es', -, h1, h2⟩ := (C78_accepts (boundaryOf_ok k) b).mp hv
    rw [hd] at h1
    injection h1 with h1
    injection h1 with h1
    subst h1
    refine ⟨?_, ?_, ?_⟩
    · rintro rfl
      cases he
      cases h
    · intro e hm
      obtain ⟨j, hj, h3⟩ := forall₂_mem_right he hm
      obtain ⟨w, h4, h5⟩ := (h2 j hj).2 _ h3.2.2
      injection h5 with h5
      have := congrArg List.length h5
      simp only [List.length_map] at this
      exact this.trans h4
    · cases he with
      | nil => cases h
      | @cons j e es l h3 h4 =>
        have e1 := Gas.each_readEntry (.cons h3 h4)
        simp only [contains, h3.1, Option.isSome_none, Bool.false_eq_true, if_false, e1, Res.ok_bind] at h
        exact h
  · cases h

theorem Lists.negative {b b' : Json} {l : List (ℚ × List ℚ)} (h : Lists b l)
    (he : Gas.edit b "data" (fun d => Gas.forElements (fun datum => Gas.edit datum "values" (Gas.forElements Gas.negate)) d) =
      Res.ok b') : Lists b' (Gas.negative l) := by
  obtain ⟨es, hd, hf⟩ := h
  obtain ⟨es', h1, h2, h3⟩ := Gas.each_entries hf
  have e1 : Gas.forElements (fun datum => Gas.edit datum "values" (Gas.forElements Gas.negate)) (arr es) = Res.ok (arr es') := by
    simp only [Gas.forElements, h1]; rfl
  have e2 : Gas.forElements (fun datum => Gas.edit datum "values" (Gas.forElements Gas.negate)) (arr es') = Res.ok (arr es) := by
    simp only [Gas.forElements, h2]; rfl
  obtain ⟨b'', h4, -, h5, -⟩ := Gas.edit_find hd e1 e2
  rw [he] at h4
  injection h4 with h4
  subst h4
  exact ⟨es', h5, h3⟩

theorem getD_of {w : List ℝ} {l : List ℚ} (h : w = l.map fun q : ℚ => (q : ℝ)) {i : ℕ} (hi : i < l.length) :
    Res.get w i = Res.ok ((l.getD i 0 : ℚ) : ℝ) := by
  subst h
  simp [Res.get, hi]

/-- The vector that is read, evaluated. -/
theorem vector_eval {k : ℕ} {mem : ℕ → ℝ} {l : List (ℚ × List ℚ)} (hne : l ≠ []) (hk : ∀ e ∈ l, e.2.length = k)
    (hs : (l.map Prod.fst).Pairwise (· < ·)) {v : IV ℝ} (h : constructFromJson mem (Gas.real l) = Res.ok v) :
    (∀ i (hi : i < l.length), eval v (l[i].1 : ℝ) = Res.ok (l[i].2.map fun q : ℚ => (q : ℝ))) ∧
    (∀ i (hi : i + 1 < l.length) (t : ℝ), (l[i].1 : ℝ) ≤ t → t ≤ (l[i + 1].1 : ℝ) → ∃ r, eval v t = Res.ok r ∧
      r.length = k ∧ ∀ c < k, r[c]? = some (((l[i].2.getD c 0 : ℚ) : ℝ) +
        ((t - l[i].1) / (l[i + 1].1 - l[i].1)) * (((l[i + 1].2.getD c 0 : ℚ) : ℝ) - ((l[i].2.getD c 0 : ℚ) : ℝ)))) ∧
    ∀ (hi : 0 < l.length) (t : ℝ), t < l[0].1 - EPSILON ∨ (l[l.length - 1].1 : ℝ) + EPSILON < t → eval v t = Res.throws := by
  have hlen : (Gas.real l).length = l.length := by simp [Gas.real]
  obtain ⟨v', h1, hwf, hin, hpts, hvals⟩ := C66_from_json mem (Gas.real l) (by simp [Gas.real, hne]) k (by
    intro e he
    obtain ⟨x, hx, rfl⟩ := List.mem_map.mp he
    simpa using hk x hx)
  rw [h] at h1
  injection h1 with h1
  subst h1
  have hp : v.points = l.map fun e => (e.1 : ℝ) := by rw [hpts]; simp [Gas.real]
  have hpl : v.points.length = l.length := by rw [hp, List.length_map]
  have hget : ∀ i (hi : i < l.length), v.points[i]'(by omega) = (l[i].1 : ℝ) := by intro i hi; simp [hp]
  have hsort : v.points.Pairwise (· < ·) := by
    rw [hp]
    rw [List.pairwise_map] at hs ⊢
    exact hs.imp fun h => by exact_mod_cast h
  have hreal : ∀ i (hi : i < l.length), ((Gas.real l)[i]'(by omega)).2 = l[i].2.map fun q : ℚ => (q : ℝ) := by
    intro i hi; simp [Gas.real]
  have hnode : ∀ i (hi : i < l.length), vectorAtIndex v (i : ℤ) = Res.ok (l[i].2.map fun q : ℚ => (q : ℝ)) := by
    intro i hi
    rw [hvals i (by omega), hreal i hi]
  have hval : ∀ i (hi : i < l.length), ∀ c < k, v.values[i * k + c]? = some ((l[i].2.getD c 0 : ℚ) : ℝ) := by
    intro i hi c hc
    obtain ⟨-, w, h3, h4, h5⟩ := C01_eval_at_node v hwf hsort i (by omega)
    rw [hnode i hi] at h3
    injection h3 with h3
    rw [hin] at h5
    rw [← h5 c hc, ← h3]
    have := hk l[i] (List.getElem_mem _)
    simp [hc, this]
  refine ⟨fun i hi => ?_, fun i hi t ht1 ht2 => ?_, fun hi t ht => ?_⟩
  · have := (C01_eval_at_node v hwf hsort i (by omega)).1
    rw [hget i hi, hnode i hi] at this
    exact this
  · obtain ⟨r, h3, h4, h5⟩ := C02_eval_affine v hwf hsort i (by omega) t (by rw [hget i (by omega)]; exact ht1)
      (by rw [hget (i + 1) hi]; exact ht2)
    rw [hin] at h4 h5
    refine ⟨r, h3, h4, fun c hc => ?_⟩
    obtain ⟨a, b, x, h6, h7, h8, h9, -⟩ := h5 c hc
    rw [hval i (by omega) c hc] at h6
    rw [hval (i + 1) hi c hc] at h7
    injection h6 with h6
    injection h7 with h7
    rw [h8, h9, h6, h7, hget i (by omega), hget (i + 1) hi]
    congr 2
    ring
  · refine (C03_eval_range v hwf hsort (by omega) t).1.mpr ?_
    have e : v.points[v.points.length - 1] = (l[l.length - 1].1 : ℝ) := by
      simp only [hpl]; exact hget _ _
    rw [e, hget 0 hi]
    exact ht

theorem interpolates_one {mem : ℕ → ℝ} {l : List (ℚ × List ℚ)} (hne : l ≠ []) (hk : ∀ e ∈ l, e.2.length = 1)
    (hs : (l.map Prod.fst).Pairwise (· < ·)) {v : IV ℝ} (h : constructFromJson mem (Gas.real l) = Res.ok v) :
    Interpolates 1 l (one v) := by
  obtain ⟨h1, h2, h3⟩ := vector_eval hne hk hs h
  have hz : ∀ e ∈ l, e.2[1]?.getD 0 = 0 := by
    intro e he
    have := hk e he
    simp [this]
  refine ⟨fun i hi => ?_, fun i hi t ht1 ht2 => ?_, fun hi t ht => ?_⟩
  · unfold one
    rw [h1 i hi, Res.ok_bind, getD_of rfl (by rw [hk _ (List.getElem_mem _)]; exact Nat.one_pos), Res.ok_bind]
    simp [listed, hz l[i] (List.getElem_mem _)]
  · obtain ⟨r, h4, h5, h6⟩ := h2 i hi t ht1 ht2
    unfold one
    have h7 := h6 0 Nat.one_pos
    rw [h4, Res.ok_bind]
    unfold Res.get
    rw [h7]
    simp only [Res.ok_bind]
    congr 1
    ext
    · simp [listed]
    · simp [listed, hz l[i] (List.getElem_mem _), hz l[i + 1] (List.getElem_mem _)]
  · unfold one
    rw [h3 hi t ht]
    rfl

theorem interpolates_two {mem : ℕ → ℝ} {l : List (ℚ × List ℚ)} (hne : l ≠ []) (hk : ∀ e ∈ l, e.2.length = 2)
    (hs : (l.map Prod.fst).Pairwise (· < ·)) {v : IV ℝ} (h : constructFromJson mem (Gas.real l) = Res.ok v) :
    Interpolates 1 l (two v) := by
  obtain ⟨h1, h2, h3⟩ := vector_eval hne hk hs h
  refine ⟨fun i hi => ?_, fun i hi t ht1 ht2 => ?_, fun hi t ht => ?_⟩
  · unfold two
    have hl := hk _ (List.getElem_mem hi)
    rw [h1 i hi, Res.ok_bind, getD_of rfl (by omega), Res.ok_bind, getD_of rfl (by omega), Res.ok_bind]
    simp [listed]
  · obtain ⟨r, h4, h5, h6⟩ := h2 i hi t ht1 ht2
    unfold two
    have h7 := h6 0 (by decide)
    have h8 := h6 1 (by decide)
    rw [h4, Res.ok_bind]
    unfold Res.get
    rw [h7, h8]
    simp only [Res.ok_bind]
    congr 1
    ext <;> simp [listed]
  · unfold two
    rw [h3 hi t ht]
    rfl

theorem Interpolates.negative {l : List (ℚ × List ℚ)} {f : ℝ → Res (ℝ × ℝ)} (h : Interpolates 1 (Gas.negative l) f) :
    Interpolates (-1) l f := by
  have hl : (Gas.negative l).length = l.length := by simp [Gas.negative]
  have hg : ∀ i (hi : i < l.length), ((Gas.negative l)[i]'(by omega)).1 = l[i].1 := by intro i hi; simp [Gas.negative]
  have hv : ∀ i (hi : i < l.length), listed 1 ((Gas.negative l)[i]'(by omega)) = listed (-1) l[i] := by
    intro i hi
    have key : ∀ (w : List ℚ) c, (w.map fun q => -q).getD c 0 = -(w.getD c 0) := by
      intro w c
      simp only [List.getD_eq_getElem?_getD, List.getElem?_map]
      cases w[c]? <;> simp
    have e : (Gas.negative l)[i]'(by omega) = (l[i].1, l[i].2.map fun q => -q) := by simp [Gas.negative]
    rw [e]
    simp only [listed, key]
    ext <;> push_cast <;> ring
  refine ⟨fun i hi => ?_, fun i hi t ht1 ht2 => ?_, fun hi t ht => ?_⟩
  · have := h.points i (by omega)
    rw [hg i hi, hv i hi] at this
    exact this
  · have := h.between i (by omega) t (by rw [hg i (by omega)]; exact ht1) (by rw [hg (i + 1) hi]; exact ht2)
    rw [hg i (by omega), hg (i + 1) hi, hv i (by omega), hv (i + 1) hi] at this
    exact this
  · refine h.outside (by omega) t ?_
    have e : (Gas.negative l)[(Gas.negative l).length - 1].1 = l[l.length - 1].1 := by
      simp only [hl]; exact hg _ _
    rw [e, hg 0 hi]
    exact ht

/-! ## Construction -/

theorem source_read {k : ℕ} {mem : ℕ → ℝ} {data b : Json} (hb : data.find? "boundary_values" = some b) {v : IV ℝ}
    (h : Gas.source (accepts (boundaryOf k)) mem data = Res.ok v) :
    Gas.readVector (accepts (boundaryOf k)) mem b = Res.ok v := by
  unfold Gas.source at h
  rw [index_of_find hb] at h
  exact h

theorem sink_read {mem : ℕ → ℝ} {data b : Json} (hb : data.find? "boundary_values" = some b) {v : IV ℝ}
    (h : Gas.sink (accepts (boundaryOf 1)) mem data = Res.ok v) {l : List (ℚ × List ℚ)} (hl : Lists b l) :
    ∃ b', Gas.readVector (accepts (boundaryOf 1)) mem b' = Res.ok v ∧ Lists b' (Gas.negative l) := by
  unfold Gas.sink at h
  obtain ⟨es, hd, he⟩ := hl
  obtain ⟨data', h1, ⟨b', es', h2, h3, h4⟩, -, -⟩ := Gas.C65_revert data l ⟨b, es, hb, hd, he⟩
  rw [h1, Res.ok_bind] at h
  exact ⟨b', source_read h2 h, es', h3, h4⟩

theorem needs {name : String} {s : ℝ} (hs : signOf name = some s) {draws : Json → Res (ℝ → Res (ℝ × ℝ))} {mem : ℕ → ℝ}
    {defaults : Json} (hdef : (defaultsFor defaults name).find? "boundary_values" = none) {nodes : List (String × ComponentType Network.Node)}
    (hn : Res.each (nodeList draws mem) (withDefaults defaults) = Res.ok nodes) :
    ∃ t, (name, t) ∈ nodes ∧ NeedsBoundary t ∧ ∀ data b n, data.find? "boundary_values" = some b → t.construct data = Res.ok n →
      ∀ l, Lists b l → (l.map Prod.fst).Pairwise (· < ·) → l ≠ [] ∧ Interpolates s l n.boundary := by
  have keys : ∀ sc p, (sc = idSchema ∨ sc = powerTopology) → sc.find? "properties" = some p →
      ∀ x ∈ p.items, x.1 ≠ "boundary_values" := by
    rintro sc p (rfl | rfl) hp x hx
    · have e : idSchema.find? "properties" = some (obj [("id", stringType)]) := rfl
      rw [e] at hp
      injection hp with hp
      subst hp
      simp only [items, List.mem_singleton] at hx
      subst hx
      decide
    · have e : powerTopology.find? "properties" = some (obj [("B", numberType), ("G", numberType), ("id", stringType)]) := rfl
      rw [e] at hp
      injection hp with hp
      subst hp
      simp only [items, List.mem_cons, List.not_mem_nil, or_false] at hx
      rcases hx with rfl | rfl | rfl <;> decide
  have nb : ∀ k, (boundaryOf k).find? "default" = none := by
    intro k
    have h1 := boundaryOf_ok k
    rw [boundary_eq] at h1
    injection h1 with h1
    rw [← h1]
    rfl
  have base : ∀ sc k c, (sc = idSchema ∨ sc = powerTopology) → (name, sc, some (boundaryOf k), c) ∈ nodeList draws mem →
      (∀ data b n, data.find? "boundary_values" = some b → c data = Res.ok n →
        ∀ l, Lists b l → (l.map Prod.fst).Pairwise (· < ·) → l ≠ [] ∧ Interpolates s l n.boundary) →
      ∃ t, (name, t) ∈ nodes ∧ NeedsBoundary t ∧ ∀ data b n, data.find? "boundary_values" = some b → t.construct data = Res.ok n →
      ∀ l, Lists b l → (l.map Prod.fst).Pairwise (· < ·) → l ≠ [] ∧ Interpolates s l n.boundary := by
    intro sc k c hsc hm hc
    obtain ⟨d, h1, h2⟩ := mem_table hn hm
    refine ⟨_, h2, ⟨⟨_, rfl, nb k⟩, fun p hp => keys sc p hsc hp, ?_⟩, hc⟩
    show d.find? "boundary_values" = none
    rw [valueOr_ok h1]
    exact hdef
  have hsource : ∀ kind : Network.NodeKind, ∀ data b n, data.find? "boundary_values" = some b →
      ((Gas.source (accepts (boundaryOf 1)) mem data).bind fun b => Res.ok (⟨kind, one b, 0, 0⟩ : Network.Node)) = Res.ok n →
      ∀ l, Lists b l → (l.map Prod.fst).Pairwise (· < ·) → l ≠ [] ∧ Interpolates 1 l n.boundary := by
    intro kind data b n hb h l hl hsort
    obtain ⟨v, h1, h⟩ := Res.bind_eq_ok.mp h
    injection h with h
    subst h
    obtain ⟨h2, h3, h4⟩ := readVector_ok (source_read hb h1) hl
    exact ⟨h2, interpolates_one h2 h3 hsort h4⟩
  have hsink : ∀ data b n, data.find? "boundary_values" = some b → sink mem data = Res.ok n →
      ∀ l, Lists b l → (l.map Prod.fst).Pairwise (· < ·) → l ≠ [] ∧ Interpolates (-1) l n.boundary := by
    intro data b n hb h l hl hsort
    obtain ⟨v, h1, h⟩ := Res.bind_eq_ok.mp h
    injection h with h
    subst h
    obtain ⟨b', h5, h6⟩ := sink_read hb h1 hl
    obtain ⟨h2, h3, h4⟩ := readVector_ok h5 h6
    refine ⟨fun e => h2 (by rw [e]; rfl), (interpolates_one h2 h3 ?_ h4).negative⟩
    simpa [Gas.negative, List.map_map, Function.comp_def] using hsort
  have hpower : ∀ kind : Network.NodeKind, ∀ data b n, data.find? "boundary_values" = some b →
      powerNode kind mem data = Res.ok n →
      ∀ l, Lists b l → (l.map Prod.fst).Pairwise (· < ·) → l ≠ [] ∧ Interpolates 1 l n.boundary := by
    intro kind data b n hb h l hl hsort
    unfold powerNode at h
    obtain ⟨v, h1, h⟩ := Res.bind_eq_ok.mp h
    obtain ⟨G, -, h⟩ := Res.bind_eq_ok.mp h
    obtain ⟨B, -, h⟩ := Res.bind_eq_ok.mp h
    injection h with h
    subst h
    obtain ⟨h2, h3, h4⟩ := readVector_ok (source_read hb h1) hl
    exact ⟨h2, interpolates_two h2 h3 hsort h4⟩
  unfold signOf at hs
  split at hs <;> cases hs
  · exact base idSchema 1 (source mem) (Or.inl rfl) (by simp [nodeList]) (hsource .flow)
  · exact base idSchema 1 (pressureNode mem) (Or.inl rfl) (by simp [nodeList]) (hsource .pressure)
  · exact base powerTopology 2 (powerNode (.power .pq) mem) (Or.inr rfl) (by simp [nodeList]) (hpower _)
  · exact base powerTopology 2 (powerNode (.power .pv) mem) (Or.inr rfl) (by simp [nodeList]) (hpower _)
  · exact base powerTopology 2 (powerNode (.power .vphi) mem) (Or.inr rfl) (by simp [nodeList]) (hpower _)
  · exact base powerTopology 2 (powerNode .plant mem) (Or.inr rfl) (by simp [nodeList]) (hpower _)
  · exact base idSchema 1 (sink mem) (Or.inl rfl) (by simp [nodeList]) hsink
  · exact base idSchema 1 (sink mem) (Or.inl rfl) (by simp [nodeList]) hsink

theorem Kept.lists {e v : Json} (h : Kept e v) {l : List (ℚ × List ℚ)} (hl : Lists e l) : Lists v l := by
  obtain ⟨es, h1, h2⟩ := hl
  cases h with
  | same => exact ⟨es, h1, h2⟩
  | extended m m' hk hv =>
    obtain ⟨w, hw⟩ := hk "data" _ h1
    have := hv "data" _ _ h1 hw
    cases this
    exact ⟨es, hw, h2⟩

/-- C99. Whenever a network is read, the boundary json has an entry with the id of each node whose type has boundary
conditions. If this entry lists values at increasing times, the boundary condition of the node is the interpolation of these,
with the opposite sign for sinks. (Boundary values in the topology or in the defaults are not considered.) -/
theorem C99_boundary {draws : Json → Res (ℝ → Res (ℝ × ℝ))} {mem : ℕ → ℝ} {defaults topology boundary : Json}
    (ho : topology.isObj = true) (hs : Shaped topology) (hd : DistinctTypes topology) (sb : Shaped boundary)
    (db : DistinctTypes boundary) {g : Graph Network.Node Network.EdgeKind}
    (h : readNet draws mem defaults topology boundary = Res.ok g) {name : String} {x : Json}
    (hx : (name, x) ∈ entries (types topology "nodes")) {s : ℝ} (hsign : signOf name = some s)
    (hnone : x.find? "boundary_values" = none) (hdef : (defaultsFor defaults name).find? "boundary_values" = none) :
    ∃ n ∈ g.nodes, id? x = some n.id ∧ ∃ e, (name, e) ∈ entries (types boundary "nodes") ∧ id? e = some n.id ∧
      ∀ l, Lists e l → (l.map Prod.fst).Pairwise (· < ·) → l ≠ [] ∧ Interpolates s l n.data.boundary := by
  obtain ⟨nodes, edges, h1, h2, h3⟩ := readNet_ok h
  obtain ⟨t, ht, hneed, hcon⟩ := needs hsign hdef h1
  obtain ⟨n, hn, hid, ls, h4, e, he, h5, data, v, h6, h7, h8⟩ :=
    (C46_validated (proper_of h1 h2 hs hd) ho sb db h3).1 name x t hx ht hneed hnone
  refine ⟨n, hn, hid, e, ?_, h5.trans hid, fun l hl hsort => hcon data v n.data h7 h6 l (Kept.lists h8 hl) hsort⟩
  unfold list? at h4
  cases hf : boundary.find? "nodes" with
  | none => rw [hf] at h4; simp at h4
  | some w =>
    obtain ⟨m, rfl, -⟩ := sb "nodes" (by simp [classes]) w hf
    rw [hf] at h4
    simp only [Option.bind_some, find?] at h4
    split at h4
    · next l' hl =>
      injection h4 with h4
      subst h4
      refine mem_entries.mpr ⟨arr l', ?_, he⟩
      unfold types
      rw [hf]
      exact mem_of_lookup hl
    · cases h4

end Verif.Read
