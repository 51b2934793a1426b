import Verif.Editor.Witness
import Verif.Read.DefinedNet

/-!
# Property C126, first part: components without mistakes pass the validation
-/

set_option autoImplicit false

namespace Verif.Read

open Verif.Json Verif.Factory Verif.Interp Verif.Schema Verif.Editor

/-! ## Specification -/

/-- What is expected under a key. -/
inductive Want
  | text
  | number
  | quantity

/-- What an entry of each type in a topology needs, in the order of the keys. -/
def keysOf : String → List (String × Want)
  | "ConstraintSink" | "Innode" | "Pressureboundarynode" | "Sink" | "Source" => [("id", .text)]
  | "ExternalPowerplant" | "PQnode" | "PVnode" | "Vphinode" => [("B", .number), ("G", .number), ("id", .text)]
  | "StochasticPQnode" => [("B", .number), ("G", .number), ("cut_off_factor", .number), ("id", .text),
      ("number_of_stochastic_steps", .number), ("sigma_P", .number), ("sigma_Q", .number), ("stability_parameter", .number),
      ("theta_P", .number), ("theta_Q", .number)]
  | "Compressorstation" | "Controlvalve" | "Shortpipe" => [("from", .text), ("id", .text), ("to", .text)]
  | "Gaspowerconnection" => [("from", .text), ("gas2power_q_coeff", .number), ("id", .text), ("power2gas_q_coeff", .number),
      ("to", .text)]
  | "Pipe" => [("balancelaw", .text), ("desired_delta_x", .number), ("diameter", .quantity), ("from", .text), ("id", .text),
      ("length", .quantity), ("roughness", .quantity), ("scheme", .text), ("to", .text)]
  | "Transmissionline" => [("B", .number), ("G", .number), ("from", .text), ("id", .text), ("to", .text)]
  | _ => []

/-- An object with at most a value and a unit. -/
def IsQuantity (m : Json) : Prop := m.isObj = true ∧ ∀ k, m.contains k = true → k = "value" ∨ k = "unit"

/-- What is expected is given under a key, in the entry or as a default. -/
def Has (d j : Json) (key : String) : Want → Prop
  | .text => ∃ s, Given d j key (str s)
  | .number => ∃ q, Number d j key q
  | .quantity => (∃ q, GivenPart d j key "value" (num q)) ∧ (∃ u, GivenPart d j key "unit" (str u)) ∧
      ∀ m, j.find? key = some m → IsQuantity m

/-- The defaults for a type only have keys which entries of this type have. -/
structure ProperDefaults (d : Json) (name : String) : Prop where
  isObj : d.isObj = true
  keys : ∀ k v, d.find? k = some v → ∃ w, (k, w) ∈ keysOf name ∧ (w = .quantity → IsQuantity v)

/-! ## The tables -/

def wantSchema : Want → Json
  | .text => stringType
  | .number => numberType
  | .quantity => measureSchema

/-- The properties of the schema of a type. -/
def propsOf (name : String) : List (String × Json) := (keysOf name).map fun x => (x.1, wantSchema x.2)

/-- The required keys, checked. -/
def requiredB (name : String) (s : Json) : Bool :=
  match s.find? "required" with
  | some (arr l) => l.all fun x => (keysOf name).any fun y => x.isStr y.1
  | _ => false

theorem requiredB_ok {name : String} {s : Json} (h : requiredB name s = true) {k : String} (hk : Requires s k) :
    ∃ w, (k, w) ∈ keysOf name := by
  obtain ⟨l, h1, h2⟩ := hk
  unfold requiredB at h
  rw [h1] at h
  have := List.all_eq_true.mp h _ h2
  obtain ⟨y, hy, he⟩ := List.any_eq_true.mp this
  simp only [isStr, beq_iff_eq] at he
  exact ⟨y.2, he ▸ hy⟩

theorem node_props {draws : Json → Res (ℝ → Res (ℝ × ℝ))} {mem : ℕ → ℝ} :
    ∀ x ∈ nodeList draws mem, x.2.1.find? "properties" = some (obj (propsOf x.1)) ∧ requiredB x.1 x.2.1 = true := by
  simp only [nodeList, List.mem_cons, List.not_mem_nil, or_false, forall_eq_or_imp, forall_eq]
  refine ⟨?_, ?_, ?_, ?_, ?_, ?_, ?_, ?_, ?_, ?_⟩ <;> exact ⟨rfl, by decide +kernel⟩

theorem edge_props :
    ∀ x ∈ edgeList, x.2.1.find? "properties" = some (obj (propsOf x.1)) ∧ requiredB x.1 x.2.1 = true := by
  simp only [edgeList, List.mem_cons, List.not_mem_nil, or_false, forall_eq_or_imp, forall_eq]
  refine ⟨?_, ?_, ?_, ?_, ?_, ?_⟩ <;> exact ⟨rfl, by decide +kernel⟩

/-! ## One level -/

/-- A loop over the keys of a schema succeeds if the loops inside do. -/
theorem apply_exists {ps : List (String × Json)} (hn : (ps.map Prod.fst).Nodup) {j : Json} (hj : j.isObj = true)
    (ht : ∀ k s, ps.lookup k = some s → s.contains "type" = true)
    (h : ∀ k s v p, ps.lookup k = some s → j.find? k = some v → nested? s = some p →
      v.isObj = true ∧ ∃ v', applyUnsafe p v = Res.ok v') : ∃ r, applyUnsafe (obj ps) j = Res.ok r := by
  refine fold_ok hn hj ?_
  rintro ⟨k, s⟩ hmem e he hfe
  have hl := lookup_of_mem hn hmem
  obtain ⟨type, htype⟩ := contains_iff.mp (ht k s hl)
  simp only at hfe
  unfold applyStep
  cases hx : j.find? k with
  | none =>
    rw [hx] at hfe
    cases hdef : s.find? "default" with
    | some v =>
      rw [if_pos (by simp [contains, hdef, hfe]), index_of_find hdef, Res.ok_bind]
      exact set_isObj he _ _
    | none =>
      rw [if_neg (by simp [contains, hdef]), index_of_find htype, Res.ok_bind]
      split
      · split
        · exact ⟨_, rfl⟩
        · simp only [hfe]; exact ⟨_, rfl⟩
      · exact ⟨_, rfl⟩
  | some v =>
    rw [hx] at hfe
    rw [if_neg (by simp [contains, hfe]), index_of_find htype, Res.ok_bind]
    split
    · next hobj =>
      split
      · exact ⟨_, rfl⟩
      · next p hp =>
        obtain ⟨ho, v', h7⟩ := h k s v p hl hx (nested_of htype hp hobj)
        simp only [hfe, ho, if_true, h7, Res.ok_bind]
        exact set_isObj he _ _
    · exact ⟨_, rfl⟩

/-- What is needed of the value under a key with definition `s`. -/
def Good (d j : Json) (k : String) (s : Json) : Prop :=
  (∃ y, addStep d (k, s) = Res.ok y) ∧ ∀ s', addStep d (k, s) = Res.ok (k, s') →
    (j.find? k = none → ∃ w, d.find? k = some w ∧ accepts s w = true) ∧
    ∀ v, j.find? k = some v → (nested? s' = none → accepts s v = true) ∧
      ∀ p, nested? s' = some p → v.isObj = true ∧ ∃ v', applyUnsafe p v = Res.ok v' ∧ accepts s v' = true

theorem find_of_item {D : Json} (hD : D.isObj = true) {x : String × Json} (hx : x ∈ D.items) : ∃ v, D.find? x.1 = some v := by
  cases D with
  | obj m => exact contains_iff.mp (contains_of_mem (m := m) hx)
  | _ => cases hD

/-- Data for which every key is good pass the validation. -/
theorem good_accepted {s : Json} {ps : List (String × Json)} (hs : ObjectSchema s ps)
    (hp : ∀ k p, ps.lookup k = some p → Form p) (hadd : s.find? "additionalProperties" = none)
    (hreq : ∀ k, Requires s k → ∃ p, ps.lookup k = some p) {d j : Json} (hd : d.isObj = true)
    (hkeys : ∀ k v, d.find? k = some v → ∃ p, ps.lookup k = some p) (hj : j.isObj = true)
    (hg : ∀ k p, ps.lookup k = some p → Good d j k p) :
    ∃ s1 j', addDefaults s d = Res.ok s1 ∧ applyDefaults s1 j = Res.ok j' ∧ accepts s1 j' = true ∧
      ∀ k p, ps.lookup k = some p → ∃ v, j'.find? k = some v ∧ accepts p v = true := by
  obtain ⟨s1, h1⟩ := addDefaults_exists hs hd (fun x hx => by
      obtain ⟨v, hv⟩ := find_of_item hd hx
      obtain ⟨p, h⟩ := hkeys _ v hv
      exact contains_iff.mpr ⟨p, h⟩)
    fun x hx => (hg x.1 x.2 (lookup_of_mem hs.keys hx)).1
  obtain ⟨-, -, ps1, hs1, hsame, hsteps⟩ := addDefaults_ok hs h1
  have k1 := added_keys hsteps
  have hback : ∀ k s', ps1.lookup k = some s' → ∃ p, ps.lookup k = some p ∧ addStep d (k, p) = Res.ok (k, s') := by
    intro k s' h
    obtain ⟨p, hp⟩ := lookup_some_of_keys k1.symm h
    obtain ⟨s'', h2, h3⟩ := lookup_added hsteps hp
    rw [h] at h2
    injection h2 with h2
    exact ⟨p, hp, h2 ▸ h3⟩
  obtain ⟨j', h2⟩ := apply_exists (k1 ▸ hs.keys) hj (fun k s' h => by
      obtain ⟨p, h2, h3⟩ := hback k s' h
      have := (addStep_ok h3).2.1
      simp only at this
      rw [contains, this]
      exact (hp k p h2).contains_type)
    fun k s' v p h hv hn => by
      obtain ⟨q, h2, h3⟩ := hback k s' h
      obtain ⟨ho, v', h4, -⟩ := (((hg k q h2).2 s' h3).2 v hv).2 p hn
      exact ⟨ho, v', h4⟩
  have hex := C50_exact (k1 ▸ hs.keys) hj h2
  have hj' := (C50_kept hj h2).1
  -- the value under a key
  have hval : ∀ k p, ps.lookup k = some p → ∃ v, j'.find? k = some v ∧ accepts p v = true := by
    intro k p hk
    obtain ⟨s', h3, h4⟩ := lookup_added hsteps hk
    obtain ⟨g1, g2⟩ := (hg k p hk).2 s' h4
    obtain ⟨-, e2, e3, e4⟩ := hex k
    cases hjk : j.find? k with
    | none =>
      obtain ⟨w, h5, h6⟩ := g1 hjk
      exact ⟨w, by rw [e2 s' h3 hjk, ((addStep_ok h4).2.2.2.2 w h5).1], h6⟩
    | some v =>
      obtain ⟨g3, g4⟩ := g2 v hjk
      cases hn : nested? s' with
      | none => exact ⟨v, e3 s' v h3 hjk hn, g3 hn⟩
      | some q =>
        obtain ⟨-, v', h5, h6⟩ := g4 q hn
        obtain ⟨v'', h7, h8⟩ := e4 s' v q h3 hjk hn
        rw [h5] at h7
        injection h7 with h7
        exact ⟨v', h7 ▸ h8, h6⟩
  obtain ⟨s2, h3⟩ := removes_level hs1 (removes_added (fun x hx y hy =>
    (hp x.1 x.2 (lookup_of_mem hs.keys hx)).removes d x.1 y hy) hsteps)
  obtain ⟨o1, -, -⟩ := object_level hs (fun k p hk => ⟨(hp k p hk).works, hp k p hk⟩) hs1 (fun k hk _ => hsame k hk) hsteps h3
  refine ⟨s1, j', h1, ?_, ?_, hval⟩
  · unfold applyDefaults
    rw [hs1.type, hs1.props]
    exact h2
  · rw [o1]
    refine (accepts_object hs j').mpr ⟨hj', fun k hk => ?_, fun k p hk v hv => ?_, fun h => ?_⟩
    · obtain ⟨p, hk⟩ := hreq k hk
      obtain ⟨v, hv, -⟩ := hval k p hk
      exact contains_iff.mpr ⟨v, hv⟩
    · obtain ⟨v', hv', h4⟩ := hval k p hk
      rw [hv] at hv'
      injection hv' with hv'
      exact hv' ▸ h4
    · rw [hadd] at h; cases h

/-! ## The kinds of values -/

theorem leaf_good {d j s : Json} {k : String} (hf : Form s) (hn : nested? s = none)
    (h : ∃ v, Given d j k v ∧ accepts s v = true) : Good d j k s := by
  obtain ⟨v, hv, hacc⟩ := h
  refine ⟨?_, fun s' hs' => ⟨fun hnone => ?_, fun v' hv' => ⟨fun _ => ?_, fun p hp => ?_⟩⟩⟩
  · cases hd : d.find? k with
    | none =>
      refine ⟨(k, s), ?_⟩
      unfold addStep
      rw [if_pos hf.contains_type, hd]
    | some w =>
      refine (step_iff hf k d w hd).mpr fun hl => ?_
      obtain ⟨q, hq⟩ := listed_iff.mp hl
      rw [hn] at hq
      cases hq
  · rcases hv with hv | ⟨-, hv⟩
    · rw [hnone] at hv; cases hv
    · exact ⟨v, hv, hacc⟩
  · rcases hv with hv | ⟨hv, -⟩
    · rw [hv'] at hv; injection hv with hv; exact hv ▸ hacc
    · rw [hv'] at hv; cases hv
  · exfalso
    obtain ⟨-, -, -, h4, h5⟩ := addStep_ok hs'
    cases hd : d.find? k with
    | none =>
      have := h4 hd
      injection this with _ this
      rw [this, hn] at hp
      cases hp
    | some w => rw [(h5 w hd).2.1 hn] at hp; cases hp

/-- The properties of a quantity. -/
def parts : List (String × Json) := [("unit", stringType), ("value", numberType)]

theorem measure_object : ObjectSchema measureSchema parts := objectB_ok rfl (by decide +kernel)

theorem measure_form : Form measureSchema := formB_ok (n := 3) (by decide +kernel)

theorem parts_cases {k : String} {s : Json} (h : parts.lookup k = some s) :
    k = "unit" ∧ s = stringType ∨ k = "value" ∧ s = numberType := by
  unfold parts at h
  rw [lookup_cons, lookup_cons] at h
  split at h
  · next e => injection h with h; exact Or.inl ⟨e, h.symm⟩
  · split at h
    · next e => injection h with h; exact Or.inr ⟨e, h.symm⟩
    · cases h

theorem accepts_quantity {m : Json} (h : IsQuantity m) (hv : ∃ q, m.find? "value" = some (num q))
    (hu : ∃ u, m.find? "unit" = some (str u)) : accepts measureSchema m = true := by
  obtain ⟨q, hv⟩ := hv
  obtain ⟨u, hu⟩ := hu
  refine (accepts_object measure_object m).mpr ⟨h.1, fun k hk => ?_, fun k s hk v hkv => ?_, fun _ k hk => ?_⟩
  · obtain ⟨l, h1, h2⟩ := hk
    have : l = [str "value", str "unit"] := by
      have h1' : measureSchema.find? "required" = some (arr [str "value", str "unit"]) := rfl
      rw [h1'] at h1
      injection h1 with h1
      injection h1 with h1
      exact h1.symm
    subst this
    simp only [List.mem_cons, List.not_mem_nil, or_false, Json.str.injEq] at h2
    rcases h2 with rfl | rfl
    · exact contains_iff.mpr ⟨_, hv⟩
    · exact contains_iff.mpr ⟨_, hu⟩
  · rcases parts_cases hk with ⟨rfl, rfl⟩ | ⟨rfl, rfl⟩
    · rw [hu] at hkv; injection hkv with hkv; subst hkv; exact accepts_string.mpr ⟨u, rfl⟩
    · rw [hv] at hkv; injection hkv with hkv; subst hkv; exact accepts_number.mpr ⟨q, rfl⟩
  · rcases h.2 k hk with rfl | rfl
    · exact ⟨numberType, rfl⟩
    · exact ⟨stringType, rfl⟩

theorem parts_level {d : Json} {ps : List (String × Json)}
    (hadd : List.Forall₂ (fun x y => addStep d x = Res.ok y) parts ps) {v : Json} (hv : IsQuantity v) :
    ∃ v', applyUnsafe (obj ps) v = Res.ok v' ∧ IsQuantity v' ∧
      ∀ k, k = "value" ∨ k = "unit" → v'.find? k = (v.find? k).or (d.find? k) := by
  have hk := added_keys hadd
  have hps : (ps.map Prod.fst).Nodup := by rw [hk]; decide
  have hback : ∀ k s', ps.lookup k = some s' → ∃ s, parts.lookup k = some s ∧ addStep d (k, s) = Res.ok (k, s') := by
    intro k s' h
    obtain ⟨p, hp⟩ := lookup_some_of_keys hk.symm h
    obtain ⟨s'', h2, h3⟩ := lookup_added hadd hp
    rw [h] at h2
    injection h2 with h2
    exact ⟨p, hp, h2 ▸ h3⟩
  have hleaf : ∀ k s, parts.lookup k = some s → Form s ∧ nested? s = none ∧ s.find? "default" = none := by
    intro k s h
    rcases parts_cases h with ⟨-, rfl⟩ | ⟨-, rfl⟩
    · exact ⟨formB_ok (n := 3) (by decide +kernel), rfl, rfl⟩
    · exact ⟨formB_ok (n := 3) (by decide +kernel), rfl, rfl⟩
  obtain ⟨v', h1⟩ := apply_exists hps hv.1 (fun k s' h => by
      obtain ⟨p, h2, h3⟩ := hback k s' h
      have := (addStep_ok h3).2.1
      simp only at this
      rw [contains, this]
      exact (hleaf k p h2).1.contains_type)
    fun k s' w q h hw hn => by
      obtain ⟨p, h2, h3⟩ := hback k s' h
      exfalso
      obtain ⟨-, -, -, h4, h5⟩ := addStep_ok h3
      cases hd : d.find? k with
      | none =>
        have := h4 hd
        injection this with _ this
        rw [this, (hleaf k p h2).2.1] at hn
        cases hn
      | some w => rw [(h5 w hd).2.1 (hleaf k p h2).2.1] at hn; cases hn
  have hnd : (parts.map Prod.fst).Nodup := by decide
  refine ⟨v', h1, ⟨(C50_kept hv.1 h1).1, fun k hk' => ?_⟩, fun k hk' => ?_⟩
  · by_contra hne
    rw [not_or] at hne
    obtain ⟨w, hw⟩ := contains_iff.mp hk'
    have hnone : ps.lookup k = none := by
      rw [lookup_keys hk]
      cases h : parts.lookup k with
      | none => rfl
      | some s => rcases parts_cases h with ⟨rfl, -⟩ | ⟨rfl, -⟩ <;> simp at hne
    rw [(C50_exact hps hv.1 h1 k).1 hnone] at hw
    rcases hv.2 k (contains_iff.mpr ⟨w, hw⟩) with rfl | rfl <;> simp at hne
  · obtain ⟨s, hs⟩ : ∃ s, parts.lookup k = some s := by
      rcases hk' with rfl | rfl
      · exact ⟨numberType, rfl⟩
      · exact ⟨stringType, rfl⟩
    obtain ⟨e1, e2, -⟩ := level hnd hadd hv.1 h1 hs
    cases hvk : v.find? k with
    | none => rw [e1 hvk (hleaf k s hs).2.2]; rfl
    | some w => rw [e2 w hvk (hleaf k s hs).2.1]; rfl

theorem fits_quantity {m : Json} (h : IsQuantity m) : Fits measureSchema m := by
  have hprop : ∀ k, propertyOf measureSchema k = parts.lookup k := fun k => rfl
  refine .mk _ _ h.1 (fun k v hv => ?_) fun k v s hv hs hl => ?_
  · rw [hprop]
    rcases h.2 k (contains_iff.mpr ⟨v, hv⟩) with rfl | rfl
    · exact ⟨numberType, rfl⟩
    · exact ⟨stringType, rfl⟩
  · exfalso
    rw [hprop] at hs
    obtain ⟨q, hq⟩ := listed_iff.mp hl
    rcases parts_cases hs with ⟨-, rfl⟩ | ⟨-, rfl⟩ <;> cases hq

theorem quantity_good {d j : Json} {k : String} (h : Has d j k .quantity) (hd : ∀ v, d.find? k = some v → IsQuantity v) :
    Good d j k measureSchema := by
  obtain ⟨⟨q, hq⟩, ⟨u, hu⟩, hj⟩ := h
  refine ⟨?_, fun s' hs' => ⟨fun hnone => ?_, fun v hv => ⟨fun hn => ?_, fun p hp => ?_⟩⟩⟩
  · cases hdk : d.find? k with
    | none =>
      refine ⟨(k, measureSchema), ?_⟩
      unfold addStep
      rw [if_pos measure_form.contains_type, hdk]
    | some w => exact (step_iff measure_form k d w hdk).mpr fun _ => fits_quantity (hd w hdk)
  · rcases hq with ⟨m, h1, -⟩ | ⟨-, m, h1, h2⟩
    · rw [hnone] at h1; cases h1
    · refine ⟨m, h1, accepts_quantity (hd m h1) ⟨q, h2⟩ ?_⟩
      rcases hu with ⟨m', h3, -⟩ | ⟨-, m', h3, h4⟩
      · rw [hnone] at h3; cases h3
      · rw [h1] at h3; injection h3 with h3; subst h3; exact ⟨u, h4⟩
  · exfalso
    obtain ⟨-, -, -, h4, h5⟩ := addStep_ok hs'
    cases hdk : d.find? k with
    | none =>
      have := h4 hdk
      injection this with _ this
      rw [this] at hn
      cases hn
    | some w =>
      obtain ⟨-, p', -, h7⟩ := (h5 w hdk).2.2 _ measure_object.nested
      rw [h7] at hn
      cases hn
  · refine ⟨(hj v hv).1, ?_⟩
    obtain ⟨-, -, -, h4, h5⟩ := addStep_ok hs'
    cases hdk : d.find? k with
    | none =>
      have := h4 hdk
      injection this with _ this
      rw [this, measure_object.nested] at hp
      injection hp with hp
      subst hp
      obtain ⟨v', h6, h7, h8⟩ := parts_level (d := obj []) (ps := parts) (List.forall₂_same.mpr fun x hx => addStep_empty (by
        have hl := lookup_of_mem (m := parts) (by decide) hx
        rcases parts_cases hl with ⟨-, e⟩ | ⟨-, e⟩ <;> rw [e] <;> rfl)) (hj v hv)
      refine ⟨v', h6, accepts_quantity h7 ⟨q, ?_⟩ ⟨u, ?_⟩⟩
      · rw [h8 _ (Or.inl rfl)]
        rcases hq with ⟨m, h1, h2⟩ | ⟨-, m, h1, h2⟩
        · rw [hv] at h1; injection h1 with h1; subst h1; rw [h2]; rfl
        · rw [hdk] at h1; cases h1
      · rw [h8 _ (Or.inr rfl)]
        rcases hu with ⟨m, h1, h2⟩ | ⟨-, m, h1, h2⟩
        · rw [hv] at h1; injection h1 with h1; subst h1; rw [h2]; rfl
        · rw [hdk] at h1; cases h1
    | some w =>
      obtain ⟨-, p', h6, h7⟩ := (h5 w hdk).2.2 _ measure_object.nested
      rw [h7] at hp
      injection hp with hp
      subst hp
      obtain ⟨ps1, rfl, hadd⟩ := addUnsafe_ok h6
      obtain ⟨v', h8, h9, h10⟩ := parts_level hadd (hj v hv)
      refine ⟨v', h8, accepts_quantity h9 ⟨q, ?_⟩ ⟨u, ?_⟩⟩
      · rw [h10 _ (Or.inl rfl)]
        rcases hq with ⟨m, h1, h2⟩ | ⟨h0, m, h1, h2⟩
        · rw [hv] at h1; injection h1 with h1; subst h1; rw [h2]; rfl
        · rw [hdk] at h1; injection h1 with h1; subst h1; rw [h0 v hv, h2]; rfl
      · rw [h10 _ (Or.inr rfl)]
        rcases hu with ⟨m, h1, h2⟩ | ⟨h0, m, h1, h2⟩
        · rw [hv] at h1; injection h1 with h1; subst h1; rw [h2]; rfl
        · rw [hdk] at h1; injection h1 with h1; subst h1; rw [h0 v hv, h2]; rfl

theorem want_good {d j : Json} {k : String} {w : Want} (h : Has d j k w)
    (hd : w = .quantity → ∀ v, d.find? k = some v → IsQuantity v) : Good d j k (wantSchema w) := by
  cases w with
  | text =>
    obtain ⟨s, hs⟩ := h
    exact leaf_good (formB_ok (n := 3) (by decide +kernel)) rfl ⟨_, hs, accepts_string.mpr ⟨s, rfl⟩⟩
  | number =>
    obtain ⟨q, hq⟩ := h
    exact leaf_good (formB_ok (n := 3) (by decide +kernel)) rfl ⟨_, hq, accepts_number.mpr ⟨q, rfl⟩⟩
  | quantity => exact quantity_good h (hd rfl)

/-- Boundary values accepted by the schema for them. -/
theorem boundary_good {d j b v : Json} (hf : Form b) (hd : d.find? "boundary_values" = none)
    (hv : j.find? "boundary_values" = some v) (hacc : accepts b v = true) : Good d j "boundary_values" b := by
  refine ⟨⟨("boundary_values", b), ?_⟩, fun s' hs' => ?_⟩
  · unfold addStep
    rw [if_pos hf.contains_type, hd]
  · have := (addStep_ok hs').2.2.2.1 hd
    injection this with _ this
    subst this
    obtain ⟨-, -, -, w4⟩ := hf.works d "boundary_values" s' hs' s' hf.removes_same
    refine ⟨fun h => (by rw [hv] at h; cases h), fun v' hv' => ?_⟩
    rw [hv] at hv'
    injection hv' with hv'
    subst hv'
    exact ⟨fun _ => hacc, fun p hp => w4 p hp (fun _ h => (by rw [hd] at h; cases h)) v hacc⟩

/-! ## Components -/

theorem props_lookup {name k : String} {p : Json} (h : (propsOf name).lookup k = some p) :
    ∃ w, (k, w) ∈ keysOf name ∧ p = wantSchema w := by
  obtain ⟨x, hx, he⟩ := List.mem_map.mp (mem_of_lookup h)
  injection he with h1 h2
  exact ⟨x.2, h1 ▸ hx, h2.symm⟩

theorem lookup_props {name k : String} {w : Want} (h : (k, w) ∈ keysOf name) : ∃ p, (propsOf name).lookup k = some p := by
  have : (k, wantSchema w) ∈ propsOf name := List.mem_map.mpr ⟨(k, w), h, rfl⟩
  exact contains_iff.mp (contains_of_mem this)

theorem props_of {name : String} (hn : ((propsOf name).map Prod.fst).Nodup) {x : String × Want} (h : x ∈ keysOf name) :
    (propsOf name).lookup x.1 = some (wantSchema x.2) :=
  lookup_of_mem (x := (x.1, wantSchema x.2)) hn (List.mem_map.mpr ⟨x, h, rfl⟩)

theorem keys_nodup {name : String} (h : ((propsOf name).map Prod.fst).Nodup) {k : String} {w w' : Want}
    (h1 : (k, w) ∈ keysOf name) (h2 : (k, w') ∈ keysOf name) : w = w' := by
  have e : (propsOf name).map Prod.fst = (keysOf name).map Prod.fst := by simp [propsOf, List.map_map, Function.comp_def]
  rw [e] at h
  clear e
  generalize keysOf name = l at *
  induction l with
  | nil => cases h1
  | cons x l ih =>
    simp only [List.map_cons, List.nodup_cons] at h
    rcases List.mem_cons.mp h1 with h3 | h3 <;> rcases List.mem_cons.mp h2 with h4 | h4
    · rw [← h3] at h4; injection h4 with _ h4; exact h4.symm
    · exact absurd (List.mem_map.mpr ⟨_, h4, by rw [← h3]⟩) h.1
    · exact absurd (List.mem_map.mpr ⟨_, h3, by rw [← h4]⟩) h.1
    · exact ih h.2 h3 h4

theorem entry_good {name : String} (hn : ((propsOf name).map Prod.fst).Nodup) {d j : Json} (hd : ProperDefaults d name)
    (hj : ∀ x ∈ keysOf name, Has d j x.1 x.2) {k : String} {p : Json} (h : (propsOf name).lookup k = some p) :
    Good d j k p := by
  obtain ⟨w, hw, rfl⟩ := props_lookup h
  refine want_good (hj _ hw) ?_
  rintro rfl v hv
  obtain ⟨w', h1, h2⟩ := hd.keys k v hv
  exact h2 (keys_nodup hn h1 hw)

/-- A component of a type without boundary values passes the validation if it has all it needs. -/
theorem plain_prepared {α : Type} {t : ComponentType α} {name : String} {n : ℕ} (hf : typeB n t.schema = true)
    (hp : t.schema.find? "properties" = some (obj (propsOf name))) (hr : requiredB name t.schema = true)
    (hb : t.boundary = none) (hd : ProperDefaults t.defaults name) {j : Json} (ho : j.isObj = true)
    (hj : ∀ x ∈ keysOf name, Has t.defaults j x.1 x.2) : ∃ data, prepare accepts t j = Res.ok data ∧
      ∀ x ∈ keysOf name, ∃ v, data.find? x.1 = some v ∧ accepts (wantSchema x.2) v = true := by
  obtain ⟨ps, hs, hps⟩ := typeB_ok hf
  rw [hp] at hps
  injection hps with hps
  injection hps with hps
  subst hps
  obtain ⟨s1, j', h1, h2, h3, h4⟩ := good_accepted hs.object hs.forms hs.additional
    (fun k hk => by obtain ⟨w, hw⟩ := requiredB_ok hr hk; exact lookup_props hw) hd.isObj
    (fun k v hv => by obtain ⟨w, hw, -⟩ := hd.keys k v hv; exact lookup_props hw) ho
    fun k p hk => entry_good hs.object.keys hd hj hk
  refine ⟨j', ?_, fun x hx => h4 _ _ (props_of hs.object.keys hx)⟩
  have ht : typeSchema t = Res.ok s1 := by
    unfold typeSchema
    rw [hb]
    exact h1
  unfold prepare
  rw [ht, Res.ok_bind, h2, Res.ok_bind, if_pos h3]

/-- One of a type with boundary values passes if also these are accepted. -/
theorem boundary_prepared {α : Type} {t : ComponentType α} {name : String} {n : ℕ} (hf : typeB n t.schema = true)
    (hp : t.schema.find? "properties" = some (obj (propsOf name))) (hr : requiredB name t.schema = true)
    {b : Json} (hb : t.boundary = some b) (hbf : typeB n b = true) (hbd : b.find? "default" = none)
    (hd : ProperDefaults t.defaults name) {j : Json} (ho : j.isObj = true)
    (hj : ∀ x ∈ keysOf name, Has t.defaults j x.1 x.2) {v : Json} (hv : j.find? "boundary_values" = some v)
    (hacc : accepts b v = true) : ∃ data, prepare accepts t j = Res.ok data ∧
      ∀ x ∈ keysOf name, ∃ v, data.find? x.1 = some v ∧ accepts (wantSchema x.2) v = true := by
  obtain ⟨ps, hs, hps⟩ := typeB_ok hf
  rw [hp] at hps
  injection hps with hps
  injection hps with hps
  subst hps
  obtain ⟨pb, hB, -⟩ := typeB_ok hbf
  have hform : Form b := .object b pb hB.object hbd hB.forms
  have hnone : t.defaults.find? "boundary_values" = none := by
    cases h : t.defaults.find? "boundary_values" with
    | none => rfl
    | some v =>
      obtain ⟨w, hw, -⟩ := hd.keys _ v h
      obtain ⟨p, hp⟩ := lookup_props hw
      rw [hs.noValues] at hp
      cases hp
  obtain ⟨s0, h0⟩ := addRequired_exists (v := b) (name := "boundary_values") hs.object
  obtain ⟨ps0, hs0, hl, hreq, hsame⟩ := addRequired_ok hs.object h0
  obtain ⟨s1, j', h1, h2, h3, h4⟩ := good_accepted hs0 (fun k p hk => by
      rw [hl] at hk
      split at hk
      · injection hk with hk; exact hk ▸ hform
      · exact hs.forms k p hk) (by rw [hsame _ (by decide) (by decide)]; exact hs.additional)
    (fun k hk => by
      rw [hl]
      split
      · exact ⟨b, rfl⟩
      · next hne =>
        rcases (hreq k).mp hk with hk | hk
        · obtain ⟨w, hw⟩ := requiredB_ok hr hk; exact lookup_props hw
        · exact absurd hk hne) hd.isObj
    (fun k v hv => by
      rw [hl]
      split
      · exact ⟨b, rfl⟩
      · obtain ⟨w, hw, -⟩ := hd.keys k v hv; exact lookup_props hw) ho
    fun k p hk => by
      rw [hl] at hk
      split at hk
      · next e => injection hk with hk; subst hk; subst e; exact boundary_good hform hnone hv hacc
      · exact entry_good hs.object.keys hd hj hk
  refine ⟨j', ?_, fun x hx => h4 _ _ ?_⟩
  rotate_left
  · have hx' := props_of hs.object.keys hx
    rw [hl, if_neg]
    · exact hx'
    · rintro e
      rw [e, hs.noValues] at hx'
      cases hx'
  unfold prepare typeSchema
  rw [hb]
  have hvo : Factory.valueOr t.defaults "boundary_values" = Res.ok (obj []) := by
    unfold Factory.valueOr
    rw [if_pos hd.isObj, hnone]
    rfl
  simp only [hvo, adds_none hB.object hB.forms, h0, Res.ok_bind, h1, h2]
  rw [if_pos h3]

end Verif.Read
