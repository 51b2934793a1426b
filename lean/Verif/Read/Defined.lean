import Verif.Read.Simulate
import Verif.Initial.Props

/-!
# Reading a network without undefined behaviour

The parts of C125 about topology, boundary values and defaults.
-/

set_option autoImplicit false

namespace Verif.Read

open Verif.Json Verif.Factory Verif.Interp Verif.Schema

/-! ## Outcomes -/

theorem res_bind_ne {α β : Type} {x : Res α} {f : α → Res β} (h1 : x ≠ Res.ub) (h2 : ∀ a, x = Res.ok a → f a ≠ Res.ub) :
    (x >>= f) ≠ Res.ub := by
  cases x with
  | ok a => exact h2 a rfl
  | throws => exact fun h => by cases h
  | ub => exact absurd rfl h1

theorem each_ne_ub {α β : Type} {l : List α} {f : α → Res β} (h : ∀ x ∈ l, f x ≠ Res.ub) : Res.each l f ≠ Res.ub := by
  induction l with
  | nil => simp [Res.each]
  | cons a l ih =>
    simp only [Res.each]
    refine res_bind_ne (h a (by simp)) fun b _ => ?_
    exact res_bind_ne (ih fun x hx => h x (by simp [hx])) fun _ _ => by simp

theorem fold_ne_ub {α σ : Type} {l : List α} {f : σ → α → Res σ} {P : σ → Prop} {s : σ} (hs : P s)
    (h : ∀ s, P s → ∀ x ∈ l, f s x ≠ Res.ub ∧ ∀ s', f s x = Res.ok s' → P s') :
    Res.fold l s f ≠ Res.ub ∧ ∀ s', Res.fold l s f = Res.ok s' → P s' := by
  induction l generalizing s with
  | nil => exact ⟨by simp [Res.fold], fun s' e => by simp only [Res.fold, Res.ok.injEq] at e; exact e ▸ hs⟩
  | cons a l ih =>
    simp only [Res.fold]
    obtain ⟨h1, h2⟩ := h s hs a (by simp)
    cases hf : f s a with
    | ub => exact absurd hf h1
    | throws => exact ⟨by simp, fun s' e => by simp at e⟩
    | ok t =>
      simp only [Res.ok_bind]
      exact ih (h2 t hf) fun s hs x hx => h s hs x (by simp [hx])

theorem index_defined {j : Json} {key : String} (h : j.find? key ≠ none) : j.index key ≠ Res.ub := by
  obtain ⟨v, hv⟩ := Option.ne_none_iff_exists'.mp h
  rw [index_of_find hv]
  simp

theorem set_ne_ub (j : Json) (k : String) (v : Json) : j.set k v ≠ Res.ub := by
  cases j <;> simp [Json.set]

theorem getStr_ne_ub (j : Json) : j.getStr ≠ Res.ub := by
  cases j <;> simp [getStr]

theorem getNum_ne_ub (j : Json) : Gas.getNum j ≠ Res.ub := by
  cases j <;> simp [Gas.getNum]

theorem number_ne_ub {data : Json} {key : String} (h : data.find? key ≠ none) : number data key ≠ Res.ub :=
  res_bind_ne (index_defined h) fun v _ => getNum_ne_ub v

/-! ## Schemas -/

theorem addUnsafe_ne_ub (p d : Json) : addUnsafe p d ≠ Res.ub := by
  obtain ⟨n, hn⟩ : ∃ n, sizeOf p = n := ⟨_, rfl⟩
  induction n using Nat.strong_induction_on generalizing p d with
  | _ n ih =>
    cases p with
    | obj m =>
      rw [addUnsafe_obj]
      split
      · simp
      · refine res_bind_ne (each_ne_ub fun x hx => ?_) fun _ _ => by simp
        unfold addStep
        split
        · next ht =>
          cases hd : d.find? x.1 with
          | none => simp
          | some e =>
            refine res_bind_ne (set_ne_ub _ _ _) fun y hy => ?_
            refine res_bind_ne (index_defined ?_) fun type _ => ?_
            · rw [find_set hy, if_neg (by decide)]
              obtain ⟨v, hv⟩ := contains_iff.mp ht
              rw [hv]; simp
            · split
              · split
                · simp
                · next q hq =>
                  split
                  · refine res_bind_ne (ih (sizeOf q) ?_ q e rfl) fun _ _ => ?_
                    · have := sizeOf_items (j := obj m) hx
                      have := sizeOf_find hq
                      omega
                    · exact res_bind_ne (set_ne_ub _ _ _) fun _ _ => by simp
                  · simp
              · simp
        · simp
    | arr l =>
      rw [addUnsafe]
      split
      · simp
      · split <;> simp
    | _ => unfold addUnsafe; split <;> simp

/-- Defaults do not take types away. -/
theorem addUnsafe_typed {p d p' : Json} (hp : Typed p) (h : addUnsafe p d = Res.ok p') : Typed p' := by
  induction hp generalizing d p' with
  | intro p ht hn ih =>
    cases p with
    | obj m =>
      obtain ⟨m', rfl, hm⟩ := addUnsafe_ok h
      refine .intro _ (fun y hy => ?_) fun y hy q hq => ?_
      · obtain ⟨x, hx, hs⟩ := forall₂_mem_right hm hy
        obtain ⟨-, h2, h3, -⟩ := addStep_ok hs
        unfold contains at h3 ⊢
        rw [h2]; exact h3
      · obtain ⟨x, hx, hs⟩ := forall₂_mem_right hm hy
        obtain ⟨-, -, -, h4, h5⟩ := addStep_ok hs
        cases hd : d.find? x.1 with
        | none =>
          rw [h4 hd] at hq
          exact hn x hx q hq
        | some e =>
          obtain ⟨-, h6, h7⟩ := h5 e hd
          cases hx' : nested? x.2 with
          | none => rw [h6 hx'] at hq; cases hq
          | some q0 =>
            obtain ⟨-, p', h8, h9⟩ := h7 q0 hx'
            rw [h9] at hq
            injection hq with hq
            subst hq
            exact ih x hx q0 hx' h8
    | null =>
      rw [addUnsafe] at h
      split at h
      · cases h
      · injection h with h; subst h; exact .intro _ ht hn
    | arr l =>
      rw [addUnsafe] at h
      split at h
      · cases h
      · split at h
        · injection h with h; subst h; exact .intro _ ht hn
        · cases h
    | bool b => unfold addUnsafe at h; split at h <;> cases h
    | num q => unfold addUnsafe at h; split at h <;> cases h
    | str s => unfold addUnsafe at h; split at h <;> cases h

theorem addDefaults_ne_ub (s d : Json) : addDefaults s d ≠ Res.ub := by
  unfold addDefaults
  split
  · split
    · exact res_bind_ne (addUnsafe_ne_ub _ _) fun _ _ => set_ne_ub _ _ _
    · simp
  · simp

/-- What defaults leave as it is. -/
theorem addDefaults_kept {s d s' : Json} (h : addDefaults s d = Res.ok s') :
    (∀ k, k ≠ "properties" → s'.find? k = s.find? k) ∧
    ∃ p p', s.find? "properties" = some p ∧ s'.find? "properties" = some p' ∧ addUnsafe p d = Res.ok p' := by
  unfold addDefaults at h
  split at h
  · next h1 h2 =>
    split at h
    · obtain ⟨p', h3, h4⟩ := Res.bind_eq_ok.mp h
      exact ⟨fun k hk => by rw [find_set h4, if_neg hk], _, p', h2, by rw [find_set h4, if_pos rfl], h3⟩
    · cases h
  · cases h

theorem pushName_ne_ub (name : String) (j : Json) : pushName name j ≠ Res.ub := by
  cases j <;> simp [pushName]

theorem addRequired_ne_ub (s : Json) (name : String) (d : Json) : addRequired s name d ≠ Res.ub := by
  unfold addRequired
  refine res_bind_ne (pushName_ne_ub _ _) fun _ _ => ?_
  refine res_bind_ne (set_ne_ub _ _ _) fun _ _ => ?_
  exact res_bind_ne (set_ne_ub _ _ _) fun _ _ => set_ne_ub _ _ _

theorem valueOr_ne_ub (j : Json) (k : String) : Factory.valueOr j k ≠ Res.ub := by
  unfold Factory.valueOr
  split <;> simp

variable {α : Type}

theorem typeSchema_ne_ub (t : ComponentType α) : typeSchema t ≠ Res.ub := by
  unfold typeSchema
  cases t.boundary with
  | none => exact addDefaults_ne_ub _ _
  | some b =>
    refine res_bind_ne (valueOr_ne_ub _ _) fun _ _ => ?_
    refine res_bind_ne (addDefaults_ne_ub _ _) fun _ _ => ?_
    exact res_bind_ne (addRequired_ne_ub _ _ _) fun _ _ => addDefaults_ne_ub _ _

/-- The schemas of a type: all definitions in them have types. -/
structure TypedSchema (t : ComponentType α) : Prop where
  schema : ∃ p, t.schema.find? "properties" = some p ∧ Typed p
  boundary : ∀ b, t.boundary = some b → b.contains "type" = true ∧ ∃ p, b.find? "properties" = some p ∧ Typed p

/-- The schema used for validation has types everywhere and requires what the schema of the type requires, and boundary values if there are
some. -/
theorem typeSchema_typed {t : ComponentType α} (ht : TypedSchema t) {s : Json} (h : typeSchema t = Res.ok s) :
    (∃ p, s.find? "properties" = some p ∧ Typed p) ∧ (∀ k, Requires t.schema k → Requires s k) ∧
    (∀ b, t.boundary = some b → Requires s "boundary_values") := by
  unfold typeSchema at h
  cases hb : t.boundary with
  | none =>
    rw [hb] at h
    change addDefaults t.schema t.defaults = _ at h
    obtain ⟨h1, p, p', h2, h3, h4⟩ := addDefaults_kept h
    obtain ⟨q, h5, h6⟩ := ht.schema
    rw [h5] at h2
    injection h2 with h2
    subst h2
    refine ⟨⟨p', h3, addUnsafe_typed h6 h4⟩, fun k hk => ?_, fun b hb => by cases hb⟩
    unfold Requires
    rw [h1 _ (by decide)]
    exact hk
  | some b =>
    rw [hb] at h
    obtain ⟨d, -, h⟩ := Res.bind_eq_ok.mp h
    obtain ⟨b', h8, h⟩ := Res.bind_eq_ok.mp h
    obtain ⟨s1, h7, h⟩ := Res.bind_eq_ok.mp h
    change addDefaults s1 t.defaults = _ at h
    obtain ⟨h1, p, p', h2, h3, h4⟩ := addDefaults_kept h
    obtain ⟨g1, q, q', g2, g3, g4⟩ := addDefaults_kept h8
    obtain ⟨hbt, q1, g5, g6⟩ := ht.boundary b hb
    rw [g5] at g2
    injection g2 with g2
    subst g2
    have hb' : Typed q' := addUnsafe_typed g6 g4
    unfold addRequired at h7
    obtain ⟨r, hr, h7⟩ := Res.bind_eq_ok.mp h7
    obtain ⟨s2, hs2, h7⟩ := Res.bind_eq_ok.mp h7
    obtain ⟨p1, hp1, hs1⟩ := Res.bind_eq_ok.mp h7
    have hreq : ∀ k, (Requires t.schema k ∨ k = "boundary_values") → Requires s1 k := by
      intro k hk
      have e : s1.find? "required" = some r := by rw [find_set hs1, if_neg (by decide), find_set hs2, if_pos rfl]
      unfold pushName at hr
      split at hr
      · next hn =>
        injection hr with hr
        subst hr
        refine ⟨_, e, ?_⟩
        rcases hk with ⟨l, hl, -⟩ | rfl
        · rw [hl] at hn; simp at hn
        · simp
      · next l hn =>
        injection hr with hr
        subst hr
        refine ⟨_, e, ?_⟩
        rcases hk with ⟨l', hl, hm⟩ | rfl
        · rw [hl] at hn
          simp only [Option.getD_some, arr.injEq] at hn
          subst hn
          simp [hm]
        · simp
      · cases hr
    have hreq' : ∀ k, (Requires t.schema k ∨ k = "boundary_values") → Requires s k := by
      intro k hk
      unfold Requires
      rw [h1 _ (by decide)]
      exact hreq k hk
    refine ⟨⟨p', h3, ?_⟩, fun k hk => hreq' k (Or.inl hk), fun _ _ => hreq' _ (Or.inr rfl)⟩
    refine addUnsafe_typed ?_ h4
    rw [find_set hs1, if_pos rfl] at h2
    injection h2 with h2
    subst h2
    obtain ⟨q2, k1, k2⟩ := ht.schema
    have hb2 : b'.contains "type" = true := by
      unfold contains at hbt ⊢
      rw [g1 _ (by decide)]
      exact hbt
    rw [find_set hs2, if_neg (by decide), k1, Option.getD_some] at hp1
    cases k2 with
    | intro _ k3 k4 =>
      refine .intro _ (fun x hx => ?_) fun x hx q hq => ?_
      · rcases mem_items_set hp1 hx with rfl | hx
        · exact hb2
        · exact k3 x hx
      · rcases mem_items_set hp1 hx with rfl | hx
        · unfold nested? at hq
          split at hq
          · next _ h9 =>
            split at hq
            · injection hq with hq
              subst hq
              rw [g3] at h9
              injection h9 with h9
              subst h9
              exact hb'
            · cases hq
          · cases hq
        · exact k4 x hx q hq

theorem prepare_ne_ub {valid : Json → Json → Bool} {t : ComponentType α} (ht : TypedSchema t) {j : Json} (hj : j.isObj = true) :
    prepare valid t j ≠ Res.ub := by
  unfold prepare
  refine res_bind_ne (typeSchema_ne_ub t) fun s hs => ?_
  refine res_bind_ne ?_ fun _ _ => by split <;> simp
  obtain ⟨⟨p, hp, hpt⟩, -⟩ := typeSchema_typed ht hs
  unfold applyDefaults
  split
  · next h1 h2 =>
    rw [hp] at h2
    injection h2 with h2
    subst h2
    split
    · exact C50_defined hpt hj
    · simp
  · simp

/-- Prepared data have the keys that are required. -/
theorem prepare_requires {t : ComponentType α} (ht : TypedSchema t) {j data : Json} (hj : j.isObj = true)
    (h : prepare accepts t j = Res.ok data) :
    data.isObj = true ∧ (∀ k, Requires t.schema k → data.find? k ≠ none) ∧
    (∀ b, t.boundary = some b → data.find? "boundary_values" ≠ none) := by
  unfold prepare at h
  obtain ⟨s, h1, h⟩ := Res.bind_eq_ok.mp h
  obtain ⟨data', h2, h⟩ := Res.bind_eq_ok.mp h
  split at h
  · next hv =>
    injection h with h
    subst h
    obtain ⟨-, h3, h4⟩ := typeSchema_typed ht h1
    have ho : data'.isObj = true := by
      unfold applyDefaults at h2
      split at h2
      · split at h2
        · exact (C50_kept hj h2).1
        · cases h2
      · cases h2
    have key : ∀ k, Requires s k → data'.find? k ≠ none := by
      rintro k ⟨l, hl, hk⟩
      obtain ⟨v, hv'⟩ := accepts_enforces s data' l k hv ho hl hk
      rw [hv']; simp
    exact ⟨ho, fun k hk => key k (h3 k hk), fun b hb => key _ (h4 b hb)⟩
  · cases h

/-! ## Constructors -/

/-- The json lists values at increasing times, at least at one. -/
def ListsTimes (j : Json) : Prop := ∃ l, Lists j l ∧ l ≠ [] ∧ (l.map Prod.fst).Pairwise (· < ·)

theorem validate_ne_ub (units : Unit.Table) (s : List Char) : Unit.validate units s ≠ Res.ub := by
  unfold Unit.validate
  split <;> simp

theorem metres_ne_ub {data : Json} {key : String} (h : data.find? key ≠ none) : metres data key ≠ Res.ub := by
  unfold metres
  refine res_bind_ne (index_defined h) fun m _ => ?_
  split
  · next hv =>
    have hobj : m.isObj = true := by
      by_contra hn
      cases m <;> simp_all [measureSchema, accepts_obj, keyword, simpleKeyword, isObj, hasType]
    have hkey : ∀ k, str k ∈ [str "value", str "unit"] → m.find? k ≠ none := by
      intro k hk
      obtain ⟨v, hv'⟩ := accepts_enforces measureSchema m [str "value", str "unit"] k hv hobj rfl hk
      rw [hv']; simp
    refine res_bind_ne (index_defined (hkey _ (by simp))) fun u _ => ?_
    refine res_bind_ne (getStr_ne_ub _) fun unit _ => ?_
    refine res_bind_ne (number_ne_ub (hkey _ (by simp))) fun value _ => ?_
    by_cases hex : ∃ x c, Unit.Means Unit.length unit.toList x c
    · obtain ⟨x, c, hx⟩ := hex
      rw [Unit.C52_meaning _ length_mem _ x c hx]
      simp
    · rw [Unit.C52_rejected _ length_mem _ hex]
      simp
  · simp

theorem fillLoop_ne_ub {v : IV ℝ} {i : ℕ} {ws : List (List ℝ)} (h : ∀ w ∈ ws, w.length = v.inner) :
    fillLoop v i ws ≠ Res.ub := by
  induction ws generalizing v i with
  | nil => simp [fillLoop]
  | cons w ws ih =>
    simp only [fillLoop]
    refine res_bind_ne ?_ fun v' hv' => ?_
    · unfold writeTimestep
      rw [if_neg (by omega)]
      simp only
      split
      · simp
      · rw [if_pos (h w (by simp))]; simp
    · refine ih fun w' hw' => ?_
      unfold writeTimestep at hv'
      rw [if_neg (by omega)] at hv'
      simp only at hv'
      split at hv'
      · cases hv'
      · split at hv'
        · injection hv' with hv'
          subst hv'
          exact h w' (by simp [hw'])
        · cases hv'

/-- Reading a list that is not empty is defined, and yields something that makes sense. -/
theorem readVector_defined {k : ℕ} {mem : ℕ → ℝ} {b : Json} (hb : ListsTimes b) :
    Gas.readVector (accepts (boundaryOf k)) mem b ≠ Res.ub ∧
    ∀ v, Gas.readVector (accepts (boundaryOf k)) mem b = Res.ok v → Initial.Proper v ∧ v.inner = k := by
  obtain ⟨l, hl, hne, hs⟩ := hb
  refine ⟨?_, fun v hv => ?_⟩
  · obtain ⟨es, hd, he⟩ := hl
    unfold Gas.readVector
    split
    · next hv =>
      rw [index_of_find hd, Res.ok_bind]
      obtain ⟨id, es', -, h1, h2⟩ := (C78_accepts (boundaryOf_ok k) b).mp hv
      rw [hd] at h1
      injection h1 with h1
      injection h1 with h1
      subst h1
      have hk : ∀ e ∈ l, e.2.length = k := by
        intro e hm
        obtain ⟨j, hj, h3⟩ := forall₂_mem_right he hm
        obtain ⟨w, h4, h5⟩ := (h2 j hj).2 _ h3.2.2
        injection h5 with h5
        have := congrArg List.length h5
        simp only [List.length_map] at this
        exact this.trans h4
      cases he with
      | nil => exact absurd rfl hne
      | @cons j e es l h3 h4 =>
        have e1 := Gas.each_readEntry (.cons h3 h4)
        simp only [contains, h3.1, Option.isSome_none, Bool.false_eq_true, if_false, e1, Res.ok_bind]
        obtain ⟨v', h5, -⟩ := C66_from_json mem (Gas.real (e :: l)) (by simp [Gas.real]) k (by
          intro x hx
          obtain ⟨y, hy, rfl⟩ := List.mem_map.mp hx
          simpa using hk y hy)
        change constructFromJson mem (Gas.real (e :: l)) ≠ _
        rw [h5]; simp
    · simp
  · obtain ⟨-, hk, h3⟩ := readVector_ok hv hl
    obtain ⟨v', h4, hwf, hin, hpts, -⟩ := C66_from_json mem (Gas.real l) (by simp [Gas.real, hne]) k (by
      intro e he
      obtain ⟨x, hx, rfl⟩ := List.mem_map.mp he
      simpa using hk x hx)
    rw [h3] at h4
    injection h4 with h4
    subst h4
    refine ⟨⟨hwf, ?_, ?_⟩, hin⟩
    · rw [hpts]
      have e : (Gas.real l).map Prod.fst = (l.map Prod.fst).map fun q : ℚ => (q : ℝ) := by simp [Gas.real]
      rw [e, List.pairwise_map]
      exact hs.imp fun h => by exact_mod_cast h
    · rw [hpts]
      have := List.length_pos_iff.mpr hne
      simpa [Gas.real] using this

theorem source_ne_ub {k : ℕ} {mem : ℕ → ℝ} {data b : Json} (hb : data.find? "boundary_values" = some b) (hl : ListsTimes b) :
    Gas.source (accepts (boundaryOf k)) mem data ≠ Res.ub := by
  unfold Gas.source
  rw [index_of_find hb, Res.ok_bind]
  exact (readVector_defined hl).1

theorem sink_ne_ub {mem : ℕ → ℝ} {data b : Json} (hb : data.find? "boundary_values" = some b) (hl : ListsTimes b) :
    Gas.sink (accepts (boundaryOf 1)) mem data ≠ Res.ub := by
  obtain ⟨l, ⟨es, hd, he⟩, hne, hs⟩ := hl
  obtain ⟨data', h1, ⟨b', es', h2, h3, h4⟩, -, -⟩ := Gas.C65_revert data l ⟨b, es, hb, hd, he⟩
  unfold Gas.sink
  rw [h1, Res.ok_bind]
  refine source_ne_ub h2 ⟨_, ⟨es', h3, h4⟩, ?_, ?_⟩
  · simpa [Gas.negative] using hne
  · simpa [Gas.negative, List.map_map, Function.comp_def] using hs

theorem power_ne_ub {kind : Network.NodeKind} {mem : ℕ → ℝ} {data b : Json} (hb : data.find? "boundary_values" = some b)
    (hl : ListsTimes b) (hG : data.find? "G" ≠ none) (hB : data.find? "B" ≠ none) : powerNode kind mem data ≠ Res.ub := by
  unfold powerNode
  refine res_bind_ne (source_ne_ub hb hl) fun _ _ => ?_
  refine res_bind_ne (number_ne_ub hG) fun _ _ => ?_
  exact res_bind_ne (number_ne_ub hB) fun _ _ => by simp

/-- Constructors of nodes are defined if the boundary values make sense. -/
theorem node_construct_ne_ub {draws : Json → Res (ℝ → Res (ℝ × ℝ))} (hdraws : ∀ data, draws data ≠ Res.ub) {mem : ℕ → ℝ}
    {name : String} {s : Json} {bs : Option Json} {c : Json → Res Network.Node} (hm : (name, s, bs, c) ∈ nodeList draws mem)
    {data : Json} (hreq : ∀ k, Requires s k → data.find? k ≠ none)
    (hb : name ≠ "Innode" → ∃ b, data.find? "boundary_values" = some b ∧ ListsTimes b) : c data ≠ Res.ub := by
  have power : (s = powerTopology ∨ s = stochasticTopology) → data.find? "G" ≠ none ∧ data.find? "B" ≠ none := by
    rintro (rfl | rfl)
    · exact ⟨hreq "G" ⟨_, rfl, by simp⟩, hreq "B" ⟨_, rfl, by simp⟩⟩
    · exact ⟨hreq "G" ⟨_, rfl, by simp⟩, hreq "B" ⟨_, rfl, by simp⟩⟩
  simp only [nodeList, List.mem_cons, List.not_mem_nil, or_false, Prod.mk.injEq] at hm
  have key : ∀ {k : ℕ} {f : IV ℝ → Res Network.Node}, (∀ v, f v ≠ Res.ub) → name ≠ "Innode" →
      (Gas.source (accepts (boundaryOf k)) mem data >>= f) ≠ Res.ub := by
    intro k f hf hn
    obtain ⟨b, h1, h2⟩ := hb hn
    exact res_bind_ne (source_ne_ub h1 h2) fun v _ => hf v
  have key' : ∀ {f : IV ℝ → Res Network.Node}, (∀ v, f v ≠ Res.ub) → name ≠ "Innode" →
      (Gas.sink (accepts (boundaryOf 1)) mem data >>= f) ≠ Res.ub := by
    intro f hf hn
    obtain ⟨b, h1, h2⟩ := hb hn
    exact res_bind_ne (sink_ne_ub h1 h2) fun v _ => hf v
  have pow : ∀ kind, (s = powerTopology ∨ s = stochasticTopology) → name ≠ "Innode" → powerNode kind mem data ≠ Res.ub := by
    intro kind hs hn
    obtain ⟨b, h1, h2⟩ := hb hn
    exact power_ne_ub h1 h2 (power hs).1 (power hs).2
  rcases hm with ⟨rfl, rfl, -, rfl⟩ | ⟨rfl, rfl, -, rfl⟩ | ⟨rfl, rfl, -, rfl⟩ | ⟨rfl, rfl, -, rfl⟩ | ⟨rfl, rfl, -, rfl⟩ |
    ⟨rfl, rfl, -, rfl⟩ | ⟨rfl, rfl, -, rfl⟩ | ⟨rfl, rfl, -, rfl⟩ | ⟨rfl, rfl, -, rfl⟩ | ⟨rfl, rfl, -, rfl⟩
  · exact key' (fun _ => by simp) (by decide)
  · exact pow _ (Or.inl rfl) (by decide)
  · simp [innode]
  · exact pow _ (Or.inl rfl) (by decide)
  · exact pow _ (Or.inl rfl) (by decide)
  · exact key (fun _ => by simp) (by decide)
  · exact key' (fun _ => by simp) (by decide)
  · exact key (fun _ => by simp) (by decide)
  · exact res_bind_ne (pow _ (Or.inr rfl) (by decide)) fun _ _ => res_bind_ne (hdraws data) fun _ _ => by simp
  · exact pow _ (Or.inl rfl) (by decide)

/-- Constructors of edges are defined if pipes have a number of points. -/
theorem edge_construct_ne_ub {name : String} {s : Json} {bs : Option Json} {c : Json → Res Network.EdgeKind}
    (hm : (name, s, bs, c) ∈ edgeList) {data : Json} (hreq : ∀ k, Requires s k → data.find? k ≠ none)
    (hp : name = "Pipe" → ∀ L w : ℚ, metres data "length" = Res.ok L → number data "desired_delta_x" = Res.ok w →
      0 < L ∧ 0 < w ∧ L ≤ 2147483646 * w) : c data ≠ Res.ub := by
  simp only [edgeList, List.mem_cons, List.not_mem_nil, or_false, Prod.mk.injEq] at hm
  rcases hm with ⟨rfl, rfl, -, rfl⟩ | ⟨rfl, rfl, -, rfl⟩ | ⟨rfl, rfl, -, rfl⟩ | ⟨rfl, rfl, -, rfl⟩ | ⟨rfl, rfl, -, rfl⟩ |
    ⟨rfl, rfl, -, rfl⟩
  · simp [short]
  · simp [short]
  · unfold connection
    refine res_bind_ne (number_ne_ub (hreq _ ⟨_, rfl, by simp⟩)) fun _ _ => ?_
    exact res_bind_ne (number_ne_ub (hreq _ ⟨_, rfl, by simp⟩)) fun _ _ => by simp
  · unfold pipe
    refine res_bind_ne (metres_ne_ub (hreq _ ⟨_, rfl, by simp⟩)) fun L hL => ?_
    refine res_bind_ne (number_ne_ub (hreq _ ⟨_, rfl, by simp⟩)) fun w hw => ?_
    obtain ⟨h0, h1, h2⟩ := hp rfl L w hL hw
    have h0' : (0 : ℝ) < L := by exact_mod_cast h0
    have h1' : (0 : ℝ) < w := by exact_mod_cast h1
    have h2' : (L : ℝ) ≤ 2147483646 * w := by exact_mod_cast h2
    obtain ⟨n, e1, e2, -⟩ := Gas.C38_widths (L : ℝ) w h0' h1' ((div_le_iff₀ h1').mpr h2')
    rw [e1, Res.ok_bind]
    refine res_bind_ne (metres_ne_ub (hreq _ ⟨_, rfl, by simp⟩)) fun D _ => ?_
    refine res_bind_ne (metres_ne_ub (hreq _ ⟨_, rfl, by simp⟩)) fun r _ => ?_
    refine res_bind_ne ?_ fun u _ => ?_
    · unfold scheme
      refine res_bind_ne (index_defined (hreq _ ⟨_, rfl, by simp⟩)) fun _ _ => ?_
      split <;> simp
    · rw [if_neg (by omega)]
      simp
  · simp [short]
  · unfold line
    refine res_bind_ne (number_ne_ub (hreq _ ⟨_, rfl, by simp⟩)) fun _ _ => ?_
    exact res_bind_ne (number_ne_ub (hreq _ ⟨_, rfl, by simp⟩)) fun _ _ => by simp

end Verif.Read
