import Verif.Read.Run

/-!
# Reading initial values and controls of a whole network

Lemmas for C102.
-/

set_option autoImplicit false

namespace Verif.Read

open Verif.Json Verif.Factory Verif.Interp Verif.Schema Verif.Initial Verif.Times Network Net

/-! ## Reading lists -/

theorem each_point {es : List Json} {l : List (ℚ × List ℚ)} (h : List.Forall₂ (IsPoint "x") es l) :
    Res.each es (Gas.readEntry "x") = Res.ok l := by
  induction h with
  | nil => rfl
  | cons h _ ih =>
    obtain ⟨h1, h2⟩ := h
    simp only [Res.each, ih, Gas.readEntry, index_of_find h1, index_of_find h2, Res.ok_bind, Gas.getNum, Gas.valuesOf,
      Gas.each_getNum]

/-- What is read from a json with points. -/
theorem readPoints_ok {valid : Json → Bool} {mem : ℕ → ℝ} {j : Json} {v : IV ℝ} (h : Gas.readVector valid mem j = Res.ok v)
    {l : List (ℚ × List ℚ)} (hl : Describes "x" j l) : l ≠ [] ∧ constructFromJson mem (Gas.real l) = Res.ok v := by
  obtain ⟨-, es, -, hd, he⟩ := hl
  unfold Gas.readVector at h
  split at h
  · rw [index_of_find hd, Res.ok_bind] at h
    cases he with
    | nil => cases h
    | @cons j e es l h3 h4 =>
      have e1 := each_point (.cons h3 h4)
      simp only [contains, h3.1, Option.isSome_some, if_true, e1, Res.ok_bind] at h
      exact ⟨by simp, h⟩
  · cases h

/-- Whatever passes validation and is read has the right number of values at each time. -/
theorem readVector_inner {k : ℕ} {mem : ℕ → ℝ} {j : Json} {v : IV ℝ}
    (h : Gas.readVector (accepts (boundaryOf k)) mem j = Res.ok v) : v.inner = k := by
  unfold Gas.readVector at h
  split at h
  · next hv =>
    obtain ⟨id, es, -, h1, h2⟩ := (C78_accepts (boundaryOf_ok k) j).mp hv
    rw [index_of_find h1, Res.ok_bind] at h
    cases es with
    | nil => cases h
    | cons front es =>
      obtain ⟨l, h3, h4⟩ := Res.bind_eq_ok.mp h
      have h5 := Res.each_eq_ok.mp h3
      have hk : ∀ e ∈ l, e.2.length = k := by
        intro e he
        obtain ⟨x, hx, h6⟩ := forall₂_mem_right h5 he
        unfold Gas.readEntry at h6
        obtain ⟨p, -, h6⟩ := Res.bind_eq_ok.mp h6
        obtain ⟨q, -, h6⟩ := Res.bind_eq_ok.mp h6
        obtain ⟨w, h7, h6⟩ := Res.bind_eq_ok.mp h6
        obtain ⟨w', h8, h6⟩ := Res.bind_eq_ok.mp h6
        injection h6 with h6
        subst h6
        obtain ⟨u, h9, rfl⟩ := (h2 x hx).2 w (index_eq_ok.mp h7)
        rw [show Gas.valuesOf (arr (u.map num)) = Res.ok u from Gas.each_getNum u] at h8
        injection h8 with h8
        subst h8
        exact h9
      have hne : l ≠ [] := by
        rintro rfl
        cases h5
      obtain ⟨v', h6, -, h7, -⟩ := C66_from_json mem (Gas.real l) (by simpa [Gas.real] using hne) k (by
        intro e he
        obtain ⟨x, hx, rfl⟩ := List.mem_map.mp he
        simpa using hk x hx)
      have h4' : constructFromJson mem (Gas.real l) = Res.ok v := h4
      rw [h4'] at h6
      injection h6 with h6
      rw [h6]
      exact h7
  · cases h

/-- The vector that is read has the listed or interpolated values. -/
theorem eval_valueAt {k : ℕ} {mem : ℕ → ℝ} {l : List (ℚ × List ℚ)} (hne : l ≠ []) (hk : ∀ e ∈ l, e.2.length = k)
    (hs : (l.map Prod.fst).Pairwise (· < ·)) {v : IV ℝ} (h : constructFromJson mem (Gas.real l) = Res.ok v) {t : ℝ} {b : ℝ × ℝ}
    (hb : ValueAt 1 l t b) : ∃ r, eval v t = Res.ok r ∧ r.length = k ∧ (0 < k → r[0]? = some b.1) ∧ (1 < k → r[1]? = some b.2) := by
  obtain ⟨h1, h2, -⟩ := vector_eval hne hk hs h
  rcases hb with ⟨p, hp, rfl, rfl⟩ | ⟨i, hi, ht1, ht2, rfl⟩
  · obtain ⟨i, hi, rfl⟩ := List.mem_iff_getElem.mp hp
    have hl := hk _ (List.getElem_mem hi)
    refine ⟨_, h1 i hi, by simpa using hl, fun h0 => ?_, fun h0 => ?_⟩
    · simp [listed, hl, h0]
    · simp [listed, hl, h0]
  · obtain ⟨r, h3, h4, h5⟩ := h2 i hi t ht1 ht2
    refine ⟨r, h3, h4, fun h0 => ?_, fun h0 => ?_⟩
    · rw [h5 0 h0]
      simp [listed]
    · rw [h5 1 h0]
      simp [listed]

/-! ## The entry of a component -/

/-- The last entry with an id in a json with values of components. -/
def LastEntry (json : Json) (id : String) (e : Json) : Prop :=
  ∃ before after, components json = before ++ e :: after ∧ id? e = some id ∧ ∀ e' ∈ after, id? e' ≠ some id

/-! ## State components -/

section Components
variable {g : Graph Network.Node EdgeKind} (hc : Consistent g) (mem : ℕ → ℝ)

theorem pipeSchema_ok : ∃ s, pipeSchema = Res.ok s := initial_ok (by simp) 2 _

theorem singleSchema_ok : ∃ s, singleSchema = Res.ok s := initial_ok (by simp) 2 _

theorem shortSchema_ok : ∃ s, shortSchema = Res.ok s := initial_ok (by simp) 2 _

theorem mem_stateComponents {c : StateComponent ℝ} :
    c ∈ stateComponents hc mem ↔ (∃ v, stateNode hc mem v = some c) ∨ ∃ k, stateEdge hc mem k = some c := by
  simp [stateComponents]

theorem range_nonneg (N : Net) (c : N.Component) : 0 ≤ (N.range c).1 := by
  rw [range_eq, Network.setIndices_get 0 _ _ (N.place_lt c)]
  show 0 ≤ (0 : ℤ) + _
  omega

/-- Where the states of a component are. -/
theorem component_of {c : StateComponent ℝ} :
    (∀ v, stateNode hc mem v = some c → c.id = g.nodes[v].id ∧ (c.start : ℤ) = ((toNet hc).nodeRange v).1 ∧
      c.states = nodeNeed ((toNet hc).node v).kind) ∧
    ∀ k, stateEdge hc mem k = some c → c.id = g.edges[k].id ∧ (c.start : ℤ) = ((toNet hc).edgeRange k).1 ∧
      c.states = edgeNeed ((toNet hc).edge k) := by
  constructor
  · intro v h
    have h0 := range_nonneg (toNet hc) (.inl v)
    unfold stateNode at h
    split at h
    · next hp =>
      injection h with h
      subst h
      exact ⟨rfl, Int.toNat_of_nonneg h0, by simp [nodeNeed, hp]⟩
    · cases h
  · intro k h
    have h0 := range_nonneg (toNet hc) (.inr k)
    unfold stateEdge at h
    simp only at h
    split at h
    · next dx d r n he =>
      injection h with h
      subst h
      exact ⟨rfl, Int.toNat_of_nonneg h0, by rw [he]; rfl⟩
    · next he =>
      injection h with h
      subst h
      exact ⟨rfl, Int.toNat_of_nonneg h0, by rw [he]; rfl⟩
    · next kind n hp hg he =>
      injection h with h
      subst h
      refine ⟨rfl, Int.toNat_of_nonneg h0, ?_⟩
      rw [he]
      cases kind with
      | pipe dx d r => exact absurd rfl (hp dx d r)
      | gaspower a b => exact absurd rfl (hg a b)
      | _ => rfl
    · cases h

theorem sublist_filterMap {α β : Type} {l : List α} {f : α → Option β} {a : α → String} {b : β → String}
    (h : ∀ x y, f x = some y → b y = a x) : ((l.filterMap f).map b).Sublist (l.map a) := by
  induction l with
  | nil => exact List.Sublist.refl _
  | cons x l ih =>
    cases hx : f x with
    | none => rw [List.filterMap_cons_none hx]; exact ih.cons _
    | some y =>
      rw [List.filterMap_cons_some hx, List.map_cons, List.map_cons, h x y hx]
      exact ih.cons_cons _

theorem ids_nodup (hids : (g.nodes.map Node.id ++ g.edges.map Edge.id).Nodup) :
    ((stateComponents hc mem).map StateComponent.id).Nodup := by
  refine List.Sublist.nodup ?_ hids
  unfold stateComponents
  rw [List.map_append]
  have e1 : g.nodes.map Node.id = (List.finRange g.nodes.length).map fun v => g.nodes[v].id := by
    rw [← List.ofFn_eq_map]
    exact List.ext_getElem (by simp) (by simp)
  have e2 : g.edges.map Edge.id = (List.finRange g.edges.length).map fun v => g.edges[v].id := by
    rw [← List.ofFn_eq_map]
    exact List.ext_getElem (by simp) (by simp)
  rw [e1, e2]
  exact (sublist_filterMap fun v c h => ((component_of hc mem).1 v h).1).append
    (sublist_filterMap fun k c h => ((component_of hc mem).2 k h).1)

theorem disjoint_states : Initial.Disjoint (stateComponents hc mem) := by
  have key : ∀ c ∈ stateComponents hc mem, ∃ x : (toNet hc).Component, (∀ j : ℕ, Owns c j → (toNet hc).InRange x j) ∧
      (match x with
        | .inl v => stateNode hc mem v
        | .inr k => stateEdge hc mem k) = some c := by
    intro c h
    rcases (mem_stateComponents hc mem).mp h with ⟨v, h⟩ | ⟨k, h⟩
    · obtain ⟨-, h1, h2⟩ := (component_of hc mem).1 v h
      refine ⟨.inl v, fun j hj => ?_, h⟩
      have := (toNet hc).range_length (.inl v)
      have e1 : (toNet hc).range (.inl v) = (toNet hc).nodeRange v := rfl
      have e2 : (toNet hc).need (.inl v) = nodeNeed ((toNet hc).node v).kind := rfl
      unfold Owns at hj
      unfold InRange
      rw [this, e1, e2, ← h1, ← h2]
      omega
    · obtain ⟨-, h1, h2⟩ := (component_of hc mem).2 k h
      refine ⟨.inr k, fun j hj => ?_, h⟩
      have := (toNet hc).range_length (.inr k)
      have e1 : (toNet hc).range (.inr k) = (toNet hc).edgeRange k := rfl
      have e2 : (toNet hc).need (.inr k) = edgeNeed ((toNet hc).edge k) := rfl
      unfold Owns at hj
      unfold InRange
      rw [this, e1, e2, ← h1, ← h2]
      omega
  intro a ha b hb j hja hjb
  obtain ⟨x, hx, ea⟩ := key a ha
  obtain ⟨y, hy, eb⟩ := key b hb
  have := (hx j hja).unique (hy j hjb)
  subst this
  exact Option.some.inj (ea.symm.trans eb)

end Components

end Verif.Read
