import Verif.Json.Ids

/-!
# Property C46: merging boundary data into the topology

Source: `/repo/src/Model/Netfactory/Netfactory.cpp` 147-199.
-/

set_option autoImplicit false

namespace Verif.Json

/-- `a["id"].get<std::string>()`, as used in the comparison — 173-176. -/
def rawId (c : Json) : Res String := do
  let i ← c.index "id"
  i.getStr

/-- The loop over the entries of one type in both jsons — 170-195. The first list are the remaining entries of the second
json, the second list those of the topology; the result are the entries of the topology afterwards. -/
def mergeLists (name : String) : List Json → List Json → Res (List Json)
  | [], top => Res.ok top
  | _ :: _, [] => Res.ok []
  | s :: second, t :: top => do
    let a ← rawId s
    let b ← rawId t
    if a < b then mergeLists name second (t :: top)
    else if b < a then Res.throws
    else do
      let t' ← t.set name s
      let rest ← mergeLists name second top
      Res.ok (t' :: rest)

/-- The two jsons of one type. Entries are lists, apart from null and empty objects (otherwise sorting them throws
before). -/
def mergeType (name : String) : Json → Json → Res Json
  | arr second, arr top => do
    let l ← mergeLists name second top
    Res.ok (arr l)
  | _, top => Res.ok top

/-- The loop over the types of a class — 155-196. -/
def mergeClass (name : String) (second : List (String × Json)) (top : Json) : Res Json :=
  Res.fold second top fun top x =>
    match top.find? x.1 with
    | none => Res.ok top
    | some v => do
      let v' ← mergeType name x.2 v
      top.set x.1 v'

/-- `insert_second_json_in_topology_json` — 147-199. `topology[component]` becomes null if it was missing. -/
def insertSecond (name : String) (top second : Json) : Res Json :=
  Res.fold classes top fun top c =>
    match second.find? c with
    | some (obj (x :: m)) => do
      let v ← mergeClass name (x :: m) ((top.find? c).getD null)
      top.set c v
    | _ => Res.ok top

/-! ## Specification -/

/-- The second json is the first one, where additionally the value is at the key. -/
def Extended (key : String) (v : Json) (c c' : Json) : Prop :=
  ∀ k, c'.find? k = if k = key then some v else c.find? k

/-- Every component of the topology gets the entry with its id. -/
def Merged (name : String) (second top result : List Json) : Prop :=
  List.Forall₂ (fun c c' => ∃ e ∈ second, id? e = id? c ∧ Extended name e c c') top result

/-- All of them have an id. -/
def HaveIds (l : List Json) : Prop := ∀ c ∈ l, ∃ s, id? c = some s

/-! ## Proofs -/

theorem rawId_of {c : Json} {s : String} (h : id? c = some s) : rawId c = Res.ok s := index_id h

theorem set_obj {t : Json} {s key : String} {v : Json} (h : id? t = some s) :
    ∃ t', t.set key v = Res.ok t' ∧ Extended key v t t' := by
  cases t with
  | obj m => exact ⟨obj (insert key v m), rfl, find_set (j := obj m) rfl⟩
  | _ => simp [id?, find?] at h

/-- The id of the first is smaller than that of the second. -/
def Before (a b : Json) : Prop := ∃ s t, id? a = some s ∧ id? b = some t ∧ s < t

theorem Before.trans_eq {a b c : Json} (h : Before a b) (e : id? b = id? c) : Before a c := by
  obtain ⟨s, t, h1, h2, h3⟩ := h
  exact ⟨s, t, h1, e ▸ h2, h3⟩

theorem Before.trans {a b c : Json} (h : Before a b) (h' : Before b c) : Before a c := by
  obtain ⟨s, t, h1, h2, h3⟩ := h
  obtain ⟨t', u, h4, h5, h6⟩ := h'
  rw [h2] at h4
  injection h4 with h4
  subst h4
  exact ⟨s, u, h1, h5, h3.trans h6⟩

theorem Before.ne {a b : Json} (h : Before a b) : id? a ≠ id? b := by
  obtain ⟨s, t, h1, h2, h3⟩ := h
  rw [h1, h2]
  intro e
  injection e with e
  exact h3.ne e

theorem Before.not_symm {a b : Json} (h : Before a b) : ¬ Before b a := fun h' => (h.trans h').ne rfl

/-- What becomes of a component of the topology. -/
def Fate (name : String) (second : List Json) (c c' : Json) : Prop :=
  (∃ e ∈ second, id? e = id? c ∧ Extended name e c c') ∨ (c' = c ∧ ∀ e ∈ second, Before e c)

theorem mergeLists_spec (name : String) {second top : List Json} (hs : SortedById second) (ht : SortedById top)
    (is : HaveIds second) (it : HaveIds top) :
    (mergeLists name second top = Res.throws ↔
      ∃ c ∈ top, (∀ e ∈ second, id? e ≠ id? c) ∧ ∃ e ∈ second, Before c e) ∧
    mergeLists name second top ≠ Res.ub ∧
    ∀ r, mergeLists name second top = Res.ok r → List.Forall₂ (Fate name second) top r := by
  induction second generalizing top with
  | nil =>
    refine ⟨by simp [mergeLists], by simp [mergeLists], fun r hr => ?_⟩
    simp only [mergeLists, Res.ok.injEq] at hr
    subst hr
    exact List.forall₂_same.mpr fun c _ => Or.inr ⟨rfl, by simp⟩
  | cons s second ih =>
    cases top with
    | nil =>
      refine ⟨by simp [mergeLists], by simp [mergeLists], fun r hr => ?_⟩
      simp only [mergeLists, Res.ok.injEq] at hr
      subst hr
      exact .nil
    | cons t top =>
      have hs' := List.pairwise_cons.mp hs
      have ht' := List.pairwise_cons.mp ht
      obtain ⟨a, ha⟩ := is s (by simp)
      obtain ⟨b, hb⟩ := it t (by simp)
      have is' : HaveIds second := fun c hc => is c (by simp [hc])
      have it' : HaveIds top := fun c hc => it c (by simp [hc])
      simp only [mergeLists, rawId_of ha, rawId_of hb, Res.ok_bind]
      rcases lt_trichotomy a b with hab | hab | hab
      · rw [if_pos hab]
        have hst : Before s t := ⟨a, b, ha, hb, hab⟩
        have hsc : ∀ c ∈ t :: top, Before s c := by
          intro c hc
          rcases List.mem_cons.mp hc with rfl | hc
          · exact hst
          · exact hst.trans (ht'.1 c hc)
        obtain ⟨h1, h2, h3⟩ := ih hs'.2 ht is' it
        refine ⟨?_, h2, fun r hr => ?_⟩
        · rw [h1]
          constructor
          · rintro ⟨c, hc, hn, e, he, hce⟩
            refine ⟨c, hc, fun e' he' => ?_, e, by simp [he], hce⟩
            rcases List.mem_cons.mp he' with rfl | he'
            · exact (hsc c hc).ne
            · exact hn e' he'
          · rintro ⟨c, hc, hn, e, he, hce⟩
            refine ⟨c, hc, fun e' he' => hn e' (by simp [he']), e, ?_, hce⟩
            rcases List.mem_cons.mp he with rfl | he
            · exact absurd (hsc c hc) hce.not_symm
            · exact he
        · have := h3 r hr
          rw [List.forall₂_iff_get] at this ⊢
          refine ⟨this.1, fun i hi hi' => ?_⟩
          rcases this.2 i hi hi' with ⟨e, he, h4⟩ | ⟨h4, h5⟩
          · exact Or.inl ⟨e, by simp [he], h4⟩
          · refine Or.inr ⟨h4, fun e he => ?_⟩
            rcases List.mem_cons.mp he with rfl | he
            · exact hsc _ (List.get_mem _ _)
            · exact h5 e he
      · subst hab
        rw [if_neg (lt_irrefl _), if_neg (lt_irrefl _)]
        obtain ⟨t', h4, h5⟩ := set_obj (key := name) (v := s) hb
        have hst : id? s = id? t := ha.trans hb.symm
        have hsc : ∀ c ∈ top, Before s c := by
          intro c hc
          obtain ⟨x, y, h6, h7, h8⟩ := ht'.1 c hc
          exact ⟨x, y, hst ▸ h6, h7, h8⟩
        obtain ⟨h1, h2, h3⟩ := ih hs'.2 ht'.2 is' it'
        simp only [h4, Res.ok_bind]
        refine ⟨?_, ?_, ?_⟩
        · have : ((mergeLists name second top >>= fun rest => Res.ok (t' :: rest)) = Res.throws) ↔
              mergeLists name second top = Res.throws := by
            cases mergeLists name second top <;> simp
          rw [this, h1]
          constructor
          · rintro ⟨c, hc, hn, e, he, hce⟩
            refine ⟨c, by simp [hc], fun e' he' => ?_, e, by simp [he], hce⟩
            rcases List.mem_cons.mp he' with rfl | he'
            · exact (hsc c hc).ne
            · exact hn e' he'
          · rintro ⟨c, hc, hn, e, he, hce⟩
            rcases List.mem_cons.mp hc with rfl | hc
            · exact absurd hst (hn s (by simp))
            · refine ⟨c, hc, fun e' he' => hn e' (by simp [he']), e, ?_, hce⟩
              rcases List.mem_cons.mp he with rfl | he
              · exact absurd (hsc c hc) hce.not_symm
              · exact he
        · cases hm : mergeLists name second top with
          | ub => exact absurd hm h2
          | _ => simp
        · intro r hr
          obtain ⟨rest, hrest, hr⟩ := Res.bind_eq_ok.mp hr
          injection hr with hr
          subst hr
          refine .cons (Or.inl ⟨s, by simp, hst, h5⟩) ?_
          have := h3 rest hrest
          rw [List.forall₂_iff_get] at this ⊢
          refine ⟨this.1, fun i hi hi' => ?_⟩
          rcases this.2 i hi hi' with ⟨e, he, h4⟩ | ⟨h4, h5⟩
          · exact Or.inl ⟨e, by simp [he], h4⟩
          · refine Or.inr ⟨h4, fun e he => ?_⟩
            rcases List.mem_cons.mp he with rfl | he
            · exact hsc _ (List.get_mem _ _)
            · exact h5 e he
      · rw [if_neg hab.not_gt, if_pos hab]
        have hts : Before t s := ⟨b, a, hb, ha, hab⟩
        refine ⟨⟨fun _ => ⟨t, by simp, fun e he => ?_, s, by simp, hts⟩, fun _ => rfl⟩, by simp, by simp⟩
        rcases List.mem_cons.mp he with rfl | he
        · exact hts.ne.symm
        · exact (hts.trans (hs'.1 e he)).ne.symm

/-! ## C46 -/

/-- The property C46: for sorted lists, merging throws or every component of the topology gets the entry with its id. -/
def C46_property : Prop :=
  ∀ (name : String) (second top : List Json), SortedById second → SortedById top → HaveIds second → HaveIds top →
    mergeLists name second top = Res.throws ∨ ∃ r, mergeLists name second top = Res.ok r ∧ Merged name second top r

/-- C46 does not hold: with an entry for `a` only, merging into the topology with `a` and `b` leaves `b` without
an entry and does not throw. -/
theorem C46_false : ¬ C46_property := by
  intro h
  have hsort : SortedById [entry "a", entry "b"] := by
    unfold SortedById
    simp only [List.pairwise_cons, List.mem_singleton, forall_eq, List.not_mem_nil, false_imp_iff, implies_true,
      List.Pairwise.nil, and_true]
    exact ⟨"a", "b", rfl, rfl, by decide⟩
  have hids : HaveIds [entry "a", entry "b"] := by
    intro c hc
    simp only [List.mem_cons, List.not_mem_nil, or_false] at hc
    rcases hc with rfl | rfl
    · exact ⟨"a", rfl⟩
    · exact ⟨"b", rfl⟩
  have e : mergeLists "boundary_values" [entry "a"] [entry "a", entry "b"] =
      Res.ok [obj [("boundary_values", entry "a"), ("id", str "a")], entry "b"] := rfl
  rcases h "boundary_values" [entry "a"] [entry "a", entry "b"] (by simp [SortedById]) hsort
    (fun c hc => ⟨"a", by rw [List.mem_singleton.mp hc]; rfl⟩) hids with h1 | ⟨r, h1, h2⟩
  · rw [e] at h1; cases h1
  · rw [e] at h1
    injection h1 with h1
    subst h1
    cases h2 with
    | cons _ h2 =>
      cases h2 with
      | cons h2 _ =>
        obtain ⟨e, he, hid, -⟩ := h2
        rw [List.mem_singleton.mp he] at hid
        exact absurd hid (by decide)

/-- C46, what holds: merging two sorted lists is never undefined, and it throws exactly if some component has no
entry although there is an entry with a greater id. If it does not throw, each component has its own
entry, and nothing else about it has changed; or it is unchanged, and its id is greater than those of all entries.
Missing: an exception in the latter case. -/
theorem C46_merge_partial (name : String) {second top : List Json} (hs : SortedById second) (ht : SortedById top)
    (is : HaveIds second) (it : HaveIds top) :
    (mergeLists name second top = Res.throws ↔
      ∃ c ∈ top, (∀ e ∈ second, id? e ≠ id? c) ∧
        ∃ e ∈ second, ∃ s t, id? c = some s ∧ id? e = some t ∧ s < t) ∧
    mergeLists name second top ≠ Res.ub ∧
    ∀ r, mergeLists name second top = Res.ok r →
      List.Forall₂ (fun c c' => (∃ e ∈ second, id? e = id? c ∧ Extended name e c c') ∨
        (c' = c ∧ ∀ e ∈ second, ∃ s t, id? e = some s ∧ id? c = some t ∧ s < t)) top r :=
  mergeLists_spec name hs ht is it

/-- C46, if some entry has an id that is not smaller than those of all components. -/
theorem C46_complete_partial (name : String) {second top : List Json} (hs : SortedById second) (ht : SortedById top)
    (is : HaveIds second) (it : HaveIds top)
    (hlast : ∃ e ∈ second, ∀ c ∈ top, ∀ s t, id? e = some s → id? c = some t → t ≤ s) :
    mergeLists name second top = Res.throws ∨
      ∃ r, mergeLists name second top = Res.ok r ∧ Merged name second top r := by
  obtain ⟨-, h2, h3⟩ := mergeLists_spec name hs ht is it
  cases hm : mergeLists name second top with
  | throws => exact Or.inl rfl
  | ub => exact absurd hm h2
  | ok r =>
    refine Or.inr ⟨r, rfl, ?_⟩
    obtain ⟨e, he, hlast⟩ := hlast
    have := h3 r hm
    unfold Merged
    rw [List.forall₂_iff_get] at this ⊢
    refine ⟨this.1, fun i hi hi' => ?_⟩
    rcases this.2 i hi hi' with h | ⟨-, h⟩
    · exact h
    · obtain ⟨s, t, h4, h5, h6⟩ := h e he
      exact absurd (hlast _ (List.get_mem _ _) s t h4 h5) (not_le.mpr h6)

/-- An entry for a component that is not in the topology is skipped. -/
example : mergeLists "boundary_values" [entry "a", entry "b", entry "c"] [entry "b", entry "c"] =
    Res.ok [obj [("boundary_values", entry "b"), ("id", str "b")], obj [("boundary_values", entry "c"), ("id", str "c")]] :=
  rfl

/-- A component without an entry, followed by one with an entry. -/
example : mergeLists "boundary_values" [entry "b"] [entry "a", entry "b"] = Res.throws := rfl

end Verif.Json
