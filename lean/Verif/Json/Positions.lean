import Verif.Json.Merge

/-!
# Property C140: inserting positions into the topology

Source: `/repo/helper_functions/insert_positions.cpp`.
-/

set_option autoImplicit false

namespace Verif.Json

/-! ## Model -/

/-- `(*top_it)["x"] = (*secjson_it)["x"]` and the same for `y` — 95-96. Reading a missing key gives null. -/
def place (s t : Json) : Res Json := do
  let t₁ ← t.set "x" ((s.find? "x").getD null)
  t₁.set "y" ((s.find? "y").getD null)

/-- The loop over the entries of one type in both jsons — 76-101. The first list are the remaining positions, the second the remaining entries
of the topology. -/
def placeLists : List Json → List Json → Res (List Json)
  | [], top => Res.ok top
  | _ :: _, [] => Res.ok []
  | s :: second, t :: top => do
    let a ← rawId s
    let b ← rawId t
    if a < b then placeLists second (t :: top)
    else if b < a then Res.throws
    else do
      let t' ← place s t
      let rest ← placeLists second top
      Res.ok (t' :: rest)

/-- What the program does to the lists of one type, that both files have: they are sorted (106-126; as in `Netfactory.cpp`, but duplicate ids are
not looked for) and merged (69-101). Sorting lists with equal ids, whose result is not determined, is modelled by a stable sort. -/
def insertPositions (positions top : List Json) : Res (List Json) := do
  let positions' ← sortList (arr positions)
  let top' ← sortList (arr top)
  placeLists positions'.elements top'.elements

/-! ## Specification -/

/-- The component `c'` is `c` with the position of `e`. -/
def Placed (e c c' : Json) : Prop :=
  c'.find? "x" = some ((e.find? "x").getD null) ∧ c'.find? "y" = some ((e.find? "y").getD null) ∧
    ∀ k, k ≠ "x" → k ≠ "y" → c'.find? k = c.find? k

/-! ## Proofs -/

/-- What becomes of a component of the topology. -/
def PlaceFate (second : List Json) (c c' : Json) : Prop :=
  (∃ e ∈ second, id? e = id? c ∧ Placed e c c') ∨ (c' = c ∧ ∀ e ∈ second, Before e c)

theorem place_obj {s t : Json} {i : String} (h : id? t = some i) : ∃ t', place s t = Res.ok t' ∧ Placed s t t' := by
  obtain ⟨t₁, h1, h2⟩ := set_obj (key := "x") (v := (s.find? "x").getD null) h
  have h1' : id? t₁ = some i := by
    unfold id? at h ⊢
    rw [h2 "id", if_neg (by decide)]
    exact h
  obtain ⟨t', h3, h4⟩ := set_obj (key := "y") (v := (s.find? "y").getD null) h1'
  refine ⟨t', by unfold place; rw [h1]; exact h3, ?_, ?_, ?_⟩
  · rw [h4 "x", if_neg (by decide), h2 "x", if_pos rfl]
  · rw [h4 "y", if_pos rfl]
  · intro k hx hy
    rw [h4 k, if_neg hy, h2 k, if_neg hx]

theorem placeLists_spec {second top : List Json} (hs : SortedById second) (ht : SortedById top)
    (is : HaveIds second) (it : HaveIds top) :
    (placeLists second top = Res.throws ↔
      ∃ c ∈ top, (∀ e ∈ second, id? e ≠ id? c) ∧ ∃ e ∈ second, Before c e) ∧
    placeLists second top ≠ Res.ub ∧
    ∀ r, placeLists second top = Res.ok r → List.Forall₂ (PlaceFate second) top r := by
  induction second generalizing top with
  | nil =>
    refine ⟨by simp [placeLists], by simp [placeLists], fun r hr => ?_⟩
    simp only [placeLists, Res.ok.injEq] at hr
    subst hr
    exact List.forall₂_same.mpr fun c _ => Or.inr ⟨rfl, by simp⟩
  | cons s second ih =>
    cases top with
    | nil =>
      refine ⟨by simp [placeLists], by simp [placeLists], fun r hr => ?_⟩
      simp only [placeLists, Res.ok.injEq] at hr
      subst hr
      exact .nil
    | cons t top =>
      have hs' := List.pairwise_cons.mp hs
      have ht' := List.pairwise_cons.mp ht
      obtain ⟨a, ha⟩ := is s (by simp)
      obtain ⟨b, hb⟩ := it t (by simp)
      have is' : HaveIds second := fun c hc => is c (by simp [hc])
      have it' : HaveIds top := fun c hc => it c (by simp [hc])
      simp only [placeLists, rawId_of ha, rawId_of hb, Res.ok_bind]
      rcases lt_trichotomy a b with hab | hab | hab
      · rw [if_pos hab]
        have hst : Before s t := ⟨a, b, ha, hb, hab⟩
        have hsc : ∀ c ∈ t :: top, Before s c := by
          intro c hc
          rcases List.mem_cons.mp hc with rfl | hc
          · exact hst
          · exact hst.trans (ht'.1 c hc)
        obtain ⟨h1, h2, h3⟩ := ih hs'.2 ht is' it
        refine ⟨?_, h2, fun r hr => ?_⟩
        · rw [h1]
          constructor
          · rintro ⟨c, hc, hn, e, he, hce⟩
            refine ⟨c, hc, fun e' he' => ?_, e, by simp [he], hce⟩
            rcases List.mem_cons.mp he' with rfl | he'
            · exact (hsc c hc).ne
            · exact hn e' he'
          · rintro ⟨c, hc, hn, e, he, hce⟩
            refine ⟨c, hc, fun e' he' => hn e' (by simp [he']), e, ?_, hce⟩
            rcases List.mem_cons.mp he with rfl | he
            · exact absurd (hsc c hc) hce.not_symm
            · exact he
        · have := h3 r hr
          rw [List.forall₂_iff_get] at this ⊢
          refine ⟨this.1, fun i hi hi' => ?_⟩
          rcases this.2 i hi hi' with ⟨e, he, h4⟩ | ⟨h4, h5⟩
          · exact Or.inl ⟨e, by simp [he], h4⟩
          · refine Or.inr ⟨h4, fun e he => ?_⟩
            rcases List.mem_cons.mp he with rfl | he
            · exact hsc _ (List.get_mem _ _)
            · exact h5 e he
      · subst hab
        rw [if_neg (lt_irrefl _), if_neg (lt_irrefl _)]
        obtain ⟨t', h4, h5⟩ := place_obj (s := s) hb
        have hst : id? s = id? t := ha.trans hb.symm
        have hsc : ∀ c ∈ top, Before s c := by
          intro c hc
          obtain ⟨x, y, h6, h7, h8⟩ := ht'.1 c hc
          exact ⟨x, y, hst ▸ h6, h7, h8⟩
        obtain ⟨h1, h2, h3⟩ := ih hs'.2 ht'.2 is' it'
        simp only [h4, Res.ok_bind]
        refine ⟨?_, ?_, ?_⟩
        · have : ((placeLists second top >>= fun rest => Res.ok (t' :: rest)) = Res.throws) ↔
              placeLists second top = Res.throws := by
            cases placeLists second top <;> simp
          rw [this, h1]
          constructor
          · rintro ⟨c, hc, hn, e, he, hce⟩
            refine ⟨c, by simp [hc], fun e' he' => ?_, e, by simp [he], hce⟩
            rcases List.mem_cons.mp he' with rfl | he'
            · exact (hsc c hc).ne
            · exact hn e' he'
          · rintro ⟨c, hc, hn, e, he, hce⟩
            rcases List.mem_cons.mp hc with rfl | hc
            · exact absurd hst (hn s (by simp))
            · refine ⟨c, hc, fun e' he' => hn e' (by simp [he']), e, ?_, hce⟩
              rcases List.mem_cons.mp he with rfl | he
              · exact absurd (hsc c hc) hce.not_symm
              · exact he
        · cases hm : placeLists second top with
          | ub => exact absurd hm h2
          | _ => simp
        · intro r hr
          obtain ⟨rest, hrest, hr⟩ := Res.bind_eq_ok.mp hr
          injection hr with hr
          subst hr
          refine .cons (Or.inl ⟨s, by simp, hst, h5⟩) ?_
          have := h3 rest hrest
          rw [List.forall₂_iff_get] at this ⊢
          refine ⟨this.1, fun i hi hi' => ?_⟩
          rcases this.2 i hi hi' with ⟨e, he, h4⟩ | ⟨h4, h5⟩
          · exact Or.inl ⟨e, by simp [he], h4⟩
          · refine Or.inr ⟨h4, fun e he => ?_⟩
            rcases List.mem_cons.mp he with rfl | he
            · exact hsc _ (List.get_mem _ _)
            · exact h5 e he
      · rw [if_neg hab.not_gt, if_pos hab]
        have hts : Before t s := ⟨b, a, hb, ha, hab⟩
        refine ⟨⟨fun _ => ⟨t, by simp, fun e he => ?_, s, by simp, hts⟩, fun _ => rfl⟩, by simp, by simp⟩
        rcases List.mem_cons.mp he with rfl | he
        · exact hts.ne.symm
        · exact (hts.trans (hs'.1 e he)).ne.symm

theorem Distinct.haveIds {l : List Json} (h : Distinct l) : HaveIds l := by
  obtain ⟨ids, h1, -⟩ := h
  intro c hc
  have : id? c ∈ ids.map some := h1 ▸ List.mem_map_of_mem hc
  obtain ⟨s, -, hs⟩ := List.mem_map.mp this
  exact ⟨s, hs.symm⟩

theorem HaveIds.perm {l l' : List Json} (h : HaveIds l) (hp : l'.Perm l) : HaveIds l' :=
  fun c hc => h c (hp.subset hc)

/-! ## C140 -/

/-- The property C140: for components with distinct ids in any order, the program throws or every component gets the position with its id, and
nothing else changes but the order. -/
def C140_property : Prop :=
  ∀ positions top : List Json, Distinct positions → Distinct top →
    insertPositions positions top = Res.throws ∨
      ∃ top' r, insertPositions positions top = Res.ok r ∧ top'.Perm top ∧
        List.Forall₂ (fun c c' => ∃ e ∈ positions, id? e = id? c ∧ Placed e c c') top' r

/-- **C140 (partial)**: for every two lists of components with distinct ids, in any order: the program throws exactly if some component has no
position although there is a position with a greater id, and its behaviour is never undefined. If it does not throw, the result are the components in the
order of their ids, each with its own position and otherwise unchanged; or unchanged, if its id is greater than those of all positions. Missing:
an exception in the latter case. -/
theorem C140_partial {positions top : List Json} (hp : Distinct positions) (ht : Distinct top) :
    (insertPositions positions top = Res.throws ↔
      ∃ c ∈ top, (∀ e ∈ positions, id? e ≠ id? c) ∧
        ∃ e ∈ positions, ∃ s t, id? c = some s ∧ id? e = some t ∧ s < t) ∧
    insertPositions positions top ≠ Res.ub ∧
    ∀ r, insertPositions positions top = Res.ok r → ∃ top', top'.Perm top ∧ SortedById top' ∧
      List.Forall₂ (fun c c' => (∃ e ∈ positions, id? e = id? c ∧ Placed e c c') ∨
        (c' = c ∧ ∀ e ∈ positions, ∃ s t, id? e = some s ∧ id? c = some t ∧ s < t)) top' r := by
  have ip := hp.haveIds
  have it := ht.haveIds
  obtain ⟨idp, hp1, hp2⟩ := hp
  obtain ⟨idt, ht1, ht2⟩ := ht
  obtain ⟨p', hp', pp, sp⟩ := sortList_arr hp1 hp2
  obtain ⟨t', ht', pt, st⟩ := sortList_arr ht1 ht2
  have e : insertPositions positions top = placeLists p' t' := by
    unfold insertPositions
    rw [hp', ht']
    rfl
  obtain ⟨h1, h2, h3⟩ := placeLists_spec sp st (ip.perm pp) (it.perm pt)
  rw [e]
  refine ⟨?_, h2, fun r hr => ⟨t', pt, st, ?_⟩⟩
  · rw [h1]
    simp only [pt.mem_iff, pp.mem_iff, Before]
  · have := h3 r hr
    rw [List.forall₂_iff_get] at this ⊢
    refine ⟨this.1, fun i hi hi' => ?_⟩
    rcases this.2 i hi hi' with ⟨e, he, h4⟩ | ⟨h4, h5⟩
    · exact Or.inl ⟨e, pp.subset he, h4⟩
    · exact Or.inr ⟨h4, fun e he => h5 e (pp.symm.subset he)⟩

/-- C140, if some position has an id that is not smaller than those of all components: then it holds fully. -/
theorem C140_complete_partial {positions top : List Json} (hp : Distinct positions) (ht : Distinct top)
    (hlast : ∃ e ∈ positions, ∀ c ∈ top, ∀ s t, id? e = some s → id? c = some t → t ≤ s) :
    insertPositions positions top = Res.throws ∨
      ∃ top' r, insertPositions positions top = Res.ok r ∧ top'.Perm top ∧
        List.Forall₂ (fun c c' => ∃ e ∈ positions, id? e = id? c ∧ Placed e c c') top' r := by
  obtain ⟨-, h2, h3⟩ := C140_partial hp ht
  cases hm : insertPositions positions top with
  | throws => exact Or.inl rfl
  | ub => exact absurd hm h2
  | ok r =>
    obtain ⟨top', hperm, -, hf⟩ := h3 r hm
    refine Or.inr ⟨top', r, rfl, hperm, ?_⟩
    obtain ⟨e, he, hlast⟩ := hlast
    rw [List.forall₂_iff_get] at hf ⊢
    refine ⟨hf.1, fun i hi hi' => ?_⟩
    rcases hf.2 i hi hi' with h | ⟨-, h⟩
    · exact h
    · obtain ⟨s, t, h4, h5, h6⟩ := h e he
      exact absurd (hlast _ (hperm.subset (List.get_mem _ _)) s t h4 h5) (not_le.mpr h6)

/-- A component at a position. -/
def located (s : String) (x y : ℚ) : Json := obj [("id", str s), ("x", num x), ("y", num y)]

/-- C140 does not hold: with a position for `a` only, `b` is left without position and there is no exception. -/
theorem C140_false : ¬ C140_property := by
  intro h
  have e : insertPositions [located "a" 1 2] [entry "b", entry "a"] = Res.ok [located "a" 1 2, entry "b"] := by
    rfl
  rcases h [located "a" 1 2] [entry "b", entry "a"] ⟨["a"], rfl, by decide⟩ ⟨["b", "a"], rfl, by decide⟩
    with h1 | ⟨top', r, h1, h2, h3⟩
  · rw [e] at h1; cases h1
  · have hb : entry "b" ∈ top' := h2.symm.subset (by simp)
    obtain ⟨i, hi, hg⟩ := List.getElem_of_mem hb
    obtain ⟨c, hc, hid, -⟩ := (List.forall₂_iff_get.mp h3).2 i hi (by rw [← h3.length_eq]; exact hi)
    rw [List.mem_singleton.mp hc, List.get_eq_getElem, hg] at hid
    exact absurd hid (by decide)

/-- A concrete case: the orders of the files differ, one position is not used. -/
example : insertPositions [located "c" 5 6, located "b" 3 4, located "a" 1 2] [entry "b", entry "a"] =
    Res.ok [located "a" 1 2, located "b" 3 4] := by rfl

/-- A concrete case that throws. -/
example : insertPositions [located "b" 3 4] [entry "b", entry "a"] = Res.throws := by rfl

end Verif.Json
