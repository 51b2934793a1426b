import Verif.Output.Restart
import Verif.Output.SetAll

/-!
# Property C81: controls that are written and read again are the same

Sources: `/repo/src/Model/Networkproblem/Componentclasses/SimpleControlcomponent.cpp`,
`/repo/src/Model/Networkproblem/Networkproblem.cpp` and `/repo/src/Grazer/helpers.cpp`.
-/

set_option autoImplicit false

namespace Verif.Output

open Verif.Json Verif.Interp Verif.Schema Verif.Initial

/-! ## Model -/

/-- A control component: its class and type, the index of its first control and the number of its controls (one for
compressor stations, `Compressorstation.cpp` 120-123, and control valves, `Controlvalve.cpp` 115-117). -/
structure Control where
  id : String
  cls : String
  type : String
  start : ℕ
  number : ℕ

/-- `if (not j.contains(key)) { j[key] = v; }` — `SimpleControlcomponent.cpp` 59-64. -/
def ensure (j : Json) (key : String) (v : Json) : Res Json := if j.contains key then Res.ok j else j.set key v

/-- The entry for one time point — 71-83. -/
def controlEntry (c : Control) (controls : IV ℚ) (i : ℕ) : Res Json := do
  let time ← Res.get controls.points i
  let j ← null.set "time" (num time)
  let values ← Res.each (List.range c.number) fun k => do
    let x ← vectorAtIndex controls i
    Res.get x (c.start + k)
  j.set "values" (arr (values.map num))

/-- The json of a component — 66-85. -/
def controlOutput (c : Control) (controls : IV ℚ) : Res Json := do
  let j ← null.set "id" (str c.id)
  let j ← j.set "data" (arr [])
  Res.fold (List.range controls.points.length) j fun j i => do
    let e ← controlEntry c controls i
    pushTo j "data" e

/-- `save_controls_to_json` — 54-87. -/
def saveControl (controls : IV ℚ) (json : Json) (c : Control) : Res Json := do
  let j ← ensure json c.cls (obj [])
  let types ← access j c.cls
  let types ← ensure types c.type (arr [])
  let output ← controlOutput c controls
  let types ← pushTo types c.type output
  j.set c.cls types

/-- The file of controls — `commands.cpp` 289-290, `Networkproblem.cpp` 569-575. -/
def controlsJson (cs : List Control) (controls : IV ℚ) : Res Json := Res.fold cs null (saveControl controls)

/-- The component as it is seen when controls are set — `Compressorstation.cpp` 39-41, 102-103, `Controlvalve.cpp` 29-31,
97-98. -/
def controlComponent (mem : ℕ → ℚ) (c : Control) : ControlComponent ℚ where
  id := c.id
  start := c.start
  read := fun json => do
    let s ← boundarySchema c.number
    validateAndRead mem s json

/-! ## Specification -/

/-- The times and values of a component. -/
def controlPoints (c : Control) (controls : IV ℚ) : List (ℚ × List ℚ) :=
  (List.range controls.points.length).map fun i =>
    (controls.points.getD i 0, (List.range c.number).map fun k => controls.values.getD (i * controls.inner + c.start + k) 0)

/-- The json of a component: its id and one entry for each time, in order, with the time and the values of the
controls of the component. -/
def IsControls (controls : IV ℚ) (c : Control) (j : Json) : Prop :=
  j.find? "id" = some (str c.id) ∧ ∃ es, j.find? "data" = some (arr es) ∧
    List.Forall₂ (IsPoint "time") es (controlPoints c controls) ∧ ∀ e ∈ es, e.find? "x" = none

/-! ## Writing -/

theorem controlEntry_spec {c : Control} {controls : IV ℚ} (hwf : controls.WF) (hc : c.start + c.number ≤ controls.inner)
    {i : ℕ} (hi : i < controls.points.length) : ∃ e, controlEntry c controls i = Res.ok e ∧ IsPoint "time" e
      (controls.points.getD i 0, (List.range c.number).map fun k => controls.values.getD (i * controls.inner + c.start + k) 0) ∧
      e.find? "x" = none := by
  obtain ⟨x, h1, h2, h3⟩ := step_get hwf hi
  have h4 : (Res.each (List.range c.number) fun k => do
      let x ← vectorAtIndex controls i
      Res.get x (c.start + k)) =
      Res.ok ((List.range c.number).map fun k => controls.values.getD (i * controls.inner + c.start + k) 0) := by
    refine Res.each_ok fun k hk => ?_
    rw [List.mem_range] at hk
    rw [h1, Res.ok_bind, Res.get_eq_ok, h3 _ (by omega), Nat.add_assoc]
  refine ⟨obj [("time", num (controls.points.getD i 0)), ("values", arr (((List.range c.number).map fun k =>
    controls.values.getD (i * controls.inner + c.start + k) 0).map num))], ?_, ⟨rfl, rfl⟩, rfl⟩
  simp only [controlEntry, get_getD hi, Res.ok_bind, h4]
  rfl

theorem controlOutput_spec {c : Control} {controls : IV ℚ} (hwf : controls.WF) (hc : c.start + c.number ≤ controls.inner) :
    ∃ j, controlOutput c controls = Res.ok j ∧ IsControls controls c j := by
  have loop : ∀ n ≤ controls.points.length, ∃ m es, Res.fold (List.range n) (obj [("data", arr []), ("id", str c.id)])
      (fun j i => do
        let e ← controlEntry c controls i
        pushTo j "data" e) = Res.ok (obj m) ∧ (obj m).find? "id" = some (str c.id) ∧ (obj m).find? "data" = some (arr es) ∧
      List.Forall₂ (IsPoint "time") es ((List.range n).map fun i =>
        (controls.points.getD i 0, (List.range c.number).map fun k => controls.values.getD (i * controls.inner + c.start + k) 0)) ∧
      ∀ e ∈ es, e.find? "x" = none := by
    intro n
    induction n with
    | zero => exact fun _ => ⟨_, [], rfl, rfl, rfl, .nil, by simp⟩
    | succ n ih =>
      intro hn
      obtain ⟨m, es, h1, h2, h3, h4, h5⟩ := ih (by omega)
      obtain ⟨e, h6, h7, h8⟩ := controlEntry_spec hwf hc (i := n) (by omega)
      obtain ⟨m', h9, h10, h11⟩ := pushTo_spec (.inl h3) e
      refine ⟨m', es ++ [e], ?_, by rw [h11 _ (by decide), h2], h10, ?_, ?_⟩
      · rw [List.range_succ, Res.fold_append, h1, Res.ok_bind]
        simp only [Res.fold, h6, Res.ok_bind, h9]
      · rw [List.range_succ, List.map_append]
        exact List.rel_append h4 (.cons h7 .nil)
      · intro e' he'
        rcases List.mem_append.mp he' with he' | he'
        · exact h5 e' he'
        · rw [List.mem_singleton.mp he']
          exact h8
  obtain ⟨m, es, h1, h2, h3, h4, h5⟩ := loop _ le_rfl
  exact ⟨obj m, h1, h2, es, h3, h4, h5⟩

theorem saveControl_spec {j : Json} (hj : Good j) {c : Control} {controls : IV ℚ} {o : Json}
    (ho : controlOutput c controls = Res.ok o) :
    ∃ j', saveControl controls j c = Res.ok j' ∧ Good j' ∧ ∀ cls type, list j' cls type =
      if cls = c.cls ∧ type = c.type then list j cls type ++ [o] else list j cls type := by
  -- the class
  obtain ⟨m, h1, h2, h3, ts, h4, h5, h6⟩ : ∃ m, ensure j c.cls (obj []) = Res.ok (obj m) ∧ (m.map Prod.fst).Nodup ∧
      (∀ x ∈ m, ∃ ts, x.2 = obj ts ∧ (ts.map Prod.fst).Nodup ∧ ∀ y ∈ ts, ∃ l, y.2 = arr l) ∧
      ∃ ts, (obj m).find? c.cls = some (obj ts) ∧ ((ts.map Prod.fst).Nodup ∧ ∀ y ∈ ts, ∃ l, y.2 = arr l) ∧
      ∀ cls type, list (obj m) cls type = list j cls type := by
    unfold ensure
    rcases hj with rfl | ⟨m, rfl, h1, h2⟩
    · refine ⟨[(c.cls, obj [])], rfl, by simp, by simp, [], by simp [find?], by simp, fun cls type => ?_⟩
      rw [list_eq]
      simp only [find?, List.lookup_cons]
      by_cases h : cls = c.cls
      · simp only [beq_iff_eq.mpr h]; rfl
      · simp only [beq_eq_false_iff_ne.mpr h]; rfl
    · cases hf : (obj m).find? c.cls with
      | some t =>
        obtain ⟨ts, rfl, h3⟩ := h2 _ (mem_of_lookup hf)
        exact ⟨m, by rw [if_pos (by rw [contains, hf]; rfl)], h1, h2, ts, hf, h3, fun _ _ => rfl⟩
      | none =>
        have hset : (obj m).set c.cls (obj []) = Res.ok (obj (Json.insert c.cls (obj []) m)) := rfl
        refine ⟨_, by rw [if_neg (by rw [contains, hf]; simp)]; exact hset, nodup_insert h1, fun x hx => ?_, [], ?_,
          by simp, fun cls type => ?_⟩
        · rcases mem_insert hx with rfl | hx
          · exact ⟨[], rfl, by simp, by simp⟩
          · exact h2 x hx
        · rw [find_set hset, if_pos rfl]
        · rw [list_eq, list_eq, find_set hset]
          split
          · next h => subst h; rw [hf]; rfl
          · rfl
  -- the type
  obtain ⟨ts', h7, h8, h9⟩ : ∃ ts', ensure (obj ts) c.type (arr []) = Res.ok ts' ∧ GoodTypes ts' ∧
      ∀ t, listAt ts' t = listAt (obj ts) t := by
    unfold ensure
    split
    · exact ⟨_, rfl, .inr ⟨ts, rfl, h5⟩, fun _ => rfl⟩
    · next hn =>
      have hset : (obj ts).set c.type (arr []) = Res.ok (obj (Json.insert c.type (arr []) ts)) := rfl
      refine ⟨_, hset, .inr ⟨_, rfl, nodup_insert h5.1, fun y hy => ?_⟩, fun t => ?_⟩
      · rcases mem_insert hy with rfl | hy
        · exact ⟨[], rfl⟩
        · exact h5.2 y hy
      · unfold listAt
        rw [find_set hset]
        by_cases h : t = c.type
        · subst h
          rw [contains, Bool.not_eq_true, Option.isSome_eq_false_iff, Option.isNone_iff_eq_none] at hn
          rw [if_pos rfl, hn]
        · rw [if_neg h]
  obtain ⟨mt, h10, h11, h12, h13⟩ := pushTo_types h8 c.type o
  have hset : (obj m).set c.cls (obj mt) = Res.ok (obj (Json.insert c.cls (obj mt) m)) := rfl
  refine ⟨obj (Json.insert c.cls (obj mt) m), ?_, .inr ⟨_, rfl, nodup_insert h2, fun x hx => ?_⟩, fun cls type => ?_⟩
  rotate_left
  · rcases mem_insert hx with rfl | hx
    · exact ⟨mt, rfl, h11, h12⟩
    · exact h3 x hx
  · rw [← h6 cls type, list_eq, list_eq, find_set hset]
    by_cases hcls : cls = c.cls
    · subst hcls
      simp only [if_true, Option.getD_some, true_and, h4]
      rw [h13, h9]
    · simp [hcls]
  · simp only [saveControl, h1, Res.ok_bind, access_of h4, h7, ho, h10, hset]

/-- C81. Writing controls succeeds; the file lists under each class and type exactly the components of this class and type, in
order. Each has its id and one entry for each time point, in order, with the time and the controls of the component. -/
theorem C81_written {cs : List Control} {controls : IV ℚ} (hwf : controls.WF)
    (hc : ∀ c ∈ cs, c.start + c.number ≤ controls.inner) :
    ∃ j, controlsJson cs controls = Res.ok j ∧ Good j ∧ ∀ cls type,
      List.Forall₂ (IsControls controls) (cs.filter fun c => c.cls = cls ∧ c.type = type) (list j cls type) := by
  have loop : ∀ (cs : List Control) (j : Json), (∀ c ∈ cs, c.start + c.number ≤ controls.inner) → Good j →
      ∃ j', Res.fold cs j (saveControl controls) = Res.ok j' ∧ Good j' ∧ ∀ cls type, ∃ l,
        list j' cls type = list j cls type ++ l ∧
        List.Forall₂ (IsControls controls) (cs.filter fun c => c.cls = cls ∧ c.type = type) l := by
    intro cs
    induction cs with
    | nil => exact fun j _ hj => ⟨j, rfl, hj, fun _ _ => ⟨[], by simp, .nil⟩⟩
    | cons c cs ih =>
      intro j hc hj
      obtain ⟨o, h1, h2⟩ := controlOutput_spec hwf (hc c (by simp))
      obtain ⟨j1, h3, h4, h5⟩ := saveControl_spec hj h1
      obtain ⟨j2, h6, h7, h8⟩ := ih j1 (fun c' hc' => hc c' (by simp [hc'])) h4
      refine ⟨j2, by simp only [Res.fold, h3, Res.ok_bind, h6], h7, fun cls type => ?_⟩
      obtain ⟨l, h9, h10⟩ := h8 cls type
      rw [h9, h5, List.filter_cons]
      by_cases hct : cls = c.cls ∧ type = c.type
      · rw [if_pos hct, if_pos (by simp [hct.1, hct.2])]
        exact ⟨o :: l, by simp, .cons h2 h10⟩
      · rw [if_neg hct, if_neg (by simp only [decide_eq_true_eq]; exact fun h => hct ⟨h.1.symm, h.2.symm⟩)]
        exact ⟨l, rfl, h10⟩
  obtain ⟨j, h1, h2, h3⟩ := loop cs null hc (.inl rfl)
  refine ⟨j, h1, h2, fun cls type => ?_⟩
  obtain ⟨l, h4, h5⟩ := h3 cls type
  rw [h4]
  exact h5

/-! ## Reading -/

theorem controlPoints_times (c : Control) (target : IV ℚ) : (controlPoints c target).map Prod.fst = target.points := by
  refine List.ext_getElem? fun i => ?_
  simp only [controlPoints, List.map_map, List.getElem?_map]
  by_cases hi : i < target.points.length
  · rw [List.getElem?_range hi, List.getElem?_eq_getElem hi]
    simp [hi]
  · rw [List.getElem?_eq_none (by simpa using hi), List.getElem?_eq_none (by omega)]
    rfl

/-- The entries of the file that is written are those of the components. -/
theorem written_entries {cs : List Control} (hcls : ∀ c ∈ cs, c.cls ∈ classes) {controls : IV ℚ} {j : Json} (hg : Good j)
    (h : ∀ cls type, List.Forall₂ (IsControls controls) (cs.filter fun c => c.cls = cls ∧ c.type = type) (list j cls type)) :
    (∀ e ∈ components j, ∃ c ∈ cs, IsControls controls c e) ∧ ∀ c ∈ cs, ∃ e ∈ components j, id? e = some c.id := by
  refine ⟨fun e he => ?_, fun c hcm => ?_⟩
  · obtain ⟨cls, _, type, he⟩ := (mem_components hg e).mp he
    obtain ⟨c, hcm, h3⟩ := forall₂_mem_right (h cls type) he
    exact ⟨c, (List.mem_filter.mp hcm).1, h3⟩
  · obtain ⟨e, he, h3⟩ := forall₂_mem_left (h c.cls c.type) (List.mem_filter.mpr ⟨hcm, by simp⟩)
    exact ⟨e, (mem_components hg e).mpr ⟨c.cls, hcls c hcm, c.type, he⟩, by rw [id?, h3.1]⟩

/-- What is read from the output of a component. -/
theorem reads_output {c : Control} {mem : ℕ → ℚ} {target : IV ℚ} {e : Json} (hne : target.points ≠ [])
    (hs : target.points.Pairwise (· < ·)) (he : IsControls target c e) :
    ReadsTarget (controlComponent mem c) c.number target e := by
  obtain ⟨h1, es, h2, h3, h4⟩ := he
  have hb : ∃ s, boundarySchema c.number = Res.ok s := ⟨_, boundary_eq _⟩
  obtain ⟨s, hb⟩ := hb
  have hpne : controlPoints c target ≠ [] := by
    simp only [controlPoints, ne_eq, List.map_eq_nil_iff, List.range_eq_nil, List.length_eq_zero_iff]
    exact hne
  have hpts : (controlPoints c target).map Prod.fst = target.points := controlPoints_times c target
  obtain ⟨v, h5, h6⟩ := C78_read_partial hb ⟨_, es, h1, h2, h3⟩ hpne (by simp [controlPoints]) (by
    intro es' e' h h'
    rw [h2] at h
    injection h with h
    injection h with h
    subst h
    exact h4 _ (List.mem_of_getElem? h')) mem
  have hlen : (controlPoints c target).length = target.points.length := by simp [controlPoints]
  refine ⟨v, ?_, h6.2.1, fun i hi => ?_⟩
  · show (do let s ← boundarySchema c.number; validateAndRead mem s e) = Res.ok v
    rw [hb, Res.ok_bind, h5]
  · rw [eval_node h6 (by rw [hpts]; exact hs) (i := i) (by omega) (by simp [controlPoints, hi])]
    simp [controlPoints, controlComponent]

/-- C81. Controls that are written to a file and read again on the same time points are the same, whatever the vector held
before. -/
theorem C81_round_trip {cs : List Control} (hcls : ∀ c ∈ cs, c.cls ∈ classes) (hids : (cs.map Control.id).Nodup)
    {controls : IV ℚ} (hwf : controls.WF) (hne : controls.points ≠ []) (hs : controls.points.Pairwise (· < ·))
    (hc : ∀ c ∈ cs, c.start + c.number ≤ controls.inner)
    (hcover : ∀ k < controls.inner, ∃ c ∈ cs, c.start ≤ k ∧ k < c.start + c.number) (mem : ℕ → ℚ) :
    ∃ j, controlsJson cs controls = Res.ok j ∧ ∀ u : IV ℚ, u.WF → u.points = controls.points → u.inner = controls.inner →
      setInitialControls (cs.map (controlComponent mem)) u j = Res.ok controls := by
  obtain ⟨j, h1, hg, h2⟩ := C81_written hwf hc
  refine ⟨j, h1, fun u hu hp hin => ?_⟩
  obtain ⟨hcomp, hentry⟩ := written_entries hcls hg h2
  have huniq : ∀ a ∈ cs, ∀ b ∈ cs, a.id = b.id → a = b := fun a ha b hb h => List.inj_on_of_nodup_map hids ha hb h
  have hids' : ((cs.map (controlComponent mem)).map ControlComponent.id).Nodup := by
    rw [List.map_map]; exact hids
  let number : ControlComponent ℚ → ℕ := fun d => ((cs.find? fun c => d.id == c.id).map Control.number).getD 0
  have hnum : ∀ c ∈ cs, number (controlComponent mem c) = c.number := by
    intro c hcm
    have : cs.find? (fun d => c.id == d.id) = some c := by
      cases hf : cs.find? (fun d => c.id == d.id) with
      | none => exact absurd (List.find?_eq_none.mp hf c hcm) (by simp)
      | some d =>
        have h5 : c.id = d.id := by simpa using List.find?_some hf
        rw [huniq c hcm d (List.mem_of_find?_eq_some hf) h5]
    show (((cs.find? fun d => c.id == d.id).map Control.number).getD 0) = c.number
    rw [this]
    rfl
  refine setInitialControls_target hids' (number := number) hwf ?_ ?_ ?_ ?_ hu hp hin
  · intro d hd
    obtain ⟨c, hcm, rfl⟩ := List.mem_map.mp hd
    rw [hnum c hcm]
    exact hc c hcm
  · intro k hk
    obtain ⟨c, hcm, h3⟩ := hcover k hk
    exact ⟨_, List.mem_map.mpr ⟨c, hcm, rfl⟩, by rw [hnum c hcm]; exact h3⟩
  · intro e he
    obtain ⟨c, hcm, h3⟩ := hcomp e he
    exact ⟨_, List.mem_map.mpr ⟨c, hcm, rfl⟩, h3.1, by rw [hnum c hcm]; exact reads_output hne hs h3⟩
  · intro d hd
    obtain ⟨c, hcm, rfl⟩ := List.mem_map.mp hd
    exact hentry c hcm

/-- Two controls at three times. -/
example : let cs : List Control := [⟨"v", "connections", "Controlvalve", 1, 1⟩, ⟨"c", "connections", "Compressorstation", 0, 1⟩]
    let controls : IV ℚ := ⟨[0, 1, 3], 2, [1, 2, 3, 4, 5, 6]⟩
    (∀ c ∈ cs, c.cls ∈ classes) ∧ (cs.map Control.id).Nodup ∧ controls.WF ∧ controls.points ≠ [] ∧
    controls.points.Pairwise (· < ·) ∧ (∀ c ∈ cs, c.start + c.number ≤ controls.inner) ∧
    ∀ k < controls.inner, ∃ c ∈ cs, c.start ≤ k ∧ k < c.start + c.number := by
  refine ⟨by decide, by decide, by decide, by simp, by decide +kernel, by decide, ?_⟩
  decide

end Verif.Output
