import Verif.Output.Model
import Verif.Json.Insert

/-!
# Property C79: the file states.json shows the computed states

-/

set_option autoImplicit false
set_option linter.unusedSectionVars false

namespace Verif.Output

open Verif.Json

variable {K : Type} [Field K] [Printed K]

/-! ## Specification -/

/-- A point with a value. -/
def IsValue (j : Json) (x : K × K) : Prop := j.find? "x" = some (number x.1) ∧ j.find? "value" = some (number x.2)

/-- Under this key, the entry lists these points and values. -/
def Lists (e : Json) (key : String) (l : List (K × K)) : Prop :=
  ∃ js, e.find? key = some (arr js) ∧ List.Forall₂ IsValue js l

/-- The entry shows the part of the state that belongs to the component: voltage and phase of a power node, with the powers
it reports, or pressure and flow along a gas component. -/
def Shows (c : Component K) (time : K) (state : List K) (e : Json) : Prop :=
  e.find? "time" = some (number time) ∧
  match c.kind with
  | .power report => e.find? "V" = some (number (state.getD c.start 0)) ∧
      e.find? "phi" = some (number (state.getD (c.start + 1) 0)) ∧
      ∃ powers, report time state = Res.ok powers ∧ ∀ x ∈ powers, e.find? x.1 = some (number x.2)
  | .connection => Lists e "pressure" [(0, state.getD c.start 0)] ∧ Lists e "flow" [(0, state.getD (c.start + 1) 0)]
  | .short => Lists e "pressure" [(0, state.getD c.start 0), (1, state.getD (c.start + 2) 0)] ∧
      Lists e "flow" [(0, state.getD (c.start + 1) 0), (1, state.getD (c.start + 3) 0)]
  | .pipe n dx bar _ =>
      Lists e "pressure" ((List.range n).map fun (i : ℕ) => ((i : K) * dx, bar (state.getD (c.start + 2 * i) 0))) ∧
      Lists e "flow" ((List.range n).map fun (i : ℕ) => ((i : K) * dx, state.getD (c.start + 2 * i + 1) 0))

/-- What components are assumed to be like: pipes have points, and the names of the powers are distinct and not those
of other values. -/
def Sensible (c : Component K) : Prop :=
  match c.kind with
  | .power report => ∀ t s powers, report t s = Res.ok powers →
      (powers.map Prod.fst).Nodup ∧ ∀ x ∈ powers, x.1 ≠ "time" ∧ x.1 ≠ "V" ∧ x.1 ≠ "phi"
  | .pipe n _ _ _ => 0 < n
  | _ => True

/-- The powers of a power node can be reported at this time, that is, its boundary values have a value. -/
def Reports (c : Component K) (time : K) (state : List K) : Prop :=
  match c.kind with
  | .power report => ∃ powers, report time state = Res.ok powers
  | _ => True

/-- The list of components of a class and type. -/
def list (j : Json) (cls type : String) : List Json :=
  match (j.find? cls).bind fun types => types.find? type with
  | some (arr l) => l
  | _ => []

/-- The json of a component: its id and one entry for each saved state, in order. -/
def IsOutput (saves : List (K × List K)) (c : Component K) (j : Json) : Prop :=
  j.find? "id" = some (str c.id) ∧ ∃ es, j.find? "data" = some (arr es) ∧
    List.Forall₂ (fun s e => Shows c s.1 s.2 e) saves es

/-! ## Entries -/

theorem get_getD {l : List K} {i : ℕ} (h : i < l.length) : Res.get l i = Res.ok (l.getD i 0) := by
  rw [Res.get_of_lt h]
  simp [List.getD, h]

theorem set_null (key : String) (v : Json) : null.set key v = Res.ok (obj [(key, v)]) := rfl

theorem set_obj (m : List (String × Json)) (key : String) (v : Json) : ∃ m', (obj m).set key v = Res.ok (obj m') :=
  ⟨_, rfl⟩

theorem access_obj (m : List (String × Json)) (key : String) :
    access (obj m) key = Res.ok (((obj m).find? key).getD null) := rfl

theorem fold_powers {powers : List (String × K)} (hn : (powers.map Prod.fst).Nodup) (m : List (String × Json)) :
    ∃ m', Res.fold powers (obj m) (fun j x => j.set x.1 (number x.2)) = Res.ok (obj m') ∧
      (∀ x ∈ powers, (obj m').find? x.1 = some (number x.2)) ∧
      ∀ k, (∀ x ∈ powers, x.1 ≠ k) → (obj m').find? k = (obj m).find? k := by
  induction powers generalizing m with
  | nil => exact ⟨m, rfl, by simp, fun _ _ => rfl⟩
  | cons x l ih =>
    obtain ⟨m1, h1⟩ := set_obj m x.1 (number x.2)
    rw [List.map_cons, List.nodup_cons] at hn
    obtain ⟨m2, h2, h3, h4⟩ := ih hn.2 m1
    refine ⟨m2, by simp only [Res.fold, h1, Res.ok_bind, h2], ?_, fun k hk => ?_⟩
    · intro y hy
      rcases List.mem_cons.mp hy with rfl | hy
      · rw [h4 _ fun z hz he => hn.1 (List.mem_map.mpr ⟨z, hz, he⟩), find_set h1, if_pos rfl]
      · exact h3 y hy
    · rw [h4 k fun z hz => hk z (by simp [hz]), find_set h1, if_neg fun he => hk x (by simp) he.symm]

theorem powerEntry_spec {time V phi : K} {powers : List (String × K)} (hn : (powers.map Prod.fst).Nodup)
    (hp : ∀ x ∈ powers, x.1 ≠ "time" ∧ x.1 ≠ "V" ∧ x.1 ≠ "phi") :
    ∃ e, powerEntry time V phi powers = Res.ok e ∧ e.find? "time" = some (number time) ∧ e.find? "V" = some (number V) ∧
      e.find? "phi" = some (number phi) ∧ ∀ x ∈ powers, e.find? x.1 = some (number x.2) := by
  obtain ⟨m, h1, h2, h3⟩ := fold_powers hn [("time", number time)]
  obtain ⟨m1, h4⟩ := set_obj m "V" (number V)
  obtain ⟨m2, h5⟩ := set_obj m1 "phi" (number phi)
  refine ⟨obj m2, ?_, ?_, ?_, ?_, ?_⟩
  · simp only [powerEntry, set_null, Res.ok_bind, h1, h4, h5]
  · rw [find_set h5, if_neg (by decide), find_set h4, if_neg (by decide), h3 _ fun x hx => (hp x hx).1]
    rfl
  · rw [find_set h5, if_neg (by decide), find_set h4, if_pos rfl]
  · rw [find_set h5, if_pos rfl]
  · intro x hx
    rw [find_set h5, if_neg (hp x hx).2.2, find_set h4, if_neg (hp x hx).2.1, h2 x hx]

theorem valueAt_spec (x v : K) : ∃ j, valueAt x v = Res.ok j ∧ IsValue j (x, v) := ⟨_, rfl, rfl, rfl⟩

theorem pushTo_spec {m : List (String × Json)} {key : String} {l : List Json}
    (h : (obj m).find? key = some (arr l) ∨ ((obj m).find? key = none ∧ l = [])) (v : Json) :
    ∃ m', pushTo (obj m) key v = Res.ok (obj m') ∧ (obj m').find? key = some (arr (l ++ [v])) ∧
      ∀ k, k ≠ key → (obj m').find? k = (obj m).find? k := by
  obtain ⟨m', hm⟩ := set_obj m key (arr (l ++ [v]))
  refine ⟨m', ?_, by rw [find_set hm, if_pos rfl], fun k hk => by rw [find_set hm, if_neg hk]⟩
  unfold pushTo
  rw [access_obj, Res.ok_bind]
  rcases h with h | ⟨h, rfl⟩
  · rw [h]; exact hm
  · rw [h]; exact hm

theorem fold_points (points : List (K × K × K)) (m : List (String × Json)) {ps fs : List Json} {p f : List (K × K)}
    (h1 : (obj m).find? "pressure" = some (arr ps) ∨ ((obj m).find? "pressure" = none ∧ ps = []))
    (h2 : (obj m).find? "flow" = some (arr fs) ∨ ((obj m).find? "flow" = none ∧ fs = []))
    (hp : List.Forall₂ IsValue ps p) (hf : List.Forall₂ IsValue fs f) (hne : ps ≠ [] ∧ fs ≠ [] ∨ points ≠ []) :
    ∃ m', Res.fold points (obj m) (fun j x => do
        let p ← valueAt x.1 x.2.1
        let j ← pushTo j "pressure" p
        let q ← valueAt x.1 x.2.2
        pushTo j "flow" q) = Res.ok (obj m') ∧ (obj m').find? "time" = (obj m).find? "time" ∧
      Lists (obj m') "pressure" (p ++ points.map fun x => (x.1, x.2.1)) ∧
      Lists (obj m') "flow" (f ++ points.map fun x => (x.1, x.2.2)) := by
  induction points generalizing m ps fs p f with
  | nil =>
    obtain ⟨h3, h4⟩ := hne.resolve_right (by simp)
    refine ⟨m, rfl, rfl, ⟨ps, h1.resolve_right fun h => h3 h.2, by simpa using hp⟩,
      ⟨fs, h2.resolve_right fun h => h4 h.2, by simpa using hf⟩⟩
  | cons x l ih =>
    obtain ⟨j1, e1, v1⟩ := valueAt_spec x.1 x.2.1
    obtain ⟨m1, e2, f2, g2⟩ := pushTo_spec h1 j1
    obtain ⟨j2, e3, v3⟩ := valueAt_spec x.1 x.2.2
    obtain ⟨m2, e4, f4, g4⟩ := pushTo_spec (m := m1) (key := "flow") (l := fs) (by rw [g2 _ (by decide)]; exact h2) j2
    obtain ⟨m3, e5, t5, p5, q5⟩ := ih m2 (ps := ps ++ [j1]) (fs := fs ++ [j2]) (p := p ++ [(x.1, x.2.1)])
      (f := f ++ [(x.1, x.2.2)]) (.inl (by rw [g4 _ (by decide), f2])) (.inl f4)
      (List.rel_append hp (.cons v1 .nil)) (List.rel_append hf (.cons v3 .nil)) (.inl ⟨by simp, by simp⟩)
    refine ⟨m3, ?_, ?_, by simpa using p5, by simpa using q5⟩
    · simp only [Res.fold, e1, e2, e3, e4, Res.ok_bind]
      exact e5
    · rw [t5, g4 _ (by decide), g2 _ (by decide)]

theorem gasEntry_spec (time : K) {points : List (K × K × K)} (hne : points ≠ []) :
    ∃ e, gasEntry time points = Res.ok e ∧ e.find? "time" = some (number time) ∧
      Lists e "pressure" (points.map fun x => (x.1, x.2.1)) ∧ Lists e "flow" (points.map fun x => (x.1, x.2.2)) := by
  obtain ⟨m, h1, h2, h3, h4⟩ := fold_points points [("time", number time)] (ps := []) (fs := []) (p := []) (f := [])
    (.inr ⟨rfl, rfl⟩) (.inr ⟨rfl, rfl⟩) .nil .nil (.inr hne)
  exact ⟨obj m, h1, h2, h3, h4⟩

/-- The state is long enough for the component. -/
def FitsIn (c : Component K) (state : List K) : Prop := c.start + states c.kind ≤ state.length

theorem gasPoints_pipe {c : Component K} {n : ℕ} {dx : K} {bar density : K → K} {state : List K}
    (h : c.start + 2 * n ≤ state.length) :
    gasPoints c state (.pipe n dx bar density) = Res.ok ((List.range n).map fun (i : ℕ) =>
      ((i : K) * dx, bar (state.getD (c.start + 2 * i) 0), state.getD (c.start + 2 * i + 1) 0)) := by
  refine Res.each_ok fun i hi => ?_
  rw [List.mem_range] at hi
  rw [get_getD (by omega), Res.ok_bind, get_getD (by omega), Res.ok_bind]

theorem saveEntry_spec {c : Component K} (hc : Sensible c) {time : K} {state : List K} (hf : FitsIn c state)
    (hr : Reports c time state) :
    ∃ e, saveEntry c time state = Res.ok e ∧ Shows c time state e := by
  unfold Sensible at hc
  unfold FitsIn states at hf
  unfold Reports at hr
  unfold saveEntry Shows
  cases hk : c.kind with
  | power report =>
    simp only [hk] at hc hf hr
    obtain ⟨powers, hr⟩ := hr
    obtain ⟨e, h1, h2, h3, h4, h5⟩ := powerEntry_spec (time := time) (V := state.getD c.start 0)
      (phi := state.getD (c.start + 1) 0) (hc time state _ hr).1 (hc time state _ hr).2
    refine ⟨e, ?_, h2, h3, h4, powers, hr, h5⟩
    simp only []
    rw [get_getD (by omega), Res.ok_bind, get_getD (by omega), Res.ok_bind, hr, Res.ok_bind, h1]
  | connection =>
    simp only [hk] at hf
    obtain ⟨e, h1, h2, h3, h4⟩ := gasEntry_spec time (points := [(0, state.getD c.start 0, state.getD (c.start + 1) 0)])
      (by simp)
    refine ⟨e, ?_, h2, h3, h4⟩
    simp only [gasPoints]
    rw [get_getD (by omega), Res.ok_bind, get_getD (by omega), Res.ok_bind, Res.ok_bind, h1]
  | short =>
    simp only [hk] at hf
    obtain ⟨e, h1, h2, h3, h4⟩ := gasEntry_spec time (points := [(0, state.getD c.start 0, state.getD (c.start + 1) 0),
      (1, state.getD (c.start + 2) 0, state.getD (c.start + 3) 0)]) (by simp)
    refine ⟨e, ?_, h2, h3, h4⟩
    simp only [gasPoints]
    rw [get_getD (by omega), Res.ok_bind, get_getD (by omega), Res.ok_bind, get_getD (by omega), Res.ok_bind,
      get_getD (by omega), Res.ok_bind, Res.ok_bind, h1]
  | pipe n dx bar density =>
    simp only [hk] at hc hf
    obtain ⟨e, h1, h2, h3, h4⟩ := gasEntry_spec time (points := (List.range n).map fun (i : ℕ) =>
      ((i : K) * dx, bar (state.getD (c.start + 2 * i) 0), state.getD (c.start + 2 * i + 1) 0)) (by simp; omega)
    refine ⟨e, ?_, h2, by simpa [Function.comp_def] using h3, by simpa [Function.comp_def] using h4⟩
    simp only []
    rw [gasPoints_pipe hf, Res.ok_bind, h1]

/-! ## All time steps -/

theorem saveAll_spec {os : List (Component K × Json)} {done : List (K × List K)} {s : K × List K}
    (hc : ∀ o ∈ os, Sensible o.1 ∧ FitsIn o.1 s.2 ∧ Reports o.1 s.1 s.2) (h : ∀ o ∈ os, IsOutput done o.1 o.2) :
    ∃ os', saveAll os s = Res.ok os' ∧ os'.map Prod.fst = os.map Prod.fst ∧
      ∀ o ∈ os', IsOutput (done ++ [s]) o.1 o.2 := by
  unfold saveAll
  induction os with
  | nil => exact ⟨[], rfl, rfl, by simp⟩
  | cons o os ih =>
    obtain ⟨os', h1, h2, h3⟩ := ih (fun o' ho' => hc o' (by simp [ho'])) fun o' ho' => h o' (by simp [ho'])
    obtain ⟨e, h4, h5⟩ := saveEntry_spec (hc o (by simp)).1 (time := s.1) (hc o (by simp)).2.1 (hc o (by simp)).2.2
    obtain ⟨h6, es, h7, h8⟩ := h o (by simp)
    obtain ⟨c, j⟩ := o
    cases j with
    | obj m =>
      obtain ⟨m', h9, h10, h11⟩ := pushTo_spec (.inl h7) e
      refine ⟨(c, obj m') :: os', ?_, by simp [h2], ?_⟩
      · simp only [Res.each, h4, Res.ok_bind, h9, h1]
      · intro o' ho'
        rcases List.mem_cons.mp ho' with rfl | ho'
        · exact ⟨by rw [h11 _ (by decide)]; exact h6, es ++ [e], h10, List.rel_append h8 (.cons h5 .nil)⟩
        · exact h3 o' ho'
    | _ => cases h7

theorem fold_saves {saves done : List (K × List K)} {os : List (Component K × Json)}
    (hc : ∀ o ∈ os, Sensible o.1 ∧ ∀ s ∈ saves, FitsIn o.1 s.2 ∧ Reports o.1 s.1 s.2) (h : ∀ o ∈ os, IsOutput done o.1 o.2) :
    ∃ os', Res.fold saves os saveAll = Res.ok os' ∧ os'.map Prod.fst = os.map Prod.fst ∧
      ∀ o ∈ os', IsOutput (done ++ saves) o.1 o.2 := by
  induction saves generalizing done os with
  | nil => exact ⟨os, rfl, rfl, by simpa using h⟩
  | cons s saves ih =>
    obtain ⟨os1, h1, h2, h3⟩ := saveAll_spec (s := s) (fun o ho => ⟨(hc o ho).1, (hc o ho).2 s (by simp)⟩) h
    obtain ⟨os2, h4, h5, h6⟩ := ih (done := done ++ [s]) (os := os1) (fun o ho => by
      have : o.1 ∈ os.map Prod.fst := h2 ▸ List.mem_map_of_mem ho
      obtain ⟨o', ho', he⟩ := List.mem_map.mp this
      rw [← he]
      exact ⟨(hc o' ho').1, fun s' hs' => (hc o' ho').2 s' (by simp [hs'])⟩) h3
    exact ⟨os2, by simp only [Res.fold, h1, Res.ok_bind, h4], by rw [h5, h2], by simpa using h6⟩

/-! ## The file -/

/-- The form of the json: classes with types with lists, all keys distinct. -/
def Good (j : Json) : Prop := j = null ∨ ∃ m, j = obj m ∧ (m.map Prod.fst).Nodup ∧
  ∀ x ∈ m, ∃ ts, x.2 = obj ts ∧ (ts.map Prod.fst).Nodup ∧ ∀ y ∈ ts, ∃ l, y.2 = arr l

theorem keys_replaceKey (key : String) (v : Json) (m : List (String × Json)) :
    (replaceKey key v m).map Prod.fst = m.map Prod.fst := by
  induction m with
  | nil => rfl
  | cons a m ih =>
    simp only [replaceKey]
    split
    · rfl
    · simp [ih]

theorem keys_insertKey (key : String) (v : Json) (m : List (String × Json)) :
    (insertKey key v m).Perm ((key, v) :: m) := by
  induction m with
  | nil => exact .refl _
  | cons a m ih =>
    simp only [insertKey]
    split
    · exact .refl _
    · exact (ih.cons a).trans (.swap _ _ _)

theorem nodup_insert {key : String} {v : Json} {m : List (String × Json)} (h : (m.map Prod.fst).Nodup) :
    ((Json.insert key v m).map Prod.fst).Nodup := by
  unfold Json.insert
  split
  · rw [keys_replaceKey]; exact h
  · next hn =>
    rw [((keys_insertKey key v m).map Prod.fst).nodup_iff, List.map_cons, List.nodup_cons]
    refine ⟨fun hm => hn ?_, h⟩
    obtain ⟨x, hx, rfl⟩ := List.mem_map.mp hm
    rw [lookup_of_mem h hx]
    rfl

theorem mem_insert {key : String} {v : Json} {m : List (String × Json)} {x : String × Json} (h : x ∈ Json.insert key v m) :
    x = (key, v) ∨ x ∈ m := by
  unfold Json.insert at h
  split at h
  · next hs =>
    clear hs
    induction m with
    | nil => simp [replaceKey] at h
    | cons a m ih =>
      simp only [replaceKey] at h
      split at h
      · next e =>
        rcases List.mem_cons.mp h with rfl | h
        · exact .inl (by rw [← e])
        · exact .inr (by simp [h])
      · rcases List.mem_cons.mp h with rfl | h
        · exact .inr (by simp)
        · rcases ih h with h | h
          · exact .inl h
          · exact .inr (by simp [h])
  · have := (keys_insertKey key v m).mem_iff.mp h
    simpa using this

theorem list_of_find {j ts : Json} {cls : String} (h : j.find? cls = some ts) {type : String} :
    list j cls type = match ts.find? type with
      | some (arr l) => l
      | _ => [] := by
  unfold list
  rw [h]
  rfl

/-- The list under a key. -/
def listAt (ts : Json) (type : String) : List Json :=
  match ts.find? type with
  | some (arr l) => l
  | _ => []

/-- Types with lists, or nothing yet. -/
def GoodTypes (ts : Json) : Prop := ts = null ∨ ∃ m, ts = obj m ∧ (m.map Prod.fst).Nodup ∧ ∀ y ∈ m, ∃ l, y.2 = arr l

theorem pushTo_types {ts : Json} (h : GoodTypes ts) (type : String) (v : Json) :
    ∃ m, pushTo ts type v = Res.ok (obj m) ∧ (m.map Prod.fst).Nodup ∧ (∀ y ∈ m, ∃ l, y.2 = arr l) ∧
      ∀ t, listAt (obj m) t = if t = type then listAt ts t ++ [v] else listAt ts t := by
  have final : ∀ {j : Json} {m : List (String × Json)} {l : List Json}, j.set type (arr (l ++ [v])) = Res.ok (obj m) →
      l = listAt j type → ∀ t, listAt (obj m) t = if t = type then listAt j t ++ [v] else listAt j t := by
    intro j m l h hl t
    by_cases e : t = type
    · subst e
      rw [if_pos rfl, ← hl]
      unfold listAt
      rw [find_set h, if_pos rfl]
    · rw [if_neg e]
      unfold listAt
      rw [find_set h, if_neg e]
  rcases h with rfl | ⟨m, rfl, h1, h2⟩
  · refine ⟨[(type, arr [v])], rfl, by simp, by simp, final (l := []) rfl rfl⟩
  · have key : ∃ l, pushTo (obj m) type v = (obj m).set type (arr (l ++ [v])) ∧ l = listAt (obj m) type := by
      unfold pushTo listAt
      rw [access_obj, Res.ok_bind]
      cases hl : (obj m).find? type with
      | none => exact ⟨[], rfl, rfl⟩
      | some w =>
        obtain ⟨l, rfl⟩ := h2 _ (mem_of_lookup hl)
        exact ⟨l, rfl, rfl⟩
    obtain ⟨l, h3, h4⟩ := key
    refine ⟨Json.insert type (arr (l ++ [v])) m, h3, nodup_insert h1, fun y hy => ?_, final (l := l) rfl h4⟩
    rcases mem_insert hy with rfl | hy
    · exact ⟨_, rfl⟩
    · exact h2 y hy

theorem list_eq (j : Json) (cls type : String) : list j cls type = listAt ((j.find? cls).getD null) type := by
  unfold list listAt
  cases j.find? cls <;> rfl

/-- Adding a component to the json of results. -/
theorem addResult_spec {j : Json} (hj : Good j) (o : Component K × Json) :
    ∃ j', addResult j o = Res.ok j' ∧ Good j' ∧ ∀ cls type, list j' cls type =
      if cls = o.1.cls ∧ type = o.1.type then list j cls type ++ [o.2] else list j cls type := by
  have ha : access j o.1.cls = Res.ok ((j.find? o.1.cls).getD null) ∧ GoodTypes ((j.find? o.1.cls).getD null) := by
    rcases hj with rfl | ⟨m, rfl, h1, h2⟩
    · exact ⟨rfl, .inl rfl⟩
    · refine ⟨rfl, ?_⟩
      cases hl : (obj m).find? o.1.cls with
      | none => exact .inl rfl
      | some w =>
        obtain ⟨ts, h3, h4, h5⟩ := h2 _ (mem_of_lookup hl)
        exact .inr ⟨ts, h3, h4, h5⟩
  obtain ⟨h1, h2⟩ := ha
  obtain ⟨ts, h3, h4, h5, h6⟩ := pushTo_types h2 o.1.type o.2
  have final : ∀ j', j.set o.1.cls (obj ts) = Res.ok j' → ∀ cls type, list j' cls type =
      if cls = o.1.cls ∧ type = o.1.type then list j cls type ++ [o.2] else list j cls type := by
    intro j' hj' cls type
    rw [list_eq, list_eq, find_set hj']
    by_cases hc : cls = o.1.cls
    · subst hc
      simp only [if_true, Option.getD_some, true_and]
      exact h6 type
    · simp [hc]
  unfold addResult
  simp only [h1, Res.ok_bind, h3]
  rcases hj with rfl | ⟨m, rfl, h7, h8⟩
  · refine ⟨_, rfl, .inr ⟨_, rfl, by simp, fun x hx => ?_⟩, final _ rfl⟩
    obtain rfl := List.mem_singleton.mp hx
    exact ⟨ts, rfl, h4, h5⟩
  · refine ⟨_, rfl, .inr ⟨_, rfl, nodup_insert h7, fun x hx => ?_⟩, final _ rfl⟩
    rcases mem_insert hx with rfl | hx
    · exact ⟨ts, rfl, h4, h5⟩
    · exact h8 x hx

theorem fold_addResult {os : List (Component K × Json)} {j : Json} (hj : Good j) :
    ∃ j', Res.fold os j addResult = Res.ok j' ∧ Good j' ∧ ∀ cls type, list j' cls type =
      list j cls type ++ (os.filter fun o => o.1.cls = cls ∧ o.1.type = type).map Prod.snd := by
  induction os generalizing j with
  | nil => exact ⟨j, rfl, hj, by simp⟩
  | cons o os ih =>
    obtain ⟨j1, h1, h2, h3⟩ := addResult_spec hj o
    obtain ⟨j2, h4, h5, h6⟩ := ih h2
    refine ⟨j2, by simp only [Res.fold, h1, Res.ok_bind, h4], h5, fun cls type => ?_⟩
    rw [h6, h3, List.filter_cons]
    by_cases hc : cls = o.1.cls ∧ type = o.1.type
    · rw [if_pos hc, if_pos (by simp [hc.1, hc.2])]
      simp
    · rw [if_neg hc, if_neg (by simp only [decide_eq_true_eq]; exact fun h => hc ⟨h.1.symm, h.2.symm⟩)]

theorem forall₂_filter_map {α β : Type} {R : α → β → Prop} {os : List (α × β)} (h : ∀ o ∈ os, R o.1 o.2) (p : α → Bool) :
    List.Forall₂ R ((os.map Prod.fst).filter p) ((os.filter fun o => p o.1).map Prod.snd) := by
  induction os with
  | nil => exact .nil
  | cons o os ih =>
    have ih := ih fun o' ho' => h o' (by simp [ho'])
    simp only [List.map_cons, List.filter_cons]
    split
    · exact .cons (h o (by simp)) ih
    · exact ih

theorem statesJson_spec {cs : List (Component K)} {saves : List (K × List K)} (hc : ∀ c ∈ cs, Sensible c)
    (hs : ∀ c ∈ cs, ∀ s ∈ saves, FitsIn c s.2 ∧ Reports c s.1 s.2) :
    ∃ j, statesJson cs saves = Res.ok j ∧ Good j ∧ ∀ cls type,
      List.Forall₂ (IsOutput saves) (cs.filter fun c => c.cls = cls ∧ c.type = type) (list j cls type) := by
  have setup : ∀ cs : List (Component K), ∃ os, (Res.each cs fun c => do
      let j ← setupOutput c
      Res.ok (c, j)) = Res.ok os ∧ os.map Prod.fst = cs ∧ ∀ o ∈ os, IsOutput [] o.1 o.2 := by
    intro cs
    induction cs with
    | nil => exact ⟨[], rfl, rfl, by simp⟩
    | cons c cs ih =>
      obtain ⟨os, h1, h2, h3⟩ := ih
      have hc : setupOutput c = Res.ok (obj [("data", arr []), ("id", str c.id)]) := rfl
      refine ⟨(c, obj [("data", arr []), ("id", str c.id)]) :: os, ?_, by simp [h2], fun o ho => ?_⟩
      · simp only [Res.each, h1, hc, Res.ok_bind]
      · rcases List.mem_cons.mp ho with rfl | ho
        · exact ⟨rfl, [], rfl, .nil⟩
        · exact h3 o ho
  obtain ⟨os, h1, h2, h3⟩ := setup cs
  have hm : ∀ o ∈ os, o.1 ∈ cs := fun o ho => h2 ▸ List.mem_map_of_mem ho
  obtain ⟨os', h4, h5, h6⟩ := fold_saves (saves := saves) (fun o ho => ⟨hc _ (hm o ho), hs _ (hm o ho)⟩) h3
  obtain ⟨j, h7, h8, h9⟩ := fold_addResult (os := os') (j := null) (.inl rfl)
  refine ⟨j, ?_, h8, fun cls type => ?_⟩
  · simp only [statesJson, h1, Res.ok_bind, h4, h7]
  · rw [h9, show list null cls type = [] from rfl, List.nil_append, ← h2, ← h5]
    exact forall₂_filter_map (R := IsOutput saves) h6 fun c => decide (c.cls = cls ∧ c.type = type)

/-- C79. If the saved states are long enough and boundary values have values at all times, writing them succeeds, and the file
lists under each class and type exactly the components of this class and type, in order. Each has its id and one entry for each saved state, in order, which
shows the time and the part of the state that belongs to it. -/
theorem C79_states {cs : List (Component K)} {saves : List (K × List K)} (hc : ∀ c ∈ cs, Sensible c)
    (hs : ∀ c ∈ cs, ∀ s ∈ saves, FitsIn c s.2 ∧ Reports c s.1 s.2) :
    ∃ j, statesJson cs saves = Res.ok j ∧ ∀ cls type,
      List.Forall₂ (IsOutput saves) (cs.filter fun c => c.cls = cls ∧ c.type = type) (list j cls type) := by
  obtain ⟨j, h1, -, h2⟩ := statesJson_spec hc hs
  exact ⟨j, h1, h2⟩

/-- A power node, a pipe with two points and a short pipe. -/
def exampleComponents : List (Component ℚ) :=
  [⟨"n", "nodes", "Vphinode", 0, .power fun _ s => Res.ok [("P", s.getD 0 0), ("Q", 5)]⟩,
    ⟨"p", "connections", "Pipe", 2, .pipe 2 10 (fun r => r * 4) fun p => p / 4⟩,
    ⟨"s", "connections", "Shortpipe", 6, .short⟩]

theorem example_sensible : ∀ c ∈ exampleComponents, Sensible c := by
  simp [exampleComponents, Sensible]
  rintro s a b (⟨rfl, -⟩ | ⟨rfl, -⟩) <;> decide

example : (∀ c ∈ exampleComponents, Sensible c) ∧
    ∀ c ∈ exampleComponents, ∀ s ∈ [((0 : ℚ), [1, 2, 3, 4, 5, 6, 7, 8, 9, (10 : ℚ)]), (1, [0, 2, 3, 0, 5, 6, 7, 8, 9, 10])],
      FitsIn c s.2 ∧ Reports c s.1 s.2 := by
  refine ⟨example_sensible, ?_⟩
  simp [exampleComponents, FitsIn, Reports, states]

end Verif.Output
