import Verif.Helpers.Scale

/-!
# What `change_inflow` and `increase_pressure` do
-/

set_option autoImplicit false

namespace Verif.Helpers

open Verif.Json Verif.Schema Edit

/-! ## `change_inflow` -/

theorem flowOf_of_value {s : Json} {t k : ℕ} {q : ℚ}
    (h : value? s [.at "data", .nth t, .at "values", .nth k] = some (num q)) : flowOf s t k = Res.ok q := by
  obtain ⟨d, hd, h⟩ := find_of_value h
  obtain ⟨l, e, rfl, he, h⟩ := get_of_value h
  obtain ⟨v, hv, h⟩ := find_of_value h
  obtain ⟨l', x, rfl, hx, h⟩ := get_of_value h
  simp only [value?, Option.some.injEq] at h
  subst h
  simp [flowOf, index_of_find hd, at', Res.get_eq_ok.mpr he, index_of_find hv, Res.get_eq_ok.mpr hx, getNum]

theorem sumInflows_constant {l : List Json} {flows : List ℚ}
    (h : List.Forall₂ (fun s q => ∀ t < 2, value? s [.at "data", .nth t, .at "values", .nth 0] = some (num q)) l flows) :
    ∀ s, sumInflows l s = Res.ok (s + flows.sum) := by
  induction h with
  | nil => intro s; simp [sumInflows]
  | cons h _ ih =>
    intro s
    simp only [sumInflows, constantFlow, flowOf_of_value (h 0 (by decide)), flowOf_of_value (h 1 (by decide)), Res.ok_bind, if_true]
    rw [ih]; simp [add_assoc]

theorem acts_scaleSource {s : Json} {q V total : ℚ} (h : ∀ t < 2, value? s [.at "data", .nth t, .at "values", .nth 0] = some (num q)) :
    Acts (scaleSource V total) s
      (fun Q w => ∃ t, t < 2 ∧ Q = [.at "data", .nth t, .at "values", .nth 0] ∧ w = quotient (q * V) total) := by
  have h0 := acts_readWrite (g := fun q => quotient (q * V) total) (h 0 (by decide))
  have hap : Apart [.at "data", .nth 1, .at "values", .nth 0] [.at "data", .nth 0, .at "values", .nth 0] := by
    simp [apart_cons]
  have hap' : Apart [.at "data", .nth 0, .at "values", .nth 0] [.at "data", .nth 1, .at "values", .nth 0] := by
    simp [apart_cons]
  have hv : value? (scaleEntry V total 0 s).1 [.at "data", .nth 1, .at "values", .nth 0] = some (num q) := by
    rw [← h 1 (by decide)]
    refine h0.2.2 _ ?_
    rintro P w ⟨rfl, rfl⟩
    exact hap
  have h1 := acts_readWrite (g := fun q => quotient (q * V) total) hv
  have := acts_andThen (g := fun _ => scaleEntry V total 1) h0 h1 (by
    rintro P w Q v ⟨rfl, rfl⟩ ⟨rfl, rfl⟩
    exact hap')
  refine this.congr fun P w => ⟨?_, ?_⟩
  · rintro (⟨rfl, rfl⟩ | ⟨rfl, rfl⟩)
    · exact ⟨0, by decide, rfl, rfl⟩
    · exact ⟨1, by decide, rfl, rfl⟩
  · rintro ⟨t, ht, rfl, rfl⟩
    match t, ht with
    | 0, _ => exact .inl ⟨rfl, rfl⟩
    | 1, _ => exact .inr ⟨rfl, rfl⟩

/-- **C128**, for files in which the inflow of every source is constant: the flows of the sources are scaled such that they
sum up to the given value, at both times, and nothing else in the file is changed. What is missing: for other files the program
reports an error and changes the file all the same, see `C128_false`. -/
theorem C128_partial {file : Json} {V : ℚ} {sources : List Json} {flows : List ℚ}
    (hs : value? file [.at "nodes", .at "Source"] = some (arr sources))
    (hc : List.Forall₂ (fun s q => ∀ t < 2, value? s [.at "data", .nth t, .at "values", .nth 0] = some (num q)) sources flows)
    (hsum : flows.sum ≠ 0) :
    ∃ (out : Json) (scaled : List ℚ), changeInflow V file = Res.ok out ∧ scaled.sum = V ∧ scaled.length = flows.length ∧
      (∀ (i : ℕ) (a b : ℚ), flows[i]? = some a → scaled[i]? = some b → b * flows.sum = a * V) ∧
      (∀ t < 2, ∀ (i : ℕ) (b : ℚ), scaled[i]? = some b → value? out (inflowPlace i t) = some (num b)) ∧
      ∀ p, (∀ t < 2, ∀ i < flows.length, Apart p (inflowPlace i t)) → value? out p = value? file p := by
  have hlen := hc.length_eq
  have hread : key "nodes" (key "Source" (reading fun j => sumInflows (elements j) 0)) file = (file, Res.ok flows.sum) := by
    have h1 := (reach_value (f := reading fun j => sumInflows (elements j) 0) hs).1
    have h2 := reach_same (f := reading fun j => sumInflows (elements j) 0) rfl hs
    have h1 : (key "nodes" (key "Source" (reading fun j => sumInflows (elements j) 0)) file).2 = Res.ok flows.sum := by
      refine h1.trans ?_
      simp [reading, elements, sumInflows_constant hc]
    exact Prod.ext h2 h1
  have hacts := acts_reach hs (acts_each (f := scaleSource V flows.sum) (S := fun i Q w => ∃ t q, t < 2 ∧ flows[i]? = some q ∧
      Q = [.at "data", .nth t, .at "values", .nth 0] ∧ w = quotient (q * V) flows.sum) (l := sources) (by
    intro i x hx
    obtain ⟨hi, rfl⟩ := List.getElem?_eq_some_iff.mp hx
    have hi' : i < flows.length := hlen ▸ hi
    have hq := hc.get hi hi'
    refine (acts_scaleSource (V := V) (total := flows.sum) hq).congr fun P w => ⟨?_, ?_⟩
    · rintro ⟨t, ht, rfl, rfl⟩
      exact ⟨t, flows[i], ht, List.getElem?_eq_getElem hi', rfl, rfl⟩
    · rintro ⟨t, q, ht, hq', rfl, rfl⟩
      obtain ⟨_, rfl⟩ := List.getElem?_eq_some_iff.mp hq'
      exact ⟨t, ht, rfl, rfl⟩))
  have hrun : changeInflow V file =
      Res.ok (key "nodes" (key "Source" (each (scaleSource V flows.sum))) file).1 := by
    have h1 : (key "nodes" (key "Source" (each (scaleSource V flows.sum))) file).2 = Res.ok () := hacts.1
    simp only [changeInflow, hread]
    generalize key "nodes" (key "Source" (each (scaleSource V flows.sum))) file = r at h1
    obtain ⟨f, r⟩ := r
    simp only at h1
    subst h1
    rfl
  refine ⟨_, flows.map fun q => q * V / flows.sum, hrun, ?_, by simp, ?_, ?_, ?_⟩
  · have : (flows.map fun q => q * V / flows.sum) = flows.map fun q => q * (V / flows.sum) := by
      simp [mul_div_assoc]
    rw [this, List.sum_map_mul_right, List.map_id']
    field_simp
  · intro i a b ha hb
    rw [List.getElem?_map, ha] at hb
    simp only [Option.map_some, Option.some.injEq] at hb
    rw [← hb]; field_simp
  · intro t ht i b hb
    rw [List.getElem?_map] at hb
    obtain ⟨q, hq, rfl⟩ := Option.map_eq_some_iff.mp hb
    refine hacts.2.1 _ _ ⟨[.nth i, .at "data", .nth t, .at "values", .nth 0], rfl, i, _, ?_, rfl, t, q, ht, hq, rfl, ?_⟩
    · rw [hlen]; exact (List.getElem?_eq_some_iff.mp hq).1
    · simp [quotient, hsum]
  · intro p hp
    refine hacts.2.2 p ?_
    rintro P w ⟨R, rfl, i, R', hi, rfl, t, q, ht, hq, rfl, rfl⟩
    exact hp t ht i (hlen ▸ hi)

/-! ## `sum_outflow` -/

theorem sumOutflows_all {l : List Json} {flows : List ℚ}
    (h : List.Forall₂ (fun s q => value? s [.at "data", .nth 1, .at "values", .nth 1] = some (num q)) l flows) :
    ∀ s, sumOutflows l s = Res.ok (s + flows.sum) := by
  induction h with
  | nil => intro s; simp [sumOutflows]
  | cons h _ ih =>
    intro s
    simp only [sumOutflows, flowOf_of_value h]
    rw [ih]; simp [add_assoc]

/-- **C130**, for files in which every short pipe has a number as flow at its end: the sum of these flows is printed.
What is missing: with other files the sum of some of the flows is printed, or behaviour is undefined, see `C130_false` and
`C130_defined_false`. -/
theorem C130_partial {file : Json} {pipes : List Json} {flows : List ℚ}
    (hs : value? file [.at "connections", .at "Shortpipe"] = some (arr pipes))
    (h : List.Forall₂ (fun s q => value? s [.at "data", .nth 1, .at "values", .nth 1] = some (num q)) pipes flows) :
    sumOutflow file = Res.ok flows.sum := by
  have h1 := (reach_value (f := reading fun j => sumOutflows (elements j) 0) hs).1
  have h1 : (key "connections" (key "Shortpipe" (reading fun j => sumOutflows (elements j) 0)) file).2 = Res.ok flows.sum := by
    refine h1.trans ?_
    simp [reading, elements, sumOutflows_all h]
  simp only [sumOutflow, h1]

/-! ## `increase_pressure` -/

theorem Acts.of_eq {f g : Edit Unit} {j : Json} {S : List Step → Json → Prop} (h : Acts g j S) (e : f j = g j) : Acts f j S := by
  unfold Acts; rw [e]; exact h

theorem acts_raisePoint {p : Json} {q d : ℚ} (h : value? p [.at "values", .nth 0] = some (num q)) :
    Acts (raisePoint d) p (fun Q w => Q = [.at "values", .nth 0] ∧ w = num (q + d)) :=
  acts_readWrite (g := fun q => num (q + d)) h

/-- The new pressures of the connections of a type. -/
def NewPressure (file : Json) (d : ℚ) (type : String) (P : List Step) (w : Json) : Prop :=
  ∃ i k q, P = pressurePlace type i k ∧ value? file P = some (num q) ∧ w = num (q + d)

theorem value_append {j v : Json} : ∀ {P p : List Step}, value? j P = some v → value? j (P ++ p) = value? v p := by
  intro P p h
  have h1 := (reach_value (f := reading fun _ => Res.ok ()) h).2.1 p
  rwa [reach_same rfl h] at h1

theorem acts_raiseType {file : Json} {d : ℚ} {type : String} {types : List String} (h : HasPressures file types) (ht : type ∈ types) :
    Acts (raiseType d type) file (NewPressure file d type) := by
  obtain ⟨⟨c, hc⟩, h⟩ := h
  have hread : key "connections" (reading fun j => Res.ok (j.contains type)) file = (file, Res.ok ((obj c).contains type)) :=
    Prod.ext (reach_same (f := reading fun j => Res.ok (j.contains type)) rfl hc)
      (reach_value (f := reading fun j => Res.ok (j.contains type)) hc).1
  have hval : ∀ p, value? file (.at "connections" :: p) = value? (obj c) p := fun p => value_append (P := [.at "connections"]) hc
  cases hl : c.lookup type with
  | none =>
    have hno : (obj c).contains type = false := by simp [contains, find?, hl]
    have he : raiseType d type file = (file, Res.ok ()) := by
      simp only [raiseType, andThen, hread, hno]; rfl
    rw [Acts, he]
    refine ⟨rfl, ?_, fun _ _ => rfl⟩
    rintro P w ⟨i, k, q, rfl, hq, rfl⟩
    simp [pressurePlace, hval, value?, hl] at hq
  | some v =>
    have hyes : (obj c).contains type = true := by simp [contains, find?, hl]
    have hv : value? file [.at "connections", .at type] = some v := by rw [hval]; simp [value?, hl]
    obtain ⟨components, rfl, hcomp⟩ := h type ht v hv
    have he : raiseType d type file = key "connections" (key type (each (key "data" (each (raisePoint d))))) file := by
      simp only [raiseType, andThen, hread, hyes, if_true]
    have hacts := acts_reach (f := each (key "data" (each (raisePoint d)))) hv (acts_each (S := fun i Q w =>
      ∃ x k q, components[i]? = some x ∧ Q = [.at "data", .nth k, .at "values", .nth 0] ∧ value? x Q = some (num q) ∧ w = num (q + d))
      fun i x hx => by
        obtain ⟨points, hp, hpoints⟩ := hcomp x (List.mem_of_getElem? hx)
        have := acts_reach (f := each (raisePoint d)) hp (acts_each (S := fun k Q w =>
          ∃ y q, points[k]? = some y ∧ Q = [.at "values", .nth 0] ∧ value? y Q = some (num q) ∧ w = num (q + d))
          fun k y hy => by
            obtain ⟨q, hq⟩ := hpoints y (List.mem_of_getElem? hy)
            refine (acts_raisePoint (d := d) hq).congr fun P w => ⟨?_, ?_⟩
            · rintro ⟨rfl, rfl⟩; exact ⟨y, q, hy, rfl, hq, rfl⟩
            · rintro ⟨y', q', hy', rfl, hq', rfl⟩
              rw [hy] at hy'; cases hy'
              rw [hq] at hq'; cases hq'
              exact ⟨rfl, rfl⟩)
        refine this.congr fun P w => ⟨?_, ?_⟩
        · rintro ⟨R, rfl, k, R', hk, rfl, y, q, hy, rfl, hq, rfl⟩
          refine ⟨x, k, q, hx, rfl, ?_, rfl⟩
          rw [value_append hp]; simpa [value?, hy] using hq
        · rintro ⟨x', k, q, hx', rfl, hq, rfl⟩
          rw [hx] at hx'; cases hx'
          have hq' := value_append (p := [.nth k, .at "values", .nth 0]) hp
          simp only [List.cons_append, List.nil_append] at hq'
          rw [hq'] at hq
          obtain ⟨l, y, hl', hy, hq⟩ := get_of_value hq
          cases hl'
          exact ⟨_, rfl, k, _, (List.getElem?_eq_some_iff.mp hy).1, rfl, y, q, hy, rfl, hq, rfl⟩)
    refine (hacts.of_eq he).congr fun P w => ⟨?_, ?_⟩
    · rintro ⟨R, rfl, i, R', hi, rfl, x, k, q, hx, rfl, hq, rfl⟩
      refine ⟨i, k, q, rfl, ?_, rfl⟩
      rw [value_append hv]; simpa [value?, hx] using hq
    · rintro ⟨i, k, q, rfl, hq, rfl⟩
      have hq' := value_append (p := [.nth i, .at "data", .nth k, .at "values", .nth 0]) hv
      simp only [List.cons_append, List.nil_append] at hq'
      rw [pressurePlace, hq'] at hq
      obtain ⟨l, x, hl', hx, hq⟩ := get_of_value hq
      cases hl'
      exact ⟨_, rfl, i, _, (List.getElem?_eq_some_iff.mp hx).1, rfl, x, k, q, hx, rfl, hq, rfl⟩

theorem apart_types {t t' : String} {i k i' k' : ℕ} (h : t ≠ t') : Apart (pressurePlace t i k) (pressurePlace t' i' k') := by
  simp [pressurePlace, apart_cons, h]

theorem hasPressures_step {file : Json} {d : ℚ} {type : String} {types : List String} (h : HasPressures file (type :: types))
    (hn : type ∉ types) : HasPressures (raiseType d type file).1 types := by
  have hA := acts_raiseType (d := d) h (List.mem_cons_self ..)
  obtain ⟨⟨c, hc⟩, h⟩ := h
  constructor
  · have hread : key "connections" (reading fun j => Res.ok (j.contains type)) file = (file, Res.ok ((obj c).contains type)) :=
      Prod.ext (reach_same (f := reading fun j => Res.ok (j.contains type)) rfl hc)
        (reach_value (f := reading fun j => Res.ok (j.contains type)) hc).1
    simp only [raiseType, andThen, hread]
    split
    · have := (reach_value (f := key type (each (key "data" (each (raisePoint d))))) hc).2.1 []
      simp only [List.append_nil] at this
      exact ⟨_, this⟩
    · exact ⟨c, hc⟩
  · intro t ht v hv
    have hne : t ≠ type := fun e => hn (e ▸ ht)
    rw [hA.2.2 [.at "connections", .at t] (by
      rintro P w ⟨i, k, q, rfl, _, _⟩
      simp [pressurePlace, apart_cons, hne])] at hv
    exact h t (List.mem_cons_of_mem _ ht) v hv

theorem acts_types {d : ℚ} : ∀ (types : List String) {file : Json}, types.Nodup → HasPressures file types →
    Acts (over types (raiseType d)) file (fun P w => ∃ type ∈ types, NewPressure file d type P w)
  | [], file, _, _ => ⟨rfl, by rintro P w ⟨_, h, _⟩; simp at h, fun _ _ => rfl⟩
  | type :: types, file, hn, h => by
    obtain ⟨hn, hnd⟩ := List.nodup_cons.mp hn
    have h1 := acts_raiseType (d := d) h (List.mem_cons_self ..)
    have h2 := acts_types (d := d) types hnd (hasPressures_step (d := d) h hn)
    have hsame : ∀ t ∈ types, ∀ P w, NewPressure (raiseType d type file).1 d t P w ↔ NewPressure file d t P w := by
      intro t ht P w
      have hv : ∀ i k, value? (raiseType d type file).1 (pressurePlace t i k) = value? file (pressurePlace t i k) := fun i k =>
        h1.2.2 _ (by
          rintro P w ⟨i', k', q, rfl, _, _⟩
          exact apart_types fun e => hn (e ▸ ht))
      constructor
      · rintro ⟨i, k, q, rfl, hq, rfl⟩; exact ⟨i, k, q, rfl, hv i k ▸ hq, rfl⟩
      · rintro ⟨i, k, q, rfl, hq, rfl⟩; exact ⟨i, k, q, rfl, (hv i k).trans hq, rfl⟩
    refine (acts_andThen (g := fun _ => over types (raiseType d)) h1 h2 ?_).congr fun P w => ⟨?_, ?_⟩
    · rintro P w Q v ⟨i, k, q, rfl, _, _⟩ ⟨t, ht, i', k', q', rfl, _, _⟩
      exact apart_types fun e => hn (e ▸ ht)
    · rintro (hP | ⟨t, ht, hP⟩)
      · exact ⟨type, List.mem_cons_self .., hP⟩
      · exact ⟨t, List.mem_cons_of_mem _ ht, (hsame t ht P w).mp hP⟩
    · rintro ⟨t, ht, hP⟩
      rcases List.mem_cons.mp ht with rfl | ht
      · exact .inl hP
      · exact .inr ⟨t, ht, (hsame t ht P w).mpr hP⟩

/-- **C129**, for files in which all pressures are numbers: every pressure is increased by the given difference and nothing
else in the file is changed. What is missing: for other files the program changes some pressures and not others, see
`C129_false`. -/
theorem C129_partial {file : Json} {d : ℚ} (h : HasPressures file pressureTypes) :
    ∃ out, increasePressure d file = Res.ok out ∧
      (∀ type ∈ pressureTypes, ∀ (i k : ℕ) (q : ℚ), value? file (pressurePlace type i k) = some (num q) →
        value? out (pressurePlace type i k) = some (num (q + d))) ∧
      ∀ p, (∀ type ∈ pressureTypes, ∀ (i k : ℕ) (q : ℚ), value? file (pressurePlace type i k) = some (num q) →
        Apart p (pressurePlace type i k)) → value? out p = value? file p := by
  obtain ⟨h1, h2, h3⟩ := acts_types (d := d) pressureTypes (by decide) h
  have hrun : increasePressure d file = Res.ok (over pressureTypes (raiseType d) file).1 := by
    unfold increasePressure
    generalize over pressureTypes (raiseType d) file = r at h1
    obtain ⟨f, r⟩ := r
    simp only at h1
    subst h1
    rfl
  refine ⟨_, hrun, fun type ht i k q hq => h2 _ _ ⟨type, ht, i, k, q, rfl, hq, rfl⟩, fun p hp => h3 p ?_⟩
  rintro P w ⟨type, ht, i, k, q, rfl, hq, rfl⟩
  exact hp type ht i k q hq

end Verif.Helpers
