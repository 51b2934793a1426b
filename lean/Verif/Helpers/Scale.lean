import Verif.Helpers.Mutable
import Mathlib.Algebra.BigOperators.Group.List.Basic
import Mathlib.Algebra.BigOperators.Ring.List
import Mathlib.Algebra.Order.Field.Rat
import Mathlib.Tactic.FieldSimp
import Mathlib.Tactic.NormNum
import Mathlib.Tactic.Linarith

/-!
# Programs that change flows and pressures in the files of a problem

Sources: `/repo/helper_functions/change_inflow.cpp`, `increase_pressure.cpp`, `sum_outflow.cpp`.

Numbers are rational instead of floating point numbers. A number divided by zero is infinite or NaN, which is written as null.
Reading the arguments, parsing and printing json texts is not modelled.
-/

set_option autoImplicit false

namespace Verif.Helpers

open Verif.Json Verif.Schema Edit

/-! ## The programs -/

/-- `source["data"][i]["values"][k].get<double>()` with the operators for constants — `change_inflow.cpp` 41-45,
`sum_outflow.cpp` 42. -/
def flowOf (source : Json) (i k : ℕ) : Res ℚ := do
  let data ← source.index "data"
  let entry ← at' data i
  let values ← entry.index "values"
  let x ← at' values k
  getNum x

/-- One round of the first loop — `change_inflow.cpp` 41-45. -/
def constantFlow (source : Json) : Res ℚ := do
  let a ← flowOf source 0 0
  let b ← flowOf source 1 0
  if a = b then Res.ok a else Res.throws

/-- The first loop with the handler of exceptions — `change_inflow.cpp` 38-53: the sum up to the first exception. -/
def sumInflows : List Json → ℚ → Res ℚ
  | [], s => Res.ok s
  | source :: l, s =>
    match constantFlow source with
    | Res.ok q => sumInflows l (s + q)
    | Res.throws => Res.ok s
    | Res.ub => Res.ub

/-- The quotient as it is written. -/
def quotient (a b : ℚ) : Json := if b = 0 then null else num (a / b)

/-- One assignment in the second loop — `change_inflow.cpp` 57-59, 60-62: first the right side, with operators which may
change the value. -/
def scaleEntry (influx old : ℚ) (i : ℕ) : Edit Unit :=
  andThen (key "data" (position i (key "values" (position 0 (reading getNum))))) fun q =>
    key "data" (position i (key "values" (position 0 (assign (quotient (q * influx) old)))))

/-- One round of the second loop — `change_inflow.cpp` 56-63. -/
def scaleSource (influx old : ℚ) : Edit Unit :=
  andThen (scaleEntry influx old 0) fun _ => scaleEntry influx old 1

/-- `change_inflow` — `change_inflow.cpp` 18-75, from the file as it was to the file as it is afterwards. Exceptions are
reported on the terminal only. -/
def changeInflow (influx : ℚ) (file : Json) : Res Json :=
  match key "nodes" (key "Source" (reading fun j => sumInflows (elements j) 0)) file with
  | (_, Res.ub) => Res.ub
  | (file', r) =>
    match key "nodes" (key "Source" (each (scaleSource influx (match r with | Res.ok s => s | _ => 0)))) file' with
    | (_, Res.ub) => Res.ub
    | (file'', _) => Res.ok file''

/-- The loop over points — `increase_pressure.cpp` 56-60. -/
def raisePoint (difference : ℚ) : Edit Unit :=
  andThen (key "values" (position 0 (reading getNum))) fun q => key "values" (position 0 (assign (num (q + difference))))

/-- The types with pressures — `increase_pressure.cpp` 46-48. -/
def pressureTypes : List String := ["Pipe", "Controlvalve", "Compressorstation", "Shortpipe", "Gaspowerconnection"]

/-- One round of the loop over types — `increase_pressure.cpp` 51-62. -/
def raiseType (difference : ℚ) (type : String) : Edit Unit :=
  andThen (key "connections" (reading fun j => Res.ok (j.contains type))) fun there =>
    if there then key "connections" (key type (each (key "data" (each (raisePoint difference))))) else reading fun _ => Res.ok ()

/-- `increase_pressure` — `increase_pressure.cpp` 23-77. -/
def increasePressure (difference : ℚ) (file : Json) : Res Json :=
  match over pressureTypes (raiseType difference) file with
  | (_, Res.ub) => Res.ub
  | (file', _) => Res.ok file'

/-- The loop with the handler of exceptions — `sum_outflow.cpp` 39-48: the sum up to the first exception. -/
def sumOutflows : List Json → ℚ → Res ℚ
  | [], s => Res.ok s
  | pipe :: l, s =>
    match flowOf pipe 1 1 with
    | Res.ok q => sumOutflows l (s + q)
    | Res.throws => Res.ok s
    | Res.ub => Res.ub

/-- `sum_outflow` — `sum_outflow.cpp` 19-53: the number that is printed. -/
def sumOutflow (file : Json) : Res ℚ :=
  match (key "connections" (key "Shortpipe" (reading fun j => sumOutflows (elements j) 0)) file).2 with
  | Res.ok s => Res.ok s
  | Res.throws => Res.ok 0
  | Res.ub => Res.ub

/-! ## Specification -/

/-- The place of the flow of source number `i` at time point number `t` in a file with boundary values. -/
def inflowPlace (i t : ℕ) : List Step := [.at "nodes", .at "Source", .nth i, .at "data", .nth t, .at "values", .nth 0]

/-- The place of the pressure of a connection at a point in a file with initial values. -/
def pressurePlace (type : String) (i d : ℕ) : List Step :=
  [.at "connections", .at type, .nth i, .at "data", .nth d, .at "values", .nth 0]

/-- The pressures of a file are numbers where they should be: whenever there are connections of a type, each has a list of
points and each point has a list of values beginning with a number. -/
def HasPressures (file : Json) (types : List String) : Prop :=
  (∃ c, value? file [.at "connections"] = some (obj c)) ∧
  ∀ type ∈ types, ∀ v, value? file [.at "connections", .at type] = some v → ∃ components, v = arr components ∧
    ∀ c ∈ components, ∃ points, value? c [.at "data"] = some (arr points) ∧
      ∀ p ∈ points, ∃ q, value? p [.at "values", .nth 0] = some (num q)

/-! ## Reading and changing one entry -/

theorem find_of_value {j v : Json} {k : String} {p : List Step} (h : value? j (.at k :: p) = some v) :
    ∃ w, j.find? k = some w ∧ value? w p = some v := by
  match j, h with
  | obj m, h =>
    simp only [value?] at h
    cases hm : m.lookup k with
    | none => simp [hm] at h
    | some w => exact ⟨w, hm, by simpa [hm] using h⟩

theorem get_of_value {j v : Json} {i : ℕ} {p : List Step} (h : value? j (.nth i :: p) = some v) :
    ∃ l w, j = arr l ∧ l[i]? = some w ∧ value? w p = some v := by
  match j, h with
  | arr l, h =>
    simp only [value?] at h
    cases hm : l[i]? with
    | none => simp [hm] at h
    | some w => exact ⟨l, w, rfl, hm, by simpa [hm] using h⟩

theorem find_value {j : Json} {k : String} {p : List Step} {w : Json} (h : j.find? k = some w) :
    value? j (.at k :: p) = value? w p := by
  match j, h with
  | obj m, h =>
    have h : m.lookup k = some w := h
    simp [value?, h]

/-- The statement reaches a place that is there. -/
def reach {α : Type} : List Step → Edit α → Edit α
  | [], f => f
  | .at k :: p, f => key k (reach p f)
  | .nth i :: p, f => position i (reach p f)

theorem reach_value {α : Type} {f : Edit α} {v : Json} : ∀ {P : List Step} {j : Json}, value? j P = some v →
    (reach P f j).2 = (f v).2 ∧ (∀ p, value? (reach P f j).1 (P ++ p) = value? (f v).1 p) ∧
      ∀ p, Apart p P → value? (reach P f j).1 p = value? j p
  | [], j, h => by
    simp only [value?] at h
    obtain rfl : j = v := by simpa using h
    exact ⟨rfl, fun _ => rfl, fun p hp => absurd List.nil_prefix hp.2⟩
  | .at k :: P, j, h => by
    obtain ⟨w, hw, h'⟩ := find_of_value h
    obtain ⟨h1, h2, h3⟩ := reach_value (f := f) h'
    obtain ⟨k1, k2, k3⟩ := key_of_find (f := reach P f) hw
    refine ⟨k1.trans h1, fun p => (k2 _).trans (h2 p), fun p hp => ?_⟩
    match p, hp with
    | [], hp => exact absurd List.nil_prefix hp.1
    | s :: p, hp =>
      by_cases hs : s = .at k
      · subst hs
        rw [show reach (Step.at k :: P) f = key k (reach P f) from rfl, k2, h3 p (apart_cons.mp hp rfl), find_value hw]
      · exact k3 _ (fun p' e => hs (by injection e)) (by simp)
  | .nth i :: P, j, h => by
    obtain ⟨l, w, rfl, hw, h'⟩ := get_of_value h
    obtain ⟨h1, h2, h3⟩ := reach_value (f := f) h'
    obtain ⟨k1, k2, k3⟩ := position_value (f := reach P f) hw
    refine ⟨k1.trans h1, fun p => (k2 _).trans (h2 p), fun p hp => ?_⟩
    match p, hp with
    | [], hp => exact absurd List.nil_prefix hp.1
    | s :: p, hp =>
      by_cases hs : s = .nth i
      · subst hs
        rw [show reach (Step.nth i :: P) f = position i (reach P f) from rfl, k2, h3 p (apart_cons.mp hp rfl)]
        simp [value?, hw]
      · exact k3 _ (fun p' e => hs (by injection e)) (by simp)

/-- Reading a number and writing another one: only the entry at the place is changed. -/
theorem readWrite {P : List Step} {j : Json} {q : ℚ} {g : ℚ → Json} (h : value? j P = some (num q)) :
    (andThen (reach P (reading getNum)) (fun q => reach P (assign (g q))) j).2 = Res.ok () ∧
      value? (andThen (reach P (reading getNum)) (fun q => reach P (assign (g q))) j).1 P = some (g q) ∧
      ∀ p, Apart p P → value? (andThen (reach P (reading getNum)) (fun q => reach P (assign (g q))) j).1 p = value? j p := by
  obtain ⟨h1, h2, h3⟩ := reach_value (f := reading getNum) h
  generalize hr : reach P (reading getNum) j = r at h1 h2 h3
  obtain ⟨j', r⟩ := r
  have h1 : r = Res.ok q := h1
  subst h1
  have he : andThen (reach P (reading getNum)) (fun q => reach P (assign (g q))) j = reach P (assign (g q)) j' := by
    simp only [andThen, hr]
  have hj' : value? j' P = some (num q) := by simpa [reading, value?] using h2 []
  obtain ⟨k1, k2, k3⟩ := reach_value (f := assign (g q)) hj'
  rw [he]
  exact ⟨k1, by simpa [assign, value?] using k2 [], fun p hp => (k3 p hp).trans (h3 p hp)⟩

/-! ## Edits and the places they change -/

/-- The statement does not fail, puts new values at places and changes nothing else. -/
def Acts (f : Edit Unit) (j : Json) (S : List Step → Json → Prop) : Prop :=
  (f j).2 = Res.ok () ∧ (∀ P w, S P w → value? (f j).1 P = some w) ∧
    ∀ p, (∀ P w, S P w → Apart p P) → value? (f j).1 p = value? j p

theorem Acts.same {f : Edit Unit} {j : Json} {S : List Step → Json → Prop} (h : Acts f j S) (hS : ∀ P w, ¬ S P w) :
    (f j).1 = j := by
  have := h.2.2 [] fun P w hP => absurd hP (hS P w)
  simpa [value?] using this

theorem Acts.congr {f : Edit Unit} {j : Json} {S T : List Step → Json → Prop} (h : Acts f j S) (hST : ∀ P w, S P w ↔ T P w) :
    Acts f j T :=
  ⟨h.1, fun P w hP => h.2.1 P w ((hST P w).mpr hP), fun p hp => h.2.2 p fun P w hP => hp P w ((hST P w).mp hP)⟩

theorem acts_readWrite {P : List Step} {j : Json} {q : ℚ} {g : ℚ → Json} (h : value? j P = some (num q)) :
    Acts (andThen (reach P (reading getNum)) (fun q => reach P (assign (g q)))) j (fun Q w => Q = P ∧ w = g q) := by
  obtain ⟨h1, h2, h3⟩ := readWrite (g := g) h
  refine ⟨h1, ?_, fun p hp => h3 p (hp P _ ⟨rfl, rfl⟩)⟩
  rintro Q w ⟨rfl, rfl⟩
  exact h2

theorem replaceKey_same {k : String} {v : Json} {m : List (String × Json)} (h : m.lookup k = some v) : replaceKey k v m = m := by
  have := insert_same h
  unfold Json.insert at this
  rwa [if_pos (by simp [h])] at this

theorem reach_same {α : Type} {f : Edit α} {v : Json} (hf : (f v).1 = v) : ∀ {P : List Step} {j : Json}, value? j P = some v →
    (reach P f j).1 = j
  | [], j, h => by
    obtain rfl : j = v := by simpa [value?] using h
    exact hf
  | .at k :: P, j, h => by
    obtain ⟨w, hw, h'⟩ := find_of_value h
    have ih := reach_same hf h'
    match j, hw with
    | obj m, hw =>
      have hw : m.lookup k = some w := hw
      simp [reach, key, hw, ih, put, replaceKey_same hw]
  | .nth i :: P, j, h => by
    obtain ⟨l, w, rfl, hw, h'⟩ := get_of_value h
    have ih := reach_same hf h'
    obtain ⟨hi, rfl⟩ := List.getElem?_eq_some_iff.mp hw
    simp [reach, position_of_get hi, ih]

theorem apart_append {P p q : List Step} : Apart (P ++ p) (P ++ q) ↔ Apart p q := by
  simp [Apart, List.prefix_append_right_inj]

theorem acts_reach {f : Edit Unit} {P : List Step} {j v : Json} {S : List Step → Json → Prop} (h : value? j P = some v)
    (hf : Acts f v S) : Acts (reach P f) j (fun Q w => ∃ R, Q = P ++ R ∧ S R w) := by
  obtain ⟨h1, h2, h3⟩ := reach_value (f := f) h
  refine ⟨h1.trans hf.1, ?_, fun p hp => ?_⟩
  · rintro Q w ⟨R, rfl, hR⟩
    exact (h2 R).trans (hf.2.1 R w hR)
  by_cases ha : Apart p P
  · exact h3 p ha
  by_cases hpre : P <+: p
  · obtain ⟨p', rfl⟩ := hpre
    rw [h2, hf.2.2 p' fun R w hR => apart_append.mp (hp _ w ⟨R, rfl, hR⟩)]
    have := (reach_value (f := reading fun _ => Res.ok ()) h).2.1 p'
    rw [reach_same rfl h] at this
    exact this.symm
  · have hpP : p <+: P := by
      by_contra hc
      exact ha ⟨hc, hpre⟩
    have hS : ∀ R w, ¬ S R w := fun R w hR => (hp _ w ⟨R, rfl, hR⟩).1 (hpP.trans (List.prefix_append P R))
    rw [reach_same (hf.same hS) h]

theorem acts_each {f : Edit Unit} {l : List Json} {S : ℕ → List Step → Json → Prop}
    (h : ∀ i x, l[i]? = some x → Acts f x (S i)) :
    Acts (each f) (arr l) (fun Q w => ∃ i R, i < l.length ∧ Q = .nth i :: R ∧ S i R w) := by
  have hok : ∀ x ∈ l, (f x).2 = Res.ok () := fun x hx => by
    obtain ⟨i, hi⟩ := List.mem_iff_getElem?.mp hx
    exact (h i x hi).1
  rw [Acts, each_arr hok]
  refine ⟨rfl, ?_, fun p hp => ?_⟩
  · rintro Q w ⟨i, R, hi, rfl, hR⟩
    have hx : l[i]? = some l[i] := List.getElem?_eq_getElem hi
    have := (h i _ hx).2.1 R w hR
    simpa [value?, hx] using this
  · match p with
    | [] =>
      have hsame : ∀ x ∈ l, (f x).1 = x := fun x hx => by
        obtain ⟨i, hi⟩ := List.mem_iff_getElem?.mp hx
        refine (h i x hi).same fun R w hR => ?_
        exact (hp (.nth i :: R) w ⟨i, R, (List.getElem?_eq_some_iff.mp hi).1, rfl, hR⟩).1 List.nil_prefix
      simp only [value?]
      rw [List.map_congr_left hsame]; simp
    | .at k :: p => simp [value?]
    | .nth i :: p =>
      simp only [value?, List.getElem?_map]
      cases hi : l[i]? with
      | none => rfl
      | some x =>
        refine (h i x hi).2.2 p fun R w hR => ?_
        exact apart_cons.mp (hp (.nth i :: R) w ⟨i, R, (List.getElem?_eq_some_iff.mp hi).1, rfl, hR⟩) rfl

theorem acts_andThen {f : Edit Unit} {g : Unit → Edit Unit} {j : Json} {S T : List Step → Json → Prop} (hf : Acts f j S)
    (hg : Acts (g ()) (f j).1 T) (hST : ∀ P w Q v, S P w → T Q v → Apart P Q) :
    Acts (andThen f g) j (fun P w => S P w ∨ T P w) := by
  have he : andThen f g j = g () (f j).1 := by
    have := hf.1
    unfold andThen
    generalize f j = r at this
    obtain ⟨j', r⟩ := r
    simp only at this
    subst this
    rfl
  rw [Acts, he]
  refine ⟨hg.1, ?_, fun p hp => ?_⟩
  · rintro P w (hP | hP)
    · rw [hg.2.2 P fun Q v hQ => hST P w Q v hP hQ]
      exact hf.2.1 P w hP
    · exact hg.2.1 P w hP
  · rw [hg.2.2 p fun Q v hQ => hp Q v (.inr hQ), hf.2.2 p fun Q v hQ => hp Q v (.inl hQ)]

end Verif.Helpers
