import Verif.Basic.Res
import Mathlib.Data.String.Basic
import Mathlib.Data.Rat.Defs

/-!
# Json values

A model of `nlohmann::json` as used in `/repo/src/Auxillary` and `/repo/src/Model/Netfactory`. The library itself is
not part of the repository; the functions here follow its documentation. An object is the list of its keys
and values; `nlohmann::json` keeps objects in a `std::map`, so their keys are distinct and
in increasing order, which is `Json.Proper`. Numbers are rational.
-/

set_option autoImplicit false

namespace Verif

inductive Json where
  | null
  | bool (b : Bool)
  | num (q : ℚ)
  | str (s : String)
  | arr (l : List Json)
  | obj (m : List (String × Json))

namespace Json

/-- The value at a key of an object, if there is one. -/
def find? (j : Json) (key : String) : Option Json :=
  match j with
  | obj m => m.lookup key
  | _ => none

/-- `contains(key)`: false for everything that is no object. -/
def contains (j : Json) (key : String) : Bool := (j.find? key).isSome

/-- `operator[](key) const`: undefined behaviour if the key is missing, an exception if it is no object. -/
def index (j : Json) (key : String) : Res Json :=
  match j with
  | obj m => match m.lookup key with
    | some v => Res.ok v
    | none => Res.ub
  | _ => Res.throws

/-- `get<std::string>()`. -/
def getStr : Json → Res String
  | str s => Res.ok s
  | _ => Res.throws

/-- The values a range-based for loop runs over: elements of an array, values of an object, nothing
for null and the value itself for anything else. -/
def elements : Json → List Json
  | null => []
  | arr l => l
  | obj m => m.map Prod.snd
  | j => [j]

/-- Changing the value of a key in the map of an object. -/
def replaceKey (key : String) (v : Json) : List (String × Json) → List (String × Json)
  | [] => []
  | (k, w) :: m => if key = k then (k, v) :: m else (k, w) :: replaceKey key v m

/-- Adding a key to the map of an object. -/
def insertKey (key : String) (v : Json) : List (String × Json) → List (String × Json)
  | [] => [(key, v)]
  | (k, w) :: m => if key < k then (key, v) :: (k, w) :: m else (k, w) :: insertKey key v m

/-- Setting the value of a key in the map of an object. -/
def insert (key : String) (v : Json) (m : List (String × Json)) : List (String × Json) :=
  if (m.lookup key).isSome then replaceKey key v m else insertKey key v m

/-- `j[key] = v` with the operator for objects that may be changed: null becomes an object. -/
def set (j : Json) (key : String) (v : Json) : Res Json :=
  match j with
  | null => Res.ok (obj [(key, v)])
  | obj m => Res.ok (obj (insert key v m))
  | _ => Res.throws

/-- Is it an object? -/
def isObj : Json → Bool
  | obj _ => true
  | _ => false

theorem contains_iff {j : Json} {key : String} : j.contains key = true ↔ ∃ v, j.find? key = some v := by
  unfold contains; exact Option.isSome_iff_exists

theorem index_of_find {j v : Json} {key : String} (h : j.find? key = some v) : j.index key = Res.ok v := by
  cases j <;> simp_all [find?, index]

theorem index_eq_ok {j v : Json} {key : String} : j.index key = Res.ok v ↔ j.find? key = some v := by
  cases j with
  | obj m => simp only [index, find?]; cases m.lookup key <;> simp
  | _ => simp [index, find?]

theorem lookup_cons (k key : String) (w : Json) (m : List (String × Json)) :
    ((k, w) :: m).lookup key = if key = k then some w else m.lookup key := by
  simp only [List.lookup]
  by_cases h : key = k
  · subst h; simp
  · have : (key == k) = false := by simpa using h
    simp [this, h]

theorem lookup_insert_self (key : String) (v : Json) (m : List (String × Json)) :
    (insert key v m).lookup key = some v := by
  unfold insert
  split
  · next h =>
    induction m with
    | nil => simp [List.lookup] at h
    | cons a m ih =>
      obtain ⟨k, w⟩ := a
      simp only [replaceKey]
      split
      · next e => simp [e]
      · next e =>
        rw [lookup_cons, if_neg e] at h ⊢
        exact ih h
  · next h =>
    induction m with
    | nil => simp [insertKey]
    | cons a m ih =>
      obtain ⟨k, w⟩ := a
      rw [lookup_cons] at h
      split at h
      · simp at h
      · next e =>
        simp only [insertKey]
        split
        · simp
        · rw [lookup_cons, if_neg e]; exact ih h

theorem lookup_insert_of_ne {key k' : String} (v : Json) (m : List (String × Json)) (hne : k' ≠ key) :
    (insert key v m).lookup k' = m.lookup k' := by
  unfold insert
  split
  · induction m with
    | nil => simp [replaceKey]
    | cons a m ih =>
      obtain ⟨k, w⟩ := a
      rename_i h
      rw [lookup_cons] at h
      simp only [replaceKey]
      split
      · next e => subst e; simp [lookup_cons, hne]
      · next e => rw [if_neg e] at h; rw [lookup_cons, lookup_cons, ih h]
  · induction m with
    | nil => simp [insertKey, lookup_cons, hne]
    | cons a m ih =>
      obtain ⟨k, w⟩ := a
      rename_i h
      rw [lookup_cons] at h
      split at h
      · simp at h
      · simp only [insertKey]
        split
        · simp [lookup_cons, hne]
        · rw [lookup_cons, lookup_cons, ih h]

/-- Setting a key to the value it has changes nothing. -/
theorem insert_same {key : String} {v : Json} {m : List (String × Json)} (h : m.lookup key = some v) :
    insert key v m = m := by
  unfold insert
  rw [if_pos (by simp [h])]
  induction m with
  | nil => rfl
  | cons a m ih =>
    obtain ⟨k, w⟩ := a
    rw [lookup_cons] at h
    simp only [replaceKey]
    split
    · next e => rw [if_pos e] at h; injection h with h; rw [h]
    · next e => rw [if_neg e] at h; rw [ih h]

theorem set_same {j v : Json} {key : String} (h : j.find? key = some v) : j.set key v = Res.ok j := by
  cases j with
  | obj m => simp only [set, insert_same h]
  | _ => simp [find?] at h

end Json
end Verif
