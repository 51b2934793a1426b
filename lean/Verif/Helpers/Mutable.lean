import Verif.Schema.Model
import Mathlib.Data.List.Forall2

/-!
# Json values that are changed in place

The programs in `/repo/helper_functions` read a file into a `nlohmann::ordered_json`, change it in place and write it again. A
statement that throws may have changed the value before. So a statement is modelled by an `Edit`: it maps a value to the value
afterwards and to how the statement ended. The library is not part of the repository; the functions here follow its
documentation. In contrast to `nlohmann::json`, new keys are added at the end of an `ordered_json`.
-/

set_option autoImplicit false

namespace Verif.Helpers

open Verif.Json Verif.Schema

/-- A statement that may change a json value. -/
abbrev Edit (α : Type) := Json → Json × Res α

namespace Edit
variable {α β : Type}

/-- One statement after another: after exceptions and undefined behaviour nothing is done, changes are kept. -/
def andThen (f : Edit α) (g : α → Edit β) : Edit β := fun j =>
  match f j with
  | (j', Res.ok a) => g a j'
  | (j', Res.throws) => (j', Res.throws)
  | (j', Res.ub) => (j', Res.ub)

/-- A statement that only reads the value, with the operators that do not change it. -/
def reading (f : Json → Res α) : Edit α := fun j => (j, f j)

/-- Assignment. -/
def assign (v : Json) : Edit Unit := fun _ => (v, Res.ok ())

/-- Setting a key of an ordered map. -/
def put (k : String) (v : Json) (m : List (String × Json)) : List (String × Json) :=
  if (m.lookup k).isSome then replaceKey k v m else m ++ [(k, v)]

/-- A statement for the value `j[k]`: null becomes an object, a missing key is added with the value null; an exception for
everything that is neither null nor an object. -/
def key (k : String) (f : Edit α) : Edit α := fun j =>
  match j with
  | null => (obj [(k, (f null).1)], (f null).2)
  | obj m => (obj (put k (f ((m.lookup k).getD null)).1 m), (f ((m.lookup k).getD null)).2)
  | _ => (j, Res.throws)

/-- A statement for the value `j[i]`: null becomes an array, an array is filled up with null until there is an element `i`; an
exception for everything that is neither null nor an array. -/
def position (i : ℕ) (f : Edit α) : Edit α := fun j =>
  match j with
  | null => (arr (List.replicate i null ++ [(f null).1]), (f null).2)
  | arr l => (arr ((l ++ List.replicate (i - l.length) null).take i ++ (f (l.getD i null)).1 :: l.drop (i + 1)), (f (l.getD i null)).2)
  | _ => (j, Res.throws)

/-- The elements of an array or the values of an object, one after another: after exceptions and undefined behaviour the rest is
as it was. -/
def eachOf (f : Edit Unit) : List Json → List Json × Res Unit
  | [] => ([], Res.ok ())
  | x :: l =>
    match f x with
    | (x', Res.ok _) => (x' :: (eachOf f l).1, (eachOf f l).2)
    | (x', Res.throws) => (x' :: l, Res.throws)
    | (x', Res.ub) => (x' :: l, Res.ub)

/-- `for (auto &x : j)`: over elements of an array, values of an object, nothing for null, the value itself otherwise. -/
def each (f : Edit Unit) : Edit Unit := fun j =>
  match j with
  | null => (null, Res.ok ())
  | arr l => (arr (eachOf f l).1, (eachOf f l).2)
  | obj m => (obj ((m.map Prod.fst).zip (eachOf f (m.map Prod.snd)).1), (eachOf f (m.map Prod.snd)).2)
  | j => f j

/-- A loop over a list that does not belong to the value. -/
def over {ι : Type} (l : List ι) (f : ι → Edit Unit) : Edit Unit :=
  match l with
  | [] => reading fun _ => Res.ok ()
  | i :: l => andThen (f i) fun _ => over l f

end Edit

/-! ## Places in a file -/

/-- A step into a json value: to the value of a key or to an element of an array. -/
inductive Step where
  | at (k : String)
  | nth (i : ℕ)
  deriving DecidableEq

/-- The value at a place, if the place exists. -/
def value? (j : Json) : List Step → Option Json
  | [] => some j
  | .at k :: p =>
    match j with
    | obj m => match m.lookup k with
      | some v => value? v p
      | none => none
    | _ => none
  | .nth i :: p =>
    match j with
    | arr l => match l[i]? with
      | some v => value? v p
      | none => none
    | _ => none

/-- Neither place contains the other one. -/
def Apart (p q : List Step) : Prop := ¬ p <+: q ∧ ¬ q <+: p

theorem apart_cons {a b : Step} {p q : List Step} : Apart (a :: p) (b :: q) ↔ (a = b → Apart p q) := by
  unfold Apart
  by_cases h : a = b
  · subst h; simp [List.cons_prefix_cons]
  · have h' : b ≠ a := fun e => h e.symm
    simp [List.cons_prefix_cons, h, h']

theorem not_apart_nil (p : List Step) : ¬ Apart [] p := fun h => h.1 (List.nil_prefix)

/-! ## What edits do at places -/

namespace Edit
variable {α : Type}

theorem lookup_replaceKey (k k' : String) (v : Json) (m : List (String × Json)) :
    (replaceKey k v m).lookup k' = if k' = k then (if (m.lookup k).isSome then some v else none) else m.lookup k' := by
  induction m with
  | nil => simp [replaceKey]
  | cons a m ih =>
    obtain ⟨c, w⟩ := a
    simp only [replaceKey]
    by_cases h : k = c
    · subst h
      rw [if_pos rfl, lookup_cons, lookup_cons]
      by_cases h' : k' = k
      · simp [h']
      · simp [h', lookup_cons]
    · rw [if_neg h, lookup_cons, lookup_cons, ih, lookup_cons, if_neg h]
      by_cases h' : k' = k
      · subst h'; simp [h]
      · simp [h']

theorem lookup_put (k k' : String) (v : Json) (m : List (String × Json)) :
    (put k v m).lookup k' = if k' = k then some v else m.lookup k' := by
  unfold put
  split
  · next h => rw [lookup_replaceKey, if_pos h]
  · next h =>
    rw [List.lookup_append]
    simp only [Option.not_isSome_iff_eq_none] at h
    by_cases h' : k' = k
    · subst h'; simp [h]
    · simp only [lookup_cons, if_neg h', List.lookup_nil, Option.or_none]

theorem key_of_find {k : String} {f : Edit α} {j v : Json} (h : j.find? k = some v) :
    (key k f j).2 = (f v).2 ∧ (∀ p, value? (key k f j).1 (.at k :: p) = value? (f v).1 p) ∧
      ∀ p, (∀ p', p ≠ .at k :: p') → p ≠ [] → value? (key k f j).1 p = value? j p := by
  match j, h with
  | obj m, h =>
    have h : m.lookup k = some v := h
    refine ⟨by simp [key, h], fun p => by simp [key, value?, lookup_put, h], fun p hp hn => ?_⟩
    match p, hn with
    | .at k' :: p, _ =>
      have hk : k' ≠ k := fun e => hp p (by rw [e])
      simp only [key, value?, lookup_put, if_neg hk]
    | .nth i :: p, _ => simp [key, value?]

theorem position_of_get {i : ℕ} {f : Edit α} {l : List Json} (h : i < l.length) :
    position i f (arr l) = (arr (l.set i (f l[i]).1), (f l[i]).2) := by
  simp only [position]
  have hd : l.getD i null = l[i] := by simp [List.getD, h]
  rw [hd]
  congr 2
  rw [List.set_eq_take_append_cons_drop, if_pos h]
  congr 1
  rw [Nat.sub_eq_zero_of_le h.le]; simp

theorem position_value {i : ℕ} {f : Edit α} {l : List Json} {v : Json} (h : l[i]? = some v) :
    (position i f (arr l)).2 = (f v).2 ∧ (∀ p, value? (position i f (arr l)).1 (.nth i :: p) = value? (f v).1 p) ∧
      ∀ p, (∀ p', p ≠ .nth i :: p') → p ≠ [] → value? (position i f (arr l)).1 p = value? (arr l) p := by
  obtain ⟨hi, rfl⟩ := List.getElem?_eq_some_iff.mp h
  rw [position_of_get hi]
  refine ⟨rfl, fun p => by simp [value?, hi], fun p hp hn => ?_⟩
  match p, hn with
  | .at k' :: p, _ => simp [value?]
  | .nth i' :: p, _ =>
    have hk : i ≠ i' := fun e => hp p (by rw [e])
    simp only [value?, List.getElem?_set_ne hk]

theorem eachOf_ok {f : Edit Unit} {l : List Json} (h : ∀ x ∈ l, (f x).2 = Res.ok ()) :
    eachOf f l = (l.map fun x => (f x).1, Res.ok ()) := by
  induction l with
  | nil => rfl
  | cons x l ih =>
    have hx := h x (by simp)
    have hl := ih fun y hy => h y (by simp [hy])
    simp only [eachOf]
    generalize hf : f x = r at hx
    obtain ⟨x', r⟩ := r
    simp only at hx
    subst hx
    simp [hl, hf]

theorem each_arr {f : Edit Unit} {l : List Json} (h : ∀ x ∈ l, (f x).2 = Res.ok ()) :
    each f (arr l) = (arr (l.map fun x => (f x).1), Res.ok ()) := by
  simp only [each, eachOf_ok h]

end Edit

end Verif.Helpers
