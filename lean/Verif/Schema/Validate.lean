import Verif.Graph.Boundary
import Mathlib.Data.Rat.Floor

/-!
# Model of json schema validation

Source: `/repo/src/Auxillary/json_schema/schema_validation.cpp` 56-103, which calls the library `json-schema-validator`. The
library is not part of the repository; `accepts` follows the json schema specification (draft 7) for the keywords that
occur in the schemas of the components, with the exception of `oneOf`, `pattern`, `patternProperties` and `format`
(they occur in the schemas of units, see `Verif.Unit`, and of `problem_data.json`), which are ignored here. Keywords that only
describe (`title`, `description`, `default`, `$schema`) have no influence.
-/

set_option autoImplicit false

namespace Verif.Schema

open Verif.Json

/-- The keyword `type`. -/
def hasType (t : String) : Json → Bool
  | null => t == "null"
  | .bool _ => t == "boolean"
  | num q => t == "number" || (t == "integer" && q.den == 1)
  | str _ => t == "string"
  | arr _ => t == "array"
  | obj _ => t == "object"

/-- The keywords without sub-schemas; `siblings` are all keywords of the schema. -/
def simpleKeyword (siblings : List (String × Json)) (k : String) (v data : Json) : Bool :=
  if k = "type" then
    match v with
    | str t => hasType t data
    | _ => false
  else if k = "required" then
    match v, data with
    | arr keys, obj _ => keys.all fun key => match key with
      | str s => data.contains s
      | _ => false
    | _, _ => true
  else if k = "additionalProperties" then
    match v, data with
    | .bool false, obj m => m.all fun x => (((siblings.lookup "properties").getD null).find? x.1).isSome
    | _, _ => true
  else if k = "minItems" then
    match v, data with
    | num q, arr l => decide (q ≤ l.length)
    | _, _ => true
  else if k = "maxItems" then
    match v, data with
    | num q, arr l => decide ((l.length : ℚ) ≤ q)
    | _, _ => true
  else if k = "minimum" then
    match v, data with
    | num q, num x => decide (q ≤ x)
    | _, _ => true
  else if k = "maximum" then
    match v, data with
    | num q, num x => decide (x ≤ q)
    | _, _ => true
  else true

/-- Does the validator accept the data? A schema that is neither an object nor a boolean is faulty; this is an exception, as
for invalid data. -/
def accepts (schema data : Json) : Bool :=
  match schema with
  | .bool b => b
  | obj m => m.attach.all fun x =>
    if x.1.1 = "properties" then
      match _hx : x.1.2, data with
      | obj ps, obj d => ps.attach.all fun p =>
        match d.lookup p.1.1 with
        | some y => accepts p.1.2 y
        | none => true
      | _, _ => true
    else if x.1.1 = "items" then
      match data with
      | arr l => l.all fun y => accepts x.1.2 y
      | _ => true
    else if x.1.1 = "contains" then
      match data with
      | arr l => l.any fun y => accepts x.1.2 y
      | _ => true
    else if x.1.1 = "allOf" then
      match _hx : x.1.2 with
      | arr ss => ss.attach.all fun s => accepts s.1 data
      | _ => true
    else simpleKeyword m x.1.1 x.1.2 data
  | _ => false
  termination_by sizeOf schema
  decreasing_by
    · have h1 := List.sizeOf_lt_of_mem x.2
      have h2 := List.sizeOf_lt_of_mem p.2
      obtain ⟨⟨k, v⟩, hx'⟩ := x
      obtain ⟨⟨n, s⟩, hp'⟩ := p
      simp only at _hx
      subst _hx
      simp at h1 h2 ⊢
      omega
    · have h1 := List.sizeOf_lt_of_mem x.2
      obtain ⟨⟨k, v⟩, hx'⟩ := x
      simp at h1 ⊢
      omega
    · have h1 := List.sizeOf_lt_of_mem x.2
      obtain ⟨⟨k, v⟩, hx'⟩ := x
      simp at h1 ⊢
      omega
    · have h1 := List.sizeOf_lt_of_mem x.2
      have h2 := List.sizeOf_lt_of_mem s.2
      obtain ⟨⟨k, v⟩, hx'⟩ := x
      simp only at _hx
      subst _hx
      simp at h1 h2 ⊢
      omega

/-- One keyword of a schema. -/
def keyword (siblings : List (String × Json)) (k : String) (v data : Json) : Bool :=
  if k = "properties" then
    match v, data with
    | obj ps, obj d => ps.all fun p =>
      match d.lookup p.1 with
      | some y => accepts p.2 y
      | none => true
    | _, _ => true
  else if k = "items" then
    match data with
    | arr l => l.all fun y => accepts v y
    | _ => true
  else if k = "contains" then
    match data with
    | arr l => l.any fun y => accepts v y
    | _ => true
  else if k = "allOf" then
    match v with
    | arr ss => ss.all fun s => accepts s data
    | _ => true
  else simpleKeyword siblings k v data

theorem all_attach {α : Type} (l : List α) (f : α → Bool) : (l.attach.all fun x => f x.1) = l.all f := by
  rw [Bool.eq_iff_iff, List.all_eq_true, List.all_eq_true]
  exact ⟨fun h x hx => h ⟨x, hx⟩ (List.mem_attach _ _), fun h x _ => h x.1 x.2⟩

theorem accepts_obj (m : List (String × Json)) (data : Json) :
    accepts (obj m) data = m.all fun x => keyword m x.1 x.2 data := by
  rw [accepts, ← all_attach m]
  congr 1
  funext x
  unfold keyword
  split
  · rcases x with ⟨⟨k, v⟩, hx⟩
    cases v <;> cases data <;> try rfl
    next ps _ d =>
    exact all_attach ps fun p => match d.lookup p.1 with
      | some y => accepts p.2 y
      | none => true
  · split
    · rfl
    · split
      · rfl
      · split
        · rcases x with ⟨⟨k, v⟩, hx⟩
          cases v <;> try rfl
          next ss _ _ _ _ => exact all_attach ss fun s => accepts s data
        · rfl

end Verif.Schema
