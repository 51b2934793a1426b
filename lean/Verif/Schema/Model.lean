import Verif.Schema.Validate
import Verif.Interp.Model

/-!
# Model of the schemas of values, and of reading values from json

Sources: `/repo/src/Auxillary/json_schema/make_schema.cpp` and
`/repo/src/Auxillary/InterpolatingVector/InterpolatingVector.cpp`.
-/

set_option autoImplicit false

namespace Verif.Schema

open Verif.Json Verif.Factory Verif.Interp

/-! ## The schemas -/

/-- `type::number()` — `make_schema.cpp` 46. -/
def numberType : Json := obj [("type", str "number")]

/-- `type::number(description)` — 47-49. -/
def numberTypeWith (description : String) : Json := obj [("description", str description), ("type", str "number")]

/-- `j.update(other)`: all entries of the other object are set. -/
def update (j other : Json) : Res Json := Res.fold other.items j fun j x => j.set x.1 x.2

/-- `make_list_schema_of` — 75-88. The text of the description is left out. -/
def listSchema (element params : Json) : Res Json := do
  let s ← null.set "type" (str "array")
  let s ← s.set "items" element
  let s ← if element.contains "description" then s.set "description" (str "") else Res.ok s
  update s params

/-- `add_property` — 180-184. -/
def addProperty (schema : Json) (name : String) (definition : Json) : Res Json := do
  let p ← ((schema.find? "properties").getD null).set name definition
  schema.set "properties" p

/-- The schema of one point with initial values — 107-121. -/
def pointSchema (values : ℕ) : Res Json := do
  let s ← addRequired (obj [("description", str ""), ("type", str "object")]) "x" (numberTypeWith "Interpolation Point")
  let l ← listSchema numberType
    (obj [("description", str ""), ("maxItems", num values), ("minItems", num values)])
  addRequired s "values" l

/-- The parameters of the list of points — 123-136. -/
def pointParams : Option ℤ → Res Json
  | none => Res.ok (obj [("description", str "")])
  | some n => if n ≤ 0 then Res.throws else Res.ok (obj [("description", str ""), ("maxItems", num n), ("minItems", num n)])

/-- An element of the list `allOf` — 142-144. -/
def containsSchema (x : Json) : Json := obj [("contains", obj [("properties", obj [("x", x)])])]

/-- `make_initial_schema` — 90-150. -/
def initialSchema (points : Option ℤ) (values : ℕ) (xs : List Json) : Res Json := do
  let point ← pointSchema values
  let params ← pointParams points
  let data ← listSchema point params
  let data ← data.set "allOf" (arr (xs.map containsSchema))
  addProperty (obj [("properties", obj [("data", obj []), ("id", obj [("description", str ""), ("type", str "string")])]),
    ("required", arr [str "id", str "data"]), ("type", str "object")]) "data" data

/-- `make_boundary_schema` — 152-171. -/
def boundarySchema (values : ℕ) : Res Json := do
  let e ← addProperty null "time" numberType
  let l ← listSchema numberType (obj [("maxItems", num values), ("minItems", num values)])
  let e ← addProperty e "values" l
  let data ← listSchema e (obj [])
  addProperty (obj [("properties", obj [("data", obj []), ("id", obj [("type", str "string")])]),
    ("required", arr [str "id", str "data"]), ("type", str "object")]) "data" data

/-- The schema of a point, as in `contains_x`: `Powernode.cpp` 51-52, `Pipe.cpp` 67-68, `Shortcomponent.cpp` 28-30,
`Gaspowerconnection.cpp` 46-47. -/
def exactly (q : ℚ) : Json := obj [("maximum", num q), ("minimum", num q)]

/-- `Powernode::get_initial_schema` — `Powernode.cpp` 49-55, and `Gaspowerconnection::get_initial_schema` —
`Gaspowerconnection.cpp` 45-52. -/
def singleSchema : Res Json := initialSchema (some 1) 2 [exactly 0]

/-- `Pipe::get_initial_schema` — `Pipe.cpp` 65-71. -/
def pipeSchema : Res Json := initialSchema none 2 [exactly 0]

/-- `Shortcomponent::get_initial_schema` — `Shortcomponent.cpp` 26-33. -/
def shortSchema : Res Json := initialSchema (some 2) 2 [exactly 0, exactly 1]

/-! ## Reading -/

/-- `get<double>()`. -/
def getNum : Json → Res ℚ
  | num q => Res.ok q
  | _ => Res.throws

/-- `front()`: undefined for empty arrays and objects, an exception for null, the value itself for anything else. -/
def front : Json → Res Json
  | null => Res.throws
  | arr [] => Res.ub
  | arr (a :: _) => Res.ok a
  | obj [] => Res.ub
  | obj (a :: _) => Res.ok a.2
  | j => Res.ok j

/-- `size()`. -/
def size : Json → ℕ
  | null => 0
  | arr l => l.length
  | obj m => m.length
  | _ => 1

/-- `j[i]` for a position, without changes allowed: undefined behind the end, an exception if it is no array. -/
def at' (j : Json) (i : ℕ) : Res Json :=
  match j with
  | arr l => Res.get l i
  | _ => Res.throws

/-- The numbers in "values" of an entry — `InterpolatingVector.cpp` 465-470. -/
def entryValues (entry : Json) : Res (List ℚ) := do
  let v ← entry.index "values"
  Res.each (List.range (size v)) fun i => do
    let x ← at' v i
    getNum x

/-- The loop that fills the vector — 464-472, from entry `i` on. -/
def readLoop (v : IV ℚ) (i : ℕ) : List Json → Res (IV ℚ)
  | [] => Res.ok v
  | entry :: rest => do
    let w ← entryValues entry
    let v' ← writeTimestep v (i : ℤ) w
    readLoop v' (i + 1) rest

/-- `construct_from_json` after validation — 443-474. (`json["data"].items()` runs over the elements of the array.) -/
def readValues (mem : ℕ → ℚ) (json : Json) : Res (IV ℚ) := do
  let data ← json.index "data"
  let first ← front data
  let name := if first.contains "x" then "x" else "time"
  let points ← Res.each data.elements fun entry => do
    let p ← entry.index name
    getNum p
  let v ← first.index "values"
  let start ← constructFromStdVector mem points (size v)
  readLoop start 0 data.elements

/-- `construct_from_json` with validation. -/
def validateAndRead (mem : ℕ → ℚ) (schema json : Json) : Res (IV ℚ) :=
  if accepts schema json then readValues mem json else Res.throws

end Verif.Schema
