import Verif.Schema.Model
import Verif.Interp.Props
import Verif.Initial.Props

/-!
# Properties C77, C78: what passes validation can be read

-/

set_option autoImplicit false

namespace Verif.Schema

open Verif.Json Verif.Factory Verif.Interp

/-! ## Specification -/

/-- The entry holds the point `x.1` (or time) under the name and the values `x.2`. -/
def IsPoint (name : String) (entry : Json) (x : ℚ × List ℚ) : Prop :=
  entry.find? name = some (num x.1) ∧ entry.find? "values" = some (arr (x.2.map num))

/-- The json holds an id and a list of entries with these points and values. -/
def Describes (name : String) (json : Json) (data : List (ℚ × List ℚ)) : Prop :=
  ∃ id entries, json.find? "id" = some (str id) ∧ json.find? "data" = some (arr entries) ∧
    List.Forall₂ (IsPoint name) entries data

/-! ## The schemas, written out -/

/-- A list of numbers of given length, with a description. -/
def numbersWith (k : ℕ) : Json :=
  obj [("description", str ""), ("items", numberType), ("maxItems", num k), ("minItems", num k), ("type", str "array")]

def point (k : ℕ) : Json := obj [("description", str ""),
  ("properties", obj [("values", numbersWith k), ("x", numberTypeWith "Interpolation Point")]),
  ("required", arr [str "x", str "values"]), ("type", str "object")]

set_option maxRecDepth 20000 in
theorem point_eq (k : ℕ) : pointSchema k = Res.ok (point k) := by
  unfold pointSchema point numbersWith
  generalize (k : ℚ) = q
  simp only [listSchema, update, items, Res.fold]
  rfl

/-- A list of numbers of given length. -/
def numbers (k : ℕ) : Json :=
  obj [("items", numberType), ("maxItems", num k), ("minItems", num k), ("type", str "array")]

def timed (k : ℕ) : Json := obj [("properties", obj [("time", numberType), ("values", numbers k)])]

def timedList (k : ℕ) : Json := obj [("items", timed k), ("type", str "array")]

set_option maxRecDepth 20000 in
theorem boundary_eq (k : ℕ) : boundarySchema k = Res.ok (obj [
    ("properties", obj [("data", timedList k), ("id", obj [("type", str "string")])]),
    ("required", arr [str "id", str "data"]), ("type", str "object")]) := by
  unfold boundarySchema timedList timed numbers
  generalize (k : ℚ) = q
  simp only [listSchema, update, items, Res.fold]
  rfl

/-! ## What they accept -/

theorem accepts_number {j : Json} : accepts numberType j = true ↔ ∃ q, j = num q := by
  unfold numberType
  rw [accepts_obj]
  cases j <;> simp [keyword, simpleKeyword, hasType]

theorem accepts_number_with {s : String} {j : Json} : accepts (numberTypeWith s) j = true ↔ ∃ q, j = num q := by
  unfold numberTypeWith
  rw [accepts_obj]
  cases j <;> simp [keyword, simpleKeyword, hasType]

theorem accepts_string {j : Json} : accepts (obj [("type", str "string")]) j = true ↔ ∃ q, j = str q := by
  rw [accepts_obj]
  cases j <;> simp [keyword, simpleKeyword, hasType]

theorem accepts_string_with {s : String} {j : Json} :
    accepts (obj [("description", str s), ("type", str "string")]) j = true ↔ ∃ q, j = str q := by
  rw [accepts_obj]
  cases j <;> simp [keyword, simpleKeyword, hasType]

theorem accepts_numbers {k : ℕ} {j : Json} :
    accepts (numbers k) j = true ↔ ∃ l : List ℚ, l.length = k ∧ j = arr (l.map num) := by
  unfold numbers
  rw [accepts_obj]
  cases j with
  | arr l =>
    simp only [keyword, simpleKeyword, hasType, List.all_cons, List.all_nil, Bool.and_true, Bool.and_eq_true]
    simp [accepts_number]
    constructor
    · rintro ⟨h1, h2, h3⟩
      obtain ⟨l', rfl⟩ : ∃ l' : List ℚ, l = l'.map num := by
        clear h2 h3
        induction l with
        | nil => exact ⟨[], rfl⟩
        | cons a l ih =>
          obtain ⟨q, rfl⟩ := h1 a (by simp)
          obtain ⟨l', rfl⟩ := ih fun b hb => h1 b (by simp [hb])
          exact ⟨q :: l', rfl⟩
      refine ⟨l', ?_, rfl⟩
      simp at h2 h3
      omega
    · rintro ⟨l', rfl, rfl⟩
      refine ⟨?_, by simp, by simp⟩
      intro b hb
      obtain ⟨q, -, rfl⟩ := List.mem_map.mp hb
      exact ⟨q, rfl⟩
  | _ => simp [keyword, simpleKeyword, hasType]

theorem accepts_numbers_with {k : ℕ} {j : Json} :
    accepts (numbersWith k) j = true ↔ ∃ l : List ℚ, l.length = k ∧ j = arr (l.map num) := by
  rw [← accepts_numbers]
  unfold numbersWith numbers
  rw [accepts_obj, accepts_obj]
  simp [keyword, simpleKeyword]

theorem accepts_point {k : ℕ} {j : Json} :
    accepts (point k) j = true ↔ ∃ x : ℚ × List ℚ, x.2.length = k ∧ IsPoint "x" j x := by
  unfold point IsPoint
  rw [accepts_obj]
  cases j with
  | obj m =>
    simp only [keyword, simpleKeyword, hasType, List.all_cons, List.all_nil, Bool.and_true, Bool.and_eq_true]
    simp only [contains, find?]
    cases h1 : m.lookup "values" with
    | none => simp
    | some v =>
      cases h2 : m.lookup "x" with
      | none => simp
      | some x =>
        simp [accepts_number_with, accepts_numbers_with]
        tauto
  | _ => simp [keyword, simpleKeyword, hasType, find?]

theorem accepts_timed {k : ℕ} {j : Json} : accepts (timed k) j = true ↔
    (∀ t, j.find? "time" = some t → ∃ q, t = num q) ∧
    ∀ v, j.find? "values" = some v → ∃ l : List ℚ, l.length = k ∧ v = arr (l.map num) := by
  unfold timed
  rw [accepts_obj]
  cases j with
  | obj m =>
    simp only [keyword, simpleKeyword, hasType, List.all_cons, List.all_nil, Bool.and_true]
    simp only [find?]
    cases h1 : m.lookup "values" with
    | none =>
      cases h2 : m.lookup "time" with
      | none => simp
      | some x => simp [accepts_number]
    | some v =>
      cases h2 : m.lookup "time" with
      | none => simp [accepts_numbers]
      | some x => simp [accepts_number, accepts_numbers]
  | _ => simp [keyword, find?]

/-- The schema of the list of points. -/
def pointList (points : Option ℤ) (k : ℕ) (xs : List Json) : Json :=
  match points with
  | none => obj [("allOf", arr (xs.map containsSchema)), ("description", str ""), ("items", point k), ("type", str "array")]
  | some n => obj [("allOf", arr (xs.map containsSchema)), ("description", str ""), ("items", point k), ("maxItems", num n),
      ("minItems", num n), ("type", str "array")]

set_option maxRecDepth 20000 in
theorem initial_eq {points : Option ℤ} {k : ℕ} {xs : List Json} {s : Json} (h : initialSchema points k xs = Res.ok s) :
    (∀ n, points = some n → 0 < n) ∧ s = obj [
    ("properties", obj [("data", pointList points k xs), ("id", obj [("description", str ""), ("type", str "string")])]),
    ("required", arr [str "id", str "data"]), ("type", str "object")] := by
  unfold initialSchema at h
  rw [point_eq, Res.ok_bind] at h
  cases points with
  | none =>
    refine ⟨by simp, ?_⟩
    generalize hx : arr (xs.map containsSchema) = c at h
    simp only [pointParams, Res.ok_bind, listSchema, update, items, Res.fold] at h
    unfold pointList
    rw [hx]
    injection h with h
    exact h.symm
  | some n =>
    by_cases hn : n ≤ 0
    · rw [show pointParams (some n) = Res.throws from if_pos hn] at h
      cases h
    · rw [show pointParams (some n) = Res.ok (obj [("description", str ""), ("maxItems", num n), ("minItems", num n)]) from
        if_neg hn, Res.ok_bind] at h
      refine ⟨fun m hm => by injection hm with hm; omega, ?_⟩
      generalize hx : arr (xs.map containsSchema) = c at h
      simp only [pointList]
      rw [hx]
      generalize (n : ℚ) = q at h ⊢
      simp only [listSchema, update, items, Res.fold] at h
      injection h with h
      exact h.symm

theorem accepts_contains {x : Json} {es : List Json} :
    accepts (containsSchema x) (arr es) = true ↔ ∃ e ∈ es, ∀ y, e.find? "x" = some y → accepts x y = true := by
  unfold containsSchema
  rw [accepts_obj]
  simp only [keyword, List.all_cons, List.all_nil, Bool.and_true]
  simp only [if_neg (show ¬ "contains" = "properties" by decide), if_neg (show ¬ "contains" = "items" by decide), if_true,
    List.any_eq_true]
  refine exists_congr fun e => and_congr_right fun _ => ?_
  rw [accepts_obj]
  cases e with
  | obj m =>
    simp only [keyword, List.all_cons, List.all_nil, Bool.and_true, if_true, find?]
    cases m.lookup "x" <;> simp
  | _ => simp [keyword, find?]

theorem points_of_forall {k : ℕ} {es : List Json} (h : ∀ e ∈ es, ∃ x : ℚ × List ℚ, x.2.length = k ∧ IsPoint "x" e x) :
    ∃ data : List (ℚ × List ℚ), (∀ x ∈ data, x.2.length = k) ∧ List.Forall₂ (IsPoint "x") es data := by
  induction es with
  | nil => exact ⟨[], by simp, .nil⟩
  | cons e es ih =>
    obtain ⟨x, h1, h2⟩ := h e (by simp)
    obtain ⟨data, h3, h4⟩ := ih fun e' he' => h e' (by simp [he'])
    exact ⟨x :: data, by rintro y (_ | ⟨_, hy⟩); exacts [h1, h3 y hy], .cons h2 h4⟩

/-- The conditions on the list of points. -/
def Fits (points : Option ℤ) (k : ℕ) (xs : List Json) (data : List (ℚ × List ℚ)) : Prop :=
  (∀ x ∈ data, x.2.length = k) ∧ (∀ n, points = some n → (data.length : ℤ) = n) ∧
    ∀ s ∈ xs, ∃ x ∈ data, accepts s (num x.1) = true

theorem accepts_pointList {points : Option ℤ} {k : ℕ} {xs : List Json} {j : Json} :
    accepts (pointList points k xs) j = true ↔
    ∃ es data, j = arr es ∧ List.Forall₂ (IsPoint "x") es data ∧ Fits points k xs data := by
  have main : ∀ es : List Json, ((∀ s ∈ xs, accepts (containsSchema s) (arr es) = true) ∧
      (∀ e ∈ es, accepts (point k) e = true) ∧ ∀ n, points = some n → (es.length : ℤ) = n) ↔
      ∃ data, List.Forall₂ (IsPoint "x") es data ∧ Fits points k xs data := by
    intro es
    constructor
    · rintro ⟨h1, h2, h3⟩
      obtain ⟨data, h4, h5⟩ := points_of_forall fun e he => accepts_point.mp (h2 e he)
      refine ⟨data, h5, h4, fun n hn => by rw [← h5.length_eq]; exact h3 n hn, fun s hs => ?_⟩
      obtain ⟨e, he, h6⟩ := accepts_contains.mp (h1 s hs)
      obtain ⟨x, hx, h7⟩ := Factory.forall₂_mem_left h5 he
      exact ⟨x, hx, h6 _ h7.1⟩
    · rintro ⟨data, h5, h4, h3, h1⟩
      refine ⟨fun s hs => ?_, fun e he => ?_, fun n hn => by rw [h5.length_eq]; exact h3 n hn⟩
      · obtain ⟨x, hx, h6⟩ := h1 s hs
        obtain ⟨e, he, h7⟩ := forall₂_mem_right h5 hx
        refine accepts_contains.mpr ⟨e, he, fun y hy => ?_⟩
        rw [h7.1] at hy
        injection hy with hy
        rw [← hy]
        exact h6
      · obtain ⟨x, hx, h7⟩ := Factory.forall₂_mem_left h5 he
        exact accepts_point.mpr ⟨x, h4 x hx, h7⟩
  cases j with
  | arr es =>
    have : (∃ es' data, arr es = arr es' ∧ List.Forall₂ (IsPoint "x") es' data ∧ Fits points k xs data) ↔
        ∃ data, List.Forall₂ (IsPoint "x") es data ∧ Fits points k xs data := by
      constructor
      · rintro ⟨_, data, h, h'⟩
        injection h with h
        subst h
        exact ⟨data, h'⟩
      · rintro ⟨data, h⟩
        exact ⟨es, data, rfl, h⟩
    rw [this, ← main]
    unfold pointList
    cases points with
    | none =>
      simp only []
      rw [accepts_obj]
      simp [keyword, simpleKeyword, hasType]
    | some n =>
      simp only []
      rw [accepts_obj]
      simp [keyword, simpleKeyword, hasType]
      intro _ _
      constructor
      · rintro ⟨h1, h2⟩
        have h1' : (es.length : ℤ) ≤ n := by exact_mod_cast h1
        have h2' : n ≤ (es.length : ℤ) := by exact_mod_cast h2
        omega
      · rintro rfl
        simp
  | _ =>
    unfold pointList
    cases points <;>
    · simp only []
      rw [accepts_obj]
      simp [keyword, simpleKeyword, hasType]

theorem accepts_outer {D I j : Json} :
    accepts (obj [("properties", obj [("data", D), ("id", I)]), ("required", arr [str "id", str "data"]),
      ("type", str "object")]) j = true ↔
    ∃ a b, j.find? "id" = some a ∧ j.find? "data" = some b ∧ accepts I a = true ∧ accepts D b = true := by
  rw [accepts_obj]
  cases j with
  | obj m =>
    simp only [keyword, simpleKeyword, hasType, List.all_cons, List.all_nil, Bool.and_true, find?, Json.contains]
    cases h1 : m.lookup "id" with
    | none => simp
    | some a =>
      cases h2 : m.lookup "data" with
      | none => simp
      | some b => simp [and_comm]
  | _ => simp [keyword, simpleKeyword, hasType, find?]

theorem accepts_initial {points : Option ℤ} {k : ℕ} {xs : List Json} {s j : Json}
    (h : initialSchema points k xs = Res.ok s) :
    accepts s j = true ↔ ∃ data, Describes "x" j data ∧ Fits points k xs data := by
  obtain ⟨-, rfl⟩ := initial_eq h
  rw [accepts_outer]
  constructor
  · rintro ⟨a, b, h1, h2, h3, h4⟩
    obtain ⟨id, rfl⟩ := accepts_string_with.mp h3
    obtain ⟨es, data, rfl, h5, h6⟩ := accepts_pointList.mp h4
    exact ⟨data, ⟨id, es, h1, h2, h5⟩, h6⟩
  · rintro ⟨data, ⟨id, es, h1, h2, h5⟩, h6⟩
    exact ⟨_, _, h1, h2, accepts_string_with.mpr ⟨_, rfl⟩, accepts_pointList.mpr ⟨es, data, rfl, h5, h6⟩⟩

/-! ## Reading -/

theorem index_of {j v : Json} {k : String} (h : j.find? k = some v) : j.index k = Res.ok v := by
  cases j with
  | obj m =>
    simp only [find?] at h
    simp only [index, h]
  | _ => simp [find?] at h

theorem entryValues_of {e : Json} {x : List ℚ} (h : e.find? "values" = some (arr (x.map num))) :
    entryValues e = Res.ok x := by
  unfold entryValues
  rw [index_of h, Res.ok_bind, Res.each_eq_ok]
  rw [List.forall₂_iff_get]
  refine ⟨by simp [size], fun i h1 h2 => ?_⟩
  simp only [List.get_eq_getElem, List.getElem_range, at']
  rw [Res.get_of_lt (by simpa using h2), Res.ok_bind]
  simp [getNum]

theorem readLoop_of {name : String} {es : List Json} {data : List (ℚ × List ℚ)} (h : List.Forall₂ (IsPoint name) es data)
    (v : IV ℚ) (i : ℕ) : readLoop v i es = fillLoop v i (data.map Prod.snd) := by
  induction h generalizing v i with
  | nil => rfl
  | cons h1 _ ih =>
    simp only [readLoop, List.map_cons, fillLoop, entryValues_of h1.2, Res.ok_bind]
    cases writeTimestep v (i : ℤ) _ with
    | ok v' => simp only [Res.ok_bind, ih]
    | _ => rfl

/-- If the name is the one that is looked for, reading a json gives the described values. -/
theorem readValues_of {name : String} {json : Json} {data : List (ℚ × List ℚ)} (h : Describes name json data)
    (hne : data ≠ []) (hname : ∀ es e, json.find? "data" = some (arr es) → es[0]? = some e →
      name = if e.contains "x" then "x" else "time") (mem : ℕ → ℚ) :
    readValues mem json = constructFromJson mem data := by
  obtain ⟨id, es, -, h2, h3⟩ := h
  cases h3 with
  | nil => exact absurd rfl hne
  | @cons e x es data h4 h5 =>
    have hn := hname _ e h2 rfl
    unfold readValues
    rw [index_of h2, Res.ok_bind]
    simp only [front, Res.ok_bind, ← hn, elements]
    have : Res.each (e :: es) (fun entry => do let p ← entry.index name; getNum p) =
        Res.ok ((x :: data).map Prod.fst) := by
      rw [Res.each_eq_ok, List.forall₂_map_right_iff]
      refine (List.Forall₂.cons h4 h5).imp fun a b hab => ?_
      rw [index_of hab.1]
      rfl
    rw [this, Res.ok_bind, index_of h4.2, Res.ok_bind]
    simp only [size, List.length_map, constructFromJson]
    cases constructFromStdVector mem (List.map Prod.fst (x :: data)) x.2.length with
    | ok v => simp only [Res.ok_bind]; exact readLoop_of (.cons h4 h5) v 0
    | _ => rfl

/-! ## C77: initial values -/

/-- The vector has these points and these values there. -/
def Represents (v : IV ℚ) (k : ℕ) (data : List (ℚ × List ℚ)) : Prop :=
  v.WF ∧ v.inner = k ∧ v.points = data.map Prod.fst ∧
    ∀ i (hi : i < data.length), vectorAtIndex v (i : ℤ) = Res.ok data[i].2

/-- C77. A schema for initial values accepts exactly the jsons with an id and a list of points, each with the right number
of values, in the right number, and with a point for each of the prescribed conditions. -/
theorem C77_accepts {points : Option ℤ} {k : ℕ} {xs : List Json} {s : Json} (h : initialSchema points k xs = Res.ok s)
    (json : Json) :
    accepts s json = true ↔ ∃ data, Describes "x" json data ∧ (∀ x ∈ data, x.2.length = k) ∧
      (∀ n, points = some n → (data.length : ℤ) = n) ∧ ∀ c ∈ xs, ∃ x ∈ data, accepts c (num x.1) = true :=
  accepts_initial h

theorem accepts_exactly {q r : ℚ} : accepts (exactly q) (num r) = true ↔ r = q := by
  unfold exactly
  rw [accepts_obj]
  simp only [keyword, simpleKeyword, List.all_cons, List.all_nil, Bool.and_true]
  simp
  constructor
  · rintro ⟨h1, h2⟩; exact le_antisymm h1 h2
  · rintro rfl; exact ⟨le_refl _, le_refl _⟩

theorem read_described {json : Json} {data : List (ℚ × List ℚ)} (h1 : Describes "x" json data) (hne : data ≠ []) {k : ℕ}
    (h2 : ∀ x ∈ data, x.2.length = k) (mem : ℕ → ℚ) : ∃ v, readValues mem json = Res.ok v ∧ Represents v k data := by
  obtain ⟨v, h5, h6⟩ := C66_from_json mem data hne k h2
  refine ⟨v, ?_, h6⟩
  rw [readValues_of h1 hne ?_, h5]
  intro es e he h0
  obtain ⟨id, es', -, h7, h8⟩ := h1
  rw [he] at h7
  injection h7 with h7
  injection h7 with h7
  subst h7
  cases h8 with
  | nil => simp at h0
  | cons h9 _ =>
    simp only [List.getElem?_cons_zero, Option.some.injEq] at h0
    subst h0
    rw [if_pos (by simp [Json.contains, h9.1])]

/-- C77. If at least one point is prescribed, as in all schemas of components, jsons that pass validation are read without
undefined behaviour, and the result has exactly the points and values written there; all others give an exception. -/
theorem C77_read {points : Option ℤ} {k : ℕ} {xs : List Json} {s : Json} (h : initialSchema points k xs = Res.ok s)
    (hx : xs ≠ []) (mem : ℕ → ℚ) (json : Json) :
    (accepts s json = true → ∃ data v, Describes "x" json data ∧ validateAndRead mem s json = Res.ok v ∧
      Represents v k data) ∧
    (¬ accepts s json = true → validateAndRead mem s json = Res.throws) := by
  refine ⟨fun ha => ?_, fun ha => by rw [validateAndRead, if_neg ha]⟩
  rw [validateAndRead, if_pos ha]
  obtain ⟨data, h1, h2, -, h4⟩ := (C77_accepts h json).mp ha
  have hne : data ≠ [] := by
    obtain ⟨c, hc⟩ := List.exists_mem_of_ne_nil xs hx
    obtain ⟨x, hx, -⟩ := h4 c hc
    exact List.ne_nil_of_mem hx
  obtain ⟨v, h5, h6⟩ := read_described h1 hne h2 mem
  exact ⟨data, v, h1, h5, h6⟩

/-- C77. Power nodes and connections of gas and power: one point, at zero, with two values. -/
theorem C77_single {s : Json} (h : singleSchema = Res.ok s) (json : Json) :
    accepts s json = true ↔ ∃ a b, Describes "x" json [(0, [a, b])] := by
  rw [C77_accepts h]
  constructor
  · rintro ⟨data, h1, h2, h3, h4⟩
    have h3 := h3 1 rfl
    match data, h3 with
    | [x], _ =>
      obtain ⟨y, hy, h5⟩ := h4 (exactly 0) (by simp)
      obtain rfl : y = x := by simpa using hy
      have h5 := accepts_exactly.mp h5
      have h2 := h2 y (by simp)
      obtain ⟨x, l⟩ := y
      match l, h2 with
      | [a, b], _ =>
        subst h5
        exact ⟨a, b, h1⟩
  · rintro ⟨a, b, h1⟩
    exact ⟨_, h1, by simp, by simp, by simp [accepts_exactly]⟩

/-- C77. Short components: two points, at zero and one, with two values each; the order is not prescribed. -/
theorem C77_short {s : Json} (h : shortSchema = Res.ok s) (json : Json) :
    accepts s json = true ↔ ∃ a b c d, Describes "x" json [(0, [a, b]), (1, [c, d])] ∨
      Describes "x" json [(1, [a, b]), (0, [c, d])] := by
  rw [C77_accepts h]
  constructor
  · rintro ⟨data, h1, h2, h3, h4⟩
    have h3 := h3 2 rfl
    match data, h3 with
    | [x, y], _ =>
      obtain ⟨z, hz, h5⟩ := h4 (exactly 0) (by simp)
      obtain ⟨w, hw, h6⟩ := h4 (exactly 1) (by simp)
      have h5 := accepts_exactly.mp h5
      have h6 := accepts_exactly.mp h6
      have hx := h2 x (by simp)
      have hy := h2 y (by simp)
      obtain ⟨x, l⟩ := x
      obtain ⟨y, m⟩ := y
      match l, m, hx, hy with
      | [a, b], [c, d], _, _ =>
        refine ⟨a, b, c, d, ?_⟩
        simp only [List.mem_cons, List.not_mem_nil, or_false] at hz hw
        rcases hz with rfl | rfl <;> rcases hw with rfl | rfl <;> simp only at h5 h6
        · rw [h5] at h6; simp at h6
        · subst h5 h6; exact .inl h1
        · subst h5 h6; exact .inr h1
        · rw [h5] at h6; simp at h6
  · rintro ⟨a, b, c, d, h1 | h1⟩
    · exact ⟨_, h1, by simp, by simp, by simp [accepts_exactly]⟩
    · exact ⟨_, h1, by simp, by simp, by simp [accepts_exactly]⟩

/-- C77. Pipes: any number of points, one of them at zero, with two values each. -/
theorem C77_pipe {s : Json} (h : pipeSchema = Res.ok s) (json : Json) :
    accepts s json = true ↔ ∃ data, Describes "x" json data ∧ (∀ x ∈ data, x.2.length = 2) ∧ ∃ x ∈ data, x.1 = 0 := by
  rw [C77_accepts h]
  simp [accepts_exactly]

theorem eval_node {v : IV ℚ} {k : ℕ} {data : List (ℚ × List ℚ)} (h : Represents v k data)
    (hs : (data.map Prod.fst).Pairwise (· < ·)) {i : ℕ} (hi : i < data.length) {x : ℚ} (hx : x = data[i].1) :
    eval v x = Res.ok data[i].2 := by
  obtain ⟨h1, -, h3, h4⟩ := h
  have hl : i < v.points.length := by rw [h3]; simpa using hi
  have := (C01_eval_at_node v h1 (by rw [h3]; exact hs) i hl).1
  rw [h4 i hi] at this
  rw [← this, hx]
  congr 1
  simp [h3]

open Verif.Initial in
/-- C77. What is written for a power node or a connection of gas and power becomes its state. -/
theorem C77_single_set {s : Json} (h : singleSchema = Res.ok s) {json : Json} {a b : ℚ}
    (hj : Describes "x" json [(0, [a, b])]) {c : StateComponent ℚ} {mem : ℕ → ℚ} (hr : c.read = validateAndRead mem s)
    {w : List ℚ} (hc : c.convert [a, b] = Res.ok w) (hw : w.length = 2) (hp : c.points = 1) (hs : c.states = 2)
    {vector : List ℚ} (hl : c.start + 2 ≤ vector.length) :
    setInitial c vector json = Res.ok (vector.take c.start ++ w ++ vector.drop (c.start + 2)) := by
  obtain ⟨v, h1, h2⟩ := read_described hj (by simp) (k := 2) (by simp) mem
  unfold setInitial
  rw [hr, validateAndRead, if_pos ((C77_single h json).mpr ⟨a, b, hj⟩), h1, Res.ok_bind, h2.2.1, hp, hs, if_neg (by omega)]
  simp only [setPoints]
  rw [eval_node h2 (by simp) (i := 0) (by simp) (by simp), Res.ok_bind]
  simp only [List.getElem_cons_zero]
  rw [hc, Res.ok_bind, assign, if_pos ⟨by rw [h2.2.1]; omega, by rw [h2.2.1, hw]⟩, Res.ok_bind, writeSegment, hw]
  simp

open Verif.Initial in
/-- C77. What is written for a short component becomes its state: the first two entries from the point zero, the last two
from the point one, if the point zero comes first; otherwise there is an exception. -/
theorem C77_short_set {s : Json} (h : shortSchema = Res.ok s) {json : Json} {a b a' b' : ℚ}
    {c : StateComponent ℚ} {mem : ℕ → ℚ} (hr : c.read = validateAndRead mem s) {w w' : List ℚ}
    (hw : c.convert [a, b] = Res.ok w) (hw2 : w.length = 2) (hw' : c.convert [a', b'] = Res.ok w') (hw2' : w'.length = 2)
    (hp : c.points = 2) (hx : c.dx = 1) (hs : c.states = 4)
    {vector : List ℚ} (hl : c.start + 4 ≤ vector.length) :
    (Describes "x" json [(0, [a, b]), (1, [a', b'])] →
      setInitial c vector json = Res.ok (vector.take c.start ++ w ++ w' ++ vector.drop (c.start + 4))) ∧
    (Describes "x" json [(1, [a', b']), (0, [a, b])] → setInitial c vector json = Res.throws) := by
  constructor
  · intro hj
    obtain ⟨v, h1, h2⟩ := read_described hj (by simp) (k := 2) (by simp) mem
    unfold setInitial
    rw [hr, validateAndRead, if_pos ((C77_short h json).mpr ⟨a, b, a', b', .inl hj⟩), h1, Res.ok_bind, h2.2.1, hp, hs,
      if_neg (by omega)]
    simp only [setPoints]
    rw [eval_node h2 (by simp) (i := 0) (by simp) (by simp), Res.ok_bind]
    simp only [List.getElem_cons_zero]
    rw [hw, Res.ok_bind, assign, if_pos ⟨by rw [h2.2.1]; omega, by rw [h2.2.1, hw2]⟩, Res.ok_bind]
    rw [eval_node h2 (by simp) (i := 1) (by simp) (by simp [hx]), Res.ok_bind]
    simp only [List.getElem_cons_zero, List.getElem_cons_succ]
    have hl1 : (writeSegment vector (c.start + 0 * v.inner) w).length = vector.length := by
      simp [writeSegment, hw2]
      omega
    rw [hw', Res.ok_bind, assign, if_pos ⟨by rw [hl1, h2.2.1]; omega, by rw [h2.2.1, hw2']⟩, Res.ok_bind]
    simp only [Res.ok.injEq]
    rw [h2.2.1]
    unfold writeSegment
    rw [hw2, hw2', zero_mul, add_zero, zero_add, one_mul]
    have e1 : (List.take c.start vector ++ w).length = c.start + 2 := by simp [hw2]; omega
    rw [List.take_append_of_le_length (by omega), List.take_of_length_le (by omega), List.drop_append, e1,
      List.drop_of_length_le (by omega), List.nil_append, List.drop_drop]
    congr 2
    omega
  · intro hj
    obtain ⟨v, h1, h2⟩ := read_described hj (by simp) (k := 2) (by simp) mem
    unfold setInitial
    rw [hr, validateAndRead, if_pos ((C77_short h json).mpr ⟨a', b', a, b, .inr hj⟩), h1, Res.ok_bind, h2.2.1, hp, hs,
      if_neg (by omega)]
    simp only [setPoints]
    have e0 : eval v ((0 : ℕ) * c.dx) = Res.ok [a, b] := by
      have h3 := h2.2.2.2 1 (by simp)
      have hp2 : v.points = [1, 0] := h2.2.2.1
      have hl : v.points.length = 2 := by rw [hp2]; rfl
      rw [vectorAtIndex_ok h2.1 (by omega)] at h3
      rw [eval_at_back h2.1 (by omega) (by simp [hp2]) (by simp [hp2, EPSILON]), hl]
      exact h3
    have e1 : eval v (((0 + 1 : ℕ) : ℚ) * c.dx) = Res.throws := by
      unfold eval
      rw [h2.2.2.1, hx]
      norm_num [EPSILON]
    rw [e0, Res.ok_bind, hw, Res.ok_bind, assign, if_pos ⟨by rw [h2.2.1]; omega, by rw [h2.2.1, hw2]⟩, Res.ok_bind, e1]
    rfl

/-- C77. There are such schemas, for every positive number of points. -/
theorem initial_ok {points : Option ℤ} (hp : ∀ n, points = some n → 0 < n) (k : ℕ) (xs : List Json) :
    ∃ s, initialSchema points k xs = Res.ok s := by
  unfold initialSchema
  rw [point_eq, Res.ok_bind]
  generalize arr (xs.map containsSchema) = c
  cases points with
  | none =>
    simp only [pointParams, Res.ok_bind, listSchema, update, items, Res.fold]
    exact ⟨_, rfl⟩
  | some n =>
    rw [show pointParams (some n) = Res.ok (obj [("description", str ""), ("maxItems", num n), ("minItems", num n)]) from
      if_neg (by have := hp n rfl; omega), Res.ok_bind]
    generalize (n : ℚ) = q
    simp only [listSchema, update, items, Res.fold]
    exact ⟨_, rfl⟩

example : (∃ s, singleSchema = Res.ok s) ∧ (∃ s, pipeSchema = Res.ok s) ∧ ∃ s, shortSchema = Res.ok s :=
  ⟨initial_ok (by rintro _ ⟨⟩; decide) _ _, initial_ok (by simp) _ _, initial_ok (by rintro _ ⟨⟩; decide) _ _⟩

/-- A json with initial values for a short component. -/
def shortExample (x y : ℚ) : Json := obj [("data", arr [obj [("values", arr [num 60, num 100]), ("x", num x)],
  obj [("values", arr [num 59, num 100]), ("x", num y)]]), ("id", str "valve")]

theorem shortExample_describes (x y : ℚ) : Describes "x" (shortExample x y) [(x, [60, 100]), (y, [59, 100])] :=
  ⟨"valve", _, rfl, rfl, .cons ⟨rfl, rfl⟩ (.cons ⟨rfl, rfl⟩ .nil)⟩

example {s : Json} (h : shortSchema = Res.ok s) :
    accepts s (shortExample 0 1) = true ∧ accepts s (shortExample 1 0) = true ∧ ¬ accepts s (shortExample 0 2) = true := by
  refine ⟨(C77_short h _).mpr ⟨_, _, _, _, .inl (shortExample_describes 0 1)⟩,
    (C77_short h _).mpr ⟨_, _, _, _, .inr (shortExample_describes 1 0)⟩, fun ha => ?_⟩
  have e : ∀ es, Json.find? (shortExample 0 2) "data" = some (arr es) → es = [obj [("values", arr [num 60, num 100]), ("x", num 0)],
      obj [("values", arr [num 59, num 100]), ("x", num 2)]] := by
    intro es h
    injection h with h
    injection h with h
    exact h.symm
  obtain ⟨a, b, c, d, ⟨id, es, -, h2, h3⟩ | ⟨id, es, -, h2, h3⟩⟩ := (C77_short h _).mp ha
  · rw [e es h2] at h3
    rcases h3 with _ | ⟨_, _ | ⟨⟨h5, -⟩, _⟩⟩
    injection h5 with h5
    injection h5 with h5
    norm_num at h5
  · rw [e es h2] at h3
    rcases h3 with _ | ⟨⟨h5, -⟩, _⟩
    injection h5 with h5
    injection h5 with h5
    norm_num at h5

/-- C77. The points of a pipe need not be sorted: there are jsons that pass validation and whose points are not in order,
so what is read from them cannot be interpolated in the way described. -/
theorem C77_sorted_false {s : Json} (h : pipeSchema = Res.ok s) (mem : ℕ → ℚ) :
    ∃ json v, validateAndRead mem s json = Res.ok v ∧ ¬ v.points.Pairwise (· ≤ ·) := by
  have hd := shortExample_describes 1 0
  obtain ⟨v, h1, h2⟩ := read_described hd (by simp) (k := 2) (by simp) mem
  refine ⟨shortExample 1 0, v, ?_, ?_⟩
  · rw [validateAndRead, if_pos ((C77_pipe h _).mpr ⟨_, hd, by simp, by simp⟩), h1]
  · rw [h2.2.2.1]
    simp

/-! ## C78: boundary values and controls -/

/-- C78. The schema for boundary values and controls accepts exactly the jsons with an id and a list of entries where the
time is a number and the values are the right number of numbers, each if there is one. -/
theorem C78_accepts {k : ℕ} {s : Json} (h : boundarySchema k = Res.ok s) (json : Json) :
    accepts s json = true ↔ ∃ id entries, json.find? "id" = some (str id) ∧ json.find? "data" = some (arr entries) ∧
      ∀ e ∈ entries, (∀ t, e.find? "time" = some t → ∃ q, t = num q) ∧
        ∀ v, e.find? "values" = some v → ∃ l : List ℚ, l.length = k ∧ v = arr (l.map num) := by
  rw [boundary_eq] at h
  injection h with h
  subst h
  rw [accepts_outer]
  have hl : ∀ j, accepts (timedList k) j = true ↔ ∃ es, j = arr es ∧ ∀ e ∈ es, accepts (timed k) e = true := by
    intro j
    unfold timedList
    rw [accepts_obj]
    cases j <;> simp [keyword, simpleKeyword, hasType]
  constructor
  · rintro ⟨a, b, h1, h2, h3, h4⟩
    obtain ⟨id, rfl⟩ := accepts_string.mp h3
    obtain ⟨es, rfl, h5⟩ := (hl b).mp h4
    exact ⟨id, es, h1, h2, fun e he => accepts_timed.mp (h5 e he)⟩
  · rintro ⟨id, es, h1, h2, h5⟩
    exact ⟨_, _, h1, h2, accepts_string.mpr ⟨_, rfl⟩, (hl _).mpr ⟨es, rfl, fun e he => accepts_timed.mpr (h5 e he)⟩⟩

/-- C78. Some jsons pass validation but reading them is undefined behaviour: a list without entries, an entry without
time, and an entry without values. -/
theorem C78_read_false {k : ℕ} {s : Json} (h : boundarySchema k = Res.ok s) (mem : ℕ → ℚ) :
    validateAndRead mem s (obj [("data", arr []), ("id", str "a")]) = Res.ub ∧
    validateAndRead mem s (obj [("data", arr [obj [("values", arr (List.replicate k (num 1)))]]), ("id", str "a")]) = Res.ub ∧
    validateAndRead mem s (obj [("data", arr [obj [("time", num 0)]]), ("id", str "a")]) = Res.ub := by
  refine ⟨?_, ?_, ?_⟩
  · rw [validateAndRead, if_pos ((C78_accepts h _).mpr ⟨"a", [], rfl, rfl, by simp⟩)]
    rfl
  · rw [validateAndRead, if_pos ((C78_accepts h _).mpr ⟨"a", _, rfl, rfl, ?_⟩)]
    · rfl
    · intro e he
      simp only [List.mem_singleton] at he
      subst he
      refine ⟨fun t ht => (by cases ht), fun v hv => ⟨List.replicate k 1, by simp, ?_⟩⟩
      injection hv with hv
      rw [← hv, List.map_replicate]
  · rw [validateAndRead, if_pos ((C78_accepts h _).mpr ⟨"a", _, rfl, rfl, ?_⟩)]
    · rfl
    · intro e he
      simp only [List.mem_singleton] at he
      subst he
      refine ⟨fun t ht => ⟨0, ?_⟩, fun v hv => (by cases hv)⟩
      injection ht with ht
      exact ht.symm

/-- C78. If there is an entry and all entries have time and values, and the first one has no entry "x", reading succeeds
and the result has exactly the times and values written there. -/
theorem C78_read_partial {k : ℕ} {s : Json} (h : boundarySchema k = Res.ok s) {json : Json} {data : List (ℚ × List ℚ)}
    (hd : Describes "time" json data) (hne : data ≠ []) (hk : ∀ x ∈ data, x.2.length = k)
    (hx : ∀ es e, json.find? "data" = some (arr es) → es[0]? = some e → e.find? "x" = none) (mem : ℕ → ℚ) :
    ∃ v, validateAndRead mem s json = Res.ok v ∧ Represents v k data := by
  obtain ⟨v, h5, h6⟩ := C66_from_json mem data hne k hk
  refine ⟨v, ?_, h6⟩
  have ha : accepts s json = true := by
    obtain ⟨id, es, h1, h2, h3⟩ := hd
    refine (C78_accepts h json).mpr ⟨id, es, h1, h2, fun e he => ?_⟩
    obtain ⟨x, hx, h7⟩ := Factory.forall₂_mem_left h3 he
    refine ⟨fun t ht => ⟨x.1, ?_⟩, fun v hv => ⟨x.2, hk x hx, ?_⟩⟩
    · rw [h7.1] at ht
      injection ht with ht
      exact ht.symm
    · rw [h7.2] at hv
      injection hv with hv
      exact hv.symm
  rw [validateAndRead, if_pos ha, readValues_of hd hne ?_, h5]
  intro es e he h0
  rw [if_neg (by simp [Json.contains, hx es e he h0])]

/-- The hypotheses are met. -/
example : Describes "time" (obj [("data", arr [obj [("time", num 0), ("values", arr [num 3])],
    obj [("time", num 10), ("values", arr [num 4])]]), ("id", str "a")]) [(0, [3]), (10, [4])] :=
  ⟨"a", _, rfl, rfl, .cons ⟨rfl, rfl⟩ (.cons ⟨rfl, rfl⟩ .nil)⟩

/-- C78. The converse: accepted jsons whose entries all have a time and values describe such data. -/
theorem C78_complete {k : ℕ} {s : Json} (h : boundarySchema k = Res.ok s) {json : Json} (ha : accepts s json = true)
    (hc : ∀ es, json.find? "data" = some (arr es) → ∀ e ∈ es, e.contains "time" = true ∧ e.contains "values" = true) :
    ∃ data, Describes "time" json data ∧ ∀ x ∈ data, x.2.length = k := by
  obtain ⟨id, es, h1, h2, h3⟩ := (C78_accepts h json).mp ha
  have hc := hc es h2
  suffices ∃ data : List (ℚ × List ℚ), (∀ x ∈ data, x.2.length = k) ∧ List.Forall₂ (IsPoint "time") es data by
    obtain ⟨data, h4, h5⟩ := this
    exact ⟨data, ⟨id, es, h1, h2, h5⟩, h4⟩
  clear h2
  induction es with
  | nil => exact ⟨[], by simp, .nil⟩
  | cons e es ih =>
    obtain ⟨data, h4, h5⟩ := ih (fun e' he' => h3 e' (by simp [he'])) fun e' he' => hc e' (by simp [he'])
    obtain ⟨ht, hv⟩ := hc e (by simp)
    obtain ⟨t, ht⟩ := contains_iff.mp ht
    obtain ⟨v, hv⟩ := contains_iff.mp hv
    obtain ⟨h6, h7⟩ := h3 e (by simp)
    obtain ⟨q, rfl⟩ := h6 t ht
    obtain ⟨l, h8, rfl⟩ := h7 v hv
    exact ⟨(q, l) :: data, by rintro y (_ | ⟨_, hy⟩); exacts [h8, h4 y hy], .cons ⟨ht, hv⟩ h5⟩

/-! ## Required keys -/

/-- The validator enforces required keys, as assumed in the theorems about boundary values of networks. -/
theorem accepts_enforces : EnforcesRequired accepts := by
  intro schema data l k h ho hr hk
  cases schema with
  | obj m =>
    rw [accepts_obj, List.all_eq_true] at h
    cases data with
    | obj d =>
      have := h ("required", arr l) (mem_of_lookup hr)
      simp [keyword, simpleKeyword] at this
      exact contains_iff.mp (this _ hk)
    | _ => cases ho
  | _ => cases hr

/-- C46. With this validator: whenever a network is built, each component whose type needs boundary values got its own. -/
theorem C46_validated {ν ε : Type} {nodeTypes : List (String × ComponentType ν)}
    {edgeTypes : List (String × ComponentType ε)} {topology boundary : Json}
    (hp : Proper nodeTypes edgeTypes topology) (ho : topology.isObj = true) (sb : Shaped boundary)
    (db : DistinctTypes boundary) {g : Graph ν ε}
    (h : buildNet accepts nodeTypes edgeTypes topology boundary = Res.ok g) :
    (∀ k x t, (k, x) ∈ entries (types topology "nodes") → (k, t) ∈ nodeTypes → NeedsBoundary t →
      x.find? "boundary_values" = none →
      ∃ n ∈ g.nodes, id? x = some n.id ∧ GotBoundary boundary "nodes" t k x n.data) ∧
    ∀ k x t, (k, x) ∈ entries (types topology "connections") → (k, t) ∈ edgeTypes → NeedsBoundary t →
      x.find? "boundary_values" = none →
      ∃ n ∈ g.edges, id? x = some n.id ∧ GotBoundary boundary "connections" t k x n.data :=
  C46_network accepts_enforces hp ho sb db h

end Verif.Schema
