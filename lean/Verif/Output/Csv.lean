import Verif.Output.Props
import Verif.Json.Insert

/-!
# Exporting results as csv files

Source: `/repo/helper_functions/generate_printing_csv.cpp`. The program looks for a component by bisection, which needs lists
that are sorted by id, and writes its results to one file for a power node and to one file for each quantity of a gas component.
-/

set_option autoImplicit false

namespace Verif.Output

open Verif.Json Verif.Interp

/-! ## Searching -/

/-- `id_compare_less` — 57-60, for an element and the id that is searched for. -/
def idLess (a : Json) (id : String) : Res Bool := do
  let i ← a.index "id"
  let s ← i.getStr
  Res.ok (decide (s < id))

/-- `std::lower_bound` — 71-73: bisection between `first` and `first + len`. -/
def lowerBound (id : String) (l : List Json) (first len : ℕ) : Res ℕ :=
  if _h : len = 0 then Res.ok first
  else do
    let half := len / 2
    let a ← Res.get l (first + half)
    let less ← idLess a id
    if less then lowerBound id l (first + half + 1) (len - half - 1)
    else lowerBound id l first half
termination_by len
decreasing_by all_goals omega

/-- The two kinds of results. -/
inductive ResultKind
  | gas
  | power
  deriving DecidableEq

/-- `gastypes` and `powertypes` — 50-54, as they are used in 79-98. -/
def resultKind (type : String) : Option ResultKind :=
  if type ∈ ["Pipe", "Controlvalve", "Compressorstation", "Shortpipe", "Gaspowerconnection"] then some .gas
  else if type ∈ ["Vphinode", "PQnode", "PVnode", "StochasticPQnode", "ExternalPowerplant"] then some .power
  else none

/-- What the search in the types of a class finds. -/
inductive Found (κ : Type)
  | nothing
  | object (o : Json) (kind : κ)
  /-- The type is unknown, the program ends — 88-97. -/
  | unknown

/-- The loop over the types of a class — 70-101, where `kindOf` tells the kind of a type. The iterators of objects that are no lists
are not considered. -/
def searchTypes {κ : Type} (kindOf : String → Option κ) (id : String) : List (String × Json) → Res (Found κ)
  | [] => Res.ok .nothing
  | (type, arr l) :: m => do
    let i ← lowerBound id l 0 l.length
    match l[i]? with
    | none => searchTypes kindOf id m
    | some o => do
      let s ← access o "id"
      match s with
      | str s =>
        if s = id then
          match kindOf type with
          | some k => Res.ok (.object o k)
          | none => Res.ok .unknown
        else searchTypes kindOf id m
      | _ => searchTypes kindOf id m
  | (_, null) :: m => searchTypes kindOf id m
  | _ :: _ => Res.throws

/-- The search in a class — 67-70. -/
def searchClass {κ : Type} (kindOf : String → Option κ) (id : String) (input : Json) (cls : String) : Res (Found κ) :=
  match input.find? cls with
  | none => Res.ok .nothing
  | some (obj m) => searchTypes kindOf id m
  | some null => Res.ok .nothing
  | some _ => Res.throws

/-- The search — 62-107. The second class goes on if something was found in the first one: the object is then replaced, and
`both` tells as what it counts. -/
def search {κ : Type} (kindOf : String → Option κ) (both : κ → κ → κ) (id : String) (input : Json) : Res (Found κ) := do
  let a ← searchClass kindOf id input "nodes"
  match a with
  | .unknown => Res.ok .unknown
  | .nothing => searchClass kindOf id input "connections"
  | .object o k => do
    let b ← searchClass kindOf id input "connections"
    match b with
    | .unknown => Res.ok .unknown
    | .nothing => Res.ok (.object o k)
    | .object o' k' => Res.ok (.object o' (both k k'))

/-- Something that is found in both classes counts as gas if one of both is — 80-87, 109-116. -/
def resultBoth (k k' : ResultKind) : ResultKind := if k = .gas then .gas else k'

/-! ## Writing -/

/-- A cell of a table: a text or a json as it is printed. -/
inductive Cell
  | text (s : String)
  | value (j : Json)

/-- A file with a table. -/
structure Csv where
  name : String
  header : List Cell
  rows : List (List Cell)

/-- `object["data"]` after `object["data"][0]` has been looked at: an empty list gets an element. -/
def dataOf (object : Json) : Res (List Json) := do
  let d ← access object "data"
  match d with
  | null => Res.ok [null]
  | arr [] => Res.ok [null]
  | arr l => Res.ok l
  | _ => Res.throws

/-- `items()` without the time — 135-136, 145-147, 164-173. Of other jsons than objects only null is considered. -/
def quantities : Json → Res (List (String × Json))
  | obj m => Res.ok (m.filter fun x => x.1 ≠ "time")
  | null => Res.ok []
  | _ => Res.throws

/-- `write_power_csv` — 122-159. `inRoot` tells which files are in the current directory. (The file that is
removed if there is a value that is no number is left out.) -/
def powerCsv (inRoot : String → Bool) (id : String) (object : Json) : Res (List Csv) :=
  if inRoot (id ++ ".csv") then do
    let data ← dataOf object
    let first ← Res.get data 0
    let header ← quantities first
    let rows ← Res.each data fun step => do
      let t ← access step "time"
      let q ← quantities step
      let cells ← Res.each q fun x =>
        match x.2 with
        | num _ => Res.ok (Cell.value x.2)
        | _ => Res.throws
      Res.ok (Cell.value t :: cells)
    Res.ok [⟨id ++ ".csv", .text "time" :: header.map fun x => .text x.1, rows⟩]
  else Res.throws

/-- The cells of a row of a gas component — 185-187, 190-192. -/
def gasCells (step : Json) (key sub : String) : Res (List Cell) := do
  let v ← access step key
  Res.each v.elements fun x => do
    let y ← access x sub
    Res.ok (.value y)

/-- `write_gas_csv` — 161-196. (Files that have been written before an exception are left out.) -/
def gasCsv (inRoot : String → Bool) (id : String) (object : Json) : Res (List Csv) := do
  let data ← dataOf object
  let first ← Res.get data 0
  let q ← quantities first
  Res.each q fun x =>
    if inRoot (id ++ "_" ++ x.1 ++ ".csv") then do
      let header ← gasCells first x.1 "x"
      let rows ← Res.each data fun step => do
        let t ← access step "time"
        let cells ← gasCells step x.1 "value"
        Res.ok (Cell.value t :: cells)
      Res.ok ⟨id ++ "_" ++ x.1 ++ ".csv", .text "t-x" :: header, rows⟩
    else Res.throws

/-- The program — 34-120: the files it writes, or nothing if it ends with an error. -/
def printingCsv (inRoot : String → Bool) (input : Json) (id : String) : Res (Option (List Csv)) := do
  let found ← search resultKind resultBoth id input
  match found with
  | .nothing => Res.ok none
  | .unknown => Res.ok none
  | .object o k =>
    match (match k with | .gas => gasCsv inRoot id o | .power => powerCsv inRoot id o) with
    | Res.ok files => Res.ok (some files)
    | Res.throws => Res.ok none
    | Res.ub => Res.ub

/-! ## Bisection -/

theorem idLess_eq {a : Json} {s : String} (h : id? a = some s) (id : String) : idLess a id = Res.ok (decide (s < id)) := by
  have : a.find? "id" = some (str s) := by
    unfold id? at h
    cases hf : a.find? "id" with
    | none => rw [hf] at h; cases h
    | some v => rw [hf] at h; cases v <;> simp_all
  unfold idLess
  rw [index_of_find this]
  rfl

/-- What bisection gives in a list that is sorted by id: the elements before are less, the others are not. -/
theorem lowerBound_spec {id : String} {l : List Json} (hs : SortedById l) (hi : ∀ a ∈ l, ∃ s, id? a = some s) :
    ∀ (len first : ℕ), first + len ≤ l.length →
      (∀ i (h : i < l.length), i < first → ∃ s, id? l[i] = some s ∧ s < id) →
      (∀ i (h : i < l.length), first + len ≤ i → ∃ s, id? l[i] = some s ∧ ¬ s < id) →
      ∃ r, lowerBound id l first len = Res.ok r ∧ r ≤ l.length ∧
        (∀ i (h : i < l.length), i < r → ∃ s, id? l[i] = some s ∧ s < id) ∧
        ∀ i (h : i < l.length), r ≤ i → ∃ s, id? l[i] = some s ∧ ¬ s < id := by
  intro len
  induction len using Nat.strong_induction_on with
  | _ len ih =>
    intro first hlen hlo hhi
    rw [lowerBound]
    by_cases h0 : len = 0
    · rw [dif_pos h0]
      subst h0
      exact ⟨first, rfl, by omega, hlo, by simpa using hhi⟩
    · rw [dif_neg h0]
      have hm : first + len / 2 < l.length := by omega
      obtain ⟨s, hsm⟩ := hi _ (List.getElem_mem hm)
      simp only [Res.get_of_lt hm, Res.ok_bind, idLess_eq hsm]
      have sorted : ∀ i k (hik : i < k) (hk : k < l.length), ∃ s t, id? (l[i]'(by omega)) = some s ∧ id? l[k] = some t ∧ s < t :=
        fun i k hik hk => List.pairwise_iff_getElem.mp hs i k (by omega) hk hik
      by_cases hlt : s < id
      · simp only [hlt, decide_true, if_true]
        refine ih _ (by omega) _ (by omega) (fun i h hi' => ?_) (fun i h hi' => hhi i h (by omega))
        by_cases he : i = first + len / 2
        · subst he; exact ⟨s, hsm, hlt⟩
        · obtain ⟨a, b, h1, h2, h3⟩ := sorted i _ (by omega) hm
          rw [hsm] at h2
          injection h2 with h2
          subst h2
          exact ⟨a, h1, h3.trans hlt⟩
      · simp only [hlt, decide_false, Bool.false_eq_true, if_false]
        refine ih _ (by omega) _ (by omega) hlo (fun i h hi' => ?_)
        by_cases he : i = first + len / 2
        · subst he; exact ⟨s, hsm, hlt⟩
        · obtain ⟨a, b, h1, h2, h3⟩ := sorted _ i (show first + len / 2 < i by omega) h
          rw [hsm] at h1
          injection h1 with h1
          subst h1
          exact ⟨b, h2, fun hb => hlt (h3.trans hb)⟩

/-- The element with the id, if there is one. -/
theorem lowerBound_found {id : String} {l : List Json} (hs : SortedById l) (hi : ∀ a ∈ l, ∃ s, id? a = some s) :
    ∃ r, lowerBound id l 0 l.length = Res.ok r ∧
      (∀ o ∈ l, id? o = some id → l[r]? = some o) ∧ ((∀ o ∈ l, id? o ≠ some id) → ∀ o, l[r]? = some o → id? o ≠ some id) := by
  obtain ⟨r, h1, h2, h3, h4⟩ := lowerBound_spec (id := id) hs hi l.length 0 (by omega) (by simp) (fun i h hi => by omega)
  refine ⟨r, h1, fun o ho hid => ?_, fun hn o ho => hn o (List.mem_of_getElem? ho)⟩
  obtain ⟨i, hil, rfl⟩ := List.getElem_of_mem ho
  have hri : r ≤ i := by
    by_contra hlt
    obtain ⟨s, h5, h6⟩ := h3 i hil (by omega)
    rw [hid] at h5
    injection h5 with h5
    subst h5
    exact lt_irrefl _ h6
  rcases Nat.eq_or_lt_of_le hri with rfl | hlt
  · simp
  · obtain ⟨s, t, h5, h6, h7⟩ := List.pairwise_iff_getElem.mp hs r i (by omega) hil hlt
    rw [hid] at h6
    injection h6 with h6
    subst h6
    obtain ⟨s', h8, h9⟩ := h4 r (by omega) le_rfl
    rw [h5] at h8
    injection h8 with h8
    subst h8
    exact absurd h7 h9

/-! ## The search in a file of results -/

/-- All lists of the file are sorted by id. -/
def SortedFile (j : Json) : Prop :=
  ∀ cls type, SortedById (list j cls type) ∧ ∀ a ∈ list j cls type, ∃ s, id? a = some s

theorem access_id {o : Json} {s : String} (h : id? o = some s) : access o "id" = Res.ok (str s) := by
  unfold id? find? at h
  cases o with
  | obj m =>
    unfold access
    simp only at h ⊢
    cases hl : m.lookup "id" with
    | none => rw [hl] at h; cases h
    | some v => rw [hl] at h; cases v <;> simp_all
  | _ => cases h

/-- Searching in the types: the object that is there, if there is only one. -/
theorem searchTypes_found {κ : Type} {kindOf : String → Option κ} {id : String} {m : List (String × Json)} (hl : ∀ x ∈ m, ∃ l, x.2 = arr l ∧ SortedById l ∧
      ∀ a ∈ l, ∃ s, id? a = some s) {type : String} {l : List Json} (hm : (type, arr l) ∈ m) {o : Json} (ho : o ∈ l)
    (hid : id? o = some id) {k : κ} (hk : kindOf type = some k)
    (hu : ∀ x ∈ m, ∀ l', x.2 = arr l' → ∀ o' ∈ l', id? o' = some id → x.1 = type ∧ o' = o) :
    searchTypes kindOf id m = Res.ok (.object o k) := by
  induction m with
  | nil => cases hm
  | cons x m ih =>
    obtain ⟨t, v⟩ := x
    obtain ⟨l', e, h1, h2⟩ := hl (t, v) (by simp)
    simp only at e
    subst e
    obtain ⟨r, h3, h4, h5⟩ := lowerBound_found (id := id) h1 h2
    simp only [searchTypes, h3, Res.ok_bind]
    have hl' : ∀ x ∈ m, ∃ l, x.2 = arr l ∧ SortedById l ∧ ∀ a ∈ l, ∃ s, id? a = some s := fun x hx => hl x (by simp [hx])
    by_cases hex : ∃ o' ∈ l', id? o' = some id
    · obtain ⟨o', ho', hid'⟩ := hex
      obtain ⟨e1, e2⟩ := hu (t, arr l') (by simp) l' rfl o' ho' hid'
      simp only at e1
      subst e1 e2
      rw [h4 o' ho' hid']
      simp only [access_id hid', Res.ok_bind, if_true, hk]
    · have hm' : (type, arr l) ∈ m := by
        rcases List.mem_cons.mp hm with h | h
        · injection h with h6 h7
          injection h7 with h7
          subst h7
          exact absurd ⟨o, ho, hid⟩ hex
        · exact h
      have rest := ih hl' hm' fun x hx => hu x (by simp [hx])
      cases hr : l'[r]? with
      | none => exact rest
      | some o' =>
        have hne := h5 (fun o ho h => hex ⟨o, ho, h⟩) o' hr
        obtain ⟨s, hs⟩ := h2 o' (List.mem_of_getElem? hr)
        simp only [access_id hs, Res.ok_bind]
        rw [if_neg (fun e => hne (by rw [hs, e]))]
        exact rest

theorem searchTypes_nothing {κ : Type} {kindOf : String → Option κ} {id : String} {m : List (String × Json)} (hl : ∀ x ∈ m, ∃ l, x.2 = arr l ∧ SortedById l ∧
      ∀ a ∈ l, ∃ s, id? a = some s) (hu : ∀ x ∈ m, ∀ l', x.2 = arr l' → ∀ o' ∈ l', id? o' ≠ some id) :
    searchTypes kindOf id m = Res.ok .nothing := by
  induction m with
  | nil => rfl
  | cons x m ih =>
    obtain ⟨t, v⟩ := x
    obtain ⟨l', e, h1, h2⟩ := hl (t, v) (by simp)
    simp only at e
    subst e
    obtain ⟨r, h3, h4, h5⟩ := lowerBound_found (id := id) h1 h2
    have rest := ih (fun x hx => hl x (by simp [hx])) fun x hx => hu x (by simp [hx])
    simp only [searchTypes, h3, Res.ok_bind]
    cases hr : l'[r]? with
    | none => exact rest
    | some o' =>
      have hne := h5 (fun o ho => hu (t, arr l') (by simp) l' rfl o ho) o' hr
      obtain ⟨s, hs⟩ := h2 o' (List.mem_of_getElem? hr)
      simp only [access_id hs, Res.ok_bind]
      rw [if_neg (fun e => hne (by rw [hs, e]))]
      exact rest

theorem lookup_of_mem_nodup {m : List (String × Json)} (hn : (m.map Prod.fst).Nodup) {x : String × Json} (hx : x ∈ m) :
    m.lookup x.1 = some x.2 := by
  induction m with
  | nil => cases hx
  | cons y m ih =>
    simp only [List.map_cons, List.nodup_cons] at hn
    obtain ⟨k, w⟩ := y
    rw [Json.lookup_cons]
    rcases List.mem_cons.mp hx with rfl | hx
    · simp
    · have : x.1 ≠ k := fun e => hn.1 (List.mem_map.mpr ⟨x, hx, e⟩)
      rw [if_neg this]
      exact ih hn.2 hx

/-- The types of a class of a file of results. -/
theorem class_cases {j : Json} (hj : Good j) (cls : String) : (j.find? cls = none) ∨
    ∃ m, j.find? cls = some (obj m) ∧ ∀ x ∈ m, x.2 = arr (list j cls x.1) := by
  cases h : j.find? cls with
  | none => exact .inl rfl
  | some v =>
    rcases hj with rfl | ⟨m, rfl, h1, h2⟩
    · cases h
    · obtain ⟨ts, h3, h4, h5⟩ := h2 _ (mem_of_lookup h)
      simp only at h3
      subst h3
      refine .inr ⟨ts, rfl, fun x hx => ?_⟩
      obtain ⟨l, hl⟩ := h5 x hx
      have := lookup_of_mem_nodup h4 hx
      rw [hl] at this ⊢
      unfold list
      rw [h]
      simp [find?, this]

theorem mem_class {j : Json} {cls type : String} {o : Json} (h : o ∈ list j cls type) :
    ∃ m, j.find? cls = some (obj m) ∧ (type, arr (list j cls type)) ∈ m := by
  unfold list at h ⊢
  cases hf : j.find? cls with
  | none => rw [hf] at h; cases h
  | some v =>
    rw [hf] at h
    simp only [Option.bind_some] at h ⊢
    cases v with
    | obj m =>
      refine ⟨m, rfl, ?_⟩
      simp only [find?] at h ⊢
      cases hl : m.lookup type with
      | none => rw [hl] at h; cases h
      | some w =>
        rw [hl] at h
        cases w with
        | arr l => exact mem_of_lookup hl
        | _ => cases h
    | _ => simp [find?] at h

/-- The search finds the component with the id, if it is the only one. -/
theorem search_found {κ : Type} {kindOf : String → Option κ} {both : κ → κ → κ} {j : Json} (hj : Good j) (hs : SortedFile j) {cls type id : String} (hc : cls ∈ classes) {o : Json}
    (ho : o ∈ list j cls type) (hid : id? o = some id) {k : κ} (hk : kindOf type = some k)
    (hu : ∀ cls' ∈ classes, ∀ type' o', o' ∈ list j cls' type' → id? o' = some id → cls' = cls ∧ type' = type ∧ o' = o) :
    search kindOf both id j = Res.ok (.object o k) := by
  have here : searchClass kindOf id j cls = Res.ok (.object o k) := by
    obtain ⟨m, h1, h2⟩ := mem_class ho
    rcases class_cases hj cls with h | ⟨m', h3, h4⟩
    · rw [h] at h1; cases h1
    · rw [h1] at h3
      injection h3 with h3
      injection h3 with h3
      subst h3
      unfold searchClass
      rw [h1]
      refine searchTypes_found (fun x hx => ⟨_, h4 x hx, hs cls x.1⟩) h2 ho hid hk fun x hx l' hl' o' ho' hid' => ?_
      rw [h4 x hx] at hl'
      injection hl' with hl'
      subst hl'
      obtain ⟨-, e1, e2⟩ := hu cls hc x.1 o' ho' hid'
      exact ⟨e1, e2⟩
  have other : ∀ cls' ∈ classes, cls' ≠ cls → searchClass kindOf id j cls' = Res.ok .nothing := by
    intro cls' hc' hne
    unfold searchClass
    rcases class_cases hj cls' with h | ⟨m, h1, h2⟩
    · rw [h]
    · rw [h1]
      refine searchTypes_nothing (fun x hx => ⟨_, h2 x hx, hs cls' x.1⟩) fun x hx l' hl' o' ho' hid' => ?_
      rw [h2 x hx] at hl'
      injection hl' with hl'
      subst hl'
      exact hne (hu cls' hc' x.1 o' ho' hid').1
  unfold search
  simp only [classes, List.mem_cons, List.not_mem_nil, or_false] at hc
  rcases hc with rfl | rfl
  · rw [here, other "connections" (by simp [classes]) (by decide)]
    rfl
  · rw [here, other "nodes" (by simp [classes]) (by decide)]
    rfl

/-- Nothing is found if there is no component with the id. -/
theorem search_nothing {κ : Type} {kindOf : String → Option κ} {both : κ → κ → κ} {j : Json} (hj : Good j) (hs : SortedFile j) {id : String}
    (hu : ∀ cls ∈ classes, ∀ type o, o ∈ list j cls type → id? o ≠ some id) : search kindOf both id j = Res.ok .nothing := by
  have other : ∀ cls ∈ classes, searchClass kindOf id j cls = Res.ok .nothing := by
    intro cls hc
    unfold searchClass
    rcases class_cases hj cls with h | ⟨m, h1, h2⟩
    · rw [h]
    · rw [h1]
      refine searchTypes_nothing (fun x hx => ⟨_, h2 x hx, hs cls x.1⟩) fun x hx l' hl' o' ho' hid' => ?_
      rw [h2 x hx] at hl'
      injection hl' with hl'
      subst hl'
      exact hu cls hc x.1 o' ho' hid'
  unfold search
  rw [other "nodes" (by simp [classes]), Res.ok_bind, other "connections" (by simp [classes])]

/-! ## The tables -/

variable {K : Type} [Field K] [Printed K]

/-- The table of a gas component for one quantity: the positions on top, then a row for each time. -/
def gasTable (name : String) (positions : List K) (rows : List (K × List K)) : Csv where
  name := name
  header := .text "t-x" :: positions.map fun x => .value (number x)
  rows := rows.map fun r => .value (number r.1) :: r.2.map fun x => .value (number x)

/-- The table of a power node. -/
def powerTable (name : String) (rows : List (K × K × K × K × K)) : Csv where
  name := name
  header := [.text "time", .text "P", .text "Q", .text "V", .text "phi"]
  rows := rows.map fun r => [.value (number r.1), .value (number r.2.1), .value (number r.2.2.1), .value (number r.2.2.2.1),
    .value (number r.2.2.2.2)]

/-- An object with these keys, in this order. -/
def HasKeys (e : Json) (keys : List String) : Prop := ∃ m, e = obj m ∧ m.map Prod.fst = keys

theorem each_pair {α β : Type} {f : α → Res β} {a b : α} {x y : β} (h1 : f a = Res.ok x) (h2 : f b = Res.ok y) :
    Res.each [a, b] f = Res.ok [x, y] := by
  simp only [Res.each, h1, h2, Res.ok_bind]

theorem each_of_forall₂ {α β γ : Type} {R : α → β → Prop} {l : List α} {m : List β} (h : List.Forall₂ R l m) {f : β → Res γ}
    {g : α → γ} (hf : ∀ a b, R a b → f b = Res.ok (g a)) : Res.each m f = Res.ok (l.map g) := by
  induction h with
  | nil => rfl
  | cons h _ ih => simp only [Res.each, hf _ _ h, ih, Res.ok_bind, List.map_cons]

theorem access_find {o v : Json} {key : String} (h : o.find? key = some v) : access o key = Res.ok v := by
  cases o with
  | obj m => rw [access_obj, h]; rfl
  | _ => cases h

theorem access_data {o : Json} {l : List Json} (h : o.find? "data" = some (arr l)) (hne : l ≠ []) : dataOf o = Res.ok l := by
  unfold dataOf
  rw [access_find h, Res.ok_bind]
  cases l with
  | nil => exact absurd rfl hne
  | cons => rfl

omit [Field K] in
theorem gasCells_eq {step : Json} {key : String} {l : List (K × K)} (h : Lists step key l) :
    gasCells step key "x" = Res.ok (l.map fun x => .value (number x.1)) ∧
      gasCells step key "value" = Res.ok (l.map fun x => .value (number x.2)) := by
  obtain ⟨js, h1, h2⟩ := h
  unfold gasCells
  rw [access_find h1, Res.ok_bind, Res.ok_bind]
  have h3 : List.Forall₂ (fun (x : K × K) j => IsValue j x) l js := h2.flip
  exact ⟨each_of_forall₂ h3 fun x j hj => by rw [access_find hj.1]; rfl,
    each_of_forall₂ h3 fun x j hj => by rw [access_find hj.2]; rfl⟩

/-- What an entry of a gas component must show for a row: the time, and flow and pressure at all positions. -/
def GasRow (positions : List K) (r : K × List K × List K) (e : Json) : Prop :=
  HasKeys e ["flow", "pressure", "time"] ∧ e.find? "time" = some (number r.1) ∧
  Lists e "flow" (positions.zip r.2.1) ∧ Lists e "pressure" (positions.zip r.2.2) ∧
  r.2.1.length = positions.length ∧ r.2.2.length = positions.length

omit [Field K] in
theorem gasRow_cells {positions : List K} {r : K × List K × List K} {e : Json} (h : GasRow positions r e) :
    (gasCells e "flow" "x" = Res.ok (positions.map fun x => .value (number x)) ∧
      gasCells e "flow" "value" = Res.ok (r.2.1.map fun x => .value (number x))) ∧
    gasCells e "pressure" "x" = Res.ok (positions.map fun x => .value (number x)) ∧
      gasCells e "pressure" "value" = Res.ok (r.2.2.map fun x => .value (number x)) := by
  obtain ⟨-, -, h1, h2, h3, h4⟩ := h
  have mapFst : ∀ l : List K, l.length = positions.length →
      ((positions.zip l).map fun x => Cell.value (number x.1)) = positions.map fun x => .value (number x) := by
    intro l h
    conv_rhs => rw [← List.map_fst_zip (l₁ := positions) (l₂ := l) (by omega), List.map_map]
    rfl
  have mapSnd : ∀ l : List K, l.length = positions.length →
      ((positions.zip l).map fun x => Cell.value (number x.2)) = l.map fun x => .value (number x) := by
    intro l h
    conv_rhs => rw [← List.map_snd_zip (l₁ := positions) (l₂ := l) (by omega), List.map_map]
    rfl
  obtain ⟨a, b⟩ := gasCells_eq h1
  obtain ⟨c, d⟩ := gasCells_eq h2
  rw [mapFst _ h3] at a
  rw [mapSnd _ h3] at b
  rw [mapFst _ h4] at c
  rw [mapSnd _ h4] at d
  exact ⟨⟨a, b⟩, c, d⟩

omit [Field K] in
/-- The tables of a gas component. -/
theorem gasCsv_eq {inRoot : String → Bool} {id : String} {positions : List K} {rows : List (K × List K × List K)}
    (hne : rows ≠ []) (h1 : inRoot (id ++ "_flow.csv") = true) (h2 : inRoot (id ++ "_pressure.csv") = true) {o : Json}
    {es : List Json} (ho : o.find? "data" = some (arr es)) (hes : List.Forall₂ (GasRow positions) rows es) :
    gasCsv inRoot id o = Res.ok [gasTable (id ++ "_flow.csv") positions (rows.map fun r => (r.1, r.2.1)),
      gasTable (id ++ "_pressure.csv") positions (rows.map fun r => (r.1, r.2.2))] := by
  have n1 : id ++ "_" ++ "flow" ++ ".csv" = id ++ "_flow.csv" := by rw [String.append_assoc, String.append_assoc]; rfl
  have n2 : id ++ "_" ++ "pressure" ++ ".csv" = id ++ "_pressure.csv" := by rw [String.append_assoc, String.append_assoc]; rfl
  cases hes with
  | nil => exact absurd rfl hne
  | @cons r0 e0 rows es h0 hes =>
    have all := List.Forall₂.cons h0 hes
    unfold gasCsv
    rw [access_data ho (by simp), Res.ok_bind, show Res.get (e0 :: es) 0 = Res.ok e0 from rfl, Res.ok_bind]
    obtain ⟨⟨c1, -⟩, c2, -⟩ := gasRow_cells h0
    obtain ⟨⟨m, rfl, hk⟩, -⟩ := h0
    have hq : ∃ v w, quantities (obj m) = Res.ok [("flow", v), ("pressure", w)] := by
      match m, hk with
      | [(_, v), (_, w), (_, t)], hk =>
        simp only [List.map_cons, List.map_nil, List.cons.injEq, and_true] at hk
        obtain ⟨rfl, rfl, rfl⟩ := hk
        exact ⟨v, w, rfl⟩
    obtain ⟨v, w, hq⟩ := hq
    rw [hq, Res.ok_bind]
    have rowsFlow := each_of_forall₂ all (f := fun step => do
        let t ← access step "time"
        let cells ← gasCells step "flow" "value"
        Res.ok (Cell.value t :: cells)) (g := fun r => .value (number r.1) :: r.2.1.map fun x => .value (number x))
      fun r e hr => by rw [access_find hr.2.1, Res.ok_bind, (gasRow_cells hr).1.2, Res.ok_bind]
    have rowsPressure := each_of_forall₂ all (f := fun step => do
        let t ← access step "time"
        let cells ← gasCells step "pressure" "value"
        Res.ok (Cell.value t :: cells)) (g := fun r => .value (number r.1) :: r.2.2.map fun x => .value (number x))
      fun r e hr => by rw [access_find hr.2.1, Res.ok_bind, (gasRow_cells hr).2.2, Res.ok_bind]
    refine each_pair ?_ ?_
    · simp only [n1, h1, if_true, c1, rowsFlow, Res.ok_bind, gasTable, List.map_map, Function.comp_def]
    · simp only [n2, h2, if_true, c2, rowsPressure, Res.ok_bind, gasTable, List.map_map, Function.comp_def]

/-- What an entry of a power node must show for a row. -/
def PowerRow (r : K × K × K × K × K) (e : Json) : Prop :=
  HasKeys e ["P", "Q", "V", "phi", "time"] ∧ e.find? "time" = some (number r.1) ∧ e.find? "P" = some (number r.2.1) ∧
  e.find? "Q" = some (number r.2.2.1) ∧ e.find? "V" = some (number r.2.2.2.1) ∧ e.find? "phi" = some (number r.2.2.2.2)

omit [Field K] in
theorem powerRow_quantities {r : K × K × K × K × K} {e : Json} (h : PowerRow r e) : quantities e =
    Res.ok [("P", number r.2.1), ("Q", number r.2.2.1), ("V", number r.2.2.2.1), ("phi", number r.2.2.2.2)] := by
  obtain ⟨⟨m, rfl, hk⟩, -, h1, h2, h3, h4⟩ := h
  match m, hk with
  | [(_, a), (_, b), (_, c), (_, d), (_, t)], hk =>
    simp only [List.map_cons, List.map_nil, List.cons.injEq, and_true] at hk
    obtain ⟨rfl, rfl, rfl, rfl, rfl⟩ := hk
    injection h1 with h1
    injection h2 with h2
    injection h3 with h3
    injection h4 with h4
    subst h1 h2 h3 h4
    rfl

omit [Field K] in
/-- The table of a power node. -/
theorem powerCsv_eq {inRoot : String → Bool} {id : String} {rows : List (K × K × K × K × K)} (hne : rows ≠ [])
    (h1 : inRoot (id ++ ".csv") = true) {o : Json} {es : List Json} (ho : o.find? "data" = some (arr es))
    (hes : List.Forall₂ PowerRow rows es) : powerCsv inRoot id o = Res.ok [powerTable (id ++ ".csv") rows] := by
  cases hes with
  | nil => exact absurd rfl hne
  | @cons r0 e0 rows es h0 hes =>
    have all := List.Forall₂.cons h0 hes
    unfold powerCsv
    rw [if_pos h1, access_data ho (by simp), Res.ok_bind, show Res.get (e0 :: es) 0 = Res.ok e0 from rfl, Res.ok_bind,
      powerRow_quantities h0, Res.ok_bind, each_of_forall₂ all (g := fun r => [.value (number r.1), .value (number r.2.1),
        .value (number r.2.2.1), .value (number r.2.2.2.1), .value (number r.2.2.2.2)])]
    · rfl
    · intro r e hr
      rw [access_find hr.2.1, Res.ok_bind, powerRow_quantities hr, Res.ok_bind]
      rfl

/-! ## Keys of the entries -/

omit [Field K] in
theorem gasEntry_keys {time : K} {points : List (K × K × K)} (hne : points ≠ []) {e : Json} (h : gasEntry time points = Res.ok e) :
    HasKeys e ["flow", "pressure", "time"] := by
  have step : ∀ (l : List (K × K × K)) (fs ps : List Json) (t : Json), ∃ fs' ps',
      Res.fold l (obj [("flow", arr fs), ("pressure", arr ps), ("time", t)]) (fun j x => do
        let p ← valueAt x.1 x.2.1
        let j ← pushTo j "pressure" p
        let q ← valueAt x.1 x.2.2
        pushTo j "flow" q) = Res.ok (obj [("flow", arr fs'), ("pressure", arr ps'), ("time", t)]) := by
    intro l
    induction l with
    | nil => intro fs ps t; exact ⟨fs, ps, rfl⟩
    | cons x l ih => intro fs ps t; exact ih _ _ _
  cases points with
  | nil => exact absurd rfl hne
  | cons x l =>
    obtain ⟨fs', ps', h1⟩ := step l [obj [("value", number x.2.2), ("x", number x.1)]]
      [obj [("value", number x.2.1), ("x", number x.1)]] (number time)
    have h2 : gasEntry time (x :: l) = Res.ok (obj [("flow", arr fs'), ("pressure", arr ps'), ("time", number time)]) := h1
    rw [h2] at h
    injection h with h
    exact ⟨_, h.symm, rfl⟩

omit [Field K] in
theorem powerEntry_keys {time V phi P Q : K} {e : Json} (h : powerEntry time V phi [("P", P), ("Q", Q)] = Res.ok e) :
    HasKeys e ["P", "Q", "V", "phi", "time"] := by
  have e1 : (null : Json).set "time" (number time) = Res.ok (obj [("time", number time)]) := rfl
  have e2 : (obj [("time", number time)]).set "P" (number P) = Res.ok (obj [("P", number P), ("time", number time)]) := rfl
  have e3 : (obj [("P", number P), ("time", number time)]).set "Q" (number Q) =
    Res.ok (obj [("P", number P), ("Q", number Q), ("time", number time)]) := rfl
  have e4 : (obj [("P", number P), ("Q", number Q), ("time", number time)]).set "V" (number V) =
    Res.ok (obj [("P", number P), ("Q", number Q), ("V", number V), ("time", number time)]) := rfl
  have e5 : (obj [("P", number P), ("Q", number Q), ("V", number V), ("time", number time)]).set "phi" (number phi) =
    Res.ok (obj [("P", number P), ("Q", number Q), ("V", number V), ("phi", number phi), ("time", number time)]) := rfl
  simp only [powerEntry, e1, Res.ok_bind, Res.fold, e2, e3, e4, e5] at h
  injection h with h
  exact ⟨_, h.symm, rfl⟩

/-! ## What is in the file, exactly -/

/-- The json of a component: its id and what it saves. -/
def IsSaved (saves : List (K × List K)) (c : Component K) (o : Json) : Prop :=
  o.find? "id" = some (str c.id) ∧ ∃ es, o.find? "data" = some (arr es) ∧
    List.Forall₂ (fun s e => saveEntry c s.1 s.2 = Res.ok e) saves es

theorem saveAll_saved {os os' : List (Component K × Json)} {done : List (K × List K)} {s : K × List K}
    (h : saveAll os s = Res.ok os') (hd : ∀ o ∈ os, IsSaved done o.1 o.2) :
    os'.map Prod.fst = os.map Prod.fst ∧ ∀ o ∈ os', IsSaved (done ++ [s]) o.1 o.2 := by
  unfold saveAll at h
  induction os generalizing os' with
  | nil =>
    injection h with h
    subst h
    exact ⟨rfl, by simp⟩
  | cons o os ih =>
    rw [Res.each] at h
    obtain ⟨o', h1, h⟩ := Res.bind_eq_ok.mp h
    obtain ⟨l, h2, h⟩ := Res.bind_eq_ok.mp h
    injection h with h
    subst h
    obtain ⟨h3, h4⟩ := ih h2 fun o ho => hd o (by simp [ho])
    obtain ⟨e, h5, h1⟩ := Res.bind_eq_ok.mp h1
    obtain ⟨j, h6, h1⟩ := Res.bind_eq_ok.mp h1
    injection h1 with h1
    subst h1
    obtain ⟨h7, es, h8, h9⟩ := hd o (by simp)
    refine ⟨by simp [h3], fun o'' ho => ?_⟩
    rcases List.mem_cons.mp ho with rfl | ho
    · obtain ⟨c, w⟩ := o
      cases w with
      | obj m =>
        obtain ⟨m', e1, e2, e3⟩ := pushTo_spec (.inl h8) e
        simp only at h6
        rw [e1] at h6
        injection h6 with h6
        subst h6
        exact ⟨by rw [e3 _ (by decide)]; exact h7, es ++ [e], e2, List.rel_append h9 (.cons h5 .nil)⟩
      | _ => cases h8
    · exact h4 o'' ho

theorem fold_saved {saves done : List (K × List K)} {os os' : List (Component K × Json)}
    (h : Res.fold saves os saveAll = Res.ok os') (hd : ∀ o ∈ os, IsSaved done o.1 o.2) :
    os'.map Prod.fst = os.map Prod.fst ∧ ∀ o ∈ os', IsSaved (done ++ saves) o.1 o.2 := by
  induction saves generalizing done os with
  | nil =>
    injection h with h
    subst h
    exact ⟨rfl, by simpa using hd⟩
  | cons s saves ih =>
    rw [Res.fold] at h
    obtain ⟨os1, h1, h2⟩ := Res.bind_eq_ok.mp h
    obtain ⟨h3, h4⟩ := saveAll_saved h1 hd
    obtain ⟨h5, h6⟩ := ih h2 h4
    exact ⟨h5.trans h3, by simpa using h6⟩

/-- A file that has been written: its form, and what it lists. -/
theorem statesJson_saved {cs : List (Component K)} {saves : List (K × List K)} {j : Json} (h : statesJson cs saves = Res.ok j) :
    Good j ∧ ∀ cls type, List.Forall₂ (IsSaved saves) (cs.filter fun c => c.cls = cls ∧ c.type = type) (list j cls type) := by
  unfold statesJson at h
  obtain ⟨os, h1, h⟩ := Res.bind_eq_ok.mp h
  obtain ⟨os', h2, h3⟩ := Res.bind_eq_ok.mp h
  have setup : os.map Prod.fst = cs ∧ ∀ o ∈ os, IsSaved [] o.1 o.2 := by
    clear * - h1
    induction cs generalizing os with
    | nil =>
      injection h1 with h1
      subst h1
      exact ⟨rfl, by simp⟩
    | cons c cs ih =>
      rw [Res.each] at h1
      obtain ⟨o, h4, h1⟩ := Res.bind_eq_ok.mp h1
      obtain ⟨l, h5, h1⟩ := Res.bind_eq_ok.mp h1
      injection h1 with h1
      subst h1
      have hc : setupOutput c = Res.ok (obj [("data", arr []), ("id", str c.id)]) := rfl
      rw [hc, Res.ok_bind] at h4
      injection h4 with h4
      subst h4
      obtain ⟨h6, h7⟩ := ih _ h5
      refine ⟨by simp [h6], fun o ho => ?_⟩
      rcases List.mem_cons.mp ho with rfl | ho
      · exact ⟨rfl, [], rfl, .nil⟩
      · exact h7 o ho
  obtain ⟨h4, h5⟩ := fold_saved h2 setup.2
  obtain ⟨j', h6, h7, h8⟩ := fold_addResult (os := os') (j := null) (.inl rfl)
  rw [h3] at h6
  injection h6 with h6
  subst h6
  refine ⟨h7, fun cls type => ?_⟩
  rw [h8, show list null cls type = [] from rfl, List.nil_append, ← setup.1, ← h4]
  exact forall₂_filter_map (R := IsSaved saves) h5 fun c => decide (c.cls = cls ∧ c.type = type)

end Verif.Output
