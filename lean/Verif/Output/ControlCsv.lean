import Verif.Output.Csv
import Verif.Output.Controls

/-!
# Exporting controls as csv files

Source: `/repo/helper_functions/generate_control_printing_csv.cpp`. The program looks for a component in a file of controls, by bisection
as in `Verif.Output.Csv`, and writes its controls to a file.
-/

set_option autoImplicit false

namespace Verif.Output

open Verif.Json Verif.Interp

/-! ## Model -/

/-- `controltypes` — 38, as it is used in 65-78. There is only one kind of controls. -/
def controlKind (type : String) : Option Unit :=
  if type ∈ ["Controlvalve", "Compressorstation"] then some () else none

/-- Writing — 90-125. If the values are no list, or one of them is no number, the file is removed and the program ends with an error; as
for exceptions the result is `Res.throws` then. (Files that have been begun before an exception are left out.) -/
def controlTableOf (inRoot : String → Bool) (id : String) (object : Json) : Res Csv :=
  if inRoot (id ++ ".csv") then do
    let data ← dataOf object
    let first ← Res.get data 0
    let values ← access first "values"
    match values with
    | arr l => do
      let rows ← Res.each data fun step => do
        let t ← access step "time"
        let v ← access step "values"
        let cells ← Res.each v.elements fun x =>
          match x with
          | num _ => Res.ok (Cell.value x)
          | _ => Res.throws
        Res.ok (Cell.value t :: cells)
      Res.ok ⟨id ++ ".csv", .text "time" :: (List.range l.length).map fun i => .text s!"control_{i}", rows⟩
    | _ => Res.throws
  else Res.throws

/-- The program — 18-132: the file it writes, or nothing if it ends with an error. The object that is found in the second class replaces
the one that is found in the first. -/
def controlCsv (inRoot : String → Bool) (input : Json) (id : String) : Res (Option Csv) := do
  let found ← search controlKind (fun _ k => k) id input
  match found with
  | .nothing => Res.ok none
  | .unknown => Res.ok none
  | .object o _ =>
    match controlTableOf inRoot id o with
    | Res.ok file => Res.ok (some file)
    | Res.throws => Res.ok none
    | Res.ub => Res.ub

/-! ## Specification -/

/-- The table of a component with one control: a row for each time, with the time and the control. -/
def controlTable {K : Type} [Printed K] (name : String) (rows : List (K × K)) : Csv where
  name := name
  header := [.text "time", .text "control_0"]
  rows := rows.map fun r => [.value (number r.1), .value (number r.2)]

/-- The entry of a file of controls for a time and the control at this time. -/
def ControlRow {K : Type} [Printed K] (r : K × K) (e : Json) : Prop :=
  e.find? "time" = some (number r.1) ∧ e.find? "values" = some (arr [number r.2])

/-! ## Proofs -/

/-- The table of a component. -/
theorem controlTableOf_eq {K : Type} [Printed K] {inRoot : String → Bool} {id : String} {rows : List (K × K)} (hne : rows ≠ [])
    (hr : inRoot (id ++ ".csv") = true) {o : Json} {es : List Json} (ho : o.find? "data" = some (arr es))
    (hes : List.Forall₂ ControlRow rows es) :
    controlTableOf inRoot id o = Res.ok (controlTable (id ++ ".csv") rows) := by
  cases hes with
  | nil => exact absurd rfl hne
  | @cons r0 e0 rows es h0 hes =>
    have all := List.Forall₂.cons h0 hes
    unfold controlTableOf
    rw [if_pos hr, access_data ho (by simp), Res.ok_bind, show Res.get (e0 :: es) 0 = Res.ok e0 from rfl, Res.ok_bind,
      access_find h0.2, Res.ok_bind]
    simp only
    rw [each_of_forall₂ all (g := fun r => [Cell.value (number r.1), Cell.value (number r.2)]) fun r e h => by
      rw [access_find h.1, Res.ok_bind, access_find h.2]; rfl]
    rfl

theorem forall₂_right {α β : Type*} {R : α → β → Prop} {l : List α} {l' : List β} (h : List.Forall₂ R l l') {b : β}
    (hb : b ∈ l') : ∃ a ∈ l, R a b := by
  induction h with
  | nil => cases hb
  | cons h1 _ ih =>
    rcases List.mem_cons.mp hb with rfl | hb
    · exact ⟨_, by simp, h1⟩
    · obtain ⟨a, ha, hr⟩ := ih hb
      exact ⟨a, by simp [ha], hr⟩

/-- C133, whatever the file. If a table is written, its file is in the current directory and bears the id, and the cells of a row after the
first one are numbers. What is wrong with the entry that is found makes the program end with an error of its own, not with an
exception. -/
theorem C133_numbers (inRoot : String → Bool) (input : Json) (id : String) :
    (∀ t, controlCsv inRoot input id = Res.ok (some t) → t.name = id ++ ".csv" ∧ inRoot (id ++ ".csv") = true ∧
      ∀ row ∈ t.rows, ∃ time cells, row = time :: cells ∧ ∀ c ∈ cells, ∃ x, c = Cell.value (num x)) ∧
    (controlCsv inRoot input id = Res.throws → search controlKind (fun _ k => k) id input = Res.throws) := by
  constructor
  · intro t h
    unfold controlCsv at h
    obtain ⟨found, -, h⟩ := Res.bind_eq_ok.mp h
    cases found with
    | nothing => simp at h
    | unknown => simp at h
    | object o k =>
      simp only at h
      cases ht : controlTableOf inRoot id o with
      | throws => rw [ht] at h; simp at h
      | ub => rw [ht] at h; simp at h
      | ok file =>
        rw [ht] at h
        simp only [Res.ok.injEq, Option.some.injEq] at h
        subst h
        unfold controlTableOf at ht
        split_ifs at ht with hr
        obtain ⟨data, -, ht⟩ := Res.bind_eq_ok.mp ht
        obtain ⟨first, -, ht⟩ := Res.bind_eq_ok.mp ht
        obtain ⟨values, -, ht⟩ := Res.bind_eq_ok.mp ht
        cases values with
        | arr l =>
          simp only at ht
          obtain ⟨rows, hrows, ht⟩ := Res.bind_eq_ok.mp ht
          injection ht with ht
          subst ht
          refine ⟨rfl, hr, fun row hrow => ?_⟩
          have := Res.each_eq_ok.mp hrows
          obtain ⟨step, -, hstep⟩ := forall₂_right this hrow
          obtain ⟨time, -, hstep⟩ := Res.bind_eq_ok.mp hstep
          obtain ⟨v, -, hstep⟩ := Res.bind_eq_ok.mp hstep
          obtain ⟨cells, hcells, hstep⟩ := Res.bind_eq_ok.mp hstep
          injection hstep with hstep
          subst hstep
          refine ⟨_, _, rfl, fun c hc => ?_⟩
          obtain ⟨x, -, hx⟩ := forall₂_right (Res.each_eq_ok.mp hcells) hc
          cases x with
          | num q => injection hx with hx; exact ⟨q, hx.symm⟩
          | _ => cases hx
        | _ => cases ht
  · intro h
    unfold controlCsv at h
    cases hs : search controlKind (fun _ k => k) id input with
    | throws => rfl
    | ub => rw [hs] at h; cases h
    | ok found =>
      rw [hs, Res.ok_bind] at h
      cases found with
      | nothing => cases h
      | unknown => cases h
      | object o k =>
        simp only at h
        cases ht : controlTableOf inRoot id o <;> rw [ht] at h <;> cases h

/-- A text among the controls is no table, numbers are. -/
example :
    controlTableOf (fun _ => true) "c" (obj [("data", arr [obj [("time", num 0), ("values", arr [str "high"])]])]) = Res.throws ∧
    controlTableOf (fun _ => true) "c" (obj [("data", arr [obj [("time", num 0), ("values", arr [num 3, num 4])]])]) =
      Res.ok ⟨"c.csv", [.text "time", .text "control_0", .text "control_1"], [[.value (num 0), .value (num 3), .value (num 4)]]⟩ :=
  ⟨rfl, rfl⟩

end Verif.Output
