import Verif.Helpers.ScaleProps
import Verif.Helpers.Print

/-!
# The program that turns numbers into texts (C156)

Source: `/repo/helper_functions/stringify_value_json.cpp`. Reading the arguments, asking before a file is overwritten, parsing
and printing json texts is not modelled.
-/

set_option autoImplicit false

namespace Verif.Helpers

open Verif.Json Verif.Schema Edit

/-! ## Model -/

/-- `get<std::vector<double>>()` — `stringify_value_json.cpp` 50: an exception for everything but an array of numbers. -/
def getVector : Json → Res (List ℚ)
  | arr l => l.foldr (fun j r => do
      let q ← getNum j
      let qs ← r
      Res.ok (q :: qs)) (Res.ok [])
  | _ => Res.throws

/-- The texts — `stringify_value_json.cpp` 55-58, with nine decimals, the default in `Misc.hpp` 23. -/
def texts (values : List ℚ) : Json := arr (values.map fun q => str (String.ofList (toStringPrecise q 9)))

/-- One data point — `stringify_value_json.cpp` 48-59. -/
def stringifyPoint : Edit Unit :=
  andThen (key "values" (reading getVector)) fun values => key "values" (assign (texts values))

/-- One round of the outer loop — `stringify_value_json.cpp` 41-62. -/
def stringifyKind (kind : String) : Edit Unit :=
  andThen (reading fun j => Res.ok (j.contains kind)) fun there =>
    if there then key kind (each (each (key "data" (each stringifyPoint)))) else reading fun _ => Res.ok ()

/-- The program — `stringify_value_json.cpp` 40-65: the contents of the new file. An exception ends the program before the file
is opened. -/
def stringify (file : Json) : Res Json :=
  match over ["nodes", "connections"] stringifyKind file with
  | (file', Res.ok _) => Res.ok file'
  | (_, Res.throws) => Res.throws
  | (_, Res.ub) => Res.ub

/-! ## Specification -/

/-- The place of the values of data point number `k` of component number `i` of a type. -/
def valuesPlace (kind type : String) (i k : ℕ) : List Step :=
  [.at kind, .at type, .nth i, .at "data", .nth k, .at "values"]

/-- Where there are nodes (or connections) in a file, they are lists of components by types, each type at most once; each
component has a list of data points and each data point has a list of numbers. -/
def KindHasValues (file : Json) (kind : String) : Prop :=
  ∀ v, value? file [.at kind] = some v → ∃ types, v = obj types ∧ (types.map Prod.fst).Nodup ∧
    ∀ t ∈ types, ∃ components, t.2 = arr components ∧ ∀ c ∈ components, ∃ points, value? c [.at "data"] = some (arr points) ∧
      ∀ p ∈ points, ∃ values : List ℚ, value? p [.at "values"] = some (arr (values.map num))

/-- A file of values: an object, and wherever there are values of nodes and connections they are numbers. -/
def HasValues (file : Json) : Prop :=
  (∃ m, file = obj m) ∧ ∀ kind ∈ ["nodes", "connections"], KindHasValues file kind

/-! ## Proofs -/

theorem getVector_num (values : List ℚ) : getVector (arr (values.map num)) = Res.ok values := by
  unfold getVector
  induction values with
  | nil => rfl
  | cons q l ih =>
    simp only [List.map_cons, List.foldr_cons] at ih ⊢
    rw [ih]; rfl

theorem getVector_ok {j : Json} {values : List ℚ} (h : getVector j = Res.ok values) : j = arr (values.map num) := by
  have key : ∀ (l : List Json) (values : List ℚ), l.foldr (fun j r => do
      let q ← getNum j
      let qs ← r
      Res.ok (q :: qs)) (Res.ok []) = Res.ok values → l = values.map num := by
    intro l
    induction l with
    | nil => intro values h; simp only [List.foldr_nil, Res.ok.injEq] at h; simp [← h]
    | cons j l ih =>
      intro values h
      rw [List.foldr_cons] at h
      obtain ⟨q, hq, h⟩ := Res.bind_eq_ok.mp h
      obtain ⟨qs, hqs, h⟩ := Res.bind_eq_ok.mp h
      simp only [Res.ok.injEq] at h
      subst h
      rw [ih qs hqs]
      match j, hq with
      | num r, hq => simp only [getNum, Res.ok.injEq] at hq; simp [hq]
  match j, h with
  | arr l, h => exact congrArg arr (key l values h)

/-- New values at places of a shape: texts instead of numbers. -/
def NewTexts (shape : List Step → Prop) (j : Json) (P : List Step) (w : Json) : Prop :=
  shape P ∧ ∃ values : List ℚ, value? j P = some (arr (values.map num)) ∧ w = texts values

theorem acts_key_texts {f : Edit Unit} {k : String} {j v : Json} {shape : List Step → Prop} (h : value? j [.at k] = some v)
    (hf : Acts f v (NewTexts shape v)) : Acts (key k f) j (NewTexts (fun Q => ∃ R, Q = .at k :: R ∧ shape R) j) := by
  refine (acts_reach (P := [.at k]) h hf).congr fun P w => ⟨?_, ?_⟩
  · rintro ⟨R, rfl, hs, values, hv, rfl⟩
    exact ⟨⟨R, rfl, hs⟩, values, by rw [value_append h]; exact hv, rfl⟩
  · rintro ⟨⟨R, rfl, hs⟩, values, hv, rfl⟩
    refine ⟨R, rfl, hs, values, ?_, rfl⟩
    rw [← List.singleton_append, value_append h] at hv
    exact hv

theorem acts_each_texts {f : Edit Unit} {l : List Json} {shape : List Step → Prop}
    (h : ∀ x ∈ l, Acts f x (NewTexts shape x)) :
    Acts (each f) (arr l) (NewTexts (fun Q => ∃ i R, Q = .nth i :: R ∧ shape R) (arr l)) := by
  refine (acts_each (S := fun i R w => ∃ x, l[i]? = some x ∧ NewTexts shape x R w) fun i x hx =>
    (h x (List.mem_of_getElem? hx)).congr fun P w => ⟨fun hP => ⟨x, hx, hP⟩, ?_⟩).congr fun P w => ⟨?_, ?_⟩
  · rintro ⟨y, hy, hP⟩
    rw [hx] at hy; cases hy; exact hP
  · rintro ⟨i, R, hi, rfl, x, hx, hs, values, hv, rfl⟩
    exact ⟨⟨i, R, rfl, hs⟩, values, by simpa [value?, hx] using hv, rfl⟩
  · rintro ⟨⟨i, R, rfl, hs⟩, values, hv, rfl⟩
    obtain ⟨l', x, hl, hx, hv⟩ := get_of_value hv
    cases hl
    exact ⟨i, R, (List.getElem?_eq_some_iff.mp hx).1, rfl, x, hx, hs, values, hv, rfl⟩

theorem each_obj {f : Edit Unit} {m : List (String × Json)} (h : ∀ x ∈ m, (f x.2).2 = Res.ok ()) :
    each f (obj m) = (obj (m.map fun x => (x.1, (f x.2).1)), Res.ok ()) := by
  have h' : ∀ x ∈ m.map Prod.snd, (f x).2 = Res.ok () := fun x hx => by
    obtain ⟨y, hy, rfl⟩ := List.mem_map.mp hx
    exact h y hy
  simp only [each, eachOf_ok h']
  congr 2
  rw [List.map_map, List.zip_map']
  rfl

theorem lookup_mapped (g : Json → Json) (m : List (String × Json)) (k : String) :
    (m.map fun x => (x.1, g x.2)).lookup k = (m.lookup k).map g := by
  induction m with
  | nil => rfl
  | cons x m ih =>
    obtain ⟨c, v⟩ := x
    rw [List.map_cons, lookup_cons, lookup_cons]
    split
    · rfl
    · exact ih

theorem mem_of_lookup {m : List (String × Json)} {k : String} {v : Json} (h : m.lookup k = some v) : (k, v) ∈ m := by
  induction m with
  | nil => simp at h
  | cons x m ih =>
    obtain ⟨c, w⟩ := x
    rw [lookup_cons] at h
    split at h
    · next hc => simp_all
    · exact List.mem_cons_of_mem _ (ih h)

theorem lookup_of_mem {m : List (String × Json)} (hn : (m.map Prod.fst).Nodup) {x : String × Json} (h : x ∈ m) :
    m.lookup x.1 = some x.2 := by
  induction m with
  | nil => simp at h
  | cons y m ih =>
    obtain ⟨c, w⟩ := y
    rw [List.map_cons, List.nodup_cons] at hn
    rw [lookup_cons]
    rcases List.mem_cons.mp h with rfl | h
    · simp
    · rw [if_neg, ih hn.2 h]
      intro e
      exact hn.1 (List.mem_map.mpr ⟨x, h, e⟩)

theorem acts_types_texts {f : Edit Unit} {m : List (String × Json)} {shape : List Step → Prop} (hn : (m.map Prod.fst).Nodup)
    (h : ∀ x ∈ m, Acts f x.2 (NewTexts shape x.2)) :
    Acts (each f) (obj m) (NewTexts (fun Q => ∃ k R, Q = .at k :: R ∧ shape R) (obj m)) := by
  have hl : ∀ (j v : Json) (k : String) (R : List Step), m.lookup k = some v → value? (obj m) (.at k :: R) = value? v R :=
    fun _ v k R hk => by simp [value?, hk]
  rw [Acts, each_obj fun x hx => (h x hx).1]
  refine ⟨rfl, ?_, fun p hp => ?_⟩
  · rintro P w ⟨⟨k, R, rfl, hs⟩, values, hv, rfl⟩
    obtain ⟨x, hx, hv⟩ := find_of_value hv
    have hx : m.lookup k = some x := hx
    have := (h _ (mem_of_lookup hx)).2.1 R _ ⟨hs, values, hv, rfl⟩
    simpa [value?, lookup_mapped (fun x => (f x).1), hx] using this
  · match p with
    | [] =>
      have hsame : ∀ x ∈ m, (x.1, (f x.2).1) = x := fun x hx => by
        refine Prod.ext rfl ((h x hx).same fun R w hR => ?_)
        obtain ⟨hs, values, hv, rfl⟩ := hR
        exact (hp (.at x.1 :: R) _ ⟨⟨x.1, R, rfl, hs⟩, values, by rw [hl null _ _ _ (lookup_of_mem hn hx)]; exact hv, rfl⟩).1
          List.nil_prefix
      simp only [value?]
      rw [List.map_congr_left hsame]; simp
    | .nth k :: p => simp [value?]
    | .at k :: p =>
      simp only [value?, lookup_mapped (fun x => (f x).1)]
      cases hk : m.lookup k with
      | none => rfl
      | some x =>
        refine (h _ (mem_of_lookup hk)).2.2 p fun R w hR => ?_
        obtain ⟨hs, values, hv, rfl⟩ := hR
        exact apart_cons.mp (hp (.at k :: R) _ ⟨⟨k, R, rfl, hs⟩, values, by rw [hl null _ _ _ hk]; exact hv, rfl⟩) rfl

theorem acts_point {p : Json} {values : List ℚ} (h : value? p [.at "values"] = some (arr (values.map num))) :
    Acts stringifyPoint p (NewTexts (fun Q => Q = [.at "values"]) p) := by
  have h1 := reach_value (f := reading getVector) h
  have h2 := reach_same (f := reading getVector) rfl h
  have he : stringifyPoint p = key "values" (assign (texts values)) p := by
    have : key "values" (reading getVector) p = (p, Res.ok values) := Prod.ext h2 (h1.1.trans (getVector_num values))
    simp only [stringifyPoint, andThen, this]
  have ha : Acts (assign (texts values)) (arr (values.map num)) (fun R w => R = [] ∧ w = texts values) := by
    refine ⟨rfl, ?_, fun p hp => ?_⟩
    · rintro P w ⟨rfl, rfl⟩; rfl
    · exact absurd List.nil_prefix (hp [] _ ⟨rfl, rfl⟩).2
  refine ((acts_reach (P := [.at "values"]) h ha).of_eq he).congr fun P w => ⟨?_, ?_⟩
  · rintro ⟨R, rfl, rfl, rfl⟩
    exact ⟨rfl, values, h, rfl⟩
  · rintro ⟨rfl, values', hv, rfl⟩
    rw [h] at hv
    have : values = values' := by
      simp only [Option.some.injEq, arr.injEq] at hv
      exact List.map_injective_iff.mpr (fun a b h => by injection h) hv
    exact ⟨[], rfl, rfl, by rw [this]⟩

/-- The places of values of nodes or connections. -/
def ofKind (kind : String) (P : List Step) : Prop := ∃ type i k, P = valuesPlace kind type i k

theorem acts_kind {m : List (String × Json)} {kind : String} (h : KindHasValues (obj m) kind) :
    Acts (stringifyKind kind) (obj m) (NewTexts (ofKind kind) (obj m)) := by
  cases hl : m.lookup kind with
  | none =>
    have he : stringifyKind kind (obj m) = (obj m, Res.ok ()) := by
      have : (obj m).contains kind = false := by simp [contains, find?, hl]
      simp [stringifyKind, andThen, reading, this]
    rw [Acts, he]
    refine ⟨rfl, ?_, fun _ _ => rfl⟩
    rintro P w ⟨⟨type, i, k, rfl⟩, values, hv, rfl⟩
    simp [valuesPlace, value?, hl] at hv
  | some v =>
    have hv : value? (obj m) [.at kind] = some v := by simp [value?, hl]
    obtain ⟨types, rfl, hn, ht⟩ := h v hv
    have he : stringifyKind kind (obj m) = key kind (each (each (key "data" (each stringifyPoint)))) (obj m) := by
      have : (obj m).contains kind = true := by simp [contains, find?, hl]
      simp [stringifyKind, andThen, reading, this]
    refine ((acts_key_texts hv (acts_types_texts (shape := fun P => ∃ i R, P = .nth i :: R ∧
      ∃ R', R = .at "data" :: R' ∧ ∃ k R'', R' = .nth k :: R'' ∧ R'' = [.at "values"]) hn fun t ht' => ?_)).of_eq he).congr
      fun P w => ?_
    · obtain ⟨components, hc, hcomp⟩ := ht t ht'
      rw [hc]
      refine acts_each_texts fun c hc => ?_
      obtain ⟨points, hp, hpoints⟩ := hcomp c hc
      refine acts_key_texts hp (acts_each_texts fun p hp => ?_)
      obtain ⟨values, hv⟩ := hpoints p hp
      exact acts_point hv
    · refine and_congr_left fun _ => ⟨?_, ?_⟩
      · rintro ⟨_, rfl, type, _, rfl, i, _, rfl, _, rfl, k, _, rfl, rfl⟩
        exact ⟨type, i, k, rfl⟩
      · rintro ⟨type, i, k, rfl⟩
        exact ⟨_, rfl, type, _, rfl, i, _, rfl, _, rfl, k, _, rfl, rfl⟩

theorem kinds_apart {kind kind' : String} (h : kind ≠ kind') {P Q : List Step} (hP : ofKind kind P) (hQ : ofKind kind' Q) :
    Apart P Q := by
  obtain ⟨type, i, k, rfl⟩ := hP
  obtain ⟨type', i', k', rfl⟩ := hQ
  simp [valuesPlace, apart_cons, h]

/-- **C156**, files of values: the program writes a new file in which the values of all data points of all nodes and connections
are the texts of the numbers, in the same order, and everything else is as in the old file. -/
theorem C156_file {file : Json} (h : HasValues file) :
    ∃ out, stringify file = Res.ok out ∧
      (∀ kind ∈ ["nodes", "connections"], ∀ (type : String) (i k : ℕ) (values : List ℚ),
        value? file (valuesPlace kind type i k) = some (arr (values.map num)) →
        value? out (valuesPlace kind type i k) =
          some (arr (values.map fun q => str (String.ofList (toStringPrecise q 9))))) ∧
      ∀ p, (∀ kind ∈ ["nodes", "connections"], ∀ (type : String) (i k : ℕ) (values : List ℚ),
        value? file (valuesPlace kind type i k) = some (arr (values.map num)) → Apart p (valuesPlace kind type i k)) →
        value? out p = value? file p := by
  obtain ⟨⟨m, rfl⟩, h⟩ := h
  have h1 := acts_kind (h "nodes" (by simp))
  have hobj : ∃ m', (stringifyKind "nodes" (obj m)).1 = obj m' := by
    simp only [stringifyKind, andThen, reading]
    split
    · exact ⟨_, rfl⟩
    · exact ⟨m, rfl⟩
  have hconn : ∀ p, value? (stringifyKind "nodes" (obj m)).1 (.at "connections" :: p) = value? (obj m) (.at "connections" :: p) :=
    fun p => h1.2.2 _ fun P w hP => by
      obtain ⟨type, i, k, rfl⟩ := hP.1
      simp [valuesPlace, apart_cons]
  have h2 : Acts (stringifyKind "connections") (stringifyKind "nodes" (obj m)).1
      (NewTexts (ofKind "connections") (stringifyKind "nodes" (obj m)).1) := by
    obtain ⟨m', hm⟩ := hobj
    rw [hm] at hconn ⊢
    exact acts_kind fun v hv => h "connections" (by simp) v (by rw [← hconn]; exact hv)
  have h2' : Acts (stringifyKind "connections") (stringifyKind "nodes" (obj m)).1 (NewTexts (ofKind "connections") (obj m)) := by
    refine h2.congr fun P w => and_congr_right fun hP => ?_
    obtain ⟨type, i, k, rfl⟩ := hP
    simp only [valuesPlace, hconn]
  have h3 : Acts (fun j => reading (fun _ => Res.ok ()) j) (stringifyKind "connections" (stringifyKind "nodes" (obj m)).1).1
      (fun _ _ => False) := ⟨rfl, fun _ _ h => h.elim, fun _ _ => rfl⟩
  have h23 := acts_andThen (g := fun _ => over [] stringifyKind) h2' h3 (fun _ _ _ _ _ h => h.elim)
  have hall : Acts (over ["nodes", "connections"] stringifyKind) (obj m) _ :=
    acts_andThen (g := fun _ => over ["connections"] stringifyKind) h1 h23 (by
      rintro P w Q v hP (hQ | hQ)
      · exact kinds_apart (by decide) hP.1 hQ.1
      · exact hQ.elim)
  obtain ⟨r1, r2, r3⟩ := hall
  have hrun : stringify (obj m) = Res.ok (over ["nodes", "connections"] stringifyKind (obj m)).1 := by
    unfold stringify
    generalize over ["nodes", "connections"] stringifyKind (obj m) = r at r1
    obtain ⟨f, r⟩ := r
    simp only at r1
    subst r1
    rfl
  refine ⟨_, hrun, fun kind hk type i k values hv => ?_, fun p hp => r3 p ?_⟩
  · rcases List.mem_cons.mp hk with rfl | hk
    · exact r2 _ _ (.inl ⟨⟨type, i, k, rfl⟩, values, hv, rfl⟩)
    · obtain rfl := List.mem_singleton.mp hk
      exact r2 _ _ (.inr (.inl ⟨⟨type, i, k, rfl⟩, values, hv, rfl⟩))
  · rintro P w (⟨⟨type, i, k, rfl⟩, values, hv, rfl⟩ | ⟨⟨type, i, k, rfl⟩, values, hv, rfl⟩ | hF)
    · exact hp "nodes" (by simp) type i k values hv
    · exact hp "connections" (by simp) type i k values hv
    · exact hF.elim

/-! ## Failure -/

theorem eachOf_inv {f : Edit Unit} {l : List Json} (h : (eachOf f l).2 = Res.ok ()) : ∀ x ∈ l, (f x).2 = Res.ok () := by
  induction l with
  | nil => simp
  | cons x l ih =>
    simp only [eachOf] at h
    generalize hf : f x = r at h
    obtain ⟨x', r⟩ := r
    match r, h with
    | Res.ok (), h =>
      intro y hy
      rcases List.mem_cons.mp hy with rfl | hy
      · rw [hf]
      · exact ih h y hy

theorem andThen_inv {α β : Type} {f : Edit α} {g : α → Edit β} {j : Json} {b : β} (h : (andThen f g j).2 = Res.ok b) :
    ∃ a, (f j).2 = Res.ok a ∧ (g a (f j).1).2 = Res.ok b ∧ (andThen f g j) = g a (f j).1 := by
  unfold andThen at h ⊢
  generalize f j = r at h ⊢
  obtain ⟨j', r⟩ := r
  match r, h with
  | Res.ok a, h => exact ⟨a, rfl, h, rfl⟩

theorem point_inv {p : Json} (h : (stringifyPoint p).2 = Res.ok ()) :
    ∃ values : List ℚ, value? p [.at "values"] = some (arr (values.map num)) := by
  obtain ⟨values, h1, -⟩ := andThen_inv h
  refine ⟨values, ?_⟩
  match p, h1 with
  | null, h1 => simp [key, reading, getVector] at h1
  | obj m, h1 =>
    simp only [key, reading] at h1
    have := getVector_ok h1
    cases hm : m.lookup "values" with
    | none => simp [hm] at this
    | some v => simpa [value?, hm] using this

theorem each_inv {f : Edit Unit} {j v : Json} {s : Step} (h : (each f j).2 = Res.ok ()) (hv : value? j [s] = some v) :
    (f v).2 = Res.ok () := by
  match s, hv with
  | .at k, hv =>
    obtain ⟨w, hw, hv⟩ := find_of_value hv
    obtain rfl : w = v := by simpa [value?] using hv
    match j, hw with
    | obj m, hw =>
      have hw : m.lookup k = some w := hw
      exact eachOf_inv h w (List.mem_map.mpr ⟨_, mem_of_lookup hw, rfl⟩)
  | .nth i, hv =>
    obtain ⟨l, w, rfl, hw, hv⟩ := get_of_value hv
    obtain rfl : w = v := by simpa [value?] using hv
    exact eachOf_inv h w (List.mem_of_getElem? hw)

theorem value_split {j v : Json} {s : Step} {p : List Step} (h : value? j (s :: p) = some v) :
    ∃ w, value? j [s] = some w ∧ value? w p = some v := by
  match s, h with
  | .at k, h =>
    obtain ⟨w, hw, h⟩ := find_of_value h
    exact ⟨w, by rw [find_value hw]; rfl, h⟩
  | .nth i, h =>
    obtain ⟨l, w, rfl, hw, h⟩ := get_of_value h
    exact ⟨w, by simp [value?, hw], h⟩

theorem kind_inv {file : Json} {kind : String} (h : (stringifyKind kind file).2 = Res.ok ()) {type : String} {i k : ℕ} {p : Json}
    (hp : value? file [.at kind, .at type, .nth i, .at "data", .nth k] = some p) :
    ∃ values : List ℚ, value? p [.at "values"] = some (arr (values.map num)) := by
  obtain ⟨v, hv, hp⟩ := value_split hp
  obtain ⟨v1, hv1, hp⟩ := value_split hp
  obtain ⟨v2, hv2, hp⟩ := value_split hp
  obtain ⟨v3, hv3, hp⟩ := value_split hp
  have hc : file.contains kind = true := by
    obtain ⟨w, hw, -⟩ := find_of_value hv
    simp [contains, hw]
  have h : (key kind (each (each (key "data" (each stringifyPoint)))) file).2 = Res.ok () := by
    simpa [stringifyKind, andThen, reading, hc] using h
  have h := (reach_value (P := [.at kind]) hv).1.symm.trans h
  have h := each_inv (each_inv h hv1) hv2
  have h := (reach_value (P := [.at "data"]) hv3).1.symm.trans h
  exact point_inv (each_inv h hp)

/-- **C156**, other files: if there is a data point of a node or a connection whose values are missing or not all numbers, no
file is written. -/
theorem C156_throws {file : Json} {kind type : String} {i k : ℕ} {p : Json} (hk : kind ∈ ["nodes", "connections"])
    (hp : value? file [.at kind, .at type, .nth i, .at "data", .nth k] = some p)
    (hbad : ∀ values : List ℚ, value? p [.at "values"] ≠ some (arr (values.map num))) :
    ∀ out, stringify file ≠ Res.ok out := by
  intro out h
  have hok : (over ["nodes", "connections"] stringifyKind file).2 = Res.ok () := by
    unfold stringify at h
    generalize over ["nodes", "connections"] stringifyKind file = r at h
    obtain ⟨f, r⟩ := r
    match r, h with
    | Res.ok (), _ => rfl
  obtain ⟨_, h1, h2, -⟩ := andThen_inv hok
  obtain ⟨_, h3, -⟩ := andThen_inv h2
  rcases List.mem_cons.mp hk with rfl | hk
  · obtain ⟨values, hv⟩ := kind_inv h1 hp
    exact hbad values hv
  · obtain rfl := List.mem_singleton.mp hk
    obtain ⟨v, hv, -⟩ := value_split hp
    have hother : value? (stringifyKind "nodes" file).1 [.at "connections", .at type, .nth i, .at "data", .nth k] = some p := by
      rw [← hp]
      obtain ⟨w, hw, -⟩ := find_of_value hv
      match file, hw with
      | obj m, _ =>
        simp only [stringifyKind, andThen, reading]
        split
        · simp only [key, value?, lookup_put, if_neg (show "connections" ≠ "nodes" by decide)]
        · rfl
    obtain ⟨values, hv⟩ := kind_inv h3 hother
    exact hbad values hv

/-- **C156**: a new file with at least one value is not converted again. -/
theorem C156_twice {file : Json} (h : HasValues file) {kind type : String} {i k : ℕ} {values : List ℚ}
    (hk : kind ∈ ["nodes", "connections"]) (hv : value? file (valuesPlace kind type i k) = some (arr (values.map num)))
    (hn : values ≠ []) : ∃ out, stringify file = Res.ok out ∧ ∀ out', stringify out ≠ Res.ok out' := by
  obtain ⟨out, h1, h2, -⟩ := C156_file h
  refine ⟨out, h1, ?_⟩
  have h3 := h2 kind hk type i k values hv
  obtain ⟨p, hp, hvalues⟩ : ∃ p, value? out [.at kind, .at type, .nth i, .at "data", .nth k] = some p ∧
      value? p [.at "values"] = some (arr (values.map fun q => str (String.ofList (toStringPrecise q 9)))) := by
    obtain ⟨v1, e1, h3⟩ := value_split h3
    obtain ⟨v2, e2, h3⟩ := value_split h3
    obtain ⟨v3, e3, h3⟩ := value_split h3
    obtain ⟨v4, e4, h3⟩ := value_split h3
    obtain ⟨v5, e5, h3⟩ := value_split h3
    refine ⟨v5, ?_, h3⟩
    rw [← List.singleton_append, value_append e1, ← List.singleton_append, value_append e2, ← List.singleton_append,
      value_append e3, ← List.singleton_append, value_append e4, e5]
  refine C156_throws hk hp fun values' h' => ?_
  rw [hvalues] at h'
  cases values with
  | nil => exact hn rfl
  | cons q l => cases values' <;> simp at h'

/-! ## Example -/

/-- A file of values. -/
def valueFile : Json := obj [
  ("info", str "test"),
  ("nodes", obj [("Source", arr [obj [("id", str "s"), ("data", arr [
    obj [("time", num 0), ("values", arr [num (5 / 2)])], obj [("time", num 60), ("values", arr [num (-3)])]])]])]),
  ("connections", obj [("Pipe", arr [obj [("id", str "p"), ("data", arr [
    obj [("x", num 0), ("values", arr [num 60, num (1 / 3)])]])]])])]

theorem valueFile_has : HasValues valueFile := by
  refine ⟨⟨_, rfl⟩, fun kind hk v hv => ?_⟩
  simp only [List.mem_cons, List.not_mem_nil, or_false] at hk
  rcases hk with rfl | rfl
  all_goals
    simp only [valueFile, value?, lookup_cons, List.lookup_nil] at hv
    simp at hv
    subst hv
    refine ⟨_, rfl, by decide, ?_⟩
    simp [value?, lookup_cons]
  · exact ⟨⟨[5 / 2], rfl⟩, ⟨[-3], rfl⟩⟩
  · exact ⟨[60, 3⁻¹], rfl⟩

/-- What the program makes of it. -/
example : ∃ out, stringify valueFile = Res.ok out ∧
    value? out (valuesPlace "nodes" "Source" 0 1) = some (arr [str "-3.000000000"]) ∧
    value? out (valuesPlace "connections" "Pipe" 0 0) = some (arr [str "60.000000000", str "0.333333333"]) ∧
    value? out [.at "info"] = some (str "test") ∧ ∀ out', stringify out ≠ Res.ok out' := by
  obtain ⟨out, h1, h2, h3⟩ := C156_file valueFile_has
  obtain ⟨out', h1', h4⟩ := C156_twice valueFile_has (kind := "nodes") (type := "Source") (i := 0) (k := 1) (values := [-3])
    (by simp) rfl (by simp)
  rw [h1] at h1'
  cases h1'
  refine ⟨out, h1, ?_, ?_, ?_, h4⟩
  · rw [h2 "nodes" (by simp) "Source" 0 1 [-3] rfl]
    have : toStringPrecise (-3) 9 = "-3.000000000".toList := by decide +kernel
    simp [this]
  · rw [h2 "connections" (by simp) "Pipe" 0 0 [60, 1 / 3] rfl]
    have e1 : toStringPrecise 60 9 = "60.000000000".toList := by decide +kernel
    have e2 : toStringPrecise (1 / 3) 9 = "0.333333333".toList := by decide +kernel
    simp only [List.map_cons, List.map_nil, e1, e2, String.ofList_toList]
  · rw [h3 _ fun kind hk type i k values _ => ?_]
    · rfl
    · rcases List.mem_cons.mp hk with rfl | hk
      · simp [valuesPlace, apart_cons]
      · obtain rfl := List.mem_singleton.mp hk
        simp [valuesPlace, apart_cons]

end Verif.Helpers
