import Verif.Gas.Nodes
import Verif.Interp.Props
import Verif.Json.Ids

/-!
# Property C65: sinks are negative sources

Sources: `/repo/src/Model/Networkproblem/Gas/Flowboundarynode.cpp`, `Sink.cpp`, `ConstraintSink.cpp` and
`/repo/src/Auxillary/InterpolatingVector/InterpolatingVector.cpp`.
-/

set_option autoImplicit false

namespace Verif.Gas

open Verif.Net Verif.Euler Verif.Json Verif.Interp

/-! ## Model -/

/-- `get<double>()` and the implicit conversion to `double`. -/
def getNum : Json → Res ℚ
  | num q => Res.ok q
  | _ => Res.throws

/-- The body of the inner loop — `Flowboundarynode.cpp` 35-36. -/
def negate (j : Json) : Res Json := do
  let q ← getNum j
  Res.ok (num (-q))

/-- A range-based for loop over references to the elements of a json: arrays and objects are changed elementwise,
null has no elements and anything else is its only element. -/
def forElements (f : Json → Res Json) : Json → Res Json
  | null => Res.ok null
  | arr l => do
    let l' ← Res.each l f
    Res.ok (arr l')
  | obj m => do
    let m' ← Res.each m fun x => do
      let v ← f x.2
      Res.ok (x.1, v)
    Res.ok (obj m')
  | j => f j

/-- Changing `j[key]` with the operator for a json that may be changed: a missing key is added with value null, and null
becomes an object. -/
def edit (j : Json) (key : String) (f : Json → Res Json) : Res Json :=
  match j with
  | null => do
    let v ← f null
    null.set key v
  | obj m => do
    let v ← f ((m.lookup key).getD null)
    (obj m).set key v
  | _ => Res.throws

/-- `revert_boundary_conditions` — `Flowboundarynode.cpp` 25-42. The message of the exception reads the id with the operator
for constants. -/
def revert (data : Json) : Res Json :=
  if data.contains "boundary_values" then
    edit data "boundary_values" fun b => edit b "data" fun d =>
      forElements (fun datum => edit datum "values" (forElements negate)) d
  else do
    let i ← data.index "id"
    let _ ← i.getStr
    Res.throws

/-- The numbers in the `values` of an entry — `InterpolatingVector.cpp` 463-468. -/
def valuesOf : Json → Res (List ℚ)
  | arr l => Res.each l getNum
  | null => Res.ok []
  | obj [] => Res.ok []
  | _ => Res.throws

/-- The point and the values of an entry; `name` is `x` or `time` — 455-457 and 463-468. -/
def readEntry (name : String) (entry : Json) : Res (ℚ × List ℚ) := do
  let p ← entry.index name
  let q ← getNum p
  let v ← entry.index "values"
  let w ← valuesOf v
  Res.ok (q, w)

/-- `construct_from_json` — 443-474; `valid` is the result of the validation. `front()` of an empty array is undefined behaviour.
(In the code first all points are read, then the values of one entry after the other are read and stored; this matters only for
which exception is thrown. That data is no array is rejected by the schema and is an exception here.) -/
noncomputable def readVector (valid : Json → Bool) (mem : ℕ → ℝ) (json : Json) : Res (IV ℝ) :=
  if valid json then do
    let data ← json.index "data"
    match data with
    | arr [] => Res.ub
    | arr (front :: l) => do
      let entries ← Res.each (front :: l) (readEntry (if front.contains "x" then "x" else "time"))
      constructFromJson mem (entries.map fun e => ((e.1 : ℝ), e.2.map fun q : ℚ => (q : ℝ)))
    | _ => Res.throws
  else Res.throws

/-- Constructor of `Flowboundarynode` and hence of `Source` — `Flowboundarynode.cpp` 47-50, `Source.hpp`: the boundary values
of the node. (The base class only reads the id.) -/
noncomputable def source (valid : Json → Bool) (mem : ℕ → ℝ) (data : Json) : Res (IV ℝ) := do
  let b ← data.index "boundary_values"
  readVector valid mem b

/-- Constructor of `Sink` — `Sink.cpp` 23-24, and of `ConstraintSink` — `ConstraintSink.cpp` 29-30. -/
noncomputable def sink (valid : Json → Bool) (mem : ℕ → ℝ) (data : Json) : Res (IV ℝ) := do
  let d ← revert data
  source valid mem d

/-- `Flowboundarynode::evaluate` — `Flowboundarynode.cpp` 54-66. -/
noncomputable def evaluateFlow (boundary : IV ℝ) (ends : List End) (time : ℝ) (state : Vec) : Res (List Op) :=
  if ends.isEmpty then Res.ok []
  else do
    let b ← eval boundary time
    let q ← Res.get b 0
    flowBalance ends state q

/-! ## Specification -/

/-- An entry of boundary data: a time and a list of values. -/
def Entry (j : Json) (e : ℚ × List ℚ) : Prop :=
  j.find? "x" = none ∧ j.find? "time" = some (num e.1) ∧ j.find? "values" = some (arr (e.2.map num))

/-- The json of a component prescribes these values at these times. -/
def Prescribes (data : Json) (l : List (ℚ × List ℚ)) : Prop :=
  ∃ b es, data.find? "boundary_values" = some b ∧ b.find? "data" = some (arr es) ∧ List.Forall₂ Entry es l

/-- The same times, negative values. -/
def negative (l : List (ℚ × List ℚ)) : List (ℚ × List ℚ) := l.map fun e => (e.1, e.2.map fun q => -q)

/-- The validator accepts boundary data with times and one value each. -/
def Accepts (valid : Json → Bool) : Prop :=
  ∀ b es l, b.find? "data" = some (arr es) → List.Forall₂ Entry es l → (∀ e ∈ l, e.2.length = 1) → valid b = true

/-! ## Reverting -/

theorem replaceKey_replaceKey (k : String) (v w : Json) (m : List (String × Json)) :
    replaceKey k v (replaceKey k w m) = replaceKey k v m := by
  induction m with
  | nil => rfl
  | cons a m ih =>
    obtain ⟨a1, a2⟩ := a
    simp only [replaceKey]
    by_cases h : k = a1
    · simp [h, replaceKey]
    · simp [h, replaceKey, ih]

/-- Changing a key and changing it back. -/
theorem edit_find {j v v' : Json} {key : String} (h : j.find? key = some v) {f : Json → Res Json} (hf : f v = Res.ok v')
    (hb : f v' = Res.ok v) :
    ∃ j', edit j key f = Res.ok j' ∧ edit j' key f = Res.ok j ∧ j'.find? key = some v' ∧
      ∀ k, k ≠ key → j'.find? k = j.find? k := by
  cases j with
  | obj m =>
    have hm : m.lookup key = some v := h
    have e1 : edit (obj m) key f = Res.ok (obj (Json.insert key v' m)) := by
      simp only [edit, hm, Option.getD_some, hf, Res.ok_bind, Json.set]
    have hself := lookup_insert_self key v' m
    refine ⟨_, e1, ?_, hself, fun k hk => lookup_insert_of_ne v' m hk⟩
    simp only [edit, hself, Option.getD_some, hb, Res.ok_bind, Json.set]
    congr 2
    have h1 : Json.insert key v' m = replaceKey key v' m := by unfold Json.insert; rw [if_pos (by simp [hm])]
    rw [h1] at hself ⊢
    unfold Json.insert
    rw [if_pos (by simp [hself]), replaceKey_replaceKey]
    have := insert_same hm
    unfold Json.insert at this
    rwa [if_pos (by simp [hm])] at this
  | _ => simp [find?] at h

theorem each_negate (w : List ℚ) : Res.each (w.map num) negate = Res.ok ((w.map fun q => -q).map num) := by
  induction w with
  | nil => rfl
  | cons q w ih => simp only [List.map_cons, Res.each, ih]; rfl

/-- Reverting one entry. -/
theorem edit_entry {j : Json} {e : ℚ × List ℚ} (h : Entry j e) :
    ∃ j', edit j "values" (forElements negate) = Res.ok j' ∧ edit j' "values" (forElements negate) = Res.ok j ∧
      Entry j' (e.1, e.2.map fun q => -q) := by
  obtain ⟨h1, h2, h3⟩ := h
  have hf : ∀ w : List ℚ, forElements negate (arr (w.map num)) = Res.ok (arr ((w.map fun q => -q).map num)) := by
    intro w; simp only [forElements, each_negate]; rfl
  have hb : forElements negate (arr ((e.2.map fun q => -q).map num)) = Res.ok (arr (e.2.map num)) := by
    rw [hf, List.map_map]; simp
  obtain ⟨j', e1, e2, e3, e4⟩ := edit_find h3 (hf _) hb
  exact ⟨j', e1, e2, by rw [e4 _ (by decide), h1], by rw [e4 _ (by decide), h2], e3⟩

theorem each_entries {es : List Json} {l : List (ℚ × List ℚ)} (h : List.Forall₂ Entry es l) :
    ∃ es', Res.each es (fun datum => edit datum "values" (forElements negate)) = Res.ok es' ∧
      Res.each es' (fun datum => edit datum "values" (forElements negate)) = Res.ok es ∧
      List.Forall₂ Entry es' (negative l) := by
  induction h with
  | nil => exact ⟨[], rfl, rfl, .nil⟩
  | cons h _ ih =>
    obtain ⟨es', h1, h2, h3⟩ := ih
    obtain ⟨j', e1, e2, e3⟩ := edit_entry h
    exact ⟨j' :: es', by simp only [Res.each, e1, h1]; rfl, by simp only [Res.each, e2, h2]; rfl, .cons e3 h3⟩

/-- C65. Reverting boundary data gives the same component with the same times and negative values, and reverting once more
gives back the json. -/
theorem C65_revert (data : Json) (l : List (ℚ × List ℚ)) (h : Prescribes data l) :
    ∃ data', revert data = Res.ok data' ∧ Prescribes data' (negative l) ∧ revert data' = Res.ok data ∧
      ∀ k, k ≠ "boundary_values" → data'.find? k = data.find? k := by
  obtain ⟨b, es, hb, hd, he⟩ := h
  obtain ⟨es', h1, h2, h3⟩ := each_entries he
  let f := forElements fun datum => edit datum "values" (forElements negate)
  have hf : f (arr es) = Res.ok (arr es') := by simp only [f, forElements, h1]; rfl
  have hf' : f (arr es') = Res.ok (arr es) := by simp only [f, forElements, h2]; rfl
  obtain ⟨b', e1, e2, e3, -⟩ := edit_find hd hf hf'
  obtain ⟨d', g1, g2, g3, g4⟩ := edit_find (f := fun b => edit b "data" f) hb e1 e2
  refine ⟨d', ?_, ⟨b', es', g3, e3, h3⟩, ?_, g4⟩
  · unfold revert; rw [if_pos (by simp [contains, hb])]; exact g1
  · unfold revert; rw [if_pos (by simp [contains, g3])]; exact g2

/-- C65. A component without boundary data is not turned into a sink. -/
theorem C65_missing (valid : Json → Bool) (mem : ℕ → ℝ) (data : Json) (id : String) (hid : data.find? "id" = some (str id))
    (h : data.find? "boundary_values" = none) : sink valid mem data = Res.throws := by
  have : revert data = Res.throws := by
    unfold revert
    rw [if_neg (by simp [contains, h]), index_of_find hid]
    rfl
  unfold sink
  rw [this]
  rfl

/-! ## Reading -/

theorem each_getNum (w : List ℚ) : Res.each (w.map num) getNum = Res.ok w := by
  induction w with
  | nil => rfl
  | cons q w ih => simp only [List.map_cons, Res.each, ih]; rfl

theorem each_readEntry {es : List Json} {l : List (ℚ × List ℚ)} (h : List.Forall₂ Entry es l) :
    Res.each es (readEntry "time") = Res.ok l := by
  induction h with
  | nil => rfl
  | cons h _ ih =>
    obtain ⟨h1, h2, h3⟩ := h
    simp only [Res.each, ih, readEntry, index_of_find h2, index_of_find h3, Res.ok_bind, getNum, valuesOf, each_getNum]

/-- The values as given to the constructor of the vector. -/
noncomputable def real (l : List (ℚ × List ℚ)) : List (ℝ × List ℝ) := l.map fun e => ((e.1 : ℝ), e.2.map fun q : ℚ => (q : ℝ))

theorem readVector_eq {valid : Json → Bool} (hv : Accepts valid) (mem : ℕ → ℝ) {b : Json} {es : List Json}
    {l : List (ℚ × List ℚ)} (hd : b.find? "data" = some (arr es)) (he : List.Forall₂ Entry es l)
    (hl : ∀ e ∈ l, e.2.length = 1) : readVector valid mem b = constructFromJson mem (real l) := by
  unfold readVector
  rw [if_pos (hv b es l hd he hl), index_of_find hd]
  cases he with
  | nil => rfl
  | cons h h' =>
    have := each_readEntry (.cons h h')
    obtain ⟨h1, h2, h3⟩ := h
    simp only [Res.ok_bind, contains, h1, Option.isSome_none, Bool.false_eq_true, if_false, this]
    rfl

theorem fillLoop_flat {n : ℕ} (ws : List (List ℝ)) (v : IV ℝ) (i : ℕ) (hn : v.inner = n)
    (hlen : v.values.length = (i + ws.length) * n) (hw : ∀ w ∈ ws, w.length = n) :
    fillLoop v i ws = Res.ok { v with values := v.values.take (n * i) ++ ws.flatten } := by
  induction ws generalizing v i with
  | nil =>
    obtain ⟨p, m, vals⟩ := v
    simp only [List.length_nil, Nat.add_zero] at hlen
    simp only [fillLoop, List.flatten_nil, List.append_nil]
    rw [List.take_of_length_le (by rw [hlen, Nat.mul_comm])]
  | cons w ws ih =>
    have hw0 := hw w (by simp)
    simp only [List.length_cons] at hlen
    have hle : n * i + n ≤ v.values.length := by rw [hlen]; nlinarith
    have e1 : writeTimestep v (i : ℤ) w =
        Res.ok { v with values := v.values.take (n * i) ++ w ++ v.values.drop (n * i + n) } := by
      unfold writeTimestep
      rw [if_neg (by omega)]
      simp only [Int.toNat_natCast, hn, not_lt.mpr hle, if_false, hw0, if_true, writeSegment]
    rw [fillLoop, e1]
    simp only [Res.ok_bind]
    rw [ih]
    · congr 2
      have h1 : (v.values.take (n * i) ++ w).length = n * (i + 1) := by
        rw [List.length_append, List.length_take, hw0, Nat.min_eq_left (by omega), Nat.mul_add, Nat.mul_one]
      simp only
      rw [List.take_append_of_le_length (by omega), List.take_of_length_le (by omega)]
      simp
    · exact hn
    · simp only [List.length_append, List.length_take, List.length_drop, hw0]
      rw [Nat.min_eq_left (by omega), hlen]
      have : (i + (ws.length + 1)) * n = n * i + n + ws.length * n := by ring
      have h2 : (i + 1 + ws.length) * n = n * i + n + ws.length * n := by ring
      omega
    · exact fun x hx => hw x (by simp [hx])

/-- What is read: the times and the values one after the other, whatever is in the memory. -/
theorem construct_flat {n : ℕ} (mem : ℕ → ℝ) (data : List (ℝ × List ℝ)) (hne : data ≠ [])
    (hn : ∀ e ∈ data, e.2.length = n) :
    constructFromJson mem data = Res.ok ⟨data.map Prod.fst, n, (data.map Prod.snd).flatten⟩ := by
  obtain ⟨e, rest, rfl⟩ := List.exists_cons_of_ne_nil hne
  have he := hn e (by simp)
  simp only [constructFromJson, constructFromStdVector, isSorted, Bool.not_true, Bool.false_eq_true, if_false, he, Res.ok_bind]
  rw [fillLoop_flat (n := n)]
  · simp
  · rfl
  · simp [uninit, Nat.mul_comm]
  · intro w hw
    obtain ⟨x, hx, rfl⟩ := List.mem_map.mp hw
    exact hn x hx

theorem source_eq {valid : Json → Bool} (hv : Accepts valid) (mem : ℕ → ℝ) {data : Json} {l : List (ℚ × List ℚ)}
    (h : Prescribes data l) (hne : l ≠ []) (hl : ∀ e ∈ l, e.2.length = 1) :
    source valid mem data = Res.ok ⟨(real l).map Prod.fst, 1, ((real l).map Prod.snd).flatten⟩ := by
  obtain ⟨b, es, hb, hd, he⟩ := h
  unfold source
  rw [index_of_find hb, Res.ok_bind, readVector_eq hv mem hd he hl, construct_flat (n := 1)]
  · simp [real, hne]
  · intro e he
    obtain ⟨x, hx, rfl⟩ := List.mem_map.mp he
    simpa using hl x hx

/-- C65. A sink has exactly the boundary values of a source that prescribes the negative values, so it has the same residual and
derivative. Both are constructed without exception. -/
theorem C65_sink_source (valid : Json → Bool) (hv : Accepts valid) (mem mem' : ℕ → ℝ) (data data' : Json)
    (l : List (ℚ × List ℚ)) (hne : l ≠ []) (hl : ∀ e ∈ l, e.2.length = 1) (h : Prescribes data l)
    (h' : Prescribes data' (negative l)) :
    ∃ v, sink valid mem data = Res.ok v ∧ source valid mem' data' = Res.ok v := by
  have hne' : negative l ≠ [] := by simp [negative, hne]
  have hl' : ∀ e ∈ negative l, e.2.length = 1 := by
    intro e he
    obtain ⟨x, hx, rfl⟩ := List.mem_map.mp he
    simpa using hl x hx
  obtain ⟨d, h1, h2, -, -⟩ := C65_revert data l h
  refine ⟨_, ?_, source_eq hv mem' h' hne' hl'⟩
  unfold sink
  rw [h1, Res.ok_bind, source_eq hv mem h2 hne' hl']

/-! ## The residual -/

theorem segment_neg (w : List ℝ) (s n : ℕ) :
    Interp.segment (w.map fun x => -x) s n = (Interp.segment w s n).bind fun r => Res.ok (r.map fun x => -x) := by
  unfold Interp.segment
  rw [List.length_map]
  split
  · simp [Res.bind, List.map_take, List.map_drop]
  · rfl

theorem bind_def {α β : Type} (x : Res α) (f : α → Res β) : x.bind f = x >>= f := rfl

/-- Interpolation commutes with taking negative values. -/
theorem eval_neg (v : IV ℝ) (t : ℝ) :
    eval { v with values := v.values.map fun x => -x } t = (eval v t).bind fun r => Res.ok (r.map fun x => -x) := by
  unfold eval
  simp only [segment_neg]
  cases v.points.getLast? <;> cases v.points.head? <;> try rfl
  simp only
  split
  · split <;> rfl
  · split
    · split <;> rfl
    · simp only [bind_def, Res.bind_assoc, Res.ok_bind]
      congr 1; funext a
      congr 1; funext b
      congr 1; funext c
      congr 1; funext d
      simp only [Res.pure_eq, Res.ok_bind]
      congr 1
      rw [List.zipWith_map, List.map_zipWith]
      congr 1
      funext x y
      ring

theorem negative_flat (l : List (ℚ × List ℚ)) : ((real (negative l)).map Prod.snd).flatten =
    (((real l).map Prod.snd).flatten).map fun x => -x := by
  induction l with
  | nil => rfl
  | cons e l ih =>
    simp only [real, negative, List.map_cons, List.flatten_cons, List.map_append, List.map_map] at ih ⊢
    rw [ih]
    congr 1
    apply List.map_congr_left
    intro q _
    simp

/-- C65. Consider a sink with usable ends with distinct rows, whose boundary data, if it were that of a source, would prescribe the
flow `q` at a time. The residual of the sink is computed, and it vanishes if and only if all pressures at the
node are equal and the flows into the node (positive at the end of an edge) sum up to `q`. -/
theorem C65_demand (valid : Json → Bool) (hv : Accepts valid) (mem : ℕ → ℝ) (data : Json)
    (l : List (ℚ × List ℚ)) (hne : l ≠ []) (hl : ∀ e ∈ l, e.2.length = 1) (h : Prescribes data l)
    (ends : List End) (hends : ends ≠ []) (hu : ∀ x ∈ ends, Usable x) (hn : (ends.map rowOf).Nodup)
    (t : ℝ) (q : ℝ) (asSource : IV ℝ) (hs : source valid mem data = Res.ok asSource) (hq : eval asSource t = Res.ok [q])
    (state : Vec) :
    ∃ v ops, sink valid mem data = Res.ok v ∧ evaluateFlow v ends t state = Res.ok ops ∧
      ∀ r : Vec, (∀ x ∈ ends, run r ops (rowOf x) = 0) ↔
        (∀ x ∈ ends, ∀ y ∈ ends, pressureAt state x = pressureAt state y) ∧
        (ends.map fun x => -(x.1.sign) * flowAt state x).sum = q := by
  have hne' : negative l ≠ [] := by simp [negative, hne]
  have hl' : ∀ e ∈ negative l, e.2.length = 1 := by
    intro e he
    obtain ⟨x, hx, rfl⟩ := List.mem_map.mp he
    simpa using hl x hx
  obtain ⟨d, h1, h2, -, -⟩ := C65_revert data l h
  rw [source_eq hv mem h hne hl] at hs
  injection hs with hs
  have hsink : sink valid mem data = Res.ok { asSource with values := asSource.values.map fun x => -x } := by
    unfold sink
    rw [h1, Res.ok_bind, source_eq hv mem h2 hne' hl', ← hs, negative_flat]
    congr 2
    simp [real, negative, List.map_map, Function.comp_def]
  have hev : eval { asSource with values := asSource.values.map fun x => -x } t = Res.ok [-q] := by
    rw [eval_neg, hq]; rfl
  obtain ⟨ops, ho, hz⟩ := C35_flow_node ends hends state (-q) hu hn
  refine ⟨_, ops, hsink, ?_, fun r => ?_⟩
  · unfold evaluateFlow
    rw [if_neg (by simpa using hends), hev]
    exact ho
  · rw [(hz r).1]
    have : (ends.map fun x => -(x.1.sign) * flowAt state x).sum = -(ends.map fun x => x.1.sign * flowAt state x).sum := by
      clear hz ho hu hn hends
      induction ends with
      | nil => simp
      | cons x ends ih => simp only [List.map_cons, List.sum_cons, ih]; ring
    rw [this]
    constructor
    · rintro ⟨a, b⟩; exact ⟨a, by rw [b]; ring⟩
    · rintro ⟨a, b⟩; exact ⟨a, by rw [← b]; ring⟩

/-- The json of a sink. -/
def sampleSink : Json := obj [
  ("boundary_values", obj [
    ("data", arr [
      obj [("time", num 0), ("values", arr [num 10])],
      obj [("time", num 100), ("values", arr [num (-5)])]]),
    ("id", str "N1")]),
  ("id", str "N1")]

theorem sample_prescribes : Prescribes sampleSink [(0, [10]), (100, [-5])] :=
  ⟨_, _, rfl, rfl, .cons ⟨rfl, rfl, rfl⟩ (.cons ⟨rfl, rfl, rfl⟩ .nil)⟩

/-- `C65_revert` applies, and the result is as expected. -/
example : Prescribes sampleSink [(0, [10]), (100, [-5])] ∧ negative [(0, [10]), (100, [-5])] = [(0, [-10]), (100, [5])] :=
  ⟨sample_prescribes, by decide +kernel⟩

/-- The hypotheses of `C65_demand` are met: halfway the demand is 2.5. -/
example : Accepts (fun _ => true) ∧
    ∃ v, source (fun _ => true) (fun _ => 0) sampleSink = Res.ok v ∧ eval v 50 = Res.ok [5 / 2] := by
  have hacc : Accepts (fun _ => true) := fun _ _ _ _ _ _ => rfl
  refine ⟨hacc, _, source_eq hacc _ sample_prescribes (by simp) (by simp), ?_⟩
  rw [eval_interior (i := 0)]
  · simp [real]; norm_num
  · simp [IV.WF, real]
  · simp [real]
  all_goals simp [real]
  all_goals norm_num

end Verif.Gas
