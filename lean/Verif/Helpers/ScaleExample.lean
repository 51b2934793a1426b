import Verif.Helpers.ScaleProps

/-!
# Examples for `change_inflow` and `increase_pressure`
-/

set_option autoImplicit false

namespace Verif.Helpers

open Verif.Json Verif.Schema Edit

/-- An entry of a source with its flow at two times. -/
def sourceX (id : String) (a b : ℚ) : Json := obj [("id", str id), ("data", arr [
  obj [("time", num 0), ("values", arr [num a])], obj [("time", num 3600), ("values", arr [num b])]])]

/-- A file with boundary values of two sources and a sink. -/
def boundaryX (a a' b b' : ℚ) : Json := obj [("nodes", obj [("Sink", arr [sourceX "c" 7 8]),
  ("Source", arr [sourceX "a" a a', sourceX "b" b b'])]), ("connections", obj [])]

example : ∃ (out : Json) (scaled : List ℚ), changeInflow 10 (boundaryX 1 1 3 3) = Res.ok out ∧ scaled.sum = 10 ∧
    value? out (inflowPlace 1 0) = scaled[1]?.map num ∧
    value? out [.at "nodes", .at "Sink"] = some (arr [sourceX "c" 7 8]) := by
  obtain ⟨out, scaled, h1, h2, h3, h4, h5, h6⟩ := C128_partial (file := boundaryX 1 1 3 3) (V := 10)
    (sources := [sourceX "a" 1 1, sourceX "b" 3 3]) (flows := [1, 3]) (by simp [boundaryX, value?, List.lookup])
    (by
      refine .cons ?_ (.cons ?_ .nil) <;> intro t ht <;> match t, ht with
        | 0, _ => simp [sourceX, value?, List.lookup]
        | 1, _ => simp [sourceX, value?, List.lookup]) (by norm_num)
  refine ⟨out, scaled, h1, h2, ?_, ?_⟩
  · have hl : 1 < scaled.length := by rw [h3]; decide
    rw [h5 0 (by decide) 1 scaled[1] (List.getElem?_eq_getElem hl), List.getElem?_eq_getElem hl]
    rfl
  · rw [h6]
    · simp [boundaryX, value?, List.lookup]
    · intro t _ i _; simp [inflowPlace, apart_cons]

theorem changeInflow_x : changeInflow 10 (boundaryX 1 1 1 2) = Res.ok (boundaryX 10 10 10 20) := by
  simp [changeInflow, boundaryX, sourceX, key, put, replaceKey, reading, List.lookup, sumInflows, constantFlow, flowOf, elements,
    Json.index, at', Res.get, getNum, each, eachOf, scaleSource, scaleEntry, andThen, position, assign, quotient]
  norm_num

/-- **C128** fails for the program: there is a file and a value such that the program changes the file and the
flows of the sources do not sum up to the value afterwards. The second source is not constant, the program reports this and goes on
with the sum of the flows up to there. -/
theorem C128_false : ¬ ∀ (file : Json) (V : ℚ) (sources : List Json) (flows : List ℚ),
    value? file [.at "nodes", .at "Source"] = some (arr sources) →
    List.Forall₂ (fun s q => value? s [.at "data", .nth 0, .at "values", .nth 0] = some (num q) ∧
      ∃ q', value? s [.at "data", .nth 1, .at "values", .nth 0] = some (num q')) sources flows → flows.sum ≠ 0 →
    ∀ out, changeInflow V file = Res.ok out → out = file ∨ ∃ scaled : List ℚ, scaled.sum = V ∧ scaled.length = flows.length ∧
      ∀ (i : ℕ) (b : ℚ), scaled[i]? = some b → value? out (inflowPlace i 0) = some (num b) := by
  intro h
  rcases h (boundaryX 1 1 1 2) 10 [sourceX "a" 1 1, sourceX "b" 1 2] [1, 1] (by simp [boundaryX, value?, List.lookup])
    (.cons ⟨by simp [sourceX, value?, List.lookup], 1, by simp [sourceX, value?, List.lookup]⟩
      (.cons ⟨by simp [sourceX, value?, List.lookup], 2, by simp [sourceX, value?, List.lookup]⟩ .nil)) (by norm_num) _ changeInflow_x
    with h | ⟨scaled, hs, hl, hv⟩
  · simp [boundaryX, sourceX] at h
  · match scaled, hl with
    | [a, b], _ =>
      have ha := hv 0 a rfl
      have hb := hv 1 b rfl
      simp [boundaryX, sourceX, inflowPlace, value?, List.lookup] at ha hb hs
      rw [← ha, ← hb] at hs
      norm_num at hs

/-- An entry of a connection with initial values at two points. -/
def pipeX (id : String) (a b : Json) : Json := obj [("id", str id), ("data", arr [
  obj [("x", num 0), ("values", arr [a, num 100])], obj [("x", num 5), ("values", arr [b, num 100])]])]

/-- A file with initial values. -/
def initialX (a b c d : Json) : Json := obj [("nodes", obj []), ("connections", obj [("Shortpipe", arr [pipeX "s" a b]),
  ("Pipe", arr [pipeX "p" c d])])]

example : sumOutflow (initialX (num 60) (num 59) (num 59) (num 58)) = Res.ok 100 := by
  have h := C130_partial (file := initialX (num 60) (num 59) (num 59) (num 58)) (pipes := [pipeX "s" (num 60) (num 59)]) (flows := [100])
    (by simp [initialX, value?, List.lookup]) (.cons (by simp [pipeX, value?, List.lookup]) .nil)
  simpa using h

/-- A file with a short pipe and something else as a second one. -/
def pipesX (other : Json) : Json := obj [("connections", obj [("Shortpipe", arr [pipeX "s" (num 60) (num 59), other])])]

/-- **C130** fails for the program: it may print a number that is not the sum of the flows of all short pipes. Here the second flow is a
text, and the sum up to there is printed. -/
theorem C130_false : ¬ ∀ (file : Json) (pipes : List Json) (s : ℚ),
    value? file [.at "connections", .at "Shortpipe"] = some (arr pipes) → sumOutflow file = Res.ok s →
    ∃ flows : List ℚ, flows.sum = s ∧
      List.Forall₂ (fun s q => value? s [.at "data", .nth 1, .at "values", .nth 1] = some (num q)) pipes flows := by
  intro h
  obtain ⟨flows, _, h⟩ := h (pipesX (obj [("id", str "t"), ("data", str "")])) _ 100 (by simp [pipesX, value?, List.lookup]; rfl) (by
    simp [sumOutflow, pipesX, pipeX, key, reading, List.lookup, sumOutflows, flowOf, elements, Json.index, at', Res.get, getNum])
  obtain ⟨_, _, _, h, _⟩ := List.forall₂_cons_left_iff.mp h
  obtain ⟨_, _, h, _⟩ := List.forall₂_cons_left_iff.mp h
  simp [value?, List.lookup] at h

/-- If a short pipe has only one point, the behaviour of the program is undefined. -/
theorem C130_defined_false : ¬ ∀ file, sumOutflow file ≠ Res.ub := by
  intro h
  exact h (pipesX (obj [("id", str "t"), ("data", arr [obj [("x", num 0), ("values", arr [num 60, num 100])]])])) (by
    simp [sumOutflow, pipesX, pipeX, key, reading, List.lookup, sumOutflows, flowOf, elements, Json.index, at', Res.get, getNum])

theorem hasPressures_x (a b c d : ℚ) : HasPressures (initialX (num a) (num b) (num c) (num d)) pressureTypes := by
  refine ⟨⟨_, rfl⟩, fun type ht v hv => ?_⟩
  have hpipe : ∀ (id : String) (x y : ℚ), ∃ points, value? (pipeX id (num x) (num y)) [.at "data"] = some (arr points) ∧
      ∀ p ∈ points, ∃ q, value? p [.at "values", .nth 0] = some (num q) := by
    intro id x y
    refine ⟨_, rfl, ?_⟩
    simp [value?, List.lookup]
  simp only [pressureTypes, List.mem_cons, List.not_mem_nil, or_false] at ht
  rcases ht with rfl | rfl | rfl | rfl | rfl
  · simp [initialX, value?, List.lookup] at hv
    exact ⟨_, hv.symm, by simpa using hpipe "p" c d⟩
  · simp [initialX, value?, List.lookup] at hv
  · simp [initialX, value?, List.lookup] at hv
  · simp [initialX, value?, List.lookup] at hv
    exact ⟨_, hv.symm, by simpa using hpipe "s" a b⟩
  · simp [initialX, value?, List.lookup] at hv

example : ∃ out, increasePressure 2 (initialX (num 60) (num 59) (num 59) (num 58)) = Res.ok out ∧
    value? out (pressurePlace "Pipe" 0 1) = some (num 60) ∧ value? out (pressurePlace "Shortpipe" 0 0) = some (num 62) ∧
    value? out [.at "connections", .at "Pipe", .nth 0, .at "data", .nth 0, .at "values", .nth 1] = some (num 100) := by
  obtain ⟨out, h1, h2, h3⟩ := C129_partial (d := 2) (hasPressures_x 60 59 59 58)
  refine ⟨out, h1, ?_, ?_, ?_⟩
  · rw [h2 "Pipe" (by decide) 0 1 58 (by simp [initialX, pipeX, pressurePlace, value?, List.lookup])]; norm_num
  · rw [h2 "Shortpipe" (by decide) 0 0 60 (by simp [initialX, pipeX, pressurePlace, value?, List.lookup])]; norm_num
  · rw [h3 _ (by intro t _ i k q _; simp [pressurePlace, apart_cons])]
    simp [initialX, pipeX, value?, List.lookup]

theorem increasePressure_x : increasePressure 2 (initialX (num 60) (num 59) (num 59) (str "58")) =
    Res.ok (initialX (num 60) (num 59) (num 61) (str "58")) := by
  simp [increasePressure, over, pressureTypes, raiseType, initialX, pipeX, key, put, replaceKey, reading, List.lookup, each, eachOf,
    raisePoint, andThen, position, assign, getNum, contains, find?]
  norm_num

/-- **C129** fails for the program: there is a file of which it increases one pressure and not another one. The value which is
no number raises an exception, this is reported and the file with the changes up to there is written. -/
theorem C129_false : ¬ ∀ (file out : Json) (d : ℚ), increasePressure d file = Res.ok out → out = file ∨
    ∀ type ∈ pressureTypes, ∀ (i k : ℕ) (q : ℚ), value? file (pressurePlace type i k) = some (num q) →
      value? out (pressurePlace type i k) = some (num (q + d)) := by
  intro h
  rcases h _ _ _ increasePressure_x with h | h
  · simp [initialX, pipeX] at h
  · have := h "Shortpipe" (by decide) 0 0 60 (by simp [initialX, pipeX, pressurePlace, value?, List.lookup])
    simp [initialX, pipeX, pressurePlace, value?, List.lookup] at this

end Verif.Helpers
