import Verif.Command.DefinedExample
import Verif.Command.Unconstrained
import Verif.Jacobian.Ipopt

/-!
# Property C184: what if Ipopt does not give a solution?

Sources: `/repo/src/IpoptWrapper/Adaptor.cpp`, `/repo/src/IpoptWrapper/Wrapper.cpp` 33-67 and 155-200, `/repo/src/IpoptWrapper/include/Wrapper.hpp` 95-99 and
`/repo/src/Grazer/commands.cpp` 224-310.
-/

set_option autoImplicit false

namespace Verif.Command

open Verif.Json Verif.Schema Verif.Factory Verif.Times Verif.Read Verif.Initial Verif.Interp Verif.OptTimes Verif.Newton Verif.Evolve Network Net
open Verif.Output (Printed)

/-! ## Model -/

/-- What is used of Ipopt, which is not modelled: whether `Initialize` succeeds, and the vector with which `OptimizeTNLP` calls `finalize_solution`, or `none` if it
returns without such a call. -/
structure Solver where
  ready : Bool
  solve : Nlp → Option (List ℝ)

/-- The numbers Ipopt asks for first — `get_nlp_info`, `Wrapper.cpp` 33-67. -/
def announced (P : Nlp) : Option (ℤ × ℤ × ℤ) :=
  Jacobian.nlpInfo (P.controls * P.controlTimes.length) (P.constraints * P.constraintTimes.length) P.jacobian.nonZeros

/-- `best_solution` after `optimize` — `Adaptor.cpp` 29-47, `Wrapper.hpp` 95, `Wrapper.cpp` 173: it is empty until `finalize_solution` is called. If `get_nlp_info` returns
false, Ipopt returns without calling anything else. The returned status is ignored in `commands.cpp` 226. -/
def Solver.best (I : Solver) (P : Nlp) : List ℝ :=
  if I.ready then
    match announced P with
    | none => []
    | some _ => (I.solve P).getD []
  else []

/-- An optimization with what it writes — `commands.cpp` 151-310. -/
noncomputable def optimize [Printed ℝ] (I : Solver) (draws : Json → Res (ℝ → Res (ℝ × ℝ))) (mem : ℕ → ℝ) (lu : Solve) (fuel : ℕ) (s : Settings) (every : ℤ)
    (f : Files) (b : Bounds) : Res (Json × Option Json) := do
  let P ← optimization draws mem lu fuel s every f b
  optimizedFiles draws mem lu fuel s every f b (I.best P)

/-! ## Specification -/

/-- Ipopt gives no solution: it cannot be initialised, or the problem has more controls, constraints or entries of the Jacobian than Ipopt can count, or Ipopt gives up
before it has one. -/
def NoSolution (I : Solver) (P : Nlp) : Prop :=
  I.ready = false ∨ 2 ^ 31 ≤ P.controls * P.controlTimes.length ∨ 2 ^ 31 ≤ P.constraints * P.constraintTimes.length ∨
    2 ^ 31 ≤ P.jacobian.nonZeros ∨ I.solve P = none

/-- C184: if Ipopt gives no solution, the program ends with an exception, and nothing is written. -/
def C184Statement [Printed ℝ] : Prop :=
  ∀ (I : Solver) (draws : Json → Res (ℝ → Res (ℝ × ℝ))) (mem : ℕ → ℝ) (lu : Solve) (fuel : ℕ) (s : Settings) (every : ℤ) (f : Files) (b : Bounds) (P : Nlp),
    optimization draws mem lu fuel s every f b = Res.ok P → NoSolution I P → optimize I draws mem lu fuel s every f b = Res.throws

/-! ## Proofs -/

variable {draws : Json → Res (ℝ → Res (ℝ × ℝ))} {mem : ℕ → ℝ} {lu : Solve} {fuel : ℕ} {s : Settings} {every : ℤ} {f : Files} {b : Bounds}

/-- There is at least one variable, and vectors of another length cannot be used. -/
theorem needs_variables {P : Nlp} (h : optimization draws mem lu fuel s every f b = Res.ok P) :
    0 < P.controls * P.controlTimes.length ∧ ∀ x, x.length ≠ P.controls * P.controlTimes.length → P.simulation x = Res.ub := by
  unfold optimization at h
  obtain ⟨times, -, h⟩ := Res.bind_eq_ok.mp h
  obtain ⟨g, -, h⟩ := Res.bind_eq_ok.mp h
  split at h
  · next hc =>
    obtain ⟨_, -, h⟩ := Res.bind_eq_ok.mp h
    obtain ⟨initial, -, h⟩ := Res.bind_eq_ok.mp h
    simp only at h
    split at h
    · next hpos =>
      obtain ⟨cgrid, -, h⟩ := Res.bind_eq_ok.mp h
      iterate 15 obtain ⟨_, -, h⟩ := Res.bind_eq_ok.mp h
      obtain ⟨_, hcheck, h⟩ := Res.bind_eq_ok.mp h
      obtain ⟨_, -, h⟩ := Res.bind_eq_ok.mp h
      injection h with h
      subst h
      refine ⟨Nat.mul_pos hpos (List.length_pos_iff.mpr ?_), fun x hx => if_neg hx⟩
      rintro rfl
      unfold checkTimes at hcheck
      simp only [List.getLast?_nil] at hcheck
      repeat' split at hcheck
      all_goals cases hcheck
    · cases h
  · cases h

theorem best_eq_nil {I : Solver} {P : Nlp} (h : NoSolution I P) : I.best P = [] := by
  have hmax : Jacobian.indexMax + 1 = 2 ^ 31 := by norm_num [Jacobian.indexMax]
  unfold Solver.best
  split
  · next hi =>
    split
    · rfl
    · next hs =>
      unfold announced Jacobian.nlpInfo at hs
      split_ifs at hs with a1 a2 a3
      rcases h with h | h | h | h | h
      · rw [hi] at h; cases h
      · omega
      · omega
      · omega
      · rw [h]; rfl
  · rfl

/-! ## C184 -/

/-- C184, what is true: if Ipopt gives no solution, no results are written on the regular way; and if there are no constrained sinks then there is an exception.
Missing: the exception in the other cases. There the behaviour is undefined, see `C184_undefined`. -/
theorem C184_partial [Printed ℝ] {I : Solver} {P : Nlp} (h : optimization draws mem lu fuel s every f b = Res.ok P) (hI : NoSolution I P) :
    (∀ out, optimize I draws mem lu fuel s every f b ≠ Res.ok out) ∧
    ((¬ ∃ id, ConstraintSink f.topology id) → optimize I draws mem lu fuel s every f b = Res.throws) := by
  obtain ⟨hpos, hsim⟩ := needs_variables h
  have hx : (I.best P).length ≠ P.controls * P.controlTimes.length := by rw [best_eq_nil hI]; exact hpos.ne
  unfold optimize
  rw [h, Res.ok_bind]
  refine ⟨fun out e => ?_, fun hk => C144_without h hk _⟩
  unfold optimizedFiles at e
  rw [h, Res.ok_bind] at e
  obtain ⟨_, -, e⟩ := Res.bind_eq_ok.mp e
  rw [hsim _ hx] at e
  cases e

/-- C184. If Ipopt gives no solution and there are constraints, then the vector of controls is empty, and all the same its entries are used: the behaviour is undefined. -/
theorem C184_undefined [Printed ℝ] {I : Solver} {P : Nlp} (h : optimization draws mem lu fuel s every f b = Res.ok P) (hI : NoSolution I P)
    (hlt : s.start < s.stop) (hdes : 0 < s.desired) (hk : 0 < P.constraints) : optimize I draws mem lu fuel s every f b = Res.ub := by
  obtain ⟨hpos, hsim⟩ := needs_variables h
  have hx : (I.best P).length ≠ P.controls * P.controlTimes.length := by rw [best_eq_nil hI]; exact hpos.ne
  obtain ⟨d, hd⟩ := (density_optimized hlt hdes h).1 hk
  unfold optimize optimizedFiles
  rw [h, Res.ok_bind, Res.ok_bind, hd, Res.ok_bind, hsim _ hx]
  rfl

/-- C184. Otherwise the vector Ipopt found is the one whose controls and states are written. -/
theorem C184_solution [Printed ℝ] {I : Solver} {P : Nlp} (h : optimization draws mem lu fuel s every f b = Res.ok P) (hI : ¬ NoSolution I P) :
    ∃ x, I.solve P = some x ∧ optimize I draws mem lu fuel s every f b = optimizedFiles draws mem lu fuel s every f b x := by
  have hmax : Jacobian.indexMax + 1 = 2 ^ 31 := by norm_num [Jacobian.indexMax]
  unfold NoSolution at hI
  push Not at hI
  obtain ⟨h1, h2, h3, h4, h5⟩ := hI
  obtain ⟨x, hx⟩ := Option.ne_none_iff_exists'.mp h5
  refine ⟨x, hx, ?_⟩
  unfold optimize
  rw [h, Res.ok_bind]
  congr 1
  unfold Solver.best announced Jacobian.nlpInfo
  rw [if_pos (by simpa using h1), if_neg (by omega), if_neg (by omega), if_neg (by omega)]
  simp [hx]

/-! ## Examples -/

/-- An Ipopt that cannot be initialised. -/
def broken : Solver := ⟨false, fun _ => none⟩

/-- An Ipopt that finds a vector. -/
def finding (x : List ℝ) : Solver := ⟨true, fun _ => some x⟩

/-- C184 is false: if Ipopt cannot be initialised, the behaviour is undefined in the optimization of C104, whose files are valid. -/
theorem C184_false [Printed ℝ] : ¬ C184Statement := by
  intro h
  obtain ⟨hc, -⟩ := C100_partial rfl shaped_k.1.1 shaped_k.1.2 shaped_k.2.1 shaped_k.2.2 (read_k (fun _ => Res.throws) (fun _ => 0)) fit_k
  have hP := (optimization_k hc (fun _ => Res.throws) (fun _ => 0) failing).1
  have h1 := h broken _ _ _ _ _ _ _ _ _ hP (Or.inl rfl)
  rw [C184_undefined hP (Or.inl rfl) (by norm_num [settingsC]) (by norm_num [settingsC]) Nat.zero_lt_one] at h1
  cases h1

/-- C184 for a problem without constraints: there is an exception. -/
example [Printed ℝ] : ∃ P, optimization (fun _ => Res.throws) (fun _ => 0) failing 10 settingsC 1 filesC boundsC = Res.ok P ∧ NoSolution broken P ∧
    optimize broken (fun _ => Res.throws) (fun _ => 0) failing 10 settingsC 1 filesC boundsC = Res.throws := by
  obtain ⟨P, hP, -⟩ := optimization_c consistent_c (fun _ => Res.throws) (fun _ => 0) failing
  exact ⟨P, hP, Or.inl rfl, (C184_partial hP (Or.inl rfl)).2 no_sink_c⟩

/-- C184 for the optimization of C104: an Ipopt that finds a vector. Both files are written. -/
example [Printed ℝ] (lu : Solve) : ∃ P controls states, optimization (fun _ => Res.throws) (fun _ => 0) lu 10 settingsC 1 filesK boundsK = Res.ok P ∧
    ¬ NoSolution (finding [10, 10]) P ∧
    optimize (finding [10, 10]) (fun _ => Res.throws) (fun _ => 0) lu 10 settingsC 1 filesK boundsK = Res.ok (controls, some states) := by
  obtain ⟨hc, -⟩ := C100_partial rfl shaped_k.1.1 shaped_k.1.2 shaped_k.2.1 shaped_k.2.2 (read_k (fun _ => Res.throws) (fun _ => 0)) fit_k
  obtain ⟨hP, hz, -⟩ := optimization_k hc (fun _ => Res.throws) (fun _ => 0) lu
  have hno : ¬ NoSolution (finding [10, 10]) (problemK hc lu) := by
    rintro (h | h | h | h | h)
    · cases h
    · exact absurd (show 2 ^ 31 ≤ 1 * 2 from h) (by norm_num)
    · exact absurd (show 2 ^ 31 ≤ 1 * 1 from h) (by norm_num)
    · have h' : 2 ^ 31 ≤ Jacobian.Jac.nonZeros ⟨1, 1, 0 :: Jacobian.makeDataLoop [(60 : ℝ)] [60] 0 1 0⟩ := h
      simp [Jacobian.Jac.nonZeros, Jacobian.Jac.blockSize, Jacobian.Jac.off, Jacobian.makeDataLoop] at h'
    · cases h
  obtain ⟨x, hx, he⟩ := C184_solution hP hno
  cases hx
  obtain ⟨controls, states, hw⟩ := C144_partial (z := [ext (stateK hc), ext (stateK hc)]) (id := "b")
    ⟨⟨rfl, shaped_k.1.1, shaped_k.1.2⟩, shaped_k.2, fit_k, by norm_num [settingsC], fun t h0 h1 => covers_k h0 (h1.trans (by norm_num [settingsC])),
      fun data d hd => by cases hd⟩ hP hz ⟨_, List.mem_cons_self, rfl⟩
  exact ⟨_, controls, states, hP, hno, he.trans hw⟩

end Verif.Command
