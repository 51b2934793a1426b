import Verif.Basic.Loop
import Verif.Helpers.Collect
import Mathlib.Algebra.Order.Floor.Semifield

/-!
# Statistics over whole files of results (C162, C163)

`helper_functions/get_mean_sigma.cpp` and `helper_functions/get_quantiles.cpp`.
-/

set_option autoImplicit false

namespace Verif.Helpers.Collect

open Verif.Helpers.Discrepance (Step Component Point quantityAt SameLayout Sorted SamePoints Types File at' loop loop_ok compclasses
  compclasses_nodup powerTypes gasTypes powerTypes_nodup gasTypes_nodup comparedPower comparedGas)

variable {I Q S : Type} [LinearOrder I]

/-! ## Model of the second half of the program for quantiles -/

/-- What is written for one quantity (at one point). -/
structure Row where
  median : ℚ
  low1 : ℚ
  high1 : ℚ
  low2 : ℚ
  high2 : ℚ
  low3 : ℚ
  high3 : ℚ

/-- Sorting and choosing — `get_quantiles.cpp` 306-325, 355-372. (Whichever algorithm sorts numbers, the result is the same.) -/
def rowOf (values : List ℚ) : Res Row := do
  let v ← makeQuantiles (values.insertionSort (· ≤ ·))
  let q0 ← Res.get v 0
  let q1 ← Res.get v 1
  let q2 ← Res.get v 2
  let q3 ← Res.get v 3
  Res.ok ⟨q0.2, q1.1, q1.2, q2.1, q2.2, q3.1, q3.2⟩

/-- All points — `get_quantiles.cpp` 305-326. -/
def pointRows (points : List (ℚ × List ℚ)) : Res (List (ℚ × Row)) :=
  Res.each points fun p => do
    let r ← rowOf p.2
    Res.ok (p.1, r)

/-- The loops over components, time steps and quantities — `get_quantiles.cpp` 288-330 and 347-376. -/
def components {T : Type} (f : S → Res T) (l : List (Component I S)) : Res (List (Component I T)) :=
  Res.each l fun c => do
    let data ← Res.each c.data fun s => do
      let values ← Res.each s.values fun e => do
        let t ← f e.2
        Res.ok (e.1, t)
      Res.ok (⟨s.time, values⟩ : Step T)
    Res.ok ⟨c.id, data⟩

/-- A loop that replaces each entry of an object. -/
def fill {β γ : Type} (f : β → Res γ) (empty : γ) : List String → (String → β) → Res (String → γ)
  | [], _ => Res.ok fun _ => empty
  | k :: ks, out => do
    let g ← f (out k)
    let rest ← fill f empty ks out
    Res.ok (Function.update rest k g)

/-- `compute_actual_quantiles_power` and `compute_actual_quantiles_gas` — `get_quantiles.cpp` 335-379 and 276-333. -/
def compute {T : Type} (f : S → Res T) (types : List String) (out : String → String → List (Component I S)) :
    Res (String → String → List (Component I T)) :=
  fill (fill (components f) [] types) (fun _ => []) compclasses out

/-- The main function of the program for quantiles — `get_quantiles.cpp` 54-109. All files of a directory are used, but not those
that are hidden. -/
def quantilesMain (directory : List (String × File I)) : Res (Output I Row) := do
  let out ← addFiles values 0 ((directory.filter fun e => Discrepance.chosen "" e.1).map Prod.snd) ⟨fun _ _ => [], fun _ _ => []⟩
  let p ← compute rowOf powerTypes out.power
  let g ← compute (fun points => pointRows points) gasTypes out.gas
  Res.ok ⟨p, fun c t => (g c t)⟩

/-! ## Specification -/

/-- The files that are to be used, in the order of the directory: their names begin with the given text and are not hidden. -/
def usedFiles (trunk : String) (directory : List (String × File I)) : List (File I) :=
  (directory.filter fun e => decide (trunk.toList <+: e.1.toList ∧ e.1.toList.head? ≠ some '.')).map Prod.snd

/-- The files that are to be used by the program for quantiles, in the order of the directory: they are not hidden. -/
def notHidden (directory : List (String × File I)) : List (File I) :=
  (directory.filter fun e => decide (e.1.toList.head? ≠ some '.')).map Prod.snd

/-- The components of a class and a power type in a file. -/
def powerPart (file : File I) (c t : String) : Option (List (Component I ℚ)) := (file c).bind fun T => T.power t

/-- The components of a class and a gas type in a file. -/
def gasPart (file : File I) (c t : String) : Option (List (Component I (List Point))) := (file c).bind fun T => T.gas t

/-- Two files hold the same components with the same time steps, quantities and points, of the types that are considered. -/
structure Alike (shape run : File I) : Prop where
  power : ∀ c ∈ ["nodes", "connections"], ∀ t ∈ comparedPower, (powerPart shape c t = none ∧ powerPart run c t = none) ∨
    ∃ r q, powerPart shape c t = some r ∧ powerPart run c t = some q ∧ SameLayout (fun _ _ => True) r q
  gas : ∀ c ∈ ["nodes", "connections"], ∀ t ∈ comparedGas, (gasPart shape c t = none ∧ gasPart run c t = none) ∨
    ∃ r q, gasPart shape c t = some r ∧ gasPart run c t = some q ∧ SameLayout SamePoints r q

/-- The components of all types in a file are sorted by their ids, no id and no name of a quantity appears twice. -/
def AllSorted (file : File I) : Prop :=
  (∀ c t l, powerPart file c t = some l → Sorted l) ∧ ∀ c t l, gasPart file c t = some l → Sorted l

/-- The values of a quantity of a power component in several files. -/
def PowerValues (files : List (File I)) (c t : String) (id : I) (i : ℕ) (key : String) (vs : List ℚ) : Prop :=
  List.Forall₂ (fun file v => ∃ l, powerPart file c t = some l ∧ quantityAt l id i key = some v) files vs

/-- The values of a quantity of a gas component at a point in several files. -/
def GasValues (files : List (File I)) (c t : String) (id : I) (i : ℕ) (key : String) (j : ℕ) (x : ℚ) (vs : List ℚ) : Prop :=
  List.Forall₂ (fun file v => ∃ l q, gasPart file c t = some l ∧ quantityAt l id i key = some q ∧ q[j]? = some (x, v)) files vs

/-- How many of some values lie between two numbers. -/
def between (vs : List ℚ) (low high : ℚ) : ℕ := vs.countP fun v => decide (low ≤ v ∧ v ≤ high)

/-- A median of some values: at least one half of them isn't greater, at least one half isn't less. -/
def IsMedian (vs : List ℚ) (m : ℚ) : Prop :=
  vs.length ≤ 2 * vs.countP (fun v => decide (v ≤ m)) ∧ vs.length ≤ 2 * vs.countP fun v => decide (m ≤ v)

/-- Right quantiles of some values: they are among these values, they enclose each other, and between each pair there is at least the
share it is meant for. -/
structure Quantiles (vs : List ℚ) (row : Row) : Prop where
  samples : ∀ x ∈ [row.median, row.low1, row.high1, row.low2, row.high2, row.low3, row.high3], x ∈ vs
  nested : [row.low3, row.low2, row.low1, row.median, row.high1, row.high2, row.high3].Pairwise (· ≤ ·)
  half : (1 / 2 : ℚ) * vs.length ≤ between vs row.low1 row.high1
  threeQuarters : (3 / 4 : ℚ) * vs.length ≤ between vs row.low2 row.high2
  nineTenths : (9 / 10 : ℚ) * vs.length ≤ between vs row.low3 row.high3

/-! ## Proofs -/

omit [LinearOrder I] in
theorem usedFiles_eq (trunk : String) (directory : List (String × File I)) :
    (directory.filter fun e => Discrepance.chosen trunk e.1).map Prod.snd = usedFiles trunk directory := by
  unfold usedFiles
  congr 1
  apply List.filter_congr
  rintro ⟨name, file⟩ -
  have h1 : (".".toList : List Char) = ['.'] := by decide +kernel
  rw [Bool.eq_iff_iff]
  simp only [Discrepance.chosen, h1, Bool.and_eq_true, Bool.not_eq_true', List.isPrefixOf_iff_prefix, decide_eq_true_eq]
  rw [and_comm]
  refine and_congr_right fun _ => ?_
  rw [← Bool.not_eq_true, List.isPrefixOf_iff_prefix]
  cases name.toList with
  | nil => simp
  | cons a l => simp [List.cons_prefix_cons, eq_comm]

/-- What the files do with one class and type. -/
def addOpts (K : Kind Q S) : ℕ → List (Component I S) → List (Option (List (Component I Q))) → Res (List (Component I S))
  | _, out, [] => Res.ok out
  | n, out, run :: runs => do
    let out' ← addType K n run out
    addOpts K (n + 1) out' runs

theorem addOpts_none (K : Kind Q S) : ∀ (n m : ℕ) (out : List (Component I S)),
    addOpts K n out (List.replicate m none) = Res.ok out
  | _, 0, _ => rfl
  | n, m + 1, out => by
    simp only [List.replicate_succ, addOpts, addType, Res.ok_bind]
    exact addOpts_none K (n + 1) m out

theorem addOpts_some (K : Kind Q S) : ∀ (runs : List (List (Component I Q))) (n : ℕ) (out : List (Component I S)),
    addOpts K n out (runs.map some) = addRuns K n out runs
  | [], _, _ => rfl
  | run :: runs, n, out => by
    simp only [List.map_cons, addOpts, addType, addRuns]
    exact congrArg _ (funext fun o => addOpts_some K runs (n + 1) o)

theorem addFile_ok {K : Kind Q S} {n : ℕ} {part : Types I → String → Option (List (Component I Q))} {types : List String}
    (ht : types.Nodup) {run : File I} {out out' : String → String → List (Component I S)} :
    addFile K n part types run out = Res.ok out' ↔
      (∀ c ∈ compclasses, ∀ t ∈ types, addType K n (at' part run c t) (out c t) = Res.ok (out' c t)) ∧
      ∀ c t, ¬ (c ∈ compclasses ∧ t ∈ types) → out' c t = out c t := by
  have hclass : ∀ (run : Option (Types I)) (o o' : String → List (Component I S)), addClass K n part types run o = Res.ok o' ↔
      (∀ t ∈ types, addType K n (run.bind (part · t)) (o t) = Res.ok (o' t)) ∧ ∀ t, t ∉ types → o' t = o t := by
    intro run o o'
    cases run with
    | none =>
      simp only [addClass, Res.ok.injEq, Option.bind_none, addType]
      refine ⟨fun h => ⟨fun t _ => by rw [h], fun t _ => by rw [h]⟩, fun h => funext fun t => ?_⟩
      by_cases hm : t ∈ types
      · exact h.1 t hm
      · exact (h.2 t hm).symm
    | some q => simp [addClass, loop_ok ht]
  unfold addFile
  rw [loop_ok compclasses_nodup]
  simp only [hclass]
  constructor
  · rintro ⟨h1, h2⟩
    refine ⟨fun c hc => (h1 c hc).1, fun c t h => ?_⟩
    by_cases hc : c ∈ compclasses
    · exact (h1 c hc).2 t fun ht => h ⟨hc, ht⟩
    · rw [h2 c hc]
  · rintro ⟨h1, h2⟩
    refine ⟨fun c hc => ⟨h1 c hc, fun t ht => h2 c t fun h => ht h.2⟩, fun c hc => ?_⟩
    funext t
    exact h2 c t fun h => hc h.1

/-- The files for one kind of quantities. -/
def addFilesOf (K : Kind Q S) (part : Types I → String → Option (List (Component I Q))) (types : List String) :
    ℕ → List (File I) → (String → String → List (Component I S)) → Res (String → String → List (Component I S))
  | _, [], out => Res.ok out
  | n, run :: runs, out => do
    let out' ← addFile K n part types run out
    addFilesOf K part types (n + 1) runs out'

theorem addFiles_ok {A : Number S} : ∀ {n : ℕ} {runs : List (File I)} {out out' : Output I S},
    addFiles A n runs out = Res.ok out' ↔
      addFilesOf (power A) Types.power powerTypes n runs out.power = Res.ok out'.power ∧
      addFilesOf (gas A) Types.gas gasTypes n runs out.gas = Res.ok out'.gas
  | n, [], out, out' => by
    simp only [addFiles, addFilesOf, Res.ok.injEq]
    constructor
    · rintro rfl; exact ⟨rfl, rfl⟩
    · rintro ⟨h1, h2⟩; cases out; cases out'; simp_all
  | n, run :: runs, out, out' => by
    simp only [addFiles, addFilesOf, Res.bind_eq_ok, addFiles_ok (runs := runs)]
    constructor
    · rintro ⟨p, hp, g, hg, h1, h2⟩; exact ⟨⟨p, hp, h1⟩, ⟨g, hg, h2⟩⟩
    · rintro ⟨⟨p, hp, h1⟩, ⟨g, hg, h2⟩⟩; exact ⟨p, hp, g, hg, h1, h2⟩

theorem addFilesOf_ok {K : Kind Q S} {part : Types I → String → Option (List (Component I Q))} {types : List String}
    (ht : types.Nodup) : ∀ {n : ℕ} {runs : List (File I)} {out out' : String → String → List (Component I S)},
    addFilesOf K part types n runs out = Res.ok out' ↔
      (∀ c ∈ compclasses, ∀ t ∈ types, addOpts K n (out c t) (runs.map fun run => at' part run c t) = Res.ok (out' c t)) ∧
      ∀ c t, ¬ (c ∈ compclasses ∧ t ∈ types) → out' c t = out c t
  | n, [], out, out' => by
    simp only [addFilesOf, Res.ok.injEq, List.map_nil, addOpts]
    refine ⟨fun h => ⟨fun c _ t _ => by rw [h], fun c t _ => by rw [h]⟩, fun h => funext fun c => funext fun t => ?_⟩
    by_cases hm : c ∈ compclasses ∧ t ∈ types
    · exact h.1 c hm.1 t hm.2
    · exact (h.2 c t hm).symm
  | n, run :: runs, out, out' => by
    simp only [addFilesOf, Res.bind_eq_ok, addFile_ok ht, addFilesOf_ok ht (runs := runs), List.map_cons, addOpts]
    constructor
    · rintro ⟨o, ⟨h1, h2⟩, h3, h4⟩
      exact ⟨fun c hc t htt => ⟨o c t, h1 c hc t htt, h3 c hc t htt⟩, fun c t h => (h4 c t h).trans (h2 c t h)⟩
    · rintro ⟨h1, h2⟩
      classical
      choose! o ho using h1
      refine ⟨fun c t => if c ∈ compclasses ∧ t ∈ types then o c t else out c t, ⟨fun c hc t htt => ?_, fun c t h => if_neg h⟩,
        fun c hc t htt => ?_, fun c t h => ?_⟩
      · dsimp only; rw [if_pos ⟨hc, htt⟩]; exact (ho c hc t htt).1
      · dsimp only; rw [if_pos ⟨hc, htt⟩]; exact (ho c hc t htt).2
      · dsimp only; rw [if_neg h]; exact h2 c t h

/-- If all runs are alike, everything is collected. -/
theorem collect {K : Kind Q S} {R : Q → Q → Prop} {P : Q → List Q → S → Prop} (hK : Correct K R P)
    {part : Types I → String → Option (List (Component I Q))} {types : List String} (ht : types.Nodup) {shape : File I}
    {runs : List (File I)} (hne : runs ≠ []) (hs : ∀ c t l, at' part shape c t = some l → Sorted l)
    (h : ∀ run ∈ runs, ∀ c ∈ compclasses, ∀ t ∈ types, (at' part shape c t = none ∧ at' part run c t = none) ∨
      ∃ r q, at' part shape c t = some r ∧ at' part run c t = some q ∧ SameLayout R r q) :
    ∃ out, addFilesOf K part types 0 runs (fun _ _ => []) = Res.ok out ∧
      (∀ c ∈ compclasses, ∀ t ∈ types, ∀ r, at' part shape c t = some r →
        Discrepance.times (out c t) = Discrepance.times ((at' part (runs.head hne) c t).getD []) ∧
        Tracks P runs.length (Discrepance.history (runs.map fun run => (at' part run c t).getD [])) r (out c t)) ∧
      ∀ c t, ¬ (c ∈ compclasses ∧ t ∈ types ∧ (at' part shape c t).isSome) → out c t = [] := by
  have hcollect : ∀ c t, ∃ l, (c ∈ compclasses → t ∈ types →
      addOpts K 0 [] (runs.map fun run => at' part run c t) = Res.ok l) ∧
      (c ∈ compclasses → t ∈ types → ∀ r, at' part shape c t = some r →
        Discrepance.times l = Discrepance.times ((at' part (runs.head hne) c t).getD []) ∧
        Tracks P runs.length (Discrepance.history (runs.map fun run => (at' part run c t).getD [])) r l) ∧
      (¬ (c ∈ compclasses ∧ t ∈ types ∧ (at' part shape c t).isSome) → l = []) := by
    intro c t
    by_cases hk : c ∈ compclasses ∧ t ∈ types
    · cases hr : at' part shape c t with
      | none =>
        refine ⟨[], fun _ _ => ?_, by simp, fun _ => rfl⟩
        have : (runs.map fun run => at' part run c t) = List.replicate runs.length none := by
          rw [List.eq_replicate_iff]
          refine ⟨by simp, fun b hb => ?_⟩
          obtain ⟨run, hrun, rfl⟩ := List.mem_map.mp hb
          rcases h run hrun c hk.1 t hk.2 with h1 | ⟨r, q, h1, -⟩
          · exact h1.2
          · rw [hr] at h1; cases h1
        rw [this, addOpts_none]
      | some r =>
        have hq : ∀ run ∈ runs, ∃ q, at' part run c t = some q ∧ SameLayout R r q := by
          intro run hrun
          rcases h run hrun c hk.1 t hk.2 with h1 | ⟨r', q, h1, h2, h3⟩
          · rw [hr] at h1; cases h1.1
          · rw [hr] at h1
            injection h1 with h1
            subst h1
            exact ⟨q, h2, h3⟩
        obtain ⟨d, hd, htd, htr⟩ := addRuns_spec hK (hs c t r hr) (runs := runs.map fun run => (at' part run c t).getD [])
          (by simpa using hne) (by
            intro q hqm
            obtain ⟨run, hrun, rfl⟩ := List.mem_map.mp hqm
            obtain ⟨q, hq1, hq2⟩ := hq run hrun
            rw [hq1]; exact hq2)
        refine ⟨d, fun _ _ => ?_, fun _ _ r' hr' => ?_, fun hn => absurd ⟨hk.1, hk.2, by simp⟩ hn⟩
        · have : (runs.map fun run => at' part run c t) = (runs.map fun run => (at' part run c t).getD []).map some := by
            rw [List.map_map]
            apply List.map_congr_left
            intro run hrun
            obtain ⟨q, hq1, -⟩ := hq run hrun
            simp [hq1]
          rw [this, addOpts_some]
          exact hd
        · injection hr' with hr'
          subst hr'
          refine ⟨by simpa [List.head_map] using htd, by simpa using htr⟩
    · refine ⟨[], fun h1 h2 => absurd ⟨h1, h2⟩ hk, fun h1 h2 => absurd ⟨h1, h2⟩ hk, fun _ => rfl⟩
  choose out h1 h2 h3 using hcollect
  refine ⟨out, (addFilesOf_ok ht).mpr ⟨fun c hc t htt => h1 c t hc htt, fun c t hct => h3 c t fun hk => hct ⟨hk.1, hk.2.1⟩⟩,
    fun c hc t htt r hr => h2 c t hc htt r hr, fun c t hct => h3 c t hct⟩

theorem history_le (runs : List (List (Component I Q))) (id : I) (i : ℕ) (key : String) :
    (Discrepance.history runs id i key).length ≤ runs.length := by
  induction runs with
  | nil => simp [Discrepance.history]
  | cons run runs ih =>
    simp only [Discrepance.history, List.flatMap_cons, List.length_append, List.length_cons] at ih ⊢
    have : ((quantityAt run id i key).toList).length ≤ 1 := by cases quantityAt run id i key <;> simp
    omega

theorem history_all {runs : List (List (Component I Q))} {id : I} {i : ℕ} {key : String}
    (h : (Discrepance.history runs id i key).length = runs.length) :
    List.Forall₂ (fun run v => quantityAt run id i key = some v) runs (Discrepance.history runs id i key) := by
  induction runs with
  | nil => exact List.Forall₂.nil
  | cons run runs ih =>
    have hle := history_le runs id i key
    simp only [Discrepance.history, List.flatMap_cons, List.length_append, List.length_cons] at ih h hle ⊢
    cases hq : quantityAt run id i key with
    | none => rw [hq] at h; simp only [Option.toList_none, List.length_nil] at h; omega
    | some v =>
      rw [hq] at h
      simp only [Option.toList_some, List.length_singleton] at h
      exact List.Forall₂.cons hq (ih (by omega))

theorem totalFrom_meanSigma : ∀ (vs : List ℚ) (n : ℕ) (s : ℝ × ℝ),
    totalFrom meanSigma n s vs = processFrom n s.1 s.2 (vs.map fun v : ℚ => (v : ℝ))
  | [], _, _ => rfl
  | v :: vs, n, s => by rw [totalFrom, totalFrom_meanSigma vs]; rfl

theorem total_meanSigma {vs : List ℚ} {s : ℝ × ℝ} (h : total meanSigma vs = some s) :
    s = (mean (vs.map fun v : ℚ => (v : ℝ)), deviation (vs.map fun v : ℚ => (v : ℝ))) := by
  cases vs with
  | nil => simp [total] at h
  | cons v vs =>
    simp only [total, Option.some.injEq] at h
    rw [← h, totalFrom_meanSigma]
    exact C61_exact v _

theorem totalFrom_values : ∀ (vs : List ℚ) (n : ℕ) (s : List ℚ), totalFrom values n s vs = s ++ vs
  | [], _, _ => by simp [totalFrom]
  | v :: vs, n, s => by rw [totalFrom, totalFrom_values vs]; simp [values]

theorem total_values {vs s : List ℚ} (h : total values vs = some s) : s = vs := by
  cases vs with
  | nil => simp [total] at h
  | cons v vs =>
    simp only [total, Option.some.injEq] at h
    rw [← h, totalFrom_values]
    rfl

theorem data_none {P : Q → List Q → S → Prop} {n : ℕ} (refs : List (Step Q)) :
    ∀ (hist : ℕ → String → List Q) (ds : List (Step S)), TracksData P n hist refs ds →
    ∀ (i : ℕ) (t : Step S), ds[i]? = some t → ∃ s, refs[i]? = some s ∧
      List.Forall₂ (fun p e => p.1 = e.1 ∧ (hist i p.1).length = n ∧ P p.2 (hist i p.1) e.2) s.values t.values := by
  induction refs with
  | nil =>
    intro hist ds h i s hs
    cases ds with
    | nil => simp at hs
    | cons d ds => exact h.elim
  | cons r rs ih =>
    intro hist ds h i s hs
    cases ds with
    | nil => exact h.elim
    | cons d ds =>
      cases i with
      | zero =>
        simp only [List.getElem?_cons_zero, Option.some.injEq] at hs ⊢
        subst hs
        exact ⟨r, rfl, h.1⟩
      | succ i =>
        simp only [List.getElem?_cons_succ] at hs ⊢
        exact ih _ ds h.2 i s hs

theorem lookup_of_keys {a : List (String × Q)} {b : List (String × S)} (h : a.map Prod.fst = b.map Prod.fst) (key : String) :
    (a.lookup key).isSome = (b.lookup key).isSome := by
  induction a generalizing b with
  | nil => cases b <;> simp_all
  | cons x a ih =>
    cases b with
    | nil => simp at h
    | cons y b =>
      obtain ⟨k, v⟩ := x
      obtain ⟨k', w⟩ := y
      simp only [List.map_cons, List.cons.injEq] at h
      obtain ⟨rfl, h⟩ := h
      simp only [List.lookup_cons]
      cases key == k <;> simp [ih h]

/-- Only the quantities of the shape are in the results. -/
theorem tracks_only {P : Q → List Q → S → Prop} {n : ℕ} {hist : I → ℕ → String → List Q} {ref : List (Component I Q)}
    {out : List (Component I S)} (h : Tracks P n hist ref out) {id : I} {i : ℕ} {key : String}
    (ho : (quantityAt out id i key).isSome) : (quantityAt ref id i key).isSome := by
  unfold Tracks at h
  induction h with
  | nil => simp [quantityAt] at ho
  | @cons c o _ _ hco _ ih =>
    obtain ⟨hid, hdata⟩ := hco
    by_cases hc : c.id = id
    · have ho' : o.id = id := hid ▸ hc
      simp only [quantityAt, ho', decide_true, List.find?_cons_of_pos, Option.bind_eq_bind, Option.bind_some] at ho
      obtain ⟨d, hd⟩ := Option.isSome_iff_exists.mp ho
      obtain ⟨t, ht, hl⟩ := Option.bind_eq_some_iff.mp hd
      obtain ⟨s, hs, hrel⟩ := data_none _ _ _ hdata i t ht
      have := lookup_of_keys (keys_eq hrel) key
      simp only [quantityAt, hc, decide_true, List.find?_cons_of_pos, Option.bind_eq_bind, Option.bind_some, hs]
      rw [this, hl]
      rfl
    · have ho' : ¬ o.id = id := hid ▸ hc
      have := ih (by simpa [quantityAt, ho'] using ho)
      simpa [quantityAt, hc] using this

omit [LinearOrder I] in
theorem partValues {part : Types I → String → Option (List (Component I Q))} {files : List (File I)} {c t : String}
    {R : List (Component I Q) → Q → Prop} {vs : List Q} (hsome : ∀ f ∈ files, (at' part f c t).isSome)
    (h : List.Forall₂ R (files.map fun f => (at' part f c t).getD []) vs) :
    List.Forall₂ (fun f v => ∃ l, at' part f c t = some l ∧ R l v) files vs := by
  rw [List.forall₂_map_left_iff] at h
  refine Discrepance.forall₂_imp_mem h ?_
  intro f hf v hv
  obtain ⟨l, hl⟩ := Option.isSome_iff_exists.mp (hsome f hf)
  exact ⟨l, hl, by simpa [hl] using hv⟩

/-- What is collected for the numbers of all files, whatever is done with them. -/
theorem collected {A : Number S} {files : List (File I)} {shape : File I} (hne : files ≠ []) (hs : AllSorted shape)
    (ha : ∀ f ∈ files, Alike shape f) :
    ∃ out, addFiles A 0 files ⟨fun _ _ => [], fun _ _ => []⟩ = Res.ok out ∧
      (∀ c ∈ compclasses, ∀ t ∈ powerTypes, ∀ r, powerPart shape c t = some r →
        Discrepance.times (out.power c t) = Discrepance.times ((powerPart (files.head hne) c t).getD []) ∧
        Tracks (fun _ qs s => total A qs = some s) files.length
          (Discrepance.history (files.map fun run => (powerPart run c t).getD [])) r (out.power c t)) ∧
      (∀ c t, ¬ (c ∈ compclasses ∧ t ∈ powerTypes ∧ (powerPart shape c t).isSome) → out.power c t = []) ∧
      (∀ c ∈ compclasses, ∀ t ∈ gasTypes, ∀ r, gasPart shape c t = some r →
        Discrepance.times (out.gas c t) = Discrepance.times ((gasPart (files.head hne) c t).getD []) ∧
        Tracks (fun r qs s => r.map Prod.fst = s.map Prod.fst ∧ (r.map Prod.fst).Pairwise (· < ·) ∧
            ∀ (j : ℕ) (x : ℚ) (e : S), s[j]? = some (x, e) → total A (qs.map fun q => valueAt q j) = some e) files.length
          (Discrepance.history (files.map fun run => (gasPart run c t).getD [])) r (out.gas c t)) ∧
      ∀ c t, ¬ (c ∈ compclasses ∧ t ∈ gasTypes ∧ (gasPart shape c t).isSome) → out.gas c t = [] := by
  obtain ⟨p, hp, hp1, hp2⟩ := collect (correct_power A) powerTypes_nodup hne (part := Types.power) hs.1
    fun f hf => (ha f hf).power
  obtain ⟨g, hg, hg1, hg2⟩ := collect (correct_gas A) gasTypes_nodup hne (part := Types.gas) hs.2 fun f hf => (ha f hf).gas
  exact ⟨⟨p, g⟩, addFiles_ok.mpr ⟨hp, hg⟩, hp1, hp2, hg1, hg2⟩

/-- The values that were collected are the ones of the files. -/
theorem powerValues {files : List (File I)} {shape : File I} (ha : ∀ f ∈ files, Alike shape f) {c t : String}
    (hc : c ∈ compclasses) (ht : t ∈ powerTypes) {r : List (Component I ℚ)} (hr : powerPart shape c t = some r) {id : I} {i : ℕ}
    {key : String} (h : (Discrepance.history (files.map fun run => (powerPart run c t).getD []) id i key).length = files.length) :
    PowerValues files c t id i key (Discrepance.history (files.map fun run => (powerPart run c t).getD []) id i key) := by
  refine partValues (part := Types.power) (R := fun l v => quantityAt l id i key = some v) (fun f hf => ?_)
    (history_all (h.trans (by simp)))
  rcases (ha f hf).power c hc t ht with ⟨h1, -⟩ | ⟨r', q, -, h2, -⟩
  · rw [hr] at h1; cases h1
  · exact Option.isSome_iff_exists.mpr ⟨q, h2⟩

theorem sameLayout_at {R : Q → Q → Prop} {r q : List (Component I Q)} (h : SameLayout R r q) {id : I} {i : ℕ} {key : String} {a b : Q}
    (h1 : quantityAt r id i key = some a) (h2 : quantityAt q id i key = some b) : R a b := by
  unfold SameLayout at h
  induction h with
  | nil => simp [quantityAt] at h1
  | @cons c d _ _ hcd _ ih =>
    by_cases hc : c.id = id
    · have hd : d.id = id := hcd.1 ▸ hc
      simp only [quantityAt, hc, hd, decide_true, List.find?_cons_of_pos, Option.bind_eq_bind, Option.bind_some] at h1 h2
      obtain ⟨s, hs, h1⟩ := Option.bind_eq_some_iff.mp h1
      obtain ⟨s', hs', h2⟩ := Option.bind_eq_some_iff.mp h2
      obtain ⟨hi, rfl⟩ := List.getElem?_eq_some_iff.mp hs
      obtain ⟨hi', rfl⟩ := List.getElem?_eq_some_iff.mp hs'
      have := List.Forall₂.get hcd.2 hi hi'
      obtain ⟨v, hv, hR⟩ := values_at (T := fun _ a b => R a b) this h1
      rw [List.get_eq_getElem, h2] at hv
      injection hv with hv
      exact hv ▸ hR
    · have hd : ¬ d.id = id := hcd.1 ▸ hc
      exact ih (by simpa [quantityAt, hc] using h1) (by simpa [quantityAt, hd] using h2)

theorem gasValues {files : List (File I)} {shape : File I} (ha : ∀ f ∈ files, Alike shape f) {c t : String}
    (hc : c ∈ compclasses) (ht : t ∈ gasTypes) {r : List (Component I (List Point))} (hr : gasPart shape c t = some r) {id : I} {i : ℕ}
    {key : String} (h : (Discrepance.history (files.map fun run => (gasPart run c t).getD []) id i key).length = files.length)
    {q : List Point} (hq : quantityAt r id i key = some q) {j : ℕ} {p : Point} (hp : q[j]? = some p) :
    GasValues files c t id i key j p.1
      ((Discrepance.history (files.map fun run => (gasPart run c t).getD []) id i key).map fun q => valueAt q j) := by
  unfold GasValues
  rw [List.forall₂_map_right_iff]
  have h1 := partValues (part := Types.gas) (R := fun l v => quantityAt l id i key = some v) (fun f hf => by
    rcases (ha f hf).gas c hc t ht with ⟨h1, -⟩ | ⟨r', q, -, h2, -⟩
    · rw [hr] at h1; cases h1
    · exact Option.isSome_iff_exists.mpr ⟨q, h2⟩) (history_all (h.trans (by simp)))
  refine Discrepance.forall₂_imp_mem h1 ?_
  rintro f hf v ⟨l, hl, hv⟩
  refine ⟨l, v, hl, hv, ?_⟩
  rcases (ha f hf).gas c hc t ht with ⟨h1, -⟩ | ⟨r', q', h1, h2, h3⟩
  · rw [hr] at h1; cases h1
  · rw [hr] at h1
    injection h1 with h1
    subst h1
    change gasPart f c t = some l at hl
    rw [hl] at h2
    injection h2 with h2
    subst h2
    have hsp := sameLayout_at h3 hq hv
    have hx : (v.map Prod.fst)[j]? = some p.1 := by rw [← hsp.2.1]; simp [hp]
    rw [List.getElem?_map, Option.map_eq_some_iff] at hx
    obtain ⟨⟨x, w⟩, hw, hx⟩ := hx
    simp only at hx
    subst hx
    simp [hw, valueAt]

/-- **C162**: if all files that are used hold the same components, time steps, quantities and points, then the program ends well, and
what it writes are the means and the standard deviations over all these files: of each quantity of each component of the considered
types at each time step, for gas components at each point; with the ids and times of the first file; and nothing else. -/
theorem C162_means {trunk : String} {directory : List (String × File I)} {shape first : File I} {rest : List (File I)}
    (hu : usedFiles trunk directory = first :: rest) (hs : AllSorted shape) (ha : ∀ f ∈ first :: rest, Alike shape f) :
    ∃ out, meanSigmaMain trunk directory = Res.ok out ∧
      (∀ c ∈ ["nodes", "connections"], ∀ t ∈ comparedPower, ∀ l, powerPart shape c t = some l →
        Discrepance.times (out.power c t) = Discrepance.times ((powerPart first c t).getD []) ∧
        ∀ id i key, match quantityAt l id i key with
          | none => quantityAt (out.power c t) id i key = none
          | some _ => ∃ vs, PowerValues (first :: rest) c t id i key vs ∧ quantityAt (out.power c t) id i key =
              some (mean (vs.map fun v : ℚ => (v : ℝ)), deviation (vs.map fun v : ℚ => (v : ℝ)))) ∧
      (∀ c t, ¬ (c ∈ ["nodes", "connections"] ∧ t ∈ comparedPower ∧ (powerPart shape c t).isSome) → out.power c t = []) ∧
      (∀ c ∈ ["nodes", "connections"], ∀ t ∈ comparedGas, ∀ l, gasPart shape c t = some l →
        Discrepance.times (out.gas c t) = Discrepance.times ((gasPart first c t).getD []) ∧
        ∀ id i key, match quantityAt l id i key with
          | none => quantityAt (out.gas c t) id i key = none
          | some q => ∃ d, quantityAt (out.gas c t) id i key = some d ∧ d.length = q.length ∧
              ∀ (j : ℕ) (p : Point), q[j]? = some p → ∃ vs, GasValues (first :: rest) c t id i key j p.1 vs ∧ d[j]? =
                some (p.1, mean (vs.map fun v : ℚ => (v : ℝ)), deviation (vs.map fun v : ℚ => (v : ℝ)))) ∧
      ∀ c t, ¬ (c ∈ ["nodes", "connections"] ∧ t ∈ comparedGas ∧ (gasPart shape c t).isSome) → out.gas c t = [] := by
  obtain ⟨out, ho, hp, hp0, hg, hg0⟩ := collected (A := meanSigma) (List.cons_ne_nil first rest) hs ha
  refine ⟨out, by rw [meanSigmaMain, usedFiles_eq, hu, ho], fun c hc t ht l hl => ⟨(hp c hc t ht l hl).1, fun id i key => ?_⟩, hp0,
    fun c hc t ht l hl => ⟨(hg c hc t ht l hl).1, fun id i key => ?_⟩, hg0⟩
  · have htr := (hp c hc t ht l hl).2
    cases hq : quantityAt l id i key with
    | none =>
      dsimp only
      by_contra hno
      have := tracks_only htr (Option.isSome_iff_ne_none.mpr hno)
      rw [hq] at this
      cases this
    | some r =>
      dsimp only
      obtain ⟨d, hd, hlen, hP⟩ := tracks_at htr hq
      refine ⟨_, powerValues ha hc ht hl hlen, ?_⟩
      rw [hd, total_meanSigma hP]
  · have htr := (hg c hc t ht l hl).2
    cases hq : quantityAt l id i key with
    | none =>
      dsimp only
      by_contra hno
      have := tracks_only htr (Option.isSome_iff_ne_none.mpr hno)
      rw [hq] at this
      cases this
    | some r =>
      dsimp only
      obtain ⟨d, hd, hlen, hk, -, hP⟩ := tracks_at htr hq
      refine ⟨d, hd, ?_, fun j p hp => ⟨_, gasValues ha hc ht hl hlen hq hp, ?_⟩⟩
      · have := congrArg List.length hk
        simpa using this.symm
      · have hx : (d.map Prod.fst)[j]? = some p.1 := by rw [← hk]; simp [hp]
        rw [List.getElem?_map, Option.map_eq_some_iff] at hx
        obtain ⟨⟨x, w⟩, hw, hx⟩ := hx
        simp only at hx
        subst hx
        rw [hw, total_meanSigma (hP j _ _ hw)]

/-! ### Quantiles -/

theorem count_sub {l : List ℚ} (p : ℚ → Bool) {m : List ℚ} (h : m.Sublist l) (hp : ∀ x ∈ m, p x = true) : m.length ≤ l.countP p := by
  have h1 := h.countP_le (p := p)
  rwa [List.countP_eq_length.mpr hp] at h1

theorem sorted_le {l : List ℚ} (hs : l.Pairwise (· ≤ ·)) {i j : ℕ} (hij : i ≤ j) (hj : j < l.length) :
    l[i]'(lt_of_le_of_lt hij hj) ≤ l[j] := by
  rcases eq_or_lt_of_le hij with rfl | hlt
  · exact le_rfl
  · exact List.pairwise_iff_getElem.mp hs i j _ hj hlt

theorem count_between {l : List ℚ} (hs : l.Pairwise (· ≤ ·)) {i j : ℕ} (hij : i ≤ j) (hj : j < l.length) :
    j - i + 1 ≤ between l (l[i]'(lt_of_le_of_lt hij hj)) l[j] := by
  have h := count_sub (l := l) (fun v => decide (l[i]'(lt_of_le_of_lt hij hj) ≤ v ∧ v ≤ l[j]))
    (m := (l.drop i).take (j - i + 1)) ((List.take_sublist _ _).trans (List.drop_sublist _ _)) (by
      intro x hx
      obtain ⟨k, hk, rfl⟩ := List.mem_iff_getElem.mp hx
      simp only [List.length_take, List.length_drop] at hk
      simp only [List.getElem_take, List.getElem_drop, decide_eq_true_eq]
      exact ⟨sorted_le hs (by omega) _, sorted_le hs (by omega) _⟩)
  simp only [List.length_take, List.length_drop] at h
  unfold between
  omega

theorem count_below {l : List ℚ} (hs : l.Pairwise (· ≤ ·)) {j : ℕ} (hj : j < l.length) :
    j + 1 ≤ l.countP fun v => decide (v ≤ l[j]) := by
  have h := count_sub (l := l) (fun v => decide (v ≤ l[j])) (List.take_sublist (j + 1) l) (by
      intro x hx
      obtain ⟨k, hk, rfl⟩ := List.mem_iff_getElem.mp hx
      simp only [List.length_take] at hk
      simp only [List.getElem_take, decide_eq_true_eq]
      exact sorted_le hs (by omega) _)
  simp only [List.length_take] at h
  omega

theorem count_above {l : List ℚ} (hs : l.Pairwise (· ≤ ·)) {j : ℕ} (hj : j < l.length) :
    l.length - j ≤ l.countP fun v => decide (l[j] ≤ v) := by
  have h := count_sub (l := l) (fun v => decide (l[j] ≤ v)) (List.drop_sublist j l) (by
      intro x hx
      obtain ⟨k, hk, rfl⟩ := List.mem_iff_getElem.mp hx
      simp only [List.length_drop] at hk
      simp only [List.getElem_drop, decide_eq_true_eq]
      exact sorted_le hs (by omega) _)
  simpa using h

theorem index_share {n : ℕ} {q : ℚ} (h0 : 0 ≤ q) (hq : q ≤ 1) : q * n ≤ (highIndex n q - lowIndex n q + 1 : ℕ) := by
  have hle := low_le_high (n := n) h0
  have h1 : (1 / 2 * n + q * (1 / 2) * n + 1 / 2 : ℚ) < highIndex n q + 1 := Nat.lt_floor_add_one _
  have h2 : (lowIndex n q : ℚ) ≤ (1 / 2 * n - q * (1 / 2) * n + 1 / 2 : ℚ) := by
    apply Nat.floor_le
    have : (0 : ℚ) ≤ n := by positivity
    nlinarith
  push_cast [hle]
  linarith

theorem middle {n : ℕ} : highIndex n 0 = (n + 1) / 2 := by
  unfold highIndex round
  rw [show (1 / 2 * n + 0 * (1 / 2) * n + 1 / 2 : ℚ) = ((n + 1 : ℕ) : ℚ) / ((2 : ℕ) : ℚ) by push_cast; ring]
  exact Nat.floor_div_eq_div _ _

/-- What is written for one quantity (at one point) of at least eleven runs. -/
theorem rowOf_spec {vs : List ℚ} (h : 11 ≤ vs.length) :
    ∃ row, rowOf vs = Res.ok row ∧ Quantiles vs row ∧ (2 ∣ vs.length → IsMedian vs row.median) := by
  set l := vs.insertionSort (· ≤ ·) with hl
  have hperm : l.Perm vs := List.perm_insertionSort _ _
  have hs : l.Pairwise (· ≤ ·) := List.pairwise_insertionSort _ _
  have hlen : l.length = vs.length := hperm.length_eq
  have hn : 11 ≤ l.length := hlen ▸ h
  obtain ⟨a1, b1, h1⟩ := quantile_ok (q := 0) hn (by norm_num) (by norm_num)
  obtain ⟨a2, b2, h2⟩ := quantile_ok (q := 1 / 2) hn (by norm_num) (by norm_num)
  obtain ⟨a3, b3, h3⟩ := quantile_ok (q := 3 / 4) hn (by norm_num) (by norm_num)
  obtain ⟨a4, b4, h4⟩ := quantile_ok (q := 9 / 10) hn (by norm_num) (by norm_num)
  have n12 := C62_nested_partial hn hs (by norm_num) (by norm_num) (by norm_num) h1 h2
  have n23 := C62_nested_partial hn hs (by norm_num) (by norm_num) (by norm_num) h2 h3
  have n34 := C62_nested_partial hn hs (by norm_num) (by norm_num) (by norm_num) h3 h4
  simp only at n12 n23 n34
  have hmem : ∀ {i : ℕ} (hi : i < l.length), l[i] ∈ vs := fun hi => hperm.mem_iff.mp (List.getElem_mem hi)
  have hbetween : ∀ low high, between vs low high = between l low high := fun low high => (hperm.countP_eq _).symm
  have hshare : ∀ {q : ℚ} (_ : 0 ≤ q) (_ : q ≤ 1) (a : lowIndex l.length q < l.length) (b : highIndex l.length q < l.length),
      q * vs.length ≤ between vs l[lowIndex l.length q] l[highIndex l.length q] := by
    intro q h0 hq a b
    rw [hbetween, ← hlen]
    refine (index_share h0 hq).trans ?_
    exact_mod_cast count_between hs (low_le_high h0) b
  refine ⟨⟨l[highIndex l.length 0], l[lowIndex l.length (1 / 2)], l[highIndex l.length (1 / 2)], l[lowIndex l.length (3 / 4)],
    l[highIndex l.length (3 / 4)], l[lowIndex l.length (9 / 10)], l[highIndex l.length (9 / 10)]⟩, ?_, ⟨?_, ?_, ?_, ?_, ?_⟩, ?_⟩
  · rw [rowOf, ← hl]
    simp only [makeQuantiles, quantileValues, quantiles, h1, h2, h3, h4]
    rfl
  · simp [hmem]
  · simp only [List.pairwise_cons, List.mem_cons, List.not_mem_nil, or_false, forall_eq_or_imp, forall_eq, false_imp_iff,
      implies_true, List.Pairwise.nil, and_true]
    refine ⟨⟨?_, ?_, ?_, ?_, ?_, ?_⟩, ⟨?_, ?_, ?_, ?_, ?_⟩, ⟨?_, ?_, ?_, ?_⟩, ⟨?_, ?_, ?_⟩, ⟨?_, ?_⟩, ?_⟩ <;> linarith
  · exact hshare (by norm_num) (by norm_num) a2 b2
  · exact hshare (by norm_num) (by norm_num) a3 b3
  · exact hshare (by norm_num) (by norm_num) a4 b4
  · rintro ⟨k, hk⟩
    have hm : highIndex l.length 0 = k := by rw [middle]; omega
    have hb := count_below hs b1
    have hc := count_above hs b1
    rw [hperm.countP_eq] at hb hc
    refine ⟨?_, ?_⟩
    · simp only; omega
    · simp only; omega

theorem each_exists {α β : Type} {l : List α} {f : α → Res β} (h : ∀ a ∈ l, ∃ b, f a = Res.ok b) : ∃ ys, Res.each l f = Res.ok ys := by
  induction l with
  | nil => exact ⟨[], rfl⟩
  | cons a l ih =>
    obtain ⟨b, hb⟩ := h a (by simp)
    obtain ⟨ys, hy⟩ := ih fun x hx => h x (by simp [hx])
    exact ⟨b :: ys, by simp [Res.each, hb, hy]⟩

theorem fill_exists {β γ : Type} {f : β → Res γ} {empty : γ} : ∀ {ks : List String} {out : String → β}, ks.Nodup →
    (∀ k ∈ ks, ∃ g, f (out k) = Res.ok g) →
    ∃ out', fill f empty ks out = Res.ok out' ∧ (∀ k ∈ ks, f (out k) = Res.ok (out' k)) ∧ ∀ k, k ∉ ks → out' k = empty
  | [], _, _, _ => ⟨_, rfl, by simp, fun _ _ => rfl⟩
  | k :: ks, out, hn, h => by
    rw [List.nodup_cons] at hn
    obtain ⟨g, hg⟩ := h k (by simp)
    obtain ⟨rest, hr, h1, h2⟩ := fill_exists (f := f) (empty := empty) hn.2 fun j hj => h j (List.mem_cons_of_mem _ hj)
    refine ⟨Function.update rest k g, by simp [fill, hg, hr], fun j hj => ?_, fun j hj => ?_⟩
    · by_cases hjk : j = k
      · subst hjk; rw [Function.update_self, hg]
      · rw [Function.update_of_ne hjk]
        exact h1 j ((List.mem_cons.mp hj).resolve_left hjk)
    · simp only [List.mem_cons, not_or] at hj
      rw [Function.update_of_ne hj.1]
      exact h2 j hj.2

omit [LinearOrder I] in
theorem components_ok {T : Type} {f : S → Res T} {l : List (Component I S)} {l' : List (Component I T)}
    (h : components f l = Res.ok l') : List.Forall₂ (fun c c' => c.id = c'.id ∧ List.Forall₂ (fun s s' => s.time = s'.time ∧
      List.Forall₂ (fun e e' => e.1 = e'.1 ∧ f e.2 = Res.ok e'.2) s.values s'.values) c.data c'.data) l l' := by
  refine (Res.each_eq_ok.mp h).imp ?_
  intro c c' hc
  obtain ⟨data, hd, hc⟩ := Res.bind_eq_ok.mp hc
  injection hc with hc
  subst hc
  refine ⟨rfl, (Res.each_eq_ok.mp hd).imp ?_⟩
  intro s s' hs
  obtain ⟨vs, hv, hs⟩ := Res.bind_eq_ok.mp hs
  injection hs with hs
  subst hs
  refine ⟨rfl, (Res.each_eq_ok.mp hv).imp ?_⟩
  intro e e' he
  obtain ⟨t, ht, he⟩ := Res.bind_eq_ok.mp he
  injection he with he
  subst he
  exact ⟨rfl, ht⟩

omit [LinearOrder I] in
theorem components_exists {T : Type} {f : S → Res T} {l : List (Component I S)}
    (h : ∀ c ∈ l, ∀ s ∈ c.data, ∀ e ∈ s.values, ∃ t, f e.2 = Res.ok t) : ∃ l', components f l = Res.ok l' := by
  refine each_exists fun c hc => ?_
  obtain ⟨d, hd⟩ := each_exists (l := c.data) (f := fun s => do
      let values ← Res.each s.values fun e => do
        let t ← f e.2
        Res.ok (e.1, t)
      Res.ok (⟨s.time, values⟩ : Step T)) (by
    intro s hs
    obtain ⟨v, hv⟩ := each_exists (l := s.values) (f := fun e => do
        let t ← f e.2
        Res.ok (e.1, t)) (by
      intro e he
      obtain ⟨t, ht⟩ := h c hc s hs e he
      exact ⟨(e.1, t), by simp [ht]⟩)
    exact ⟨_, by rw [hv]; rfl⟩)
  exact ⟨_, by rw [hd]; rfl⟩

omit [LinearOrder I] in
theorem components_times {T : Type} {f : S → Res T} {l : List (Component I S)} {l' : List (Component I T)}
    (h : components f l = Res.ok l') : Discrepance.times l' = Discrepance.times l := by
  replace h := components_ok h
  induction h with
  | nil => rfl
  | cons hc _ ih =>
    have : ∀ {a : List (Step S)} {b : List (Step T)}, List.Forall₂ (fun s s' => s.time = s'.time ∧
      List.Forall₂ (fun e e' => e.1 = e'.1 ∧ f e.2 = Res.ok e'.2) s.values s'.values) a b → b.map Step.time = a.map Step.time := by
      intro a b hab
      induction hab with
      | nil => rfl
      | cons h1 _ ih => simp [h1.1, ih]
    simp only [Discrepance.times, List.map_cons] at ih ⊢
    rw [ih, hc.1, this hc.2]

theorem components_at {T : Type} {f : S → Res T} {l : List (Component I S)} {l' : List (Component I T)}
    (h : components f l = Res.ok l') (id : I) (i : ℕ) (key : String) : match quantityAt l id i key with
      | none => quantityAt l' id i key = none
      | some s => ∃ t, f s = Res.ok t ∧ quantityAt l' id i key = some t := by
  replace h := components_ok h
  induction h with
  | nil => simp [quantityAt]
  | @cons c c' _ _ hc _ ih =>
    by_cases hid : c.id = id
    · have hid' : c'.id = id := hc.1 ▸ hid
      simp only [quantityAt, hid, hid', decide_true, List.find?_cons_of_pos, Option.bind_eq_bind, Option.bind_some]
      by_cases hi : i < c.data.length
      · have hi' : i < c'.data.length := hc.2.length_eq ▸ hi
        have hv := (List.Forall₂.get hc.2 hi hi').2
        simp only [List.get_eq_getElem] at hv
        rw [List.getElem?_eq_getElem hi, List.getElem?_eq_getElem hi']
        simp only [Option.bind_some]
        cases hl : c.data[i].values.lookup key with
        | none =>
          have := lookup_of_keys (keys_eq hv) key
          rw [hl] at this
          simpa using this.symm
        | some s =>
          obtain ⟨t, ht, hf⟩ := values_at (T := fun _ s t => f s = Res.ok t) hv hl
          exact ⟨t, hf, ht⟩
      · have hi' : ¬ i < c'.data.length := hc.2.length_eq ▸ hi
        simp [List.getElem?_eq_none (not_lt.mp hi), List.getElem?_eq_none (not_lt.mp hi')]
    · have hid' : ¬ c'.id = id := hc.1 ▸ hid
      simpa [quantityAt, hid, hid'] using ih

omit [LinearOrder I] in
theorem tracks_all {P : Q → List Q → S → Prop} {n : ℕ} {hist : I → ℕ → String → List Q} {ref : List (Component I Q)}
    {out : List (Component I S)} (h : Tracks P n hist ref out) :
    ∀ c ∈ out, ∀ s ∈ c.data, ∀ e ∈ s.values, ∃ r qs, qs.length = n ∧ P r qs e.2 := by
  unfold Tracks at h
  induction h with
  | nil => simp
  | @cons r o _ _ hro _ ih =>
    intro c hc s hs e he
    rcases List.mem_cons.mp hc with rfl | hc
    · obtain ⟨i, hi, rfl⟩ := List.mem_iff_getElem.mp hs
      obtain ⟨s', -, hrel⟩ := data_none _ _ _ hro.2 i _ (List.getElem?_eq_getElem hi)
      obtain ⟨j, hj, rfl⟩ := List.mem_iff_getElem.mp he
      have hj' : j < s'.values.length := hrel.length_eq ▸ hj
      have := List.Forall₂.get hrel hj' hj
      exact ⟨_, _, this.2.1, this.2.2⟩
    · exact ih c hc s hs e he

omit [LinearOrder I] in
theorem compute_exists {T : Type} {f : S → Res T} {types : List String} (ht : types.Nodup)
    {out : String → String → List (Component I S)}
    (h : ∀ c ∈ compclasses, ∀ t ∈ types, ∃ l', components f (out c t) = Res.ok l') :
    ∃ out', compute f types out = Res.ok out' ∧ (∀ c ∈ compclasses, ∀ t ∈ types, components f (out c t) = Res.ok (out' c t)) ∧
      ∀ c t, ¬ (c ∈ compclasses ∧ t ∈ types) → out' c t = [] := by
  obtain ⟨out', ho, h1, h2⟩ := fill_exists (f := fill (components f) [] types) (empty := fun _ => []) (out := out) compclasses_nodup
    (by
      intro c hc
      obtain ⟨o, ho, -⟩ := fill_exists (f := components f) (empty := []) (out := out c) ht fun t htt => h c hc t htt
      exact ⟨o, ho⟩)
  have hin : ∀ c ∈ compclasses, (∀ t ∈ types, components f (out c t) = Res.ok (out' c t)) ∧ ∀ t, t ∉ types → out' c t = [] := by
    intro c hc
    obtain ⟨o, ho, h3, h4⟩ := fill_exists (f := components f) (empty := []) (out := out c) ht fun t htt => h c hc t htt
    rw [h1 c hc] at ho
    injection ho with ho
    rw [ho]
    exact ⟨h3, h4⟩
  refine ⟨out', ho, fun c hc t htt => (hin c hc).1 t htt, fun c t hct => ?_⟩
  by_cases hc : c ∈ compclasses
  · exact (hin c hc).2 t fun htt => hct ⟨hc, htt⟩
  · rw [h2 c hc]

omit [LinearOrder I] in
theorem notHidden_eq (directory : List (String × File I)) : usedFiles "" directory = notHidden directory := by
  simp [usedFiles, notHidden]

theorem pointRows_spec {points : List (ℚ × List ℚ)} {n : ℕ} (hn : 11 ≤ n) (h : ∀ p ∈ points, p.2.length = n) :
    ∃ rows, pointRows points = Res.ok rows := by
  refine each_exists fun p hp => ?_
  obtain ⟨row, hr, -⟩ := rowOf_spec (hn.trans (h p hp).ge)
  exact ⟨(p.1, row), by simp [hr]⟩

theorem pointRows_at {points : List (ℚ × List ℚ)} {rows : List (ℚ × Row)} (h : pointRows points = Res.ok rows) :
    rows.length = points.length ∧ ∀ (j : ℕ) (x : ℚ) (vs : List ℚ), points[j]? = some (x, vs) →
      ∃ row, rowOf vs = Res.ok row ∧ rows[j]? = some (x, row) := by
  have h := Res.each_eq_ok.mp h
  refine ⟨h.length_eq.symm, fun j x vs hj => ?_⟩
  obtain ⟨hi, he⟩ := List.getElem?_eq_some_iff.mp hj
  have hi' : j < rows.length := h.length_eq ▸ hi
  have := List.Forall₂.get h hi hi'
  simp only [List.get_eq_getElem, he] at this
  obtain ⟨row, hr, hrow⟩ := Res.bind_eq_ok.mp this
  injection hrow with hrow
  exact ⟨row, hr, by rw [List.getElem?_eq_getElem hi', ← hrow]⟩

/-- **C163 (partial)**: if there are at least eleven files and all of them hold the same components, time steps, quantities and points,
then the program ends well, and what it writes are quantiles over all these files: of each quantity of each component of the considered
types at each time step, for gas components at each point; with the ids and times of the first file; and nothing else. For an even
number of files, the median is a median. (Missing are fewer files: `C163_few_false`, and odd numbers of files: `C163_median_false`.) -/
theorem C163_quantiles_partial {directory : List (String × File I)} {shape first : File I} {rest : List (File I)}
    (hu : notHidden directory = first :: rest) (hn : 11 ≤ (first :: rest).length) (hs : AllSorted shape)
    (ha : ∀ f ∈ first :: rest, Alike shape f) :
    ∃ out, quantilesMain directory = Res.ok out ∧
      (∀ c ∈ ["nodes", "connections"], ∀ t ∈ comparedPower, ∀ l, powerPart shape c t = some l →
        Discrepance.times (out.power c t) = Discrepance.times ((powerPart first c t).getD []) ∧
        ∀ id i key, match quantityAt l id i key with
          | none => quantityAt (out.power c t) id i key = none
          | some _ => ∃ vs row, PowerValues (first :: rest) c t id i key vs ∧ quantityAt (out.power c t) id i key = some row ∧
              Quantiles vs row ∧ (2 ∣ (first :: rest).length → IsMedian vs row.median)) ∧
      (∀ c t, ¬ (c ∈ ["nodes", "connections"] ∧ t ∈ comparedPower ∧ (powerPart shape c t).isSome) → out.power c t = []) ∧
      (∀ c ∈ ["nodes", "connections"], ∀ t ∈ comparedGas, ∀ l, gasPart shape c t = some l →
        Discrepance.times (out.gas c t) = Discrepance.times ((gasPart first c t).getD []) ∧
        ∀ id i key, match quantityAt l id i key with
          | none => quantityAt (out.gas c t) id i key = none
          | some q => ∃ d, quantityAt (out.gas c t) id i key = some d ∧ d.length = q.length ∧
              ∀ (j : ℕ) (p : Point), q[j]? = some p → ∃ vs row, GasValues (first :: rest) c t id i key j p.1 vs ∧
                d[j]? = some (p.1, row) ∧ Quantiles vs row ∧ (2 ∣ (first :: rest).length → IsMedian vs row.median)) ∧
      ∀ c t, ¬ (c ∈ ["nodes", "connections"] ∧ t ∈ comparedGas ∧ (gasPart shape c t).isSome) → out.gas c t = [] := by
  obtain ⟨out, ho, hp, hp0, hg, hg0⟩ := collected (A := values) (List.cons_ne_nil first rest) hs ha
  have hempty : ∀ {S T : Type} (f : S → Res T) (out : List (Component I S)), out = [] → components f out = Res.ok [] := by
    rintro S T f _ rfl; rfl
  obtain ⟨p, hcp, hp1, hp2⟩ := compute_exists (f := rowOf) powerTypes_nodup (out := out.power) (by
    intro c hc t ht
    cases hl : powerPart shape c t with
    | none => exact ⟨[], hempty _ _ (hp0 c t (by simp [hl]))⟩
    | some l =>
      refine components_exists fun d hd s hs' e he => ?_
      obtain ⟨r, qs, hlen, hP⟩ := tracks_all (hp c hc t ht l hl).2 d hd s hs' e he
      rw [← total_values hP] at hlen
      obtain ⟨row, hrow, -⟩ := rowOf_spec (vs := e.2) (hlen ▸ hn)
      exact ⟨row, hrow⟩)
  obtain ⟨g, hcg, hg1, hg2⟩ := compute_exists (f := fun points => pointRows points) gasTypes_nodup (out := out.gas) (by
    intro c hc t ht
    cases hl : gasPart shape c t with
    | none => exact ⟨[], hempty _ _ (hg0 c t (by simp [hl]))⟩
    | some l =>
      refine components_exists fun d hd s hs' e he => ?_
      obtain ⟨r, qs, hlen, -, -, hP⟩ := tracks_all (hg c hc t ht l hl).2 d hd s hs' e he
      refine pointRows_spec hn fun p hpm => ?_
      obtain ⟨j, hj, rfl⟩ := List.mem_iff_getElem.mp hpm
      have := total_values (hP j e.2[j].1 e.2[j].2 (List.getElem?_eq_getElem hj))
      rw [this, List.length_map, hlen])
  refine ⟨⟨p, g⟩, ?_, fun c hc t ht l hl => ⟨?_, fun id i key => ?_⟩, fun c t h => ?_, fun c hc t ht l hl => ⟨?_, fun id i key => ?_⟩,
    fun c t h => ?_⟩
  · rw [quantilesMain, usedFiles_eq, notHidden_eq, hu, ho]
    simp only [Res.ok_bind, hcp, hcg]
  · exact (components_times (hp1 c hc t ht)).trans (hp c hc t ht l hl).1
  · have htr := (hp c hc t ht l hl).2
    have hat := components_at (hp1 c hc t ht) id i key
    cases hq : quantityAt l id i key with
    | none =>
      dsimp only
      have hnone : quantityAt (out.power c t) id i key = none := by
        by_contra hno
        have := tracks_only htr (Option.isSome_iff_ne_none.mpr hno)
        rw [hq] at this
        cases this
      rw [hnone] at hat
      exact hat
    | some r =>
      dsimp only
      obtain ⟨d, hd, hlen, hP⟩ := tracks_at htr hq
      rw [hd] at hat
      obtain ⟨row, hrow, hrow'⟩ := hat
      have hdv := total_values hP
      rw [← hdv] at hlen
      obtain ⟨row', h1, h2, h3⟩ := rowOf_spec (vs := d) (hlen ▸ hn)
      rw [hrow] at h1
      injection h1 with h1
      subst h1
      refine ⟨d, row, ?_, hrow', h2, fun h => h3 (by rw [hlen]; exact h)⟩
      rw [hdv]
      exact powerValues ha hc ht hl (by rw [← hdv]; exact hlen)
  · by_cases hk : c ∈ compclasses ∧ t ∈ powerTypes
    · have h1 := hp1 c hk.1 t hk.2
      rw [hempty rowOf _ (hp0 c t h)] at h1
      injection h1 with h1
      exact h1.symm
    · exact hp2 c t hk
  · exact (components_times (hg1 c hc t ht)).trans (hg c hc t ht l hl).1
  · have htr := (hg c hc t ht l hl).2
    have hat := components_at (hg1 c hc t ht) id i key
    cases hq : quantityAt l id i key with
    | none =>
      dsimp only
      have hnone : quantityAt (out.gas c t) id i key = none := by
        by_contra hno
        have := tracks_only htr (Option.isSome_iff_ne_none.mpr hno)
        rw [hq] at this
        cases this
      rw [hnone] at hat
      exact hat
    | some q =>
      dsimp only
      obtain ⟨s, hd, hlen, hk, -, hP⟩ := tracks_at htr hq
      rw [hd] at hat
      obtain ⟨rows, hrows, hrows'⟩ := hat
      obtain ⟨hrl, hrj⟩ := pointRows_at hrows
      have hsl : s.length = q.length := by simpa using (congrArg List.length hk).symm
      refine ⟨rows, hrows', hrl.trans hsl, fun j p hp => ?_⟩
      have hx : (s.map Prod.fst)[j]? = some p.1 := by rw [← hk]; simp [hp]
      rw [List.getElem?_map, Option.map_eq_some_iff] at hx
      obtain ⟨⟨x, vs⟩, hw, hx⟩ := hx
      simp only at hx
      subst hx
      obtain ⟨row, hrow, hrowj⟩ := hrj j _ _ hw
      have hv := total_values (hP j _ _ hw)
      have hvl : vs.length = (first :: rest).length := by rw [hv, List.length_map, hlen]
      obtain ⟨row', h1, h2, h3⟩ := rowOf_spec (vs := vs) (hvl ▸ hn)
      rw [hrow] at h1
      injection h1 with h1
      subst h1
      refine ⟨vs, row, ?_, hrowj, h2, fun h => h3 (by rw [hvl]; exact h)⟩
      rw [hv]
      exact gasValues ha hc ht hl hlen hq hp
  · by_cases hk : c ∈ compclasses ∧ t ∈ gasTypes
    · have h1 := hg1 c hk.1 t hk.2
      rw [hempty _ _ (hg0 c t h)] at h1
      injection h1 with h1
      exact h1.symm
    · exact hg2 c t hk

/-! ## Examples -/

/-- Results of a run: a node with one value and a pipe with values at two points. -/
def exampleFile (v : ℚ) : File ℕ := fun c =>
  if c = "nodes" then
    some ⟨fun t => if t = "PQnode" then some [⟨1, [⟨0, [("P", v)]⟩]⟩] else none, fun _ => none⟩
  else if c = "connections" then
    some ⟨fun _ => none, fun t => if t = "Pipe" then some [⟨2, [⟨0, [("flow", [(0, v), (1, v + 1)])]⟩]⟩] else none⟩
  else none

theorem exampleFile_power (v : ℚ) (c t : String) :
    powerPart (exampleFile v) c t = if c = "nodes" ∧ t = "PQnode" then some [⟨1, [⟨0, [("P", v)]⟩]⟩] else none := by
  unfold powerPart exampleFile
  split_ifs <;> simp_all

theorem exampleFile_gas (v : ℚ) (c t : String) : gasPart (exampleFile v) c t =
    if c = "connections" ∧ t = "Pipe" then some [⟨2, [⟨0, [("flow", [(0, v), (1, v + 1)])]⟩]⟩] else none := by
  unfold gasPart exampleFile
  split_ifs <;> simp_all

theorem exampleFile_sorted (v : ℚ) : AllSorted (exampleFile v) := by
  constructor <;> intro c t l h
  · rw [exampleFile_power] at h
    split_ifs at h
    injection h with h
    subst h
    simp [Sorted]
  · rw [exampleFile_gas] at h
    split_ifs at h
    injection h with h
    subst h
    simp [Sorted]

theorem exampleFile_alike (v w : ℚ) : Alike (exampleFile v) (exampleFile w) := by
  constructor <;> intro c _ t _
  · rw [exampleFile_power, exampleFile_power]
    by_cases h : c = "nodes" ∧ t = "PQnode"
    · rw [if_pos h, if_pos h]
      exact Or.inr ⟨_, _, rfl, rfl, by simp [SameLayout]⟩
    · rw [if_neg h, if_neg h]
      exact Or.inl ⟨rfl, rfl⟩
  · rw [exampleFile_gas, exampleFile_gas]
    by_cases h : c = "connections" ∧ t = "Pipe"
    · rw [if_pos h, if_pos h]
      exact Or.inr ⟨_, _, rfl, rfl, by simp [SameLayout, SamePoints]⟩
    · rw [if_neg h, if_neg h]
      exact Or.inl ⟨rfl, rfl⟩

/-- Two runs, another file and a hidden one. -/
example : ∃ out, meanSigmaMain "output" [("output1", exampleFile 1), (".output", exampleFile 7), ("result", exampleFile 8),
      ("output2", exampleFile 3)] = Res.ok out ∧
    quantityAt (out.power "nodes" "PQnode") 1 0 "P" = some (2, Real.sqrt 2) := by
  obtain ⟨out, ho, hp, -⟩ := C162_means (trunk := "output") (directory := [("output1", exampleFile 1), (".output", exampleFile 7),
    ("result", exampleFile 8), ("output2", exampleFile 3)]) (shape := exampleFile 1) (first := exampleFile 1) (rest := [exampleFile 3])
    rfl (exampleFile_sorted 1) (by
      intro f hf
      simp only [List.mem_cons, List.not_mem_nil, or_false] at hf
      rcases hf with rfl | rfl <;> exact exampleFile_alike _ _)
  refine ⟨out, ho, ?_⟩
  obtain ⟨vs, hvs, hq⟩ := (hp "nodes" (by simp) "PQnode" (by decide +kernel) _ (by rw [exampleFile_power, if_pos ⟨rfl, rfl⟩])).2 1 0 "P"
  have : vs = [1, 3] := by
    unfold PowerValues at hvs
    cases hvs with
    | cons h1 h2 =>
      cases h2 with
      | cons h2 h3 =>
        cases h3
        obtain ⟨l1, e1, h1⟩ := h1
        obtain ⟨l2, e2, h2⟩ := h2
        rw [exampleFile_power, if_pos ⟨rfl, rfl⟩] at e1 e2
        injection e1 with e1
        injection e2 with e2
        subst e1
        subst e2
        simp only [quantityAt, decide_true, List.find?_cons_of_pos, Option.bind_eq_bind, Option.bind_some,
          List.getElem?_cons_zero, List.lookup_cons, beq_self_eq_true, Option.some.injEq] at h1 h2
        simp [← h1, ← h2]
  subst this
  rw [hq]
  have hm : mean [1, 3] = 2 := by norm_num [mean]
  simp only [List.map_cons, List.map_nil, Rat.cast_one, Rat.cast_ofNat, deviation, squares, hm, Option.some.injEq, Prod.mk.injEq,
    true_and]
  norm_num

/-- Twelve runs. -/
example : ∃ out, quantilesMain ((List.range 12).map fun n : ℕ => ("output", exampleFile n)) = Res.ok out ∧
    ∃ row, quantityAt (out.power "nodes" "PQnode") 1 0 "P" = some row ∧ ∃ vs : List ℚ, vs.length = 12 ∧ IsMedian vs row.median := by
  obtain ⟨out, ho, hp, -⟩ := C163_quantiles_partial (directory := (List.range 12).map fun n : ℕ => ("output", exampleFile n))
    (shape := exampleFile 0) (first := exampleFile (0 : ℕ)) (rest := (List.range' 1 11).map fun n : ℕ => exampleFile n)
    rfl (by simp) (exampleFile_sorted 0) (by
      intro f hf
      simp only [List.mem_cons, List.mem_map] at hf
      rcases hf with rfl | ⟨n, -, rfl⟩ <;> exact exampleFile_alike _ _)
  refine ⟨out, ho, ?_⟩
  obtain ⟨vs, row, hvs, hq, -, hm⟩ :=
    (hp "nodes" (by simp) "PQnode" (by decide +kernel) _ (by rw [exampleFile_power, if_pos ⟨rfl, rfl⟩])).2 1 0 "P"
  exact ⟨row, hq, vs, by simpa using hvs.length_eq.symm, hm ⟨6, by simp⟩⟩

/-- **C163 is false for an odd number of files**: for eleven runs with the values 0, 1, …, 10, the median that is written is 6. -/
theorem C163_median_false : ∃ out row, quantilesMain ((List.range 11).map fun n : ℕ => ("output", exampleFile n)) = Res.ok out ∧
    quantityAt (out.power "nodes" "PQnode") 1 0 "P" = some row ∧ row.median = 6 ∧
    ¬ IsMedian ((List.range 11).map fun n : ℕ => (n : ℚ)) row.median := by
  obtain ⟨out, ho⟩ : ∃ out, quantilesMain ((List.range 11).map fun n : ℕ => ("output", exampleFile n)) = Res.ok out := by
    obtain ⟨out, ho, -⟩ := C163_quantiles_partial (directory := (List.range 11).map fun n : ℕ => ("output", exampleFile n))
      (shape := exampleFile 0) (first := exampleFile (0 : ℕ)) (rest := (List.range' 1 10).map fun n : ℕ => exampleFile n)
      rfl (by simp) (exampleFile_sorted 0) (by
        intro f hf
        simp only [List.mem_cons, List.mem_map] at hf
        rcases hf with rfl | ⟨n, -, rfl⟩ <;> exact exampleFile_alike _ _)
    exact ⟨out, ho⟩
  have hmed : (match quantilesMain ((List.range 11).map fun n : ℕ => ("output", exampleFile n)) with
      | Res.ok out => (quantityAt (out.power "nodes" "PQnode") 1 0 "P").map Row.median
      | _ => none) = some 6 := by decide +kernel
  rw [ho] at hmed
  obtain ⟨row, hr, hm⟩ := Option.map_eq_some_iff.mp hmed
  exact ⟨out, row, ho, hr, hm, by rw [hm]; unfold IsMedian; decide +kernel⟩

/-- **C163 is false for fewer than eleven files**: for ten runs, the program reads behind the end of an array. -/
theorem C163_few_false : quantilesMain ((List.range 10).map fun n : ℕ => ("output", exampleFile n)) = Res.ub := by
  have h : (match quantilesMain ((List.range 10).map fun n : ℕ => ("output", exampleFile n)) with
      | Res.ub => true
      | _ => false) = true := by decide +kernel
  split at h
  · assumption
  · cases h

end Verif.Helpers.Collect
