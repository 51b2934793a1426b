import Verif.Helpers.DiscrepanceProps

/-!
# Comparing whole files of results with a reference (C145, C146)

`helper_functions/compute_reference_discrepance.cpp`: the choice of files, the loops over classes and types of components, and the
main function. What is done with the components of one type is in `Discrepance`.
-/

set_option autoImplicit false

namespace Verif.Helpers.Discrepance

variable {I Q : Type} [LinearOrder I]

/-! ## Model -/

/-- The components of a class (`"nodes"` or `"connections"`), by type. Components of the power types have numbers as quantities, those
of the gas types arrays of points. -/
structure Types (I : Type) where
  power : String → Option (List (Component I ℚ))
  gas : String → Option (List (Component I (List Point)))

/-- A file with results: the classes. -/
abbrev File (I : Type) := String → Option (Types I)

/-- `powertypes` — `compute_reference_discrepance.cpp` 78-79. -/
def powerTypes : List String := ["PQnode", "PVnode", "Vphinode", "StochasticPQnode", "ExternalPowerplant"]

/-- `gastypes` — `compute_reference_discrepance.cpp` 80-82. -/
def gasTypes : List String := ["Pipe", "Shortpipe", "Gaspowerconnection", "Compressorstation", "Controlvalve"]

/-- `compute_reference_discrepance.cpp` 117 and 258. -/
def compclasses : List String := ["nodes", "connections"]

/-- A loop where each round changes one entry of a json object. -/
def loop {β : Type} (f : String → β → Res β) : List String → (String → β) → Res (String → β)
  | [], out => Res.ok out
  | k :: ks, out => do
    let b ← f k (out k)
    loop f ks (Function.update out k b)

/-- One type — `compute_reference_discrepance.cpp` 127-136 and 268-277: a type which only the reference has is an error, one which
only the run has is passed over. -/
def addType (K : Kind Q) (ref run : Option (List (Component I Q))) (out : List (Component I Q)) : Res (List (Component I Q)) :=
  match ref with
  | none => Res.ok out
  | some r =>
    match run with
    | none => Res.throws
    | some components => addRun K r out components

/-- One class — `compute_reference_discrepance.cpp` 118-126 and 259-267. -/
def addClass (K : Kind Q) (part : Types I → String → Option (List (Component I Q))) (types : List String)
    (ref run : Option (Types I)) (out : String → List (Component I Q)) : Res (String → List (Component I Q)) :=
  match ref with
  | none => Res.ok out
  | some r =>
    match run with
    | none => Res.throws
    | some q => loop (fun type => addType K (part r type) (part q type)) types out

/-- `add_gas_json_data` and `add_power_json_data` — `compute_reference_discrepance.cpp` 113-252 and 254-368. A type that is missing in
the results up to now is null there, which is like an empty array. -/
def addFile (K : Kind Q) (part : Types I → String → Option (List (Component I Q))) (types : List String) (ref run : File I)
    (out : String → String → List (Component I Q)) : Res (String → String → List (Component I Q)) :=
  loop (fun class' => addClass K part types (ref class') (run class')) compclasses out

/-- The results up to now: discrepances of power and of gas components, by class and type. -/
structure Output (I : Type) where
  power : String → String → List (Component I ℚ)
  gas : String → String → List (Component I (List Point))

/-- The loop over the chosen files — `compute_reference_discrepance.cpp` 84-107. -/
def addFiles (ref : File I) : List (File I) → Output I → Res (Output I)
  | [], out => Res.ok out
  | run :: runs, out => do
    let power' ← addFile power Types.power powerTypes ref run out.power
    let gas' ← addFile gas Types.gas gasTypes ref run out.gas
    addFiles ref runs ⟨power', gas'⟩

/-- Whether a file is used — `compute_reference_discrepance.cpp` 86-92: it isn't hidden, and its name begins with the given text. -/
def chosen (trunk name : String) : Bool := !(".".toList).isPrefixOf name.toList && trunk.toList.isPrefixOf name.toList

/-- The main function — `compute_reference_discrepance.cpp` 45-111: what is written. The files of the directory come in any order. An
exception ends the program, and nothing is written. -/
def main (trunk : String) (ref : File I) (directory : List (String × File I)) : Res (Output I) :=
  addFiles ref ((directory.filter fun e => chosen trunk e.1).map Prod.snd) ⟨fun _ _ => [], fun _ _ => []⟩

/-! ## Proofs -/

theorem loop_ok {β : Type} {f : String → β → Res β} : ∀ {ks : List String} {out out' : String → β}, ks.Nodup →
    (loop f ks out = Res.ok out' ↔ (∀ k ∈ ks, f k (out k) = Res.ok (out' k)) ∧ ∀ k, k ∉ ks → out' k = out k)
  | [], out, out', _ => by
    simp only [loop, Res.ok.injEq, List.not_mem_nil, false_imp_iff, implies_true, true_and, not_false_eq_true, true_imp_iff]
    exact ⟨fun h k => by rw [h], fun h => funext fun k => (h k).symm⟩
  | k :: ks, out, out', hn => by
    rw [List.nodup_cons] at hn
    simp only [loop, Res.bind_eq_ok]
    constructor
    · rintro ⟨b, hb, h⟩
      obtain ⟨h1, h2⟩ := (loop_ok hn.2).mp h
      have hk : out' k = b := by rw [h2 k hn.1, Function.update_self]
      refine ⟨fun j hj => ?_, fun j hj => ?_⟩
      · rcases List.mem_cons.mp hj with rfl | hj
        · rw [hb, hk]
        · have := h1 j hj
          rwa [Function.update_of_ne (fun (h : j = k) => hn.1 (h ▸ hj))] at this
      · simp only [List.mem_cons, not_or] at hj
        rw [h2 j hj.2, Function.update_of_ne hj.1]
    · rintro ⟨h1, h2⟩
      refine ⟨out' k, h1 k (by simp), (loop_ok hn.2).mpr ⟨fun j hj => ?_, fun j hj => ?_⟩⟩
      · rw [Function.update_of_ne (fun (h : j = k) => hn.1 (h ▸ hj))]
        exact h1 j (List.mem_cons_of_mem _ hj)
      · by_cases hjk : j = k
        · subst hjk; rw [Function.update_self]
        · rw [Function.update_of_ne hjk]
          exact h2 j (by simp [hjk, hj])

/-- The components of a class and type in a file. -/
def at' (part : Types I → String → Option (List (Component I Q))) (file : File I) (class' type : String) :
    Option (List (Component I Q)) := (file class').bind fun T => part T type

theorem addClass_ok {K : Kind Q} {part : Types I → String → Option (List (Component I Q))} {types : List String} (ht : types.Nodup)
    {ref run : Option (Types I)} {out out' : String → List (Component I Q)} :
    addClass K part types ref run out = Res.ok out' ↔
      (ref.isSome → run.isSome) ∧
      (∀ t ∈ types, addType K (ref.bind (part · t)) (run.bind (part · t)) (out t) = Res.ok (out' t)) ∧
      ∀ t, t ∉ types → out' t = out t := by
  cases ref with
  | none =>
    simp only [addClass, Res.ok.injEq, Option.isSome_none, Bool.false_eq_true, false_imp_iff, true_and, Option.bind_none, addType]
    refine ⟨fun h => ⟨fun t _ => by rw [h], fun t _ => by rw [h]⟩, fun h => funext fun t => ?_⟩
    by_cases hm : t ∈ types
    · exact h.1 t hm
    · exact (h.2 t hm).symm
  | some r =>
    cases run with
    | none => simp [addClass]
    | some q => simp [addClass, loop_ok ht]

theorem compclasses_nodup : compclasses.Nodup := by decide +kernel
theorem powerTypes_nodup : powerTypes.Nodup := by decide +kernel
theorem gasTypes_nodup : gasTypes.Nodup := by decide +kernel

theorem addFile_ok {K : Kind Q} {part : Types I → String → Option (List (Component I Q))} {types : List String} (ht : types.Nodup)
    {ref run : File I} {out out' : String → String → List (Component I Q)} :
    addFile K part types ref run out = Res.ok out' ↔
      (∀ c ∈ compclasses, ((ref c).isSome → (run c).isSome) ∧
        ∀ t ∈ types, addType K (at' part ref c t) (at' part run c t) (out c t) = Res.ok (out' c t)) ∧
      ∀ c t, ¬ (c ∈ compclasses ∧ t ∈ types) → out' c t = out c t := by
  unfold addFile
  rw [loop_ok compclasses_nodup]
  simp only [addClass_ok ht]
  constructor
  · rintro ⟨h1, h2⟩
    refine ⟨fun c hc => ⟨(h1 c hc).1, (h1 c hc).2.1⟩, fun c t h => ?_⟩
    by_cases hc : c ∈ compclasses
    · exact (h1 c hc).2.2 t fun ht => h ⟨hc, ht⟩
    · rw [h2 c hc]
  · rintro ⟨h1, h2⟩
    refine ⟨fun c hc => ⟨(h1 c hc).1, (h1 c hc).2, fun t ht => h2 c t fun h => ht h.2⟩, fun c hc => ?_⟩
    funext t
    exact h2 c t fun h => hc h.1

/-- The files for one kind of quantities. -/
def addFilesOf (K : Kind Q) (part : Types I → String → Option (List (Component I Q))) (types : List String) (ref : File I) :
    List (File I) → (String → String → List (Component I Q)) → Res (String → String → List (Component I Q))
  | [], out => Res.ok out
  | run :: runs, out => do
    let out' ← addFile K part types ref run out
    addFilesOf K part types ref runs out'

theorem addFiles_ok {ref : File I} : ∀ {runs : List (File I)} {out out' : Output I},
    addFiles ref runs out = Res.ok out' ↔
      addFilesOf power Types.power powerTypes ref runs out.power = Res.ok out'.power ∧
      addFilesOf gas Types.gas gasTypes ref runs out.gas = Res.ok out'.gas
  | [], out, out' => by
    simp only [addFiles, addFilesOf, Res.ok.injEq]
    constructor
    · rintro rfl; exact ⟨rfl, rfl⟩
    · rintro ⟨h1, h2⟩; cases out; cases out'; simp_all
  | run :: runs, out, out' => by
    simp only [addFiles, addFilesOf, Res.bind_eq_ok, addFiles_ok (runs := runs)]
    constructor
    · rintro ⟨p, hp, g, hg, h1, h2⟩; exact ⟨⟨p, hp, h1⟩, ⟨g, hg, h2⟩⟩
    · rintro ⟨⟨p, hp, h1⟩, ⟨g, hg, h2⟩⟩; exact ⟨p, hp, g, hg, h1, h2⟩

/-- What the files together do with one class and type of the reference. -/
theorem addFilesOf_part {K : Kind Q} {part : Types I → String → Option (List (Component I Q))} {types : List String}
    (ht : types.Nodup) {ref : File I} {c t : String} (hc : c ∈ compclasses) (htt : t ∈ types) {r : List (Component I Q)}
    (hr : at' part ref c t = some r) : ∀ {runs : List (File I)} {out out' : String → String → List (Component I Q)},
    addFilesOf K part types ref runs out = Res.ok out' →
    (∀ run ∈ runs, (at' part run c t).isSome) ∧
      addRuns K r (out c t) (runs.map fun run => (at' part run c t).getD []) = Res.ok (out' c t)
  | [], out, out', h => by
    simp only [addFilesOf, Res.ok.injEq] at h
    subst h
    simp [addRuns]
  | run :: runs, out, out', h => by
    obtain ⟨o, ho, h⟩ := Res.bind_eq_ok.mp h
    have h1 := (((addFile_ok ht).mp ho).1 c hc).2 t htt
    obtain ⟨h2, h3⟩ := addFilesOf_part ht hc htt hr h
    rw [hr] at h1
    cases hq : at' part run c t with
    | none => simp [addType, hq] at h1
    | some l =>
      simp only [addType, hq] at h1
      refine ⟨fun q hm => ?_, by simp [addRuns, hq, h1, h3]⟩
      rcases List.mem_cons.mp hm with rfl | hm
      · simp [hq]
      · exact h2 q hm

theorem addFilesOf_class {K : Kind Q} {part : Types I → String → Option (List (Component I Q))} {types : List String}
    (ht : types.Nodup) {ref : File I} {c : String} (hc : c ∈ compclasses) (hr : (ref c).isSome) :
    ∀ {runs : List (File I)} {out out' : String → String → List (Component I Q)},
    addFilesOf K part types ref runs out = Res.ok out' → ∀ run ∈ runs, (run c).isSome
  | [], _, _, _ => by simp
  | run :: runs, out, out', h => by
    obtain ⟨o, ho, h⟩ := Res.bind_eq_ok.mp h
    intro q hm
    rcases List.mem_cons.mp hm with rfl | hm
    · exact (((addFile_ok ht).mp ho).1 c hc).1 hr
    · exact addFilesOf_class ht hc hr h q hm

/-- Nothing appears in the output for a class and type the program or the reference does not know. -/
theorem addFilesOf_other {K : Kind Q} {part : Types I → String → Option (List (Component I Q))} {types : List String}
    (ht : types.Nodup) {ref : File I} {c t : String} (hct : ¬ (c ∈ compclasses ∧ t ∈ types ∧ (at' part ref c t).isSome)) :
    ∀ {runs : List (File I)} {out out' : String → String → List (Component I Q)},
    addFilesOf K part types ref runs out = Res.ok out' → out' c t = out c t
  | [], out, out', h => by
    simp only [addFilesOf, Res.ok.injEq] at h
    rw [h]
  | run :: runs, out, out', h => by
    obtain ⟨o, ho, h⟩ := Res.bind_eq_ok.mp h
    rw [addFilesOf_other ht hct h]
    obtain ⟨h1, h2⟩ := (addFile_ok ht).mp ho
    by_cases hk : c ∈ compclasses ∧ t ∈ types
    · have h3 := (h1 c hk.1).2 t hk.2
      have : at' part ref c t = none := by
        by_contra hne
        exact hct ⟨hk.1, hk.2, Option.isSome_iff_ne_none.mpr hne⟩
      simp only [this, addType, Res.ok.injEq] at h3
      exact h3.symm
    · exact h2 c t hk

/-- If all goes well for each class and type, then for the files. -/
theorem addFilesOf_exists {K : Kind Q} {part : Types I → String → Option (List (Component I Q))} {types : List String}
    (ht : types.Nodup) {ref : File I} : ∀ {runs : List (File I)} {out : String → String → List (Component I Q)},
    (∀ c ∈ compclasses, (ref c).isSome → ∀ run ∈ runs, (run c).isSome) →
    (∀ c ∈ compclasses, ∀ t ∈ types, ∀ r, at' part ref c t = some r → (∀ run ∈ runs, (at' part run c t).isSome) ∧
      ∃ l, addRuns K r (out c t) (runs.map fun run => (at' part run c t).getD []) = Res.ok l) →
    ∃ out', addFilesOf K part types ref runs out = Res.ok out'
  | [], out, _, _ => ⟨out, rfl⟩
  | run :: runs, out, h1, h2 => by
    classical
    let o : String → String → List (Component I Q) := fun c t =>
      if c ∈ compclasses ∧ t ∈ types then
        match addType K (at' part ref c t) (at' part run c t) (out c t) with
        | Res.ok l => l
        | _ => []
      else out c t
    have ho : addFile K part types ref run out = Res.ok o := by
      rw [addFile_ok ht]
      refine ⟨fun c hc => ⟨fun hr => h1 c hc hr run (by simp), fun t htt => ?_⟩, fun c t hct => by simp only [o, if_neg hct]⟩
      simp only [o, if_pos (And.intro hc htt)]
      cases hr : at' part ref c t with
      | none => simp [addType]
      | some r =>
        obtain ⟨h3, l, hl⟩ := h2 c hc t htt r hr
        obtain ⟨q, hq⟩ := Option.isSome_iff_exists.mp (h3 run (by simp))
        simp only [List.map_cons, hq, Option.getD_some, addRuns] at hl
        obtain ⟨a, ha, -⟩ := Res.bind_eq_ok.mp hl
        simp [addType, hq, ha]
    obtain ⟨out', h'⟩ := addFilesOf_exists (K := K) (part := part) ht (ref := ref) (runs := runs) (out := o)
      (fun c hc hr q hq => h1 c hc hr q (List.mem_cons_of_mem _ hq)) (fun c hc t htt r hr => by
        obtain ⟨h3, l, hl⟩ := h2 c hc t htt r hr
        refine ⟨fun q hq => h3 q (List.mem_cons_of_mem _ hq), l, ?_⟩
        obtain ⟨q, hq⟩ := Option.isSome_iff_exists.mp (h3 run (by simp))
        simp only [List.map_cons, hq, Option.getD_some, addRuns] at hl
        obtain ⟨a, ha, hl⟩ := Res.bind_eq_ok.mp hl
        have : o c t = a := by simp [o, hc, htt, hr, addType, hq, ha]
        rw [this, hl])
    exact ⟨out', by simp [addFilesOf, ho, h']⟩

/-! ## Properties -/

/-- The types of power components that are to be compared. -/
def comparedPower : List String := ["PQnode", "PVnode", "Vphinode", "StochasticPQnode", "ExternalPowerplant"]

/-- The types of gas components that are to be compared. -/
def comparedGas : List String := ["Pipe", "Shortpipe", "Gaspowerconnection", "Compressorstation", "Controlvalve"]

/-- A run has every class and type of the reference, with the same components, time steps, quantities and points. -/
structure Fits (ref run : File I) : Prop where
  classes : ∀ c ∈ ["nodes", "connections"], (ref c).isSome → (run c).isSome
  power : ∀ c ∈ ["nodes", "connections"], ∀ t ∈ comparedPower, ∀ R T r, ref c = some R → run c = some T → R.power t = some r →
    ∃ q, T.power t = some q ∧ SameLayout (fun _ _ => True) r q
  gas : ∀ c ∈ ["nodes", "connections"], ∀ t ∈ comparedGas, ∀ R T r, ref c = some R → run c = some T → R.gas t = some r →
    ∃ q, T.gas t = some q ∧ SameLayout SamePoints r q

/-- Whether a file of the directory is to be used: its name isn't hidden and begins with the given text. -/
def Used (trunk : String) (directory : List (String × File I)) (run : File I) : Prop :=
  ∃ name, (name, run) ∈ directory ∧ trunk.toList <+: name.toList ∧ ∀ rest, name.toList ≠ '.' :: rest

omit [LinearOrder I] in
theorem mem_used {trunk : String} {directory : List (String × File I)} {run : File I} :
    run ∈ (directory.filter fun e => chosen trunk e.1).map Prod.snd ↔ Used trunk directory run := by
  simp only [List.mem_map, List.mem_filter, chosen, Bool.and_eq_true, Bool.not_eq_true', Used, Prod.exists, exists_eq_right,
    List.isPrefixOf_iff_prefix]
  refine exists_congr fun name => and_congr_right fun _ => ?_
  rw [and_comm]
  refine and_congr_right fun _ => ?_
  rw [← Bool.not_eq_true, List.isPrefixOf_iff_prefix]
  have : (".".toList : List Char) = ['.'] := by decide +kernel
  rw [this]
  cases name.toList with
  | nil => simp
  | cons a l => simp [List.cons_prefix_cons, eq_comm]

omit [LinearOrder I] in
theorem parts_of_used {trunk : String} {directory : List (String × File I)}
    (part : Types I → String → Option (List (Component I Q))) (c t : String) (q : List (Component I Q))
    (hall : ∀ run, Used trunk directory run → (at' part run c t).isSome) :
    (q ∈ ((directory.filter fun e => chosen trunk e.1).map Prod.snd).map fun run => (at' part run c t).getD []) ↔
      ∃ run T, Used trunk directory run ∧ run c = some T ∧ part T t = some q := by
  simp only [List.mem_map (f := fun run : File I => (at' part run c t).getD []), mem_used]
  constructor
  · rintro ⟨run, hu, rfl⟩
    obtain ⟨l, hl⟩ := Option.isSome_iff_exists.mp (hall run hu)
    obtain ⟨T, hT, hp⟩ := Option.bind_eq_some_iff.mp hl
    exact ⟨run, T, hu, hT, by rw [hl, hp]; rfl⟩
  · rintro ⟨run, T, hu, hT, hq⟩
    exact ⟨run, hu, by simp [at', hT, hq]⟩

/-- **C145** for whole files: if every file that is to be used fits the reference, the program ends well. What is written holds the
components, time steps and quantities of the reference for every class and every type that is compared, each quantity (of every
point) being the largest discrepance from the reference over all files used; and it holds nothing else. -/
theorem C145_files (trunk : String) (ref : File I) (directory : List (String × File I))
    (hs : ∀ c R, ref c = some R → (∀ t r, R.power t = some r → Sorted r) ∧ ∀ t r, R.gas t = some r → Sorted r)
    (hne : ∃ run, Used trunk directory run) (h : ∀ run, Used trunk directory run → Fits ref run) :
    ∃ out, main trunk ref directory = Res.ok out ∧
      (∀ c ∈ ["nodes", "connections"], ∀ R, ref c = some R →
        (∀ t ∈ comparedPower, ∀ r, R.power t = some r → SameLayout (fun _ _ => True) r (out.power c t) ∧
          ∀ id i key v, quantityAt r id i key = some v → ∃ d, quantityAt (out.power c t) id i key = some d ∧
            IsGreatest {e | ∃ run T q w, Used trunk directory run ∧ run c = some T ∧ T.power t = some q ∧
              quantityAt q id i key = some w ∧ e = |w - v|} d) ∧
        (∀ t ∈ comparedGas, ∀ r, R.gas t = some r → SameLayout SamePoints r (out.gas c t) ∧
          ∀ id i key v, quantityAt r id i key = some v → ∃ d, quantityAt (out.gas c t) id i key = some d ∧
            ∀ (j : ℕ) (x rv : ℚ), v[j]? = some (x, rv) → ∃ e, d[j]? = some (x, e) ∧
              IsGreatest {e | ∃ run T q w y, Used trunk directory run ∧ run c = some T ∧ T.gas t = some q ∧
                quantityAt q id i key = some w ∧ w[j]? = some (x, y) ∧ e = |y - rv|} e)) ∧
      (∀ c t, ¬ (c ∈ ["nodes", "connections"] ∧ t ∈ comparedPower ∧ ∃ R r, ref c = some R ∧ R.power t = some r) →
        out.power c t = []) ∧
      (∀ c t, ¬ (c ∈ ["nodes", "connections"] ∧ t ∈ comparedGas ∧ ∃ R r, ref c = some R ∧ R.gas t = some r) →
        out.gas c t = []) := by
  set runs := (directory.filter fun e => chosen trunk e.1).map Prod.snd with hruns
  have hne' : runs ≠ [] := by
    obtain ⟨run, hu⟩ := hne
    exact List.ne_nil_of_mem (mem_used.mpr hu)
  have hfit : ∀ run ∈ runs, Fits ref run := fun run hr => h run (mem_used.mp hr)
  have hp : ∀ c ∈ compclasses, ∀ t ∈ powerTypes, ∀ r, at' Types.power ref c t = some r →
      Sorted r ∧ ∀ run ∈ runs, ∃ q, at' Types.power run c t = some q ∧ SameLayout (fun _ _ => True) r q := by
    intro c hc t htt r hr
    obtain ⟨R, hR, hr⟩ := Option.bind_eq_some_iff.mp hr
    refine ⟨(hs c R hR).1 t r hr, fun run hrun => ?_⟩
    obtain ⟨T, hT⟩ := Option.isSome_iff_exists.mp ((hfit run hrun).classes c hc (by simp [hR]))
    obtain ⟨q, hq, hl⟩ := (hfit run hrun).power c hc t htt R T r hR hT hr
    exact ⟨q, by simp [at', hT, hq], hl⟩
  have hg : ∀ c ∈ compclasses, ∀ t ∈ gasTypes, ∀ r, at' Types.gas ref c t = some r →
      Sorted r ∧ ∀ run ∈ runs, ∃ q, at' Types.gas run c t = some q ∧ SameLayout SamePoints r q := by
    intro c hc t htt r hr
    obtain ⟨R, hR, hr⟩ := Option.bind_eq_some_iff.mp hr
    refine ⟨(hs c R hR).2 t r hr, fun run hrun => ?_⟩
    obtain ⟨T, hT⟩ := Option.isSome_iff_exists.mp ((hfit run hrun).classes c hc (by simp [hR]))
    obtain ⟨q, hq, hl⟩ := (hfit run hrun).gas c hc t htt R T r hR hT hr
    exact ⟨q, by simp [at', hT, hq], hl⟩
  have hne2 : ∀ {Q : Type} (f : File I → List (Component I Q)), runs.map f ≠ [] := fun f => by simpa using hne'
  have hp' := fun c hc t htt r hr => C145_power r (hp c hc t htt r hr).1
    (runs.map fun run => (at' Types.power run c t).getD []) (hne2 _) (by
      intro q hq
      obtain ⟨run, hrun, rfl⟩ := List.mem_map.mp hq
      obtain ⟨q, hq, hl⟩ := (hp c hc t htt r hr).2 run hrun
      rw [hq]; exact hl)
  have hg' := fun c hc t htt r hr => C145_gas r (hg c hc t htt r hr).1
    (runs.map fun run => (at' Types.gas run c t).getD []) (hne2 _) (by
      intro q hq
      obtain ⟨run, hrun, rfl⟩ := List.mem_map.mp hq
      obtain ⟨q, hq, hl⟩ := (hg c hc t htt r hr).2 run hrun
      rw [hq]; exact hl)
  have hcl : ∀ c ∈ compclasses, (ref c).isSome → ∀ run ∈ runs, (run c).isSome :=
    fun c hc hr run hrun => (hfit run hrun).classes c hc hr
  have hpp : ∀ c ∈ compclasses, ∀ t ∈ powerTypes, ∀ r, at' Types.power ref c t = some r →
      ∀ run ∈ runs, (at' Types.power run c t).isSome := fun c hc t htt r hr run hrun => by
    obtain ⟨q, hq, -⟩ := (hp c hc t htt r hr).2 run hrun
    simp [hq]
  have hgg : ∀ c ∈ compclasses, ∀ t ∈ gasTypes, ∀ r, at' Types.gas ref c t = some r →
      ∀ run ∈ runs, (at' Types.gas run c t).isSome := fun c hc t htt r hr run hrun => by
    obtain ⟨q, hq, -⟩ := (hg c hc t htt r hr).2 run hrun
    simp [hq]
  obtain ⟨op, hop⟩ := addFilesOf_exists (K := power) (part := Types.power) powerTypes_nodup (ref := ref) (runs := runs)
    (out := fun _ _ => []) hcl (fun c hc t htt r hr => ⟨hpp c hc t htt r hr, by
      obtain ⟨l, hl, -⟩ := hp' c hc t htt r hr
      exact ⟨l, hl⟩⟩)
  obtain ⟨og, hog⟩ := addFilesOf_exists (K := gas) (part := Types.gas) gasTypes_nodup (ref := ref) (runs := runs)
    (out := fun _ _ => []) hcl (fun c hc t htt r hr => ⟨hgg c hc t htt r hr, by
      obtain ⟨l, hl, -⟩ := hg' c hc t htt r hr
      exact ⟨l, hl⟩⟩)
  refine ⟨⟨op, og⟩, addFiles_ok.mpr ⟨hop, hog⟩, fun c hc R hR => ⟨fun t htt r hr => ?_, fun t htt r hr => ?_⟩, fun c t hct => ?_,
    fun c t hct => ?_⟩
  · have hr' : at' Types.power ref c t = some r := by simp [at', hR, hr]
    obtain ⟨l, hl, hlay, -, hq⟩ := hp' c hc t htt r hr'
    have hl' := (addFilesOf_part powerTypes_nodup hc htt hr' hop).2
    have : l = op c t := by
      have := hl.symm.trans hl'
      simpa using this
    subst this
    refine ⟨hlay, fun id i key v hv => ?_⟩
    obtain ⟨d, hd, hd'⟩ := hq id i key v hv
    refine ⟨d, hd, ?_⟩
    convert hd' using 1
    ext e
    simp only [Set.mem_ofPred_eq, hruns]
    constructor
    · rintro ⟨run, T, q, w, hu, hT, hq, hw, rfl⟩
      exact ⟨q, (parts_of_used _ c t q fun run hu => hpp c hc t htt r hr' run (mem_used.mpr hu)).mpr ⟨run, T, hu, hT, hq⟩, w, hw, rfl⟩
    · rintro ⟨q, hm, w, hw, rfl⟩
      obtain ⟨run, T, hu, hT, hq⟩ :=
        (parts_of_used _ c t q fun run hu => hpp c hc t htt r hr' run (mem_used.mpr hu)).mp hm
      exact ⟨run, T, q, w, hu, hT, hq, hw, rfl⟩
  · have hr' : at' Types.gas ref c t = some r := by simp [at', hR, hr]
    obtain ⟨l, hl, hlay, -, hq⟩ := hg' c hc t htt r hr'
    have hl' := (addFilesOf_part gasTypes_nodup hc htt hr' hog).2
    have : l = og c t := by
      have := hl.symm.trans hl'
      simpa using this
    subst this
    refine ⟨hlay, fun id i key v hv => ?_⟩
    obtain ⟨d, hd, hd'⟩ := hq id i key v hv
    refine ⟨d, hd, fun j x rv hj => ?_⟩
    obtain ⟨e, he, he'⟩ := hd' j x rv hj
    refine ⟨e, he, ?_⟩
    convert he' using 1
    ext e
    simp only [Set.mem_ofPred_eq, hruns]
    constructor
    · rintro ⟨run, T, q, w, y, hu, hT, hq, hw, hy, rfl⟩
      exact ⟨q, (parts_of_used _ c t q fun run hu => hgg c hc t htt r hr' run (mem_used.mpr hu)).mpr ⟨run, T, hu, hT, hq⟩, w, y, hw,
        hy, rfl⟩
    · rintro ⟨q, hm, w, y, hw, hy, rfl⟩
      obtain ⟨run, T, hu, hT, hq⟩ :=
        (parts_of_used _ c t q fun run hu => hgg c hc t htt r hr' run (mem_used.mpr hu)).mp hm
      exact ⟨run, T, q, w, y, hu, hT, hq, hw, hy, rfl⟩
  · refine addFilesOf_other powerTypes_nodup (fun hk => hct ⟨hk.1, hk.2.1, ?_⟩) hop
    obtain ⟨r, hr⟩ := Option.isSome_iff_exists.mp hk.2.2
    obtain ⟨R, hR, hr⟩ := Option.bind_eq_some_iff.mp hr
    exact ⟨R, r, hR, hr⟩
  · refine addFilesOf_other gasTypes_nodup (fun hk => hct ⟨hk.1, hk.2.1, ?_⟩) hog
    obtain ⟨r, hr⟩ := Option.isSome_iff_exists.mp hk.2.2
    obtain ⟨R, hR, hr⟩ := Option.bind_eq_some_iff.mp hr
    exact ⟨R, r, hR, hr⟩

/-- **C146** for whole files: if something is written, then every file used has every class the reference has, and every type to be
compared the reference has. -/
theorem C146_files (trunk : String) (ref : File I) (directory : List (String × File I)) (out : Output I)
    (h : main trunk ref directory = Res.ok out) (run : File I) (hu : Used trunk directory run)
    (c : String) (hc : c ∈ ["nodes", "connections"]) (R : Types I) (hR : ref c = some R) :
    ∃ T, run c = some T ∧ (∀ t ∈ comparedPower, (R.power t).isSome → (T.power t).isSome) ∧
      ∀ t ∈ comparedGas, (R.gas t).isSome → (T.gas t).isSome := by
  obtain ⟨h1, h2⟩ := addFiles_ok.mp h
  have hm := mem_used.mpr hu
  obtain ⟨T, hT⟩ := Option.isSome_iff_exists.mp (addFilesOf_class powerTypes_nodup hc (by simp [hR]) h1 run hm)
  refine ⟨T, hT, fun t ht hr => ?_, fun t ht hr => ?_⟩
  · obtain ⟨r, hr⟩ := Option.isSome_iff_exists.mp hr
    have := (addFilesOf_part powerTypes_nodup hc ht (r := r) (by simp [at', hR, hr]) h1).1 run hm
    simpa [at', hT] using this
  · obtain ⟨r, hr⟩ := Option.isSome_iff_exists.mp hr
    have := (addFilesOf_part gasTypes_nodup hc ht (r := r) (by simp [at', hR, hr]) h2).1 run hm
    simpa [at', hT] using this

/-! ## Examples -/

/-- A file with one node and one pipe, both with one quantity. -/
def exampleFile (P flow : ℚ) : File ℕ := fun c =>
  if c = "nodes" then some ⟨fun t => if t = "PQnode" then some [⟨1, [⟨0, [("P", P)]⟩]⟩] else none, fun _ => none⟩
  else if c = "connections" then
    some ⟨fun _ => none, fun t => if t = "Pipe" then some [⟨2, [⟨0, [("flow", [(0, flow), (10, flow + 1)])]⟩]⟩] else none⟩
  else none

/-- A directory with two files to be used, a hidden one, and one with another name. -/
def exampleDirectory : List (String × File ℕ) :=
  [("output1.json", exampleFile 3 5), (".output", fun _ => none), ("output2.json", exampleFile 7 6), ("x_output", fun _ => none)]

theorem exampleDirectory_used (run : File ℕ) :
    Used "output" exampleDirectory run ↔ run = exampleFile 3 5 ∨ run = exampleFile 7 6 := by
  have : exampleDirectory.filter (fun e => chosen "output" e.1) =
      [("output1.json", exampleFile 3 5), ("output2.json", exampleFile 7 6)] := by
    have e1 : chosen "output" "output1.json" = true := by decide +kernel
    have e2 : chosen "output" ".output" = false := by decide +kernel
    have e3 : chosen "output" "output2.json" = true := by decide +kernel
    have e4 : chosen "output" "x_output" = false := by decide +kernel
    simp [exampleDirectory, e1, e2, e3, e4]
  rw [← mem_used, this]
  simp

/-- The hypotheses of `C145_files` are met, although the files that are not used lack everything. -/
example : (∀ c R, exampleFile 1 2 c = some R → (∀ t r, R.power t = some r → Sorted r) ∧ ∀ t r, R.gas t = some r → Sorted r) ∧
    (∃ run, Used "output" exampleDirectory run) ∧
    ∀ run, Used "output" exampleDirectory run → Fits (exampleFile 1 2) run := by
  simp only [exampleDirectory_used]
  refine ⟨?_, ⟨_, Or.inl rfl⟩, ?_⟩
  · intro c R hR
    unfold exampleFile at hR
    split at hR
    · simp only [Option.some.injEq] at hR
      subst hR
      refine ⟨fun t r hr => ?_, fun t r hr => by simp at hr⟩
      simp at hr
      obtain ⟨-, rfl⟩ := hr
      constructor <;> simp
    · split at hR <;> simp at hR
      subst hR
      refine ⟨fun t r hr => by simp at hr, fun t r hr => ?_⟩
      simp at hr
      obtain ⟨-, rfl⟩ := hr
      constructor <;> simp
  · have key : ∀ P flow : ℚ, Fits (exampleFile 1 2) (exampleFile P flow) := by
      intro P flow
      refine ⟨?_, ?_, ?_⟩
      · intro c hc _
        simp only [List.mem_cons, List.not_mem_nil, or_false] at hc
        rcases hc with rfl | rfl <;> simp [exampleFile]
      · intro c hc t _ R T r hR hT hr
        simp only [List.mem_cons, List.not_mem_nil, or_false] at hc
        rcases hc with rfl | rfl <;> simp [exampleFile] at hR hT <;> subst hR <;> subst hT <;> simp at hr
        obtain ⟨rfl, rfl⟩ := hr
        refine ⟨_, by dsimp only; exact if_pos rfl, ?_⟩
        simp [SameLayout]
      · intro c hc t _ R T r hR hT hr
        simp only [List.mem_cons, List.not_mem_nil, or_false] at hc
        rcases hc with rfl | rfl <;> simp [exampleFile] at hR hT <;> subst hR <;> subst hT <;> simp at hr
        obtain ⟨rfl, rfl⟩ := hr
        refine ⟨_, by dsimp only; exact if_pos rfl, ?_⟩
        simp [SameLayout, SamePoints]
    rintro run (rfl | rfl)
    · exact key 3 5
    · exact key 7 6

/-- A file without the pipes the reference has makes the program fail. -/
example (out : Output ℕ) : main "output" (exampleFile 1 2) [("output.json", fun c =>
    if c = "nodes" then some ⟨fun _ => some [], fun _ => none⟩ else none)] ≠ Res.ok out := by
  intro h
  obtain ⟨T, hT, -⟩ := C146_files _ _ _ _ h _ ⟨"output.json", List.mem_singleton.mpr rfl, by
    rw [← List.isPrefixOf_iff_prefix]; decide +kernel, by
    have : "output.json".toList = 'o' :: "utput.json".toList := by decide +kernel
    rw [this]
    simp⟩ "connections" (by simp) _ (by rw [exampleFile]; simp; rfl)
  simp at hT

end Verif.Helpers.Discrepance
