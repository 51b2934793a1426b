import Verif.Output.Props
import Verif.Json.Order
import Verif.Schema.Props
import Mathlib.Data.Rat.Floor

/-!
# Property C96: a run with stochastic demands can be reproduced from its output

Sources: `/repo/src/Model/Networkproblem/Power/StochasticPQnode.cpp`,
`/repo/src/Auxillary/Stochastics/Normaldistribution.cpp`, `/repo/src/Model/Networkproblem/Componentclasses/Statecomponent.cpp`,
`/repo/helper_functions/include_seed_in_boundaryvalues.cpp` and `remove_seed_from_boundaryvalues.cpp`.

The helper programs use `ordered_json`, which keeps the order of keys of the file. The file is read as a map again, so that
this order is left out.
-/

set_option autoImplicit false

namespace Verif.Stochastic

open Verif.Json Verif.Interp Verif.Output Verif.Schema

/-! ## The constructor of the node -/

/-- Conversion of a floating point number to an integer. -/
def truncate (q : ℚ) : ℤ := if 0 ≤ q then ⌊q⌋ else ⌈q⌉

/-- `get<uint32_t>()`: integers are taken modulo 2^32, other numbers lose their fraction and must be in range. -/
def getUint32 : Json → Res ℕ
  | num q =>
    if q.den = 1 then Res.ok (q.num % 4294967296).toNat
    else if -1 < q ∧ q < 4294967296 then Res.ok (truncate q).toNat else Res.ub
  | Json.bool b => Res.ok (if b then 1 else 0)
  | _ => Res.throws

/-- `get<int>()`: as above. (An integer out of range is taken as undefined.) -/
def getInt : Json → Res ℤ
  | num q => if -2147483648 ≤ truncate q ∧ truncate q ≤ 2147483647 then Res.ok (truncate q) else Res.ub
  | Json.bool b => Res.ok (if b then 1 else 0)
  | _ => Res.throws

/-- `pcg_seed_count` — `Normaldistribution.hpp` 23. -/
def seedCount : ℕ := 8

/-- `get<std::array<uint32_t, pcg_seed_count>>()`: the first elements are read with `at`, further ones are ignored. -/
def readSeed : Json → Res (List ℕ)
  | arr l => Res.each (List.range seedCount) fun i =>
    match l[i]? with
    | some x => getUint32 x
    | none => Res.throws
  | _ => Res.throws

/-- The json of a seed. -/
def seedJson (seed : List ℕ) : Json := arr (seed.map fun (n : ℕ) => num (n : ℚ))

/-- A stochastic node: `Powernode.cpp` 56-62, `StochasticPQnode.hpp` 69-115. -/
structure StochasticNode (State : Type) where
  id : String
  boundary : IV ℚ
  G : ℚ
  B : ℚ
  stability : ℚ
  cutOffFactor : ℚ
  sigmaP : ℚ
  thetaP : ℚ
  sigmaQ : ℚ
  thetaQ : ℚ
  steps : ℤ
  /-- The seed that is used, which is reported in the output. -/
  seed : List ℕ
  /-- The state of the random number generator. -/
  generator : State

/-- `topology[key].get<double>()`. -/
def number (topology : Json) (key : String) : Res ℚ := do
  let j ← topology.index key
  getNum j

/-- The seed that is used — `StochasticPQnode.cpp` 57-73: the one in the boundary values, or a drawn one. -/
def usedSeed (drawn : List ℕ) (boundary : Json) : Res (List ℕ) :=
  if boundary.contains "seed" then do
    let s ← boundary.index "seed"
    readSeed s
  else Res.ok drawn

/-- `StochasticPQnode::StochasticPQnode` — `StochasticPQnode.cpp` 54-76, and the constructors of the base classes. `drawn` is
what `make_random_seed` gives (`Normaldistribution.cpp` 29-35), `setup` is the state of a generator with a given seed
(`setup_random_number_generator`, 37-46), about which nothing is assumed. `mem` is uninitialised memory. -/
def construct {State : Type} (mem : ℕ → ℚ) (setup : List ℕ → State) (drawn : List ℕ) (topology : Json) :
    Res (StochasticNode State) := do
  let id ← rawId topology
  let b ← topology.index "boundary_values"
  let schema ← boundarySchema 2
  let boundary ← validateAndRead mem schema b
  let G ← number topology "G"
  let B ← number topology "B"
  let stability ← number topology "stability_parameter"
  let cutOffFactor ← number topology "cut_off_factor"
  let sigmaP ← number topology "sigma_P"
  let thetaP ← number topology "theta_P"
  let sigmaQ ← number topology "sigma_Q"
  let thetaQ ← number topology "theta_Q"
  let n ← topology.index "number_of_stochastic_steps"
  let steps ← getInt n
  let seed ← usedSeed drawn b
  Res.ok ⟨id, boundary, G, B, stability, cutOffFactor, sigmaP, thetaP, sigmaQ, thetaQ, steps, seed, setup seed⟩

/-- The output of a node: the seed is set in the constructor (`StochasticPQnode.cpp` 74-75), then id and data are set up
(`Statecomponent.cpp` 22-26), then an entry is added for each time (`StochasticPQnode.cpp` 166-167). -/
def nodeOutput {State : Type} (n : StochasticNode State) (entries : List Json) : Res Json := do
  let j ← null.set "seed" (seedJson n.seed)
  let j ← j.set "id" (str n.id)
  let j ← j.set "data" (arr [])
  Res.fold entries j fun j e => pushTo j "data" e

/-! ## The helper programs -/

/-- `stochastictypes` — `include_seed_in_boundaryvalues.cpp` 60. -/
def stochasticType : String := "StochasticPQnode"

/-- Setting the seed of the first entry with an id — 73-79; nothing if there is none. -/
def setFirst (id : String) (seed : Json) : List Json → Res (Option (List Json))
  | [] => Res.ok none
  | x :: l => do
    let i ← access x "id"
    match i with
    | str s =>
      if id = s then do
        let x' ← x.set "seed" seed
        Res.ok (some (x' :: l))
      else do
        let r ← setFirst id seed l
        Res.ok (r.map fun l' => x :: l')
    | _ => do
      let r ← setFirst id seed l
      Res.ok (r.map fun l' => x :: l')

/-- A json with other elements. -/
def withElements : Json → List Json → Json
  | arr _, l => arr l
  | obj m, l => obj ((m.map Prod.fst).zip l)
  | j, _ => j

/-- The body of the loop over the components of the results — 70-91. The result is nothing if the program returns 1. -/
def includeOne (boundary : Json) (cls : String) (component : Json) : Res (Option Json) :=
  if component.contains "seed" then do
    let id ← rawId component
    let seed ← component.index "seed"
    let types ← access boundary cls
    let list ← access types stochasticType
    let r ← setFirst id seed list.elements
    match r with
    | none => Res.ok none
    | some l => do
      let types' ← types.set stochasticType (withElements list l)
      let b ← boundary.set cls types'
      Res.ok (some b)
  else do
    let _ ← component.index "id"
    Res.ok none

/-- The components in the results the loops run over, with their classes — 61-69. -/
def reports (results : Json) : List (String × Json) :=
  classes.flatMap fun c =>
    match results.find? c with
    | none => []
    | some types =>
      match types.find? stochasticType with
      | none => []
      | some list => list.elements.map fun x => (c, x)

/-- The loops. -/
def includeLoop : List (String × Json) → Json → Res (Option Json)
  | [], boundary => Res.ok (some boundary)
  | x :: rest, boundary => do
    let r ← includeOne boundary x.1 x.2
    match r with
    | none => Res.ok none
    | some b => includeLoop rest b

/-- `include_seed_in_boundaryvalues.cpp` 60-98: the boundary values that are written, if any. -/
def includeSeeds (results boundary : Json) : Res (Option Json) := includeLoop (reports results) boundary

/-- `if (component.contains("seed")) component.erase("seed")` — `remove_seed_from_boundaryvalues.cpp` 45-47. -/
def eraseSeed : Json → Json
  | obj m => obj (m.filter fun x => !(x.1 == "seed"))
  | j => j

/-- A loop over the elements of a json that changes them in place. A loop over a value that is neither array nor object
visits the value itself. -/
def mapElements (f : Json → Json) : Json → Json
  | null => null
  | arr l => arr (l.map f)
  | obj m => obj (m.map fun x => (x.1, f x.2))
  | j => f j

/-- `remove_seed_from_boundaryvalues.cpp` 39-50. -/
def removeSeeds (boundary : Json) : Res Json :=
  Res.fold classes boundary fun boundary c =>
    match boundary.find? c with
    | none => Res.ok boundary
    | some types => boundary.set c (mapElements (mapElements eraseSeed) types)

/-! ## Specification -/

/-- Both jsons are the same up to the entry "seed". -/
def SameUpToSeed (e e' : Json) : Prop := ∀ key, key ≠ "seed" → e'.find? key = e.find? key

/-- The results contain an entry of the type of stochastic nodes in a class. -/
def Reported (results : Json) (c : String) (r : Json) : Prop :=
  ∃ v, type? results c "StochasticPQnode" = some v ∧ r ∈ v.elements

/-- A boundary entry of a class and what becomes of it: a report with the same id gives its seed to it. Without such a
report nothing changes. -/
def GetsSeed (Reported : String → Json → Prop) (c : String) (e e' : Json) : Prop :=
  SameUpToSeed e e' ∧
  (∀ r, Reported c r → id? r = id? e → e'.find? "seed" = r.find? "seed") ∧
  ((∀ r, Reported c r → id? r ≠ id? e) → e' = e)

/-- The seed of a generator: the right number of integers with 32 bit. -/
def IsSeed (s : List ℕ) : Prop := s.length = 8 ∧ ∀ n ∈ s, n < 4294967296

/-! ## Proofs -/

theorem id_congr {e e' : Json} (h : e'.find? "id" = e.find? "id") : id? e' = id? e := by unfold id?; rw [h]

theorem id_set_seed {e e' seed : Json} (h : e.set "seed" seed = Res.ok e') : id? e' = id? e :=
  id_congr (by rw [find_set h, if_neg (by decide)])

theorem SameUpToSeed.refl (e : Json) : SameUpToSeed e e := fun _ _ => rfl

theorem SameUpToSeed.trans {e e' e'' : Json} (h : SameUpToSeed e e') (h' : SameUpToSeed e' e'') : SameUpToSeed e e'' :=
  fun k hk => (h' k hk).trans (h k hk)

theorem SameUpToSeed.id {e e' : Json} (h : SameUpToSeed e e') : id? e' = id? e := id_congr (h "id" (by decide))

theorem sameUpToSeed_set {e e' seed : Json} (h : e.set "seed" seed = Res.ok e') : SameUpToSeed e e' :=
  fun k hk => by rw [find_set h, if_neg hk]

theorem rawId_ok {c : Json} {s : String} (h : rawId c = Res.ok s) : id? c = some s := by
  unfold rawId at h
  obtain ⟨i, h1, h2⟩ := Res.bind_eq_ok.mp h
  have h3 := index_eq_ok.mp h1
  unfold id?
  rw [h3]
  cases i with
  | str t => simp only [getStr, Res.ok.injEq] at h2; rw [h2]
  | _ => cases h2

theorem access_ok {j v : Json} {key : String} (h : access j key = Res.ok v) : v = (j.find? key).getD null := by
  unfold access at h
  cases j with
  | null => injection h with h; rw [← h]; rfl
  | obj m => injection h with h; exact h.symm
  | _ => cases h

theorem setFirst_ok {id : String} {seed : Json} {l l' : List Json} (h : setFirst id seed l = Res.ok (some l')) :
    ∃ pre e post e', l = pre ++ e :: post ∧ id? e = some id ∧ e.set "seed" seed = Res.ok e' ∧ l' = pre ++ e' :: post := by
  induction l generalizing l' with
  | nil => cases h
  | cons x l ih =>
    unfold setFirst at h
    obtain ⟨i, h1, h⟩ := Res.bind_eq_ok.mp h
    have hi := access_ok h1
    have rec_ : (do
        let r ← setFirst id seed l
        Res.ok (r.map fun l' => x :: l')) = Res.ok (some l') →
        ∃ pre e post e', x :: l = pre ++ e :: post ∧ id? e = some id ∧ e.set "seed" seed = Res.ok e' ∧
          l' = pre ++ e' :: post := by
      intro h
      obtain ⟨r, h2, h⟩ := Res.bind_eq_ok.mp h
      cases r with
      | none => cases h
      | some l1 =>
        simp only [Option.map_some, Res.ok.injEq, Option.some.injEq] at h
        obtain ⟨pre, e, post, e', rfl, h3, h4, rfl⟩ := ih h2
        exact ⟨x :: pre, e, post, e', rfl, h3, h4, h.symm⟩
    cases i with
    | str s =>
      simp only at h
      split at h
      · next hs =>
        obtain ⟨x', h2, h⟩ := Res.bind_eq_ok.mp h
        injection h with h
        injection h with h
        refine ⟨[], x, l, x', rfl, ?_, h2, h.symm⟩
        unfold id?
        cases hf : x.find? "id" with
        | none => rw [hf] at hi; cases hi
        | some v => rw [hf] at hi; simp only [Option.getD_some] at hi; rw [← hi, hs]
      · exact rec_ h
    | _ => exact rec_ h

/-- What one report does to one entry. -/
def Step (x : String × Json) (c : String) (e e' : Json) : Prop :=
  (x.1 = c ∧ id? x.2 = id? e ∧ SameUpToSeed e e' ∧ e'.find? "seed" = x.2.find? "seed") ∨
  (¬ (x.1 = c ∧ id? x.2 = id? e) ∧ e' = e)

theorem Step.id {x : String × Json} {c : String} {e e' : Json} (h : Step x c e e') : id? e' = id? e := by
  rcases h with ⟨-, -, h, -⟩ | ⟨-, rfl⟩
  · exact h.id
  · rfl

theorem distinct_iff {l : List Json} : Distinct l ↔ (∀ x ∈ l, (id? x).isSome) ∧ (l.map id?).Nodup := by
  constructor
  · rintro ⟨ids, h1, h2⟩
    refine ⟨fun x hx => ?_, ?_⟩
    · have : id? x ∈ ids.map some := h1 ▸ List.mem_map_of_mem hx
      obtain ⟨s, -, hs⟩ := List.mem_map.mp this
      rw [← hs]; rfl
    · rw [h1]
      exact h2.map (Option.some_injective _)
  · rintro ⟨h1, h2⟩
    refine ⟨l.filterMap id?, ?_, ?_⟩
    · clear h2
      induction l with
      | nil => rfl
      | cons x l ih =>
        obtain ⟨s, hs⟩ := Option.isSome_iff_exists.mp (h1 x (by simp))
        rw [List.map_cons, List.filterMap_cons, hs, List.map_cons, ih fun y hy => h1 y (by simp [hy])]
    · refine List.Nodup.of_map some ?_
      have : (l.filterMap id?).map some = l.map id? := by
        clear h2
        induction l with
        | nil => rfl
        | cons x l ih =>
          obtain ⟨s, hs⟩ := Option.isSome_iff_exists.mp (h1 x (by simp))
          rw [List.map_cons, List.filterMap_cons, hs, List.map_cons, ih fun y hy => h1 y (by simp [hy])]
      rw [this]
      exact h2

theorem list_arr {j : Json} {c k : String} {l : List Json} (h : list? j c k = some l) :
    ∃ types, j.find? c = some types ∧ types.find? k = some (arr l) := by
  have h := type_of_list h
  unfold type? at h
  cases hf : j.find? c with
  | none => rw [hf] at h; cases h
  | some t => rw [hf] at h; exact ⟨t, rfl, h⟩

theorem forall₂_same {α : Type} {R : α → α → Prop} {l : List α} (h : ∀ x ∈ l, R x x) : List.Forall₂ R l l := by
  induction l with
  | nil => exact .nil
  | cons a l ih => exact .cons (h a (by simp)) (ih fun x hx => h x (by simp [hx]))

/-- What one round does. -/
theorem includeOne_ok {b b' r : Json} {c : String} (h : includeOne b c r = Res.ok (some b')) :
    (∃ s seed, id? r = some s ∧ r.find? "seed" = some seed) ∧
    (∀ key, key ≠ c → b'.find? key = b.find? key) ∧
    (∀ k, k ≠ stochasticType → type? b' c k = type? b c k) ∧
    (∀ l, list? b c stochasticType = some l → Distinct l → (∃ e ∈ l, id? e = id? r) ∧
      ∃ l', list? b' c stochasticType = some l' ∧ List.Forall₂ (Step (c, r) c) l l') := by
  unfold includeOne at h
  split at h
  · obtain ⟨s, h1, h⟩ := Res.bind_eq_ok.mp h
    obtain ⟨seed, h2, h⟩ := Res.bind_eq_ok.mp h
    obtain ⟨types, h3, h⟩ := Res.bind_eq_ok.mp h
    obtain ⟨list, h4, h⟩ := Res.bind_eq_ok.mp h
    obtain ⟨o, h5, h⟩ := Res.bind_eq_ok.mp h
    cases o with
    | none => cases h
    | some l1 =>
      obtain ⟨types', h6, h⟩ := Res.bind_eq_ok.mp h
      obtain ⟨b1, h7, h⟩ := Res.bind_eq_ok.mp h
      injection h with h
      injection h with h
      subst h
      have hid := rawId_ok h1
      have hseed := index_eq_ok.mp h2
      have ht := access_ok h3
      have hl := access_ok h4
      refine ⟨⟨s, seed, hid, hseed⟩, fun key hk => by rw [find_set h7, if_neg hk], fun k hk => ?_, fun l hll hd => ?_⟩
      · unfold type?
        rw [find_set h7, if_pos rfl, Option.bind_some, find_set h6, if_neg hk, ht]
        cases b.find? c <;> rfl
      · obtain ⟨t, h8, h9⟩ := list_arr hll
        rw [h8] at ht
        simp only [Option.getD_some] at ht
        subst ht
        rw [h9] at hl
        simp only [Option.getD_some] at hl
        subst hl
        obtain ⟨pre, e, post, e', rfl, h10, h11, rfl⟩ := setFirst_ok h5
        refine ⟨⟨e, by simp, by rw [h10, hid]⟩, _, list_of_type (l := pre ++ e' :: post) ?_, ?_⟩
        · unfold type?
          rw [find_set h7, if_pos rfl, Option.bind_some, find_set h6, if_pos rfl]
          rfl
        · have hn := (distinct_iff.mp hd).2
          rw [List.map_append, List.map_cons, List.nodup_middle, List.nodup_cons] at hn
          have other : ∀ x ∈ pre ++ post, Step (c, r) c x x := by
            intro x hx
            refine Or.inr ⟨fun ⟨_, hx'⟩ => hn.1 ?_, rfl⟩
            rw [← List.map_append]
            exact List.mem_map.mpr ⟨x, hx, by rw [← hx', hid, h10]⟩
          refine List.rel_append (forall₂_same fun x hx => other x (by simp [hx])) (.cons ?_ (forall₂_same fun x hx =>
            other x (by simp [hx])))
          refine Or.inl ⟨rfl, by rw [hid, h10], sameUpToSeed_set h11, ?_⟩
          rw [find_set h11, if_pos rfl, hseed]
  · obtain ⟨i, -, h⟩ := Res.bind_eq_ok.mp h
    cases h

theorem Step.distinct {x : String × Json} {c : String} {l l' : List Json} (h : List.Forall₂ (Step x c) l l')
    (hd : Distinct l) : Distinct l' := by
  have : l'.map id? = l.map id? := by
    induction h with
    | nil => rfl
    | @cons e e' l l' h1 h2 ih =>
      rw [List.map_cons, List.map_cons, h1.id, ih]
      exact hd.sublist (List.sublist_cons_self _ _)
  obtain ⟨ids, h1, h2⟩ := hd
  exact ⟨ids, by rw [this, h1], h2⟩

theorem Step.gets {x : String × Json} {rest : List (String × Json)} {c : String} {e e' e'' : Json}
    (hn : (c, id? e) ∈ rest.map (fun x => (x.1, id? x.2)) → (x.1, id? x.2) ≠ (c, id? e))
    (h : Step x c e e') (h' : GetsSeed (fun c r => (c, r) ∈ rest) c e' e'') : GetsSeed (fun c r => (c, r) ∈ x :: rest) c e e'' := by
  have hid := h.id
  obtain ⟨h1, h2, h3⟩ := h'
  have hs : SameUpToSeed e e' := by
    rcases h with ⟨-, -, h, -⟩ | ⟨-, rfl⟩
    · exact h
    · exact .refl _
  refine ⟨hs.trans h1, fun r hr heq => ?_, fun hall => ?_⟩
  · rcases List.mem_cons.mp hr with rfl | hr
    · rcases h with ⟨-, -, -, h⟩ | ⟨h, -⟩
      · rw [h3 fun r' hr' he => hn (List.mem_map.mpr ⟨(c, r'), hr', by simp [he, hid]⟩) (by simp [heq]), h]
      · exact absurd ⟨rfl, heq⟩ h
    · exact h2 r hr (by rw [hid, heq])
  · rcases h with ⟨h4, h5, -, -⟩ | ⟨-, rfl⟩
    · exact absurd h5 (hall x.2 (by rw [← h4]; exact List.mem_cons_self ..))
    · exact h3 fun r hr => hall r (List.mem_cons_of_mem _ hr)

theorem includeLoop_ok {rs : List (String × Json)} {b b' : Json} (h : includeLoop rs b = Res.ok (some b'))
    (hc : ∀ x ∈ rs, x.1 ∈ classes) (hn : (rs.map fun x => (x.1, id? x.2)).Nodup) :
    (∀ x ∈ rs, ∃ s seed, id? x.2 = some s ∧ x.2.find? "seed" = some seed) ∧
    (∀ key, key ∉ classes → b'.find? key = b.find? key) ∧
    (∀ c k, k ≠ stochasticType → type? b' c k = type? b c k) ∧
    (∀ c l, list? b c stochasticType = some l → Distinct l → (∀ r, (c, r) ∈ rs → ∃ e ∈ l, id? e = id? r) ∧
      ∃ l', list? b' c stochasticType = some l' ∧ List.Forall₂ (GetsSeed (fun c r => (c, r) ∈ rs) c) l l') := by
  induction rs generalizing b with
  | nil =>
    simp only [includeLoop, Res.ok.injEq, Option.some.injEq] at h
    subst h
    refine ⟨by simp, fun _ _ => rfl, fun _ _ _ => rfl, fun c l hl _ => ⟨by simp, l, hl, forall₂_same fun e _ => ?_⟩⟩
    exact ⟨.refl e, by simp, fun _ => rfl⟩
  | cons x rs ih =>
    unfold includeLoop at h
    obtain ⟨o, h1, h⟩ := Res.bind_eq_ok.mp h
    cases o with
    | none => cases h
    | some b1 =>
      obtain ⟨h2, h3, h4, h5⟩ := includeOne_ok h1
      simp only [List.map_cons, List.nodup_cons] at hn
      obtain ⟨i1, i2, i3, i4⟩ := ih h (fun y hy => hc y (by simp [hy])) hn.2
      refine ⟨?_, ?_, ?_, ?_⟩
      · intro y hy
        rcases List.mem_cons.mp hy with rfl | hy
        · exact h2
        · exact i1 y hy
      · intro key hk
        rw [i2 key hk, h3 key fun e => hk (e ▸ hc x (by simp))]
      · intro c k hk
        rw [i3 c k hk]
        by_cases he : c = x.1
        · subst he; exact h4 k hk
        · exact type?_congr (h3 c he) k
      · intro c l hl hd
        have step : ∃ l1, list? b1 c stochasticType = some l1 ∧ List.Forall₂ (Step x c) l l1 ∧
            ∀ r, (c, r) = x → ∃ e ∈ l, id? e = id? r := by
          by_cases he : c = x.1
          · subst he
            obtain ⟨h6, l1, h7, h8⟩ := h5 l hl hd
            exact ⟨l1, h7, h8, fun r hr => by rw [← hr] at h6; exact h6⟩
          · refine ⟨l, ?_, forall₂_same fun e _ => Or.inr ⟨fun hh => he hh.1.symm, rfl⟩, fun r hr => absurd (by rw [← hr]) he⟩
            unfold list? at hl ⊢
            rw [h3 c he]
            exact hl
        obtain ⟨l1, h6, h7, h8⟩ := step
        obtain ⟨i5, l', h9, h10⟩ := i4 c l1 h6 (Step.distinct h7 hd)
        refine ⟨fun r hr => ?_, l', h9, ?_⟩
        · rcases List.mem_cons.mp hr with hr | hr
          · exact h8 r hr
          · obtain ⟨e1, he1, he2⟩ := i5 r hr
            obtain ⟨e, he, hs⟩ := Json.forall₂_mem_right h7 he1
            exact ⟨e, he, by rw [← hs.id, he2]⟩
        · clear h6 h9 hl hd i5 h8
          induction h7 generalizing l' with
          | nil => cases h10; exact .nil
          | cons a1 a2 ih' =>
            cases h10 with
            | cons c1 c2 =>
              exact .cons (a1.gets (fun hm he => hn.1 (he ▸ hm)) c1) (ih' _ c2)

theorem reports_class {results : Json} {x : String × Json} (h : x ∈ reports results) : x.1 ∈ classes := by
  unfold reports at h
  obtain ⟨c, hc, h⟩ := List.mem_flatMap.mp h
  cases h1 : results.find? c with
  | none => rw [h1] at h; cases h
  | some t =>
    rw [h1] at h
    cases h2 : t.find? stochasticType with
    | none => simp only [h2] at h; cases h
    | some l =>
      simp only [h2] at h
      obtain ⟨y, -, rfl⟩ := List.mem_map.mp h
      exact hc

/-- Specification of the loops: they visit the entries of the results. -/
theorem mem_reports {results : Json} {c : String} {r : Json} :
    (c, r) ∈ reports results ↔ c ∈ classes ∧ Reported results c r := by
  unfold reports Reported type?
  simp only [List.mem_flatMap]
  constructor
  · rintro ⟨c', hc, h⟩
    cases h1 : results.find? c' with
    | none => rw [h1] at h; cases h
    | some t =>
      rw [h1] at h
      cases h2 : t.find? stochasticType with
      | none => simp only [h2] at h; cases h
      | some l =>
        simp only [h2] at h
        obtain ⟨y, hy, h3⟩ := List.mem_map.mp h
        injection h3 with h3 h4
        subst h3
        subst h4
        exact ⟨hc, l, by rw [h1, Option.bind_some]; exact h2, hy⟩
  · rintro ⟨hc, v, h1, h2⟩
    cases h3 : results.find? c with
    | none => rw [h3] at h1; cases h1
    | some t =>
      rw [h3, Option.bind_some] at h1
      have h4 : t.find? stochasticType = some v := h1
      refine ⟨c, hc, ?_⟩
      rw [h3]
      simp only [h4]
      exact List.mem_map.mpr ⟨r, h2, rfl⟩

/-- Distinct ids in the results. -/
def DistinctReports (results : Json) : Prop :=
  ∀ c ∈ classes, ∀ v, type? results c "StochasticPQnode" = some v → (v.elements.map id?).Nodup

theorem reports_nodup {results : Json} (h : DistinctReports results) :
    ((reports results).map fun x => (x.1, id? x.2)).Nodup := by
  have one : ∀ c ∈ classes, ((match results.find? c with
      | none => []
      | some types =>
        match types.find? stochasticType with
        | none => []
        | some list => list.elements.map fun x => (c, x)).map fun x : String × Json => (x.1, id? x.2)).Nodup := by
    intro c hc
    cases h1 : results.find? c with
    | none => simp
    | some t =>
      cases h2 : t.find? stochasticType with
      | none => simp [h2]
      | some l =>
        have := h c hc l (by unfold type?; rw [h1, Option.bind_some]; exact h2)
        simp only [h2, List.map_map]
        have e : ((fun x : String × Json => (x.1, id? x.2)) ∘ fun x => (c, x)) = (fun i => (c, i)) ∘ id? := rfl
        rw [e, ← List.map_map]
        exact this.map fun a b hab => by simpa using hab
  unfold reports
  rw [show classes = ["nodes", "connections"] from rfl]
  simp only [List.flatMap_cons, List.flatMap_nil, List.append_nil, List.map_append]
  refine List.Nodup.append (one "nodes" (by simp [classes])) (one "connections" (by simp [classes])) ?_
  intro x hx hy
  have key : ∀ c, x ∈ (match results.find? c with
      | none => []
      | some types =>
        match types.find? stochasticType with
        | none => []
        | some list => list.elements.map fun x => (c, x)).map (fun x : String × Json => (x.1, id? x.2)) → x.1 = c := by
    intro c hx
    cases h1 : results.find? c with
    | none => simp [h1] at hx
    | some t =>
      cases h2 : t.find? stochasticType with
      | none => simp [h1, h2] at hx
      | some l =>
        simp only [h1, h2] at hx
        obtain ⟨y, hy1, hy2⟩ := List.mem_map.mp hx
        obtain ⟨z, -, rfl⟩ := List.mem_map.mp hy1
        rw [← hy2]
  exact absurd ((key _ hx).symm.trans (key _ hy)) (by decide)

/-! ## C96 -/

/-- C96. If including the seeds of results in boundary values succeeds, every report has an id and a seed and
belongs to an entry of the boundary values. This entry gets the seed, and nothing else is changed. The ids of the entries
are distinct as the boundary values have been used for the run (`C45_throws`), and so are those of the reports. -/
theorem C96_included {results boundary boundary' : Json} (h : includeSeeds results boundary = Res.ok (some boundary'))
    (hn : DistinctReports results) :
    (∀ c ∈ classes, ∀ r, Reported results c r → ∃ s seed, id? r = some s ∧ r.find? "seed" = some seed) ∧
    (∀ key, key ∉ classes → boundary'.find? key = boundary.find? key) ∧
    (∀ c k, k ≠ "StochasticPQnode" → type? boundary' c k = type? boundary c k) ∧
    (∀ c ∈ classes, ∀ l, list? boundary c "StochasticPQnode" = some l → Distinct l →
      (∀ r, Reported results c r → ∃ e ∈ l, id? e = id? r) ∧
      ∃ l', list? boundary' c "StochasticPQnode" = some l' ∧ List.Forall₂ (GetsSeed (Reported results) c) l l') := by
  obtain ⟨h1, h2, h3, h4⟩ := includeLoop_ok h (fun _ hx => reports_class hx) (reports_nodup hn)
  refine ⟨fun c hc r hr => h1 (c, r) (mem_reports.mpr ⟨hc, hr⟩), h2, h3, fun c hc l hl hd => ?_⟩
  obtain ⟨h5, l', h6, h7⟩ := h4 c l hl hd
  refine ⟨fun r hr => h5 r (mem_reports.mpr ⟨hc, hr⟩), l', h6, h7.imp ?_⟩
  rintro e e' ⟨a1, a2, a3⟩
  exact ⟨a1, fun r hr => a2 r (mem_reports.mpr ⟨hc, hr⟩), fun hall => a3 fun r hr => hall r (mem_reports.mp hr).2⟩

/-- C96. Including the seeds succeeds if every report has an id and a seed and belongs to an entry of the boundary values
that all have ids. -/
theorem C96_includes {results boundary : Json}
    (hr : ∀ c ∈ classes, ∀ r, Reported results c r → ∃ s seed, id? r = some s ∧ r.find? "seed" = some seed)
    (hb : ∀ c ∈ classes, ∀ r, Reported results c r → ∃ l, list? boundary c "StochasticPQnode" = some l ∧
      (∀ e ∈ l, (id? e).isSome) ∧ ∃ e ∈ l, id? e = id? r) :
    ∃ boundary', includeSeeds results boundary = Res.ok (some boundary') := by
  replace hr : ∀ x ∈ reports results, ∃ s seed, id? x.2 = some s ∧ x.2.find? "seed" = some seed := by
    intro x hx
    have := mem_reports.mp (show (x.1, x.2) ∈ reports results from hx)
    exact hr x.1 this.1 x.2 this.2
  replace hb : ∀ x ∈ reports results, ∃ l, list? boundary x.1 stochasticType = some l ∧ (∀ e ∈ l, (id? e).isSome) ∧
      ∃ e ∈ l, id? e = id? x.2 := by
    intro x hx
    have := mem_reports.mp (show (x.1, x.2) ∈ reports results from hx)
    exact hb x.1 this.1 x.2 this.2
  unfold includeSeeds
  generalize reports results = rs at hr hb
  induction rs generalizing boundary with
  | nil => exact ⟨boundary, rfl⟩
  | cons x rs ih =>
    obtain ⟨s, seed, h1, h2⟩ := hr x (by simp)
    obtain ⟨l, h3, h4, e, h5, h6⟩ := hb x (by simp)
    have hf : ∃ l', setFirst s seed l = Res.ok (some l') ∧ l'.map id? = l.map id? := by
      rw [h1] at h6
      clear h3
      induction l with
      | nil => cases h5
      | cons y l ih' =>
        obtain ⟨t, ht⟩ := Option.isSome_iff_exists.mp (h4 y (by simp))
        obtain ⟨m, v, rfl, hv, rfl⟩ : ∃ m v, y = obj m ∧ (obj m).find? "id" = some v ∧ v = str t := by
          unfold id? at ht
          cases y with
          | obj m =>
            cases hv : (obj m).find? "id" with
            | none => rw [hv] at ht; cases ht
            | some v =>
              refine ⟨m, v, rfl, hv, ?_⟩
              rw [hv] at ht
              clear hr hb ih ih' h2 h4 h5 h6 h1 hv
              cases v with
              | str u => simp only [Option.some.injEq] at ht; rw [ht]
              | _ => cases ht
          | _ => simp [find?] at ht
        have ha : access (obj m) "id" = Res.ok (str t) := by rw [access_obj, hv]; rfl
        unfold setFirst
        simp only [ha, Res.ok_bind]
        split
        · next hs =>
          obtain ⟨m', hm⟩ := set_obj m "seed" seed
          refine ⟨obj m' :: l, by rw [hm]; rfl, ?_⟩
          rw [List.map_cons, List.map_cons, id_set_seed hm]
        · next hs =>
          rcases List.mem_cons.mp h5 with rfl | h5
          · rw [ht] at h6
            injection h6 with h6
            exact absurd h6.symm hs
          · obtain ⟨l', h7, h8⟩ := ih' (fun z hz => h4 z (by simp [hz])) h5
            exact ⟨obj m :: l', by rw [h7]; rfl, by rw [List.map_cons, List.map_cons, h8]⟩
    obtain ⟨l', h7, h8⟩ := hf
    obtain ⟨types, h9, h10⟩ := list_arr h3
    obtain ⟨types', h11⟩ := set_of_find (v := arr l') h10
    obtain ⟨b, h12⟩ := set_of_find (v := types') h9
    have access_of : ∀ {j v : Json} {key : String}, j.find? key = some v → access j key = Res.ok v := by
      intro j v key h
      cases j with
      | obj m => rw [access_obj, h]; rfl
      | _ => simp [find?] at h
    have h13 : includeOne boundary x.1 x.2 = Res.ok (some b) := by
      unfold includeOne
      rw [if_pos (contains_iff.mpr ⟨seed, h2⟩)]
      have hid : rawId x.2 = Res.ok s := index_id h1
      simp only [hid, Res.ok_bind, index_of_find h2, access_of h9, access_of h10, elements, h7, withElements, h11, h12]
    unfold includeLoop
    rw [h13, Res.ok_bind]
    refine ih (fun y hy => hr y (by simp [hy])) fun y hy => ?_
    obtain ⟨l1, h14, h15, e1, h16, h17⟩ := hb y (by simp [hy])
    by_cases he : y.1 = x.1
    · rw [he] at h14 ⊢
      rw [h3] at h14
      injection h14 with h14
      subst h14
      refine ⟨l', list_of_type ?_, ?_, ?_⟩
      · unfold type?
        rw [find_set h12, if_pos rfl, Option.bind_some, find_set h11, if_pos rfl]
      · intro z hz
        have : id? z ∈ l.map id? := h8 ▸ List.mem_map_of_mem hz
        obtain ⟨w, hw, hw'⟩ := List.mem_map.mp this
        rw [← hw']
        exact h15 w hw
      · have : id? e1 ∈ l'.map id? := h8 ▸ List.mem_map_of_mem h16
        obtain ⟨w, hw, hw'⟩ := List.mem_map.mp this
        exact ⟨w, hw, by rw [hw', h17]⟩
    · refine ⟨l1, ?_, h15, e1, h16, h17⟩
      unfold list? at h14 ⊢
      rw [find_set h12, if_neg he]
      exact h14

/-- C96. A seed that is written to the output is read back. -/
theorem C96_seed {seed : List ℕ} (h : IsSeed seed) : readSeed (seedJson seed) = Res.ok seed := by
  unfold readSeed seedJson
  rw [Res.each_eq_ok, show seedCount = 8 from rfl, ← h.1, List.forall₂_iff_get]
  refine ⟨by simp, fun i h1 h2 => ?_⟩
  simp only [List.get_eq_getElem, List.getElem_range, List.getElem?_map, List.getElem?_eq_getElem h2, Option.map_some, getUint32]
  have := h.2 _ (List.getElem_mem h2)
  rw [if_pos (Rat.den_natCast _), Rat.num_natCast]
  congr 1
  omega

theorem readSeed_isSeed {j : Json} {seed : List ℕ} (h : readSeed j = Res.ok seed) : IsSeed seed := by
  unfold readSeed at h
  cases j with
  | arr l =>
    simp only at h
    have h := Res.each_eq_ok.mp h
    refine ⟨by have := h.length_eq; simpa [seedCount] using this.symm, fun n hn => ?_⟩
    obtain ⟨i, -, hi⟩ := Json.forall₂_mem_right h hn
    cases hl : l[i]? with
    | none => rw [hl] at hi; cases hi
    | some x =>
      rw [hl] at hi
      cases x with
      | num q =>
        simp only [getUint32] at hi
        split at hi
        · injection hi with hi
          rw [← hi]
          omega
        · split at hi
          · next hq =>
            injection hi with hi
            rw [← hi]
            unfold truncate
            split
            · have : ⌊q⌋ < 4294967296 := Int.floor_lt.mpr (by exact_mod_cast hq.2)
              omega
            · have : ⌈q⌉ ≤ 0 := Int.ceil_le.mpr (by push_cast; linarith)
              omega
          · cases hi
      | bool b =>
        simp only [getUint32, Res.ok.injEq] at hi
        rw [← hi]
        split <;> omega
      | _ => cases hi
  | _ => cases h

theorem represents_unique {v v' : IV ℚ} {k : ℕ} {data : List (ℚ × List ℚ)} (h : Represents v k data)
    (h' : Represents v' k data) : v = v' := by
  obtain ⟨h1, h2, h3, h4⟩ := h
  obtain ⟨h1', h2', h3', h4'⟩ := h'
  have at_ : ∀ {w : IV ℚ}, w.inner = k → ∀ {i : ℕ} {x : List ℚ}, vectorAtIndex w (i : ℤ) = Res.ok x →
      (w.values.drop (k * i)).take k = x := by
    intro w hw i x hx
    unfold vectorAtIndex at hx
    rw [if_neg (by omega)] at hx
    simp only [Int.toNat_natCast, hw] at hx
    split at hx
    · cases hx
    · unfold segment at hx
      split at hx
      · injection hx
      · cases hx
  have hl : v.values.length = data.length * k := by rw [h1, h2, h3, List.length_map]
  have hl' : v'.values.length = data.length * k := by rw [h1', h2', h3', List.length_map]
  have hv : v.values = v'.values := by
    refine List.ext_getElem (by rw [hl, hl']) fun j hj hj' => ?_
    rw [hl] at hj
    have hk : 0 < k := Nat.pos_of_ne_zero fun e => by rw [e] at hj; omega
    have hi : j / k < data.length := Nat.div_lt_of_lt_mul (by rw [Nat.mul_comm]; exact hj)
    have hm := Nat.mod_lt j hk
    have hdiv := Nat.div_add_mod j k
    have e := (at_ h2 (h4 _ hi)).trans (at_ h2' (h4' _ hi)).symm
    have e1 := congrArg (fun l => l[j % k]?) e
    simp only [List.getElem?_take, hm, if_true, List.getElem?_drop, hdiv] at e1
    rwa [List.getElem?_eq_getElem (by omega), List.getElem?_eq_getElem (by omega), Option.some.injEq] at e1
  cases v
  cases v'
  simp only at h2 h3 h2' h3' hv
  subst hv
  rw [h2, h3, h2', h3']

/-- Boundary values as intended: all entries have a time and two values. -/
def IntendedBoundary (e : Json) : Prop :=
  ∃ data : List (ℚ × List ℚ), Describes "time" e data ∧ data ≠ [] ∧ (∀ x ∈ data, x.2.length = 2) ∧
    ∀ es x, e.find? "data" = some (arr es) → es[0]? = some x → x.find? "x" = none

theorem IntendedBoundary.congr {e e' : Json} (h : SameUpToSeed e e') (he : IntendedBoundary e) : IntendedBoundary e' := by
  obtain ⟨data, ⟨id, es, h1, h2, h3⟩, h4, h5, h6⟩ := he
  have hid := h "id" (by decide)
  have hd := h "data" (by decide)
  exact ⟨data, ⟨id, es, hid.trans h1, hd.trans h2, h3⟩, h4, h5, fun es x hx => h6 es x (hd ▸ hx)⟩

/-- Boundary values that are the same up to the seed are read in the same way, whatever the memory contains. -/
theorem read_congr {e e' schema : Json} (hs : boundarySchema 2 = Res.ok schema) (h : SameUpToSeed e e')
    (he : IntendedBoundary e) (mem mem' : ℕ → ℚ) :
    ∃ v, validateAndRead mem schema e = Res.ok v ∧ validateAndRead mem' schema e' = Res.ok v := by
  obtain ⟨data, ⟨id, es, h1, h2, h3⟩, h4, h5, h6⟩ := he
  have hid := h "id" (by decide)
  have hd := h "data" (by decide)
  obtain ⟨v, h7, h8⟩ := C78_read_partial hs ⟨id, es, h1, h2, h3⟩ h4 h5 h6 mem
  obtain ⟨v', h7', h8'⟩ := C78_read_partial hs ⟨id, es, hid.trans h1, hd.trans h2, h3⟩ h4 h5
    (fun es x hx => h6 es x (hd ▸ hx)) mem'
  rw [represents_unique h8' h8] at h7'
  exact ⟨v, h7, h7'⟩

theorem index_congr {j j' : Json} {key : String} {v : Json} (h : j'.find? key = j.find? key) (hv : j.index key = Res.ok v) :
    j'.index key = Res.ok v := index_of_find (h.trans (index_eq_ok.mp hv))

theorem number_congr {j j' : Json} {key : String} {v : ℚ} (h : j'.find? key = j.find? key) (hv : number j key = Res.ok v) :
    number j' key = Res.ok v := by
  unfold number at hv ⊢
  obtain ⟨w, h1, h2⟩ := Res.bind_eq_ok.mp hv
  rw [index_congr h h1, Res.ok_bind, h2]

/-- C96. If a node is built from its data, and its boundary values then get the seed that was used, building it again gives the
same node, with the same state of its random number generator, whatever random seed is drawn this time. -/
theorem C96_same_node {State : Type} {mem : ℕ → ℚ} {setup : List ℕ → State} {drawn : List ℕ} (hd : IsSeed drawn)
    {topology topology' e e' : Json} {n : StochasticNode State} (h : construct mem setup drawn topology = Res.ok n)
    (ht : ∀ key, key ≠ "boundary_values" → topology'.find? key = topology.find? key)
    (he : topology.find? "boundary_values" = some e) (he' : topology'.find? "boundary_values" = some e')
    (hi : IntendedBoundary e) (hs : SameUpToSeed e e') (hseed : e'.find? "seed" = some (seedJson n.seed))
    (mem' : ℕ → ℚ) (drawn' : List ℕ) : construct mem' setup drawn' topology' = Res.ok n := by
  unfold construct at h ⊢
  obtain ⟨id, h1, h⟩ := Res.bind_eq_ok.mp h
  obtain ⟨b, h2, h⟩ := Res.bind_eq_ok.mp h
  obtain ⟨schema, h3, h⟩ := Res.bind_eq_ok.mp h
  obtain ⟨boundary, h4, h⟩ := Res.bind_eq_ok.mp h
  obtain ⟨G, h5, h⟩ := Res.bind_eq_ok.mp h
  obtain ⟨B, h6, h⟩ := Res.bind_eq_ok.mp h
  obtain ⟨stability, h7, h⟩ := Res.bind_eq_ok.mp h
  obtain ⟨cutOffFactor, h8, h⟩ := Res.bind_eq_ok.mp h
  obtain ⟨sigmaP, h9, h⟩ := Res.bind_eq_ok.mp h
  obtain ⟨thetaP, h10, h⟩ := Res.bind_eq_ok.mp h
  obtain ⟨sigmaQ, h11, h⟩ := Res.bind_eq_ok.mp h
  obtain ⟨thetaQ, h12, h⟩ := Res.bind_eq_ok.mp h
  obtain ⟨m, h13, h⟩ := Res.bind_eq_ok.mp h
  obtain ⟨steps, h14, h⟩ := Res.bind_eq_ok.mp h
  obtain ⟨seed, h15, h⟩ := Res.bind_eq_ok.mp h
  injection h with h
  subst h
  rw [index_of_find he] at h2
  injection h2 with h2
  subst h2
  have hss : IsSeed seed := by
    unfold usedSeed at h15
    split at h15
    · obtain ⟨s, -, h15⟩ := Res.bind_eq_ok.mp h15
      exact readSeed_isSeed h15
    · injection h15 with h15
      exact h15 ▸ hd
  have h1' : rawId topology' = Res.ok id := by
    unfold rawId at h1 ⊢
    obtain ⟨w, a1, a2⟩ := Res.bind_eq_ok.mp h1
    rw [index_congr (ht _ (by decide)) a1, Res.ok_bind, a2]
  obtain ⟨v, a1, a2⟩ := read_congr h3 hs hi mem mem'
  rw [a1] at h4
  injection h4 with h4
  subst h4
  simp only at hseed
  have h15' : usedSeed drawn' e' = Res.ok seed := by
    unfold usedSeed
    rw [if_pos (contains_iff.mpr ⟨_, hseed⟩), index_of_find hseed, Res.ok_bind, C96_seed hss]
  simp only [h1', Res.ok_bind, index_of_find he', h3, a2, number_congr (ht _ (by decide)) h5,
    number_congr (ht _ (by decide)) h6, number_congr (ht _ (by decide)) h7, number_congr (ht _ (by decide)) h8,
    number_congr (ht _ (by decide)) h9, number_congr (ht _ (by decide)) h10, number_congr (ht _ (by decide)) h11,
    number_congr (ht _ (by decide)) h12, index_congr (ht _ (by decide)) h13, h14,
    h15']

/-- C96. The output of a node contains its id and the seed that was used, however many time steps are saved. -/
theorem C96_reported {State : Type} (n : StochasticNode State) (entries : List Json) :
    ∃ j, nodeOutput n entries = Res.ok j ∧ id? j = some n.id ∧ j.find? "seed" = some (seedJson n.seed) ∧
      j.find? "data" = some (arr entries) := by
  obtain ⟨m1, h1⟩ := set_obj [("seed", seedJson n.seed)] "id" (str n.id)
  obtain ⟨m2, h2⟩ := set_obj m1 "data" (arr [])
  have main : ∀ (l : List Json) (m : List (String × Json)) (before : List Json), (obj m).find? "data" = some (arr before) →
      ∃ m', Res.fold l (obj m) (fun j e => pushTo j "data" e) = Res.ok (obj m') ∧
        (obj m').find? "data" = some (arr (before ++ l)) ∧ ∀ k, k ≠ "data" → (obj m').find? k = (obj m).find? k := by
    intro l
    induction l with
    | nil => exact fun m before h => ⟨m, rfl, by simpa using h, fun _ _ => rfl⟩
    | cons a l ih =>
      intro m before h
      obtain ⟨m', h3, h4, h5⟩ := pushTo_spec (Or.inl h) a
      obtain ⟨m'', h6, h7, h8⟩ := ih m' _ h4
      refine ⟨m'', by simp only [Res.fold, h3, Res.ok_bind, h6], by simpa using h7, fun k hk => by rw [h8 k hk, h5 k hk]⟩
  obtain ⟨m3, h3, h4, h5⟩ := main entries m2 [] (by rw [find_set h2, if_pos rfl])
  refine ⟨obj m3, ?_, ?_, ?_, by simpa using h4⟩
  · simp only [nodeOutput, set_null, Res.ok_bind, h1, h2, h3]
  · unfold id?
    rw [h5 _ (by decide), find_set h2, if_neg (by decide), find_set h1, if_pos rfl]
  · rw [h5 _ (by decide), find_set h2, if_neg (by decide), find_set h1, if_neg (by decide)]
    rfl

/-- C96. Reproducing a run: if all stochastic nodes of a run report their output in the results, including the seeds in the
boundary values of the run succeeds. Each node can then be built again from the new boundary values, and is the same as
before, including the state of its random number generator, whatever seeds are drawn in the second run. -/
theorem C96_reproduced {State : Type} {setup : List ℕ → State} {boundary results : Json} {l rs : List Json}
    (hl : list? boundary "nodes" "StochasticPQnode" = some l) (hd : Distinct l) (hi : ∀ e ∈ l, IntendedBoundary e)
    {run : List (Json × StochasticNode State)}
    (hrun : ∀ x ∈ run, ∃ mem drawn e, IsSeed drawn ∧ construct mem setup drawn x.1 = Res.ok x.2 ∧
      e ∈ l ∧ x.1.find? "boundary_values" = some e ∧ id? e = some x.2.id)
    (hids : (run.map fun x => x.2.id).Nodup)
    (hrs : list? results "nodes" "StochasticPQnode" = some rs) (hcs : type? results "connections" "StochasticPQnode" = none)
    (hres : List.Forall₂ (fun r x => ∃ entries, nodeOutput x.2 entries = Res.ok r) rs run) :
    ∃ boundary' l', includeSeeds results boundary = Res.ok (some boundary') ∧
      list? boundary' "nodes" "StochasticPQnode" = some l' ∧
      ∀ x ∈ run, ∃ e' ∈ l', id? e' = some x.2.id ∧
        ∀ topology', (∀ key, key ≠ "boundary_values" → topology'.find? key = x.1.find? key) →
          topology'.find? "boundary_values" = some e' →
          ∀ mem' drawn', construct mem' setup drawn' topology' = Res.ok x.2 := by
  have hrep : ∀ (r : Json) (x : Json × StochasticNode State), (∃ entries, nodeOutput x.2 entries = Res.ok r) →
      id? r = some x.2.id ∧ r.find? "seed" = some (seedJson x.2.seed) := by
    rintro r x ⟨entries, h⟩
    obtain ⟨j, h1, h2, h3, -⟩ := C96_reported x.2 entries
    rw [h] at h1
    injection h1 with h1
    rw [h1]
    exact ⟨h2, h3⟩
  have htype := type_of_list hrs
  have hreported : ∀ c ∈ classes, ∀ r, Reported results c r ↔ c = "nodes" ∧ r ∈ rs := by
    intro c hc r
    simp only [classes, List.mem_cons, List.not_mem_nil, or_false] at hc
    unfold Reported
    rcases hc with rfl | rfl
    · rw [htype]
      constructor
      · rintro ⟨v, h1, h2⟩
        injection h1 with h1
        subst h1
        exact ⟨rfl, h2⟩
      · rintro ⟨-, h⟩
        exact ⟨_, rfl, h⟩
    · rw [hcs]
      constructor
      · rintro ⟨v, h1, -⟩
        cases h1
      · rintro ⟨h, -⟩
        exact absurd h (by decide)
  have hn : DistinctReports results := by
    intro c hc v hv
    simp only [classes, List.mem_cons, List.not_mem_nil, or_false] at hc
    rcases hc with rfl | rfl
    · rw [htype] at hv
      injection hv with hv
      subst hv
      have : rs.map id? = (run.map fun x => x.2.id).map some := by
        clear hrun hids hrs htype hreported
        induction hres with
        | nil => rfl
        | @cons r x _ _ h1 _ ih =>
          rw [List.map_cons, ih, List.map_cons, List.map_cons, (hrep _ _ h1).1]
      simp only [elements]
      rw [this]
      exact hids.map (Option.some_injective _)
    · rw [hcs] at hv
      cases hv
  obtain ⟨boundary', h1⟩ := C96_includes (results := results) (boundary := boundary)
    (fun c hc r hr => by
      obtain ⟨x, -, hx⟩ := Factory.forall₂_mem_left hres ((hreported c hc r).mp hr).2
      exact ⟨_, _, hrep r x hx⟩)
    (fun c hc r hr => by
      obtain ⟨rfl, hr'⟩ := (hreported c hc r).mp hr
      obtain ⟨x, hx, hrx⟩ := Factory.forall₂_mem_left hres hr'
      obtain ⟨mem, drawn, e, -, -, he, -, he'⟩ := hrun x hx
      exact ⟨l, hl, (distinct_iff.mp hd).1, e, he, by rw [he', (hrep r x hrx).1]⟩)
  obtain ⟨-, -, -, h2⟩ := C96_included h1 hn
  obtain ⟨-, l', h3, h4⟩ := h2 "nodes" (by simp [classes]) l hl hd
  refine ⟨boundary', l', h1, h3, fun x hx => ?_⟩
  obtain ⟨mem, drawn, e, hseed, hc, he, hbv, hid⟩ := hrun x hx
  obtain ⟨e', he', hs⟩ := Factory.forall₂_mem_left h4 he
  obtain ⟨r, hr, hrx⟩ := Json.forall₂_mem_right hres hx
  obtain ⟨hs1, hs2, -⟩ := hs
  have h5 := hs2 r ((hreported _ (by simp [classes]) r).mpr ⟨rfl, hr⟩) (by rw [(hrep r x hrx).1, hid])
  rw [(hrep r x hrx).2] at h5
  exact ⟨e', he', by rw [hs1.id, hid], fun topology' ht hb mem' drawn' =>
    C96_same_node hseed hc ht hbv hb (hi e he) hs1 h5 mem' drawn'⟩

/-! ### Removing seeds -/

theorem lookup_filter (m : List (String × Json)) (key : String) :
    (m.filter fun x => !(x.1 == "seed")).lookup key = if key = "seed" then none else m.lookup key := by
  induction m with
  | nil => simp
  | cons x m ih =>
    obtain ⟨k, v⟩ := x
    rw [List.filter_cons, lookup_cons]
    by_cases hk : k = "seed"
    · subst hk
      simp only [beq_self_eq_true, Bool.not_true, Bool.false_eq_true, if_false]
      rw [ih]
      split <;> rfl
    · have : (!(k == "seed")) = true := by simpa using hk
      simp only [this, if_true]
      rw [lookup_cons, ih]
      by_cases h1 : key = k
      · subst h1
        simp [hk]
      · simp [h1]

theorem eraseSeed_spec (e : Json) : SameUpToSeed e (eraseSeed e) ∧ (eraseSeed e).find? "seed" = none := by
  cases e with
  | obj m =>
    simp only [SameUpToSeed, eraseSeed, find?]
    exact ⟨fun key hk => by rw [lookup_filter, if_neg hk], by rw [lookup_filter, if_pos rfl]⟩
  | _ => exact ⟨fun _ _ => rfl, rfl⟩

/-- C96. Removing the seeds of boundary values of the required shape succeeds. Afterwards no component has a seed, and nothing else
is changed. -/
theorem C96_removed {boundary : Json} (hs : Shaped boundary) :
    ∃ boundary', removeSeeds boundary = Res.ok boundary' ∧
      (∀ key, key ∉ classes → boundary'.find? key = boundary.find? key) ∧
      (∀ c ∈ classes, ∀ k, list? boundary c k = none → list? boundary' c k = none) ∧
      ∀ c ∈ classes, ∀ k l, list? boundary c k = some l → ∃ l', list? boundary' c k = some l' ∧
        List.Forall₂ (fun e e' => SameUpToSeed e e' ∧ e'.find? "seed" = none) l l' := by
  have step : ∀ (b : Json) (c : String), ∃ b', (match b.find? c with
      | none => Res.ok b
      | some types => b.set c (mapElements (mapElements eraseSeed) types)) = Res.ok b' ∧
      (∀ key, key ≠ c → b'.find? key = b.find? key) ∧
      b'.find? c = (b.find? c).map (mapElements (mapElements eraseSeed)) := by
    intro b c
    cases h : b.find? c with
    | none => exact ⟨b, rfl, fun _ _ => rfl, h⟩
    | some types =>
      obtain ⟨b', hb⟩ := set_of_find (v := mapElements (mapElements eraseSeed) types) h
      exact ⟨b', hb, fun key hk => by rw [find_set hb, if_neg hk], by rw [find_set hb, if_pos rfl]; rfl⟩
  obtain ⟨b1, h1, h2, h3⟩ := step boundary "nodes"
  obtain ⟨b2, h4, h5, h6⟩ := step b1 "connections"
  have hall : ∀ c ∈ classes, b2.find? c = (boundary.find? c).map (mapElements (mapElements eraseSeed)) := by
    intro c hc
    simp only [classes, List.mem_cons, List.not_mem_nil, or_false] at hc
    rcases hc with rfl | rfl
    · rw [h5 _ (by decide), h3]
    · rw [h6, h2 _ (by decide)]
  have hlist : ∀ c ∈ classes, ∀ k, list? b2 c k = (list? boundary c k).map (List.map eraseSeed) := by
    intro c hc k
    unfold list?
    rw [hall c hc]
    cases hf : boundary.find? c with
    | none => rfl
    | some types =>
      obtain ⟨m, rfl, hm⟩ := hs c hc types hf
      simp only [Option.map_some, Option.bind_some, mapElements, find?]
      clear hf
      induction m with
      | nil => rfl
      | cons x m ih =>
        obtain ⟨k', v⟩ := x
        rw [List.map_cons, lookup_cons, lookup_cons]
        by_cases hk : k = k'
        · obtain ⟨l, hl⟩ := hm (k', v) (by simp)
          simp only at hl
          subst hl
          rw [if_pos hk, if_pos hk]
          rfl
        · rw [if_neg hk, if_neg hk]
          exact ih fun x hx => hm x (by simp [hx])
  refine ⟨b2, ?_, fun key hk => ?_, fun c hc k hn => by rw [hlist c hc k, hn]; rfl, fun c hc k l hl => ?_⟩
  · unfold removeSeeds classes
    simp only [Res.fold]
    rw [h1, Res.ok_bind, h4]
    rfl
  · simp only [classes, List.mem_cons, List.not_mem_nil, or_false, not_or] at hk
    rw [h5 key hk.2, h2 key hk.1]
  · refine ⟨l.map eraseSeed, by rw [hlist c hc k, hl]; rfl, ?_⟩
    rw [List.forall₂_map_right_iff]
    exact forall₂_same fun e _ => eraseSeed_spec e

/-! ### Example -/

/-- The boundary values of two stochastic nodes. -/
def exampleEntry (id : String) : Json :=
  obj [("data", arr [obj [("time", num 0), ("values", arr [num (-5), num (-1)])]]), ("id", str id)]

def exampleBoundary : Json :=
  obj [("connections", obj []), ("nodes", obj [("StochasticPQnode", arr [exampleEntry "a", exampleEntry "b"])])]

/-- The topology of a node, with its boundary values. -/
def exampleNode (id : String) : Json :=
  obj [("B", num (-9)), ("G", num 3), ("boundary_values", exampleEntry id), ("cut_off_factor", num (1 / 3)), ("id", str id),
    ("number_of_stochastic_steps", num 10), ("sigma_P", num 1), ("sigma_Q", num 1), ("stability_parameter", num 1),
    ("theta_P", num 3), ("theta_Q", num 3)]

/-- The results of a run in which 1, ..., 8 and 9, ..., 16 have been drawn. -/
def exampleResults : Json :=
  obj [("nodes", obj [("StochasticPQnode", arr [
    obj [("data", arr []), ("id", str "b"), ("seed", seedJson [9, 10, 11, 12, 13, 14, 15, 16])],
    obj [("data", arr []), ("id", str "a"), ("seed", seedJson [1, 2, 3, 4, 5, 6, 7, 8])]])])]

/-- The seeds are included. -/
example : includeSeeds exampleResults exampleBoundary = Res.ok (some (obj [("connections", obj []),
    ("nodes", obj [("StochasticPQnode", arr [
      obj [("data", arr [obj [("time", num 0), ("values", arr [num (-5), num (-1)])]]), ("id", str "a"),
        ("seed", seedJson [1, 2, 3, 4, 5, 6, 7, 8])],
      obj [("data", arr [obj [("time", num 0), ("values", arr [num (-5), num (-1)])]]), ("id", str "b"),
        ("seed", seedJson [9, 10, 11, 12, 13, 14, 15, 16])]])])])) := by rfl

theorem exampleEntry_intended (id : String) : IntendedBoundary (exampleEntry id) := by
  refine ⟨[(0, [-5, -1])], ⟨id, _, rfl, rfl, .cons ⟨rfl, rfl⟩ .nil⟩, by simp, by simp, fun es x h h0 => ?_⟩
  injection h with h
  injection h with h
  subst h
  injection h0 with h0
  subst h0
  rfl

/-- The nodes can be built, with the drawn seed. -/
theorem exampleNode_ok (id : String) (mem : ℕ → ℚ) (drawn : List ℕ) :
    ∃ n, construct mem (fun s => s) drawn (exampleNode id) = Res.ok n ∧ n.id = id ∧ n.seed = drawn := by
  obtain ⟨schema, hs⟩ : ∃ schema, boundarySchema 2 = Res.ok schema := ⟨_, boundary_eq 2⟩
  obtain ⟨v, h1, -⟩ := read_congr hs (.refl _) (exampleEntry_intended id) mem mem
  have h2 : (exampleNode id).index "boundary_values" = Res.ok (exampleEntry id) := rfl
  have h3 : rawId (exampleNode id) = Res.ok id := rfl
  have h4 : usedSeed drawn (exampleEntry id) = Res.ok drawn := rfl
  have h5 : (exampleNode id).index "number_of_stochastic_steps" = Res.ok (num 10) := rfl
  have h6 : getInt (num 10) = Res.ok 10 := by decide +kernel
  have h7 : ∀ key q, (exampleNode id).find? key = some (num q) → number (exampleNode id) key = Res.ok q := by
    intro key q h
    unfold number
    rw [index_of_find h]
    rfl
  refine ⟨⟨id, v, 3, -9, 1, 1 / 3, 1, 3, 1, 3, 10, drawn, drawn⟩, ?_, rfl, rfl⟩
  unfold construct
  simp only [h3, Res.ok_bind, h2, hs, h1, h5, h6, h4, h7 "G" 3 rfl, h7 "B" (-9) rfl, h7 "stability_parameter" 1 rfl,
    h7 "cut_off_factor" (1 / 3) rfl, h7 "sigma_P" 1 rfl, h7 "theta_P" 3 rfl, h7 "sigma_Q" 1 rfl, h7 "theta_Q" 3 rfl]

/-- The hypotheses of `C96_reproduced` are met by a run with one node. -/
example : ∃ (results boundary : Json) (l rs : List Json) (run : List (Json × StochasticNode (List ℕ))),
    list? boundary "nodes" "StochasticPQnode" = some l ∧ Distinct l ∧ (∀ e ∈ l, IntendedBoundary e) ∧ run ≠ [] ∧
    (∀ x ∈ run, ∃ mem drawn e, IsSeed drawn ∧ construct mem (fun s => s) drawn x.1 = Res.ok x.2 ∧
      e ∈ l ∧ x.1.find? "boundary_values" = some e ∧ id? e = some x.2.id) ∧
    (run.map fun x => x.2.id).Nodup ∧ list? results "nodes" "StochasticPQnode" = some rs ∧
    type? results "connections" "StochasticPQnode" = none ∧
    List.Forall₂ (fun r x => ∃ entries, nodeOutput x.2 entries = Res.ok r) rs run := by
  obtain ⟨n, h1, h2, h3⟩ := exampleNode_ok "a" (fun _ => 0) [1, 2, 3, 4, 5, 6, 7, 8]
  obtain ⟨j, h4, -⟩ := C96_reported n []
  refine ⟨obj [("nodes", obj [("StochasticPQnode", arr [j])])], exampleBoundary, [exampleEntry "a", exampleEntry "b"], [j],
    [(exampleNode "a", n)], rfl, ⟨["a", "b"], rfl, by decide⟩, ?_, by simp, ?_, by simp, rfl, rfl, .cons ⟨[], h4⟩ .nil⟩
  · intro e he
    simp only [List.mem_cons, List.not_mem_nil, or_false] at he
    rcases he with rfl | rfl <;> exact exampleEntry_intended _
  · intro x hx
    simp only [List.mem_cons, List.not_mem_nil, or_false] at hx
    subst hx
    exact ⟨_, [1, 2, 3, 4, 5, 6, 7, 8], exampleEntry "a", ⟨rfl, by decide⟩, h1, by simp, rfl, by rw [h2]; rfl⟩

end Verif.Stochastic
