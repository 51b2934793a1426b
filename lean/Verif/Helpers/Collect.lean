import Verif.Helpers.DiscrepanceFile
import Verif.Helpers.Statistics

/-!
# The helper programs for statistics over whole files of results

`helper_functions/get_mean_sigma.cpp` and `helper_functions/get_quantiles.cpp`: results of several runs are collected component by
component, time step by time step, quantity by quantity and point by point. What is done with a single quantity is in `Statistics`.

Simplifications: numbers in the files are rational. What belongs to one quantity of the input is one entry of the output here, while
the code writes several entries, whose names are the name of the quantity with endings (`_mean`, `_sigma` and so on); for gas
components, the array of means and the array of deviations, which have the same positions, are one array here. For an
empty array of points, `get_mean_sigma.cpp` writes an empty array of means, and here nothing is kept.
-/

set_option autoImplicit false

namespace Verif.Helpers.Collect

open Verif.Helpers.Discrepance (Step Component Point quantityAt SameLayout Sorted SamePoints Types File)

/-! ## Model -/

/-- What is done with a single number: when a component is met for the first time, when it is met again (with the number of runs that
have been processed), and when it is met again but its quantity is not there. -/
structure Number (S : Type) where
  first : ℚ → S
  again : ℕ → S → ℚ → S
  missing : ℚ → Res S

/-- Mean and deviation — `get_mean_sigma.cpp` 131-134, 156-165 and 211-219, 266-275. A quantity that is missing is null, and
`get<double>` throws. -/
noncomputable def meanSigma : Number (ℝ × ℝ) where
  first := fun v => (v, 0)
  again := fun n s v => (newMean s.1 v n, newSigma s.2 s.1 v n)
  missing := fun _ => Res.throws

/-- The values of all runs — `get_quantiles.cpp` 149-151 and 191-192, 241 and 265. Adding to a quantity that is missing makes an
array. -/
def values : Number (List ℚ) where
  first := fun v => [v]
  again := fun _ s v => s ++ [v]
  missing := fun v => Res.ok [v]

/-- What is done with a quantity. -/
structure Kind (Q S : Type) where
  /-- Whether there is anything to do: not so for an empty array. -/
  present : Q → Bool
  first : Q → S
  again : ℕ → Option S → Q → Res S

/-- Power components: a quantity is a number. -/
def power {S : Type} (A : Number S) : Kind ℚ S where
  present := fun _ => true
  first := A.first
  again := fun n s v =>
    match s with
    | none => A.missing v
    | some s => Res.ok (A.again n s v)

/-- One point another time — `get_mean_sigma.cpp` 242-276, `get_quantiles.cpp` 176-193: it is looked for by `"x"`. -/
def againPoint {S : Type} (A : Number S) (n : ℕ) (s : List (ℚ × S)) (q : Point) : Res (List (ℚ × S)) := do
  let i ← Discrepance.lowerBound (fun p : ℚ × S => decide (p.1 < q.1)) s
  let saved ← Res.get s i
  if saved.1 ≠ q.1 then Res.throws
  else Res.ok (s.set i (saved.1, A.again n saved.2 q.2))

/-- All points another time — `get_mean_sigma.cpp` 242, `get_quantiles.cpp` 176. -/
def againPoints {S : Type} (A : Number S) (n : ℕ) : List (ℚ × S) → List Point → Res (List (ℚ × S))
  | s, [] => Res.ok s
  | s, q :: qs => do
    let s' ← againPoint A n s q
    againPoints A n s' qs

/-- Gas components: a quantity is an array of points — `get_mean_sigma.cpp` 211-219 and 242-276, `get_quantiles.cpp` 148-152 and
176-193. If the quantity is missing (null), the search gives an iterator to nothing, whose use throws. -/
def gas {S : Type} (A : Number S) : Kind (List Point) (List (ℚ × S)) where
  present := fun q => !q.isEmpty
  first := fun q => q.map fun p => (p.1, A.first p.2)
  again := fun n s q =>
    match s with
    | none => Res.throws
    | some s => againPoints A n s q

variable {I Q S : Type} [LinearOrder I]

/-- The quantities of a time step the first time — `get_mean_sigma.cpp` 126-135 and 206-220, `get_quantiles.cpp` 143-153 and
236-242. -/
def firstValues (K : Kind Q S) : List (String × Q) → List (String × S)
  | [] => []
  | (key, q) :: rest => if K.present q then (key, K.first q) :: firstValues K rest else firstValues K rest

/-- The time steps the first time — `get_mean_sigma.cpp` 122-137 and 202-222, `get_quantiles.cpp` 140-155 and 233-244. -/
def firstData (K : Kind Q S) (data : List (Step Q)) : List (Step S) := data.map fun s => ⟨s.time, firstValues K s.values⟩

/-- Writes an entry of an object. -/
def put (key : String) (d : S) (saved : List (String × S)) : List (String × S) :=
  if key ∈ saved.map Prod.fst then saved.map fun e => if e.1 = key then (key, d) else e else saved ++ [(key, d)]

/-- The quantities of a time step another time — `get_mean_sigma.cpp` 152-166 and 236-277, `get_quantiles.cpp` 172-194 and
261-266. -/
def againValues (K : Kind Q S) (n : ℕ) : List (String × S) → List (String × Q) → Res (List (String × S))
  | saved, [] => Res.ok saved
  | saved, (key, q) :: rest =>
    if K.present q then do
      let d ← K.again n (saved.lookup key) q
      againValues K n (put key d saved) rest
    else againValues K n saved rest

/-- The time steps another time — `get_mean_sigma.cpp` 148-169 and 232-280, `get_quantiles.cpp` 165-197 and 254-269. The iterator must
not be moved behind the end. -/
def againData (K : Kind Q S) (n : ℕ) : List (Step S) → List (Step Q) → Res (List (Step S))
  | saved, [] => Res.ok saved
  | s :: saved, step :: steps => do
    let v ← againValues K n s.values step.values
    let rest ← againData K n saved steps
    Res.ok (⟨s.time, v⟩ :: rest)
  | [], _ :: _ => Res.ub

/-- What is done for one component of a run — `get_mean_sigma.cpp` 106-170 and 187-281, `get_quantiles.cpp` 124-198 and 217-270. -/
def addComponent (K : Kind Q S) (n : ℕ) (out : List (Component I S)) (c : Component I Q) : Res (List (Component I S)) := do
  let i ← Discrepance.lowerBound (fun o : Component I S => decide (o.id < c.id)) out
  match out[i]? with
  | none => Res.ok (out ++ [⟨c.id, firstData K c.data⟩])
  | some o =>
    if o.id ≠ c.id then Res.throws
    else do
      let data ← againData K n o.data c.data
      Res.ok (out.set i ⟨o.id, data⟩)

/-- The components of one type of a run — `get_mean_sigma.cpp` 105 and 186, `get_quantiles.cpp` 123 and 216. -/
def addRun (K : Kind Q S) (n : ℕ) : List (Component I S) → List (Component I Q) → Res (List (Component I S))
  | out, [] => Res.ok out
  | out, c :: cs => do
    let out' ← addComponent K n out c
    addRun K n out' cs

/-- One type — `get_mean_sigma.cpp` 101-105 and 182-186, `get_quantiles.cpp` 118-123 and 211-216: nothing is done if it is missing. -/
def addType (K : Kind Q S) (n : ℕ) (run : Option (List (Component I Q))) (out : List (Component I S)) :
    Res (List (Component I S)) :=
  match run with
  | none => Res.ok out
  | some components => addRun K n out components

/-- One class — `get_mean_sigma.cpp` 97-100 and 178-181, `get_quantiles.cpp` 114-117 and 207-210: nothing is done if it is missing. -/
def addClass (K : Kind Q S) (n : ℕ) (part : Types I → String → Option (List (Component I Q))) (types : List String)
    (run : Option (Types I)) (out : String → List (Component I S)) : Res (String → List (Component I S)) :=
  match run with
  | none => Res.ok out
  | some q => Discrepance.loop (fun type => addType K n (part q type)) types out

/-- `add_power_json_data` and `add_gas_json_data` — `get_mean_sigma.cpp` 93-174 and 175-285, `get_quantiles.cpp` 204-274 and
111-202. -/
def addFile (K : Kind Q S) (n : ℕ) (part : Types I → String → Option (List (Component I Q))) (types : List String) (run : File I)
    (out : String → String → List (Component I S)) : Res (String → String → List (Component I S)) :=
  Discrepance.loop (fun class' => addClass K n part types (run class')) Discrepance.compclasses out

/-- What has been collected: by class and type. -/
structure Output (I S : Type) where
  power : String → String → List (Component I S)
  gas : String → String → List (Component I (List (ℚ × S)))

/-- The loop over the files — `get_mean_sigma.cpp` 68-88, `get_quantiles.cpp` 80-104. The number says how many have been processed
before. -/
def addFiles (A : Number S) : ℕ → List (File I) → Output I S → Res (Output I S)
  | _, [], out => Res.ok out
  | n, run :: runs, out => do
    let power' ← addFile (power A) n Types.power Discrepance.powerTypes run out.power
    let gas' ← addFile (gas A) n Types.gas Discrepance.gasTypes run out.gas
    addFiles A (n + 1) runs ⟨power', gas'⟩

/-- The main function of the program for means and deviations — `get_mean_sigma.cpp` 43-91. -/
noncomputable def meanSigmaMain (trunk : String) (directory : List (String × File I)) : Res (Output I (ℝ × ℝ)) :=
  addFiles meanSigma 0 ((directory.filter fun e => Discrepance.chosen trunk e.1).map Prod.snd) ⟨fun _ _ => [], fun _ _ => []⟩

/-! ## Proofs -/

/-- What becomes of a number, from the second run on. -/
def totalFrom (A : Number S) : ℕ → S → List ℚ → S
  | _, s, [] => s
  | n, s, v :: vs => totalFrom A (n + 1) (A.again n s v) vs

/-- What becomes of a number over all runs. -/
def total (A : Number S) : List ℚ → Option S
  | [] => none
  | v :: vs => some (totalFrom A 1 (A.first v) vs)

theorem totalFrom_append (A : Number S) (w : ℚ) : ∀ (vs : List ℚ) (n : ℕ) (s : S),
    totalFrom A n s (vs ++ [w]) = A.again (n + vs.length) (totalFrom A n s vs) w
  | [], n, s => by simp [totalFrom]
  | v :: vs, n, s => by
    simp only [List.cons_append, totalFrom, totalFrom_append A w vs, List.length_cons]
    congr 1
    omega

theorem total_append {A : Number S} {vs : List ℚ} {s : S} (h : total A vs = some s) (w : ℚ) :
    total A (vs ++ [w]) = some (A.again vs.length s w) := by
  cases vs with
  | nil => simp [total] at h
  | cons v vs =>
    simp only [total, Option.some.injEq] at h
    simp only [List.cons_append, total, totalFrom_append, h, List.length_cons, Option.some.injEq]
    congr 1
    omega

/-- What is needed of a kind of quantities: `P r qs d` says that `d` is the right result for `qs`. -/
structure Correct (K : Kind Q S) (R : Q → Q → Prop) (P : Q → List Q → S → Prop) : Prop where
  present : ∀ r q, R r q → K.present q = true
  first : ∀ r q, R r q → P r [q] (K.first q)
  again : ∀ r qs s q, P r qs s → R r q → ∃ d, K.again qs.length (some s) q = Res.ok d ∧ P r (qs ++ [q]) d

theorem correct_power (A : Number S) : Correct (power A) (fun _ _ => True) (fun _ qs s => total A qs = some s) where
  present := fun _ _ _ => rfl
  first := fun _ _ _ => by simp [total, totalFrom, power]
  again := fun _ qs s q h _ => ⟨_, rfl, total_append h q⟩

theorem againPoints_spec (A : Number S) (n : ℕ) : ∀ (sp st : List (ℚ × S)) (qs : List Point),
    st.map Prod.fst = qs.map Prod.fst → ((sp ++ st).map Prod.fst).Pairwise (· < ·) →
    ∃ d, againPoints A n (sp ++ st) qs = Res.ok (sp ++ d) ∧ d.map Prod.fst = st.map Prod.fst ∧
      ∀ (j : ℕ) (x : ℚ) (s : S) (v : ℚ), st[j]? = some (x, s) → qs[j]? = some (x, v) → d[j]? = some (x, A.again n s v)
  | sp, st, [], h, _ => by
    have : st = [] := by simpa using h
    subst this
    exact ⟨[], by simp [againPoints], rfl, by simp⟩
  | sp, [], q :: qs, h, _ => by simp at h
  | sp, (x, s) :: st, (x', v) :: qs, h, hs => by
    simp only [List.map_cons, List.cons.injEq] at h
    obtain ⟨e, h⟩ := h
    subst e
    have hp := hs
    rw [List.map_append, List.pairwise_append, List.map_cons, List.pairwise_cons] at hp
    have b1 := Discrepance.lowerBound_append (fun p : ℚ × S => decide (p.1 < x)) sp ((x, s) :: st)
      (fun p hpm => by simpa using hp.2.2 p.1 (List.mem_map_of_mem hpm) x (by simp))
      (fun p hpm => by
        rcases List.mem_cons.mp hpm with rfl | hpm
        · simp
        · simpa using (hp.2.1.1 p.1 (List.mem_map_of_mem hpm)).le)
    have hone : againPoint A n (sp ++ (x, s) :: st) (x, v) = Res.ok (sp ++ (x, A.again n s v) :: st) := by
      simp only [againPoint, b1, Res.ok_bind, Res.get]
      simp
    obtain ⟨d, hd, hk, hv⟩ := againPoints_spec A n (sp ++ [(x, A.again n s v)]) st qs h (by simpa using hs)
    refine ⟨(x, A.again n s v) :: d, ?_, by simp [hk], ?_⟩
    · rw [againPoints, hone]
      simpa using hd
    · intro j y t w g1 g2
      cases j with
      | zero =>
        simp only [List.getElem?_cons_zero, Option.some.injEq, Prod.mk.injEq] at g1 g2 ⊢
        obtain ⟨rfl, rfl⟩ := g1
        obtain ⟨-, rfl⟩ := g2
        exact ⟨rfl, rfl⟩
      | succ j => exact hv j y t w (by simpa using g1) (by simpa using g2)

/-- The value of a point in an array. -/
def valueAt (q : List Point) (j : ℕ) : ℚ := ((q[j]?).map Prod.snd).getD 0

theorem correct_gas (A : Number S) : Correct (gas A) SamePoints (fun r qs s => r.map Prod.fst = s.map Prod.fst ∧
    (r.map Prod.fst).Pairwise (· < ·) ∧
    ∀ (j : ℕ) (x : ℚ) (e : S), s[j]? = some (x, e) → total A (qs.map fun q => valueAt q j) = some e) where
  present := by
    intro r q h
    have : q ≠ [] := by
      rintro rfl
      exact h.1 (by simpa using h.2.1)
    simpa [gas] using this
  first := by
    intro r q h
    refine ⟨by simp [gas, h.2.1, Function.comp_def], h.2.2, fun j x e he => ?_⟩
    simp only [gas, List.getElem?_map, Option.map_eq_some_iff] at he
    obtain ⟨p, hp, he⟩ := he
    simp only [Prod.mk.injEq] at he
    simp [total, totalFrom, valueAt, hp, he.2]
  again := by
    rintro r qs s q ⟨hk, hs, hP⟩ h
    obtain ⟨d, hd, hkd, hv⟩ := againPoints_spec A qs.length [] s q (by rw [← hk, h.2.1]) (by rw [List.nil_append, ← hk]; exact hs)
    simp only [List.nil_append] at hd
    refine ⟨d, hd, by rw [hk, hkd], hs, fun j x e he => ?_⟩
    have hx : (s.map Prod.fst)[j]? = some x := by rw [← hkd]; simp [he]
    have hx' : (q.map Prod.fst)[j]? = some x := by rw [← h.2.1, hk]; exact hx
    rw [List.getElem?_map, Option.map_eq_some_iff] at hx hx'
    obtain ⟨⟨y, t⟩, ht, rfl⟩ := hx
    obtain ⟨⟨y', v⟩, hq, e1⟩ := hx'
    simp only at e1
    subst e1
    have := hv j y' t v ht hq
    rw [he] at this
    simp only [Option.some.injEq, Prod.mk.injEq, true_and] at this
    subst this
    have h2 := total_append (hP j y' t ht) v
    simpa [valueAt, hq] using h2

theorem firstValues_spec {K : Kind Q S} {R : Q → Q → Prop} {P : Q → List Q → S → Prop} (hK : Correct K R P)
    {rt qs : List (String × Q)} (h : List.Forall₂ (fun p q => p.1 = q.1 ∧ R p.2 q.2) rt qs) (hnd : (rt.map Prod.fst).Nodup) :
    List.Forall₂ (fun p e => p.1 = e.1 ∧ ((qs.lookup p.1).toList).length = 1 ∧ P p.2 ((qs.lookup p.1).toList) e.2) rt
      (firstValues K qs) := by
  induction h with
  | nil => exact List.Forall₂.nil
  | @cons r q rt qs hrq hrest ih =>
    obtain ⟨k, r⟩ := r
    obtain ⟨k', q⟩ := q
    obtain ⟨hk, hR⟩ := hrq
    simp only at hk hR
    subst hk
    rw [List.map_cons, List.nodup_cons] at hnd
    rw [firstValues, if_pos (hK.present r q hR)]
    refine List.Forall₂.cons ⟨rfl, by simp, by simpa using hK.first r q hR⟩ ?_
    refine Discrepance.forall₂_imp_mem (ih hnd.2) ?_
    rintro ⟨k', r'⟩ hin ⟨k'', e⟩ ⟨h1, h2⟩
    refine ⟨h1, ?_⟩
    have hne : k' ≠ k := by
      rintro rfl
      exact hnd.1 (List.mem_map.mpr ⟨_, hin, rfl⟩)
    have hb : (k' == k) = false := by simpa using hne
    simpa [List.lookup_cons, hb] using h2

theorem put_middle {a b : List (String × S)} {k : String} {v d : S} (ha : k ∉ a.map Prod.fst)
    (hb : k ∉ b.map Prod.fst) : put k d (a ++ (k, v) :: b) = a ++ (k, d) :: b := by
  unfold put
  rw [if_pos (by simp)]
  exact Discrepance.setValue_middle ha hb

theorem keys_eq {T : (String × Q) → (String × S) → Prop} {a : List (String × Q)} {b : List (String × S)}
    (h : List.Forall₂ (fun p q => p.1 = q.1 ∧ T p q) a b) : a.map Prod.fst = b.map Prod.fst := by
  induction h with
  | nil => rfl
  | cons h _ ih => simp [h.1, ih]

theorem againValues_spec {K : Kind Q S} {R : Q → Q → Prop} {P : Q → List Q → S → Prop} (hK : Correct K R P) {n : ℕ}
    (hist : String → List Q) {rt qs : List (String × Q)} (h : List.Forall₂ (fun p q => p.1 = q.1 ∧ R p.2 q.2) rt qs) :
    ∀ (st sp : List (String × S)),
    List.Forall₂ (fun p e => p.1 = e.1 ∧ (hist p.1).length = n ∧ P p.2 (hist p.1) e.2) rt st →
    (sp.map Prod.fst ++ rt.map Prod.fst).Nodup →
    ∃ d, againValues K n (sp ++ st) qs = Res.ok (sp ++ d) ∧
      List.Forall₂ (fun p e => p.1 = e.1 ∧ (hist p.1 ++ (qs.lookup p.1).toList).length = n + 1 ∧
        P p.2 (hist p.1 ++ (qs.lookup p.1).toList) e.2) rt d := by
  induction h with
  | nil =>
    intro st sp hst _
    cases hst
    exact ⟨[], rfl, List.Forall₂.nil⟩
  | @cons r q rt qs hrq hrest ih =>
    intro st sp hst hnd
    obtain ⟨k, r⟩ := r
    obtain ⟨k', q⟩ := q
    obtain ⟨hk, hR⟩ := hrq
    simp only at hk hR
    subst hk
    cases hst with
    | @cons _ s _ st hs hst =>
    obtain ⟨k', s⟩ := s
    obtain ⟨hk, hl, hP⟩ := hs
    simp only at hk hl hP
    subst hk
    have hmem : k ∉ sp.map Prod.fst ∧ k ∉ rt.map Prod.fst := by
      simp only [List.map_cons, List.nodup_append, List.nodup_cons, List.mem_cons] at hnd
      exact ⟨fun hin => hnd.2.2 k hin k (Or.inl rfl) rfl, hnd.2.1.1⟩
    have hst' : k ∉ st.map Prod.fst := by
      have := keys_eq (T := fun p e => (hist p.1).length = n ∧ P p.2 (hist p.1) e.2) hst
      rw [← this]; exact hmem.2
    obtain ⟨d, hd, hP'⟩ := hK.again r _ s q hP hR
    rw [hl] at hd
    obtain ⟨ds, hds, hrel⟩ := ih st (sp ++ [(k, d)]) hst (by simpa using hnd)
    refine ⟨(k, d) :: ds, ?_, ?_⟩
    · rw [againValues, if_pos (hK.present r q hR), Discrepance.lookup_middle hmem.1]
      simp only [hd, Res.ok_bind]
      rw [put_middle hmem.1 hst']
      simpa using hds
    · refine List.Forall₂.cons ⟨rfl, by simpa using hl, by simpa using hP'⟩ ?_
      refine Discrepance.forall₂_imp_mem hrel ?_
      rintro ⟨k', r'⟩ hin ⟨k'', e⟩ ⟨h1, h2⟩
      refine ⟨h1, ?_⟩
      have hne : k' ≠ k := by
        rintro rfl
        exact hmem.2 (List.mem_map.mpr ⟨_, hin, rfl⟩)
      have hb : (k' == k) = false := by simpa using hne
      simpa [List.lookup_cons, hb] using h2

/-- All quantities of a component are right results for the `n` quantities in `hist`, for each time step and name. -/
def TracksData (P : Q → List Q → S → Prop) (n : ℕ) : (ℕ → String → List Q) → List (Step Q) → List (Step S) → Prop
  | _, [], [] => True
  | hist, r :: rs, d :: ds =>
    List.Forall₂ (fun p e => p.1 = e.1 ∧ (hist 0 p.1).length = n ∧ P p.2 (hist 0 p.1) e.2) r.values d.values ∧
      TracksData P n (fun i => hist (i + 1)) rs ds
  | _, _, _ => False

theorem firstData_spec {K : Kind Q S} {R : Q → Q → Prop} {P : Q → List Q → S → Prop} (hK : Correct K R P)
    {refs steps : List (Step Q)}
    (h : List.Forall₂ (fun s t => List.Forall₂ (fun p q => p.1 = q.1 ∧ R p.2 q.2) s.values t.values) refs steps)
    (hnd : ∀ s ∈ refs, (s.values.map Prod.fst).Nodup) :
    TracksData P 1 (Discrepance.stepAt steps) refs (firstData K steps) := by
  induction h with
  | nil => trivial
  | @cons r t rs ts hrt _ ih =>
    refine ⟨by simpa [Discrepance.stepAt] using firstValues_spec hK hrt (hnd r (by simp)), ?_⟩
    exact ih fun s hs => hnd s (List.mem_cons_of_mem _ hs)

theorem againData_spec {K : Kind Q S} {R : Q → Q → Prop} {P : Q → List Q → S → Prop} (hK : Correct K R P) {n : ℕ}
    {refs steps : List (Step Q)}
    (h : List.Forall₂ (fun s t => List.Forall₂ (fun p q => p.1 = q.1 ∧ R p.2 q.2) s.values t.values) refs steps) :
    ∀ (hist : ℕ → String → List Q) (saved : List (Step S)), TracksData P n hist refs saved →
    (∀ s ∈ refs, (s.values.map Prod.fst).Nodup) →
    ∃ d, againData K n saved steps = Res.ok d ∧ d.map Step.time = saved.map Step.time ∧
      TracksData P (n + 1) (fun i key => hist i key ++ Discrepance.stepAt steps i key) refs d := by
  induction h with
  | nil =>
    intro hist saved hs _
    cases saved with
    | nil => exact ⟨[], rfl, rfl, trivial⟩
    | cons _ _ => exact hs.elim
  | @cons r t rs ts hrt _ ih =>
    intro hist saved hs hnd
    cases saved with
    | nil => exact hs.elim
    | cons s saved =>
      obtain ⟨hs0, hs1⟩ := hs
      obtain ⟨ds, hds, hti, htr⟩ := ih _ saved hs1 fun s hs => hnd s (List.mem_cons_of_mem _ hs)
      obtain ⟨vs, hvs, hrel⟩ := againValues_spec hK (hist 0) hrt s.values [] hs0 (by simpa using hnd r (by simp))
      rw [List.nil_append, List.nil_append] at hvs
      exact ⟨⟨s.time, vs⟩ :: ds, by simp [againData, hvs, hds], by simp [hti], by simpa [Discrepance.stepAt] using hrel, htr⟩

/-- All quantities of components are right results for the `n` quantities in `hist`, for each component, time step and name. -/
def Tracks (P : Q → List Q → S → Prop) (n : ℕ) (hist : I → ℕ → String → List Q) (ref : List (Component I Q))
    (out : List (Component I S)) : Prop :=
  List.Forall₂ (fun c d => c.id = d.id ∧ TracksData P n (hist c.id) c.data d.data) ref out

theorem addRun_first {K : Kind Q S} {R : Q → Q → Prop} {P : Q → List Q → S → Prop} (hK : Correct K R P) {n : ℕ}
    {rt cs : List (Component I Q)} (h : SameLayout R rt cs) :
    ∀ (rp : List (Component I Q)) (op : List (Component I S)), Sorted (rp ++ rt) → rp.map Component.id = op.map Component.id →
    ∃ d, addRun K n op cs = Res.ok (op ++ d) ∧ Discrepance.times d = Discrepance.times cs ∧
      Tracks P 1 (fun id i key => (quantityAt cs id i key).toList) rt d := by
  unfold SameLayout at h
  induction h with
  | nil => intro rp op _ _; exact ⟨[], by simp [addRun], rfl, List.Forall₂.nil⟩
  | @cons r c rt cs hrc hrest ih =>
    intro rp op hs hp
    obtain ⟨hid, hdata⟩ := hrc
    have htr := firstData_spec hK hdata (hs.2 r (by simp))
    obtain ⟨ds, hds, hti, hrel⟩ := ih (rp ++ [r]) (op ++ [⟨c.id, firstData K c.data⟩]) (by simpa using hs) (by simp [hp, hid])
    have hs1 := List.pairwise_append.mp hs.1
    have hlr : ∀ x ∈ rp, x.id < r.id := fun x hx => hs1.2.2 x hx r (by simp)
    have hlt := (List.pairwise_cons.mp hs1.2.1).1
    have hlo : ∀ x ∈ op, x.id < c.id := by
      intro x hx
      have : x.id ∈ rp.map Component.id := by rw [hp]; exact List.mem_map_of_mem hx
      obtain ⟨y, hy, hxy⟩ := List.mem_map.mp this
      rw [← hxy, ← hid]
      exact hlr y hy
    have e1 := Discrepance.lowerBound_append (fun o : Component I S => decide (o.id < c.id)) op []
      (by simpa using hlo) (by simp)
    rw [List.append_nil] at e1
    refine ⟨⟨c.id, firstData K c.data⟩ :: ds, ?_, ?_, ?_⟩
    · simp only [List.append_assoc, List.cons_append, List.nil_append] at hds
      simp [addRun, addComponent, e1, hds]
    · simpa [Discrepance.times, firstData, Function.comp_def] using hti
    · refine List.Forall₂.cons ⟨hid, ?_⟩ ?_
      · convert htr using 1
        funext i key
        rw [hid]
        simp [quantityAt, Discrepance.stepAt]
      · refine Discrepance.forall₂_imp_mem hrel ?_
        rintro x hx e ⟨h1, h2⟩
        refine ⟨h1, ?_⟩
        have hne : c.id ≠ x.id := by rw [← hid]; exact (hlt x hx).ne
        convert h2 using 1
        funext i key
        simp [quantityAt, hne]

theorem addRun_again {K : Kind Q S} {R : Q → Q → Prop} {P : Q → List Q → S → Prop} (hK : Correct K R P) {n : ℕ}
    (hist : I → ℕ → String → List Q) {rt cs : List (Component I Q)} (h : SameLayout R rt cs) :
    ∀ (rp : List (Component I Q)) (ot op : List (Component I S)), Sorted (rp ++ rt) →
    rp.map Component.id = op.map Component.id → Tracks P n hist rt ot →
    ∃ d, addRun K n (op ++ ot) cs = Res.ok (op ++ d) ∧ Discrepance.times d = Discrepance.times ot ∧
      Tracks P (n + 1) (fun id i key => hist id i key ++ (quantityAt cs id i key).toList) rt d := by
  unfold SameLayout at h
  induction h with
  | nil =>
    intro rp ot op _ _ ht
    cases ht
    exact ⟨[], by simp [addRun], rfl, List.Forall₂.nil⟩
  | @cons r c rt cs hrc hrest ih =>
    intro rp ot op hs hp ht
    cases ht with
    | @cons _ o _ ot ho ht =>
    obtain ⟨hio, hto⟩ := ho
    obtain ⟨hid, hdata⟩ := hrc
    obtain ⟨data, hd, htd, htr⟩ := againData_spec hK hdata _ _ hto (hs.2 r (by simp))
    obtain ⟨ds, hds, hti, hrel⟩ := ih (rp ++ [r]) ot (op ++ [⟨o.id, data⟩]) (by simpa using hs) (by simp [hp, hio]) ht
    have hs1 := List.pairwise_append.mp hs.1
    have hlr : ∀ x ∈ rp, x.id < r.id := fun x hx => hs1.2.2 x hx r (by simp)
    have hlt := (List.pairwise_cons.mp hs1.2.1).1
    have hlo : ∀ x ∈ op, x.id < c.id := by
      intro x hx
      have : x.id ∈ rp.map Component.id := by rw [hp]; exact List.mem_map_of_mem hx
      obtain ⟨y, hy, hxy⟩ := List.mem_map.mp this
      rw [← hxy, ← hid]
      exact hlr y hy
    have hot : ∀ x ∈ ot, r.id < x.id := by
      intro x hx
      obtain ⟨y, hy, hxy⟩ := Discrepance.forall₂_mem_right ht x hx
      rw [← hxy.1]
      exact hlt y hy
    have e1 := Discrepance.lowerBound_append (fun o : Component I S => decide (o.id < c.id)) op (o :: ot)
      (by simpa using hlo) (by
        intro x hx
        rcases List.mem_cons.mp hx with rfl | hx
        · simp [← hid, ← hio]
        · simpa [← hid] using (hot x hx).le)
    refine ⟨⟨o.id, data⟩ :: ds, ?_, by simpa [Discrepance.times, htd] using hti, ?_⟩
    · simp only [List.append_assoc, List.cons_append, List.nil_append] at hds
      have h1 : o.id = c.id := hio.symm.trans hid
      rw [h1] at hds
      simp [addRun, addComponent, e1, hd, hds, h1]
    · refine List.Forall₂.cons ⟨hio, ?_⟩ ?_
      · convert htr using 1
        funext i key
        simp [quantityAt, Discrepance.stepAt, hid]
      · refine Discrepance.forall₂_imp_mem hrel ?_
        rintro x hx e ⟨h1, h2⟩
        refine ⟨h1, ?_⟩
        have hne : c.id ≠ x.id := by rw [← hid]; exact (hlt x hx).ne
        convert h2 using 1
        funext i key
        simp [quantityAt, hne]

/-- The runs for one type: those from a certain number on. -/
def addRuns (K : Kind Q S) : ℕ → List (Component I S) → List (List (Component I Q)) → Res (List (Component I S))
  | _, out, [] => Res.ok out
  | n, out, run :: runs => do
    let out' ← addRun K n out run
    addRuns K (n + 1) out' runs

theorem addRuns_again {K : Kind Q S} {R : Q → Q → Prop} {P : Q → List Q → S → Prop} (hK : Correct K R P)
    {ref : List (Component I Q)} (hs : Sorted ref) : ∀ {runs : List (List (Component I Q))}, (∀ run ∈ runs, SameLayout R ref run) →
    ∀ (n : ℕ) (hist : I → ℕ → String → List Q) (out : List (Component I S)), Tracks P n hist ref out →
    ∃ d, addRuns K n out runs = Res.ok d ∧ Discrepance.times d = Discrepance.times out ∧
      Tracks P (n + runs.length) (fun id i key => hist id i key ++ Discrepance.history runs id i key) ref d
  | [], _, n, hist, out, ht => ⟨out, rfl, rfl, by simpa [Discrepance.history] using ht⟩
  | run :: runs, h, n, hist, out, ht => by
    obtain ⟨out', ho, h1, ht'⟩ := addRun_again hK hist (h run (by simp)) [] out [] (by simpa using hs) rfl ht
    obtain ⟨d, hd, h2, htd⟩ := addRuns_again hK hs (fun r hr => h r (List.mem_cons_of_mem _ hr)) _ _ out' ht'
    simp only [List.nil_append] at ho
    refine ⟨d, by simp [addRuns, ho, hd], h2.trans h1, ?_⟩
    convert htd using 1
    · simp only [List.length_cons]; omega
    · funext id i key
      simp [Discrepance.history]

theorem addRuns_spec {K : Kind Q S} {R : Q → Q → Prop} {P : Q → List Q → S → Prop} (hK : Correct K R P)
    {ref : List (Component I Q)} (hs : Sorted ref) {runs : List (List (Component I Q))} (hne : runs ≠ [])
    (h : ∀ run ∈ runs, SameLayout R ref run) :
    ∃ d, addRuns K 0 [] runs = Res.ok d ∧ Discrepance.times d = Discrepance.times (runs.head hne) ∧
      Tracks P runs.length (Discrepance.history runs) ref d := by
  obtain ⟨run, runs, rfl⟩ := List.exists_cons_of_ne_nil hne
  obtain ⟨out, ho, h1, ht⟩ := addRun_first hK (n := 0) (h run (by simp)) [] [] (by simpa using hs) rfl
  obtain ⟨d, hd, h2, htd⟩ := addRuns_again hK hs (fun r hr => h r (List.mem_cons_of_mem _ hr)) _ _ out ht
  simp only [List.nil_append] at ho
  refine ⟨d, by simp [addRuns, ho, hd], h2.trans h1, ?_⟩
  convert htd using 1
  · simp only [List.length_cons]; omega
  · funext id i key
    simp [Discrepance.history]

theorem values_at {T : String → Q → S → Prop} {a : List (String × Q)} {b : List (String × S)}
    (h : List.Forall₂ (fun p q => p.1 = q.1 ∧ T p.1 p.2 q.2) a b) {key : String} {r : Q}
    (hr : a.lookup key = some r) : ∃ d, b.lookup key = some d ∧ T key r d := by
  induction h with
  | nil => simp at hr
  | @cons p q _ _ hpq _ ih =>
    obtain ⟨k, v⟩ := p
    obtain ⟨k', w⟩ := q
    obtain ⟨hk, hs⟩ := hpq
    simp only at hk hs
    subst hk
    rw [List.lookup_cons] at hr ⊢
    by_cases hb : key = k
    · subst hb
      simp only [beq_self_eq_true, Option.some.injEq] at hr ⊢
      subst hr
      exact ⟨w, rfl, hs⟩
    · have hb' : (key == k) = false := by simpa using hb
      rw [hb'] at hr ⊢
      exact ih hr

theorem data_at {P : Q → List Q → S → Prop} {n : ℕ} (refs : List (Step Q)) :
    ∀ (hist : ℕ → String → List Q) (ds : List (Step S)), TracksData P n hist refs ds →
    ∀ (i : ℕ) (s : Step Q), refs[i]? = some s → ∃ t, ds[i]? = some t ∧
      List.Forall₂ (fun p e => p.1 = e.1 ∧ (hist i p.1).length = n ∧ P p.2 (hist i p.1) e.2) s.values t.values := by
  induction refs with
  | nil => intro hist ds _ i s hs; simp at hs
  | cons r rs ih =>
    intro hist ds h i s hs
    cases ds with
    | nil => exact h.elim
    | cons d ds =>
      cases i with
      | zero =>
        simp only [List.getElem?_cons_zero, Option.some.injEq] at hs ⊢
        subst hs
        exact ⟨d, rfl, h.1⟩
      | succ i =>
        simp only [List.getElem?_cons_succ] at hs ⊢
        exact ih _ ds h.2 i s hs

theorem tracks_at {P : Q → List Q → S → Prop} {n : ℕ} {hist : I → ℕ → String → List Q} {ref : List (Component I Q)}
    {out : List (Component I S)} (h : Tracks P n hist ref out) {id : I} {i : ℕ} {key : String} {r : Q}
    (hr : quantityAt ref id i key = some r) :
    ∃ d, quantityAt out id i key = some d ∧ (hist id i key).length = n ∧ P r (hist id i key) d := by
  unfold Tracks at h
  induction h with
  | nil => simp [quantityAt] at hr
  | @cons c o _ _ hco _ ih =>
    obtain ⟨hid, hdata⟩ := hco
    by_cases hc : c.id = id
    · subst hc
      simp only [quantityAt, decide_true, List.find?_cons_of_pos, Option.bind_eq_bind, Option.bind_some] at hr
      obtain ⟨s, hs, hl⟩ := Option.bind_eq_some_iff.mp hr
      obtain ⟨t, ht, hrel⟩ := data_at _ _ _ hdata i s hs
      obtain ⟨d, hd, hP⟩ := values_at (T := fun k r d => (hist c.id i k).length = n ∧ P r (hist c.id i k) d) hrel hl
      refine ⟨d, ?_, hP⟩
      simp [quantityAt, hid, ht, hd]
    · have ho : ¬ o.id = id := hid ▸ hc
      have hr' := ih (by simpa [quantityAt, hc] using hr)
      simpa [quantityAt, ho] using hr'

end Verif.Helpers.Collect
