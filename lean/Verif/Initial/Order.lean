import Verif.Json.Order
import Verif.Initial.Props

/-!
# Property C95 for initial values, controls and bounds

Sources: `/repo/src/Model/Networkproblem/Networkproblem.cpp`,
`/repo/src/Model/Networkproblem/Componentclasses/SimpleStatecomponent.cpp`, `SimpleControlcomponent.cpp` and
`SimpleConstraintcomponent.cpp`.
-/

set_option autoImplicit false

namespace Verif.Initial

open Verif.Json Verif.Interp

/-! ## Operations that overwrite certain entries -/

section Overlay

variable {K σ : Type}

/-- On all states with `I` the operation succeeds, sets the entries in `W` to values that do not depend on the state and leaves
all others as they are. -/
def Overlays (get : σ → ℕ → Option K) (I : σ → Prop) (W : ℕ → Prop) (f : σ → Res σ) : Prop :=
  ∃ g : ℕ → Option K, ∀ s, I s → ∃ r, f s = Res.ok r ∧ I r ∧ ∀ k, (W k → get r k = g k) ∧ (¬ W k → get r k = get s k)

variable {get : σ → ℕ → Option K} {I : σ → Prop}

theorem Overlays.skip : Overlays get I (fun _ => False) Res.ok :=
  ⟨fun _ => none, fun s hs => ⟨s, rfl, hs, fun _ => ⟨False.elim, fun _ => rfl⟩⟩⟩

open Classical in
theorem Overlays.bind {W W' : ℕ → Prop} {f f' : σ → Res σ} (h : Overlays get I W f) (h' : Overlays get I W' f') :
    Overlays get I (fun k => W k ∨ W' k) fun s => f s >>= f' := by
  obtain ⟨g, h⟩ := h
  obtain ⟨g', h'⟩ := h'
  refine ⟨fun k => if W' k then g' k else g k, fun s hs => ?_⟩
  obtain ⟨r, h1, h2, h3⟩ := h s hs
  obtain ⟨r', h4, h5, h6⟩ := h' r h2
  refine ⟨r', by simp only [h1, Res.ok_bind, h4], h5, fun k => ⟨fun hk => ?_, fun hk => ?_⟩⟩ <;> beta_reduce at hk ⊢
  · by_cases hw : W' k
    · rw [if_pos hw]; exact (h6 k).1 hw
    · rw [if_neg hw, (h6 k).2 hw]
      exact (h3 k).1 (hk.resolve_right hw)
  · rw [(h6 k).2 fun h => hk (Or.inr h), (h3 k).2 fun h => hk (Or.inl h)]

theorem Overlays.mono {W W' : ℕ → Prop} {f : σ → Res σ} (h : Overlays get I W f) (hw : ∀ k, W k ↔ W' k) :
    Overlays get I W' f := by
  have : W = W' := funext fun k => propext (hw k)
  exact this ▸ h

/-- Two operations that overwrite different entries can be swapped. -/
theorem Overlays.comm (ext : ∀ s s', I s → I s' → (∀ k, get s k = get s' k) → s = s') {W W' : ℕ → Prop}
    {f f' : σ → Res σ} (h : Overlays get I W f) (h' : Overlays get I W' f') (hd : ∀ k, W k → ¬ W' k) {s : σ} (hs : I s) :
    (f s >>= f') = (f' s >>= f) := by
  obtain ⟨g, h⟩ := h
  obtain ⟨g', h'⟩ := h'
  obtain ⟨a, a1, a2, a3⟩ := h s hs
  obtain ⟨b, b1, b2, b3⟩ := h' a a2
  obtain ⟨c, c1, c2, c3⟩ := h' s hs
  obtain ⟨d, d1, d2, d3⟩ := h c c2
  rw [a1, c1, Res.ok_bind, Res.ok_bind, b1, d1]
  congr 1
  refine ext _ _ b2 d2 fun k => ?_
  by_cases hw : W k
  · rw [(b3 k).2 (hd k hw), (a3 k).1 hw, (d3 k).1 hw]
  · by_cases hw' : W' k
    · rw [(b3 k).1 hw', (d3 k).2 hw, (c3 k).1 hw']
    · rw [(b3 k).2 hw', (a3 k).2 hw, (d3 k).2 hw, (c3 k).2 hw']

/-- A loop whose rounds can be swapped gives the same result in every order. -/
theorem fold_perm {α : Type} {f : σ → α → Res σ} (hI : ∀ s a r, I s → f s a = Res.ok r → I r) {R : α → α → Prop}
    (hR : ∀ a b, R a b → R b a)
    (hc : ∀ a b, R a b → ∀ s r, I s → (f s a >>= fun x => f x b) = Res.ok r → (f s b >>= fun x => f x a) = Res.ok r)
    {l l' : List α} (h : l.Perm l') (hp : l.Pairwise R) {s r : σ} (hs : I s) (hf : Res.fold l s f = Res.ok r) :
    Res.fold l' s f = Res.ok r := by
  induction h generalizing s with
  | nil => exact hf
  | cons a _ ih =>
    simp only [Res.fold] at hf ⊢
    obtain ⟨s1, h1, h2⟩ := Res.bind_eq_ok.mp hf
    rw [h1, Res.ok_bind]
    exact ih (List.pairwise_cons.mp hp).2 (hI _ _ _ hs h1) h2
  | swap a b l =>
    simp only [Res.fold] at hf ⊢
    obtain ⟨s1, h1, h2⟩ := Res.bind_eq_ok.mp hf
    obtain ⟨s2, h3, h4⟩ := Res.bind_eq_ok.mp h2
    have hab : R b a := (List.pairwise_cons.mp hp).1 a (by simp)
    have := hc b a hab s s2 hs (by rw [h1, Res.ok_bind, h3])
    obtain ⟨s3, h5, h6⟩ := Res.bind_eq_ok.mp this
    rw [h5, Res.ok_bind, h6, Res.ok_bind, h4]
  | trans p1 _ ih1 ih2 =>
    exact ih2 ((p1.pairwise_iff fun {a b} h => hR a b h).mp hp) hs (ih1 hp hs hf)

end Overlay

variable {K : Type} [Field K] [LinearOrder K] [IsStrictOrderedRing K]

/-! ## Specification -/

/-- The file is accepted and gives the same values for every order of its entries. -/
def OrderDoesNotMatter {σ : Type} (load : Json → Res σ) : Prop :=
  ∀ json json', Reordered json json' → ∀ r, load json = Res.ok r ↔ load json' = Res.ok r

/-! ## Proofs -/

theorem sortedIds_perm {j j' : Json} (h : (components j).Perm (components j')) : sortedIds j = sortedIds j' := by
  unfold sortedIds
  have hub := Res.each_ne_ub (l := components j) (f := readId) fun a _ => readId_ne_ub a
  have hub' := Res.each_ne_ub (l := components j') (f := readId) fun a _ => readId_ne_ub a
  have key : ∀ {l l' : List Json}, l.Perm l' → ∀ ids, Res.each l readId = Res.ok ids →
      ∃ ids', Res.each l' readId = Res.ok ids' ∧ ids.Perm ids' := by
    intro l l' h ids hids
    rw [each_readId] at hids
    have hp : (l'.map id?).Perm (ids.map some) := hids ▸ (h.map id?).symm
    have h3 : ∀ c ∈ l', ∃ s, id? c = some s := by
      intro c hc
      obtain ⟨s, -, hs⟩ := List.mem_map.mp (hp.mem_iff.mp (List.mem_map_of_mem hc))
      exact ⟨s, hs.symm⟩
    have h4 : l'.map id? = (l'.filterMap id?).map some := by
      clear h hids hp
      induction l' with
      | nil => rfl
      | cons a l' ih =>
        obtain ⟨s, hs⟩ := h3 a (by simp)
        simp [hs, ih fun c hc => h3 c (by simp [hc])]
    refine ⟨l'.filterMap id?, each_readId.mpr h4, ?_⟩
    rw [h4] at hp
    have := (hp.filterMap id).symm
    simpa [List.filterMap_map] using this
  cases h1 : Res.each (components j) readId with
  | ub => exact absurd h1 hub
  | throws =>
    cases h2 : Res.each (components j') readId with
    | ub => exact absurd h2 hub'
    | throws => rfl
    | ok ids' =>
      obtain ⟨ids, h3, -⟩ := key h.symm _ h2
      rw [h1] at h3
      cases h3
  | ok ids =>
    obtain ⟨ids', h3, h4⟩ := key h _ h1
    rw [h3]
    simp only [Res.ok_bind]
    congr 1
    refine List.Perm.eq_of_pairwise (fun a b _ _ => le_antisymm) (List.pairwise_insertionSort _ _)
      (List.pairwise_insertionSort _ _) ?_
    exact (List.perm_insertionSort _ _).trans (h4.trans (List.perm_insertionSort _ _).symm)

theorem checkComponents_perm {j j' : Json} (h : (components j).Perm (components j')) (ids : List String) :
    checkComponents ids j = checkComponents ids j' := by
  unfold checkComponents
  rw [sortedIds_perm h]

/-- Different ids. -/
def OtherId (a b : Json) : Prop := id? a ≠ id? b

theorem pairwise_otherId {l : List Json} (h : Distinct l) : l.Pairwise OtherId := by
  obtain ⟨ids, h1, h2⟩ := h
  have : (l.map id?).Nodup := h1 ▸ (List.nodup_map_iff (Option.some_injective _)).mpr h2
  exact (List.pairwise_map (f := id?) (R := (· ≠ ·))).mp this

/-! ### Initial values -/

theorem assign_overlays {n start len : ℕ} {w : List K} {v0 r0 : List K} (hl : v0.length = n)
    (h : assign v0 start len w = Res.ok r0) :
    Overlays (fun v k => v[k]?) (fun v : List K => v.length = n) (fun k => start ≤ k ∧ k < start + len)
      fun v => assign v start len w := by
  have hc : start + len ≤ n ∧ w.length = len := by
    unfold assign at h
    split at h
    · next hc => rw [← hl]; exact hc
    · cases h
  refine ⟨fun k => w[k - start]?, fun s hs => ?_⟩
  have h1 : assign s start len w = Res.ok (writeSegment s start w) := by
    rw [assign, if_pos ⟨by omega, hc.2⟩]
  obtain ⟨h2, h3, h4⟩ := assign_ok h1
  refine ⟨_, h1, h2.trans hs, fun k => ⟨fun hk => ?_, fun hk => ?_⟩⟩
  · simp only [h4 k, if_pos hk]
  · simp only [h4 k, if_neg hk]

theorem setPoints_overlays {c : StateComponent K} {v : IV K} {n m i : ℕ} {v0 r0 : List K} (hl : v0.length = n)
    (h : setPoints c v i v0 m = Res.ok r0) :
    Overlays (fun v k => v[k]?) (fun v : List K => v.length = n)
      (fun k => c.start + i * v.inner ≤ k ∧ k < c.start + (i + m) * v.inner) fun s => setPoints c v i s m := by
  induction m generalizing i v0 with
  | zero =>
    refine Overlays.skip.mono fun k => ⟨False.elim, fun hk => ?_⟩
    rw [Nat.add_zero] at hk
    omega
  | succ m ih =>
    unfold setPoints at h
    obtain ⟨x, h1, h⟩ := Res.bind_eq_ok.mp h
    obtain ⟨w, h2, h⟩ := Res.bind_eq_ok.mp h
    obtain ⟨v1, h3, h4⟩ := Res.bind_eq_ok.mp h
    have o1 := assign_overlays hl h3
    have o2 := ih ((assign_ok h3).1.trans hl) h4
    have := o1.bind o2
    have e : (fun s => setPoints c v i s (m + 1)) = fun s =>
        assign s (c.start + i * v.inner) v.inner w >>= fun s => setPoints c v (i + 1) s m := by
      funext s
      rw [setPoints, h1, Res.ok_bind, h2, Res.ok_bind]
    rw [e]
    refine this.mono fun k => ?_
    have e1 : (i + 1) * v.inner = i * v.inner + v.inner := by ring
    have e2 : (i + 1 + m) * v.inner = i * v.inner + v.inner + m * v.inner := by ring
    have e3 : (i + (m + 1)) * v.inner = i * v.inner + v.inner + m * v.inner := by ring
    rw [e1, e2, e3]
    omega

/-- What one entry does: it concerns one component only. -/
theorem setEntry_overlays {cs : List (StateComponent K)} {n : ℕ} {e : Json} {v0 r0 : List K} (hl : v0.length = n)
    (h : setEntry cs v0 e = Res.ok r0) :
    ∃ W : ℕ → Prop, Overlays (fun v k => v[k]?) (fun v : List K => v.length = n) W (fun v => setEntry cs v e) ∧
      ∀ k, W k → ∃ c ∈ cs, id? e = some c.id ∧ Owns c k := by
  unfold setEntry at h
  obtain ⟨i, h1, h2⟩ := Res.bind_eq_ok.mp h
  obtain ⟨s, h3, h4⟩ := Res.bind_eq_ok.mp h2
  have hid : id? e = some s := by
    unfold id?
    rw [index_eq_ok.mp h1]
    cases i <;> simp_all [getStr]
  have e1 : ∀ v, setEntry cs v e = match cs.find? fun c => s == c.id with
      | some c => setInitial c v e
      | none => Res.ok v := by
    intro v
    simp only [setEntry, h1, Res.ok_bind, h3]
    rfl
  simp only [e1]
  cases hf : cs.find? fun c => s == c.id with
  | none => exact ⟨_, Overlays.skip, fun k hk => hk.elim⟩
  | some c =>
    rw [hf] at h4
    simp only at h4 ⊢
    unfold setInitial at h4
    obtain ⟨v, h5, h6⟩ := Res.bind_eq_ok.mp h4
    split at h6
    · cases h6
    · next hlt =>
      have o := setPoints_overlays hl h6
      refine ⟨fun k => c.start + 0 * v.inner ≤ k ∧ k < c.start + (0 + c.points) * v.inner, ?_, ?_⟩
      · have : (fun v => setInitial c v e) = fun s => setPoints c v 0 s c.points := by
          funext s
          rw [setInitial, h5, Res.ok_bind, if_neg hlt]
        rw [this]
        exact o
      · intro k hk
        refine ⟨c, List.mem_of_find?_eq_some hf, ?_, ?_⟩
        · rw [hid, beq_iff_eq.mp (List.find?_some (p := fun c : StateComponent K => s == c.id) hf)]
        · have e : (0 + c.points) * v.inner = v.inner * c.points := by ring
          rw [Nat.zero_mul, e] at hk
          unfold Owns
          omega

theorem setEntry_length {cs : List (StateComponent K)} {v r : List K} {e : Json} (h : setEntry cs v e = Res.ok r) :
    r.length = v.length := by
  obtain ⟨W, ⟨g, h1⟩, -⟩ := setEntry_overlays rfl h
  obtain ⟨r', h2, h3, -⟩ := h1 v rfl
  simp only at h2
  rw [h] at h2
  injection h2 with h2
  subst h2
  exact h3

/-- C95 for initial values, provided that no two entries have the same id: for every order of the entries the same state vector is
set, or loading fails for every order. -/
theorem C95_initial_partial {cs : List (StateComponent K)} (hd : Disjoint cs) {vector r : List K} {json json' : Json}
    (hj : Distinct (components json)) (h : Reordered json json') :
    setInitialValues cs vector json = Res.ok r ↔ setInitialValues cs vector json' = Res.ok r := by
  have main : ∀ {j j' : Json}, (components j).Perm (components j') → Distinct (components j) →
      setInitialValues cs vector j = Res.ok r → setInitialValues cs vector j' = Res.ok r := by
    intro j j' hp hj hr
    unfold setInitialValues at hr ⊢
    rw [← checkComponents_perm hp]
    obtain ⟨w, h1, h2⟩ := Res.bind_eq_ok.mp hr
    rw [h1, Res.ok_bind]
    refine fold_perm (I := fun v : List K => v.length = vector.length) (R := OtherId) ?_ ?_ ?_ hp (pairwise_otherId hj) rfl h2
    · intro s a t hs ht
      exact (setEntry_length ht).trans hs
    · exact fun a b h => Ne.symm h
    · intro a b hab s t hs ht
      obtain ⟨s1, h3, h4⟩ := Res.bind_eq_ok.mp ht
      obtain ⟨W, o1, w1⟩ := setEntry_overlays hs h3
      obtain ⟨W', o2, w2⟩ := setEntry_overlays ((setEntry_length h3).trans hs) h4
      rw [← ht]
      refine (Overlays.comm (fun s s' _ _ h => List.ext_getElem? h) o1 o2 (fun k hk hk' => ?_) hs).symm
      obtain ⟨c, hc, i1, k1⟩ := w1 k hk
      obtain ⟨c', hc', i2, k2⟩ := w2 k hk'
      have := hd c hc c' hc' k k1 k2
      subst this
      exact hab (i1.trans i2.symm)
  exact ⟨main h.components hj, main h.components.symm (hj.perm h.components)⟩

/-! ### Controls and bounds -/

/-- The vectors with given time points and inner length. -/
def Like (points : List K) (inner : ℕ) (u : IV K) : Prop := u.points = points ∧ u.inner = inner ∧ u.WF

omit [Field K] [LinearOrder K] [IsStrictOrderedRing K] in
theorem Like.ext {points : List K} {inner : ℕ} (u u' : IV K) (h : Like points inner u) (h' : Like points inner u')
    (hk : ∀ k : ℕ, u.values[k]? = u'.values[k]?) : u = u' := by
  obtain ⟨h1, h2, -⟩ := h
  obtain ⟨h3, h4, -⟩ := h'
  have := List.ext_getElem? hk
  cases u
  cases u'
  simp_all

/-- One round of the loop. -/
def writePart (start len : ℕ) (w : List K) (i : ℕ) (u : IV K) : Res (IV K) := do
  let old ← vectorAtIndex u (i : ℤ)
  let new ← assign old start len w
  writeTimestep u (i : ℤ) new

theorem writePart_overlays {points : List K} {inner start len i : ℕ} {w : List K} {u0 r0 : IV K}
    (hl : Like points inner u0) (hi : i < points.length) (h : writePart start len w i u0 = Res.ok r0) :
    start + len ≤ inner ∧ Overlays (fun u k => u.values[k]?) (Like points inner)
      (fun k => i * inner + start ≤ k ∧ k < i * inner + start + len) (writePart start len w i) := by
  have key : ∀ u, Like points inner u → ∃ old, vectorAtIndex u (i : ℤ) = Res.ok old ∧ old.length = inner ∧
      old = (u.values.drop (i * inner)).take inner := by
    rintro u ⟨h1, h2, h3⟩
    have hi' : i < u.points.length := by rw [h1]; exact hi
    refine ⟨_, vectorAtIndex_ok h3 hi', ?_, by rw [h2]⟩
    have := step_le h3 hi'
    rw [List.length_take, List.length_drop]
    have e : u.inner * i = i * u.inner := by ring
    rw [← h2]
    omega
  obtain ⟨old0, k1, k2, -⟩ := key u0 hl
  unfold writePart at h
  rw [k1, Res.ok_bind] at h
  obtain ⟨new0, a1, -⟩ := Res.bind_eq_ok.mp h
  have hc : start + len ≤ inner ∧ w.length = len := by
    unfold assign at a1
    split at a1
    · next hc => rw [← k2]; exact hc
    · cases a1
  refine ⟨hc.1, fun k => w[k - (i * inner + start)]?, fun u hu => ?_⟩
  obtain ⟨old, b1, b2, b3⟩ := key u hu
  obtain ⟨h1, h2, h3⟩ := hu
  have hi' : i < u.points.length := by rw [h1]; exact hi
  have c1 : assign old start len w = Res.ok (writeSegment old start w) := by
    rw [assign, if_pos ⟨by omega, hc.2⟩]
  obtain ⟨c2, c3, c4⟩ := assign_ok c1
  have hstep := step_le h3 hi'
  rw [h2] at hstep
  have e : u.inner * i = i * inner := by rw [h2]; ring
  have hlen : (writeSegment old start w).length = inner := c2.trans b2
  have d1 : writeTimestep u (i : ℤ) (writeSegment old start w) =
      Res.ok { u with values := writeSegment u.values (i * inner) (writeSegment old start w) } := by
    obtain ⟨u', f1, -⟩ := writeTimestep_spec u h3 i hi' (writeSegment old start w) (hlen.trans h2.symm)
    rw [f1]
    simp only [writeTimestep, Int.toNat_natCast] at f1
    rw [if_neg (by omega), e, if_neg (by rw [h2]; omega), if_pos (hlen.trans h2.symm)] at f1
    exact f1.symm
  obtain ⟨u', f1, f2, f3, f4, -, -⟩ := writeTimestep_spec u h3 i hi' (writeSegment old start w) (hlen.trans h2.symm)
  rw [d1] at f1
  injection f1 with f1
  have hfit : i * inner + (writeSegment old start w).length ≤ u.values.length := by rw [hlen]; omega
  refine ⟨u', ?_, ⟨f3.trans h1, f4.trans h2, f2⟩, fun k => ?_⟩
  · rw [writePart, b1, Res.ok_bind, c1, Res.ok_bind, d1, f1]
  · have hk : u'.values[k]? = if i * inner ≤ k ∧ k < i * inner + (writeSegment old start w).length
        then (writeSegment old start w)[k - i * inner]? else u.values[k]? := by
      rw [← f1]
      exact writeSegment_get hfit
    rw [hlen] at hk
    simp only [hk]
    refine ⟨fun hw => ?_, fun hw => ?_⟩
    · rw [if_pos (by omega), c4, if_pos (by omega)]
      congr 1
      omega
    · split
      · next hin =>
        rw [c4, if_neg (by omega), b3, segment_get (by omega)]
        congr 1
        omega
      · rfl

omit [IsStrictOrderedRing K] in
theorem setTimes_eq (c : ControlComponent K) (v : IV K) (i : ℕ) (u : IV K) (t : K) (times : List K) :
    setTimes c v i u (t :: times) = (do
      let w ← eval v t
      let u' ← writePart c.start v.inner w i u
      setTimes c v (i + 1) u' times) := by
  simp only [setTimes, writePart]
  cases eval v t with
  | ok w =>
    simp only [Res.ok_bind]
    cases vectorAtIndex u (i : ℤ) with
    | ok old =>
      simp only [Res.ok_bind]
      cases assign old c.start v.inner w <;> rfl
    | _ => rfl
  | _ => rfl

theorem setTimes_overlays {c : ControlComponent K} {v : IV K} {points times : List K} {inner i : ℕ} {u0 r0 : IV K}
    (hl : Like points inner u0) (hi : i + times.length ≤ points.length) (h : setTimes c v i u0 times = Res.ok r0) :
    ∃ W : ℕ → Prop, Overlays (fun u k => u.values[k]?) (Like points inner) W (fun u => setTimes c v i u times) ∧
      ∀ k, W k → c.start ≤ k % inner ∧ k % inner < c.start + v.inner := by
  induction times generalizing i u0 with
  | nil => exact ⟨_, Overlays.skip, fun k hk => hk.elim⟩
  | cons t times ih =>
    simp only [List.length_cons] at hi
    rw [setTimes_eq] at h
    obtain ⟨w, h1, h⟩ := Res.bind_eq_ok.mp h
    obtain ⟨u1, h2, h3⟩ := Res.bind_eq_ok.mp h
    obtain ⟨hin, o1⟩ := writePart_overlays hl (by omega) h2
    have hl1 : Like points inner u1 := by
      obtain ⟨g, h4⟩ := o1
      obtain ⟨r, h5, h6, -⟩ := h4 u0 hl
      rw [h2] at h5
      injection h5 with h5
      subst h5
      exact h6
    obtain ⟨W, o2, w2⟩ := ih hl1 (by omega) h3
    refine ⟨fun k => (i * inner + c.start ≤ k ∧ k < i * inner + c.start + v.inner) ∨ W k, ?_, ?_⟩
    · have e : (fun u => setTimes c v i u (t :: times)) = fun u =>
          writePart c.start v.inner w i u >>= fun u => setTimes c v (i + 1) u times := by
        funext u
        rw [setTimes_eq, h1, Res.ok_bind]
      rw [e]
      exact o1.bind o2
    · rintro k (hk | hk)
      · have : k % inner = k - i * inner := by
          have e : k = (k - i * inner) + i * inner := by omega
          conv_lhs => rw [e]
          rw [Nat.add_mul_mod_self_right, Nat.mod_eq_of_lt (by omega)]
        omega
      · exact w2 k hk

theorem setControlEntry_overlays {cs : List (ControlComponent K)} {points : List K} {inner : ℕ} {e : Json} {u0 r0 : IV K}
    (hl : Like points inner u0) (h : setControlEntry cs u0 e = Res.ok r0) :
    ∃ W : ℕ → Prop, Overlays (fun u k => u.values[k]?) (Like points inner) W (fun u => setControlEntry cs u e) ∧
      ∀ k, W k → ∃ c ∈ cs, id? e = some c.id ∧ ∃ v, c.read e = Res.ok v ∧ c.start ≤ k % inner ∧
        k % inner < c.start + v.inner := by
  unfold setControlEntry at h
  obtain ⟨i, h1, h2⟩ := Res.bind_eq_ok.mp h
  obtain ⟨s, h3, h4⟩ := Res.bind_eq_ok.mp h2
  have hid : id? e = some s := by
    unfold id?
    rw [index_eq_ok.mp h1]
    cases i <;> simp_all [getStr]
  have e1 : ∀ v, setControlEntry cs v e = match cs.find? fun c => s == c.id with
      | some c => setControl c v e
      | none => Res.ok v := by
    intro v
    simp only [setControlEntry, h1, Res.ok_bind, h3]
    rfl
  simp only [e1]
  cases hf : cs.find? fun c => s == c.id with
  | none => exact ⟨_, Overlays.skip, fun k hk => hk.elim⟩
  | some c =>
    rw [hf] at h4
    simp only at h4 ⊢
    unfold setControl at h4
    obtain ⟨v, h5, h6⟩ := Res.bind_eq_ok.mp h4
    rw [hl.1] at h6
    obtain ⟨W, ⟨g, o⟩, w⟩ := setTimes_overlays hl (by omega) h6
    refine ⟨W, ⟨g, fun u hu => ?_⟩, fun k hk => ⟨c, List.mem_of_find?_eq_some hf, ?_, v, h5, w k hk⟩⟩
    · obtain ⟨r, h7, h8⟩ := o u hu
      exact ⟨r, by simp only [setControl, h5, Res.ok_bind, hu.1]; exact h7, h8⟩
    · rw [hid, beq_iff_eq.mp (List.find?_some (p := fun c : ControlComponent K => s == c.id) hf)]

theorem setControlEntry_like {cs : List (ControlComponent K)} {points : List K} {inner : ℕ} {u r : IV K} {e : Json}
    (hl : Like points inner u) (h : setControlEntry cs u e = Res.ok r) : Like points inner r := by
  obtain ⟨W, ⟨g, h1⟩, -⟩ := setControlEntry_overlays hl h
  obtain ⟨r', h2, h3, -⟩ := h1 u hl
  simp only at h2
  rw [h] at h2
  injection h2 with h2
  subst h2
  exact h3

/-- C95 for controls and bounds, provided that no two entries have the same id: for every order of the entries the same vector of
controls (or bounds) is set, or loading fails for every order. -/
theorem C95_controls_partial {cs : List (ControlComponent K)} {size : ControlComponent K → ℕ}
    (hd : DisjointControls size cs) (hr : ∀ c ∈ cs, ∀ e v, c.read e = Res.ok v → v.inner ≤ size c) {u r : IV K}
    (hwf : u.WF) {json json' : Json} (hj : Distinct (components json)) (h : Reordered json json') :
    setInitialControls cs u json = Res.ok r ↔ setInitialControls cs u json' = Res.ok r := by
  have main : ∀ {j j' : Json}, (components j).Perm (components j') → Distinct (components j) →
      setInitialControls cs u j = Res.ok r → setInitialControls cs u j' = Res.ok r := by
    intro j j' hp hj hrr
    unfold setInitialControls at hrr ⊢
    rw [← checkComponents_perm hp]
    obtain ⟨w, h1, h2⟩ := Res.bind_eq_ok.mp hrr
    rw [h1, Res.ok_bind]
    refine fold_perm (I := Like u.points u.inner) (R := OtherId) ?_ ?_ ?_ hp (pairwise_otherId hj) ⟨rfl, rfl, hwf⟩ h2
    · intro s a t hs ht
      exact setControlEntry_like hs ht
    · exact fun a b h => Ne.symm h
    · intro a b hab s t hs ht
      obtain ⟨s1, h3, h4⟩ := Res.bind_eq_ok.mp ht
      obtain ⟨W, o1, w1⟩ := setControlEntry_overlays hs h3
      obtain ⟨W', o2, w2⟩ := setControlEntry_overlays (setControlEntry_like hs h3) h4
      rw [← ht]
      refine (Overlays.comm Like.ext o1 o2 (fun k hk hk' => ?_) hs).symm
      obtain ⟨c, hc, i1, v, r1, k1, k2⟩ := w1 k hk
      obtain ⟨c', hc', i2, v', r2, k3, k4⟩ := w2 k hk'
      have b1 := hr c hc a v r1
      have b2 := hr c' hc' b v' r2
      have := hd c hc c' hc' (k % u.inner) k1 (by omega) k3 (by omega)
      subst this
      exact hab (i1.trans i2.symm)
  exact ⟨main h.components hj, main h.components.symm (hj.perm h.components)⟩

/-! ## Repeated ids -/

/-- A component with one value, which is read from the key "x". -/
def single : StateComponent ℚ where
  id := "p"
  start := 0
  states := 1
  points := 1
  dx := 1
  convert x := Res.ok x
  read j := match j.find? "x" with
    | some (num x) => Res.ok ⟨[0], 1, [x]⟩
    | _ => Res.throws

/-- A file with two entries for the same component. -/
def twice (x y : ℚ) : Json :=
  obj [("connections", obj [("Pipe", arr [obj [("id", str "p"), ("x", num x)], obj [("id", str "p"), ("x", num y)]])])]

theorem twice_reordered (x y : ℚ) : Reordered (twice x y) (twice y x) :=
  Or.inr ⟨_, _, rfl, rfl, .cons ⟨rfl, Or.inr ⟨by simp [classes], Or.inr ⟨_, _, rfl, rfl,
    .cons ⟨rfl, Or.inr ⟨_, _, rfl, rfl, .swap _ _ _⟩⟩ .nil⟩⟩⟩ .nil⟩

theorem twice_check (x y : ℚ) : checkComponents ["p"] (twice x y) = Res.ok ["p"] := by
  have h : compareIds ["p"] ["p", "p"] = ([], ["p"]) := by
    rw [compareIds, if_neg (by decide), if_neg (by decide), compareIds]
    simp
  show (if (compareIds ["p"] ["p", "p"]).1.isEmpty then Res.ok (compareIds ["p"] ["p", "p"]).2 else _) = _
  rw [h]
  rfl

theorem twice_set (x y : ℚ) (h : Res.fold (components (twice x y)) [0] (setEntry [single]) = Res.ok [y]) :
    setInitialValues [single] [0] (twice x y) = Res.ok [y] := by
  unfold setInitialValues
  show (checkComponents ["p"] _).bind _ = _
  rw [twice_check]
  exact h

/-- C95 is false of initial values (and of controls and bounds, which are loaded by the same code): two entries with the
same id are not rejected, and the last one is used. -/
theorem C95_initial_false : ¬ ∀ cs : List (StateComponent ℚ), (cs.map StateComponent.id).Nodup → Disjoint cs →
    ∀ vector, OrderDoesNotMatter (setInitialValues cs vector) := by
  intro h
  have := h [single] (by simp) (by
    intro a ha b hb k _ _
    simp only [List.mem_cons, List.not_mem_nil, or_false] at ha hb
    rw [ha, hb]) [0] (twice 1 2) (twice 2 1) (twice_reordered 1 2) [2]
  rw [twice_set _ _ (by decide +kernel), twice_set _ _ (by decide +kernel)] at this
  have h2 := this.mp rfl
  simp at h2

/-! ## Example: two components, both orders -/

/-- A second component. -/
def single' : StateComponent ℚ := { single with id := "q", start := 1 }

example : Disjoint [single, single'] := by
  intro a ha b hb k h1 h2
  simp only [List.mem_cons, List.not_mem_nil, or_false] at ha hb
  unfold Owns at h1 h2
  rcases ha with rfl | rfl <;> rcases hb with rfl | rfl <;> simp only [single, single'] at h1 h2 ⊢ <;> omega

example : Distinct (components (obj [("connections", obj [("Pipe",
    arr [obj [("id", str "p"), ("x", num 3)], obj [("id", str "q"), ("x", num 4)]])])])) := ⟨["p", "q"], rfl, by decide⟩

example : Res.fold (components (obj [("connections", obj [("Pipe",
    arr [obj [("id", str "p"), ("x", num 3)], obj [("id", str "q"), ("x", num 4)]])])])) [0, 0]
    (setEntry [single, single']) = Res.ok [3, 4] := by decide +kernel

example : Res.fold (components (obj [("connections", obj [("Pipe",
    arr [obj [("id", str "q"), ("x", num 4)], obj [("id", str "p"), ("x", num 3)]])])])) [0, 0]
    (setEntry [single, single']) = Res.ok [3, 4] := by decide +kernel

end Verif.Initial
