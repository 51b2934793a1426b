import Verif.Output.Props

/-!
# Property C164: old initial values become numbers

Source: `/repo/helper_functions/boundaryprettyfy.cpp` 222-259. In old files of initial values all numbers are written as strings. Converting a
string to a number (`std::stod`) is a parameter of the model; it gives nothing if it throws.
-/

set_option autoImplicit false

namespace Verif.InitialStrings

open Json Output

variable (stod : String → Option ℚ)

/-! ## Model -/

/-- A string is read and converted — 227-228, 232-233, 237-238, 243-244, 248-249 and 254-255. Anything that is not a string throws. -/
def toNumber : Json → Res Json
  | str s => match stod s with
    | some x => Res.ok (num x)
    | none => Res.throws
  | _ => Res.throws

/-- The value of a data point — 230-240 and 246-257: the strings of a list are converted. An object is taken for a string, which throws; anything
else is left as it is. -/
def convertValue : Json → Res Json
  | arr l => do
    let l' ← Res.each l (toNumber stod)
    Res.ok (arr l')
  | obj m => toNumber stod (obj m)
  | j => Res.ok j

/-- A data point — 227-240 and 243-257. A missing value becomes null. -/
def convertPoint (p : Json) : Res Json := do
  let x ← access p "x"
  let x' ← toNumber stod x
  let p ← p.set "x" x'
  let v ← access p "value"
  let v' ← convertValue stod v
  p.set "value" v'

/-- One condition — 225-258. Missing data become null. -/
def convertCondition (c : Json) : Res Json := do
  let d ← access c "data"
  match d with
  | arr l => do
    let l' ← Res.each l (convertPoint stod)
    c.set "data" (arr l')
  | obj m => do
    let p ← convertPoint stod (obj m)
    c.set "data" p
  | j => c.set "data" j

/-- The loop over the conditions — 224-259, for a list of conditions. -/
def convertInitial (conditions : List Json) : Res (List Json) := Res.each conditions (convertCondition stod)

/-! ## Specification -/

/-- The second is the number the first, a string, stands for. -/
def Number (j j' : Json) : Prop := ∃ s x, j = str s ∧ stod s = some x ∧ j' = num x

/-- The strings of a list of values have become numbers. -/
def ListNumbers (v v' : Json) : Prop := ∃ l l', v = arr l ∧ v' = arr l' ∧ List.Forall₂ (Number stod) l l'

/-- The position has become a number, the value has become what it should, and nothing else has changed. -/
def PointBecomes (value : Json → Json → Prop) (p p' : Json) : Prop :=
  (∃ x x', p.find? "x" = some x ∧ p'.find? "x" = some x' ∧ Number stod x x') ∧
  (∃ v v', p.find? "value" = some v ∧ p'.find? "value" = some v' ∧ value v v') ∧
  ∀ k, k ≠ "x" → k ≠ "value" → p'.find? k = p.find? k

/-- The data points, one or a list of them, have become what they should, and nothing else has changed. -/
def ConditionBecomes (value : Json → Json → Prop) (c c' : Json) : Prop :=
  (∃ d d', c.find? "data" = some d ∧ c'.find? "data" = some d' ∧
    ((∃ l l', d = arr l ∧ d' = arr l' ∧ List.Forall₂ (PointBecomes stod value) l l') ∨ PointBecomes stod value d d')) ∧
  ∀ k, k ≠ "data" → c'.find? k = c.find? k

/-- A string. -/
def IsString (j : Json) : Prop := ∃ s, j = str s

/-- A list of strings. -/
def IsStrings (v : Json) : Prop := ∃ l, v = arr l ∧ ∀ j ∈ l, IsString j

/-- A data point of an old file: the position is a string, and the value is of the given form. -/
def OldPoint (value : Json → Prop) (p : Json) : Prop :=
  (∃ x, p.find? "x" = some x ∧ IsString x) ∧ ∃ v, p.find? "value" = some v ∧ value v

/-- A condition of an old file: its data are a list of data points or a single one. -/
def OldCondition (value : Json → Prop) (c : Json) : Prop :=
  ∃ d, c.find? "data" = some d ∧ ((∃ l, d = arr l ∧ ∀ p ∈ l, OldPoint value p) ∨ OldPoint value d)

/-! ## Proofs -/

variable {stod}

theorem access_find {o v : Json} {key : String} (h : o.find? key = some v) : access o key = Res.ok v := by
  cases o with
  | obj m => rw [access_obj, h]; rfl
  | _ => cases h

theorem toNumber_ok {j j' : Json} : toNumber stod j = Res.ok j' ↔ Number stod j j' := by
  constructor
  · intro h
    cases j with
    | str s =>
      simp only [toNumber] at h
      cases hs : stod s with
      | none => rw [hs] at h; cases h
      | some x =>
        rw [hs] at h
        injection h with h
        exact ⟨s, x, rfl, hs, h.symm⟩
    | _ => cases h
  · rintro ⟨s, x, rfl, h, rfl⟩
    simp [toNumber, h]

theorem toNumber_ne_ub (j : Json) : toNumber stod j ≠ Res.ub := by
  cases j with
  | str s => simp only [toNumber]; cases stod s <;> simp
  | _ => simp [toNumber]

theorem each_ne_ub {α β : Type} {l : List α} {f : α → Res β} (h : ∀ a ∈ l, f a ≠ Res.ub) : Res.each l f ≠ Res.ub := by
  induction l with
  | nil => simp [Res.each]
  | cons a l ih =>
    simp only [Res.each]
    cases ha : f a with
    | ub => exact absurd ha (h a (by simp))
    | throws => simp
    | ok b =>
      have := ih fun x hx => h x (by simp [hx])
      cases hl : Res.each l f with
      | ub => exact absurd hl this
      | _ => simp

theorem convertValue_ne_ub (v : Json) : convertValue stod v ≠ Res.ub := by
  cases v with
  | arr l =>
    simp only [convertValue]
    have := each_ne_ub (l := l) (f := toNumber stod) fun j _ => toNumber_ne_ub j
    cases h : Res.each l (toNumber stod) with
    | ub => exact absurd h this
    | _ => simp
  | _ => simp [convertValue, toNumber]

theorem set_ne_ub (j : Json) (k : String) (v : Json) : j.set k v ≠ Res.ub := by cases j <;> simp [Json.set]

theorem access_ne_ub (j : Json) (k : String) : access j k ≠ Res.ub := by cases j <;> simp [access]

theorem bind_ne_ub {α β : Type} {x : Res α} {f : α → Res β} (h : x ≠ Res.ub) (hf : ∀ a, x = Res.ok a → f a ≠ Res.ub) :
    (x >>= f) ≠ Res.ub := by
  cases x with
  | ub => exact absurd rfl h
  | throws => simp
  | ok a => exact hf a rfl

theorem convertPoint_ne_ub (p : Json) : convertPoint stod p ≠ Res.ub :=
  bind_ne_ub (access_ne_ub _ _) fun _ _ => bind_ne_ub (toNumber_ne_ub _) fun _ _ => bind_ne_ub (set_ne_ub _ _ _) fun _ _ =>
    bind_ne_ub (access_ne_ub _ _) fun _ _ => bind_ne_ub (convertValue_ne_ub _) fun _ _ => set_ne_ub _ _ _

theorem convertCondition_ne_ub (c : Json) : convertCondition stod c ≠ Res.ub := by
  refine bind_ne_ub (access_ne_ub _ _) fun d _ => ?_
  cases d with
  | arr l => exact bind_ne_ub (each_ne_ub fun p _ => convertPoint_ne_ub p) fun _ _ => set_ne_ub _ _ _
  | obj m => exact bind_ne_ub (convertPoint_ne_ub _) fun _ _ => set_ne_ub _ _ _
  | _ => exact set_ne_ub _ _ _

/-- What a data point with a value becomes. -/
theorem convertPoint_ok {p p' v : Json} (hv : p.find? "value" = some v) (h : convertPoint stod p = Res.ok p') :
    PointBecomes stod (fun v v' => convertValue stod v = Res.ok v') p p' := by
  unfold convertPoint at h
  obtain ⟨x, h1, h⟩ := Res.bind_eq_ok.mp h
  obtain ⟨x', h2, h⟩ := Res.bind_eq_ok.mp h
  obtain ⟨p1, h3, h⟩ := Res.bind_eq_ok.mp h
  obtain ⟨w, h4, h⟩ := Res.bind_eq_ok.mp h
  obtain ⟨w', h5, h⟩ := Res.bind_eq_ok.mp h
  have f1 := find_set h3
  have f2 := find_set h
  have hw : p1.find? "value" = some v := by rw [f1, if_neg (by decide), hv]
  rw [access_find hw] at h4
  injection h4 with h4
  subst h4
  have hx := toNumber_ok.mp h2
  refine ⟨⟨x, x', ?_, by rw [f2, if_neg (by decide), f1, if_pos rfl], hx⟩, ⟨v, w', hv, by rw [f2, if_pos rfl], h5⟩, fun k k1 k2 => ?_⟩
  · cases p with
    | obj m =>
      rw [access_obj] at h1
      injection h1 with h1
      cases hf : (obj m).find? "x" with
      | some y => rw [hf] at h1; rw [show y = x from h1]
      | none =>
        rw [hf] at h1
        obtain ⟨s, _, hs, -⟩ := hx
        rw [← h1] at hs
        cases hs
    | _ => cases hv
  · rw [f2, if_neg k2, f1, if_neg k1]

/-- A data point whose position is a string of a number and whose value can be converted, can be converted. -/
theorem convertPoint_some {p x x' v v' : Json} (hx : p.find? "x" = some x) (hn : Number stod x x') (hv : p.find? "value" = some v)
    (hc : convertValue stod v = Res.ok v') : ∃ p', convertPoint stod p = Res.ok p' := by
  obtain ⟨p1, h1⟩ := set_of_find (v := x') hx
  have hw : p1.find? "value" = some v := by rw [find_set h1, if_neg (by decide), hv]
  obtain ⟨p2, h2⟩ := set_of_find (v := v') hw
  refine ⟨p2, ?_⟩
  unfold convertPoint
  simp only [access_find hx, Res.ok_bind, toNumber_ok.mpr hn, h1, access_find hw, hc, h2]

theorem PointBecomes.imp {R S : Json → Json → Prop} {p p' : Json} (h : PointBecomes stod R p p')
    (hRS : ∀ v v', p.find? "value" = some v → R v v' → S v v') : PointBecomes stod S p p' := by
  obtain ⟨h1, ⟨v, v', h2, h3, h4⟩, h5⟩ := h
  exact ⟨h1, ⟨v, v', h2, h3, hRS v v' h2 h4⟩, h5⟩

theorem forall₂_imp_mem {α β : Type} {R S : α → β → Prop} {l : List α} {m : List β} (h : List.Forall₂ R l m)
    (hRS : ∀ a ∈ l, ∀ b, R a b → S a b) : List.Forall₂ S l m := by
  induction h with
  | nil => exact .nil
  | cons h _ ih => exact .cons (hRS _ (by simp) _ h) (ih fun a ha => hRS a (by simp [ha]))

/-- What a condition becomes. -/
theorem convertCondition_ok {value : Json → Prop} {c c' : Json} (ho : OldCondition value c) (h : convertCondition stod c = Res.ok c') :
    ConditionBecomes stod (fun v v' => value v ∧ convertValue stod v = Res.ok v') c c' := by
  obtain ⟨d, hd, ho⟩ := ho
  unfold convertCondition at h
  rw [access_find hd, Res.ok_bind] at h
  have point : ∀ p p', OldPoint value p → convertPoint stod p = Res.ok p' →
      PointBecomes stod (fun v v' => value v ∧ convertValue stod v = Res.ok v') p p' := by
    rintro p p' ⟨-, v, hv, hval⟩ hp
    refine (convertPoint_ok hv hp).imp fun w w' hw hc => ⟨?_, hc⟩
    rw [hv] at hw
    injection hw with hw
    exact hw ▸ hval
  rcases ho with ⟨l, rfl, hl⟩ | hp
  · obtain ⟨l', h1, h⟩ := Res.bind_eq_ok.mp h
    have f := find_set h
    refine ⟨⟨arr l, arr l', hd, by rw [f, if_pos rfl], .inl ⟨l, l', rfl, rfl, ?_⟩⟩, fun k hk => by rw [f, if_neg hk]⟩
    exact forall₂_imp_mem (Res.each_eq_ok.mp h1) fun p hp p' hpp => point p p' (hl p hp) hpp
  · cases d with
    | obj m =>
      obtain ⟨p', h1, h⟩ := Res.bind_eq_ok.mp h
      have f := find_set h
      exact ⟨⟨obj m, p', hd, by rw [f, if_pos rfl], .inr (point _ _ hp h1)⟩, fun k hk => by rw [f, if_neg hk]⟩
    | _ => obtain ⟨⟨x, hx, -⟩, -⟩ := hp; cases hx

/-! ## C164 -/

variable (stod)

/-- All strings at positions and values stand for numbers. -/
def AllNumbers (stod : String → Option ℚ) (conditions : List Json) : Prop :=
  ∀ c ∈ conditions, ∀ d, c.find? "data" = some d → ∀ p, p = d ∨ (∃ l, d = arr l ∧ p ∈ l) →
    (∀ s, p.find? "x" = some (str s) → (stod s).isSome) ∧
    (∀ s, p.find? "value" = some (str s) → (stod s).isSome) ∧
    ∀ l, p.find? "value" = some (arr l) → ∀ s, str s ∈ l → (stod s).isSome

/-- The property C164: in all conditions all strings of numbers, be they positions, values in a list or single values, become the numbers they stand
for, and nothing else is changed. -/
def C164_property : Prop :=
  ∀ conditions : List Json, (∀ c ∈ conditions, OldCondition (fun v => IsStrings v ∨ IsString v) c) → AllNumbers stod conditions →
    ∃ r, convertInitial stod conditions = Res.ok r ∧
      List.Forall₂ (ConditionBecomes stod fun v v' => ListNumbers stod v v' ∨ Number stod v v') conditions r

variable {stod}

theorem convertValue_strings {v v' : Json} (h : IsStrings v) (hc : convertValue stod v = Res.ok v') : ListNumbers stod v v' := by
  obtain ⟨l, rfl, -⟩ := h
  simp only [convertValue] at hc
  obtain ⟨l', h1, hc⟩ := Res.bind_eq_ok.mp hc
  injection hc with hc
  exact ⟨l, l', rfl, hc.symm, (Res.each_eq_ok.mp h1).imp fun _ _ h => toNumber_ok.mp h⟩

theorem number_some {s : String} (h : (stod s).isSome) : ∃ x', Number stod (str s) x' := by
  obtain ⟨x, hx⟩ := Option.isSome_iff_exists.mp h
  exact ⟨num x, s, x, rfl, hx, rfl⟩

theorem ConditionBecomes.imp {R S : Json → Json → Prop} {c c' : Json} (h : ConditionBecomes stod R c c') (hRS : ∀ v v', R v v' → S v v') :
    ConditionBecomes stod S c c' := by
  obtain ⟨⟨d, d', h1, h2, h3⟩, h4⟩ := h
  refine ⟨⟨d, d', h1, h2, ?_⟩, h4⟩
  rcases h3 with ⟨l, l', h5, h6, h7⟩ | h3
  · exact .inl ⟨l, l', h5, h6, h7.imp fun _ _ h => h.imp fun v v' _ => hRS v v'⟩
  · exact .inr (h3.imp fun v v' _ => hRS v v')

/-- **C164 (partial)**: for all conditions of an old file, in which the values are lists of strings or single strings: the behaviour is never undefined; if all
strings stand for numbers, all positions and all values in lists become the numbers they stand for, and nothing else is changed — single
values stay strings. If the program does not throw, this is so as well. Missing: the conversion of single values. -/
theorem C164_partial {conditions : List Json} (ho : ∀ c ∈ conditions, OldCondition (fun v => IsStrings v ∨ IsString v) c) :
    convertInitial stod conditions ≠ Res.ub ∧
    (AllNumbers stod conditions → ∃ r, convertInitial stod conditions = Res.ok r) ∧
    ∀ r, convertInitial stod conditions = Res.ok r →
      List.Forall₂ (ConditionBecomes stod fun v v' => ListNumbers stod v v' ∨ (IsString v ∧ v' = v)) conditions r := by
  refine ⟨each_ne_ub fun c _ => convertCondition_ne_ub c, fun hn => ?_, fun r hr => ?_⟩
  · suffices h : ∀ c ∈ conditions, ∃ c', convertCondition stod c = Res.ok c' by
      clear ho hn
      unfold convertInitial
      induction conditions with
      | nil => exact ⟨[], rfl⟩
      | cons c l ih =>
        obtain ⟨c', hc'⟩ := h c (by simp)
        obtain ⟨l', hl'⟩ := ih fun x hx => h x (by simp [hx])
        exact ⟨c' :: l', by simp [Res.each, hc', hl']⟩
    intro c hc
    obtain ⟨d, hd, hp⟩ := ho c hc
    have hn := hn c hc d hd
    have point : ∀ p, OldPoint (fun v => IsStrings v ∨ IsString v) p → (p = d ∨ ∃ l, d = arr l ∧ p ∈ l) →
        ∃ p', convertPoint stod p = Res.ok p' := by
      rintro p ⟨⟨x, hx, s, rfl⟩, v, hv, hval⟩ hm
      obtain ⟨n1, n2, n3⟩ := hn p hm
      obtain ⟨x', hx'⟩ := number_some (n1 s hx)
      have : ∃ v', convertValue stod v = Res.ok v' := by
        rcases hval with ⟨l, rfl, hl⟩ | ⟨t, rfl⟩
        · have n4 := n3 l hv
          have : ∃ l', Res.each l (toNumber stod) = Res.ok l' := by
            clear hv
            induction l with
            | nil => exact ⟨[], rfl⟩
            | cons a l ih =>
              obtain ⟨t, rfl⟩ := hl a (by simp)
              obtain ⟨a', ha'⟩ := number_some (n4 t (by simp))
              obtain ⟨l', hl'⟩ := ih (fun j hj => hl j (by simp [hj])) fun s hs => n4 s (by simp [hs])
              exact ⟨a' :: l', by simp [Res.each, toNumber_ok.mpr ha', hl']⟩
          obtain ⟨l', hl'⟩ := this
          exact ⟨arr l', by simp [convertValue, hl']⟩
        · exact ⟨str t, rfl⟩
      obtain ⟨v', hv'⟩ := this
      exact convertPoint_some hx hx' hv hv'
    unfold convertCondition
    rw [access_find hd, Res.ok_bind]
    rcases hp with ⟨l, rfl, hl⟩ | hp
    · have : ∃ l', Res.each l (convertPoint stod) = Res.ok l' := by
        have point' : ∀ p ∈ l, ∃ p', convertPoint stod p = Res.ok p' := fun p hp => point p (hl p hp) (.inr ⟨l, rfl, hp⟩)
        clear hd hn hl point
        induction l with
        | nil => exact ⟨[], rfl⟩
        | cons a l ih =>
          obtain ⟨a', ha'⟩ := point' a (by simp)
          obtain ⟨l', hl'⟩ := ih fun p hp => point' p (by simp [hp])
          exact ⟨a' :: l', by simp [Res.each, ha', hl']⟩
      obtain ⟨l', hl'⟩ := this
      simp only [hl', Res.ok_bind]
      exact set_of_find hd
    · cases d with
      | obj m =>
        obtain ⟨p', hp'⟩ := point _ hp (.inl rfl)
        simp only [hp', Res.ok_bind]
        exact set_of_find hd
      | _ => obtain ⟨⟨x, hx, -⟩, -⟩ := hp; cases hx
  · refine forall₂_imp_mem (Res.each_eq_ok.mp hr) fun c hc c' hcc => (convertCondition_ok (ho c hc) hcc).imp ?_
    rintro v v' ⟨hval, hconv⟩
    rcases hval with hval | ⟨s, rfl⟩
    · exact .inl (convertValue_strings hval hconv)
    · simp only [convertValue, Res.ok.injEq] at hconv
      exact .inr ⟨⟨s, rfl⟩, hconv.symm⟩

/-- C164, if all values are in lists: then it holds fully. -/
theorem C164_lists_partial {conditions : List Json} (ho : ∀ c ∈ conditions, OldCondition IsStrings c) (hn : AllNumbers stod conditions) :
    ∃ r, convertInitial stod conditions = Res.ok r ∧ List.Forall₂ (ConditionBecomes stod (ListNumbers stod)) conditions r := by
  have weak : ∀ p, OldPoint IsStrings p → OldPoint (fun v => IsStrings v ∨ IsString v) p :=
    fun p ⟨h1, v, h2, h3⟩ => ⟨h1, v, h2, .inl h3⟩
  obtain ⟨-, h2, -⟩ := C164_partial (stod := stod) (conditions := conditions) fun c hc => by
    obtain ⟨d, hd, h⟩ := ho c hc
    refine ⟨d, hd, ?_⟩
    rcases h with ⟨l, h1, h2⟩ | h
    · exact .inl ⟨l, h1, fun p hp => weak p (h2 p hp)⟩
    · exact .inr (weak d h)
  obtain ⟨r, hr⟩ := h2 hn
  refine ⟨r, hr, forall₂_imp_mem (Res.each_eq_ok.mp hr) fun c hc c' hcc => (convertCondition_ok (ho c hc) hcc).imp ?_⟩
  rintro v v' ⟨hval, hconv⟩
  exact convertValue_strings hval hconv

/-- Some strings and the numbers they stand for. -/
def digits : String → Option ℚ
  | "0" => some 0
  | "1" => some 1
  | "2.5" => some (5 / 2)
  | _ => none

/-- A single value, as in an old file. -/
def single : Json := obj [("data", obj [("value", str "2.5"), ("x", str "0")]), ("id", str "N")]

theorem single_old : OldCondition (fun v => IsStrings v ∨ IsString v) single :=
  ⟨obj [("value", str "2.5"), ("x", str "0")], rfl, .inr ⟨⟨str "0", rfl, "0", rfl⟩, str "2.5", rfl, .inr ⟨"2.5", rfl⟩⟩⟩

theorem single_numbers : AllNumbers digits [single] := by
  intro c hc d hd p hp
  rw [List.mem_singleton] at hc
  subst hc
  injection hd with hd
  subst hd
  rcases hp with rfl | ⟨l, hl, -⟩
  · refine ⟨fun s hs => ?_, fun s hs => ?_, fun l hl => ?_⟩
    · injection hs with hs; injection hs with hs; subst hs; rfl
    · injection hs with hs; injection hs with hs; subst hs; rfl
    · injection hl with hl; cases hl
  · cases hl

/-- C164 does not hold: a single value stays a string. -/
theorem C164_false : ¬ C164_property digits := by
  intro h
  obtain ⟨r, h1, h2⟩ := h [single] (by simpa using single_old) single_numbers
  have e : convertInitial digits [single] =
      Res.ok [obj [("data", obj [("value", str "2.5"), ("x", num 0)]), ("id", str "N")]] := rfl
  rw [e] at h1
  injection h1 with h1
  subst h1
  obtain ⟨⟨⟨d, d', h3, h4, h5⟩, -⟩, -⟩ := List.forall₂_cons.mp h2
  injection h3 with h3
  injection h4 with h4
  subst h3
  subst h4
  rcases h5 with ⟨l, l', h5, -⟩ | ⟨-, ⟨v, v', h6, h7, h8⟩, -⟩
  · cases h5
  · injection h6 with h6
    injection h7 with h7
    subst h6
    subst h7
    rcases h8 with ⟨l, l', h8, -⟩ | ⟨s, x, -, -, h8⟩
    · cases h8
    · cases h8

/-- A pipe with values at two positions. -/
def pipe : Json := obj [("data", arr [obj [("value", arr [str "1", str "2.5"]), ("x", str "0")],
  obj [("value", arr [str "1", str "1"]), ("x", str "1")]]), ("id", str "P")]

/-- A concrete case. -/
example : convertInitial digits [pipe, single] =
    Res.ok [obj [("data", arr [obj [("value", arr [num 1, num (5 / 2)]), ("x", num 0)], obj [("value", arr [num 1, num 1]), ("x", num 1)]]),
      ("id", str "P")], obj [("data", obj [("value", str "2.5"), ("x", num 0)]), ("id", str "N")]] := rfl

/-- The hypothesis of `C164_lists_partial` holds for the pipe. -/
example : OldCondition IsStrings pipe := by
  refine ⟨_, rfl, .inl ⟨_, rfl, fun p hp => ?_⟩⟩
  simp only [List.mem_cons, List.not_mem_nil, or_false] at hp
  rcases hp with rfl | rfl
  · exact ⟨⟨_, rfl, _, rfl⟩, _, rfl, _, rfl, by simp [IsString]⟩
  · exact ⟨⟨_, rfl, _, rfl⟩, _, rfl, _, rfl, by simp [IsString]⟩

end Verif.InitialStrings
