import Verif.Graph.Consistent

/-!
# From the jsons of a problem to its graph: nothing is lost or mixed up on the way
-/

set_option autoImplicit false

namespace Verif.Factory

open Verif.Json

variable {ν ε : Type}

/-- Both entries agree, apart from the boundary values. -/
def Keeps (c c' : Json) : Prop := ∀ k, k ≠ "boundary_values" → c'.find? k = c.find? k

/-- Both lists of types have the same entries in each type. -/
def SameTypes (m m' : List (String × Json)) : Prop :=
  List.Forall₂ (fun x y => x.1 = y.1 ∧ ∃ l, l.Perm x.2.elements ∧ List.Forall₂ Keeps l y.2.elements) m m'

/-- The values of a class in two jsons. -/
def SameClass (v v' : Option Json) : Prop :=
  match v with
  | some w => ∃ m m', w = obj m ∧ v' = some (obj m') ∧ SameTypes m m'
  | none => v' = none ∨ v' = some null

theorem Keeps.refl (c : Json) : Keeps c c := fun _ _ => rfl

theorem Keeps.trans {a b c : Json} (h : Keeps a b) (h' : Keeps b c) : Keeps a c := fun k hk => (h' k hk).trans (h k hk)

theorem forall₂_refl_of {α : Type} {R : α → α → Prop} (h : ∀ a, R a a) (l : List α) : List.Forall₂ R l l := by
  induction l with
  | nil => exact .nil
  | cons a l ih => exact .cons (h a) ih

theorem forall₂_trans_of {α β γ : Type} {R : α → β → Prop} {S : β → γ → Prop} {T : α → γ → Prop}
    (h : ∀ a b c, R a b → S b c → T a c) {l : List α} {m : List β} {n : List γ} (h1 : List.Forall₂ R l m)
    (h2 : List.Forall₂ S m n) : List.Forall₂ T l n := by
  induction h1 generalizing n with
  | nil => cases h2; exact .nil
  | cons h3 _ ih =>
    cases h2 with
    | cons h4 h5 => exact .cons (h _ _ _ h3 h4) (ih h5)

/-- Reordering the first of two matching lists. -/
theorem forall₂_perm {α β : Type} {R : α → β → Prop} {a : List α} {b b' : List β} (h : List.Forall₂ R a b)
    (hp : b'.Perm b) : ∃ a', a'.Perm a ∧ List.Forall₂ R a' b' := by
  induction hp generalizing a with
  | nil => cases h; exact ⟨[], .refl _, .nil⟩
  | cons x _ ih =>
    cases h with
    | cons h1 h2 =>
      obtain ⟨a', p, f⟩ := ih h2
      exact ⟨_ :: a', p.cons _, .cons h1 f⟩
  | swap x y l =>
    cases h with
    | cons h1 h2 =>
      cases h2 with
      | cons h3 h4 => exact ⟨_, .swap _ _ _, .cons h3 (.cons h1 h4)⟩
  | trans _ _ ih1 ih2 =>
    obtain ⟨a1, p1, f1⟩ := ih2 h
    obtain ⟨a2, p2, f2⟩ := ih1 f1
    exact ⟨a2, p2.trans p1, f2⟩

theorem SameTypes.trans {a b c : List (String × Json)} (h : SameTypes a b) (h' : SameTypes b c) : SameTypes a c := by
  refine forall₂_trans_of ?_ h h'
  rintro x y z ⟨h1, l, p1, f1⟩ ⟨h2, l', p2, f2⟩
  refine ⟨h1.trans h2, ?_⟩
  obtain ⟨l'', p3, f3⟩ := forall₂_perm f1 p2
  exact ⟨l'', p3.trans p1, forall₂_trans_of (R := Keeps) (S := Keeps) (T := Keeps) (fun _ _ _ h h' => Keeps.trans h h') f3 f2⟩

theorem SameTypes.refl (m : List (String × Json)) : SameTypes m m :=
  forall₂_refl_of (fun x => ⟨rfl, x.2.elements, .refl _, forall₂_refl_of Keeps.refl _⟩) m

theorem SameTypes.keys {m m' : List (String × Json)} (h : SameTypes m m') : m.map Prod.fst = m'.map Prod.fst := by
  induction h with
  | nil => rfl
  | cons h1 _ ih => simp [h1.1, ih]

/-- All entries, in some order, match. -/
theorem SameTypes.entries {m m' : List (String × Json)} (h : SameTypes m m') :
    ∃ es, es.Perm (entries m) ∧ List.Forall₂ (fun e e' => e.1 = e'.1 ∧ Keeps e.2 e'.2) es (entries m') := by
  induction h with
  | nil => exact ⟨[], .refl _, .nil⟩
  | @cons x y m m' h1 _ ih =>
    obtain ⟨es, p, f⟩ := ih
    obtain ⟨h2, l, p2, f2⟩ := h1
    refine ⟨l.map (fun j => (x.1, j)) ++ es, ?_, ?_⟩
    · exact (p2.map _).append p
    · show List.Forall₂ _ _ (y.2.elements.map (fun j => (y.1, j)) ++ _)
      refine forall₂_append' ?_ f
      rw [List.forall₂_map_left_iff, List.forall₂_map_right_iff]
      exact f2.imp fun _ _ h => ⟨h2, h⟩

theorem Sorts.same {m m' : List (String × Json)} (h : Sorts m m') : SameTypes m m' := by
  refine h.imp ?_
  rintro x y ⟨h1, l, l', h2, h3, p, -⟩
  exact ⟨h1, l', by rw [h2]; exact p, by rw [h3]; exact forall₂_refl_of Keeps.refl _⟩

/-! ## Merging -/

theorem mergeLists_keeps {second top l : List Json} (h : mergeLists "boundary_values" second top = Res.ok l) :
    List.Forall₂ Keeps top l := by
  induction second generalizing top l with
  | nil =>
    simp only [mergeLists, Res.ok.injEq] at h
    subst h
    exact forall₂_refl_of Keeps.refl _
  | cons s second ih =>
    cases top with
    | nil =>
      simp only [mergeLists, Res.ok.injEq] at h
      subst h
      exact .nil
    | cons t top =>
      simp only [mergeLists] at h
      obtain ⟨a, -, h⟩ := Res.bind_eq_ok.mp h
      obtain ⟨b, -, h⟩ := Res.bind_eq_ok.mp h
      split at h
      · exact ih h
      · split at h
        · cases h
        · obtain ⟨t', h1, h⟩ := Res.bind_eq_ok.mp h
          obtain ⟨rest, h2, h⟩ := Res.bind_eq_ok.mp h
          injection h with h
          subst h
          exact .cons (fun k hk => by rw [find_set h1, if_neg hk]) (ih h2)

theorem mergeType_keeps {s t v : Json} (h : mergeType "boundary_values" s t = Res.ok v) :
    List.Forall₂ Keeps t.elements v.elements := by
  unfold mergeType at h
  split at h
  · obtain ⟨l, h1, h⟩ := Res.bind_eq_ok.mp h
    injection h with h
    subst h
    exact mergeLists_keeps h1
  · injection h with h
    subst h
    exact forall₂_refl_of Keeps.refl _

theorem replaceKey_same {m : List (String × Json)} {k : String} {v v' : Json} (h : m.lookup k = some v)
    (hv : List.Forall₂ Keeps v.elements v'.elements) : SameTypes m (replaceKey k v' m) := by
  induction m with
  | nil => cases h
  | cons x m ih =>
    obtain ⟨k1, w⟩ := x
    rw [lookup_cons] at h
    simp only [replaceKey]
    split
    · next hk =>
      rw [if_pos hk] at h
      injection h with h
      subst h
      exact .cons ⟨rfl, _, .refl _, hv⟩ (SameTypes.refl m)
    · next hk =>
      rw [if_neg hk] at h
      exact .cons ⟨rfl, _, .refl _, forall₂_refl_of Keeps.refl _⟩ (ih h)

theorem mergeClass_same {second m : List (String × Json)} {v : Json}
    (h : mergeClass "boundary_values" second (obj m) = Res.ok v) : ∃ m', v = obj m' ∧ SameTypes m m' := by
  rw [mergeClass_eq] at h
  induction second generalizing m with
  | nil =>
    injection h with h
    exact ⟨m, h.symm, SameTypes.refl m⟩
  | cons x second ih =>
    simp only [Res.fold] at h
    obtain ⟨j, h1, h2⟩ := Res.bind_eq_ok.mp h
    unfold mergeStep at h1
    split at h1
    · injection h1 with h1
      subst h1
      exact ih h2
    · next w hw =>
      obtain ⟨w', h3, h4⟩ := Res.bind_eq_ok.mp h1
      simp only [Json.set, Res.ok.injEq] at h4
      subst h4
      have hl : m.lookup x.1 = some w := hw
      have hi : Json.insert x.1 w' m = replaceKey x.1 w' m := by
        unfold Json.insert; rw [if_pos (by simp [hl])]
      rw [hi] at h2
      obtain ⟨m', h5, h6⟩ := ih h2
      exact ⟨m', h5, (replaceKey_same hl (mergeType_keeps h3)).trans h6⟩

theorem mergeClass_null {second : List (String × Json)} {v : Json}
    (h : mergeClass "boundary_values" second null = Res.ok v) : v = null := by
  rw [mergeClass_eq] at h
  induction second with
  | nil => injection h with h; exact h.symm
  | cons x second ih =>
    simp only [Res.fold] at h
    obtain ⟨j, h1, h2⟩ := Res.bind_eq_ok.mp h
    have : j = null := by
      unfold mergeStep at h1
      simp only [find?] at h1
      injection h1 with h1
      exact h1.symm
    subst this
    exact ih h2

/-- One step of the loop over the classes. -/
def insertStep (second top : Json) (c : String) : Res Json :=
  match second.find? c with
  | some (obj (x :: m)) => do
    let v ← mergeClass "boundary_values" (x :: m) ((top.find? c).getD null)
    top.set c v
  | _ => Res.ok top

theorem insertStep_same {second top top' : Json} {c : String} (h : insertStep second top c = Res.ok top')
    (ht : ∀ v, top.find? c = some v → ∃ m, v = obj m) :
    SameClass (top.find? c) (top'.find? c) ∧ ∀ k, k ≠ c → top'.find? k = top.find? k := by
  have hrefl : SameClass (top.find? c) (top.find? c) := by
    cases hf : top.find? c with
    | none => exact Or.inl rfl
    | some v =>
      obtain ⟨m, rfl⟩ := ht v hf
      exact ⟨m, m, rfl, rfl, SameTypes.refl m⟩
  unfold insertStep at h
  split at h
  · next x m hs =>
    obtain ⟨v, h1, h2⟩ := Res.bind_eq_ok.mp h
    refine ⟨?_, fun k hk => by rw [find_set h2, if_neg hk]⟩
    rw [find_set h2, if_pos rfl]
    cases hf : top.find? c with
    | none =>
      rw [hf] at h1
      have := mergeClass_null h1
      subst this
      exact Or.inr rfl
    | some w =>
      obtain ⟨n, rfl⟩ := ht w hf
      rw [hf] at h1
      obtain ⟨m', rfl, h3⟩ := mergeClass_same h1
      exact ⟨n, m', rfl, rfl, h3⟩
  · injection h with h
    subst h
    exact ⟨hrefl, fun _ _ => rfl⟩

theorem insertSecond_steps (top second : Json) : insertSecond "boundary_values" top second =
    (insertStep second top "nodes").bind fun j => insertStep second j "connections" := by
  unfold insertSecond
  simp only [classes, Res.fold]
  show (insertStep second top "nodes" >>= fun s => insertStep second s "connections" >>= fun t => Res.ok t) = _
  cases insertStep second top "nodes" with
  | ok x => simp only [Res.ok_bind, Res.bind]; cases insertStep second x "connections" <;> rfl
  | _ => rfl

theorem SameClass.sorted {v v' v'' : Option Json} (h : ClassSorted v v') (h' : SameClass v' v'') : SameClass v v'' := by
  unfold ClassSorted at h
  cases v with
  | none => simp only at h; subst h; exact h'
  | some w =>
    obtain ⟨m, m', rfl, rfl, h1⟩ := h
    obtain ⟨n, n', h2, rfl, h3⟩ := h'
    injection h2 with h2
    subst h2
    exact ⟨m, n', rfl, rfl, (Sorts.same h1).trans h3⟩

/-- Preparing the json of the problem keeps all entries of both classes. -/
theorem buildFull_same {top boundary full : Json} (hs : Shaped top) (h : buildFull top boundary = Res.ok full) :
    Distinct (components top) ∧ ∀ c ∈ classes, SameClass (top.find? c) (full.find? c) := by
  unfold buildFull at h
  obtain ⟨top1, h1, h⟩ := Res.bind_eq_ok.mp h
  obtain ⟨bound1, -, h⟩ := Res.bind_eq_ok.mp h
  have hd : Distinct (components top) := by
    rw [sortById_eq] at h1
    obtain ⟨u, hu, -⟩ := Res.bind_eq_ok.mp h1
    exact checkForDuplicates_ok.mp hu
  refine ⟨hd, ?_⟩
  obtain ⟨j, hj, hsort, -⟩ := sortById_shaped hs hd
  rw [h1] at hj
  injection hj with hj
  subst hj
  have hobj : ∀ c ∈ classes, ∀ v, top1.find? c = some v → ∃ m, v = obj m := by
    intro c hc v hv
    have := hsort c hc
    unfold ClassSorted at this
    cases hf : top.find? c with
    | none => rw [hf] at this; simp only at this; rw [this] at hv; cases hv
    | some w =>
      rw [hf] at this
      obtain ⟨m, m', -, h3, -⟩ := this
      rw [h3] at hv
      injection hv with hv
      exact ⟨m', hv.symm⟩
  rw [insertSecond_steps] at h
  obtain ⟨j, h2, h3⟩ := Res.bind_eq_ok.mp h
  have hne : "connections" ≠ "nodes" := by decide
  obtain ⟨a1, a2⟩ := insertStep_same h2 (hobj "nodes" (by simp [classes]))
  obtain ⟨b1, b2⟩ := insertStep_same h3 (by rw [a2 _ hne]; exact hobj "connections" (by simp [classes]))
  intro c hc
  refine SameClass.sorted (hsort c hc) ?_
  simp only [classes, List.mem_cons, List.not_mem_nil, or_false] at hc
  rcases hc with rfl | rfl
  · rw [b2 _ hne.symm]; exact a1
  · rw [← a2 _ hne]; exact b1

end Verif.Factory
