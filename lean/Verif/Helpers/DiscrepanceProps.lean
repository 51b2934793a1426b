import Mathlib.Data.List.TakeWhile
import Verif.Helpers.Discrepance
import Mathlib.Data.List.Sort
import Mathlib.Tactic.Linarith
import Mathlib.Tactic.NormNum

/-!
# Properties of the comparison with a reference (C145, C146)
-/

set_option autoImplicit false

namespace Verif.Helpers.Discrepance

variable {I Q : Type} [LinearOrder I]

/-! ## Specification -/

/-- The quantity called `key` of the component `id` in the time step with the number `i`. -/
def quantityAt (file : List (Component I Q)) (id : I) (i : ℕ) (key : String) : Option Q := do
  let c ← file.find? fun c => decide (c.id = id)
  let s ← c.data[i]?
  s.values.lookup key

/-- Two files hold the same components in the same order, with equally many time steps and the same quantities, whose
values are related by `R`. -/
def SameLayout (R : Q → Q → Prop) (a b : List (Component I Q)) : Prop :=
  List.Forall₂ (fun c d => c.id = d.id ∧
    List.Forall₂ (fun s t => List.Forall₂ (fun p q => p.1 = q.1 ∧ R p.2 q.2) s.values t.values) c.data d.data) a b

/-- A file as written by Grazer: the components are sorted by their ids, no id and no name of a quantity appears
twice. -/
def Sorted (file : List (Component I Q)) : Prop :=
  file.Pairwise (fun c d => c.id < d.id) ∧ ∀ c ∈ file, ∀ s ∈ c.data, (s.values.map Prod.fst).Nodup

/-- The ids of the components and their times. -/
def times (file : List (Component I Q)) : List (I × List ℚ) := file.map fun c => (c.id, c.data.map Step.time)

/-- Arrays of points for the same, strictly increasing positions; at least one. -/
def SamePoints (r q : List Point) : Prop :=
  r ≠ [] ∧ r.map Prod.fst = q.map Prod.fst ∧ (r.map Prod.fst).Pairwise (· < ·)

/-! ## Proofs -/

/-- What is needed of a kind of quantities: `P r qs d` says that `d` is the right result for `qs`. -/
structure Correct (K : Kind Q) (R : Q → Q → Prop) (P : Q → List Q → Q → Prop) : Prop where
  present : ∀ r q, R r q → K.present q = true
  first : ∀ r q, R r q → ∃ d, K.first r q = Res.ok d ∧ P r [q] d
  again : ∀ r qs s q, P r qs s → R r q → ∃ d, K.again r s q = Res.ok d ∧ P r (qs ++ [q]) d

theorem lookup_of_not_mem {l : List (String × Q)} {k : String} (h : k ∉ l.map Prod.fst) : l.lookup k = none := by
  induction l with
  | nil => rfl
  | cons p l ih =>
    obtain ⟨k', v⟩ := p
    simp only [List.map_cons, List.mem_cons, not_or] at h
    rw [List.lookup_cons, show (k == k') = false by simpa using h.1]
    exact ih h.2

theorem lookup_middle {a b : List (String × Q)} {k : String} {v : Q} (h : k ∉ a.map Prod.fst) :
    (a ++ (k, v) :: b).lookup k = some v := by
  induction a with
  | nil => simp
  | cons p a ih =>
    obtain ⟨k', w⟩ := p
    simp only [List.map_cons, List.mem_cons, not_or] at h
    rw [List.cons_append, List.lookup_cons, show (k == k') = false by simpa using h.1]
    exact ih h.2

theorem setValue_middle {a b : List (String × Q)} {k : String} {v d : Q} (ha : k ∉ a.map Prod.fst)
    (hb : k ∉ b.map Prod.fst) : setValue k d (a ++ (k, v) :: b) = a ++ (k, d) :: b := by
  have hid : ∀ l : List (String × Q), k ∉ l.map Prod.fst →
      (l.map fun e => if e.1 = k then (k, d) else e) = l := by
    intro l hl
    conv_rhs => rw [← List.map_id l]
    apply List.map_congr_left
    intro e he
    rw [if_neg (fun h => hl (List.mem_map.mpr ⟨e, he, h⟩))]
    rfl
  simp [setValue, hid a ha, hid b hb]

theorem keys_eq {R : Q → Q → Prop} {a b : List (String × Q)}
    (h : List.Forall₂ (fun p q => p.1 = q.1 ∧ R p.2 q.2) a b) : a.map Prod.fst = b.map Prod.fst := by
  induction h with
  | nil => rfl
  | cons h _ ih => simp [h.1, ih]

theorem keys_eq' {S : String → Q → Q → Prop} {a b : List (String × Q)}
    (h : List.Forall₂ (fun p q => p.1 = q.1 ∧ S p.1 p.2 q.2) a b) : a.map Prod.fst = b.map Prod.fst := by
  induction h with
  | nil => rfl
  | cons h _ ih => simp [h.1, ih]

theorem forall₂_imp_mem {A B : Type} {R S : A → B → Prop} {a : List A} {b : List B} (h : List.Forall₂ R a b)
    (himp : ∀ x ∈ a, ∀ y, R x y → S x y) : List.Forall₂ S a b := by
  induction h with
  | nil => exact List.Forall₂.nil
  | cons h _ ih =>
    exact List.Forall₂.cons (himp _ (by simp) _ h) (ih fun x hx => himp x (List.mem_cons_of_mem _ hx))

theorem forall₂_mem_right {A B : Type} {R : A → B → Prop} {a : List A} {b : List B} (h : List.Forall₂ R a b) :
    ∀ y ∈ b, ∃ x ∈ a, R x y := by
  induction h with
  | nil => simp
  | @cons x y _ _ h _ ih =>
    intro z hz
    rcases List.mem_cons.mp hz with rfl | hz
    · exact ⟨x, by simp, h⟩
    · obtain ⟨w, hw, hwz⟩ := ih z hz
      exact ⟨w, List.mem_cons_of_mem _ hw, hwz⟩

theorem firstValues_spec {K : Kind Q} {R : Q → Q → Prop} {P : Q → List Q → Q → Prop} (hK : Correct K R P)
    (rt qs : List (String × Q)) (h : List.Forall₂ (fun p q => p.1 = q.1 ∧ R p.2 q.2) rt qs) :
    ∀ rp : List (String × Q), ((rp ++ rt).map Prod.fst).Nodup →
    ∃ d, firstValues K (rp ++ rt) qs = Res.ok d ∧
      List.Forall₂ (fun p e => p.1 = e.1 ∧ P p.2 ((qs.lookup p.1).toList) e.2) rt d := by
  induction h with
  | nil => intro rp _; exact ⟨[], rfl, List.Forall₂.nil⟩
  | @cons r q rt qs hrq hrest ih =>
    intro rp hnd
    obtain ⟨k, r⟩ := r
    obtain ⟨k', q⟩ := q
    obtain ⟨hk, hR⟩ := hrq
    simp only at hk hR
    subst hk
    have hkeys := keys_eq hrest
    have hnd' : ((rp ++ [(k, r)] ++ rt).map Prod.fst).Nodup := by simpa using hnd
    obtain ⟨ds, hds, hrel⟩ := ih (rp ++ [(k, r)]) hnd'
    obtain ⟨d, hd, hP⟩ := hK.first r q hR
    have hmem : k ∉ rp.map Prod.fst ∧ k ∉ rt.map Prod.fst := by
      simp only [List.map_append, List.map_cons, List.nodup_append, List.nodup_cons, List.mem_cons] at hnd
      exact ⟨fun hin => hnd.2.2 k hin k (Or.inl rfl) rfl, hnd.2.1.1⟩
    refine ⟨(k, d) :: ds, ?_, ?_⟩
    · rw [firstValues, if_pos (hK.present r q hR), lookup_middle hmem.1]
      simp only [List.append_assoc, List.cons_append, List.nil_append] at hds
      simp [hd, hds]
    · refine List.Forall₂.cons ⟨rfl, by simpa using hP⟩ ?_
      refine forall₂_imp_mem hrel ?_
      rintro ⟨k', r'⟩ hin ⟨k'', e⟩ ⟨h1, h2⟩
      refine ⟨h1, ?_⟩
      have hne : k' ≠ k := by
        rintro rfl
        exact hmem.2 (List.mem_map.mpr ⟨_, hin, rfl⟩)
      have hb : (k' == k) = false := by simpa using hne
      simpa [List.lookup_cons, hb] using h2

theorem againValues_spec {K : Kind Q} {R : Q → Q → Prop} {P : Q → List Q → Q → Prop} (hK : Correct K R P)
    (hist : String → List Q) (rt qs : List (String × Q))
    (h : List.Forall₂ (fun p q => p.1 = q.1 ∧ R p.2 q.2) rt qs) :
    ∀ (st rp sp : List (String × Q)),
    List.Forall₂ (fun p e => p.1 = e.1 ∧ P p.2 (hist p.1) e.2) rt st →
    ((rp ++ rt).map Prod.fst).Nodup → rp.map Prod.fst = sp.map Prod.fst →
    ∃ d, againValues K (rp ++ rt) (sp ++ st) qs = Res.ok (sp ++ d) ∧
      List.Forall₂ (fun p e => p.1 = e.1 ∧ P p.2 (hist p.1 ++ (qs.lookup p.1).toList) e.2) rt d := by
  induction h with
  | nil =>
    intro st rp sp hst _ _
    cases hst
    exact ⟨[], rfl, List.Forall₂.nil⟩
  | @cons r q rt qs hrq hrest ih =>
    intro st rp sp hst hnd hp
    obtain ⟨k, r⟩ := r
    obtain ⟨k', q⟩ := q
    obtain ⟨hk, hR⟩ := hrq
    simp only at hk hR
    subst hk
    cases hst with
    | @cons _ s _ st hs hst =>
    obtain ⟨k', s⟩ := s
    obtain ⟨hk, hP⟩ := hs
    simp only at hk hP
    subst hk
    have hmem : k ∉ rp.map Prod.fst ∧ k ∉ rt.map Prod.fst := by
      simp only [List.map_append, List.map_cons, List.nodup_append, List.nodup_cons, List.mem_cons] at hnd
      exact ⟨fun hin => hnd.2.2 k hin k (Or.inl rfl) rfl, hnd.2.1.1⟩
    have hst' : k ∉ st.map Prod.fst := by
      have := keys_eq' (S := fun k p q => P p (hist k) q) hst
      rw [← this]; exact hmem.2
    obtain ⟨d, hd, hP'⟩ := hK.again r _ s q hP hR
    obtain ⟨ds, hds, hrel⟩ := ih st (rp ++ [(k, r)]) (sp ++ [(k, d)]) hst (by simpa using hnd) (by simp [hp])
    refine ⟨(k, d) :: ds, ?_, ?_⟩
    · rw [againValues, if_pos (hK.present r q hR), lookup_middle hmem.1]
      simp only
      rw [lookup_middle (hp ▸ hmem.1)]
      simp only [hd, Res.ok_bind]
      rw [setValue_middle (hp ▸ hmem.1) hst']
      simpa using hds
    · refine List.Forall₂.cons ⟨rfl, by simpa using hP'⟩ ?_
      refine forall₂_imp_mem hrel ?_
      rintro ⟨k', r'⟩ hin ⟨k'', e⟩ ⟨h1, h2⟩
      refine ⟨h1, ?_⟩
      have hne : k' ≠ k := by
        rintro rfl
        exact hmem.2 (List.mem_map.mpr ⟨_, hin, rfl⟩)
      have hb : (k' == k) = false := by simpa using hne
      simpa [List.lookup_cons, hb] using h2

/-- All quantities of a component are right results for the quantities in `hist`, for each time step and name. -/
def TracksData (P : Q → List Q → Q → Prop) : (ℕ → String → List Q) → List (Step Q) → List (Step Q) → Prop
  | _, [], [] => True
  | hist, r :: rs, d :: ds =>
    List.Forall₂ (fun p e => p.1 = e.1 ∧ P p.2 (hist 0 p.1) e.2) r.values d.values ∧
      TracksData P (fun i => hist (i + 1)) rs ds
  | _, _, _ => False

/-- The quantity of a component. -/
def stepAt (data : List (Step Q)) (i : ℕ) (key : String) : List Q :=
  ((data[i]?).bind fun s => s.values.lookup key).toList

theorem firstData_spec {K : Kind Q} {R : Q → Q → Prop} {P : Q → List Q → Q → Prop} (hK : Correct K R P)
    (refs steps : List (Step Q))
    (h : List.Forall₂ (fun s t => List.Forall₂ (fun p q => p.1 = q.1 ∧ R p.2 q.2) s.values t.values) refs steps)
    (hnd : ∀ s ∈ refs, (s.values.map Prod.fst).Nodup) :
    ∃ d, firstData K refs steps = Res.ok d ∧ d.map Step.time = steps.map Step.time ∧
      TracksData P (stepAt steps) refs d := by
  induction h with
  | nil => exact ⟨[], rfl, rfl, trivial⟩
  | @cons r t rs ts hrt _ ih =>
    obtain ⟨ds, hds, hti, htr⟩ := ih fun s hs => hnd s (List.mem_cons_of_mem _ hs)
    obtain ⟨vs, hvs, hrel⟩ := firstValues_spec hK _ _ hrt [] (by simpa using hnd r (by simp))
    rw [List.nil_append] at hvs
    exact ⟨⟨t.time, vs⟩ :: ds, by simp [firstData, hvs, hds], by simp [hti], by simpa [stepAt] using hrel, htr⟩

theorem againData_spec {K : Kind Q} {R : Q → Q → Prop} {P : Q → List Q → Q → Prop} (hK : Correct K R P)
    (refs steps : List (Step Q))
    (h : List.Forall₂ (fun s t => List.Forall₂ (fun p q => p.1 = q.1 ∧ R p.2 q.2) s.values t.values) refs steps) :
    ∀ (hist : ℕ → String → List Q) (saved : List (Step Q)), TracksData P hist refs saved →
    (∀ s ∈ refs, (s.values.map Prod.fst).Nodup) →
    ∃ d, againData K refs saved steps = Res.ok d ∧ d.map Step.time = saved.map Step.time ∧
      TracksData P (fun i key => hist i key ++ stepAt steps i key) refs d := by
  induction h with
  | nil =>
    intro hist saved hs _
    cases saved with
    | nil => exact ⟨[], rfl, rfl, trivial⟩
    | cons _ _ => exact hs.elim
  | @cons r t rs ts hrt _ ih =>
    intro hist saved hs hnd
    cases saved with
    | nil => exact hs.elim
    | cons s saved =>
      obtain ⟨hs0, hs1⟩ := hs
      obtain ⟨ds, hds, hti, htr⟩ := ih _ saved hs1 fun s hs => hnd s (List.mem_cons_of_mem _ hs)
      obtain ⟨vs, hvs, hrel⟩ := againValues_spec hK (hist 0) _ _ hrt s.values [] [] hs0
        (by simpa using hnd r (by simp)) rfl
      rw [List.nil_append, List.nil_append, List.nil_append] at hvs
      exact ⟨⟨s.time, vs⟩ :: ds, by simp [againData, hvs, hds], by simp [hti], by simpa [stepAt] using hrel, htr⟩

/-- All quantities of a file are right results for the quantities in `hist`, for each component, time step and
name. -/
def Tracks (P : Q → List Q → Q → Prop) (hist : I → ℕ → String → List Q) (ref out : List (Component I Q)) : Prop :=
  List.Forall₂ (fun c d => c.id = d.id ∧ TracksData P (hist c.id) c.data d.data) ref out

theorem lowerBound_append {A : Type} (less : A → Bool) (a b : List A) (ha : ∀ x ∈ a, less x = true)
    (hb : ∀ x ∈ b, less x = false) : lowerBound less (a ++ b) = Res.ok a.length := by
  have hdrop : (a ++ b).dropWhile less = b := by
    rw [List.dropWhile_append_of_pos ha]
    cases b with
    | nil => rfl
    | cons x b => rw [List.dropWhile_cons_of_neg (by simp [hb x (by simp)])]
  have htake : (a ++ b).takeWhile less = a := by
    rw [List.takeWhile_append_of_pos ha]
    cases b with
    | nil => simp
    | cons x b => rw [List.takeWhile_cons_of_neg (by simp [hb x (by simp)])]; simp
  unfold lowerBound
  rw [hdrop, htake, if_pos]
  simpa using hb

theorem find_middle {a b : List (Component I Q)} {c : Component I Q} (h : ∀ x ∈ a, x.id < c.id) :
    (a ++ c :: b).find? (fun x => decide (x.id = c.id)) = some c := by
  rw [List.find?_append]
  have : a.find? (fun x => decide (x.id = c.id)) = none := by
    rw [List.find?_eq_none]
    intro x hx
    simpa using (h x hx).ne
  simp [this]

theorem addRun_first {K : Kind Q} {R : Q → Q → Prop} {P : Q → List Q → Q → Prop} (hK : Correct K R P)
    (rt cs : List (Component I Q)) (h : SameLayout R rt cs) :
    ∀ rp op : List (Component I Q), Sorted (rp ++ rt) → rp.map Component.id = op.map Component.id →
    ∃ d, addRun K (rp ++ rt) op cs = Res.ok (op ++ d) ∧ times d = times cs ∧
      Tracks P (fun id i key => (quantityAt cs id i key).toList) rt d := by
  unfold SameLayout at h
  induction h with
  | nil => intro rp op _ _; exact ⟨[], by simp [addRun], rfl, List.Forall₂.nil⟩
  | @cons r c rt cs hrc hrest ih =>
    intro rp op hs hp
    obtain ⟨hid, hdata⟩ := hrc
    obtain ⟨data, hd, htd, htr⟩ := firstData_spec hK _ _ hdata (hs.2 r (by simp))
    obtain ⟨ds, hds, hti, hrel⟩ := ih (rp ++ [r]) (op ++ [⟨c.id, data⟩]) (by simpa using hs) (by simp [hp, hid])
    have hs1 := List.pairwise_append.mp hs.1
    have hlr : ∀ x ∈ rp, x.id < r.id := fun x hx => hs1.2.2 x hx r (by simp)
    have hlt := (List.pairwise_cons.mp hs1.2.1).1
    have hlo : ∀ x ∈ op, x.id < c.id := by
      intro x hx
      have : x.id ∈ rp.map Component.id := by rw [hp]; exact List.mem_map_of_mem hx
      obtain ⟨y, hy, hxy⟩ := List.mem_map.mp this
      rw [← hxy, ← hid]
      exact hlr y hy
    have e1 := lowerBound_append (fun o : Component I Q => decide (o.id < c.id)) op []
      (by simpa using hlo) (by simp)
    have e2 := lowerBound_append (fun o : Component I Q => decide (o.id < c.id)) rp (r :: rt)
      (by simpa [← hid] using hlr) (by
        intro x hx
        rcases List.mem_cons.mp hx with rfl | hx
        · simp [hid]
        · simpa [← hid] using (hlt x hx).le)
    rw [List.append_nil] at e1
    refine ⟨⟨c.id, data⟩ :: ds, ?_, by simpa [times, htd] using hti, ?_⟩
    · simp only [List.append_assoc, List.cons_append, List.nil_append] at hds
      simp [addRun, addComponent, e1, e2, hd, hds]
    · refine List.Forall₂.cons ⟨hid, ?_⟩ ?_
      · convert htr using 1
        funext i key
        rw [hid]
        simp [quantityAt, stepAt]
      · refine forall₂_imp_mem hrel ?_
        rintro x hx e ⟨h1, h2⟩
        refine ⟨h1, ?_⟩
        have hne : c.id ≠ x.id := by rw [← hid]; exact (hlt x hx).ne
        convert h2 using 1
        funext i key
        simp [quantityAt, hne]

theorem addRun_again {K : Kind Q} {R : Q → Q → Prop} {P : Q → List Q → Q → Prop} (hK : Correct K R P)
    (hist : I → ℕ → String → List Q) (rt cs : List (Component I Q)) (h : SameLayout R rt cs) :
    ∀ rp ot op rq oq : List (Component I Q), Sorted (rp ++ (rt ++ rq)) →
    rp.map Component.id = op.map Component.id → rq.map Component.id = oq.map Component.id → Tracks P hist rt ot →
    ∃ d, addRun K (rp ++ (rt ++ rq)) (op ++ (ot ++ oq)) cs = Res.ok (op ++ (d ++ oq)) ∧ times d = times ot ∧
      Tracks P (fun id i key => hist id i key ++ (quantityAt cs id i key).toList) rt d := by
  unfold SameLayout at h
  induction h with
  | nil =>
    intro rp ot op rq oq _ _ _ ht
    cases ht
    exact ⟨[], by simp [addRun], rfl, List.Forall₂.nil⟩
  | @cons r c rt cs hrc hrest ih =>
    intro rp ot op rq oq hs hp hq ht
    cases ht with
    | @cons _ o _ ot ho ht =>
    obtain ⟨hio, hto⟩ := ho
    obtain ⟨hid, hdata⟩ := hrc
    obtain ⟨data, hd, htd, htr⟩ := againData_spec hK _ _ hdata _ _ hto (hs.2 r (by simp))
    obtain ⟨ds, hds, hti, hrel⟩ := ih (rp ++ [r]) ot (op ++ [⟨o.id, data⟩]) rq oq (by simpa using hs)
      (by simp [hp, hio]) hq ht
    have hs1 := List.pairwise_append.mp hs.1
    have hlr : ∀ x ∈ rp, x.id < r.id := fun x hx => hs1.2.2 x hx r (by simp)
    have hlt := (List.pairwise_cons.mp hs1.2.1).1
    have hlo : ∀ x ∈ op, x.id < c.id := by
      intro x hx
      have : x.id ∈ rp.map Component.id := by rw [hp]; exact List.mem_map_of_mem hx
      obtain ⟨y, hy, hxy⟩ := List.mem_map.mp this
      rw [← hxy, ← hid]
      exact hlr y hy
    have hot : ∀ x ∈ ot ++ oq, r.id < x.id := by
      intro x hx
      rcases List.mem_append.mp hx with hx | hx
      · obtain ⟨y, hy, hxy⟩ := forall₂_mem_right ht x hx
        rw [← hxy.1]
        exact hlt y (List.mem_append_left _ hy)
      · have : x.id ∈ rq.map Component.id := by rw [hq]; exact List.mem_map_of_mem hx
        obtain ⟨y, hy, hxy⟩ := List.mem_map.mp this
        rw [← hxy]
        exact hlt y (List.mem_append_right _ hy)
    have e1 := lowerBound_append (fun o : Component I Q => decide (o.id < c.id)) op (o :: (ot ++ oq))
      (by simpa using hlo) (by
        intro x hx
        rcases List.mem_cons.mp hx with rfl | hx
        · simp [← hid, ← hio]
        · simpa [← hid] using (hot x hx).le)
    have e2 := lowerBound_append (fun o : Component I Q => decide (o.id < c.id)) rp (r :: (rt ++ rq))
      (by simpa [← hid] using hlr) (by
        intro x hx
        rcases List.mem_cons.mp hx with rfl | hx
        · simp [hid]
        · simpa [← hid] using (hlt x hx).le)
    refine ⟨⟨o.id, data⟩ :: ds, ?_, by simpa [times, htd] using hti, ?_⟩
    · simp only [List.append_assoc, List.cons_append, List.nil_append] at hds
      have h1 : o.id = c.id := hio.symm.trans hid
      rw [h1] at hds
      simp [addRun, addComponent, e1, e2, hd, hds, hid, h1]
    · refine List.Forall₂.cons ⟨hio, ?_⟩ ?_
      · convert htr using 1
        funext i key
        simp [quantityAt, stepAt, hid]
      · refine forall₂_imp_mem hrel ?_
        rintro x hx e ⟨h1, h2⟩
        refine ⟨h1, ?_⟩
        have hne : c.id ≠ x.id := by rw [← hid]; exact (hlt x (List.mem_append_left _ hx)).ne
        convert h2 using 1
        funext i key
        simp [quantityAt, hne]

/-- All quantities with that place in the runs. -/
def history (runs : List (List (Component I Q))) (id : I) (i : ℕ) (key : String) : List Q :=
  runs.flatMap fun run => (quantityAt run id i key).toList

theorem addRuns_again {K : Kind Q} {R : Q → Q → Prop} {P : Q → List Q → Q → Prop} (hK : Correct K R P)
    (ref : List (Component I Q)) (hs : Sorted ref) (runs : List (List (Component I Q)))
    (h : ∀ run ∈ runs, SameLayout R ref run) :
    ∀ (hist : I → ℕ → String → List Q) (out : List (Component I Q)), Tracks P hist ref out →
    ∃ d, addRuns K ref out runs = Res.ok d ∧ times d = times out ∧
      Tracks P (fun id i key => hist id i key ++ history runs id i key) ref d := by
  induction runs with
  | nil => intro hist out ht; exact ⟨out, rfl, rfl, by simpa [history] using ht⟩
  | cons run runs ih =>
    intro hist out ht
    obtain ⟨out', ho, h1, ht'⟩ := addRun_again hK hist ref run (h run (by simp)) [] out [] [] []
      (by simpa using hs) rfl rfl ht
    obtain ⟨d, hd, h2, htd⟩ := ih (fun r hr => h r (List.mem_cons_of_mem _ hr)) _ out' ht'
    simp only [List.nil_append, List.append_nil] at ho
    refine ⟨d, by simp [addRuns, ho, hd], h2.trans h1, ?_⟩
    convert htd using 1
    funext id i key
    simp [history]

theorem program_spec {K : Kind Q} {R : Q → Q → Prop} {P : Q → List Q → Q → Prop} (hK : Correct K R P)
    (ref : List (Component I Q)) (hs : Sorted ref) (runs : List (List (Component I Q))) (hne : runs ≠ [])
    (h : ∀ run ∈ runs, SameLayout R ref run) :
    ∃ d, program K ref runs = Res.ok d ∧ times d = times (runs.head hne) ∧ Tracks P (history runs) ref d := by
  obtain ⟨run, runs, rfl⟩ := List.exists_cons_of_ne_nil hne
  obtain ⟨out, ho, h1, ht⟩ := addRun_first hK ref run (h run (by simp)) [] [] (by simpa using hs) rfl
  obtain ⟨d, hd, h2, htd⟩ := addRuns_again hK ref hs runs (fun r hr => h r (List.mem_cons_of_mem _ hr)) _ out ht
  simp only [List.nil_append] at ho
  refine ⟨d, by simp [program, addRuns, ho, hd], h2.trans h1, ?_⟩
  convert htd using 1
  funext id i key
  simp [history]

theorem values_at {P : Q → Q → Prop} {S : String → Q → Q → Prop} {a b : List (String × Q)}
    (h : List.Forall₂ (fun p q => p.1 = q.1 ∧ S p.1 p.2 q.2) a b) {key : String} {r : Q}
    (hr : a.lookup key = some r) (hS : ∀ d, S key r d → P r d) : ∃ d, b.lookup key = some d ∧ P r d := by
  induction h with
  | nil => simp at hr
  | @cons p q _ _ hpq _ ih =>
    obtain ⟨k, v⟩ := p
    obtain ⟨k', w⟩ := q
    obtain ⟨hk, hs⟩ := hpq
    simp only at hk hs
    subst hk
    rw [List.lookup_cons] at hr ⊢
    by_cases hb : key = k
    · subst hb
      simp only [beq_self_eq_true, Option.some.injEq] at hr ⊢
      subst hr
      exact ⟨w, rfl, hS w hs⟩
    · have hb' : (key == k) = false := by simpa using hb
      rw [hb'] at hr ⊢
      exact ih hr

theorem data_at {P : Q → List Q → Q → Prop} (refs : List (Step Q)) :
    ∀ (hist : ℕ → String → List Q) (ds : List (Step Q)), TracksData P hist refs ds →
    ∀ (i : ℕ) (s : Step Q), refs[i]? = some s → ∃ t, ds[i]? = some t ∧
      List.Forall₂ (fun p e => p.1 = e.1 ∧ P p.2 (hist i p.1) e.2) s.values t.values := by
  induction refs with
  | nil => intro hist ds _ i s hs; simp at hs
  | cons r rs ih =>
    intro hist ds h i s hs
    cases ds with
    | nil => exact h.elim
    | cons d ds =>
      cases i with
      | zero =>
        simp only [List.getElem?_cons_zero, Option.some.injEq] at hs ⊢
        subst hs
        exact ⟨d, rfl, h.1⟩
      | succ i =>
        simp only [List.getElem?_cons_succ] at hs ⊢
        exact ih _ ds h.2 i s hs

theorem tracks_at {P : Q → List Q → Q → Prop} {hist : I → ℕ → String → List Q} {ref out : List (Component I Q)}
    (h : Tracks P hist ref out) {id : I} {i : ℕ} {key : String} {r : Q} (hr : quantityAt ref id i key = some r) :
    ∃ d, quantityAt out id i key = some d ∧ P r (hist id i key) d := by
  unfold Tracks at h
  induction h with
  | nil => simp [quantityAt] at hr
  | @cons c o _ _ hco _ ih =>
    obtain ⟨hid, hdata⟩ := hco
    by_cases hc : c.id = id
    · subst hc
      simp only [quantityAt, decide_true, List.find?_cons_of_pos, Option.bind_eq_bind, Option.bind_some] at hr
      obtain ⟨s, hs, hl⟩ := Option.bind_eq_some_iff.mp hr
      obtain ⟨t, ht, hrel⟩ := data_at _ _ _ hdata i s hs
      obtain ⟨d, hd, hP⟩ := values_at (P := fun r d => P r (hist c.id i key) d)
        (S := fun k r d => P r (hist c.id i k) d) hrel hl (fun _ h => h)
      refine ⟨d, ?_, hP⟩
      simp [quantityAt, hid, ht, hd]
    · have ho : ¬ o.id = id := hid ▸ hc
      have hr' := ih (by simpa [quantityAt, hc] using hr)
      simpa [quantityAt, ho] using hr'

theorem tracksData_layout {P : Q → List Q → Q → Prop} {R : Q → Q → Prop} (hP : ∀ r qs d, P r qs d → R r d)
    (refs : List (Step Q)) : ∀ (hist : ℕ → String → List Q) (ds : List (Step Q)), TracksData P hist refs ds →
    List.Forall₂ (fun s t => List.Forall₂ (fun p q => p.1 = q.1 ∧ R p.2 q.2) s.values t.values) refs ds := by
  induction refs with
  | nil => intro hist ds h; cases ds with
    | nil => exact List.Forall₂.nil
    | cons _ _ => exact h.elim
  | cons r rs ih =>
    intro hist ds h
    cases ds with
    | nil => exact h.elim
    | cons d ds => exact List.Forall₂.cons (h.1.imp fun p q hpq => ⟨hpq.1, hP _ _ _ hpq.2⟩) (ih _ ds h.2)

omit [LinearOrder I] in
theorem tracks_layout {P : Q → List Q → Q → Prop} {R : Q → Q → Prop} (hP : ∀ r qs d, P r qs d → R r d)
    {hist : I → ℕ → String → List Q} {ref out : List (Component I Q)} (h : Tracks P hist ref out) :
    SameLayout R ref out :=
  List.Forall₂.imp (fun _ _ hcd => ⟨hcd.1, tracksData_layout hP _ _ _ hcd.2⟩) h

theorem mem_history {runs : List (List (Component I Q))} {id : I} {i : ℕ} {key : String} {q : Q} :
    q ∈ history runs id i key ↔ ∃ run ∈ runs, quantityAt run id i key = some q := by
  simp [history]

theorem greatest_append {A : Set ℚ} {s e : ℚ} (h : IsGreatest A s) :
    IsGreatest {x | x ∈ A ∨ x = e} (if e > s then e else s) := by
  constructor
  · split
    · exact Or.inr rfl
    · exact Or.inl h.1
  · rintro x (hx | rfl)
    · have := h.2 hx
      split <;> linarith
    · split <;> linarith

theorem correct_power : Correct power (fun _ _ => True)
    (fun r qs d => IsGreatest {e | ∃ q ∈ qs, e = |q - r|} d) where
  present := fun _ _ _ => rfl
  first := fun r q _ => ⟨_, rfl, by simp⟩
  again := by
    intro r qs s q h _
    refine ⟨_, rfl, ?_⟩
    convert greatest_append (e := |q - r|) h using 1
    ext e
    simp only [List.mem_append, List.mem_singleton, Set.mem_ofPred_eq]
    constructor
    · rintro ⟨p, hp | rfl, rfl⟩
      · exact Or.inl ⟨p, hp, rfl⟩
      · exact Or.inr rfl
    · rintro (⟨p, hp, rfl⟩ | rfl)
      · exact ⟨p, Or.inl hp, rfl⟩
      · exact ⟨q, Or.inr rfl, rfl⟩

theorem firstPoints_spec (r : List Point) : ∀ q : List Point, r.map Prod.fst = q.map Prod.fst →
    ∃ d, firstPoints r q = Res.ok d ∧ r.map Prod.fst = d.map Prod.fst ∧
      ∀ (j : ℕ) (x rv v : ℚ), r[j]? = some (x, rv) → q[j]? = some (x, v) → d[j]? = some (x, |v - rv|) := by
  induction r with
  | nil =>
    intro q hq
    cases q with
    | nil => exact ⟨[], rfl, rfl, by simp⟩
    | cons _ _ => simp at hq
  | cons p r ih =>
    intro q hq
    cases q with
    | nil => simp at hq
    | cons p' q =>
      simp only [List.map_cons, List.cons.injEq] at hq
      obtain ⟨d, hd, hk, hv⟩ := ih q hq.2
      refine ⟨(p'.1, |p'.2 - p.2|) :: d, by simp [firstPoints, hd], by simp [hq.1, hk], ?_⟩
      intro j x rv v h1 h2
      cases j with
      | zero =>
        simp only [List.getElem?_cons_zero, Option.some.injEq] at h1 h2 ⊢
        subst h1 h2
        rfl
      | succ j => exact hv j x rv v (by simpa using h1) (by simpa using h2)

theorem againPoints_spec (rt : List Point) : ∀ (rp sp st qs : List Point),
    rp.map Prod.fst = sp.map Prod.fst → rt.map Prod.fst = st.map Prod.fst → rt.map Prod.fst = qs.map Prod.fst →
    ((rp ++ rt).map Prod.fst).Pairwise (· < ·) →
    ∃ d, againPoints (rp ++ rt) (sp ++ st) qs = Res.ok (sp ++ d) ∧ rt.map Prod.fst = d.map Prod.fst ∧
      ∀ (j : ℕ) (x rv v sv : ℚ), rt[j]? = some (x, rv) → qs[j]? = some (x, v) → st[j]? = some (x, sv) →
        d[j]? = some (x, if |v - rv| > sv then |v - rv| else sv) := by
  induction rt with
  | nil =>
    intro rp sp st qs _ h2 h3 _
    have e2 : st = [] := by simpa using h2.symm
    have e3 : qs = [] := by simpa using h3.symm
    subst e2 e3
    exact ⟨[], by simp [againPoints], rfl, by simp⟩
  | cons r rt ih =>
    intro rp sp st qs h1 h2 h3 hs
    cases st with
    | nil => simp at h2
    | cons s st =>
    cases qs with
    | nil => simp at h3
    | cons q qs =>
    simp only [List.map_cons, List.cons.injEq] at h2 h3
    obtain ⟨x, rv⟩ := r
    obtain ⟨x', sv⟩ := s
    obtain ⟨x'', v⟩ := q
    obtain ⟨e2, h2⟩ := h2
    obtain ⟨e3, h3⟩ := h3
    simp only at e2 e3
    subst e2 e3
    have hp := hs
    rw [List.map_append, List.pairwise_append, List.map_cons, List.pairwise_cons] at hp
    have hbelow : ∀ y ∈ rp.map Prod.fst, y < x := fun y hy => hp.2.2 y hy x (by simp)
    have habove : ∀ y ∈ rt.map Prod.fst, x < y := hp.2.1.1
    have b1 := lowerBound_append (fun p : Point => decide (p.1 < x)) sp ((x, sv) :: st)
      (fun p hpm => by
        simpa using hbelow p.1 (h1 ▸ List.mem_map_of_mem hpm))
      (fun p hpm => by
        rcases List.mem_cons.mp hpm with rfl | hpm
        · simp
        · simpa using (habove p.1 (h2 ▸ List.mem_map_of_mem hpm)).le)
    have b2 := lowerBound_append (fun p : Point => decide (p.1 < x)) rp ((x, rv) :: rt)
      (fun p hpm => by simpa using hbelow p.1 (List.mem_map_of_mem hpm))
      (fun p hpm => by
        rcases List.mem_cons.mp hpm with rfl | hpm
        · simp
        · simpa using (habove p.1 (List.mem_map_of_mem hpm)).le)
    have hone : againPoint (rp ++ (x, rv) :: rt) (sp ++ (x, sv) :: st) (x, v) =
        Res.ok (sp ++ (x, if |v - rv| > sv then |v - rv| else sv) :: st) := by
      simp only [againPoint, b1, b2, Res.ok_bind, Res.get]
      simp
      split <;> simp
    obtain ⟨d, hd, hk, hv⟩ := ih (rp ++ [(x, rv)]) (sp ++ [(x, if |v - rv| > sv then |v - rv| else sv)]) st qs
      (by simp [h1]) h2 h3 (by simpa using hs)
    refine ⟨(x, if |v - rv| > sv then |v - rv| else sv) :: d, ?_, by simp [hk], ?_⟩
    · rw [againPoints, hone]
      simpa using hd
    · intro j y rw w sw g1 g2 g3
      cases j with
      | zero =>
        simp only [List.getElem?_cons_zero, Option.some.injEq, Prod.mk.injEq] at g1 g2 g3 ⊢
        obtain ⟨rfl, rfl⟩ := g1
        obtain ⟨-, rfl⟩ := g2
        obtain ⟨-, rfl⟩ := g3
        exact ⟨rfl, rfl⟩
      | succ j => exact hv j y rw w sw (by simpa using g1) (by simpa using g2) (by simpa using g3)

theorem point_of_keys {r q : List Point} (h : r.map Prod.fst = q.map Prod.fst) {j : ℕ} {x rv : ℚ}
    (hr : r[j]? = some (x, rv)) : ∃ v, q[j]? = some (x, v) := by
  have : (q.map Prod.fst)[j]? = some x := by rw [← h]; simp [hr]
  rw [List.getElem?_map, Option.map_eq_some_iff] at this
  obtain ⟨⟨y, v⟩, hq, rfl⟩ := this
  exact ⟨v, hq⟩

theorem correct_gas : Correct gas SamePoints
    (fun r qs d => SamePoints r d ∧ ∀ (j : ℕ) (x rv : ℚ), r[j]? = some (x, rv) →
      ∃ e, d[j]? = some (x, e) ∧ IsGreatest {e | ∃ q ∈ qs, ∃ v, q[j]? = some (x, v) ∧ e = |v - rv|} e) where
  present := by
    intro r q h
    have : q ≠ [] := by
      rintro rfl
      exact h.1 (by simpa using h.2.1)
    simpa [gas] using this
  first := by
    intro r q h
    obtain ⟨d, hd, hk, hv⟩ := firstPoints_spec r q h.2.1
    refine ⟨d, hd, ⟨h.1, hk, h.2.2⟩, ?_⟩
    intro j x rv hr
    obtain ⟨v, hq⟩ := point_of_keys h.2.1 hr
    refine ⟨_, hv j x rv v hr hq, ⟨q, by simp, v, hq, rfl⟩, ?_⟩
    rintro e ⟨q', hq', w, hw, rfl⟩
    rw [List.mem_singleton] at hq'
    subst hq'
    rw [hq] at hw
    simp only [Option.some.injEq, Prod.mk.injEq, true_and] at hw
    rw [hw]
  again := by
    intro r qs s q ⟨hs, hP⟩ h
    obtain ⟨d, hd, hk, hv⟩ := againPoints_spec r [] [] s q rfl hs.2.1 h.2.1 (by simpa using h.2.2)
    simp only [List.nil_append] at hd
    refine ⟨d, hd, ⟨h.1, hk, h.2.2⟩, ?_⟩
    intro j x rv hr
    obtain ⟨v, hq⟩ := point_of_keys h.2.1 hr
    obtain ⟨e, he, hg⟩ := hP j x rv hr
    refine ⟨_, hv j x rv v e hr hq he, ?_⟩
    convert greatest_append (e := |v - rv|) hg using 1
    ext y
    simp only [List.mem_append, List.mem_singleton, Set.mem_ofPred_eq]
    constructor
    · rintro ⟨p, hp | rfl, w, hw, rfl⟩
      · exact Or.inl ⟨p, hp, w, hw, rfl⟩
      · rw [hq] at hw
        simp only [Option.some.injEq, Prod.mk.injEq, true_and] at hw
        exact Or.inr (by rw [hw])
    · rintro (⟨p, hp, w, hw, rfl⟩ | rfl)
      · exact ⟨p, Or.inl hp, w, hw, rfl⟩
      · exact ⟨q, Or.inr rfl, v, hq, rfl⟩

/-! ## C145 -/

/-- **C145**, power components: if every run holds the same components, time steps and quantities as the reference, the
program ends well; its result holds exactly these components, time steps and quantities too, with the times of the
first run, and each quantity is the largest discrepance from the reference over all runs. -/
theorem C145_power (ref : List (Component I ℚ)) (hs : Sorted ref) (runs : List (List (Component I ℚ)))
    (hne : runs ≠ []) (h : ∀ run ∈ runs, SameLayout (fun _ _ => True) ref run) :
    ∃ out, program power ref runs = Res.ok out ∧ SameLayout (fun _ _ => True) ref out ∧
      times out = times (runs.head hne) ∧
      ∀ id i key r, quantityAt ref id i key = some r →
        ∃ d, quantityAt out id i key = some d ∧
          IsGreatest {e | ∃ run ∈ runs, ∃ v, quantityAt run id i key = some v ∧ e = |v - r|} d := by
  obtain ⟨out, ho, hti, ht⟩ := program_spec correct_power ref hs runs hne h
  refine ⟨out, ho, tracks_layout (fun _ _ _ _ => trivial) ht, hti, ?_⟩
  intro id i key r hr
  obtain ⟨d, hd, hg⟩ := tracks_at ht hr
  refine ⟨d, hd, ?_⟩
  convert hg using 1
  ext e
  simp only [mem_history, Set.mem_ofPred_eq]
  constructor
  · rintro ⟨run, hrun, v, hv, rfl⟩
    exact ⟨v, ⟨run, hrun, hv⟩, rfl⟩
  · rintro ⟨v, ⟨run, hrun, hv⟩, rfl⟩
    exact ⟨run, hrun, v, hv, rfl⟩

/-- **C145**, gas components, whose quantities are given for several points: the same at every point. -/
theorem C145_gas (ref : List (Component I (List Point))) (hs : Sorted ref)
    (runs : List (List (Component I (List Point)))) (hne : runs ≠ [])
    (h : ∀ run ∈ runs, SameLayout SamePoints ref run) :
    ∃ out, program gas ref runs = Res.ok out ∧ SameLayout SamePoints ref out ∧
      times out = times (runs.head hne) ∧
      ∀ id i key r, quantityAt ref id i key = some r →
        ∃ d, quantityAt out id i key = some d ∧
          ∀ (j : ℕ) (x rv : ℚ), r[j]? = some (x, rv) → ∃ e, d[j]? = some (x, e) ∧
            IsGreatest {e | ∃ run ∈ runs, ∃ q v, quantityAt run id i key = some q ∧ q[j]? = some (x, v) ∧
              e = |v - rv|} e := by
  obtain ⟨out, ho, hti, ht⟩ := program_spec correct_gas ref hs runs hne h
  refine ⟨out, ho, tracks_layout (fun _ _ _ h => h.1) ht, hti, ?_⟩
  intro id i key r hr
  obtain ⟨d, hd, -, hg⟩ := tracks_at ht hr
  refine ⟨d, hd, ?_⟩
  intro j x rv hj
  obtain ⟨e, he, hge⟩ := hg j x rv hj
  refine ⟨e, he, ?_⟩
  convert hge using 1
  ext e
  simp only [mem_history, Set.mem_ofPred_eq]
  constructor
  · rintro ⟨run, hrun, q, v, hq, hv, rfl⟩
    exact ⟨q, ⟨run, hrun, hq⟩, v, hv, rfl⟩
  · rintro ⟨q, ⟨run, hrun, hq⟩, v, hv, rfl⟩
    exact ⟨run, hrun, q, v, hq, hv, rfl⟩

/-- A reference with two nodes, and two runs. -/
def exampleRef : List (Component ℕ ℚ) :=
  [⟨1, [⟨0, [("P", 1), ("Q", 2)]⟩, ⟨1, [("P", 3), ("Q", 4)]⟩]⟩, ⟨4, [⟨0, [("V", 7)]⟩]⟩]

/-- The first run. -/
def exampleRun1 : List (Component ℕ ℚ) :=
  [⟨1, [⟨0, [("P", 2), ("Q", 2)]⟩, ⟨1, [("P", -3), ("Q", 5)]⟩]⟩, ⟨4, [⟨0, [("V", 6)]⟩]⟩]

/-- The second run. -/
def exampleRun2 : List (Component ℕ ℚ) :=
  [⟨1, [⟨0, [("P", -2), ("Q", 3)]⟩, ⟨1, [("P", 4), ("Q", 4)]⟩]⟩, ⟨4, [⟨0, [("V", 10)]⟩]⟩]

/-- The hypotheses of `C145_power` are met. -/
example : Sorted exampleRef ∧ ∀ run ∈ [exampleRun1, exampleRun2], SameLayout (fun _ _ => True) exampleRef run := by
  constructor
  · constructor
    · simp [exampleRef]
    · simp [exampleRef]
  · simp [exampleRef, exampleRun1, exampleRun2, SameLayout]

/-- The result. -/
example : program power exampleRef [exampleRun1, exampleRun2] = Res.ok
    [⟨1, [⟨0, [("P", 3), ("Q", 1)]⟩, ⟨1, [("P", 6), ("Q", 1)]⟩]⟩, ⟨4, [⟨0, [("V", 3)]⟩]⟩] := by
  simp [program, addRuns, addRun, addComponent, lowerBound, exampleRef, exampleRun1, exampleRun2, firstData,
    firstValues, againData, againValues, power, setValue, List.lookup_cons]
  norm_num [abs_of_neg, abs_of_pos]

/-- The hypotheses of `C145_gas` are met, with two points. -/
example : Sorted ([⟨1, [⟨0, [("flow", [(0, 5), (10, 6)])]⟩]⟩] : List (Component ℕ (List Point))) ∧
    ∀ run ∈ ([[⟨1, [⟨0, [("flow", [(0, 4), (10, 8)])]⟩]⟩], [⟨1, [⟨0, [("flow", [(0, 7), (10, 5)])]⟩]⟩]] :
      List (List (Component ℕ (List Point)))),
      SameLayout SamePoints [⟨1, [⟨0, [("flow", [(0, 5), (10, 6)])]⟩]⟩] run := by
  constructor
  · constructor <;> simp
  · simp [SameLayout, SamePoints]

/-- The result. -/
example : program gas [⟨1, [⟨0, [("flow", [(0, 5), (10, 6)])]⟩]⟩]
    [[⟨1, [⟨0, [("flow", [(0, 4), (10, 8)])]⟩]⟩], [⟨1, [⟨0, [("flow", [(0, 7), (10, 5)])]⟩]⟩]] =
    Res.ok ([⟨1, [⟨0, [("flow", [(0, 2), (10, 2)])]⟩]⟩] : List (Component ℕ (List Point))) := by
  simp [program, addRuns, addRun, addComponent, lowerBound, firstData, firstValues, againData, againValues, gas,
    setValue, firstPoints, againPoints, againPoint, Res.get]
  norm_num [abs_of_neg, abs_of_pos]

/-! ## C146: components the reference doesn't have -/

/-- **C146** in full: if some run holds a component that the reference doesn't have, the program doesn't give a
result. -/
def C146Statement (I : Type) [LinearOrder I] : Prop :=
  ∀ (ref : List (Component I ℚ)) (runs : List (List (Component I ℚ))), Sorted ref → (∀ run ∈ runs, Sorted run) →
    (∃ run ∈ runs, ∃ c ∈ run, ∀ r ∈ ref, r.id ≠ c.id) → ∀ out, program power ref runs ≠ Res.ok out

/-- **C146 is false**: in the first run, a component missing in the reference is compared with the next component of the
reference. Whatever the ids are, as long as there are two of them. -/
theorem C146_false (a b : I) (hab : a < b) : ¬ C146Statement I := by
  intro h
  refine h [⟨b, [⟨0, [("P", 5)]⟩]⟩] [[⟨a, [⟨0, [("P", 7)]⟩]⟩]] ⟨by simp, by simp⟩
    (by intro run hrun; rw [List.mem_singleton] at hrun; subst hrun; exact ⟨by simp, by simp⟩)
    ⟨_, List.mem_singleton.mpr rfl, _, List.mem_singleton.mpr rfl, by simpa using hab.ne'⟩
    [⟨a, [⟨0, [("P", 2)]⟩]⟩] ?_
  simp [program, addRuns, addRun, addComponent, lowerBound, firstData, firstValues, power, hab.not_gt]
  norm_num

omit [LinearOrder I] in
theorem tracks_ids {P : Q → List Q → Q → Prop} {hist : I → ℕ → String → List Q} {ref out : List (Component I Q)}
    (h : Tracks P hist ref out) : ref.map Component.id = out.map Component.id := by
  unfold Tracks at h
  induction h with
  | nil => rfl
  | cons h _ ih => simp [h.1, ih]

theorem lowerBound_sorted (file : List (Component I Q)) (id : I)
    (hs : (file.map Component.id).Pairwise (· < ·)) :
    ∃ a b, file = a ++ b ∧ (∀ x ∈ a, x.id < id) ∧ (∀ x ∈ b, ¬ x.id < id) ∧
      lowerBound (fun o : Component I Q => decide (o.id < id)) file = Res.ok a.length := by
  suffices hsplit : ∃ a b, file = a ++ b ∧ (∀ x ∈ a, x.id < id) ∧ (∀ x ∈ b, ¬ x.id < id) by
    obtain ⟨a, b, rfl, ha, hb⟩ := hsplit
    exact ⟨a, b, rfl, ha, hb, lowerBound_append _ a b (by simpa using ha) (by simpa using hb)⟩
  induction file with
  | nil => exact ⟨[], [], rfl, by simp, by simp⟩
  | cons c file ih =>
    rw [List.map_cons, List.pairwise_cons] at hs
    by_cases hc : c.id < id
    · obtain ⟨a, b, rfl, ha, hb⟩ := ih hs.2
      exact ⟨c :: a, b, rfl, by simpa [hc] using ha, hb⟩
    · refine ⟨[], c :: file, rfl, by simp, ?_⟩
      intro x hx
      rcases List.mem_cons.mp hx with rfl | hx
      · exact hc
      · exact fun hlt => hc ((hs.1 x.id (List.mem_map_of_mem hx)).trans hlt)

theorem addComponent_unknown (K : Kind Q) (ref out : List (Component I Q)) (c : Component I Q) (hs : Sorted ref)
    (hids : ref.map Component.id = out.map Component.id) (hc : ∀ r ∈ ref, r.id ≠ c.id) :
    addComponent K ref out c = Res.throws := by
  have hp : (ref.map Component.id).Pairwise (· < ·) := List.pairwise_map.mpr hs.1
  obtain ⟨a, b, hab, ha, hb, hl⟩ := lowerBound_sorted out c.id (hids ▸ hp)
  obtain ⟨a', b', hab', ha', hb', hl'⟩ := lowerBound_sorted ref c.id hp
  unfold addComponent
  rw [hl, hl']
  simp only [Res.ok_bind]
  cases hr : ref[a'.length]? with
  | none => rfl
  | some r =>
    simp only
    have hout : out[a.length]? ≠ none := by
      rw [hab]
      simp only [ne_eq, List.getElem?_eq_none_iff, List.length_append, not_le]
      have hne : b ≠ [] := by
        rintro rfl
        have hmem : r ∈ b' := by
          rw [hab', List.getElem?_append_right le_rfl] at hr
          exact List.mem_of_getElem? hr
        have : r.id ∈ out.map Component.id := by
          rw [← hids, hab']
          exact List.mem_map_of_mem (List.mem_append_right _ hmem)
        obtain ⟨o, ho, hor⟩ := List.mem_map.mp this
        rw [hab, List.append_nil] at ho
        exact hb' r hmem (hor ▸ ha o ho)
      have := List.length_pos_iff.mpr hne
      omega
    obtain ⟨o, ho⟩ := Option.ne_none_iff_exists'.mp hout
    rw [ho]
    simp only
    rw [if_pos]
    intro he
    have : o.id ∈ ref.map Component.id := by
      rw [hids]
      exact List.mem_map_of_mem (List.mem_of_getElem? ho)
    obtain ⟨x, hx, hxo⟩ := List.mem_map.mp this
    exact hc x hx (hxo.trans he)

theorem addRun_append (K : Kind Q) (ref : List (Component I Q)) (a b : List (Component I Q)) :
    ∀ out, addRun K ref out (a ++ b) = (addRun K ref out a >>= fun o => addRun K ref o b) := by
  induction a with
  | nil => intro out; rfl
  | cons c a ih =>
    intro out
    rw [List.cons_append, addRun, addRun, Res.bind_assoc]
    congr 1
    funext o
    exact ih o

theorem addRuns_append (K : Kind Q) (ref : List (Component I Q)) (a b : List (List (Component I Q))) :
    ∀ out, addRuns K ref out (a ++ b) = (addRuns K ref out a >>= fun o => addRuns K ref o b) := by
  induction a with
  | nil => intro out; rfl
  | cons c a ih =>
    intro out
    rw [List.cons_append, addRuns, addRuns, Res.bind_assoc]
    congr 1
    funext o
    exact ih o

theorem unknown_throws {K : Kind Q} {R : Q → Q → Prop} {P : Q → List Q → Q → Prop} (hK : Correct K R P)
    (known unseen : List (Component I Q)) (hs : Sorted (known ++ unseen))
    (runs more : List (List (Component I Q))) (hne : runs ≠ [])
    (h : ∀ run ∈ runs, SameLayout R (known ++ unseen) run) (before after : List (Component I Q))
    (hb : SameLayout R known before) (c : Component I Q) (hc : ∀ r ∈ known ++ unseen, r.id ≠ c.id) :
    program K (known ++ unseen) (runs ++ (before ++ c :: after) :: more) = Res.throws := by
  obtain ⟨out, ho, -, ht⟩ := program_spec hK _ hs runs hne h
  have hsplit : ∃ ok ou, out = ok ++ ou ∧ Tracks P (history runs) known ok ∧ Tracks P (history runs) unseen ou := by
    unfold Tracks at ht
    exact ⟨_, _, (List.take_append_drop known.length out).symm, by
      simpa [Tracks] using List.forall₂_take known.length ht, by simpa [Tracks] using List.forall₂_drop known.length ht⟩
  obtain ⟨ok, ou, rfl, hk, hu⟩ := hsplit
  obtain ⟨d, hd, -, htd⟩ := addRun_again hK (history runs) known before hb [] ok [] unseen ou hs rfl
    (tracks_ids hu) hk
  simp only [List.nil_append] at hd
  have hun := addComponent_unknown K (known ++ unseen) (d ++ ou) c hs
    (by rw [List.map_append, List.map_append, tracks_ids htd, tracks_ids hu]) hc
  unfold program at ho ⊢
  rw [addRuns_append, ho]
  simp [addRuns, addRun_append, hd, addRun, hun]

/-- **C146 (partial)**: after the first run, a component that the reference doesn't have ends the program with an
exception, wherever in the run it is. (Missing is the first run: `C146_false`.) -/
theorem C146_partial (known unseen : List (Component I ℚ)) (hs : Sorted (known ++ unseen))
    (runs more : List (List (Component I ℚ))) (hne : runs ≠ [])
    (h : ∀ run ∈ runs, SameLayout (fun _ _ => True) (known ++ unseen) run) (before after : List (Component I ℚ))
    (hb : SameLayout (fun _ _ => True) known before) (c : Component I ℚ) (hc : ∀ r ∈ known ++ unseen, r.id ≠ c.id) :
    program power (known ++ unseen) (runs ++ (before ++ c :: after) :: more) = Res.throws :=
  unknown_throws correct_power known unseen hs runs more hne h before after hb c hc

/-- **C146 (partial)**, gas components. -/
theorem C146_gas_partial (known unseen : List (Component I (List Point))) (hs : Sorted (known ++ unseen))
    (runs more : List (List (Component I (List Point)))) (hne : runs ≠ [])
    (h : ∀ run ∈ runs, SameLayout SamePoints (known ++ unseen) run) (before after : List (Component I (List Point)))
    (hb : SameLayout SamePoints known before) (c : Component I (List Point))
    (hc : ∀ r ∈ known ++ unseen, r.id ≠ c.id) :
    program gas (known ++ unseen) (runs ++ (before ++ c :: after) :: more) = Res.throws :=
  unknown_throws correct_gas known unseen hs runs more hne h before after hb c hc

/-- The hypotheses of `C146_partial` are met: the second run holds the component 2 between 1 and 4. -/
example : program power exampleRef [exampleRun1, exampleRun2.take 1 ++ ⟨2, []⟩ :: exampleRun2.drop 1] =
    Res.throws :=
  C146_partial (exampleRef.take 1) (exampleRef.drop 1) (by constructor <;> simp [exampleRef]) [exampleRun1] []
    (by simp) (by simp [exampleRef, exampleRun1, SameLayout]) (exampleRun2.take 1) (exampleRun2.drop 1)
    (by simp [exampleRef, exampleRun2, SameLayout]) ⟨2, []⟩ (by simp [exampleRef])

/-! ## Points are only compared with points at the same place -/

theorem againPoint_inv {r s s' : List Point} {q : Point} (h : againPoint r s q = Res.ok s') :
    q.1 ∈ r.map Prod.fst ∧ q.1 ∈ s.map Prod.fst ∧ s'.map Prod.fst = s.map Prod.fst := by
  obtain ⟨i, -, h⟩ := Res.bind_eq_ok.mp h
  obtain ⟨j, -, h⟩ := Res.bind_eq_ok.mp h
  obtain ⟨saved, hsaved, h⟩ := Res.bind_eq_ok.mp h
  have hsaved := Res.get_eq_ok.mp hsaved
  by_cases h1 : saved.1 = q.1
  · rw [if_neg (by simpa using h1)] at h
    obtain ⟨reference, href, h⟩ := Res.bind_eq_ok.mp h
    by_cases h2 : reference.1 = q.1
    · refine ⟨List.mem_map.mpr ⟨_, List.mem_of_getElem? (Res.get_eq_ok.mp href), h2⟩,
        List.mem_map.mpr ⟨_, List.mem_of_getElem? hsaved, h1⟩, ?_⟩
      rw [if_neg (by simpa using h2)] at h
      split at h <;> simp only [Res.ok.injEq] at h <;> rw [← h]
      rw [List.map_set]
      have : (s.map Prod.fst)[i]? = some saved.1 := by simp [hsaved]
      obtain ⟨hi, he⟩ := List.getElem?_eq_some_iff.mp this
      rw [← he, List.set_getElem_self]
    · rw [if_pos (by simpa using h2)] at h
      simp at h
  · rw [if_pos (by simpa using h1)] at h
    simp at h

/-- **C145**, points: if points of another run are added to saved points without an exception, the reference and the saved
points have points at all their places, and the places of the saved points stay as they are. So a value is never compared with
a value at another place. -/
theorem C145_points (r : List Point) : ∀ (qs s s' : List Point), againPoints r s qs = Res.ok s' →
    (∀ q ∈ qs, q.1 ∈ r.map Prod.fst ∧ q.1 ∈ s.map Prod.fst) ∧ s'.map Prod.fst = s.map Prod.fst
  | [], s, s', h => by
    simp only [againPoints, Res.ok.injEq] at h
    simp [h]
  | q :: qs, s, s', h => by
    obtain ⟨t, ht, h⟩ := Res.bind_eq_ok.mp h
    obtain ⟨h1, h2, h3⟩ := againPoint_inv ht
    obtain ⟨h4, h5⟩ := C145_points r qs t s' h
    refine ⟨fun p hp => ?_, h5.trans h3⟩
    rcases List.mem_cons.mp hp with rfl | hp
    · exact ⟨h1, h2⟩
    · exact ⟨(h4 p hp).1, h3 ▸ (h4 p hp).2⟩

/-- Points that are added, and points that are not. -/
example : againPoints [(0, 5), (1, 7)] [(0, 1), (1, 1)] [(0, 8), (1, 7)] = Res.ok [(0, 3), (1, 1)] ∧
    againPoints [(0, 5), (1, 7)] [(0, 1), (1, 1)] [(1 / 2, 8)] = Res.throws := by
  decide +kernel

/-- **C145**: quantities without points play no role. -/
theorem C145_empty (ref : List (String × List Point)) : ∀ values : List (String × List Point),
    (firstValues gas ref values = firstValues gas ref (values.filter fun v => v.2 ≠ [])) ∧
    ∀ saved, againValues gas ref saved values = againValues gas ref saved (values.filter fun v => v.2 ≠ [])
  | [] => ⟨rfl, fun _ => rfl⟩
  | (k, []) :: values => by
    obtain ⟨h1, h2⟩ := C145_empty ref values
    rw [List.filter_cons_of_neg (by simp)]
    refine ⟨?_, fun saved => ?_⟩
    · rw [← h1]; simp [firstValues, gas]
    · rw [← h2]; simp [againValues, gas]
  | (k, x :: q) :: values => by
    obtain ⟨h1, h2⟩ := C145_empty ref values
    rw [List.filter_cons_of_pos (by simp)]
    refine ⟨?_, fun saved => ?_⟩
    · simp only [firstValues, h1]
    · simp only [againValues]
      split
      · split
        · rfl
        · split
          · rfl
          · congr 1
            funext d
            exact h2 _
      · exact h2 _

example : againValues gas [("p", [(0, 5)]), ("q", [(0, 1)])] [("q", [(0, 1)])] [("p", []), ("q", [(0, 4)])] =
    Res.ok [("q", [(0, 3)])] := by decide +kernel

/-- **C146**, one component: either it is known, in the reference too, and no component is added, or all known components are in
front of it, and it is added behind them. So a component that the reference lacks is not accepted a second time. -/
theorem C146_component (K : Kind Q) {ref out out' : List (Component I Q)} {c : Component I Q}
    (h : addComponent K ref out c = Res.ok out') :
    (c.id ∈ ref.map Component.id ∧ c.id ∈ out.map Component.id ∧ out'.map Component.id = out.map Component.id) ∨
    ((∀ o ∈ out, o.id < c.id) ∧ out'.map Component.id = out.map Component.id ++ [c.id]) := by
  obtain ⟨i, hi, h⟩ := Res.bind_eq_ok.mp h
  obtain ⟨j, -, h⟩ := Res.bind_eq_ok.mp h
  cases hr : ref[j]? with
  | none => simp [hr] at h
  | some r =>
    cases ho : out[i]? with
    | none =>
      right
      simp only [hr, ho] at h
      obtain ⟨data, -, h⟩ := Res.bind_eq_ok.mp h
      simp only [Res.ok.injEq] at h
      refine ⟨?_, by simp [← h]⟩
      unfold lowerBound at hi
      split at hi
      · simp only [Res.ok.injEq] at hi
        have hlen : out.length ≤ (out.takeWhile fun o => decide (o.id < c.id)).length := by
          rw [hi]; exact List.getElem?_eq_none_iff.mp ho
        have he := (List.takeWhile_prefix (l := out) fun o => decide (o.id < c.id)).eq_of_length_le hlen
        intro o hoo
        rw [← he] at hoo
        simpa using List.mem_takeWhile_imp hoo
      · simp at hi
    | some o =>
      left
      simp only [hr, ho] at h
      by_cases h1 : o.id = c.id
      · rw [if_neg (by simpa using h1)] at h
        by_cases h2 : r.id = c.id
        · rw [if_neg (by simpa using h2)] at h
          obtain ⟨data, -, h⟩ := Res.bind_eq_ok.mp h
          simp only [Res.ok.injEq] at h
          refine ⟨List.mem_map.mpr ⟨r, List.mem_of_getElem? hr, h2⟩, List.mem_map.mpr ⟨o, List.mem_of_getElem? ho, h1⟩, ?_⟩
          rw [← h, List.map_set]
          obtain ⟨hlt, he⟩ := List.getElem?_eq_some_iff.mp ho
          have : (out.map Component.id)[i]'(by simpa using hlt) = o.id := by simp [he]
          rw [← this, List.set_getElem_self]
        · rw [if_pos (by simpa using h2)] at h
          simp at h
      · rw [if_pos (by simpa using h1)] at h
        simp at h

/-- A component that is accepted once and not again: the reference has no component 2. -/
example : addComponent power [⟨1, []⟩, ⟨3, []⟩] [] ⟨2, []⟩ = Res.ok [(⟨2, []⟩ : Component ℕ ℚ)] ∧
    addComponent power [⟨1, []⟩, ⟨3, []⟩] [(⟨2, []⟩ : Component ℕ ℚ)] ⟨2, []⟩ = Res.throws := by
  constructor <;> simp [addComponent, lowerBound, firstData]

end Verif.Helpers.Discrepance
