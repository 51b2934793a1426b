import Verif.Handler.Model
import Mathlib.Algebra.BigOperators.Group.List.Basic
import Mathlib.Algebra.Order.Ring.Rat
import Mathlib.Tactic.NormNum
import Mathlib.Tactic.Tauto

/-! # Property C27: matrix assembly -/

set_option autoImplicit false
set_option linter.unusedSectionVars false

namespace Verif.Handler

variable {K : Type} [AddCommMonoid K]

/-! ## Specification -/

/-- The sum of all contributions to one position. -/
def total (cs : List (Contribution K)) (row col : ℤ) : K :=
  ((cs.filter fun c => c.1 = row ∧ c.2.1 = col).map fun c => c.2.2).sum

/-- All contributions lie inside the (transposed, if wished) matrix. -/
def AllInside (transposed : Bool) (m : Sparse K) (cs : List (Contribution K)) : Prop :=
  ∀ c ∈ cs, (0 ≤ c.1 ∧ c.1 < if transposed then m.cols else m.rows) ∧
    (0 ≤ c.2.1 ∧ c.2.1 < if transposed then m.rows else m.cols)

/-! ## Proofs -/

/-- Value of a list of stored entries at a position. -/
def look (s : List ((ℤ × ℤ) × K)) (p : ℤ × ℤ) : K := (s.lookup p).getD 0

theorem look_addStored (p q : ℤ × ℤ) (v : K) (s : List ((ℤ × ℤ) × K)) :
    look (addStored p v s) q = if q = p then look s q + v else look s q := by
  induction s with
  | nil =>
    by_cases h : q = p
    · subst h; simp [addStored, look]
    · have : (q == p) = false := by simpa using h
      simp [addStored, look, List.lookup, h, this]
  | cons e s ih =>
    obtain ⟨r, w⟩ := e
    unfold addStored
    by_cases hr : r = p
    · subst hr
      by_cases h : q = r
      · subst h; simp [look]
      · have : (q == r) = false := by simpa using h
        simp [look, List.lookup, h, this]
    · rw [if_neg hr]
      by_cases h : q = r
      · subst h; simp [look, hr]
      · have : (q == r) = false := by simpa using h
        simp only [look, List.lookup, this] at ih ⊢
        exact ih

theorem addStored_keys (p : ℤ × ℤ) (v : K) (s : List ((ℤ × ℤ) × K)) :
    (addStored p v s).map Prod.fst =
      if p ∈ s.map Prod.fst then s.map Prod.fst else s.map Prod.fst ++ [p] := by
  induction s with
  | nil => simp [addStored]
  | cons e s ih =>
    obtain ⟨r, w⟩ := e
    unfold addStored
    by_cases hr : r = p
    · subst hr; simp
    · rw [if_neg hr]
      simp only [List.map_cons, ih, List.mem_cons]
      have : p ≠ r := fun h => hr h.symm
      by_cases hm : p ∈ List.map Prod.fst s
      · simp [hm]
      · simp [hm, this]

/-- The position a contribution is written to. -/
def place (transposed : Bool) (c : Contribution K) : ℤ × ℤ :=
  if transposed then (c.2.1, c.1) else (c.1, c.2.1)

/-- Writing a list of contributions into stored entries. -/
def pour (transposed : Bool) (s : List ((ℤ × ℤ) × K)) (cs : List (Contribution K)) :
    List ((ℤ × ℤ) × K) :=
  cs.foldl (fun s c => addStored (place transposed c) c.2.2 s) s

theorem total_cons (c : Contribution K) (cs : List (Contribution K)) (r k : ℤ) :
    total (c :: cs) r k = if c.1 = r ∧ c.2.1 = k then c.2.2 + total cs r k else total cs r k := by
  unfold total
  by_cases h : c.1 = r ∧ c.2.1 = k
  · rw [List.filter_cons_of_pos (by simpa using h)]; simp [h]
  · rw [List.filter_cons_of_neg (by simpa using h), if_neg h]

theorem look_pour (transposed : Bool) (cs : List (Contribution K)) (r k : ℤ) :
    ∀ s, look (pour transposed s cs) (if transposed then (k, r) else (r, k)) =
      look s (if transposed then (k, r) else (r, k)) + total cs r k := by
  induction cs with
  | nil => intro s; simp [pour, total]
  | cons c cs ih =>
    intro s
    have := ih (addStored (place transposed c) c.2.2 s)
    simp only [pour, List.foldl_cons] at this ⊢
    rw [this, look_addStored, total_cons]
    have hiff : ((if transposed then (k, r) else (r, k)) = place transposed c) ↔
        (c.1 = r ∧ c.2.1 = k) := by
      unfold place
      cases transposed <;> simp [Prod.ext_iff, eq_comm, and_comm]
    by_cases h : c.1 = r ∧ c.2.1 = k
    · rw [if_pos (hiff.mpr h), if_pos h, add_assoc]
    · rw [if_neg (fun e => h (hiff.mp e)), if_neg h]

theorem pour_keys_subset (transposed : Bool) (cs : List (Contribution K)) :
    ∀ s, (∀ c ∈ cs, place transposed c ∈ s.map Prod.fst) →
      (pour transposed s cs).map Prod.fst = s.map Prod.fst := by
  induction cs with
  | nil => intro s _; rfl
  | cons c cs ih =>
    intro s h
    have hk : (addStored (place transposed c) c.2.2 s).map Prod.fst = s.map Prod.fst := by
      rw [addStored_keys, if_pos (h c (by simp))]
    have := ih (addStored (place transposed c) c.2.2 s)
      (fun d hd => by rw [hk]; exact h d (by simp [hd]))
    simp only [pour, List.foldl_cons] at this ⊢
    rw [this, hk]

theorem mem_pour_keys (transposed : Bool) (cs : List (Contribution K)) (p : ℤ × ℤ) :
    ∀ s, p ∈ (pour transposed s cs).map Prod.fst ↔
      p ∈ s.map Prod.fst ∨ ∃ c ∈ cs, place transposed c = p := by
  induction cs with
  | nil => intro s; simp [pour]
  | cons c cs ih =>
    intro s
    have := ih (addStored (place transposed c) c.2.2 s)
    simp only [pour, List.foldl_cons] at this ⊢
    rw [this, addStored_keys]
    by_cases hm : place transposed c ∈ s.map Prod.fst
    · rw [if_pos hm]
      constructor
      · rintro (h | ⟨d, hd, rfl⟩)
        · exact Or.inl h
        · exact Or.inr ⟨d, by simp [hd], rfl⟩
      · rintro (h | ⟨d, hd, rfl⟩)
        · exact Or.inl h
        · rcases List.mem_cons.mp hd with rfl | hd
          · exact Or.inl hm
          · exact Or.inr ⟨d, hd, rfl⟩
    · rw [if_neg hm]
      constructor
      · rintro (h | ⟨d, hd, rfl⟩)
        · rcases List.mem_append.mp h with h | h
          · exact Or.inl h
          · exact Or.inr ⟨c, by simp, (by simpa using h : p = _).symm⟩
        · exact Or.inr ⟨d, by simp [hd], rfl⟩
      · rintro (h | ⟨d, hd, rfl⟩)
        · exact Or.inl (List.mem_append_left _ h)
        · rcases List.mem_cons.mp hd with rfl | hd
          · exact Or.inl (by simp)
          · exact Or.inr ⟨d, hd, rfl⟩

theorem inside_iff (h : Handler K) (c : Contribution K) :
    (0 ≤ (place h.transposed c).1 ∧ (place h.transposed c).1 < h.matrix.rows ∧
      0 ≤ (place h.transposed c).2 ∧ (place h.transposed c).2 < h.matrix.cols) ↔
    ((0 ≤ c.1 ∧ c.1 < if h.transposed then h.matrix.cols else h.matrix.rows) ∧
      (0 ≤ c.2.1 ∧ c.2.1 < if h.transposed then h.matrix.rows else h.matrix.cols)) := by
  unfold place
  cases h.transposed <;> simp <;> tauto

theorem addAll_spec (cs : List (Contribution K)) : ∀ h : Handler K,
    (AllInside h.transposed h.matrix cs →
      addAll h cs = Res.ok (match h.kind with
        | .triplet => { h with triplets := h.triplets ++ cs.map fun c => (place h.transposed c, c.2.2) }
        | .coeffref => { h with matrix :=
            { h.matrix with stored := pour h.transposed h.matrix.stored cs } })) ∧
    (¬ AllInside h.transposed h.matrix cs → addAll h cs = Res.ub) := by
  induction cs with
  | nil =>
    intro h
    refine ⟨fun _ => ?_, fun hn => absurd (fun c hc => by simp at hc) hn⟩
    obtain ⟨k, t, m, ts⟩ := h
    cases k <;> simp [addAll, pour]
  | cons c cs ih =>
    intro h
    obtain ⟨r, k, v⟩ := c
    have hp := inside_iff h (r, k, v)
    have hadd : add h r k v = if 0 ≤ (place h.transposed (r, k, v)).1 ∧
        (place h.transposed (r, k, v)).1 < h.matrix.rows ∧
        0 ≤ (place h.transposed (r, k, v)).2 ∧ (place h.transposed (r, k, v)).2 < h.matrix.cols then
        (match h.kind with
        | .triplet => Res.ok { h with triplets := h.triplets ++ [(place h.transposed (r, k, v), v)] }
        | .coeffref => Res.ok { h with matrix := { h.matrix with
            stored := addStored (place h.transposed (r, k, v)) v h.matrix.stored } })
        else Res.ub := rfl
    unfold addAll
    rw [hadd]
    constructor
    · intro hin
      rw [if_pos (hp.mpr (hin (r, k, v) (by simp)))]
      have hin' : AllInside h.transposed h.matrix cs := fun d hd => hin d (by simp [hd])
      obtain ⟨kd, t, m, ts⟩ := h
      cases kd with
      | triplet =>
        simp only [Res.ok_bind]
        rw [(ih ⟨.triplet, t, m, ts ++ [(place t (r, k, v), v)]⟩).1 hin']
        simp
      | coeffref =>
        simp only [Res.ok_bind]
        rw [(ih ⟨.coeffref, t, ⟨m.rows, m.cols, addStored (place t (r, k, v)) v m.stored⟩, ts⟩).1 hin']
        simp [pour]
    · intro hnin
      by_cases hc : 0 ≤ (place h.transposed (r, k, v)).1 ∧
        (place h.transposed (r, k, v)).1 < h.matrix.rows ∧
        0 ≤ (place h.transposed (r, k, v)).2 ∧ (place h.transposed (r, k, v)).2 < h.matrix.cols
      · rw [if_pos hc]
        have hnin' : ¬ AllInside h.transposed h.matrix cs := by
          intro hall
          refine hnin (fun d hd => ?_)
          rcases List.mem_cons.mp hd with rfl | hd
          · exact hp.mp hc
          · exact hall d hd
        obtain ⟨kd, t, m, ts⟩ := h
        cases kd with
        | triplet => simp only [Res.ok_bind]; exact (ih ⟨.triplet, t, m, ts ++ [(place t (r, k, v), v)]⟩).2 hnin'
        | coeffref =>
          simp only [Res.ok_bind]
          exact (ih ⟨.coeffref, t, ⟨m.rows, m.cols, addStored (place t (r, k, v)) v m.stored⟩, ts⟩).2 hnin'
      · rw [if_neg hc]; rfl

theorem look_zeroed (s : List ((ℤ × ℤ) × K)) (p : ℤ × ℤ) :
    look (s.map fun e => (e.1, (0 : K))) p = 0 := by
  induction s with
  | nil => rfl
  | cons e s ih =>
    obtain ⟨q, v⟩ := e
    by_cases h : p = q
    · subst h; simp [look]
    · have : (p == q) = false := by simpa using h
      simp only [look, List.map_cons, List.lookup, this] at ih ⊢
      exact ih

/-- The matrix `fill` gives, in terms of `pour`. -/
theorem fill_eq (kind : Kind) (transposed : Bool) (m : Sparse K) (cs : List (Contribution K))
    (hin : AllInside transposed m cs) :
    fill kind transposed m cs = Res.ok ⟨m.rows, m.cols, pour transposed (match kind with
      | .triplet => []
      | .coeffref => m.stored.map fun e => (e.1, 0)) cs⟩ := by
  unfold fill
  cases kind with
  | triplet =>
    rw [(addAll_spec cs _).1 (by exact hin)]
    simp [construct, setMatrix, setFromTriplets, pour, List.foldl_map]
  | coeffref =>
    rw [(addAll_spec cs _).1 (by exact hin)]
    simp [construct, setMatrix]

/-- C27. With either handler, and whatever the matrix held before: if all contributions lie inside, each
entry of the filled matrix is the sum of the contributions to it, the transposed variants give the
transposed matrix, and the size is kept. -/
theorem C27_entries (kind : Kind) (transposed : Bool) (m : Sparse K) (cs : List (Contribution K))
    (hin : AllInside transposed m cs) :
    ∃ m', fill kind transposed m cs = Res.ok m' ∧ m'.rows = m.rows ∧ m'.cols = m.cols ∧
      ∀ r c, (if transposed then m'.coeff c r else m'.coeff r c) = total cs r c := by
  refine ⟨_, fill_eq kind transposed m cs hin, rfl, rfl, ?_⟩
  intro r c
  have hgo : ∀ s : List ((ℤ × ℤ) × K), (∀ p, look s p = 0) →
      (if transposed then (Sparse.coeff ⟨m.rows, m.cols, pour transposed s cs⟩ c r)
        else Sparse.coeff ⟨m.rows, m.cols, pour transposed s cs⟩ r c) = total cs r c := by
    intro s hs
    have := look_pour transposed cs r c s
    rw [hs, zero_add] at this
    rw [← this]
    cases transposed <;> rfl
  cases kind with
  | triplet => exact hgo [] (fun _ => rfl)
  | coeffref => exact hgo _ (look_zeroed m.stored)

/-- C27. The two handlers give equal matrices, and so does any other order of the contributions. -/
theorem C27_handlers_agree (k1 k2 : Kind) (transposed : Bool) (m1 m2 : Sparse K)
    (cs1 cs2 : List (Contribution K)) (hperm : cs1.Perm cs2) (hr : m1.rows = m2.rows)
    (hc : m1.cols = m2.cols) (hin : AllInside transposed m1 cs1) :
    ∃ a b, fill k1 transposed m1 cs1 = Res.ok a ∧ fill k2 transposed m2 cs2 = Res.ok b ∧
      ∀ r c, a.coeff r c = b.coeff r c := by
  have hin2 : AllInside transposed m2 cs2 := by
    intro c hcc
    rw [← hr, ← hc]
    exact hin c (hperm.mem_iff.mpr hcc)
  obtain ⟨a, ha, -, -, hA⟩ := C27_entries k1 transposed m1 cs1 hin
  obtain ⟨b, hb, -, -, hB⟩ := C27_entries k2 transposed m2 cs2 hin2
  refine ⟨a, b, ha, hb, ?_⟩
  have htot : ∀ r c, total cs1 r c = total cs2 r c := by
    intro r c
    unfold total
    exact ((hperm.filter _).map _).sum_eq
  intro r c
  cases transposed with
  | false => have h1 := hA r c; have h2 := hB r c; simp at h1 h2; rw [h1, h2, htot]
  | true => have h1 := hA c r; have h2 := hB c r; simp at h1 h2; rw [h1, h2, htot]

/-- C27. A contribution outside the matrix is never silently dropped or written elsewhere: it is an
error (an `assert`; undefined behaviour where asserts are off). -/
theorem C27_outside (kind : Kind) (transposed : Bool) (m : Sparse K) (cs : List (Contribution K))
    (hout : ¬ AllInside transposed m cs) : fill kind transposed m cs = Res.ub := by
  unfold fill
  cases kind <;> rw [(addAll_spec cs _).2 (by exact hout)] <;> rfl

/-- C27. Filling through references keeps the pattern of stored entries — on which the factorization relies —
if the contributions go to the positions an earlier filling through triplets went to, whatever the
values are. The pattern of the latter consists exactly of the positions contributed to. -/
theorem C27_pattern_kept (transposed : Bool) (m m1 m2 : Sparse K) (cs1 cs2 : List (Contribution K))
    (hin : AllInside transposed m cs1)
    (hpos : ∀ c ∈ cs2, ∃ d ∈ cs1, d.1 = c.1 ∧ d.2.1 = c.2.1)
    (h1 : fill .triplet transposed m cs1 = Res.ok m1)
    (h2 : fill .coeffref transposed m1 cs2 = Res.ok m2) :
    m2.stored.map Prod.fst = m1.stored.map Prod.fst ∧
    ∀ p, p ∈ m1.stored.map Prod.fst ↔
      ∃ c ∈ cs1, (if transposed then (c.2.1, c.1) else (c.1, c.2.1)) = p := by
  rw [fill_eq _ _ _ _ hin] at h1
  injection h1 with h1
  have hkeys : ∀ p, p ∈ m1.stored.map Prod.fst ↔ ∃ c ∈ cs1, place transposed c = p := by
    intro p
    rw [← h1]
    have := mem_pour_keys transposed cs1 p ([] : List ((ℤ × ℤ) × K))
    simpa using this
  refine ⟨?_, hkeys⟩
  have hin2 : AllInside transposed m1 cs2 := by
    intro c hc
    obtain ⟨d, hd, e1, e2⟩ := hpos c hc
    have := hin d hd
    rw [e1, e2] at this
    rw [← h1]; exact this
  rw [fill_eq _ _ _ _ hin2] at h2
  injection h2 with h2
  rw [← h2]
  have hz : (m1.stored.map fun e => (e.1, (0 : K))).map Prod.fst = m1.stored.map Prod.fst := by
    simp [Function.comp_def]
  have := pour_keys_subset transposed cs2 (m1.stored.map fun e => (e.1, (0 : K))) (by
    intro c hc
    obtain ⟨d, hd, e1, e2⟩ := hpos c hc
    rw [hz, hkeys]
    exact ⟨d, hd, by unfold place; rw [e1, e2]⟩)
  rw [this, hz]

/-- C27. A handler collecting triplets can be used again after `set_matrix`: the second filling gives the
sums of the second contributions alone, nothing of the first ones is left; and calling `set_matrix` with
no contributions since the last call gives the zero matrix. (A handler writing through references goes on
adding: it clears the matrix only when it is constructed.) -/
theorem C27_reuse (transposed : Bool) (m : Sparse K) (cs1 cs2 : List (Contribution K))
    (h1 : AllInside transposed m cs1) (h2 : AllInside transposed m cs2) :
    (∃ h h', addAll (construct .triplet transposed m) cs1 = Res.ok h ∧
      addAll (setMatrix h) cs2 = Res.ok h' ∧
      ∀ r c, (if transposed then (setMatrix h').matrix.coeff c r else (setMatrix h').matrix.coeff r c) =
        total cs2 r c) ∧
    ∃ h h', addAll (construct .coeffref transposed m) cs1 = Res.ok h ∧
      addAll (setMatrix h) cs2 = Res.ok h' ∧
      ∀ r c, (if transposed then (setMatrix h').matrix.coeff c r else (setMatrix h').matrix.coeff r c) =
        total cs1 r c + total cs2 r c := by
  constructor
  · refine ⟨_, _, (addAll_spec cs1 _).1 (by exact h1), (addAll_spec cs2 _).1 (by exact h2), ?_⟩
    intro r c
    have := look_pour transposed cs2 r c ([] : List ((ℤ × ℤ) × K))
    rw [show look ([] : List ((ℤ × ℤ) × K)) _ = 0 from rfl, zero_add] at this
    rw [← this]
    cases transposed <;>
      simp [construct, setMatrix, setFromTriplets, pour, List.foldl_map, Sparse.coeff, look]
  · refine ⟨_, _, (addAll_spec cs1 _).1 (by exact h1), (addAll_spec cs2 _).1 (by exact h2), ?_⟩
    intro r c
    have e1 := look_pour transposed cs1 r c (m.stored.map fun e => (e.1, (0 : K)))
    have e2 := look_pour transposed cs2 r c
      (pour transposed (m.stored.map fun e => (e.1, (0 : K))) cs1)
    rw [look_zeroed, zero_add] at e1
    rw [e1] at e2
    rw [← e2]
    cases transposed <;> rfl

/-- Two contributions to the same entry, transposed. -/
example : fill .triplet true ⟨2, 3, []⟩ [(2, 1, 5), (0, 0, 1), (2, 1, (-3 : ℚ))] =
    Res.ok ⟨2, 3, [((1, 2), 2), ((0, 0), 1)]⟩ := by
  simp [fill, addAll, add, construct, setMatrix, setFromTriplets, addStored]; norm_num

example : AllInside true (⟨2, 3, []⟩ : Sparse ℚ) [(2, 1, 5), (0, 0, 1), (2, 1, -3)] := by
  simp [AllInside]

end Verif.Handler
