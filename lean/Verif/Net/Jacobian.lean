import Verif.Net.Vector
import Verif.Basic.Derives
import Mathlib.Analysis.Calculus.FDeriv.Add
import Mathlib.Analysis.Calculus.FDeriv.Mul
import Mathlib.Analysis.Calculus.Deriv.Basic
import Mathlib.Algebra.BigOperators.Group.List.Basic

/-!
# Specification: what it means that the supplied derivative entries are right

The derivative functions of the components hand entries (row, column, value) to a matrix handler, see
`Verif.Handler`.
-/

set_option autoImplicit false

namespace Verif.Net

open Filter Topology Verif.Handler

/-- Row `r` of the matrix given by the entries, applied to a vector: the sum of value times vector entry
over all entries in this row. -/
def applyRow {M : Type} [AddCommMonoid M] [SMul ℝ M] (cs : List (Contribution ℝ)) (r : ℤ) (v : ℤ → M) : M :=
  ((cs.filter fun c => c.1 = r).map fun c => c.2.2 • v c.2.1).sum

/-- The entries handed to the handlers by `d_evaluate_d_last_state`, `d_evaluate_d_new_state` and
`d_evaluate_d_control`. -/
structure Entries where
  last : List (Contribution ℝ)
  new : List (Contribution ℝ)
  control : List (Contribution ℝ)

/-- The arguments depend differentiably on a parameter `z`, with the given derivatives at `y`. -/
structure Smooth {E : Type} [NormedAddCommGroup E] [NormedSpace ℝ E] (a : E → Args)
    (last' new' control' : ℤ → E →L[ℝ] ℝ) (y : E) : Prop where
  last : ∀ j, HasFDerivAt (fun z => (a z).last j) (last' j) y
  new : ∀ j, HasFDerivAt (fun z => (a z).new j) (new' j) y
  control : ∀ j, HasFDerivAt (fun z => (a z).control j) (control' j) y

/-- The entries are the derivative of the residual `f` at the arguments `a₀`: if the arguments depend
differentiably on a parameter (for example a direction, or all entries of the three vectors), then
near `a₀` the residual is computed without exceptions, and each row of it has the derivative that the chain
rule gives from the entries. -/
def IsJacobian (f : Args → Res (List Op)) (cs : Entries) (a₀ : Args) : Prop :=
  ∀ (E : Type) [NormedAddCommGroup E] [NormedSpace ℝ E] (a : E → Args)
    (last' new' control' : ℤ → E →L[ℝ] ℝ) (y : E), a y = a₀ → Smooth a last' new' control' y →
    ∀ (v : Vec) (r : ℤ),
      Derives (fun z => do let ops ← f (a z); Res.ok (run v ops r))
        (applyRow cs.last r last' + applyRow cs.new r new' + applyRow cs.control r control') y

/-! ## Lemmas -/

section
variable {M : Type} [AddCommMonoid M] [SMul ℝ M]

@[simp] theorem applyRow_nil (r : ℤ) (v : ℤ → M) : applyRow [] r v = 0 := rfl

theorem applyRow_cons (c : Contribution ℝ) (cs : List (Contribution ℝ)) (r : ℤ) (v : ℤ → M) :
    applyRow (c :: cs) r v = (if c.1 = r then c.2.2 • v c.2.1 else 0) + applyRow cs r v := by
  unfold applyRow
  by_cases h : c.1 = r
  · rw [List.filter_cons_of_pos (by simpa using h)]; simp [h]
  · rw [List.filter_cons_of_neg (by simpa using h)]; simp [h]

theorem applyRow_append (cs ds : List (Contribution ℝ)) (r : ℤ) (v : ℤ → M) :
    applyRow (cs ++ ds) r v = applyRow cs r v + applyRow ds r v := by
  unfold applyRow; simp

theorem applyRow_eq_zero {cs : List (Contribution ℝ)} {r : ℤ} (h : ∀ c ∈ cs, c.1 ≠ r) (v : ℤ → M) :
    applyRow cs r v = 0 := by
  unfold applyRow
  rw [List.filter_eq_nil_iff.mpr (by simpa using h)]; rfl
end

theorem run_append (v : Vec) (xs ys : List Op) : run v (xs ++ ys) = run (run v xs) ys := by
  unfold run; simp

@[simp] theorem run_nil (v : Vec) : run v [] = v := rfl

theorem run_cons (v : Vec) (o : Op) (xs : List Op) : run v (o :: xs) = run (o.apply v) xs := rfl

theorem Op.apply_of_ne (v : Vec) (o : Op) {r : ℤ} (h : o.row ≠ r) : o.apply v r = v r := by
  cases o <;> exact Function.update_of_ne (fun e => h e.symm) _ _

theorem run_of_not_mem {ops : List Op} {r : ℤ} (h : ∀ o ∈ ops, o.row ≠ r) (v : Vec) :
    run v ops r = v r := by
  induction ops generalizing v with
  | nil => rfl
  | cons o ops ih =>
    rw [run_cons, ih (fun p hp => h p (List.mem_cons_of_mem _ hp)), Op.apply_of_ne _ _ (h o (by simp))]

theorem run_outside {ops : List Op} {R : Set ℤ} {r : ℤ} (h : ∀ o ∈ ops, o.row ∈ R) (hr : r ∉ R) (v : Vec) :
    run v ops r = v r :=
  run_of_not_mem (fun o ho (e : o.row = r) => hr (e ▸ h o ho)) v

/-- The value of row `r` after the writes depends only on its value before. -/
theorem run_congr {ops : List Op} {r : ℤ} {v w : Vec} (h : v r = w r) : run v ops r = run w ops r := by
  induction ops generalizing v w with
  | nil => exact h
  | cons o ops ih =>
    rw [run_cons, run_cons]
    refine ih ?_
    by_cases hr : o.row = r
    · cases o with
      | set r' x => simp only [Op.row] at hr; subst hr; simp [Op.apply]
      | inc r' x => simp only [Op.row] at hr; subst hr; simp [Op.apply, h]
    · rw [Op.apply_of_ne _ _ hr, Op.apply_of_ne _ _ hr, h]

theorem forEach_ok {α β : Type} {l : List α} {body : α → Res (List β)} {g : α → List β}
    (h : ∀ a ∈ l, body a = Res.ok (g a)) : forEach l body = Res.ok (l.flatMap g) := by
  induction l with
  | nil => rfl
  | cons a l ih =>
    unfold forEach
    rw [h a (by simp), ih fun b hb => h b (by simp [hb])]
    rfl

theorem forEach_eq_ok {α β : Type} {l : List α} {body : α → Res (List β)} {xs : List β}
    (h : forEach l body = Res.ok xs) :
    ∃ g : α → List β, (∀ a ∈ l, body a = Res.ok (g a)) ∧ xs = l.flatMap g := by
  have key : ∀ a ∈ l, ∃ x, body a = Res.ok x := by
    induction l generalizing xs with
    | nil => intro a ha; simp at ha
    | cons b l ih =>
      unfold forEach at h
      obtain ⟨x, hx, h⟩ := Res.bind_eq_ok.mp h
      obtain ⟨y, hy, h⟩ := Res.bind_eq_ok.mp h
      intro a ha
      rcases List.mem_cons.mp ha with rfl | ha
      · exact ⟨x, hx⟩
      · exact ih hy a ha
  classical
  refine ⟨fun a => if h : ∃ x, body a = Res.ok x then h.choose else [], ?_, ?_⟩
  · intro a ha
    simp only [dif_pos (key a ha)]
    exact (key a ha).choose_spec
  · have := forEach_ok (g := fun a => if h : ∃ x, body a = Res.ok x then h.choose else []) (l := l)
      (body := body) (by
        intro a ha
        simp only [dif_pos (key a ha)]
        exact (key a ha).choose_spec)
    rw [this] at h
    injection h with h
    exact h.symm

/-- A component whose writes stay in the rows `R` and whose entries are the derivative of what it writes. -/
structure Exact (f : Args → Res (List Op)) (cs : Entries) (R : Set ℤ) (a₀ : Args) : Prop where
  rows : ∀ a ops, f a = Res.ok ops → ∀ o ∈ ops, o.row ∈ R
  jacobian : IsJacobian f cs a₀

/-- Outside of its rows the entries of an exact component sum up to zero. -/
theorem Exact.outside {f : Args → Res (List Op)} {cs : Entries} {R : Set ℤ} {a₀ : Args}
    (h : Exact f cs R a₀) {E : Type} [NormedAddCommGroup E] [NormedSpace ℝ E] {a : E → Args}
    {last' new' control' : ℤ → E →L[ℝ] ℝ} {y : E} (hy : a y = a₀) (hs : Smooth a last' new' control' y)
    {r : ℤ} (hr : r ∉ R) :
    applyRow cs.last r last' + applyRow cs.new r new' + applyRow cs.control r control' = 0 := by
  obtain ⟨g, hg, hd⟩ := h.jacobian E a last' new' control' y hy hs (fun _ => 0) r
  have : g =ᶠ[𝓝 y] fun _ => 0 := by
    filter_upwards [hg] with z hz
    obtain ⟨ops, ho, hz⟩ := Res.bind_eq_ok.mp hz
    injection hz with hz
    rw [← hz, run_outside (h.rows _ _ ho) hr]
  exact hd.unique ((hasFDerivAt_const (0 : ℝ) y).congr_of_eventuallyEq this)

/-- No writes, no entries. -/
theorem exact_nil (a₀ : Args) : Exact (fun _ => Res.ok []) ⟨[], [], []⟩ ∅ a₀ where
  rows := by intro a ops h; injection h with h; subst h; simp
  jacobian := by
    intro E _ _ a l' n' c' y _ _ v r
    refine Derives.of_eq (g := fun _ => v r) (fun z => by simp) ?_
    simpa using hasFDerivAt_const (v r) y

/-- Two components with disjoint rows, one after the other. -/
theorem Exact.append {f g : Args → Res (List Op)} {cs ds : Entries} {R S : Set ℤ} {a₀ : Args}
    (hf : Exact f cs R a₀) (hg : Exact g ds S a₀) (hRS : Disjoint R S) :
    Exact (fun a => do let x ← f a; let y ← g a; Res.ok (x ++ y))
      ⟨cs.last ++ ds.last, cs.new ++ ds.new, cs.control ++ ds.control⟩ (R ∪ S) a₀ where
  rows := by
    intro a ops h o ho
    obtain ⟨x, hx, h⟩ := Res.bind_eq_ok.mp h
    obtain ⟨y, hy, h⟩ := Res.bind_eq_ok.mp h
    injection h with h
    subst h
    rcases List.mem_append.mp ho with ho | ho
    · exact Or.inl (hf.rows _ _ hx o ho)
    · exact Or.inr (hg.rows _ _ hy o ho)
  jacobian := by
    intro E _ _ a l' n' c' y hy hs v r
    simp only [applyRow_append]
    obtain ⟨F, eF, dF⟩ := hf.jacobian E a l' n' c' y hy hs v r
    obtain ⟨G, eG, dG⟩ := hg.jacobian E a l' n' c' y hy hs v r
    have hsplit : ∀ᶠ z in 𝓝 y, ∃ xs ys, f (a z) = Res.ok xs ∧ g (a z) = Res.ok ys ∧
        run v xs r = F z ∧ run v ys r = G z := by
      filter_upwards [eF, eG] with z hF hG
      obtain ⟨xs, hx, hF⟩ := Res.bind_eq_ok.mp hF
      obtain ⟨ys, hy, hG⟩ := Res.bind_eq_ok.mp hG
      injection hF with hF
      injection hG with hG
      exact ⟨xs, ys, hx, hy, hF, hG⟩
    by_cases hr : r ∈ S
    · have hrR : r ∉ R := fun h => (Set.disjoint_left.mp hRS) h hr
      have h0 := hf.outside hy hs hrR
      refine ⟨G, ?_, dG.congr_fderiv ?_⟩
      · filter_upwards [hsplit] with z hz
        obtain ⟨xs, ys, hx, hy, -, hG⟩ := hz
        rw [hx, hy]
        simp only [Res.ok_bind]
        rw [run_append, ← hG]
        exact congrArg _ (run_congr (run_outside (hf.rows _ _ hx) hrR v))
      · calc _ = (applyRow cs.last r l' + applyRow cs.new r n' + applyRow cs.control r c') +
              (applyRow ds.last r l' + applyRow ds.new r n' + applyRow ds.control r c') := by
              rw [h0, zero_add]
          _ = _ := by abel
    · have h0 := hg.outside hy hs hr
      refine ⟨F, ?_, dF.congr_fderiv ?_⟩
      · filter_upwards [hsplit] with z hz
        obtain ⟨xs, ys, hx, hy, hF, -⟩ := hz
        rw [hx, hy]
        simp only [Res.ok_bind]
        rw [run_append, ← hF]
        exact congrArg _ (run_outside (hg.rows _ _ hy) hr _)
      · calc _ = (applyRow cs.last r l' + applyRow cs.new r n' + applyRow cs.control r c') +
              (applyRow ds.last r l' + applyRow ds.new r n' + applyRow ds.control r c') := by
              rw [h0, add_zero]
          _ = _ := by abel

/-- A loop over components with pairwise disjoint rows. -/
theorem Exact.forEach {α : Type} {l : List α} {f : α → Args → Res (List Op)} {cs : α → Entries}
    {R : α → Set ℤ} {a₀ : Args} (h : ∀ x ∈ l, Exact (f x) (cs x) (R x) a₀)
    (hd : l.Pairwise fun x y => Disjoint (R x) (R y)) :
    Exact (fun a => Net.forEach l fun x => f x a)
      ⟨l.flatMap fun x => (cs x).last, l.flatMap fun x => (cs x).new, l.flatMap fun x => (cs x).control⟩
      {r | ∃ x ∈ l, r ∈ R x} a₀ := by
  induction l with
  | nil =>
    have := exact_nil a₀
    refine ⟨fun a ops h o ho => ?_, this.jacobian⟩
    injection h with h; subst h; simp at ho
  | cons x l ih =>
    have hx := h x (by simp)
    have hl := ih (fun z hz => h z (by simp [hz])) (List.pairwise_cons.mp hd).2
    have hdis : Disjoint (R x) {r | ∃ z ∈ l, r ∈ R z} := by
      rw [Set.disjoint_left]
      rintro r hr ⟨z, hz, hrz⟩
      exact (Set.disjoint_left.mp ((List.pairwise_cons.mp hd).1 z hz)) hr hrz
    have := hx.append hl hdis
    refine ⟨?_, ?_⟩
    · intro a ops ho o hm
      have hmem := this.rows a ops ho o hm
      rcases hmem with h1 | ⟨z, hz, h2⟩
      · exact ⟨x, by simp, h1⟩
      · exact ⟨z, by simp [hz], h2⟩
    · simp only [List.flatMap_cons]
      exact this.jacobian

/-- The rows may be enlarged. -/
theorem Exact.mono {f : Args → Res (List Op)} {cs : Entries} {R S : Set ℤ} {a₀ : Args}
    (h : Exact f cs R a₀) (hRS : R ⊆ S) : Exact f cs S a₀ :=
  ⟨fun a ops ho o hm => hRS (h.rows a ops ho o hm), h.jacobian⟩

end Verif.Net
