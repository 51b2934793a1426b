import Verif.Net.Jacobian
import Mathlib.Analysis.Calculus.FDeriv.Prod

/-! # Components that set one or two rows -/

set_option autoImplicit false

namespace Verif.Net

open Filter Topology Verif.Handler

/-- The chain rule sum of the entries in row `r`. -/
noncomputable def Entries.row {E : Type} [NormedAddCommGroup E] [NormedSpace ℝ E] (cs : Entries) (r : ℤ)
    (last' new' control' : ℤ → E →L[ℝ] ℝ) : E →L[ℝ] ℝ :=
  applyRow cs.last r last' + applyRow cs.new r new' + applyRow cs.control r control'

/-- All entries of the list are in rows satisfying `P`. -/
def Entries.InRows (cs : Entries) (P : ℤ → Prop) : Prop :=
  (∀ c ∈ cs.last, P c.1) ∧ (∀ c ∈ cs.new, P c.1) ∧ ∀ c ∈ cs.control, P c.1

theorem Entries.row_eq_zero {E : Type} [NormedAddCommGroup E] [NormedSpace ℝ E] {cs : Entries} {r : ℤ}
    {P : ℤ → Prop} (h : cs.InRows P) (hr : ¬ P r) (last' new' control' : ℤ → E →L[ℝ] ℝ) :
    cs.row r last' new' control' = 0 := by
  unfold Entries.row
  rw [applyRow_eq_zero fun c hc (e : c.1 = r) => hr (e ▸ h.1 c hc),
    applyRow_eq_zero fun c hc (e : c.1 = r) => hr (e ▸ h.2.1 c hc),
    applyRow_eq_zero fun c hc (e : c.1 = r) => hr (e ▸ h.2.2 c hc)]
  simp

/-- A component that sets one row. -/
theorem exact_one {f : Args → Res (List Op)} {cs : Entries} {i : ℤ} {a₀ : Args} (F : Args → Res ℝ)
    (hf : ∀ a, f a = do let v ← F a; Res.ok [Op.set i v]) (hrows : cs.InRows (· = i))
    (hder : ∀ (E : Type) [NormedAddCommGroup E] [NormedSpace ℝ E] (a : E → Args)
      (last' new' control' : ℤ → E →L[ℝ] ℝ) (y : E), a y = a₀ → Smooth a last' new' control' y →
      Derives (fun z => F (a z)) (cs.row i last' new' control') y) :
    Exact f cs {i} a₀ where
  rows := by
    intro a ops ho o hm
    rw [hf] at ho
    obtain ⟨v, -, ho⟩ := Res.bind_eq_ok.mp ho
    injection ho with ho
    subst ho
    simp only [List.mem_singleton] at hm
    subst hm; rfl
  jacobian := by
    intro E _ _ a l' n' c' y hy hs v r
    obtain ⟨g, hg, hd⟩ := hder E a l' n' c' y hy hs
    by_cases hr : r = i
    · subst hr
      refine ⟨g, ?_, hd⟩
      filter_upwards [hg] with z hz
      rw [hf, hz]
      simp [run_cons, Op.apply]
    · refine ⟨fun _ => v r, ?_, ?_⟩
      · filter_upwards [hg] with z hz
        rw [hf, hz]
        simp [run_cons, Op.apply, Function.update_of_ne hr]
      · have h0 := Entries.row_eq_zero hrows hr l' n' c'
        exact (hasFDerivAt_const (v r) y).congr_fderiv h0.symm

/-- A component that sets two rows. -/
theorem exact_two {f : Args → Res (List Op)} {cs : Entries} {i j : ℤ} {a₀ : Args} (hij : i ≠ j)
    (F : Args → Res (ℝ × ℝ))
    (hf : ∀ a, f a = do let v ← F a; Res.ok [Op.set i v.1, Op.set j v.2])
    (hrows : cs.InRows fun r => r = i ∨ r = j)
    (hder : ∀ (E : Type) [NormedAddCommGroup E] [NormedSpace ℝ E] (a : E → Args)
      (last' new' control' : ℤ → E →L[ℝ] ℝ) (y : E), a y = a₀ → Smooth a last' new' control' y →
      Derives (fun z => F (a z))
        ((cs.row i last' new' control').prod (cs.row j last' new' control')) y) :
    Exact f cs {i, j} a₀ where
  rows := by
    intro a ops ho o hm
    rw [hf] at ho
    obtain ⟨v, -, ho⟩ := Res.bind_eq_ok.mp ho
    injection ho with ho
    subst ho
    simp only [List.mem_cons, List.not_mem_nil, or_false] at hm
    rcases hm with rfl | rfl <;> simp [Op.row]
  jacobian := by
    intro E _ _ a l' n' c' y hy hs v r
    obtain ⟨g, hg, hd⟩ := hder E a l' n' c' y hy hs
    by_cases hr : r = i
    · subst hr
      refine ⟨fun z => (g z).1, ?_, hd.fst.congr_fderiv ?_⟩
      · filter_upwards [hg] with z hz
        rw [hf, hz]
        simp [run_cons, Op.apply, Function.update_of_ne hij]
      · ext; rfl
    · by_cases hr' : r = j
      · subst hr'
        refine ⟨fun z => (g z).2, ?_, hd.snd.congr_fderiv ?_⟩
        · filter_upwards [hg] with z hz
          rw [hf, hz]
          simp [run_cons, Op.apply]
        · ext; rfl
      · refine ⟨fun _ => v r, ?_, ?_⟩
        · filter_upwards [hg] with z hz
          rw [hf, hz]
          simp [run_cons, Op.apply, Function.update_of_ne hr, Function.update_of_ne hr']
        · have h0 := Entries.row_eq_zero hrows (r := r) (by simp [hr, hr']) l' n' c'
          exact (hasFDerivAt_const (v r) y).congr_fderiv h0.symm

end Verif.Net
