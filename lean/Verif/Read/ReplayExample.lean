import Verif.Read.Replay
import Verif.Read.NlpExample

/-!
# C116 applies to an optimization
-/

set_option autoImplicit false

namespace Verif.Read

open Verif.Json Verif.Factory Verif.Interp Verif.Schema Verif.Initial Verif.Times Verif.Newton Verif.Evolve Network Net
open Verif.Output (Printed)

/-- Numbers are printed without the digits after the point. -/
@[reducible] noncomputable def whole : Printed ℝ := ⟨fun x => (⌊x⌋ : ℚ)⟩

/-- For the optimization of C104 and the vector in which the compressor always raises the pressure by 10 bar, both files are written, and
the run with the file of controls writes the same states, which obey all laws. -/
example (draws : Json → Res (ℝ → Res (ℝ × ℝ))) (hdraw : ∀ data, draws data = Res.throws) (mem : ℕ → ℝ) (lu : Solve) :
    let _ : Printed ℝ := whole
    ∃ controls states, optimizedFiles draws mem lu 10 settingsC 1 filesK boundsK [10, 10] = Res.ok (controls, some states) ∧
      runFile draws mem lu 10 settingsC { filesK with control := controls } = Res.ok (some states) ∧
      ∃ times r cgrid, ShownIn states topologyK times r ∧ Faithful settingsC { filesK with control := controls } times r cgrid := by
  intro _
  obtain ⟨hc, -⟩ := C100_partial rfl shaped_k.1.1 shaped_k.1.2 shaped_k.2.1 shaped_k.2.2 (read_k draws mem) fit_k
  obtain ⟨hP, hz, -⟩ := optimization_k hc draws mem lu
  have hd : ∀ data d, draws data = Res.ok d → ∀ t : ℝ, settingsC.start ≤ t → t ≤ settingsC.stop → ∃ b, d t = Res.ok b := by
    intro data d hd
    rw [hdraw] at hd
    cases hd
  have exact_nat : ∀ n : ℕ, Exactly (n : ℝ) := by
    intro n
    show (((⌊(n : ℝ)⌋ : ℤ) : ℚ) : ℝ) = n
    simp
  have hc1 : ∀ P, optimization draws mem lu 10 settingsC 1 filesK boundsK = Res.ok P → ∀ v ∈ P.controlTimes, Exactly v := by
    intro P hP'
    rw [hP] at hP'
    injection hP' with hP'
    subst hP'
    show ∀ v ∈ [(0 : ℝ), 60], Exactly v
    simp only [List.mem_cons, List.not_mem_nil, or_false, forall_eq_or_imp, forall_eq]
    exact ⟨by simpa using exact_nat 0, by simpa using exact_nat 60⟩
  have hc2 : ∀ v ∈ [(10 : ℝ), 10], Exactly v := by
    simp only [List.mem_cons, List.not_mem_nil, or_false, forall_eq_or_imp, forall_eq]
    exact ⟨by simpa using exact_nat 10, by simpa using exact_nat 10⟩
  obtain ⟨controls, states, h⟩ := C116_written (f := filesK) (s := settingsC) (z := [ext (stateK hc), ext (stateK hc)]) rfl shaped_k.1.1
    shaped_k.1.2 shaped_k.2.1 shaped_k.2.2 fit_k (by norm_num [settingsC]) (by norm_num [settingsC]) (by norm_num [settingsC])
    (fun t h0 h1 => covers_k h0 (h1.trans (by norm_num [settingsC]))) hd hP (show 0 < 1 by decide) hz (hc1 _ hP) hc2
  exact ⟨controls, states, h,
    C116_files shaped_k.1.1 shaped_k.1.2 (by norm_num [settingsC]) (by norm_num [settingsC]) h hc1 hc2,
    C116_results (f := filesK) rfl shaped_k.1.1 shaped_k.1.2 shaped_k.2.1 shaped_k.2.2 fit_k (by norm_num [settingsC])
      (by norm_num [settingsC]) (by norm_num [settingsC]) (fun t h0 h1 => covers_k h0 (h1.trans (by norm_num [settingsC]))) hd h hc1 hc2⟩

end Verif.Read
