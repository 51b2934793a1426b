import Verif.Read.NlpProps
import Verif.Read.Memory

/-!
# Property C103 for optimizations
-/

set_option autoImplicit false

namespace Verif.Read

open Verif.Json Verif.Factory Verif.Interp Verif.Schema Verif.Initial Verif.Times Verif.OptTimes Network Net

section
variable {g : Graph Network.Node EdgeKind} (hc : Consistent g) (topology : Json)

theorem constraintComponents_mem (mem mem' : ℕ → ℝ) : constraintComponents hc topology mem = constraintComponents hc topology mem' := by
  unfold constraintComponents
  congr 1
  funext v
  unfold constraintNode
  rw [boundary_mem 1 mem mem']

/-- Every constraint belongs to a component that is set from the file. -/
theorem all_constrained (mem : ℕ → ℝ) {j : ℕ} (hj : j < (goals hc topology).count) :
    ∃ c ∈ constraintComponents hc topology mem, c.start = j := by
  obtain ⟨i, ⟨h1, h2⟩, -⟩ := (C40_partition 0 (constraintNeeds (goals hc topology))).1 j (by omega) (by
    unfold Goals.count at hj
    have : (setIndices 0 (constraintNeeds (goals hc topology))).2 = Net.constraints (goals hc topology) := rfl
    omega)
  have hlt : i.val < (constraintNeeds (goals hc topology)).length := by
    have e := setIndices_length 0 (constraintNeeds (goals hc topology))
    have := i.isLt
    omega
  have hk : i.val < g.nodes.length := by
    have : (constraintNeeds (goals hc topology)).length = g.nodes.length := by
      show (List.ofFn _).length = _
      rw [List.length_ofFn]
      rfl
    omega
  have hlen := (C40_contiguous 0 (constraintNeeds (goals hc topology))).2.1 i.val hlt i.isLt
  simp only [Fin.getElem_fin] at h1 h2
  rw [hlen] at h2
  have hneed : (constraintNeeds (goals hc topology))[i.val] = if (goals hc topology).constrained ⟨i.val, hk⟩ then 1 else 0 := by
    simp only [constraintNeeds, List.getElem_ofFn]
  have hc1 : (goals hc topology).constrained ⟨i.val, hk⟩ = true := by
    by_contra hn
    rw [hneed, if_neg hn] at h2
    omega
  rw [hneed, if_pos hc1] at h2
  have hm : constraintNode hc topology mem ⟨i.val, hk⟩ = some _ := if_pos hc1
  refine ⟨_, (mem_constraintComponents hc topology mem).mpr ⟨_, hm⟩, ?_⟩
  have hr : constraintRange (goals hc topology) ⟨i.val, hk⟩ = (setIndices 0 (constraintNeeds (goals hc topology))).1[i.val] := rfl
  have hst := (constraint_of hc topology mem hm).2.2.1.trans (congrArg Prod.fst hr)
  omega

theorem constraints_mem (hids : (g.nodes.map Node.id ++ g.edges.map Edge.id).Nodup) (mem mem' : ℕ → ℝ) (grid : List ℝ) (json : Json) :
    boundsOf (constraintComponents hc topology mem) mem grid (goals hc topology).count json =
      boundsOf (constraintComponents hc topology mem') mem' grid (goals hc topology).count json := by
  rw [constraintComponents_mem hc topology mem' mem]
  refine filled_mem (constraint_ids hc topology mem hids) (disjoint_constraints hc topology mem) (fun c hcm e v hr => ?_)
    (fun j hj => all_constrained hc topology mem hj) mem mem' grid json
  obtain ⟨k, hk⟩ := (mem_constraintComponents hc topology mem).mp hcm
  rw [(constraint_of hc topology mem hk).2.2.2.2] at hr
  exact readVector_inner hr

end

/-- C103, for optimizations. Ipopt gets the same problem, with the same starting point, bounds and functions, or the set-up fails in
the same way, whatever is in the memory that is allocated for vectors. -/
theorem C103_optimization (draws : Json → Res (ℝ → Res (ℝ × ℝ))) (mem mem' : ℕ → ℝ) (lu : Solve) (fuel : ℕ) (s : Settings) (every : ℤ)
    (f : Files) (b : Bounds) (hs : Shaped f.topology) (hd : DistinctTypes f.topology) :
    optimization draws mem lu fuel s every f b = optimization draws mem' lu fuel s every f b := by
  unfold optimization
  refine bind_same _ fun times _ => ?_
  rw [readNet_mem draws mem' mem]
  refine bind_same _ fun g hg => ?_
  obtain ⟨nodes, edges, h1, h2, h3⟩ := readNet_ok hg
  obtain ⟨-, hids, -⟩ := buildNet_made (proper_of h1 h2 hs hd) h3
  split
  · next hc =>
    have e : ∀ grid json, boundsOf (controlComponents hc mem) mem grid (toNet hc).controlCount json =
        boundsOf (controlComponents hc mem') mem' grid (toNet hc).controlCount json :=
      fun grid json => controls_mem hc hids mem mem' grid json
    simp only [initialValues_mem hc hids mem mem', e, constraints_mem hc f.topology hids mem mem']
  · rfl

end Verif.Read
