import Verif.Editor.Values
import Verif.Read.RunExample

/-!
# Example for C142

The network of `Verif.Read.RunExample`: a compressor between two nodes.
-/

set_option autoImplicit false

namespace Verif.Editor

open Verif.Json Verif.Factory Verif.Schema Verif.Read

theorem describes_c : TwoPoints initialEntry :=
  ⟨60, 5, 70, 5, .inl ⟨"c", _, rfl, rfl, .cons ⟨rfl, rfl⟩ (.cons ⟨rfl, rfl⟩ .nil)⟩⟩

theorem timed_c : Timed 1 controlEntry := by
  refine ⟨"c", _, rfl, rfl, fun x hx => ?_⟩
  simp only [List.mem_cons, List.not_mem_nil, or_false] at hx
  rcases hx with rfl | rfl
  all_goals
    refine ⟨fun t ht => ?_, fun v hv => ⟨[10], rfl, ?_⟩⟩
    · injection ht with ht
      exact ⟨_, ht.symm⟩
    · injection hv with hv
      exact hv.symm

/-- The hypotheses are met: schemas are generated without defaults, the network is read, and the schemas accept an entry of initial values
and one of controls for the compressor. They do not accept the same entry for a transmission line, and no file without the section of
nodes. -/
example (draws : Json → Res (ℝ → Res (ℝ × ℝ))) (mem : ℕ → ℝ) : ∃ S, generate draws mem (obj []) = Res.ok S ∧
    readNet draws mem (obj []) topologyC boundaryS = Res.ok graphC ∧ Consistent graphC ∧ Shaped topologyC ∧ DistinctTypes topologyC ∧
    accepts S.initial (oneEntry "connections" "nodes" "Compressorstation" initialEntry) = true ∧
    accepts S.control (oneEntry "connections" "nodes" "Compressorstation" controlEntry) = true ∧
    accepts S.boundary (oneEntry "nodes" "connections" "Sink" controlEntry) = true ∧
    accepts S.initial (oneEntry "connections" "nodes" "Transmissionline" initialEntry) = false ∧
    accepts S.initial initialC = false := by
  obtain ⟨S, hS⟩ := generates (fittingB_ok draws mem (defaults := obj []) (by decide +kernel))
  have hsh := shaped_of (j := topologyC) (by decide +kernel)
  have hg := read_c draws mem
  obtain ⟨nodes, edges, h1, h2, h3⟩ := readNet_ok hg
  refine ⟨S, hS, hg, (buildNet_made (proper_of h1 h2 hsh.1 hsh.2) h3).1, hsh.1, hsh.2, ?_, ?_, ?_, ?_, ?_⟩
  · obtain ⟨o1, o2, o3, o4⟩ := one_classes (type := "Compressorstation") (Or.inr ⟨rfl, rfl⟩) initialEntry _ _
    exact (C142_initial hS o1 o2).mpr ⟨o4, o3.mpr ⟨TwoPoints, by simp, describes_c⟩⟩
  · obtain ⟨o1, o2, o3, o4⟩ := one_classes (type := "Compressorstation") (Or.inr ⟨rfl, rfl⟩) controlEntry _ _
    exact (C142_control hS o1 o2).mpr ⟨o4, o3.mpr ⟨Timed 1, by simp, timed_c⟩⟩
  · obtain ⟨o1, o2, o3, o4⟩ := one_classes (type := "Sink") (Or.inl ⟨rfl, rfl⟩) controlEntry _ _
    exact (C142_boundary hS o1 o2).mpr ⟨o3.mpr ⟨Timed 1, by simp, timed_c⟩, o4⟩
  · rw [Bool.eq_false_iff]
    intro h
    obtain ⟨o1, o2, -, -⟩ := one_classes (type := "Transmissionline") (Or.inr ⟨rfl, rfl⟩) initialEntry [] []
    obtain ⟨-, h5⟩ := (C142_initial hS o1 o2).mp h
    obtain ⟨P, h6, -⟩ := (one_classes (type := "Transmissionline") (Or.inr ⟨rfl, rfl⟩) initialEntry _ []).2.2.1.mp h5
    simp at h6
  · rw [Bool.eq_false_iff]
    intro h
    obtain ⟨⟨m, h5, -⟩, -⟩ := (C142_initial hS rfl (shaped_of (j := initialC) (by decide +kernel)).2).mp h
    cases h5

end Verif.Editor
