import Verif.Read.AcceptRun
import Verif.Read.AcceptExample
import Verif.Read.RunExample

/-!
# C127: a run with files without mistakes

The hypotheses are met by the files of the compressor in `Verif.Read.RunExample`.
-/

set_option autoImplicit false

namespace Verif.Read

open Verif.Json Verif.Factory Verif.Interp Verif.Schema Verif.Editor Verif.Initial

theorem wellFormed_c : WellFormed (obj []) topologyC boundaryS := by
  have one : ∀ {e}, e ∈ entries (types topologyC "connections") → e = ("Compressorstation", edgeC) :=
    fun h => List.mem_singleton.mp h
  have nodes : ∀ {x}, x ∈ entries (types topologyC "nodes") →
      x = ("Pressureboundarynode", obj [("id", str "a")]) ∨ x = ("Sink", obj [("id", str "b")]) :=
    fun h => (List.mem_cons.mp h).imp id List.mem_singleton.mp
  have hd : ∀ name, defaultsFor (obj []) name = obj [] := fun _ => rfl
  refine ⟨rfl, components_of rfl shaped_c (by decide +kernel) (by decide +kernel),
    components_of rfl shaped_s.2 (by decide +kernel) (by decide +kernel), ?_, ?_, ?_, ?_, ?_, ⟨?_, rfl⟩, ?_, ?_⟩
  · intro x hx
    have : x.1 ∈ ["Pressureboundarynode", "Sink"] := List.mem_map_of_mem (f := Prod.fst) hx
    revert this; generalize x.1 = k; intro h
    simp only [List.mem_cons, List.not_mem_nil, or_false] at h
    rcases h with rfl | rfl <;> decide
  · intro x hx
    have : x.1 ∈ ["Compressorstation"] := List.mem_map_of_mem (f := Prod.fst) hx
    rw [List.mem_singleton.mp this]
    decide
  · intro c hc e he
    exact ⟨rfl, fun k v hv => by cases hv⟩
  · intro c hc e he
    simp only [classes, List.mem_cons, List.not_mem_nil, or_false] at hc
    rcases hc with rfl | rfl
    · rcases nodes he with rfl | rfl <;> intro x hx <;> rw [List.mem_singleton.mp hx]
      · exact ⟨"a", Or.inl rfl⟩
      · exact ⟨"b", Or.inl rfl⟩
    · rw [one he, hd]
      intro x hx
      simp only [keysOf, List.mem_cons, List.not_mem_nil, or_false] at hx
      rcases hx with rfl | rfl | rfl
      · exact ⟨"a", Or.inl rfl⟩
      · exact ⟨"c", Or.inl rfl⟩
      · exact ⟨"b", Or.inl rfl⟩
  · intro e he k hk
    rcases nodes he with rfl | rfl
    · injection hk with hk
      subst hk
      exact ⟨boundarySA, List.mem_cons_self, rfl, ⟨⟨[(0, [60]), (3600, [60])], ⟨_, rfl, lists_sa⟩, by simp, by simp⟩,
        fun s hs => by cases hs⟩⟩
    · injection hk with hk
      subst hk
      exact ⟨boundarySB, List.mem_cons_of_mem _ (List.mem_singleton.mpr rfl), rfl,
        ⟨⟨[(0, [5]), (3600, [5])], ⟨_, rfl, .cons ⟨rfl, rfl, rfl⟩ (.cons ⟨rfl, rfl, rfl⟩ .nil)⟩, by simp, by simp⟩,
        fun s hs => by cases hs⟩⟩
  · intro e he
    rcases (List.mem_cons.mp he).imp id List.mem_singleton.mp with rfl | rfl <;> rfl
  · intro e he
    rw [one he]
    exact ⟨"a", "b", Or.inl rfl, Or.inl rfl, by decide, ⟨"Pressureboundarynode", _, List.mem_cons_self, rfl⟩,
      ⟨"Sink", _, List.mem_cons_of_mem _ (List.mem_singleton.mpr rfl), rfl⟩⟩
  · intro j hj
    exact absurd (Prod.mk.inj (one hj)).1 (by decide)

theorem faultless_c : Faultless settingsC filesC := by
  have one : ∀ {e}, e ∈ entries (types topologyC "connections") → e = ("Compressorstation", edgeC) :=
    fun h => List.mem_singleton.mp h
  have nodes : ∀ {x}, x ∈ entries (types topologyC "nodes") →
      x = ("Pressureboundarynode", obj [("id", str "a")]) ∨ x = ("Sink", obj [("id", str "b")]) :=
    fun h => (List.mem_cons.mp h).imp id List.mem_singleton.mp
  refine ⟨wellFormed_c, fit_c, fun x hx => ?_, by norm_num [settingsC],
    fun t h0 h1 => covers_c h0 (h1.trans (by norm_num [settingsC])), ⟨?_, fun e he hp => ?_, fun e he _ => ?_⟩, fun _ => ⟨?_, fun e he _ => ?_⟩, trivial⟩
  · rcases nodes hx with h | h <;> exact absurd (Prod.mk.inj h).1 (by decide)
  · intro e he
    rw [List.mem_singleton.mp (show e ∈ [initialEntry] from he)]
    exact ⟨"c", rfl⟩
  · rcases nodes he with rfl | rfl <;> exact absurd hp (by decide)
  · rw [one he]
    refine ⟨⟨initialEntry, List.mem_singleton.mpr rfl, rfl⟩, fun x hx _ => ?_⟩
    rw [List.mem_singleton.mp (show x ∈ [initialEntry] from hx)]
    exact ⟨60, 5, 70, 5, described_c⟩
  · intro e he
    rw [List.mem_singleton.mp (show e ∈ [controlEntry] from he)]
    exact ⟨"c", rfl⟩
  · rw [one he]
    refine ⟨⟨controlEntry, List.mem_singleton.mpr rfl, rfl⟩, fun x hx _ => ?_⟩
    rw [List.mem_singleton.mp (show x ∈ [controlEntry] from hx)]
    exact ⟨[(0, [10]), (3600, [10])], ⟨_, rfl, .cons ⟨rfl, rfl, rfl⟩ (.cons ⟨rfl, rfl, rfl⟩ .nil)⟩, by simp, by simp,
      ⟨(0, [10]), by simp, by norm_num [settingsC]⟩, ⟨(3600, [10]), by simp, by norm_num [settingsC]⟩⟩

/-- C127 applies, and indeed the run gives results (see `run_c`). -/
example (draws : Json → Res (ℝ → Res (ℝ × ℝ))) (hdraw : ∀ data, draws data = Res.throws) (mem : ℕ → ℝ) (lu : Solve) :
    (∃ g, ∃ hc : Consistent g, ∃ times, readNet draws mem filesC.defaults filesC.topology filesC.boundary = Res.ok g ∧
      ((∃ states, run draws mem lu 10 settingsC filesC = Res.ok (times, states)) ∨ Stuck hc lu 10 settingsC filesC times)) ∧
    ∃ r, run draws mem lu 10 settingsC filesC = Res.ok r := by
  constructor
  · obtain ⟨g, hc, times, h1, -, -, h2⟩ := C127_run (draws := draws) (mem := mem) (lu := lu) (fuel := 10) faultless_c (by
      rintro ⟨x, hx⟩
      exfalso
      rcases (List.mem_cons.mp hx).imp id List.mem_singleton.mp with h | h <;> exact absurd (Prod.mk.inj h).1 (by decide))
      (by intro data d hd; rw [hdraw] at hd; cases hd)
    exact ⟨g, hc, times, h1, h2⟩
  · obtain ⟨hc, -⟩ := C100_partial rfl shaped_c.1 shaped_c.2 shaped_s.2.1 shaped_s.2.2 (read_c draws mem) fit_c
    exact ⟨_, run_c draws mem lu hc⟩

end Verif.Read
