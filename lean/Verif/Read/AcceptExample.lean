import Verif.Read.AcceptGraph
import Verif.Read.SimulateExample

/-!
# C126: files without mistakes

The hypotheses are met by the jsons of the pipe in `Verif.Read.Example`, with defaults for some keys.
-/

set_option autoImplicit false

namespace Verif.Read

open Verif.Json Verif.Factory Verif.Interp Verif.Schema Verif.Editor

theorem components_of {j : Json} (ho : j.isObj = true) (hs : Shaped j ∧ DistinctTypes j)
    (hi : (components j).all (fun x => (id? x).isSome) = true) (hd : ((components j).map id?).Nodup) : Components j :=
  ⟨ho, hs.1, hs.2, fun x hx => Option.isSome_iff_exists.mp (List.all_eq_true.mp hi x hx), hd⟩

theorem wellFormed_ex : WellFormed defaultsEx topologyEx boundaryEx := by
  have one : ∀ {e}, e ∈ entries (types topologyEx "connections") → e = ("Pipe", pipeEx) := fun h => List.mem_singleton.mp h
  have nodes : ∀ {x}, x ∈ entries (types topologyEx "nodes") →
      x = ("Pressureboundarynode", obj [("id", str "a")]) ∨ x = ("Sink", obj [("id", str "b")]) :=
    fun h => (List.mem_cons.mp h).imp id List.mem_singleton.mp
  have hd : defaultsFor defaultsEx "Pipe" = dEx := rfl
  have d1 : defaultsFor defaultsEx "Pressureboundarynode" = obj [] := rfl
  have d2 : defaultsFor defaultsEx "Sink" = obj [] := rfl
  have isq : ∀ {v : Json} {m : List (String × Json)}, v = obj m → (m.all fun x => x.1 == "value" || x.1 == "unit") = true →
      IsQuantity v := by
    rintro _ m rfl hm
    refine ⟨rfl, fun k hk => ?_⟩
    obtain ⟨w, hw⟩ := contains_iff.mp hk
    simpa using List.all_eq_true.mp hm _ (mem_of_lookup hw)
  have hasQ : ∀ key (L : ℚ), Metres dEx pipeEx key L → (∀ m, pipeEx.find? key = some m → IsQuantity m) →
      Has dEx pipeEx key .quantity := by
    rintro key L ⟨value, unit, x, c, h1, h2, -⟩ h3
    exact ⟨⟨_, h1⟩, ⟨_, h2⟩, h3⟩
  refine ⟨rfl, components_of rfl shaped_ex.1 (by decide +kernel) (by decide +kernel),
    components_of rfl shaped_ex.2 (by decide +kernel) (by decide +kernel), ?_, ?_, ?_, ?_, ?_, ⟨?_, rfl⟩, ?_, ?_⟩
  · intro x hx
    have : x.1 ∈ ["Pressureboundarynode", "Sink"] := List.mem_map_of_mem (f := Prod.fst) hx
    revert this; generalize x.1 = k; intro h
    simp only [List.mem_cons, List.not_mem_nil, or_false] at h
    rcases h with rfl | rfl <;> decide
  · intro x hx
    have : x.1 ∈ ["Pipe"] := List.mem_map_of_mem (f := Prod.fst) hx
    rw [List.mem_singleton.mp this]
    decide
  · intro c hc e he
    simp only [classes, List.mem_cons, List.not_mem_nil, or_false] at hc
    rcases hc with rfl | rfl
    · rcases nodes he with rfl | rfl
      · exact ⟨rfl, fun k v hv => by cases hv⟩
      · exact ⟨rfl, fun k v hv => by cases hv⟩
    · rw [one he, hd]
      refine ⟨rfl, fun k v hv => ?_⟩
      have := mem_of_lookup (show List.lookup k _ = some v from hv)
      simp only [List.mem_cons, List.not_mem_nil, or_false, Prod.mk.injEq] at this
      rcases this with ⟨rfl, rfl⟩ | ⟨rfl, rfl⟩ | ⟨rfl, rfl⟩
      · exact ⟨.text, by simp [keysOf], by simp⟩
      · exact ⟨.quantity, by simp [keysOf], fun _ => isq rfl rfl⟩
      · exact ⟨.text, by simp [keysOf], by simp⟩
  · intro c hc e he
    simp only [classes, List.mem_cons, List.not_mem_nil, or_false] at hc
    rcases hc with rfl | rfl
    · rcases nodes he with rfl | rfl <;> intro x hx <;> rw [List.mem_singleton.mp hx]
      · exact ⟨"a", Or.inl rfl⟩
      · exact ⟨"b", Or.inl rfl⟩
    · rw [one he, hd]
      intro x hx
      simp only [keysOf, List.mem_cons, List.not_mem_nil, or_false] at hx
      rcases hx with rfl | rfl | rfl | rfl | rfl | rfl | rfl | rfl | rfl
      · exact ⟨"Isothermaleulerequation", Or.inr ⟨rfl, rfl⟩⟩
      · exact ⟨1000, Or.inl rfl⟩
      · exact hasQ _ _ metres_ex.2.1 fun m hm => isq (Option.some.inj hm).symm rfl
      · exact ⟨"a", Or.inl rfl⟩
      · exact ⟨"p", Or.inl rfl⟩
      · exact hasQ _ _ metres_ex.1 fun m hm => isq (Option.some.inj hm).symm rfl
      · exact hasQ _ _ metres_ex.2.2 fun m hm => isq (Option.some.inj hm).symm rfl
      · exact ⟨"Implicitboxscheme", Or.inr ⟨rfl, rfl⟩⟩
      · exact ⟨"b", Or.inl rfl⟩
  · intro e he k hk
    rcases nodes he with rfl | rfl
    · injection hk with hk
      subst hk
      exact ⟨boundaryA, List.mem_cons_self, rfl, ⟨⟨[(0, [60]), (3600, [50])], ⟨_, rfl, lists_a⟩, by simp, by simp⟩,
        fun s hs => by cases hs⟩⟩
    · injection hk with hk
      subst hk
      exact ⟨boundaryB, List.mem_cons_of_mem _ (List.mem_singleton.mpr rfl), rfl,
        ⟨⟨[(0, [100]), (3600, [120])], ⟨_, rfl, .cons ⟨rfl, rfl, rfl⟩ (.cons ⟨rfl, rfl, rfl⟩ .nil)⟩, by simp, by simp⟩,
        fun s hs => by cases hs⟩⟩
  · intro e he
    rcases (List.mem_cons.mp he).imp id List.mem_singleton.mp with rfl | rfl <;> rfl
  · intro e he
    rw [one he]
    exact ⟨"a", "b", Or.inl rfl, Or.inl rfl, by decide, ⟨"Pressureboundarynode", _, List.mem_cons_self, rfl⟩,
      ⟨"Sink", _, List.mem_cons_of_mem _ (List.mem_singleton.mpr rfl), rfl⟩⟩
  · intro j hj
    rw [(Prod.mk.inj (one hj)).2, hd]
    exact ⟨5000, 1000, 1 / 2, 1 / 10000, metres_ex.1, Or.inl rfl, metres_ex.2.1, metres_ex.2.2, by norm_num, by norm_num,
      by norm_num, Or.inr ⟨rfl, rfl⟩⟩

/-- C126 applies. -/
example (draws : Json → Res (ℝ → Res (ℝ × ℝ))) (mem : ℕ → ℝ) : ∃ g, readNet draws mem defaultsEx topologyEx boundaryEx = Res.ok g := by
  refine C126_read wellFormed_ex ?_
  rintro ⟨x, hx⟩
  exfalso
  rcases (List.mem_cons.mp hx).imp id List.mem_singleton.mp with h | h <;> exact absurd (Prod.mk.inj h).1 (by decide)

end Verif.Read
