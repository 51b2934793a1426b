import Verif.Network.Jacobian

/-!
# A network

A pressure node and an inner node joined by a pipe of two points, a compressor from the inner node to a flow node,
a connection from the inner node to a power plant, and a line from the plant to a PQ node.
-/

set_option autoImplicit false

namespace Verif.Network

open Verif.Net Verif.Handler

noncomputable section

/-- The types of the nodes. -/
def exampleKind : Fin 5 → NodeKind
  | 0 => .pressure
  | 1 => .innode
  | 2 => .flow
  | 3 => .plant
  | 4 => .power .pq

/-- The types of the edges. -/
def exampleEdge : Fin 4 → EdgeKind
  | 0 => .gas (.pipe 100 1 0) 2
  | 1 => .gas .compressor 0
  | 2 => .gas (.gaspower 1 2) 0
  | 3 => .line 3 4

def exampleSrc : Fin 4 → Fin 5
  | 0 => 0
  | 1 => 1
  | 2 => 1
  | 3 => 3

def exampleDst : Fin 4 → Fin 5
  | 0 => 1
  | 1 => 2
  | 2 => 3
  | 3 => 4

/-- The network. -/
def exampleNet : Net where
  nodes := 5
  edges := 4
  node v := ⟨exampleKind v, fun _ => Res.ok (1, 0), 0, 0⟩
  edge := exampleEdge
  src := exampleSrc
  dst := exampleDst
  starting v := (List.finRange 4).filter fun k => exampleSrc k = v
  ending v := (List.finRange 4).filter fun k => exampleDst k = v

/-- A state: some density and a small flow in the pipe (indices 4 to 7), ones elsewhere. -/
def exampleState : Vec := fun j => if j = 5 ∨ j = 7 then 0.01 else 1

end

theorem example_admissible : Admissible exampleNet where
  starting := by
    show ∀ v : Fin 5, ((List.finRange 4).filter fun k => exampleSrc k = v).Nodup ∧
      ∀ k : Fin 4, k ∈ ((List.finRange 4).filter fun k => exampleSrc k = v) ↔ exampleSrc k = v
    decide
  ending := by
    show ∀ v : Fin 5, ((List.finRange 4).filter fun k => exampleDst k = v).Nodup ∧
      ∀ k : Fin 4, k ∈ ((List.finRange 4).filter fun k => exampleDst k = v) ↔ exampleDst k = v
    decide
  noLoop := by show ∀ k : Fin 4, exampleSrc k ≠ exampleDst k; decide
  points := by
    show ∀ k : Fin 4, _
    intro k dx d r n h
    match k, h with
    | 0, h => injection h with _ h; omega
    | 1, h => injection h with h; cases h
    | 2, h => injection h with h; cases h
    | 3, h => cases h
  gasStart := by
    show ∀ k : Fin 4, _
    intro k kind n h
    match k, h with
    | 0, _ => rfl
    | 1, _ => rfl
    | 2, _ => rfl
    | 3, h => cases h
  gasEnd := by
    show ∀ k : Fin 4, _
    intro k kind n h hg
    match k, h with
    | 0, _ => rfl
    | 1, _ => rfl
    | 2, h => injection h with h; exact absurd h.symm (hg 1 2)
    | 3, h => cases h
  plantEnd := by
    show ∀ k : Fin 4, _
    intro k g p n h
    match k, h with
    | 0, h => injection h with h; cases h
    | 1, h => injection h with h; cases h
    | 2, _ => rfl
    | 3, h => cases h
  lines := by
    show ∀ k : Fin 4, _
    intro k G B h
    match k, h with
    | 0, h => cases h
    | 1, h => cases h
    | 2, h => cases h
    | 3, _ => exact ⟨rfl, rfl⟩

theorem example_counts : exampleNet.states = 14 ∧ exampleNet.controls = 1 ∧
    exampleNet.edgeRange (0 : Fin 4) = (4, 8) := by
  refine ⟨rfl, rfl, rfl⟩

theorem example_regular (v : Vec) (h4 : v 4 = 1) (h5 : v 5 = 0.01) (h6 : v 6 = 1) (h7 : v 7 = 0.01) :
    Regular exampleNet 0 v where
  boundary v _ := ⟨_, rfl⟩
  pipes := by
    show ∀ k : Fin 4, _
    intro k dx d r n h
    match k, h with
    | 1, h => injection h with h; cases h
    | 2, h => injection h with h; cases h
    | 3, h => cases h
    | 0, h =>
      injection h with h hn
      injection h with h1 h2 h3
      subst h1 h2 h3
      refine ⟨by norm_num, ⟨by norm_num, le_rfl, by norm_num⟩, ?_⟩
      have hrange : exampleNet.edgeRange (0 : Fin 4) = (4, 8) := rfl
      intro j j1 j2 j3
      have j1 : 4 ≤ j := j1
      have j2 : j + 1 < 8 := j2
      have j3 : (j - 4) % 2 = 0 := j3
      have hre : Euler.reynolds 0.01 1 < 4000 := by
        unfold Euler.reynolds SmoothAbs.circleArea SmoothAbs.Pi Euler.eta Euler.rho0
        rw [abs_of_pos (by norm_num)]
        norm_num
      have : j = 4 ∨ j = 6 := by omega
      rcases this with rfl | rfl
      · rw [h4, show (4 : ℤ) + 1 = 5 from rfl, h5]; exact ⟨by norm_num, hre⟩
      · rw [h6, show (6 : ℤ) + 1 = 7 from rfl, h7]; exact ⟨by norm_num, hre⟩

/-- All hypotheses of C69 are met at a point of this network, so the derivatives are computed there; therefore also
those of C70. -/
example : ∃ z : exampleNet.Point, Regular exampleNet 0 (ext z.2.1) ∧
    ∃ new, exampleNet.dNew 0 0 (exampleNet.args z) = Res.ok new := by
  refine ⟨(fun _ => 0, fun i => exampleState i.val, fun _ => 0), ?_⟩
  have hr : Regular exampleNet 0 (ext (fun i : Fin exampleNet.stateCount => exampleState i.val)) := by
    have hc : exampleNet.stateCount = 14 := rfl
    have hext : ∀ j : ℤ, 0 ≤ j → j < 14 →
        ext (fun i : Fin exampleNet.stateCount => exampleState i.val) j = exampleState j := by
      intro j h0 h1
      unfold ext
      rw [dif_pos ⟨h0, by rw [hc]; omega⟩]
      simp only [Int.toNat_of_nonneg h0]
    refine example_regular _ ?_ ?_ ?_ ?_ <;> rw [hext _ (by norm_num) (by norm_num)] <;> norm_num [exampleState]
  refine ⟨hr, ?_⟩
  obtain ⟨_, new, _, -, h, -⟩ := C69_network_derivative_partial exampleNet example_admissible 0 0
    (fun _ => 0, fun i => exampleState i.val, fun _ => 0) hr
  exact ⟨new, h⟩

/-- The residual is computed there, as C39 supposes. -/
example : ∃ a ops, exampleNet.evaluate 0 0 a = Res.ok ops := by
  obtain ⟨_, _, _, -, -, -, hj⟩ := example_admissible.network_exact (N := exampleNet) 0 (newTime := 0)
    (a₀ := ⟨exampleState, exampleState, exampleState⟩)
    (example_regular _ (by norm_num [exampleState]) (by norm_num [exampleState]) (by norm_num [exampleState])
      (by norm_num [exampleState]))
  obtain ⟨g, hg, -⟩ := hj ℝ (fun _ => ⟨exampleState, exampleState, exampleState⟩) 0 0 0 0 rfl
    ⟨fun _ => hasFDerivAt_const _ _, fun _ => hasFDerivAt_const _ _, fun _ => hasFDerivAt_const _ _⟩ (fun _ => 0) 0
  obtain ⟨ops, ho, -⟩ := Res.bind_eq_ok.mp hg.self_of_nhds
  exact ⟨_, ops, ho⟩

end Verif.Network
