import Verif.Network.Laws

/-!
# A pipe being filled

A pipe of two points from a pressure node to a sink that takes nothing. At the new state gas flows in at the start.
-/

set_option autoImplicit false

namespace Verif.Network

open Verif.Net

noncomputable section

/-- The network. -/
def pipeNet : Net where
  nodes := 2
  edges := 1
  node v := ⟨if v = 0 then .pressure else .flow, fun _ => Res.ok (if v = 0 then Euler.p 1 / 100000 else 0, 0), 0, 0⟩
  edge _ := .gas (.pipe 100 1 0) 2
  src _ := 0
  dst _ := 1
  starting v := if v = 0 then [0] else []
  ending v := if v = 1 then [0] else []

/-- The new state: density 1 at both points, inflow 0.01 and no outflow. -/
def pipeNew : ℕ → ℝ
  | 0 => 1
  | 1 => 0.01
  | 2 => 1
  | _ => 0

/-- The state before, at both points, from which one step of a minute leads there. -/
def pipeBefore : ℝ × ℝ :=
  match Box.evaluatePoint (Box.eulerLaw 1 0) 0 60 100 (0, 0) (0, 0) (pipeNew 0, pipeNew 1) (pipeNew 2, pipeNew 3) with
  | .ok v => v
  | _ => 0

def pipeLast : ℕ → ℝ
  | 0 | 2 => pipeBefore.1
  | _ => pipeBefore.2

def pipePoint : pipeNet.Point := (fun i => pipeLast i.val, fun i => pipeNew i.val, fun _ => 0)

end

theorem pipe_admissible : Admissible pipeNet where
  starting := by
    show ∀ v : Fin 2, (if v = 0 then [(0 : Fin 1)] else []).Nodup ∧
      ∀ k : Fin 1, k ∈ (if v = 0 then [(0 : Fin 1)] else []) ↔ (0 : Fin 2) = v
    decide
  ending := by
    show ∀ v : Fin 2, (if v = 1 then [(0 : Fin 1)] else []).Nodup ∧
      ∀ k : Fin 1, k ∈ (if v = 1 then [(0 : Fin 1)] else []) ↔ (1 : Fin 2) = v
    decide
  noLoop := by show ∀ _ : Fin 1, (0 : Fin 2) ≠ 1; decide
  points := by intro k dx d r n h; injection h with _ h; omega
  gasStart := by intro k kind n h; rfl
  gasEnd := by intro k kind n h _; rfl
  plantEnd := by intro k g p n h; injection h with h; cases h
  lines := by intro k G B h; cases h

theorem pipe_computable (t : ℝ) : Computable pipeNet t where
  boundary v _ := ⟨_, rfl⟩
  pipes := by
    intro k dx d r n h
    injection h with h hn
    injection h with h1 h2 h3
    subst h1 h2 h3
    exact ⟨by norm_num, by norm_num, le_rfl, by norm_num⟩

theorem pipe_new (j : ℕ) (h : j < 4) : ext pipePoint.2.1 (j : ℤ) = pipeNew j := by
  unfold ext
  rw [dif_pos ⟨by omega, by show _ < 4; omega⟩]
  rfl

theorem pipe_last (j : ℕ) (h : j < 4) : ext pipePoint.1 (j : ℤ) = pipeLast j := by
  unfold ext
  rw [dif_pos ⟨by omega, by show _ < 4; omega⟩]
  rfl

theorem pipe_laws : Laws pipeNet 0 60 (pipeNet.args pipePoint) := by
  have h0 := pipe_new 0 (by norm_num)
  have h1 := pipe_new 1 (by norm_num)
  have h2 := pipe_new 2 (by norm_num)
  have h3 := pipe_new 3 (by norm_num)
  have l0 := pipe_last 0 (by norm_num)
  have l1 := pipe_last 1 (by norm_num)
  have l2 := pipe_last 2 (by norm_num)
  have l3 := pipe_last 3 (by norm_num)
  simp only [Nat.cast_ofNat, Nat.cast_zero, Nat.cast_one] at h0 h1 h2 h3 l0 l1 l2 l3
  refine ⟨⟨fun _ => Euler.p 1 / 100000, ?_, ?_⟩, ?_, ?_, ?_, ?_, ?_⟩
  · intro k hk
    obtain rfl : k = (0 : Fin 1) := Subsingleton.elim (α := Fin 1) _ _
    refine ⟨?_, fun _ => ?_⟩
    · show Euler.p (ext pipePoint.2.1 0) / 100000 = _
      rw [h0]; rfl
    · show Euler.p (ext pipePoint.2.1 2) / 100000 = _
      rw [h2]; rfl
  · show ∀ v : Fin 2, _
    intro v b hv hb
    match v, hv with
    | 0, _ => injection hb with hb; subst hb; rfl
    | 1, h => cases h
  · show ∀ v : Fin 2, _
    intro v _
    match v with
    | 0 => exact ⟨fun h => (by cases h), fun h => (by cases h)⟩
    | 1 =>
      refine ⟨fun h => (by cases h), fun _ b hb => ?_⟩
      injection hb with hb
      subst hb
      have : pipeNet.outflow (1 : Fin 2) (pipeNet.args pipePoint).new = 0 - ext pipePoint.2.1 3 := by
        unfold Net.outflow
        show (∑ k : Fin 1, _) - (∑ k : Fin 1, _) = _
        rw [Fin.sum_univ_one, Fin.sum_univ_one]
        rfl
      rw [this, h3]
      show (0 : ℝ) - 0 = 0
      norm_num
  · intro k kind n h hs
    injection h with h
    subst h
    exact hs.elim
  · intro k dx d r n h j hj
    obtain rfl : k = (0 : Fin 1) := Subsingleton.elim (α := Fin 1) _ _
    injection h with h hn
    injection h with e1 e2 e3
    subst e1 e2 e3 hn
    obtain rfl : j = 0 := by omega
    have hp : Euler.RealPipe 1 0 := ⟨by norm_num, le_rfl, by norm_num⟩
    have hs : ∀ y, (Box.eulerLaw 1 0).source y = Res.ok _ := fun y => Euler.C34_source_defined hp y
    show Box.evaluatePoint _ 0 60 100 (ext pipePoint.1 0, ext pipePoint.1 1) (ext pipePoint.1 2, ext pipePoint.1 3)
      (ext pipePoint.2.1 0, ext pipePoint.2.1 1) (ext pipePoint.2.1 2, ext pipePoint.2.1 3) = Res.ok 0
    rw [h0, h1, h2, h3, l0, l1, l2, l3]
    show Box.evaluatePoint _ 0 60 100 pipeBefore pipeBefore _ _ = Res.ok 0
    unfold pipeBefore Box.evaluatePoint
    simp only [hs, Res.ok_bind]
    congr 1
    ext <;> simp <;> ring
  · show ∀ v : Fin 2, _
    intro v b hb
    match v with
    | 0 => trivial
    | 1 => trivial
  · intro k g p n h
    injection h with h
    cases h

theorem pipe_residual : pipeNet.residual 0 60 pipePoint = Res.ok 0 := by
  obtain ⟨r, hr, h⟩ := C72_residual_iff_laws pipeNet pipe_admissible 0 60 (pipe_computable 60) pipePoint
  rw [hr, h.mpr pipe_laws]

end Verif.Network
