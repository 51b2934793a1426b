import Verif.Network.Optimize
import Verif.Network.OptimizeExample

/-!
# Property C90: derivatives in reused matrices

The optimizer fills its derivative matrices in place, over and over again, in all steps of all sweeps of an optimization. What it computes is
what it would compute with fresh matrices in every step.

Source: `/repo/src/IpoptWrapper/ImplicitOptimizer.cpp` 487-811.
-/

set_option autoImplicit false

namespace Verif.Network

open Verif.Net Verif.Handler Verif.Adjoint Verif.Interp Verif.OptTimes Filter Topology Matrix

/-! ## Model -/

/-- The members of the optimizer that hold derivatives, and the pattern `solver.analyzePattern` has seen. -/
structure Store where
  newT : Sparse ℝ
  lastT : Sparse ℝ
  control : Sparse ℝ
  gnewT : Sparse ℝ
  gcontrol : Sparse ℝ
  fnewT : Sparse ℝ
  fcontrol : Sparse ℝ
  analyzed : List (ℤ × ℤ)

namespace Net

variable {N : Net}

noncomputable section

/-- `initialize_derivative_matrices` — `ImplicitOptimizer.cpp` 658-732. -/
def initMatrices (G : Goals N) (lastTime newTime : ℝ) (z : N.Point) : Res Store := do
  let new ← N.dNew lastTime newTime (N.args z)
  let newT ← fill .triplet true ⟨N.stateCount, N.stateCount, []⟩ new
  let last ← N.dLast
  let lastT ← fill .triplet true ⟨N.stateCount, N.stateCount, []⟩ last
  let control ← N.dControl
  let control ← fill .triplet false ⟨N.stateCount, N.controlCount, []⟩ control
  let gstate ← dConstraintState G (ext z.2.1) (ext z.2.2)
  let gnewT ← fill .triplet true ⟨N.stateCount, G.count, []⟩ gstate
  let gcontrol ← dConstraintControl G (ext z.2.1) (ext z.2.2)
  let gcontrol ← fill .triplet false ⟨G.count, N.controlCount, []⟩ gcontrol
  let fnewT ← fill .triplet true ⟨N.stateCount, 1, []⟩
    (dCostState G (ext z.2.1) (ext z.2.2) ++ dPenalty G (ext z.2.1) (ext z.2.2))
  let fcontrol ← fill .triplet false ⟨1, N.controlCount, []⟩
    (dCostControl G (ext z.2.1) (ext z.2.2) ++ dPenalty G (ext z.2.1) (ext z.2.2))
  Res.ok ⟨newT, lastT, control, gnewT, gcontrol, fnewT, fcontrol, newT.stored.map Prod.fst⟩

/-- `update_equation_derivative_matrices` without the factorization — `ImplicitOptimizer.cpp` 738-764. -/
def updateEquation (lastTime newTime : ℝ) (z : N.Point) (S : Store) : Res Store := do
  let last ← N.dLast
  let lastT ← fill .coeffref true S.lastT last
  let control ← N.dControl
  let control ← fill .coeffref false S.control control
  let new ← N.dNew lastTime newTime (N.args z)
  let newT ← fill .coeffref true S.newT new
  Res.ok { S with newT := newT, lastT := lastT, control := control }

/-- `update_constraint_derivative_matrices` — `ImplicitOptimizer.cpp` 776-791. -/
def updateConstraint (G : Goals N) (z : N.Point) (S : Store) : Res Store := do
  let gstate ← dConstraintState G (ext z.2.1) (ext z.2.2)
  let gnewT ← fill .coeffref true S.gnewT gstate
  let gcontrol ← dConstraintControl G (ext z.2.1) (ext z.2.2)
  let gcontrol ← fill .coeffref false S.gcontrol gcontrol
  Res.ok { S with gnewT := gnewT, gcontrol := gcontrol }

/-- `update_cost_derivative_matrices` — `ImplicitOptimizer.cpp` 793-812. -/
def updateCost (G : Goals N) (z : N.Point) (S : Store) : Res Store := do
  let fnewT ← fill .coeffref true S.fnewT
    (dCostState G (ext z.2.1) (ext z.2.2) ++ dPenalty G (ext z.2.1) (ext z.2.2))
  let fcontrol ← fill .coeffref false S.fcontrol
    (dCostControl G (ext z.2.1) (ext z.2.2) ++ dPenalty G (ext z.2.1) (ext z.2.2))
  Res.ok { S with fnewT := fnewT, fcontrol := fcontrol }

end

end Net

/-- What the sweep reads from the matrices. -/
def Store.data (S : Store) (n m r : ℕ) : StepData n m r ℝ where
  dEdnew := Matrix.of fun i j => S.newT.coeff j.val i.val
  dEdlast := Matrix.of fun i j => S.lastT.coeff j.val i.val
  dEdcontrol := Matrix.of fun i j => S.control.coeff i.val j.val
  dfdnew := fun j => S.fnewT.coeff j.val 0
  dfdcontrol := fun j => S.fcontrol.coeff 0 j.val
  dgdnew := Matrix.of fun i j => S.gnewT.coeff j.val i.val
  dgdcontrol := Matrix.of fun i j => S.gcontrol.coeff i.val j.val

noncomputable section

variable {N : Net} (G : Goals N)

/-- One pass of the `while` loop of `compute_derivatives`, on the stored matrices — `ImplicitOptimizer.cpp` 530-651: update the equation derivatives,
factorize (which is undefined if the pattern is not the one that was analyzed, and fails for singular matrices), update the cost
derivatives, and the constraint derivatives if there is a constraint at this time; the rest is `Adjoint.step`. (The update of the constraint
derivatives is moved before the computation of the gradient, which it does not influence.) -/
def stepStored (I : Input N.stateCount N.controlCount G.count ℝ) (z : N.Point) (i : ℕ)
    (s : State N.stateCount N.controlCount G.count ℝ) (S : Store) :
    Res (Option (State N.stateCount N.controlCount G.count ℝ) × Store) := do
  let S ← Net.updateEquation (I.time (i - 1)) (I.time i) z S
  if S.newT.stored.map Prod.fst ≠ S.analyzed then Res.ub
  else if ((S.data N.stateCount N.controlCount G.count).dEdnewᵀ).det = 0 then Res.ok (none, S)
  else do
    let S ← Net.updateCost G z S
    let S ← (match isNewConstraint I s.constraintIndex i with
      | Res.ok true => if 0 < G.count then Net.updateConstraint G z S else Res.ok S
      | _ => Res.ok S)
    let o ← step { I with data := fun _ => S.data _ _ _ } i s
    Res.ok (o, S)

/-- The loop. `z i` are the states at index `i - 1` and `i` and the control at index `i`. -/
def sweepStored (I : Input N.stateCount N.controlCount G.count ℝ) (z : ℕ → N.Point) :
    ℕ → State N.stateCount N.controlCount G.count ℝ → Store →
      Res (Option (State N.stateCount N.controlCount G.count ℝ) × Store)
  | 0, s, S => Res.ok (some s, S)
  | i + 1, s, S => do
    let r ← stepStored G I (z (i + 1)) (i + 1) s S
    match r.1 with
    | none => Res.ok (none, r.2)
    | some s => sweepStored I z i s r.2

/-- `compute_derivatives` on the stored matrices, `none` before the first call — `ImplicitOptimizer.cpp` 487-656. -/
def computeStored (I : Input N.stateCount N.controlCount G.count ℝ) (z : ℕ → N.Point) (n : ℕ) (S : Option Store) :
    Res (Option (State N.stateCount N.controlCount G.count ℝ) × Store) := do
  let S ← (match S with
    | some S => Res.ok S
    | none => Net.initMatrices G (I.time (n - 1)) (I.time n) (z n))
  sweepStored G I z n (State.init I) S

end

/-- Specification: what the optimizer holds after some calls of `compute_derivatives`, each with its own states and controls. Calls that return
`false` are included. Calls that throw are not: the exception is caught nowhere below the commands (`/repo/src/Grazer/commands.cpp`), so no other
call follows one, provided that Ipopt, which is not part of the repository, does not go on either. -/
inductive Reachable {N : Net} (G : Goals N) (I : Input N.stateCount N.controlCount G.count ℝ) (n : ℕ) : Option Store → Prop
  | start : Reachable G I n none
  | call (S : Option Store) (S' : Store) (z : ℕ → N.Point) (o : Option (State N.stateCount N.controlCount G.count ℝ)) :
      Reachable G I n S → computeStored G I z n S = Res.ok (o, S') → Reachable G I n (some S')

/-! ## Proof -/

/-- The invariant. -/
structure Valid {N : Net} (G : Goals N) (S : Store) : Prop where
  newT : S.newT.rows = N.stateCount ∧ S.newT.cols = N.stateCount
  lastT : S.lastT.rows = N.stateCount ∧ S.lastT.cols = N.stateCount
  control : S.control.rows = N.stateCount ∧ S.control.cols = N.controlCount
  gnewT : S.gnewT.rows = N.stateCount ∧ S.gnewT.cols = G.count
  gcontrol : S.gcontrol.rows = G.count ∧ S.gcontrol.cols = N.controlCount
  fnewT : S.fnewT.rows = N.stateCount ∧ S.fnewT.cols = 1
  fcontrol : S.fcontrol.rows = 1 ∧ S.fcontrol.cols = N.controlCount
  analyzed : S.newT.stored.map Prod.fst = S.analyzed
  pattern : ∀ s t a cs, N.dNew s t a = Res.ok cs → ∀ c ∈ cs, (c.2.1, c.1) ∈ S.analyzed

theorem fill_sizes {kind : Kind} {tr : Bool} {m m' : Sparse ℝ} {cs : List (Contribution ℝ)} (h : fill kind tr m cs = Res.ok m') :
    m'.rows = m.rows ∧ m'.cols = m.cols := by
  by_cases hin : AllInside tr m cs
  · obtain ⟨m₁, e, h1, h2, -⟩ := C27_entries kind tr m cs hin
    rw [h] at e
    injection e with e
    subst e
    exact ⟨h1, h2⟩
  · rw [C27_outside kind tr m cs hin] at h
    cases h

/-- Filling through references keeps the pattern if all positions are in it. -/
theorem fill_keys {tr : Bool} {m m' : Sparse ℝ} {cs : List (Contribution ℝ)} (h : fill .coeffref tr m cs = Res.ok m')
    (hpos : ∀ c ∈ cs, place tr c ∈ m.stored.map Prod.fst) : m'.stored.map Prod.fst = m.stored.map Prod.fst := by
  by_cases hin : AllInside tr m cs
  · rw [fill_eq _ _ _ _ hin] at h
    injection h with h
    rw [← h]
    have hz : (m.stored.map fun e => (e.1, (0 : ℝ))).map Prod.fst = m.stored.map Prod.fst := by simp [Function.comp_def]
    show (pour tr (m.stored.map fun e => (e.1, (0 : ℝ))) cs).map Prod.fst = _
    rw [pour_keys_subset tr cs _ (fun c hc => by rw [hz]; exact hpos c hc), hz]
  · rw [C27_outside _ tr m cs hin] at h
    cases h

theorem valid_initialize {N : Net} (hN : Admissible N) (G : Goals N) {s t : ℝ} {z : N.Point} {S : Store}
    (h : Net.initMatrices G s t z = Res.ok S) : Valid G S := by
  unfold Net.initMatrices at h
  obtain ⟨new, hnew, h⟩ := Res.bind_eq_ok.mp h
  obtain ⟨newT, f1, h⟩ := Res.bind_eq_ok.mp h
  obtain ⟨last, -, h⟩ := Res.bind_eq_ok.mp h
  obtain ⟨lastT, f2, h⟩ := Res.bind_eq_ok.mp h
  obtain ⟨c, -, h⟩ := Res.bind_eq_ok.mp h
  obtain ⟨control, f3, h⟩ := Res.bind_eq_ok.mp h
  obtain ⟨gs, -, h⟩ := Res.bind_eq_ok.mp h
  obtain ⟨gnewT, f4, h⟩ := Res.bind_eq_ok.mp h
  obtain ⟨gc, -, h⟩ := Res.bind_eq_ok.mp h
  obtain ⟨gcontrol, f5, h⟩ := Res.bind_eq_ok.mp h
  obtain ⟨fnewT, f6, h⟩ := Res.bind_eq_ok.mp h
  obtain ⟨fcontrol, f7, h⟩ := Res.bind_eq_ok.mp h
  injection h with h
  subst h
  refine ⟨fill_sizes f1, fill_sizes f2, fill_sizes f3, fill_sizes f4, fill_sizes f5, fill_sizes f6, fill_sizes f7, rfl, ?_⟩
  intro s' t' a cs hcs c hc
  have hin : AllInside true (⟨N.stateCount, N.stateCount, []⟩ : Sparse ℝ) new := by
    by_contra hn
    rw [C27_outside _ _ _ _ hn] at f1
    cases f1
  rw [fill_eq _ _ _ _ hin] at f1
  injection f1 with f1
  show (c.2.1, c.1) ∈ newT.stored.map Prod.fst
  rw [← f1]
  have hmem : pos c ∈ new.map pos := C70_same_positions N hN s' t' s t a (N.args z) cs new hcs hnew ▸ List.mem_map_of_mem hc
  obtain ⟨d, hd, e⟩ := List.mem_map.mp hmem
  have e := Prod.ext_iff.mp e
  refine (mem_pour_keys true new _ []).mpr (Or.inr ⟨d, hd, ?_⟩)
  have e1 : d.1 = c.1 := e.1
  have e2 : d.2.1 = c.2.1 := e.2
  simp [place, e1, e2]

theorem valid_updateEquation {N : Net} {G : Goals N} {s t : ℝ} {z : N.Point} {S S' : Store} (hS : Valid G S)
    (h : Net.updateEquation s t z S = Res.ok S') : Valid G S' ∧ S'.analyzed = S.analyzed := by
  unfold Net.updateEquation at h
  obtain ⟨last, -, h⟩ := Res.bind_eq_ok.mp h
  obtain ⟨lastT, f2, h⟩ := Res.bind_eq_ok.mp h
  obtain ⟨c, -, h⟩ := Res.bind_eq_ok.mp h
  obtain ⟨control, f3, h⟩ := Res.bind_eq_ok.mp h
  obtain ⟨new, hnew, h⟩ := Res.bind_eq_ok.mp h
  obtain ⟨newT, f1, h⟩ := Res.bind_eq_ok.mp h
  injection h with h
  subst h
  have e1 := fill_sizes f1
  have e2 := fill_sizes f2
  have e3 := fill_sizes f3
  have hk : newT.stored.map Prod.fst = S.newT.stored.map Prod.fst :=
    fill_keys f1 fun c hc => by
      rw [hS.analyzed]
      simpa [place] using hS.pattern _ _ _ _ hnew c hc
  exact ⟨⟨⟨e1.1.trans hS.newT.1, e1.2.trans hS.newT.2⟩, ⟨e2.1.trans hS.lastT.1, e2.2.trans hS.lastT.2⟩,
    ⟨e3.1.trans hS.control.1, e3.2.trans hS.control.2⟩, hS.gnewT, hS.gcontrol, hS.fnewT, hS.fcontrol, hk.trans hS.analyzed, hS.pattern⟩, rfl⟩

theorem valid_updateCost {N : Net} {G : Goals N} {z : N.Point} {S S' : Store} (hS : Valid G S)
    (h : Net.updateCost G z S = Res.ok S') : Valid G S' ∧ S'.analyzed = S.analyzed := by
  unfold Net.updateCost at h
  obtain ⟨fnewT, f1, h⟩ := Res.bind_eq_ok.mp h
  obtain ⟨fcontrol, f2, h⟩ := Res.bind_eq_ok.mp h
  injection h with h
  subst h
  have e1 := fill_sizes f1
  have e2 := fill_sizes f2
  exact ⟨⟨hS.newT, hS.lastT, hS.control, hS.gnewT, hS.gcontrol, ⟨e1.1.trans hS.fnewT.1, e1.2.trans hS.fnewT.2⟩,
    ⟨e2.1.trans hS.fcontrol.1, e2.2.trans hS.fcontrol.2⟩, hS.analyzed, hS.pattern⟩, rfl⟩

theorem valid_updateConstraint {N : Net} {G : Goals N} {z : N.Point} {S S' : Store} (hS : Valid G S)
    (h : Net.updateConstraint G z S = Res.ok S') : Valid G S' ∧ S'.analyzed = S.analyzed := by
  unfold Net.updateConstraint at h
  obtain ⟨_, -, h⟩ := Res.bind_eq_ok.mp h
  obtain ⟨gnewT, f1, h⟩ := Res.bind_eq_ok.mp h
  obtain ⟨_, -, h⟩ := Res.bind_eq_ok.mp h
  obtain ⟨gcontrol, f2, h⟩ := Res.bind_eq_ok.mp h
  injection h with h
  subst h
  have e1 := fill_sizes f1
  have e2 := fill_sizes f2
  exact ⟨⟨hS.newT, hS.lastT, hS.control, ⟨e1.1.trans hS.gnewT.1, e1.2.trans hS.gnewT.2⟩,
    ⟨e2.1.trans hS.gcontrol.1, e2.2.trans hS.gcontrol.2⟩, hS.fnewT, hS.fcontrol, hS.analyzed, hS.pattern⟩, rfl⟩

theorem valid_step {N : Net} {G : Goals N} {I : Input N.stateCount N.controlCount G.count ℝ} {z : N.Point} {i : ℕ}
    {s : State N.stateCount N.controlCount G.count ℝ} {S : Store} (hS : Valid G S)
    {r : Option (State N.stateCount N.controlCount G.count ℝ) × Store} (h : stepStored G I z i s S = Res.ok r) :
    Valid G r.2 ∧ r.2.analyzed = S.analyzed := by
  unfold stepStored at h
  obtain ⟨S1, h1, h⟩ := Res.bind_eq_ok.mp h
  obtain ⟨v1, a1⟩ := valid_updateEquation hS h1
  split at h
  · cases h
  split at h
  · injection h with h; subst h; exact ⟨v1, a1⟩
  · obtain ⟨S2, h2, h⟩ := Res.bind_eq_ok.mp h
    obtain ⟨v2, a2⟩ := valid_updateCost v1 h2
    obtain ⟨S3, h3, h⟩ := Res.bind_eq_ok.mp h
    obtain ⟨o, -, h⟩ := Res.bind_eq_ok.mp h
    injection h with h
    subst h
    show Valid G S3 ∧ S3.analyzed = S.analyzed
    split at h3
    · split at h3
      · obtain ⟨v3, a3⟩ := valid_updateConstraint v2 h3
        exact ⟨v3, a3.trans (a2.trans a1)⟩
      · injection h3 with h3; subst h3; exact ⟨v2, a2.trans a1⟩
    · injection h3 with h3; subst h3; exact ⟨v2, a2.trans a1⟩

theorem valid_sweep {N : Net} {G : Goals N} {I : Input N.stateCount N.controlCount G.count ℝ} {z : ℕ → N.Point} (n : ℕ) :
    ∀ {s : State N.stateCount N.controlCount G.count ℝ} {S : Store}, Valid G S →
      ∀ {r : Option (State N.stateCount N.controlCount G.count ℝ) × Store}, sweepStored G I z n s S = Res.ok r →
        Valid G r.2 ∧ r.2.analyzed = S.analyzed := by
  induction n with
  | zero => intro s S hS r h; injection h with h; subst h; exact ⟨hS, rfl⟩
  | succ i ih =>
    intro s S hS r h
    unfold sweepStored at h
    obtain ⟨r1, h1, h⟩ := Res.bind_eq_ok.mp h
    obtain ⟨v1, a1⟩ := valid_step hS h1
    split at h
    · injection h with h; subst h; exact ⟨v1, a1⟩
    · obtain ⟨v, a⟩ := ih v1 h
      exact ⟨v, a.trans a1⟩

theorem valid_reachable {N : Net} (hN : Admissible N) {G : Goals N} {I : Input N.stateCount N.controlCount G.count ℝ} {n : ℕ}
    {S : Option Store} (h : Reachable G I n S) : ∀ S', S = some S' → Valid G S' := by
  induction h with
  | start => intro S' h; cases h
  | call S S1 z o hr hc ih =>
    intro S' h
    injection h with h
    subst h
    unfold computeStored at hc
    obtain ⟨S0, h0, hc⟩ := Res.bind_eq_ok.mp hc
    have v0 : Valid G S0 := by
      cases S with
      | some S => injection h0 with h0; subst h0; exact ih S rfl
      | none => exact valid_initialize hN G h0
    exact (valid_sweep n v0 hc).1

/-- What filling through references gives, transposed. -/
theorem fill_transposed {n m : ℕ} {M M' : Sparse ℝ} {cs : List (Contribution ℝ)} (h : fill .coeffref true M cs = Res.ok M') :
    (Matrix.of fun (i : Fin n) (j : Fin m) => M'.coeff j.val i.val) = matrixOf n m cs := by
  by_cases hin : AllInside true M cs
  · obtain ⟨m₁, e, -, -, h1⟩ := C27_entries .coeffref true M cs hin
    rw [h] at e
    injection e with e
    subst e
    ext i j
    simpa [matrixOf] using h1 i.val j.val
  · rw [C27_outside _ _ _ _ hin] at h; cases h

theorem fill_plain {n m : ℕ} {M M' : Sparse ℝ} {cs : List (Contribution ℝ)} (h : fill .coeffref false M cs = Res.ok M') :
    (Matrix.of fun (i : Fin n) (j : Fin m) => M'.coeff i.val j.val) = matrixOf n m cs := by
  by_cases hin : AllInside false M cs
  · obtain ⟨m₁, e, -, -, h1⟩ := C27_entries .coeffref false M cs hin
    rw [h] at e
    injection e with e
    subst e
    ext i j
    simpa [matrixOf] using h1 i.val j.val
  · rw [C27_outside _ _ _ _ hin] at h; cases h

theorem fill_some {kind : Kind} {tr : Bool} {m : Sparse ℝ} {cs : List (Contribution ℝ)} (hin : AllInside tr m cs) :
    ∃ m', fill kind tr m cs = Res.ok m' := by
  obtain ⟨m', h, -⟩ := C27_entries kind tr m cs hin
  exact ⟨m', h⟩

section
variable {N : Net} (hN : Admissible N) (G : Goals N) (hG : G.Attached)
include hN

theorem new_inside {s t : ℝ} {a : Args} {cs : List (Contribution ℝ)} (h : N.dNew s t a = Res.ok cs) {M : Sparse ℝ}
    (h1 : M.rows = N.stateCount) (h2 : M.cols = N.stateCount) : AllInside true M cs := by
  intro c hc
  have := (C70_inside N hN).1 s t a cs h c hc
  simp only [if_true, h1, h2]
  unfold Net.stateCount
  omega

theorem last_inside {cs : List (Contribution ℝ)} (h : N.dLast = Res.ok cs) {M : Sparse ℝ}
    (h1 : M.rows = N.stateCount) (h2 : M.cols = N.stateCount) : AllInside true M cs := by
  intro c hc
  have := (C70_inside N hN).2.1 cs h c hc
  simp only [if_true, h1, h2]
  unfold Net.stateCount
  omega

theorem control_inside {cs : List (Contribution ℝ)} (h : N.dControl = Res.ok cs) {M : Sparse ℝ}
    (h1 : M.rows = N.stateCount) (h2 : M.cols = N.controlCount) : AllInside false M cs := by
  intro c hc
  have := (C70_inside N hN).2.2 cs h c hc
  simp only [Bool.false_eq_true, if_false, h1, h2]
  unfold Net.stateCount Net.controlCount
  omega

include hG in
theorem constraint_inside {x u : Vec} {cs : List (Contribution ℝ)} (h : Net.dConstraintState G x u = Res.ok cs) {M : Sparse ℝ}
    (h1 : M.rows = N.stateCount) (h2 : M.cols = G.count) : AllInside true M cs := by
  intro c hc
  rw [(constraint_ok hN G hG x u).2.1] at h
  injection h with h
  rw [← h] at hc
  obtain ⟨v, hv, hc⟩ := List.mem_flatMap.mp hc
  simp only [List.mem_singleton] at hc
  subst hc
  have hc := (List.mem_filter.mp hv).2
  have b1 := (nodeConstraint_ok hN G hG hc x).2.2
  have b2 := constraint_bounds G hc
  simp only [if_true, h1, h2]
  unfold Net.stateCount Goals.count
  omega

omit hN in
theorem fnew_inside {x u : Vec} {M : Sparse ℝ} : AllInside true M (Net.dCostState G x u ++ Net.dPenalty G x u) := by
  have : Net.dCostState G x u ++ Net.dPenalty G x u = [] := by simp [Net.dCostState, Net.dPenalty]
  rw [this]
  intro c hc
  cases hc

omit hN in
theorem fcontrol_inside {x u : Vec} {M : Sparse ℝ} (h1 : M.rows = 1) (h2 : M.cols = N.controlCount) :
    AllInside false M (Net.dCostControl G x u ++ Net.dPenalty G x u) := by
  intro c hc
  obtain ⟨e, b⟩ := cost_inside G x u c hc
  simp only [Bool.false_eq_true, if_false, h1, h2]
  omega

include hG in
/-- The first evaluation succeeds if the derivatives can be computed. -/
theorem initialize_ok {s t : ℝ} {z : N.Point} {d : StepData N.stateCount N.controlCount G.count ℝ}
    (hd : N.stepData G s t z = Res.ok d) : ∃ S, Net.initMatrices G s t z = Res.ok S := by
  unfold Net.stepData at hd
  obtain ⟨new, e1, hd⟩ := Res.bind_eq_ok.mp hd
  obtain ⟨last, e2, hd⟩ := Res.bind_eq_ok.mp hd
  obtain ⟨control, e3, hd⟩ := Res.bind_eq_ok.mp hd
  obtain ⟨gs, e4, hd⟩ := Res.bind_eq_ok.mp hd
  obtain ⟨gc, e5, hd⟩ := Res.bind_eq_ok.mp hd
  obtain ⟨m1, f1⟩ := fill_some (kind := .triplet) (new_inside hN e1 (M := ⟨N.stateCount, N.stateCount, []⟩) rfl rfl)
  obtain ⟨m2, f2⟩ := fill_some (kind := .triplet) (last_inside hN e2 (M := ⟨N.stateCount, N.stateCount, []⟩) rfl rfl)
  obtain ⟨m3, f3⟩ := fill_some (kind := .triplet) (control_inside hN e3 (M := ⟨N.stateCount, N.controlCount, []⟩) rfl rfl)
  obtain ⟨m4, f4⟩ := fill_some (kind := .triplet) (constraint_inside hN G hG e4 (M := ⟨N.stateCount, G.count, []⟩) rfl rfl)
  have hgc : gc = [] := by
    have := (constraint_ok hN G hG (ext z.2.1) (ext z.2.2)).2.2
    rw [e5] at this
    injection this
  obtain ⟨m5, f5⟩ := fill_some (kind := .triplet) (tr := false) (m := (⟨G.count, N.controlCount, []⟩ : Sparse ℝ)) (cs := gc)
    (by rw [hgc]; intro c hc; cases hc)
  obtain ⟨m6, f6⟩ := fill_some (kind := .triplet) (fnew_inside G (x := ext z.2.1) (u := ext z.2.2) (M := ⟨N.stateCount, 1, []⟩))
  obtain ⟨m7, f7⟩ := fill_some (kind := .triplet) (fcontrol_inside G (x := ext z.2.1) (u := ext z.2.2)
    (M := ⟨1, N.controlCount, []⟩) rfl rfl)
  exact ⟨_, by unfold Net.initMatrices; simp only [e1, f1, e2, f2, e3, f3, e4, f4, e5, f5, f6, f7, Res.ok_bind]; rfl⟩

end

/-- A step of the sweep looks at the constraint derivatives only if there is a constraint at this time. -/
theorem step_congr {n m r : ℕ} (I : Input n m r ℝ) (f f' : ℕ → StepData n m r ℝ) (i : ℕ) (s : State n m r ℝ)
    (h1 : (f i).dEdnew = (f' i).dEdnew) (h2 : (f i).dEdlast = (f' i).dEdlast) (h3 : (f i).dEdcontrol = (f' i).dEdcontrol)
    (h4 : (f i).dfdnew = (f' i).dfdnew) (h5 : (f i).dfdcontrol = (f' i).dfdcontrol)
    (h6 : 0 < r → isNewConstraint I s.constraintIndex i = Res.ok true →
      (f i).dgdnew = (f' i).dgdnew ∧ (f i).dgdcontrol = (f' i).dgdcontrol) :
    step { I with data := f } i s = step { I with data := f' } i s := by
  unfold step
  simp only [h1, h2, h3, h4, h5]
  split
  · rfl
  · congr 1
    funext g
    split
    · rename_i hr
      have : ∀ s' : State n m r ℝ, s'.constraintIndex = s.constraintIndex →
          constraintStep { I with data := f } i s' = constraintStep { I with data := f' } i s' := by
        intro s' hs'
        unfold constraintStep
        have e : ∀ f : ℕ → StepData n m r ℝ, isNewConstraint { I with data := f } s'.constraintIndex i =
            isNewConstraint I s.constraintIndex i := fun f => by rw [hs']; rfl
        rw [e, e]
        cases hnew : isNewConstraint I s.constraintIndex i with
        | throws => rfl
        | ub => rfl
        | ok b =>
          simp only [Res.ok_bind]
          cases b with
          | true =>
            obtain ⟨g1, g2⟩ := h6 hr hnew
            simp only [h1, h2, h3, g1, g2]
          | false =>
            simp only [h1, h2, h3, Bool.false_eq_true, false_and, if_false]
      exact congrArg (fun r => r >>= fun s => Res.ok (some s)) (this _ rfl)
    · rfl

/-- One step on stored matrices is one step on fresh ones. -/
theorem stepStored_eq {N : Net} (hN : Admissible N) (G : Goals N) (hG : G.Attached)
    (I : Input N.stateCount N.controlCount G.count ℝ) (z : N.Point) (i : ℕ) (s : State N.stateCount N.controlCount G.count ℝ)
    {S : Store} (hS : Valid G S) (hd : N.stepData G (I.time (i - 1)) (I.time i) z = Res.ok (I.data i)) :
    ∃ S', Valid G S' ∧ S'.analyzed = S.analyzed ∧ stepStored G I z i s S = (step I i s >>= fun o => Res.ok (o, S')) := by
  have hd' := hd
  unfold Net.stepData at hd'
  obtain ⟨new, e1, hd'⟩ := Res.bind_eq_ok.mp hd'
  obtain ⟨last, e2, hd'⟩ := Res.bind_eq_ok.mp hd'
  obtain ⟨control, e3, hd'⟩ := Res.bind_eq_ok.mp hd'
  obtain ⟨gs, e4, hd'⟩ := Res.bind_eq_ok.mp hd'
  obtain ⟨gc, e5, hd'⟩ := Res.bind_eq_ok.mp hd'
  injection hd' with hd'
  obtain ⟨m1, f1⟩ := fill_some (kind := .coeffref) (new_inside hN e1 hS.newT.1 hS.newT.2)
  obtain ⟨m2, f2⟩ := fill_some (kind := .coeffref) (last_inside hN e2 hS.lastT.1 hS.lastT.2)
  obtain ⟨m3, f3⟩ := fill_some (kind := .coeffref) (control_inside hN e3 hS.control.1 hS.control.2)
  obtain ⟨m4, f4⟩ := fill_some (kind := .coeffref) (constraint_inside hN G hG e4 hS.gnewT.1 hS.gnewT.2)
  have hgc : gc = [] := by
    have := (constraint_ok hN G hG (ext z.2.1) (ext z.2.2)).2.2
    rw [e5] at this
    injection this
  obtain ⟨m5, f5⟩ := fill_some (kind := .coeffref) (tr := false) (m := S.gcontrol) (cs := gc)
    (by rw [hgc]; intro c hc; cases hc)
  obtain ⟨m6, f6⟩ := fill_some (kind := .coeffref) (fnew_inside G (x := ext z.2.1) (u := ext z.2.2) (M := S.fnewT))
  obtain ⟨m7, f7⟩ := fill_some (kind := .coeffref) (fcontrol_inside G (x := ext z.2.1) (u := ext z.2.2) hS.fcontrol.1 hS.fcontrol.2)
  have u1 : Net.updateEquation (I.time (i - 1)) (I.time i) z S = Res.ok { S with newT := m1, lastT := m2, control := m3 } := by
    unfold Net.updateEquation
    simp only [e1, e2, e3, f1, f2, f3, Res.ok_bind]
  obtain ⟨v1, a1⟩ := valid_updateEquation hS u1
  have u2 : Net.updateCost G z { S with newT := m1, lastT := m2, control := m3 } =
      Res.ok { S with newT := m1, lastT := m2, control := m3, fnewT := m6, fcontrol := m7 } := by
    unfold Net.updateCost
    simp only [f6, f7, Res.ok_bind]
  obtain ⟨v2, a2⟩ := valid_updateCost v1 u2
  have u3 : Net.updateConstraint G z { S with newT := m1, lastT := m2, control := m3, fnewT := m6, fcontrol := m7 } =
      Res.ok { S with newT := m1, lastT := m2, control := m3, fnewT := m6, fcontrol := m7, gnewT := m4, gcontrol := m5 } := by
    unfold Net.updateConstraint
    simp only [e4, e5, f4, f5, Res.ok_bind]
  obtain ⟨v3, a3⟩ := valid_updateConstraint v2 u3
  have d1 : (Matrix.of fun (i : Fin N.stateCount) (j : Fin N.stateCount) => m1.coeff j.val i.val) = (I.data i).dEdnew := by
    rw [← hd', fill_transposed f1]
  have d2 : (Matrix.of fun (i : Fin N.stateCount) (j : Fin N.stateCount) => m2.coeff j.val i.val) = (I.data i).dEdlast := by
    rw [← hd', fill_transposed f2]
  have d3 : (Matrix.of fun (i : Fin N.stateCount) (j : Fin N.controlCount) => m3.coeff i.val j.val) = (I.data i).dEdcontrol := by
    rw [← hd', fill_plain f3]
  have d4 : (Matrix.of fun (i : Fin G.count) (j : Fin N.stateCount) => m4.coeff j.val i.val) = (I.data i).dgdnew := by
    rw [← hd', fill_transposed f4]
  have d5 : (Matrix.of fun (i : Fin G.count) (j : Fin N.controlCount) => m5.coeff i.val j.val) = (I.data i).dgdcontrol := by
    rw [← hd', fill_plain f5]
  have d6 : (fun j : Fin N.stateCount => m6.coeff j.val 0) = (I.data i).dfdnew := by
    rw [← hd']
    funext j
    have := congrFun (congrFun (fill_transposed (n := 1) (m := N.stateCount) f6) 0) j
    simpa [matrixOf, rowOf] using this
  have d7 : (fun j : Fin N.controlCount => m7.coeff 0 j.val) = (I.data i).dfdcontrol := by
    rw [← hd']
    funext j
    have := congrFun (congrFun (fill_plain (n := 1) (m := N.controlCount) f7) 0) j
    simpa [matrixOf, rowOf] using this
  have hIeq : I = { I with data := I.data } := rfl
  unfold stepStored
  rw [u1]
  simp only [Res.ok_bind]
  rw [if_neg (by rw [not_not]; exact v1.analyzed)]
  have hdet : (Store.data { S with newT := m1, lastT := m2, control := m3 } N.stateCount N.controlCount G.count).dEdnew = (I.data i).dEdnew := d1
  rw [hdet]
  by_cases hz : ((I.data i).dEdnewᵀ).det = 0
  · refine ⟨_, v1, a1, ?_⟩
    rw [if_pos hz]
    unfold step
    simp only [hz, if_true, Res.ok_bind]
  · rw [if_neg hz, u2]
    simp only [Res.ok_bind]
    by_cases hnew : 0 < G.count ∧ isNewConstraint I s.constraintIndex i = Res.ok true
    · refine ⟨_, v3, a3.trans (a2.trans a1), ?_⟩
      rw [hnew.2]
      simp only [hnew.1, if_true, u3, Res.ok_bind]
      rw [step_congr I _ I.data i s d1 d2 d3 d6 d7 (fun _ _ => ⟨d4, d5⟩)]
    · refine ⟨_, v2, a2.trans a1, ?_⟩
      have e : (match isNewConstraint I s.constraintIndex i with
          | Res.ok true => if 0 < G.count then
              Net.updateConstraint G z { S with newT := m1, lastT := m2, control := m3, fnewT := m6, fcontrol := m7 }
            else Res.ok { S with newT := m1, lastT := m2, control := m3, fnewT := m6, fcontrol := m7 }
          | _ => Res.ok { S with newT := m1, lastT := m2, control := m3, fnewT := m6, fcontrol := m7 }) =
          Res.ok { S with newT := m1, lastT := m2, control := m3, fnewT := m6, fcontrol := m7 } := by
        split
        · rename_i ht
          rw [if_neg fun hc => hnew ⟨hc, ht⟩]
        · rfl
      rw [e]
      simp only [Res.ok_bind]
      rw [step_congr I _ I.data i s d1 d2 d3 d6 d7 (fun hr ht => absurd ⟨hr, ht⟩ hnew)]

theorem sweepStored_eq {N : Net} (hN : Admissible N) (G : Goals N) (hG : G.Attached)
    (I : Input N.stateCount N.controlCount G.count ℝ) (z : ℕ → N.Point) (n : ℕ) :
    ∀ (s : State N.stateCount N.controlCount G.count ℝ) {S : Store}, Valid G S →
    (∀ i, 1 ≤ i → i ≤ n → N.stepData G (I.time (i - 1)) (I.time i) (z i) = Res.ok (I.data i)) →
    ∃ S', Valid G S' ∧ S'.analyzed = S.analyzed ∧ sweepStored G I z n s S = (sweep I n s >>= fun o => Res.ok (o, S')) := by
  induction n with
  | zero => intro s S hS _; exact ⟨S, hS, rfl, rfl⟩
  | succ i ih =>
    intro s S hS hd
    obtain ⟨S1, v1, a1, e1⟩ := stepStored_eq hN G hG I (z (i + 1)) (i + 1) s hS (hd (i + 1) (by omega) le_rfl)
    unfold sweepStored sweep
    rw [e1]
    cases hstep : step I (i + 1) s with
    | throws => exact ⟨S1, v1, a1, rfl⟩
    | ub => exact ⟨S1, v1, a1, rfl⟩
    | ok o =>
      simp only [Res.ok_bind]
      cases o with
      | none => exact ⟨S1, v1, a1, rfl⟩
      | some s1 =>
        obtain ⟨S2, v2, a2, e2⟩ := ih s1 v1 (fun j h1 h2 => hd j h1 (by omega))
        exact ⟨S2, v2, a2.trans a1, e2⟩

/-! ## Results -/

/-- C90. After any number of calls, whether they returned `true` or `false`, the matrix handed to the sparse solver has the pattern that was analyzed at the
beginning, which is what the solver relies on. -/
theorem C90_pattern (N : Net) (hN : Admissible N) (G : Goals N) (I : Input N.stateCount N.controlCount G.count ℝ) (n : ℕ) (S : Store)
    (h : Reachable G I n (some S)) : S.newT.stored.map Prod.fst = S.analyzed :=
  (valid_reachable hN h S rfl).analyzed

/-- C90. Whatever was computed before, in however many calls: the sweep in the reused matrices returns what the sweep with fresh matrices of
each step returns. -/
theorem C90_reuse (N : Net) (hN : Admissible N) (G : Goals N) (hG : G.Attached)
    (I : Input N.stateCount N.controlCount G.count ℝ) (n : ℕ) (hn : 1 ≤ n) (S : Option Store) (h : Reachable G I n S) (z : ℕ → N.Point)
    (hd : ∀ i, 1 ≤ i → i ≤ n → N.stepData G (I.time (i - 1)) (I.time i) (z i) = Res.ok (I.data i)) :
    ∃ S', computeStored G I z n S = (computeDerivatives I n >>= fun o => Res.ok (o, S')) := by
  have h0 : ∃ S0, (match S with
      | some S => Res.ok S
      | none => Net.initMatrices G (I.time (n - 1)) (I.time n) (z n)) = Res.ok S0 ∧ Valid G S0 := by
    cases S with
    | some S => exact ⟨S, rfl, valid_reachable hN h S rfl⟩
    | none =>
      obtain ⟨S0, e⟩ := initialize_ok hN G hG (hd n hn le_rfl)
      exact ⟨S0, e, valid_initialize hN G e⟩
  obtain ⟨S0, e0, v0⟩ := h0
  obtain ⟨S', -, -, e⟩ := sweepStored_eq hN G hG I z n (State.init I) v0 hd
  exact ⟨S', by unfold computeStored; rw [e0, Res.ok_bind, e]; rfl⟩

/-- C90 with C73: after any number of calls, for other controls or the same, the sweep in the reused matrices returns the derivative of the discretised
objective and the Jacobian of the constraints (with the same exceptions as C73). -/
theorem C90_gradient_partial (N : Net) (hN : Admissible N) (G : Goals N) (hw : G.netWeight = 1) (hG : G.Attached)
    {states controls cons : List ℝ} {I : Input N.stateCount N.controlCount G.count ℝ}
    (hI : FromOptimizer I states controls cons) (hs : states.Pairwise (· < ·))
    (hu : controls.Pairwise (· < ·)) (hs0 : 1 < states.length) (hu0 : 0 < controls.length)
    (hfront : controls[0] ≤ states[0])
    (hback : states[states.length - 1] < controls[controls.length - 1] + EPSILON)
    (hacc : checkConstraintTimes states cons = Res.ok ())
    (hread : 0 < G.count → (cons ≠ [] ∧ cons.head? = states.tail.head?) ∨
      ∃ v, I.oob = some v ∧ v ∉ states.tail)
    {x : ℕ → (Fin controls.length → Fin N.controlCount → ℝ) → (Fin N.stateCount → ℝ)}
    {V₀ : Fin controls.length → Fin N.controlCount → ℝ}
    (hx : Simulated N states I x V₀)
    (hdata : ∀ i (_ : 1 ≤ i) (hi : i < states.length),
      N.stepData G states[i - 1] states[i] (x (i - 1) V₀, x i V₀, control I i V₀) = Res.ok (I.data i))
    (hdet : ∀ i, 1 ≤ i → i < states.length → (I.data i).dEdnew.det ≠ 0)
    (S : Option Store) (hS : Reachable G I (states.length - 1) S) :
    ∃ s S', computeStored G I (fun i => (x (i - 1) V₀, x i V₀, control I i V₀)) (states.length - 1) S = Res.ok (some s, S') ∧
      (∃ D : (Fin controls.length → Fin N.controlCount → ℝ) →L[ℝ] ℝ,
        HasFDerivAt (fun V => Verif.Weights.accumulate I.weight
          (fun i => G.objective (x i V, control I i V)) states.length) D V₀ ∧
        ∀ dV, D dV = ∑ j : Fin controls.length, s.gradient j ⬝ᵥ dV j) ∧
      ∀ (k : ℕ) (hk : k < cons.length), ∃ p, ∃ hp : p < states.length, states[p] = cons[k] ∧
        ∃ D : (Fin controls.length → Fin N.controlCount → ℝ) →L[ℝ] (Fin G.count → ℝ),
          Derives (fun V => G.constraintVector (x p V, control I p V)) D V₀ ∧
          ∀ dV, D dV = ∑ j : Fin controls.length, s.jacobian k j *ᵥ dV j := by
  obtain ⟨s, h1, h2, h3⟩ := C73_network_gradient_partial N hN G hw hG hI hs hu (by omega) hu0 hfront hback hacc hread hx hdata hdet
  obtain ⟨S', h⟩ := C90_reuse N hN G hG I (states.length - 1) (by omega) S hS (fun i => (x (i - 1) V₀, x i V₀, control I i V₀))
    (fun i i1 i2 => by
      rw [hI.time i (by omega), hI.time (i - 1) (by omega)]
      exact hdata i i1 (by omega))
  exact ⟨s, S', by rw [h, h1, Res.ok_bind], h2, h3⟩

/-- The second of two calls for the compressor of `OptimizeExample`. -/
example : ∃ s S S', Reachable (chainGoals 1) chainInput 1 (some S) ∧
    computeStored (chainGoals 1) chainInput (fun i => (chainState (i - 1) (fun _ _ => 5), chainState i (fun _ _ => 5),
      Adjoint.control (q := 2) chainInput i (fun _ _ => 5))) 1 (some S) = Res.ok (some s, S') := by
  have key := fun S hS => C90_gradient_partial chainNet chain_admissible (chainGoals 1) rfl (chain_attached 1)
    chain_optimizer (by simp) (by simp) (by simp) (by simp) (by simp) (by simp [EPSILON]) (by simp [checkConstraintTimes, scan])
    (fun _ => Or.inl (by simp)) chain_simulated chain_data (fun i _ _ => chain_det) S hS
  obtain ⟨s₁, S₁, h₁, -⟩ := key none .start
  have hr : Reachable (chainGoals 1) chainInput 1 (some S₁) := .call none S₁ _ (some s₁) .start h₁
  obtain ⟨s, S', h, -⟩ := key (some S₁) hr
  exact ⟨s, S₁, S', hr, h⟩

end Verif.Network
