import Verif.Net.Vector
import Verif.Box.Model
import Verif.Euler.Model
import Mathlib.Algebra.Order.Floor.Ring
import Mathlib.Data.Real.Archimedean

/-!
# Model of the gas components

Sources: `/repo/src/Model/Networkproblem/Gas/`. An edge is modelled by its type, the indices of its states and
of its control, and a number that stands for the identity of the object (pointers to edges are
compared). Checks that the indices were set before are left out. Boundary values are read by the
callers in `Verif.Network`.
-/

set_option autoImplicit false

namespace Verif.Gas

open Verif.Net Verif.Euler Verif.Handler Verif.Box

/-- `Direction` — `Gasedge.hpp`: `start` is `1`, `end` is `-1`. -/
inductive Dir
  | start
  | stop
  deriving DecidableEq

/-- `static_cast<int>(direction)`. -/
def Dir.sign : Dir → ℝ
  | .start => 1
  | .stop => -1

/-- The types of gas edges, with the data their equations use: cell width, diameter and roughness of a pipe, the
two coefficients of a connection to the power grid. -/
inductive Kind
  | pipe (dx d k : ℝ)
  | shortpipe
  | controlvalve
  | compressor
  | gaspower (gas2power power2gas : ℝ)

/-- A gas edge after the indices were set. -/
structure Edge where
  id : ℕ
  kind : Kind
  first : ℤ
  after : ℤ
  control : ℤ

/-- `boundary_equation_index` — `Gasedge.cpp` 40-61. -/
def boundaryEquation (e : Edge) : Dir → ℤ
  | .start => e.first
  | .stop => e.after - 1

/-- `get_equation_start_index` — `Gasedge.cpp` 76-78. -/
def equationStart (e : Edge) : ℤ := e.first + 1

/-- `get_equation_after_index` — `Gasedge.cpp` 79-81. -/
def equationAfter (e : Edge) : ℤ := e.after - 1

/-- `get_boundary_state_index` — `Gasedge.cpp` 83-119. -/
def boundaryState (e : Edge) : Dir → Res ℤ
  | .start => Res.ok e.first
  | .stop => if e.after - e.first = 2 then Res.throws else Res.ok (e.after - 2)

noncomputable section

/-- `get_boundary_p_qvol_bar` — `Pipe.cpp` 258-264, `Shortcomponent.cpp` 83-87,
`Gaspowerconnection.cpp` 148-152, with `get_boundary_state` — `Gasedge.cpp` 120-152. -/
def boundaryPQ (e : Edge) (dir : Dir) (state : Vec) : Res (ℝ × ℝ) := do
  let i ← boundaryState e dir
  match e.kind with
  | .pipe _ _ _ => Res.ok (toBar (pQvol (segment state i)))
  | _ => Res.ok (segment state i)

/-- `dboundary_p_qvol_dstate` — `Pipe.cpp` 266-288, `Shortcomponent.cpp` 89-100,
`Gaspowerconnection.cpp` 154-164. -/
def dBoundaryPQ (e : Edge) (dir : Dir) (fd : ℝ × ℝ) (row : ℤ) (state : Vec) :
    Res (List (Contribution ℝ)) := do
  let i ← boundaryState e dir
  match e.kind with
  | .pipe _ _ _ =>
    let b := segment state i
    let pq := pQvol b
    let derivative := rowMul fd ((dToBar pq).mul (dPQvol b))
    Res.ok [(row, i, derivative.1), (row, i + 1, derivative.2)]
  | _ => Res.ok [(row, i, fd.1), (row, i + 1, fd.2)]

/-! ## Nodes -/

/-- An edge attached to a node, with its direction: an element of `directed_attached_gas_edges`. -/
abbrev End := Dir × Edge

/-- The loop in `evaluate_flow_node_balance` — `Gasnode.cpp` 58-71. -/
def balanceLoop (state : Vec) (lastRow : ℤ) (oldRow : ℤ) (oldP : ℝ) : List End → Res (List Op)
  | [] => Res.ok []
  | (dir, e) :: rest => do
    let pq ← boundaryPQ e dir state
    let ops ← balanceLoop state lastRow (boundaryEquation e dir) pq.1 rest
    Res.ok (.set oldRow (pq.1 - oldP) :: .inc lastRow (dir.sign * pq.2) :: ops)

/-- `evaluate_flow_node_balance` — `Gasnode.cpp` 29-72. -/
def flowBalance (ends : List End) (state : Vec) (prescribed : ℝ) : Res (List Op) :=
  match ends with
  | [] => Res.ok []
  | (dir0, e0) :: rest => do
    let pq0 ← boundaryPQ e0 dir0 state
    let l := (List.getLast ((dir0, e0) :: rest) (by simp))
    let lastRow := boundaryEquation l.2 l.1
    let ops ← balanceLoop state lastRow (boundaryEquation e0 dir0) pq0.1 rest
    Res.ok (.set lastRow (-1 * prescribed) :: .inc lastRow (dir0.sign * pq0.2) :: ops)

/-- The loop in `evaluate_flow_node_derivative` — `Gasnode.cpp` 106-128; it also returns the last value of
`old_equation_index`. -/
def derivativeLoop (state : Vec) (lastRow : ℤ) (oldRow : ℤ) :
    List End → Res (List (Contribution ℝ) × ℤ)
  | [] => Res.ok ([], oldRow)
  | (dir, e) :: rest => do
    let row := boundaryEquation e dir
    let c1 ← dBoundaryPQ e dir (1, 0) oldRow state
    let c2 ← dBoundaryPQ e dir (-1, 0) row state
    let c3 ← dBoundaryPQ e dir (0, dir.sign) lastRow state
    let (cs, old) ← derivativeLoop state lastRow row rest
    Res.ok (c1 ++ c2 ++ c3 ++ cs, old)

/-- `evaluate_flow_node_derivative` — `Gasnode.cpp` 74-136. -/
def flowDerivative (ends : List End) (state : Vec) : Res (List (Contribution ℝ)) :=
  match ends with
  | [] => Res.ok []
  | (dir0, e0) :: rest => do
    let l := (List.getLast ((dir0, e0) :: rest) (by simp))
    let lastRow := boundaryEquation l.2 l.1
    let c0 ← dBoundaryPQ e0 dir0 (0, dir0.sign) lastRow state
    if e0.id = l.2.id then Res.ok c0
    else do
      let c1 ← dBoundaryPQ e0 dir0 (-1, 0) (boundaryEquation e0 dir0) state
      let (cs, old) ← derivativeLoop state lastRow (boundaryEquation e0 dir0) rest.dropLast
      let c2 ← dBoundaryPQ l.2 l.1 (1, 0) old state
      let c3 ← dBoundaryPQ l.2 l.1 (0, l.1.sign) lastRow state
      Res.ok (c0 ++ c1 ++ cs ++ c2 ++ c3)

/-- `Pressureboundarynode::evaluate` — `Pressureboundarynode.cpp` 40-58. -/
def pressureBalance (ends : List End) (state : Vec) (prescribed : ℝ) : Res (List Op) :=
  forEach ends fun x => do
    let pq ← boundaryPQ x.2 x.1 state
    Res.ok [.set (boundaryEquation x.2 x.1) (pq.1 - prescribed)]

/-- `Pressureboundarynode::d_evaluate_d_new_state` — `Pressureboundarynode.cpp` 60-78. -/
def pressureDerivative (ends : List End) (state : Vec) : Res (List (Contribution ℝ)) :=
  forEach ends fun x => dBoundaryPQ x.2 x.1 (1, 0) (boundaryEquation x.2 x.1) state

/-! ## Edges -/

/-- `number_of_points` — `Pipe.cpp` 77-81. Converting a number that is no `int` is undefined, also the
infinite quotient by zero. -/
def numberOfPoints (length wished : ℝ) : Res ℤ :=
  if wished = 0 then Res.ub
  else if -2147483648 ≤ ⌈length / wished⌉ ∧ ⌈length / wished⌉ + 1 ≤ 2147483647 then
    Res.ok (⌈length / wished⌉ + 1)
  else Res.ub

/-- `Delta_x` — `Pipe.cpp` 82-84. -/
def cellWidth (length : ℝ) (n : ℤ) : ℝ := length / ((n : ℝ) - 1)

/-- The values `i` takes in the loops of `Pipe.cpp` (94-95, 114-115, 155-156): from `equationStart` in steps of two
to `equationAfter` (exclusive). That the loop `i != after; i += 2` ends there is `C38_loop`. -/
def cells (e : Edge) : List ℤ :=
  (List.range ((equationAfter e - equationStart e) / 2).toNat).map fun (j : ℕ) =>
    equationStart e + 2 * (j : ℤ)

/-- One pass of the loop in `Pipe::evaluate` — `Pipe.cpp` 96-106. -/
def cellEvaluate (dx d k lastTime newTime : ℝ) (i : ℤ) (a : Args) : Res (List Op) := do
  let v ← evaluatePoint (eulerLaw d k) lastTime newTime dx (segment a.last (i - 1))
    (segment a.last (i + 1)) (segment a.new (i - 1)) (segment a.new (i + 1))
  Res.ok [.set i v.1, .set (i + 1) v.2]

/-- The eight calls of `add_to_coefficient` with the entries of the two matrices of a cell — `Pipe.cpp` 127-147 and
168-188. Entry (j, 0) of a matrix is component j of its value at (1, 0). -/
def cellEntries (i : ℤ) (left right : ℝ × ℝ →L[ℝ] ℝ × ℝ) : List (Contribution ℝ) :=
  [(i, i - 1, (left (1, 0)).1), (i, i, (left (0, 1)).1),
   (i + 1, i - 1, (left (1, 0)).2), (i + 1, i, (left (0, 1)).2),
   (i, i + 1, (right (1, 0)).1), (i, i + 2, (right (0, 1)).1),
   (i + 1, i + 1, (right (1, 0)).2), (i + 1, i + 2, (right (0, 1)).2)]

/-- One pass of the loop in `Pipe::d_evaluate_d_new_state` — `Pipe.cpp` 116-147. -/
def cellNew (dx d k lastTime newTime : ℝ) (i : ℤ) (a : Args) : Res (List (Contribution ℝ)) := do
  let l ← dNewLeft (eulerLaw d k) lastTime newTime dx (segment a.new (i - 1))
  let r ← dNewRight (eulerLaw d k) lastTime newTime dx (segment a.new (i + 1))
  Res.ok (cellEntries i l r)

/-- `evaluate` of the gas edges — `Pipe.cpp` 90-108, `Shortpipe.cpp` 31-38, `Controlvalve.cpp` 40-51,
`Compressorstation.cpp` 45-56. (The connection to the power grid is modelled in `Verif.Power`.) -/
def edgeEvaluate (e : Edge) (lastTime newTime : ℝ) (a : Args) : Res (List Op) :=
  match e.kind with
  | .pipe dx d k => forEach (cells e) fun i => cellEvaluate dx d k lastTime newTime i a
  | .shortpipe => do
    let s ← boundaryState e .start
    let t ← boundaryState e .stop
    let v := segment a.new s - segment a.new t
    Res.ok [.set (equationStart e) v.1, .set (equationStart e + 1) v.2]
  | .controlvalve => do
    let s ← boundaryState e .start
    let t ← boundaryState e .stop
    let v := segment a.new t - segment a.new s + (a.control e.control, 0)
    Res.ok [.set (equationStart e) v.1, .set (equationStart e + 1) v.2]
  | .compressor => do
    let s ← boundaryState e .start
    let t ← boundaryState e .stop
    let v := segment a.new t - segment a.new s - (a.control e.control, 0)
    Res.ok [.set (equationStart e) v.1, .set (equationStart e + 1) v.2]
  | .gaspower _ _ => Res.ok []

/-- `d_evaluate_d_new_state` of the gas edges — `Pipe.cpp` 110-149, `Shortpipe.cpp` 40-59, `Controlvalve.cpp` 53-72,
`Compressorstation.cpp` 58-77. -/
def edgeNew (e : Edge) (lastTime newTime : ℝ) (a : Args) : Res (List (Contribution ℝ)) :=
  let row := equationStart e
  match e.kind with
  | .pipe dx d k => forEach (cells e) fun i => cellNew dx d k lastTime newTime i a
  | .shortpipe => do
    let s ← boundaryState e .start
    let t ← boundaryState e .stop
    Res.ok [(row, s, 1), (row, t, -1), (row + 1, s + 1, 1), (row + 1, t + 1, -1)]
  | .controlvalve => do
    let s ← boundaryState e .start
    let t ← boundaryState e .stop
    Res.ok [(row, s, -1), (row, t, 1), (row + 1, s + 1, -1), (row + 1, t + 1, 1)]
  | .compressor => do
    let s ← boundaryState e .start
    let t ← boundaryState e .stop
    Res.ok [(row, s, -1), (row, t, 1), (row + 1, s + 1, -1), (row + 1, t + 1, 1)]
  | .gaspower _ _ => Res.ok []

/-- `d_evaluate_d_last_state` of the gas edges — `Pipe.cpp` 151-190; empty for the others. -/
def edgeLast (e : Edge) : Res (List (Contribution ℝ)) :=
  match e.kind with
  | .pipe _ _ _ => forEach (cells e) fun i => Res.ok (cellEntries i dLastLeft dLastRight)
  | _ => Res.ok []

/-- `d_evaluate_d_control` — `Controlvalve.cpp` 81-92, `Compressorstation.cpp` 86-97; the others are no
control components. -/
def edgeControl (e : Edge) : Res (List (Contribution ℝ)) :=
  match e.kind with
  | .controlvalve => Res.ok [(equationStart e, e.control, 1)]
  | .compressor => Res.ok [(equationStart e, e.control, -1)]
  | _ => Res.ok []

end

end Verif.Gas
