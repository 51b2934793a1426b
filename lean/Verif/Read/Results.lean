import Verif.Read.RunProps
import Verif.Output.Props

/-!
# Specification of the results in the file states.json

What a user finds in the file of results, by the ids of components, and what the input files say about it. Nothing here
mentions the network in the memory of the program: there are only files.
-/

set_option autoImplicit false

namespace Verif.Read

open Verif.Json Verif.Factory Verif.Interp Verif.Schema
open Verif.Output (Printed)

/-- The results by id and number of the time; those of gas components also by the number of the point. -/
structure Results where
  voltage : String → ℕ → ℝ
  angle : String → ℕ → ℝ
  active : String → ℕ → ℝ
  reactive : String → ℕ → ℝ
  points : String → ℕ
  position : String → ℕ → ℝ
  pressure : String → ℕ → ℕ → ℝ
  flow : String → ℕ → ℕ → ℝ

/-! ## What the file shows -/

section Shown
variable [Printed ℝ]

/-- The entry of a node of the grid for a time. -/
def ShowsPower (r : Results) (id : String) (time : ℝ) (i : ℕ) (e : Json) : Prop :=
  e.find? "time" = some (Output.number time) ∧ e.find? "V" = some (Output.number (r.voltage id i)) ∧
  e.find? "phi" = some (Output.number (r.angle id i)) ∧ e.find? "P" = some (Output.number (r.active id i)) ∧
  e.find? "Q" = some (Output.number (r.reactive id i))

/-- The entry of a gas component for a time. -/
def ShowsGas (r : Results) (id : String) (time : ℝ) (i : ℕ) (e : Json) : Prop :=
  e.find? "time" = some (Output.number time) ∧
  Output.Lists e "pressure" ((List.range (r.points id)).map fun k => (r.position id k, r.pressure id i k)) ∧
  Output.Lists e "flow" ((List.range (r.points id)).map fun k => (r.position id k, r.flow id i k))

/-- A component is in the file, with an entry for each time. -/
def InFile (out : Json) (cls type id : String) (times : List ℝ) (entry : ℝ → ℕ → Json → Prop) : Prop :=
  ∃ j ∈ Output.list out cls type, id? j = some id ∧ ∃ es, j.find? "data" = some (arr es) ∧ es.length = times.length ∧
    ∀ i (h : i < times.length) (h' : i < es.length), entry times[i] i es[i]

/-- The file shows these results for all nodes of the grid and all gas components of the topology, and nothing else. -/
structure ShownIn (out topology : Json) (times : List ℝ) (r : Results) : Prop where
  power : ∀ type x id, (type, x) ∈ entries (types topology "nodes") → type ∈ powerNodes → id? x = some id →
    InFile out "nodes" type id times (ShowsPower r id)
  gas : ∀ type x id, (type, x) ∈ entries (types topology "connections") → type ≠ "Transmissionline" → id? x = some id →
    InFile out "connections" type id times (ShowsGas r id)
  once : ∀ cls type, ((Output.list out cls type).map id?).Nodup
  only : ∀ cls type, ∀ j ∈ Output.list out cls type, ∃ x, (type, x) ∈ entries (types topology cls) ∧ id? x = id? j

end Shown

/-! ## What the topology says -/

/-- The id of a component. -/
def idOf (x : Json) : String := (id? x).getD ""

/-- The id under a key. -/
def nameAt (x : Json) (key : String) : Option String :=
  match x.find? key with
  | some (str s) => some s
  | _ => none

/-- The number under a key, or else the default. -/
def numberIn (defaults x : Json) (key : String) : ℝ :=
  match (x.find? key).or (defaults.find? key) with
  | some (num q) => q
  | _ => 0

/-- Is there a gas component at the node? -/
def Attached (topology : Json) (id : String) : Prop :=
  ∃ e ∈ entries (types topology "connections"), e.1 ≠ "Transmissionline" ∧
    (nameAt e.2 "from" = some id ∨ nameAt e.2 "to" = some id)

/-- The number of ends of gas components at a node. -/
def endsAt (topology : Json) (id : String) : ℕ :=
  ((entries (types topology "connections")).map fun e =>
    if e.1 = "Transmissionline" then 0
    else (if nameAt e.2 "from" = some id then 1 else 0) + if nameAt e.2 "to" = some id then 1 else 0).sum

namespace Results
variable (r : Results)

/-- What flows from a node into gas components, minus what comes from these. -/
def netFlow (topology : Json) (id : String) (i : ℕ) : ℝ :=
  ((entries (types topology "connections")).map fun e =>
    if e.1 = "Transmissionline" then 0
    else (if nameAt e.2 "from" = some id then r.flow (idOf e.2) i 0 else 0) -
      if nameAt e.2 "to" = some id then r.flow (idOf e.2) i (r.points (idOf e.2) - 1) else 0).sum

/-- A sum over the other ends of all lines at a node, for the conductance and susceptance of the line. -/
def overLines (defaults topology : Json) (id : String) (term : ℝ → ℝ → String → ℝ) : ℝ :=
  ((entries (types topology "connections")).map fun e =>
    if e.1 = "Transmissionline" then
      (if nameAt e.2 "from" = some id then term (numberIn (defaultsFor defaults e.1) e.2 "G")
        (numberIn (defaultsFor defaults e.1) e.2 "B") ((nameAt e.2 "to").getD "") else 0) +
      if nameAt e.2 "to" = some id then term (numberIn (defaultsFor defaults e.1) e.2 "G")
        (numberIn (defaultsFor defaults e.1) e.2 "B") ((nameAt e.2 "from").getD "") else 0
    else 0).sum

/-- Active power that flows from a node (of this type and with this entry) into the grid. -/
noncomputable def gridActive (defaults topology : Json) (type : String) (x : Json) (i : ℕ) : ℝ :=
  numberIn (defaultsFor defaults type) x "G" * r.voltage (idOf x) i ^ 2 +
    overLines defaults topology (idOf x) fun G B w => r.voltage (idOf x) i * r.voltage w i *
      (G * Real.cos (r.angle (idOf x) i - r.angle w i) + B * Real.sin (r.angle (idOf x) i - r.angle w i))

/-- Reactive power that flows from a node into the grid. -/
noncomputable def gridReactive (defaults topology : Json) (type : String) (x : Json) (i : ℕ) : ℝ :=
  -(numberIn (defaultsFor defaults type) x "B" * r.voltage (idOf x) i ^ 2) +
    overLines defaults topology (idOf x) fun G B w => r.voltage (idOf x) i * r.voltage w i *
      (G * Real.sin (r.angle (idOf x) i - r.angle w i) - B * Real.cos (r.angle (idOf x) i - r.angle w i))

/-- Pressure and flow at the start and at the end of a gas component. -/
def startP (x : Json) (i : ℕ) : ℝ := r.pressure (idOf x) i 0
def startQ (x : Json) (i : ℕ) : ℝ := r.flow (idOf x) i 0
def endP (x : Json) (i : ℕ) : ℝ := r.pressure (idOf x) i (r.points (idOf x) - 1)
def endQ (x : Json) (i : ℕ) : ℝ := r.flow (idOf x) i (r.points (idOf x) - 1)

/-- Density and flow at a point of a pipe. -/
noncomputable def pointState (x : Json) (i k : ℕ) : ℝ × ℝ :=
  Euler.state (Euler.fromBar (r.pressure (idOf x) i k, r.flow (idOf x) i k))

end Results

/-! ## The laws -/

/-- The value that the boundary file prescribes for a node at a time, with the sign for what flows out of the node. -/
def Prescribed (boundary : Json) (type id : String) (t : ℝ) (b : ℝ × ℝ) : Prop :=
  ∃ e l, (type, e) ∈ entries (types boundary "nodes") ∧ id? e = some id ∧ Lists e l ∧
    ValueAt (if type ∈ ["Sink", "ConstraintSink"] then -1 else 1) l t b

/-- The node with this entry gets what is prescribed, up to a tolerance. -/
def NodeObeys (r : Results) (f : Files) (tol : ℝ) (type : String) (x : Json) (b : ℝ × ℝ) (i : ℕ) : Prop :=
  (type ∈ ["Source", "Sink", "ConstraintSink"] → Attached f.topology (idOf x) →
    |r.netFlow f.topology (idOf x) i - b.1| ≤ tol) ∧
  (type = "Pressureboundarynode" → ∀ e ∈ entries (types f.topology "connections"), e.1 ≠ "Transmissionline" →
    (nameAt e.2 "from" = some (idOf x) → |r.startP e.2 i - b.1| ≤ tol) ∧
    (nameAt e.2 "to" = some (idOf x) → |r.endP e.2 i - b.1| ≤ tol)) ∧
  (type = "PQnode" → |r.gridActive f.defaults f.topology type x i - b.1| ≤ tol ∧
    |r.gridReactive f.defaults f.topology type x i - b.2| ≤ tol) ∧
  (type = "PVnode" → |r.gridActive f.defaults f.topology type x i - b.1| ≤ tol ∧ |r.voltage (idOf x) i - b.2| ≤ tol) ∧
  (type ∈ ["Vphinode", "ExternalPowerplant"] → |r.voltage (idOf x) i - b.1| ≤ tol ∧ |r.angle (idOf x) i - b.2| ≤ tol)

/-- The control of a compressor or valve at a time is affine between neighbouring control times, where it has the value of
the file. -/
def ControlIs (control : Json) (cgrid : List ℝ) (t : ℝ) (id : String) (c : ℝ) : Prop :=
  ∃ e, LastEntry control id e ∧
    ∀ l, Lists e l → (l.map Prod.fst).Pairwise (· < ·) → ∀ i, ∀ hi : i + 1 < cgrid.length, cgrid[i] ≤ t → t ≤ cgrid[i + 1] →
      ∀ a b, ValueAt 1 l cgrid[i] a → ValueAt 1 l cgrid[i + 1] b →
        c = a.1 + (t - cgrid[i]) / (cgrid[i + 1] - cgrid[i]) * (b.1 - a.1)

/-- The component behaves as its entry says, up to a tolerance, from time `s` with number `i` to the next time `t`. -/
def EdgeObeys (r : Results) (f : Files) (tol : ℝ) (cgrid : List ℝ) (type : String) (x : Json) (s t : ℝ) (i : ℕ) : Prop :=
  (type ∈ ["Shortpipe", "Compressorstation", "Controlvalve"] → |r.startQ x (i + 1) - r.endQ x (i + 1)| ≤ tol) ∧
  (type = "Shortpipe" → |r.endP x (i + 1) - r.startP x (i + 1)| ≤ tol) ∧
  (type = "Compressorstation" → ∃ c, ControlIs f.control cgrid t (idOf x) c ∧
    |r.endP x (i + 1) - (r.startP x (i + 1) + c)| ≤ tol) ∧
  (type = "Controlvalve" → ∃ c, ControlIs f.control cgrid t (idOf x) c ∧
    |r.endP x (i + 1) - (r.startP x (i + 1) - c)| ≤ tol) ∧
  (type = "Gaspowerconnection" → ∃ g p : ℚ, ∃ power, Number (defaultsFor f.defaults type) x "gas2power_q_coeff" g ∧
    Number (defaultsFor f.defaults type) x "power2gas_q_coeff" p ∧
    Power.generated ⟨g, p⟩ (r.startQ x (i + 1)) = Res.ok power ∧
    ∃ y, ("ExternalPowerplant", y) ∈ entries (types f.topology "nodes") ∧ nameAt x "to" = some (idOf y) ∧
      |r.gridActive f.defaults f.topology "ExternalPowerplant" y (i + 1) - power| ≤ tol) ∧
  (type = "Pipe" → ∃ (L w D rough : ℚ) (n : ℕ), Metres (defaultsFor f.defaults type) x "length" L ∧
    Number (defaultsFor f.defaults type) x "desired_delta_x" w ∧ Metres (defaultsFor f.defaults type) x "diameter" D ∧
    Metres (defaultsFor f.defaults type) x "roughness" rough ∧ 2 ≤ n ∧ (L : ℝ) / (n - 1) ≤ w ∧ r.points (idOf x) = n ∧
    ∀ k : ℕ, k + 1 < n → ∃ y : ℝ × ℝ, Box.evaluatePoint (Box.eulerLaw D rough) s t (L / (n - 1))
      (r.pointState x i k) (r.pointState x i (k + 1)) (r.pointState x (i + 1) k) (r.pointState x (i + 1) (k + 1)) = Res.ok y ∧
      |y.1| ≤ tol ∧ |y.2| ≤ tol)

/-- All laws for the results from one time to the next. -/
structure Obeys (r : Results) (f : Files) (tol : ℝ) (cgrid : List ℝ) (s t : ℝ) (i : ℕ) : Prop where
  /-- Nodes get the values of the boundary file. -/
  nodes : ∀ type x, (type, x) ∈ entries (types f.topology "nodes") → type ≠ "Innode" → type ≠ "StochasticPQnode" →
    ∃ b, Prescribed f.boundary type (idOf x) t b ∧ NodeObeys r f tol type x b (i + 1)
  /-- Inner nodes lose no gas. -/
  inner : ∀ x, ("Innode", x) ∈ entries (types f.topology "nodes") → Attached f.topology (idOf x) →
    |r.netFlow f.topology (idOf x) (i + 1)| ≤ tol
  /-- Components behave as described. -/
  edges : ∀ type x, (type, x) ∈ entries (types f.topology "connections") → EdgeObeys r f tol cgrid type x s t i
  /-- All ends of gas components at a gas node have about the same pressure. -/
  pressures : ∃ P : String → ℝ, ∀ e ∈ entries (types f.topology "connections"), e.1 ≠ "Transmissionline" →
    ∃ a b, nameAt e.2 "from" = some a ∧ nameAt e.2 "to" = some b ∧
      |r.startP e.2 (i + 1) - P a| ≤ (endsAt f.topology a - 1) * tol ∧
      (e.1 ≠ "Gaspowerconnection" → |r.endP e.2 (i + 1) - P b| ≤ (endsAt f.topology b - 1) * tol)

/-- Where the points of gas components are. -/
def Placed (r : Results) (f : Files) : Prop :=
  ∀ type x, (type, x) ∈ entries (types f.topology "connections") →
    (type = "Gaspowerconnection" → r.points (idOf x) = 1 ∧ r.position (idOf x) 0 = 0) ∧
    (type ∈ ["Shortpipe", "Compressorstation", "Controlvalve"] →
      r.points (idOf x) = 2 ∧ r.position (idOf x) 0 = 0 ∧ r.position (idOf x) 1 = 1) ∧
    (type = "Pipe" → ∃ L : ℚ, Metres (defaultsFor f.defaults type) x "length" L ∧ 2 ≤ r.points (idOf x) ∧
      ∀ k, r.position (idOf x) k = k * (L / (r.points (idOf x) - 1)))

/-- The powers that are reported at a time: those prescribed if they are, else those that flow into the grid. -/
def Reported (r : Results) (f : Files) (t : ℝ) (i : ℕ) : Prop :=
  ∀ type x, (type, x) ∈ entries (types f.topology "nodes") →
    (type = "PQnode" → ∃ b, Prescribed f.boundary type (idOf x) t b ∧
      r.active (idOf x) i = b.1 ∧ r.reactive (idOf x) i = b.2) ∧
    (type = "PVnode" → ∃ b, Prescribed f.boundary type (idOf x) t b ∧
      r.active (idOf x) i = b.1 ∧ r.reactive (idOf x) i = r.gridReactive f.defaults f.topology type x i) ∧
    (type ∈ ["Vphinode", "ExternalPowerplant"] → r.active (idOf x) i = r.gridActive f.defaults f.topology type x i ∧
      r.reactive (idOf x) i = r.gridReactive f.defaults f.topology type x i)

/-- The first results are those in the file of initial values. -/
structure Starts (r : Results) (f : Files) : Prop where
  power : ∀ type x, (type, x) ∈ entries (types f.topology "nodes") → type ∈ powerNodes →
    ∃ e a b, LastEntry f.initial (idOf x) e ∧ Describes "x" e [(0, [a, b])] ∧
      r.voltage (idOf x) 0 = a ∧ r.angle (idOf x) 0 = b
  short : ∀ type x, (type, x) ∈ entries (types f.topology "connections") →
    type ∈ ["Shortpipe", "Compressorstation", "Controlvalve"] →
    ∃ e p q p' q', LastEntry f.initial (idOf x) e ∧ Describes "x" e [(0, [p, q]), (1, [p', q'])] ∧
      r.startP x 0 = p ∧ r.startQ x 0 = q ∧ r.endP x 0 = p' ∧ r.endQ x 0 = q'
  plant : ∀ x, ("Gaspowerconnection", x) ∈ entries (types f.topology "connections") →
    ∃ e p q, LastEntry f.initial (idOf x) e ∧ Describes "x" e [(0, [p, q])] ∧ r.startP x 0 = p ∧ r.startQ x 0 = q
  /-- Pipes: pressures up to 440 bar. -/
  pipe : ∀ x, ("Pipe", x) ∈ entries (types f.topology "connections") →
    ∃ e l, LastEntry f.initial (idOf x) e ∧ Describes "x" e l ∧ (∀ y ∈ l, y.2.length = 2) ∧ (∃ y ∈ l, y.1 = 0) ∧
      ((l.map Prod.fst).Pairwise (· < ·) → ∀ k, k < r.points (idOf x) → ∀ b, ValueAt 1 l (r.position (idOf x) k) b →
        (0 ≤ b.1 → b.1 ≤ 440 → r.pressure (idOf x) 0 k = b.1) ∧ r.flow (idOf x) 0 k = b.2)

/-- The pressures in pipes are not zero. (The real number 0 also stands for a pressure that is not finite.) -/
def PipesFilled (r : Results) (topology : Json) (i : ℕ) : Prop :=
  ∀ x, ("Pipe", x) ∈ entries (types topology "connections") → ∀ k, k < r.points (idOf x) → r.pressure (idOf x) i k ≠ 0

end Verif.Read
