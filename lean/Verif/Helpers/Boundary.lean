import Verif.Basic.Res
import Mathlib.Algebra.Order.Ring.Rat
import Mathlib.Data.List.Nodup
import Mathlib.Data.List.Perm.Basic
import Mathlib.Tactic.NormNum

/-!
# The helper program converting boundary conditions (C148)

`helper_functions/boundaryprettyfy.cpp`: linear boundary conditions, one for each quantity of a node, are turned into one
boundary condition for each node, and power nodes are sorted by the types that follow from their conditions. Modelled are
the boundary conditions and the nodes of the topology; the conversion of initial values from strings to numbers is in `InitialStrings.lean`.
Numbers are rational. Ids are of any type.
-/

set_option autoImplicit false

namespace Verif.Helpers.Boundary

/-! ## Model -/

variable {I : Type} [DecidableEq I]

/-- An entry of `"linearBoundaryCondition"`: `"id"`, `"lin"`, and `"data"`, with times and values. -/
structure Condition (I : Type) where
  id : I
  lin : List ℤ
  data : List (ℚ × ℚ)

/-- A new boundary condition: `"id"`, `"var"`, `"type"` (if it has been set) and `"data"`, with times and lists of
values. -/
structure Node (I : Type) where
  id : I
  var : List String
  type : Option String
  data : List (ℚ × List ℚ)

/-- `getlintype` — `boundaryprettyfy.cpp` 304-331. -/
def getlintype (lin : List ℤ) : String :=
  if lin = [1, 0] then "pressure"
  else if lin = [0, 1] then "flow"
  else if lin = [0, -1] then "negflow"
  else if lin = [1, 0, 0, 0] then "P"
  else if lin = [0, 1, 0, 0] then "Q"
  else if lin = [0, 0, 1, 0] then "V"
  else if lin = [0, 0, 0, 1] then "phi"
  else "unkown"

/-- `getnodetype` — `boundaryprettyfy.cpp` 273-302. (The vectors compared with are sorted there, which leaves them as they
are; the node's own vector isn't sorted.) -/
def getnodetype (var : List String) : String :=
  if var = ["pressure"] then "pressure"
  else if var = ["flow"] then "flow"
  else if var = ["negflow"] then "negflow"
  else if var = ["P", "Q"] then "PQ"
  else if var = ["P", "V"] then "PV"
  else if var = ["V", "phi"] then "Vphi"
  else "unkown"

/-- One round of the loop of `get_node_type_json` — `boundaryprettyfy.cpp` 342-357. -/
def collectOne (c : Condition I) : List (Node I) → List (Node I)
  | [] => [⟨c.id, [getlintype c.lin], none, []⟩]
  | n :: ns => if n.id = c.id then { n with var := n.var ++ [getlintype c.lin] } :: ns else n :: collectOne c ns

/-- `get_node_type_json` — `boundaryprettyfy.cpp` 333-362. -/
def collect (conditions : List (Condition I)) : List (Node I) :=
  conditions.foldl (fun nodes c => collectOne c nodes) []

/-- Which of the two values of a power node a quantity is — `boundaryprettyfy.cpp` 100-104, 127-131 and 154-158. -/
def slot (nodetype lintype : String) : Option ℕ :=
  if nodetype = "Vphi" then if lintype = "V" then some 0 else if lintype = "phi" then some 1 else none
  else if nodetype = "PV" then if lintype = "P" then some 0 else if lintype = "V" then some 1 else none
  else if lintype = "P" then some 0 else if lintype = "Q" then some 1 else none

/-- One data point of a power node — `boundaryprettyfy.cpp` 93-117, 120-144 and 147-171: its time is looked for; if it is
missing, the other value is zero. -/
def putValue (position : Option ℕ) (data : List (ℚ × List ℚ)) (point : ℚ × ℚ) : List (ℚ × List ℚ) :=
  match position with
  | none => data
  | some i =>
    if data.any fun e => e.1 = point.1 then
      data.map fun e => if e.1 = point.1 then (e.1, e.2.set i point.2) else e
    else data ++ [(point.1, [0, 0].set i point.2)]

/-- What a condition does to its node — `boundaryprettyfy.cpp` 74-172. -/
def update (n : Node I) (c : Condition I) : Node I :=
  let nodetype := getnodetype n.var
  if nodetype = "pressure" ∨ nodetype = "flow" then
    { n with type := some nodetype, data := n.data ++ c.data.map fun p => (p.1, [p.2]) }
  else if nodetype = "negflow" then
    { n with type := some "flow", data := n.data ++ c.data.map fun p => (p.1, [-p.2]) }
  else if nodetype = "Vphi" ∨ nodetype = "PV" ∨ nodetype = "PQ" then
    { n with type := some nodetype, data := c.data.foldl (putValue (slot nodetype (getlintype c.lin))) n.data }
  else n

/-- `std::find_if` and the use of what it points to — `boundaryprettyfy.cpp` 69-74. -/
def onNode (c : Condition I) : List (Node I) → Res (List (Node I))
  | [] => Res.ub
  | n :: ns =>
    if n.id = c.id then Res.ok (update n c :: ns)
    else do
      let rest ← onNode c ns
      Res.ok (n :: rest)

/-- The loop over the conditions — `boundaryprettyfy.cpp` 68-173. -/
def applyAll : List (Condition I) → List (Node I) → Res (List (Node I))
  | [], nodes => Res.ok nodes
  | c :: cs, nodes => do
    let nodes' ← onNode c nodes
    applyAll cs nodes'

/-- The new boundary conditions — `boundaryprettyfy.cpp` 62-190. (`"var"` is removed there in the end.) -/
def convert (conditions : List (Condition I)) : Res (List (Node I)) := applyAll conditions (collect conditions)

/-- The lists of power nodes of the new topology. -/
structure Lists (I : Type) where
  PV : List I
  PQ : List I
  Vphi : List I

/-- The loop over the power nodes of the topology — `boundaryprettyfy.cpp` 196-211. A node without boundary condition is
undefined behaviour: the end of the list is dereferenced. -/
def sortNodes (nodes : List (Node I)) : List I → Lists I → Res (Lists I)
  | [], lists => Res.ok lists
  | id :: ids, lists =>
    match nodes.find? fun n => decide (n.id = id) with
    | none => Res.ub
    | some n =>
      if n.type = some "PV" then sortNodes nodes ids { lists with PV := lists.PV ++ [id] }
      else if n.type = some "PQ" then sortNodes nodes ids { lists with PQ := lists.PQ ++ [id] }
      else if n.type = some "Vphi" then sortNodes nodes ids { lists with Vphi := lists.Vphi ++ [id] }
      else sortNodes nodes ids lists

/-! ## Specification -/

/-- Specification: the types of power nodes, with their two quantities as they are given in a file: active power, reactive power,
voltage and angle are the four unit vectors. -/
def powerTypes : List (String × List ℤ × List ℤ) :=
  [("PQ", [1, 0, 0, 0], [0, 1, 0, 0]), ("PV", [1, 0, 0, 0], [0, 0, 1, 0]), ("Vphi", [0, 0, 1, 0], [0, 0, 0, 1])]

/-- Specification: a condition gives no time twice. -/
def OnceEach (c : Condition I) : Prop := (c.data.map Prod.fst).Nodup

/-- Specification: the data of a node hold, for each time of one of its two conditions, and for no other, both values; a
missing one is zero. No time appears twice. -/
def Joined (data : List (ℚ × List ℚ)) (c1 c2 : Condition I) : Prop :=
  (data.map Prod.fst).Nodup ∧ ∀ t, data.lookup t =
    if t ∈ c1.data.map Prod.fst ∨ t ∈ c2.data.map Prod.fst then
      some [(c1.data.lookup t).getD 0, (c2.data.lookup t).getD 0]
    else none

/-- **C148** in full: a power node whose conditions — two of them, in any order, anywhere in the file — are for the two
quantities of a type gets this type and the data of both conditions. -/
def C148Statement (I : Type) [DecidableEq I] : Prop :=
  ∀ (conditions : List (Condition I)) (id : I) (c1 c2 : Condition I) (type : String),
    (conditions.filter fun c => decide (c.id = id)).Perm [c1, c2] →
    (type, c1.lin, c2.lin) ∈ powerTypes → OnceEach c1 → OnceEach c2 →
    ∃ nodes n, convert conditions = Res.ok nodes ∧ nodes.find? (fun n => decide (n.id = id)) = some n ∧
      n.type = some type ∧ Joined n.data c1 c2

/-! ## Proofs -/

/-- The conditions of a node. -/
def conditionsOf (conditions : List (Condition I)) (id : I) : List (Condition I) :=
  conditions.filter fun c => decide (c.id = id)

/-- The node with an id. -/
def nodeOf (nodes : List (Node I)) (id : I) : Option (Node I) := nodes.find? fun n => decide (n.id = id)

theorem collectOne_find (c : Condition I) (nodes : List (Node I)) (id : I) :
    nodeOf (collectOne c nodes) id =
      if c.id = id then some (match nodeOf nodes id with
        | none => ⟨c.id, [getlintype c.lin], none, []⟩
        | some n => { n with var := n.var ++ [getlintype c.lin] })
      else nodeOf nodes id := by
  induction nodes with
  | nil => by_cases h : c.id = id <;> simp [collectOne, nodeOf, h]
  | cons n ns ih =>
    unfold collectOne
    by_cases hn : n.id = c.id
    · rw [if_pos hn]
      by_cases h : c.id = id
      · simp [nodeOf, hn, h]
      · have : ¬ n.id = id := hn ▸ h
        simp [nodeOf, this, h]
    · rw [if_neg hn]
      by_cases h : n.id = id
      · have : ¬ c.id = id := fun e => hn (h.trans e.symm)
        simp [nodeOf, h, this]
      · simp only [nodeOf] at ih ⊢
        simp only [List.find?_cons, h, decide_false]
        exact ih

theorem collect_find (conditions : List (Condition I)) (id : I) :
    ∀ nodes : List (Node I), nodeOf (conditions.foldl (fun nodes c => collectOne c nodes) nodes) id =
      match nodeOf nodes id, conditionsOf conditions id with
      | none, [] => none
      | none, c :: cs => some ⟨id, (c :: cs).map fun c => getlintype c.lin, none, []⟩
      | some n, cs => some { n with var := n.var ++ cs.map fun c => getlintype c.lin } := by
  induction conditions with
  | nil =>
    intro nodes
    simp only [List.foldl_nil, conditionsOf, List.filter_nil]
    cases nodeOf nodes id <;> simp
  | cons c cs ih =>
    intro nodes
    rw [List.foldl_cons, ih, collectOne_find]
    by_cases h : c.id = id
    · rw [if_pos h]
      simp only [conditionsOf, h, decide_true, List.filter_cons_of_pos]
      cases nodeOf nodes id with
      | none => simp
      | some n => simp
    · rw [if_neg h]
      simp [conditionsOf, h]

omit [DecidableEq I] in
theorem update_id (n : Node I) (c : Condition I) : (update n c).id = n.id := by
  unfold update
  simp only
  split
  · rfl
  · split
    · rfl
    · split <;> rfl

omit [DecidableEq I] in
theorem update_var (n : Node I) (c : Condition I) : (update n c).var = n.var := by
  unfold update
  simp only
  split
  · rfl
  · split
    · rfl
    · split <;> rfl

theorem onNode_find (c : Condition I) (nodes : List (Node I)) (h : nodeOf nodes c.id ≠ none) :
    ∃ nodes', onNode c nodes = Res.ok nodes' ∧ ∀ id, nodeOf nodes' id =
      (nodeOf nodes id).map fun n => if c.id = id then update n c else n := by
  induction nodes with
  | nil => simp [nodeOf] at h
  | cons n ns ih =>
    by_cases hn : n.id = c.id
    · refine ⟨update n c :: ns, by simp [onNode, hn], ?_⟩
      intro id
      by_cases hid : c.id = id
      · simp [nodeOf, update_id, hn, hid]
      · have h1 : ¬ n.id = id := hn ▸ hid
        simp only [nodeOf, List.find?_cons, update_id, h1, decide_false, hid, if_false]
        simp
    · have h' : nodeOf ns c.id ≠ none := by simpa [nodeOf, hn] using h
      obtain ⟨ns', hns, hf⟩ := ih h'
      refine ⟨n :: ns', by simp [onNode, hn, hns], ?_⟩
      intro id
      by_cases h1 : n.id = id
      · have h2 : ¬ c.id = id := fun e => hn (h1.trans e.symm)
        simp [nodeOf, h1, h2]
      · have := hf id
        simpa [nodeOf, h1] using this

theorem applyAll_find (conditions : List (Condition I)) :
    ∀ nodes : List (Node I), (∀ c ∈ conditions, nodeOf nodes c.id ≠ none) →
    ∃ nodes', applyAll conditions nodes = Res.ok nodes' ∧ ∀ id, nodeOf nodes' id =
      (nodeOf nodes id).map fun n => (conditionsOf conditions id).foldl update n := by
  induction conditions with
  | nil => intro nodes _; exact ⟨nodes, rfl, by intro id; simp [conditionsOf]⟩
  | cons c cs ih =>
    intro nodes h
    obtain ⟨nodes1, h1, hf1⟩ := onNode_find c nodes (h c (by simp))
    obtain ⟨nodes2, h2, hf2⟩ := ih nodes1 (by
      intro d hd
      rw [hf1]
      have := h d (List.mem_cons_of_mem _ hd)
      simpa using this)
    refine ⟨nodes2, by simp [applyAll, h1, h2], ?_⟩
    intro id
    rw [hf2, hf1, Option.map_map]
    congr 1
    funext n
    by_cases hid : c.id = id
    · simp [conditionsOf, hid]
    · simp [conditionsOf, hid]

/-- The new boundary condition of each node depends on the node's conditions alone. -/
theorem convert_find (conditions : List (Condition I)) :
    ∃ nodes, convert conditions = Res.ok nodes ∧ ∀ id, nodeOf nodes id =
      match conditionsOf conditions id with
      | [] => none
      | c :: cs => some ((c :: cs).foldl update ⟨id, (c :: cs).map fun c => getlintype c.lin, none, []⟩) := by
  have hc : ∀ id, nodeOf (collect conditions) id = match conditionsOf conditions id with
      | [] => none
      | c :: cs => some ⟨id, (c :: cs).map fun c => getlintype c.lin, none, []⟩ := by
    intro id
    unfold collect
    rw [collect_find]
    cases conditionsOf conditions id <;> rfl
  obtain ⟨nodes, hn, hf⟩ := applyAll_find conditions (collect conditions) (by
    intro c hcm
    rw [hc]
    have : c ∈ conditionsOf conditions c.id := by simp [conditionsOf, hcm]
    cases h : conditionsOf conditions c.id with
    | nil => rw [h] at this; simp at this
    | cons d ds => simp)
  refine ⟨nodes, hn, ?_⟩
  intro id
  rw [hf, hc]
  cases conditionsOf conditions id <;> rfl

theorem lookup_cons_pair {β : Type} (e : ℚ × β) (es : List (ℚ × β)) (t : ℚ) :
    (e :: es).lookup t = if t = e.1 then some e.2 else es.lookup t := by
  obtain ⟨k, v⟩ := e
  by_cases h : t = k
  · simp [h]
  · have : (t == k) = false := by simpa using h
    simp [List.lookup_cons, this, h]

theorem lookup_append_one {β : Type} (data : List (ℚ × β)) (s : ℚ) (v : β) (t : ℚ) :
    (data ++ [(s, v)]).lookup t = match data.lookup t with
      | some w => some w
      | none => if t = s then some v else none := by
  induction data with
  | nil => simp [lookup_cons_pair]
  | cons e es ih =>
    rw [List.cons_append, lookup_cons_pair, lookup_cons_pair]
    by_cases h : t = e.1
    · simp only [h, if_true]
    · simp only [h, if_false]
      exact ih

theorem lookup_none {β : Type} (data : List (ℚ × β)) (t : ℚ) : data.lookup t = none ↔ t ∉ data.map Prod.fst := by
  induction data with
  | nil => simp
  | cons e es ih =>
    rw [lookup_cons_pair]
    by_cases h : t = e.1
    · simp [h]
    · simp only [ih, List.map_cons, List.mem_cons, h, false_or, if_false]

theorem any_iff {β : Type} (data : List (ℚ × β)) (t : ℚ) :
    (data.any fun e => decide (e.1 = t)) = true ↔ t ∈ data.map Prod.fst := by
  simp only [List.any_eq_true, decide_eq_true_eq, List.mem_map]

theorem lookup_map_set (data : List (ℚ × List ℚ)) (i : ℕ) (s v t : ℚ) :
    (data.map fun e => if e.1 = s then (e.1, e.2.set i v) else e).lookup t =
      (data.lookup t).map fun w => if t = s then w.set i v else w := by
  induction data with
  | nil => simp
  | cons e es ih =>
    rw [List.map_cons, lookup_cons_pair, lookup_cons_pair]
    have hk : (if e.1 = s then (e.1, e.2.set i v) else e).1 = e.1 := by split <;> rfl
    rw [hk]
    by_cases h : t = e.1
    · by_cases hs : e.1 = s <;> simp [h, hs]
    · simp only [h, if_false]
      exact ih

theorem putValue_keys (i : ℕ) (data : List (ℚ × List ℚ)) (p : ℚ × ℚ) (h : (data.map Prod.fst).Nodup) :
    ((putValue (some i) data p).map Prod.fst).Nodup := by
  unfold putValue
  simp only
  split
  · have : ((data.map fun e => if e.1 = p.1 then (e.1, e.2.set i p.2) else e).map Prod.fst) = data.map Prod.fst := by
      rw [List.map_map]
      apply List.map_congr_left
      intro e _
      by_cases he : e.1 = p.1 <;> simp [he]
    rw [this]
    exact h
  · rename_i hn
    rw [any_iff] at hn
    rw [List.map_append, List.map_singleton, List.nodup_append]
    refine ⟨h, by simp, ?_⟩
    intro a ha b hb
    simp only [List.mem_singleton] at hb
    intro e
    exact hn (hb ▸ e ▸ ha)

theorem putValue_lookup (i : ℕ) (data : List (ℚ × List ℚ)) (p : ℚ × ℚ) (t : ℚ) :
    (putValue (some i) data p).lookup t =
      if t = p.1 then some (((data.lookup t).getD [0, 0]).set i p.2) else data.lookup t := by
  unfold putValue
  simp only
  split
  · rename_i ha
    rw [any_iff] at ha
    rw [lookup_map_set]
    by_cases ht : t = p.1
    · cases hl : data.lookup t with
      | none => rw [lookup_none, ht] at hl; exact absurd ha hl
      | some w => simp [ht]
    · simp only [ht, if_false]
      cases data.lookup t <;> rfl
  · rename_i ha
    rw [any_iff] at ha
    rw [lookup_append_one]
    by_cases ht : t = p.1
    · have : data.lookup t = none := (lookup_none _ _).mpr (ht ▸ ha)
      rw [this]
      simp [ht]
    · simp only [ht, if_false]
      cases data.lookup t <;> rfl

theorem putAll (i : ℕ) (points : List (ℚ × ℚ)) (hp : (points.map Prod.fst).Nodup) :
    ∀ data : List (ℚ × List ℚ), (data.map Prod.fst).Nodup →
      ((points.foldl (putValue (some i)) data).map Prod.fst).Nodup ∧
      ∀ t, (points.foldl (putValue (some i)) data).lookup t = match points.lookup t with
        | some v => some (((data.lookup t).getD [0, 0]).set i v)
        | none => data.lookup t := by
  induction points with
  | nil => intro data h; exact ⟨h, fun t => by simp⟩
  | cons p ps ih =>
    intro data h
    rw [List.map_cons, List.nodup_cons] at hp
    obtain ⟨h1, h2⟩ := ih hp.2 (putValue (some i) data p) (putValue_keys i data p h)
    refine ⟨h1, ?_⟩
    intro t
    rw [List.foldl_cons, h2, putValue_lookup, lookup_cons_pair]
    by_cases ht : t = p.1
    · have hn : ps.lookup t = none := (lookup_none _ _).mpr (ht ▸ hp.1)
      rw [hn]
      simp only [ht, if_true]
    · simp only [ht, if_false]

omit [DecidableEq I] in
theorem joined (c1 c2 : Condition I) (h1 : OnceEach c1) (h2 : OnceEach c2) :
    Joined (c2.data.foldl (putValue (some 1)) (c1.data.foldl (putValue (some 0)) [])) c1 c2 := by
  obtain ⟨a1, b1⟩ := putAll 0 c1.data h1 [] (by simp)
  obtain ⟨a2, b2⟩ := putAll 1 c2.data h2 _ a1
  refine ⟨a2, ?_⟩
  intro t
  rw [b2, b1]
  cases e1 : c1.data.lookup t with
  | none =>
    have n1 := (lookup_none _ _).mp e1
    cases e2 : c2.data.lookup t with
    | none =>
      have n2 := (lookup_none _ _).mp e2
      simp only [n1, n2, or_self, if_false, List.lookup_nil]
    | some w =>
      have n2 : t ∈ c2.data.map Prod.fst := by
        by_contra hn
        rw [(lookup_none _ _).mpr hn] at e2
        simp at e2
      simp only [n2, or_true, if_true]
      simp
  | some v =>
    have n1 : t ∈ c1.data.map Prod.fst := by
      by_contra hn
      rw [(lookup_none _ _).mpr hn] at e1
      simp at e1
    simp only [n1, true_or, if_true]
    cases e2 : c2.data.lookup t with
    | none => simp
    | some w => simp

/-! ## Theorems -/

/-- **C148** (part): a power node whose two conditions come in the order of the type's name — P before Q, P before V, V
before phi —, with any conditions of other nodes between them, gets its type and, for each time of one of the conditions,
both values. (Missing: the other order, see `C148_false`.) -/
theorem C148_partial (conditions : List (Condition I)) (id : I) (c1 c2 : Condition I) (type : String)
    (hc : (conditions.filter fun c => decide (c.id = id)) = [c1, c2])
    (ht : (type, c1.lin, c2.lin) ∈ powerTypes) (h1 : OnceEach c1) (h2 : OnceEach c2) :
    ∃ nodes n, convert conditions = Res.ok nodes ∧ nodes.find? (fun n => decide (n.id = id)) = some n ∧
      n.type = some type ∧ Joined n.data c1 c2 := by
  obtain ⟨nodes, hn, hf⟩ := convert_find conditions
  have hfi := hf id
  rw [show conditionsOf conditions id = [c1, c2] from hc] at hfi
  refine ⟨nodes, _, hn, hfi, ?_⟩
  have hj := joined c1 c2 h1 h2
  simp only [powerTypes, List.mem_cons, Prod.mk.injEq, List.not_mem_nil, or_false] at ht
  rcases ht with ⟨rfl, e1, e2⟩ | ⟨rfl, e1, e2⟩ | ⟨rfl, e1, e2⟩ <;>
  · simp only [List.foldl_cons, List.foldl_nil, List.map_cons, List.map_nil, e1, e2]
    simpa [update, getnodetype, getlintype, slot, e1, e2] using hj

/-- **C148** (gas nodes): a node with one condition, for the pressure or the flow, gets this type and the condition's data;
an outgoing flow is negated. -/
theorem C148_gas (conditions : List (Condition I)) (id : I) (c : Condition I)
    (hc : (conditions.filter fun c => decide (c.id = id)) = [c]) :
    ∃ nodes n, convert conditions = Res.ok nodes ∧ nodes.find? (fun n => decide (n.id = id)) = some n ∧
      (c.lin = [1, 0] → n.type = some "pressure" ∧ n.data = c.data.map fun p => (p.1, [p.2])) ∧
      (c.lin = [0, 1] → n.type = some "flow" ∧ n.data = c.data.map fun p => (p.1, [p.2])) ∧
      (c.lin = [0, -1] → n.type = some "flow" ∧ n.data = c.data.map fun p => (p.1, [-p.2])) := by
  obtain ⟨nodes, hn, hf⟩ := convert_find conditions
  have hfi := hf id
  rw [show conditionsOf conditions id = [c] from hc] at hfi
  refine ⟨nodes, _, hn, hfi, ?_, ?_, ?_⟩ <;> intro hl <;>
    simp [update, getnodetype, getlintype, hl]

/-- The new file has a boundary condition for exactly the nodes of the old one. -/
theorem C148_nodes (conditions : List (Condition I)) :
    ∃ nodes, convert conditions = Res.ok nodes ∧
      ∀ id, (∃ n ∈ nodes, n.id = id) ↔ ∃ c ∈ conditions, c.id = id := by
  obtain ⟨nodes, hn, hf⟩ := convert_find conditions
  refine ⟨nodes, hn, ?_⟩
  intro id
  have h1 : (∃ n ∈ nodes, n.id = id) ↔ nodeOf nodes id ≠ none := by
    simp [nodeOf]
  have h2 : (∃ c ∈ conditions, c.id = id) ↔ conditionsOf conditions id ≠ [] := by
    simp [conditionsOf]
  rw [h1, h2, hf]
  cases conditionsOf conditions id <;> simp

/-- Two conditions of a node, the second quantity first. -/
def swapped : List (Condition ℕ) := [⟨7, [0, 1, 0, 0], [(0, 2)]⟩, ⟨7, [1, 0, 0, 0], [(0, 1)]⟩]

/-- **C148** is false: if Q comes before P the node gets no type and no data. -/
theorem C148_false : ¬ C148Statement ℕ := by
  intro h
  obtain ⟨nodes, n, hn, hf, ht, _⟩ := h swapped 7 ⟨7, [1, 0, 0, 0], [(0, 1)]⟩ ⟨7, [0, 1, 0, 0], [(0, 2)]⟩ "PQ"
    (by simpa [swapped] using List.Perm.swap _ _ _) (by simp [powerTypes])
    (by simp [OnceEach]) (by simp [OnceEach])
  have hc : convert swapped = Res.ok [⟨7, ["Q", "P"], none, []⟩] := by
    simp [convert, swapped, collect, collectOne, applyAll, onNode, update, getnodetype, getlintype]
  rw [hc] at hn
  cases hn
  simp at hf
  rw [← hf] at ht
  simp at ht

/-! ### The topology -/

/-- Specification: the power nodes of a type, in order. -/
def ofType (nodes : List (Node I)) (ids : List I) (type : String) : List I :=
  ids.filter fun id => (nodes.find? fun n => decide (n.id = id)).any fun n => decide (n.type = some type)

theorem sortNodes_eq (nodes : List (Node I)) (ids : List I)
    (h : ∀ id ∈ ids, ∃ n ∈ nodes, n.id = id) : ∀ lists : Lists I, sortNodes nodes ids lists =
      Res.ok ⟨lists.PV ++ ofType nodes ids "PV", lists.PQ ++ ofType nodes ids "PQ",
        lists.Vphi ++ ofType nodes ids "Vphi"⟩ := by
  induction ids with
  | nil => intro lists; simp [sortNodes, ofType]
  | cons id ids ih =>
    intro lists
    have ih' := ih fun i hi => h i (List.mem_cons_of_mem _ hi)
    unfold sortNodes
    cases hf : nodes.find? (fun n => decide (n.id = id)) with
    | none =>
      obtain ⟨n, hn, hid⟩ := h id (by simp)
      have := List.find?_eq_none.mp hf n hn
      simp [hid] at this
    | some n =>
      simp only
      by_cases h1 : n.type = some "PV"
      · simp [h1, ih', ofType, hf]
      · by_cases h2 : n.type = some "PQ"
        · simp [h2, ih', ofType, hf]
        · by_cases h3 : n.type = some "Vphi"
          · simp [h3, ih', ofType, hf]
          · simp [h1, h2, h3, ih', ofType, hf]

/-- **C149** (part): if each power node has a boundary condition, the nodes of each type are put in its list, in their
order; and if each has a type no node gets lost. (Missing: nodes without type get lost, see `C149_false`.) -/
theorem C149_partial (nodes : List (Node I)) (ids : List I) (h : ∀ id ∈ ids, ∃ n ∈ nodes, n.id = id) :
    ∃ lists, sortNodes nodes ids ⟨[], [], []⟩ = Res.ok lists ∧
      lists.PV = ofType nodes ids "PV" ∧ lists.PQ = ofType nodes ids "PQ" ∧ lists.Vphi = ofType nodes ids "Vphi" ∧
      ((∀ id ∈ ids, ∀ n, nodes.find? (fun n => decide (n.id = id)) = some n →
        n.type = some "PV" ∨ n.type = some "PQ" ∨ n.type = some "Vphi") →
        (lists.PV ++ lists.PQ ++ lists.Vphi).Perm ids) := by
  refine ⟨_, sortNodes_eq nodes ids h _, rfl, rfl, rfl, ?_⟩
  intro ht
  simp only [List.nil_append]
  induction ids with
  | nil => simp [ofType]
  | cons id ids ih =>
    have ih' := ih (fun i hi => h i (List.mem_cons_of_mem _ hi)) fun i hi => ht i (List.mem_cons_of_mem _ hi)
    cases hf : nodes.find? (fun n => decide (n.id = id)) with
    | none =>
      obtain ⟨n, hn, hid⟩ := h id (by simp)
      have := List.find?_eq_none.mp hf n hn
      simp [hid] at this
    | some n =>
      unfold ofType at ih' ⊢
      rcases ht id (by simp) n hf with e | e | e
      · simpa [hf, e] using ih'
      · have : ∀ a b c : List I, (a ++ b ++ c).Perm ids → (a ++ id :: b ++ c).Perm (id :: ids) := by
          intro a b c hp
          rw [List.append_assoc, List.cons_append]
          exact List.perm_middle.trans (List.Perm.cons id (by simpa using hp))
        simpa [hf, e] using this _ _ _ ih'
      · have : ∀ a b c : List I, (a ++ b ++ c).Perm ids → (a ++ b ++ id :: c).Perm (id :: ids) := by
          intro a b c hp
          exact List.perm_middle.trans (List.Perm.cons id hp)
        simpa [hf, e] using this _ _ _ ih'

/-- **C149** in full: if each power node has boundary conditions for two quantities of a type, no node gets lost. -/
def C149Statement (I : Type) [DecidableEq I] : Prop :=
  ∀ (conditions : List (Condition I)) (ids : List I),
    (∀ id ∈ ids, ∃ c1 c2 type, (conditions.filter fun c => decide (c.id = id)).Perm [c1, c2] ∧
      (type, c1.lin, c2.lin) ∈ powerTypes) →
    ∃ nodes lists, convert conditions = Res.ok nodes ∧ sortNodes nodes ids ⟨[], [], []⟩ = Res.ok lists ∧
      (lists.PV ++ lists.PQ ++ lists.Vphi).Perm ids

/-- **C149** is false: a node with Q before P vanishes from the topology. -/
theorem C149_false : ¬ C149Statement ℕ := by
  intro h
  obtain ⟨nodes, lists, hn, hs, hp⟩ := h swapped [7] (by
    intro id hid
    simp only [List.mem_singleton] at hid
    subst hid
    exact ⟨⟨7, [1, 0, 0, 0], [(0, 1)]⟩, ⟨7, [0, 1, 0, 0], [(0, 2)]⟩, "PQ",
      by simpa [swapped] using List.Perm.swap _ _ _, by simp [powerTypes]⟩)
  have hc : convert swapped = Res.ok [⟨7, ["Q", "P"], none, []⟩] := by
    simp [convert, swapped, collect, collectOne, applyAll, onNode, update, getnodetype, getlintype]
  rw [hc] at hn
  cases hn
  simp only [sortNodes, List.find?_cons, decide_true] at hs
  simp at hs
  rw [← hs] at hp
  simpa using hp.length_eq

/-- A power node without boundary condition is undefined behaviour. -/
theorem sortNodes_ub (nodes : List (Node I)) (ids : List I) (id : I) (hid : id ∈ ids) (h : ∀ n ∈ nodes, n.id ≠ id) :
    ∀ lists : Lists I, sortNodes nodes ids lists = Res.ub := by
  induction ids with
  | nil => simp at hid
  | cons i is ih =>
    intro lists
    unfold sortNodes
    by_cases hi : i = id
    · have : nodes.find? (fun n => decide (n.id = i)) = none := by
        rw [List.find?_eq_none]
        intro n hn
        simpa [hi] using h n hn
      simp [this]
    · have ih' := ih (by
        rcases List.mem_cons.mp hid with e | e
        · exact absurd e.symm hi
        · exact e)
      split
      · rfl
      · split
        · exact ih' _
        · split
          · exact ih' _
          · split
            · exact ih' _
            · exact ih' _

/-! ## Examples -/

/-- Two power nodes and a gas node, their conditions mixed. -/
def mixed : List (Condition ℕ) :=
  [⟨1, [1, 0, 0, 0], [(0, 3), (10, 4)]⟩, ⟨3, [0, -1], [(0, 9)]⟩, ⟨2, [0, 0, 1, 0], [(0, 1)]⟩,
    ⟨1, [0, 1, 0, 0], [(10, 5), (20, 6)]⟩, ⟨2, [0, 0, 0, 1], [(0, 2)]⟩]

example : ∃ nodes n, convert mixed = Res.ok nodes ∧ nodes.find? (fun n => decide (n.id = 1)) = some n ∧
    n.type = some "PQ" ∧ Joined n.data ⟨1, [1, 0, 0, 0], [(0, 3), (10, 4)]⟩ ⟨1, [0, 1, 0, 0], [(10, 5), (20, 6)]⟩ :=
  C148_partial mixed 1 _ _ "PQ" (by simp [mixed]) (by simp [powerTypes]) (by norm_num [OnceEach])
    (by norm_num [OnceEach])

example : convert mixed = Res.ok
    [⟨1, ["P", "Q"], some "PQ", [(0, [3, 0]), (10, [4, 5]), (20, [0, 6])]⟩,
      ⟨3, ["negflow"], some "flow", [(0, [-9])]⟩, ⟨2, ["V", "phi"], some "Vphi", [(0, [1, 2])]⟩] := by
  rfl

example : ∃ nodes n, convert mixed = Res.ok nodes ∧ nodes.find? (fun n => decide (n.id = 3)) = some n ∧
    n.type = some "flow" ∧ n.data = [(0, [-9])] := by
  obtain ⟨nodes, n, h1, h2, _, _, h3⟩ := C148_gas mixed 3 ⟨3, [0, -1], [(0, 9)]⟩ (by simp [mixed])
  exact ⟨nodes, n, h1, h2, (h3 rfl).1, by simpa using (h3 rfl).2⟩

example : ∃ lists, sortNodes [⟨1, [], some "PQ", []⟩, ⟨2, [], some "Vphi", []⟩] [2, 1] ⟨[], [], []⟩ = Res.ok lists ∧
    lists.PQ = [1] ∧ lists.Vphi = [2] := by
  obtain ⟨lists, h, _, h2, h3, _⟩ := C149_partial
    [(⟨1, [], some "PQ", []⟩ : Node ℕ), ⟨2, [], some "Vphi", []⟩] [2, 1] (by simp)
  exact ⟨lists, h, by rw [h2]; simp [ofType], by rw [h3]; simp [ofType]⟩

end Verif.Helpers.Boundary
