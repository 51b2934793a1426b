import Verif.Read.Boundary

/-!
# Evaluating the models of schemas

The functions on jsons are defined by well-founded recursion, which the kernel does not evaluate. Here are versions with a
bound on the depth, which are used for examples only: whenever they succeed the functions do.
-/

set_option autoImplicit false

namespace Verif.Read

open Verif.Json Verif.Factory Verif.Schema

/-- Equality of jsons. -/
def same : ℕ → Json → Json → Bool
  | 0, _, _ => false
  | _ + 1, null, null => true
  | _ + 1, .bool a, .bool b => a == b
  | _ + 1, num a, num b => a == b
  | _ + 1, str a, str b => a == b
  | n + 1, arr a, arr b => a.length == b.length && (a.zip b).all fun x => same n x.1 x.2
  | n + 1, obj a, obj b => a.length == b.length && (a.zip b).all fun x => x.1.1 == x.2.1 && same n x.1.2 x.2.2
  | _, _, _ => false

theorem eq_of_zip {α : Type} {R : α × α → Bool} (hR : ∀ a b, R (a, b) = true → a = b) :
    ∀ {l m : List α}, l.length = m.length → (l.zip m).all R = true → l = m
  | [], [], _, _ => rfl
  | a :: l, b :: m, h, h' => by
    simp only [List.zip_cons_cons, List.all_cons, Bool.and_eq_true] at h'
    rw [hR a b h'.1, eq_of_zip hR (by simpa using h) h'.2]

theorem same_eq {n : ℕ} : ∀ {a b : Json}, same n a b = true → a = b := by
  induction n with
  | zero => intro a b h; cases h
  | succ n ih =>
    intro a b h
    cases a <;> cases b <;> first | (simp only [same, Bool.false_eq_true] at h; done) | skip
    · rfl
    · simp only [same, beq_iff_eq] at h; rw [h]
    · simp only [same, beq_iff_eq] at h; rw [h]
    · simp only [same, beq_iff_eq] at h; rw [h]
    · simp only [same, Bool.and_eq_true, beq_iff_eq] at h
      rw [eq_of_zip (fun a b hab => ih hab) h.1 h.2]
    · simp only [same, Bool.and_eq_true, beq_iff_eq] at h
      rw [eq_of_zip (R := fun x => x.1.1 == x.2.1 && same n x.1.2 x.2.2) (fun a b hab => by
        simp only [Bool.and_eq_true, beq_iff_eq] at hab
        exact Prod.ext hab.1 (ih hab.2)) h.1 h.2]

/-- Is this the result? -/
def is (n : ℕ) (r : Res Json) (j : Json) : Bool :=
  match r with
  | .ok j' => same n j' j
  | _ => false

theorem is_ok {n : ℕ} {r : Res Json} {j : Json} (h : is n r j = true) : r = Res.ok j := by
  cases r with
  | ok j' => rw [same_eq h]
  | _ => cases h

theorem fold_mono {α σ : Type} {f g : σ → α → Res σ} (h : ∀ s a s', f s a = Res.ok s' → g s a = Res.ok s') :
    ∀ {l : List α} {s s' : σ}, Res.fold l s f = Res.ok s' → Res.fold l s g = Res.ok s'
  | [], _, _, h' => h'
  | a :: l, s, s', h' => by
    obtain ⟨t, h1, h2⟩ := Res.bind_eq_ok.mp h'
    show (g s a).bind _ = _
    rw [h s a t h1]
    exact fold_mono h h2

theorem each_mono {α β : Type} {f g : α → Res β} (h : ∀ a b, f a = Res.ok b → g a = Res.ok b) {l : List α} {r : List β}
    (h' : Res.each l f = Res.ok r) : Res.each l g = Res.ok r :=
  Res.each_eq_ok.mpr ((Res.each_eq_ok.mp h').imp fun a b => h a b)

/-- `applyUnsafe` with a bound. -/
def applyN : ℕ → Json → Json → Res Json
  | 0, _, _ => Res.throws
  | n + 1, schema, data => Res.fold schema.items data fun data x =>
    if x.2.contains "default" && !data.contains x.1 then
      (x.2.index "default").bind fun d => data.set x.1 d
    else (x.2.index "type").bind fun type =>
      if type.isStr "object" then
        match x.2.find? "properties" with
        | none => Res.ok data
        | some properties =>
          match data.find? x.1 with
          | none => Res.ok data
          | some old =>
            if old.isObj then (applyN n properties old).bind fun new => data.set x.1 new
            else Res.throws
      else Res.ok data

theorem applyN_ok {n : ℕ} : ∀ {schema data r : Json}, applyN n schema data = Res.ok r →
    applyUnsafe schema data = Res.ok r := by
  induction n with
  | zero => intro _ _ _ h; cases h
  | succ n ih =>
    intro schema data r h
    rw [applyUnsafe_eq]
    refine fold_mono ?_ h
    intro s x s' h1
    unfold applyStep
    by_cases hc : (x.2.contains "default" && !s.contains x.1) = true
    · rw [if_pos hc] at h1 ⊢
      exact h1
    · rw [if_neg hc] at h1 ⊢
      obtain ⟨type, h2, h1⟩ := Res.bind_eq_ok.mp h1
      rw [h2, Res.ok_bind]
      by_cases ht : type.isStr "object" = true
      · rw [if_pos ht] at h1 ⊢
        cases hp : x.2.find? "properties" with
        | none => rw [hp] at h1; exact h1
        | some p =>
          rw [hp] at h1
          simp only at h1 ⊢
          cases ho : s.find? x.1 with
          | none => rw [ho] at h1; exact h1
          | some old =>
            rw [ho] at h1
            simp only at h1 ⊢
            by_cases hob : old.isObj = true
            · rw [if_pos hob] at h1 ⊢
              obtain ⟨new, h3, h1⟩ := Res.bind_eq_ok.mp h1
              rw [ih h3]
              exact h1
            · rw [if_neg hob] at h1; cases h1
      · rw [if_neg ht] at h1 ⊢
        exact h1

/-- `addUnsafe` with a bound. -/
def addN : ℕ → Json → Json → Res Json
  | n + 1, obj m, defaults =>
    if defaults.items.any fun x => !(obj m).contains x.1 then Res.throws
    else (Res.each m fun x =>
      if x.2.contains "type" then
        match defaults.find? x.1 with
        | none => Res.ok x
        | some d => (x.2.set "default" d).bind fun definition => (definition.index "type").bind fun type =>
          if type.isStr "object" then
            match x.2.find? "properties" with
            | none => Res.ok (x.1, definition)
            | some p =>
              if d.isObj then (addN n p d).bind fun p' => (definition.set "properties" p').bind fun definition' =>
                Res.ok (x.1, definition')
              else Res.throws
          else Res.ok (x.1, definition)
      else Res.throws).bind fun m' => Res.ok (obj m')
  | _, _, _ => Res.throws

theorem addN_ok {n : ℕ} : ∀ {schema data r : Json}, addN n schema data = Res.ok r →
    addUnsafe schema data = Res.ok r := by
  induction n with
  | zero => intro _ _ _ h; cases h
  | succ n ih =>
    intro schema data r h
    cases schema with
    | obj m =>
      simp only [addN] at h
      rw [addUnsafe_obj]
      split at h
      · cases h
      · next hc =>
        rw [if_neg hc]
        obtain ⟨m', h1, h⟩ := Res.bind_eq_ok.mp h
        rw [each_mono (g := addStep data) ?_ h1]
        · exact h
        · intro x y h2
          unfold addStep
          by_cases ht : x.2.contains "type" = true
          · rw [if_pos ht] at h2 ⊢
            cases hd : data.find? x.1 with
            | none => rw [hd] at h2; exact h2
            | some d =>
              rw [hd] at h2
              simp only at h2 ⊢
              obtain ⟨definition, h3, h2⟩ := Res.bind_eq_ok.mp h2
              obtain ⟨type, h4, h2⟩ := Res.bind_eq_ok.mp h2
              rw [h3, Res.ok_bind, h4, Res.ok_bind]
              by_cases hto : type.isStr "object" = true
              · rw [if_pos hto] at h2 ⊢
                cases hp : x.2.find? "properties" with
                | none => rw [hp] at h2; exact h2
                | some p =>
                  rw [hp] at h2
                  simp only at h2 ⊢
                  by_cases ho : d.isObj = true
                  · rw [if_pos ho] at h2 ⊢
                    obtain ⟨p', h5, h2⟩ := Res.bind_eq_ok.mp h2
                    rw [ih h5]
                    exact h2
                  · rw [if_neg ho] at h2; cases h2
              · rw [if_neg hto] at h2 ⊢
                exact h2
          · rw [if_neg ht] at h2; cases h2
    | _ => cases h

/-- `accepts` with a bound. -/
def acceptsN : ℕ → Json → Json → Bool
  | _ + 1, .bool b, _ => b
  | n + 1, obj m, data => m.all fun x =>
    if x.1 = "properties" then
      match x.2, data with
      | obj ps, obj d => ps.all fun p =>
        match d.lookup p.1 with
        | some y => acceptsN n p.2 y
        | none => true
      | _, _ => true
    else if x.1 = "items" then
      match data with
      | arr l => l.all fun y => acceptsN n x.2 y
      | _ => true
    else if x.1 = "contains" then
      match data with
      | arr l => l.any fun y => acceptsN n x.2 y
      | _ => true
    else if x.1 = "allOf" then
      match x.2 with
      | arr ss => ss.all fun s => acceptsN n s data
      | _ => true
    else simpleKeyword m x.1 x.2 data
  | _, _, _ => false

theorem acceptsN_ok {n : ℕ} : ∀ {schema data : Json}, acceptsN n schema data = true → accepts schema data = true := by
  induction n with
  | zero => intro s d h; cases s <;> cases h
  | succ n ih =>
    intro schema data h
    cases schema with
    | bool b => rw [accepts]; exact h
    | obj m =>
      rw [accepts_obj]
      simp only [acceptsN] at h
      rw [List.all_eq_true] at h ⊢
      intro x hx
      have h := h x hx
      unfold keyword
      split at h
      · next hk =>
        rw [if_pos hk]
        cases hx2 : x.2 with
        | obj ps =>
          cases data with
          | obj d =>
            rw [hx2] at h
            simp only at h ⊢
            rw [List.all_eq_true] at h ⊢
            intro p hp
            have := h p hp
            cases hd : d.lookup p.1 with
            | none => rfl
            | some y => rw [hd] at this; exact ih this
          | _ => rfl
        | _ => rfl
      · next hk =>
        rw [if_neg hk]
        split at h
        · next hk =>
          rw [if_pos hk]
          cases data with
          | arr l =>
            simp only at h ⊢
            rw [List.all_eq_true] at h ⊢
            exact fun y hy => ih (h y hy)
          | _ => rfl
        · next hk =>
          rw [if_neg hk]
          split at h
          · next hk =>
            rw [if_pos hk]
            cases data with
            | arr l =>
              simp only at h ⊢
              rw [List.any_eq_true] at h ⊢
              obtain ⟨y, hy, h⟩ := h
              exact ⟨y, hy, ih h⟩
            | _ => rfl
          · next hk =>
            rw [if_neg hk]
            split at h
            · next hk =>
              rw [if_pos hk]
              cases hx2 : x.2 with
              | arr ss =>
                rw [hx2] at h
                simp only at h ⊢
                rw [List.all_eq_true] at h ⊢
                exact fun y hy => ih (h y hy)
              | _ => rfl
            · next hk =>
              rw [if_neg hk]
              exact h
    | _ => cases h

/-- `addDefaults` with a bound. -/
def addDefaultsN (n : ℕ) (schema defaults : Json) : Res Json :=
  match schema.find? "type", schema.find? "properties" with
  | some type, some properties =>
    if type.isStr "object" && defaults.isObj then (addN n properties defaults).bind fun p => schema.set "properties" p
    else Res.throws
  | _, _ => Res.throws

theorem addDefaultsN_ok {n : ℕ} {schema defaults r : Json} (h : addDefaultsN n schema defaults = Res.ok r) :
    addDefaults schema defaults = Res.ok r := by
  unfold addDefaultsN at h
  unfold addDefaults
  split at h
  · next h1 h2 =>
    rw [h1, h2]
    simp only
    split at h
    · next hc =>
      rw [if_pos hc]
      obtain ⟨p, h3, h⟩ := Res.bind_eq_ok.mp h
      rw [addN_ok h3]
      exact h
    · cases h
  · cases h

/-- `prepare` with a bound. -/
def prepareN (n : ℕ) (schema : Json) (boundary : Option Json) (defaults data : Json) : Res Json :=
  (match boundary with
    | none => Res.ok schema
    | some b => (valueOr defaults "boundary_values").bind fun d => (addDefaultsN n b d).bind fun b' =>
      addRequired schema "boundary_values" b').bind fun s => (addDefaultsN n s defaults).bind fun s =>
  match s.find? "type", s.find? "properties" with
  | some type, some properties =>
    if type.isStr "object" then (applyN n properties data).bind fun data' =>
      if acceptsN n s data' then Res.ok data' else Res.throws
    else Res.throws
  | _, _ => Res.throws

theorem prepareN_ok {n : ℕ} {α : Type} {t : ComponentType α} {data r : Json}
    (h : prepareN n t.schema t.boundary t.defaults data = Res.ok r) : prepare accepts t data = Res.ok r := by
  unfold prepareN at h
  obtain ⟨s0, h1, h⟩ := Res.bind_eq_ok.mp h
  obtain ⟨s, h2, h⟩ := Res.bind_eq_ok.mp h
  have hs : typeSchema t = Res.ok s := by
    unfold typeSchema
    cases hb : t.boundary with
    | none =>
      rw [hb] at h1
      injection h1 with h1
      subst h1
      exact addDefaultsN_ok h2
    | some b =>
      rw [hb] at h1
      obtain ⟨d, h3, h1⟩ := Res.bind_eq_ok.mp h1
      obtain ⟨b', h4, h1⟩ := Res.bind_eq_ok.mp h1
      show ((valueOr t.defaults "boundary_values").bind fun d => (addDefaults b d).bind fun b' =>
        (addRequired t.schema "boundary_values" b').bind fun s => addDefaults s t.defaults) = _
      rw [h3]
      show ((addDefaults b d).bind fun b' =>
        (addRequired t.schema "boundary_values" b').bind fun s => addDefaults s t.defaults) = _
      rw [addDefaultsN_ok h4]
      show ((addRequired t.schema "boundary_values" b').bind fun s => addDefaults s t.defaults) = _
      rw [h1]
      exact addDefaultsN_ok h2
  unfold prepare
  rw [hs, Res.ok_bind]
  unfold applyDefaults
  split at h
  · next h3 h4 =>
    rw [h3, h4]
    simp only
    split at h
    · next ho =>
      obtain ⟨data', h5, h⟩ := Res.bind_eq_ok.mp h
      split at h
      · next ha =>
        injection h with h
        subst h
        rw [if_pos ho, applyN_ok h5, Res.ok_bind, if_pos (acceptsN_ok ha)]
      · cases h
    · cases h
  · cases h

/-- Making a node. -/
theorem makeNode_of {n : ℕ} {α : Type} {t : ComponentType α} {data r : Json} {id : String} {x : α}
    (h : prepareN n t.schema t.boundary t.defaults data = Res.ok r) (hid : r.find? "id" = some (str id))
    (hc : t.construct r = Res.ok x) : makeNode accepts t data = Res.ok ⟨id, x, [], []⟩ := by
  unfold makeNode
  rw [prepareN_ok h, Res.ok_bind, rawId_of (find_id.mpr hid), Res.ok_bind, hc]
  rfl

/-- Making an edge. -/
theorem makeEdge_of {n : ℕ} {ν ε : Type} {t : ComponentType ε} {g : Graph ν ε} {data r : Json} {id a b : String} {x : ε}
    {u v : ℕ} (h : prepareN n t.schema t.boundary t.defaults data = Res.ok r) (hid : r.find? "id" = some (str id))
    (ha : r.find? "from" = some (str a)) (hb : r.find? "to" = some (str b))
    (hu : (g.nodes.findIdx? fun n => a == n.id) = some u) (hv : (g.nodes.findIdx? fun n => b == n.id) = some v)
    (hne : u ≠ v) (hc : t.construct r = Res.ok x) : makeEdge accepts t g data =
      Res.ok ⟨(g.nodes.modify u (attachStart g.edges.length)).modify v (attachEnd g.edges.length),
        g.edges ++ [⟨id, x, u, v⟩]⟩ := by
  have e : ∀ key c w, r.find? key = some (str c) → (g.nodes.findIdx? fun n => c == n.id) = some w →
      endNode key r g.nodes = Res.ok w := by
    intro key c w h1 h2
    unfold endNode
    rw [index_of_find h1]
    simp only [Res.ok_bind, getStr, h2]
  unfold makeEdge
  rw [prepareN_ok h, Res.ok_bind, rawId_of (find_id.mpr hid), Res.ok_bind, e _ _ _ ha hu, Res.ok_bind, e _ _ _ hb hv,
    Res.ok_bind, if_neg hne, hc]
  rfl

/-- A check of the form of a json of a network. -/
def shapedB (j : Json) : Bool :=
  classes.all fun c =>
    match j.find? c with
    | none => true
    | some (obj m) => (m.all fun x => match x.2 with
      | arr _ => true
      | _ => false) && decide (m.map Prod.fst).Nodup
    | some _ => false

theorem shaped_of {j : Json} (h : shapedB j = true) : Shaped j ∧ DistinctTypes j := by
  have h := List.all_eq_true.mp h
  constructor
  · intro c hc v hv
    have := h c hc
    rw [hv] at this
    cases v with
    | obj m =>
      refine ⟨m, rfl, fun x hx => ?_⟩
      have h2 := List.all_eq_true.mp (Bool.and_eq_true_iff.mp this).1 x hx
      split at h2
      · next l hl => exact ⟨l, hl⟩
      · cases h2
    | _ => cases this
  · intro c hc m hv
    have := h c hc
    rw [hv] at this
    exact of_decide_eq_true (Bool.and_eq_true_iff.mp this).2

/-- Building a network. -/
theorem readNet_of {draws : Json → Res (ℝ → Res (ℝ × ℝ))} {mem : ℕ → ℝ} {defaults topology boundary full : Json}
    {nodes : List (String × ComponentType Network.Node)} {edges : List (String × ComponentType Network.EdgeKind)}
    (h1 : Res.each (nodeList draws mem) (withDefaults defaults) = Res.ok nodes)
    (h2 : Res.each edgeList (withDefaults defaults) = Res.ok edges)
    (h3 : buildFull topology boundary = Res.ok full) {nj ej : Json} (h4 : (full.find? "nodes").getD null = nj)
    (h5 : (full.find? "connections").getD null = ej) (h6 : unknownType nodes nj = false) (h7 : unknownType edges ej = false)
    {vs : List (List (Node Network.Node))} (h8 : List.Forall₂ (fun t v =>
      (match nj.find? t.1 with
        | none => Res.ok []
        | some l => Res.each l.elements (makeNode accepts t.2)) = Res.ok v) nodes vs)
    {g : Graph Network.Node Network.EdgeKind} (h9 : (Res.fold edges ⟨vs.flatten, []⟩ fun g t =>
      match ej.find? t.1 with
      | none => Res.ok g
      | some l => Res.fold l.elements g (makeEdge accepts t.2)) = Res.ok g) (h10 : netCheck g = Res.ok ()) :
    readNet draws mem defaults topology boundary = Res.ok g := by
  have hn : buildNodes accepts nodes nj = Res.ok vs.flatten := by
    unfold buildNodes
    rw [if_neg (by simp [h6])]
    exact Res.bind_eq_ok.mpr ⟨_, Res.each_eq_ok.mpr h8, rfl⟩
  have he : buildEdges accepts edges ej vs.flatten = Res.ok g := by
    unfold buildEdges
    rw [if_neg (by simp [h7])]
    exact h9
  unfold readNet
  rw [h1, Res.ok_bind, h2, Res.ok_bind]
  unfold buildNet
  rw [h3, Res.ok_bind]
  unfold buildGraph
  rw [h4, h5, hn, Res.ok_bind, he, Res.ok_bind, h10]
  rfl

theorem fold_cons_of {α σ : Type} {l : List α} {a : α} {s s' r : σ} {f : σ → α → Res σ} (h : f s a = Res.ok s')
    (hr : Res.fold l s' f = Res.ok r) : Res.fold (a :: l) s f = Res.ok r := by
  show (f s a).bind _ = _
  rw [h]
  exact hr

/-- Reading a list of boundary values. -/
theorem readVector_of {n k : ℕ} (mem : ℕ → ℝ) {b : Json} (ha : acceptsN n (boundaryOf k) b = true) {es : List Json}
    (hd : b.find? "data" = some (arr es)) {l : List (ℚ × List ℚ)} (hl : List.Forall₂ Gas.Entry es l) (hne : l ≠ [])
    (hk : ∀ e ∈ l, e.2.length = k) :
    Gas.readVector (accepts (boundaryOf k)) mem b =
      Res.ok ⟨l.map fun e => (e.1 : ℝ), k, (l.map fun e => e.2.map fun q : ℚ => (q : ℝ)).flatten⟩ := by
  unfold Gas.readVector
  rw [if_pos (acceptsN_ok ha), index_of_find hd, Res.ok_bind]
  cases hl with
  | nil => exact absurd rfl hne
  | @cons j e es l h3 h4 =>
    have e1 := Gas.each_readEntry (.cons h3 h4)
    simp only [contains, h3.1, Option.isSome_none, Bool.false_eq_true, if_false, e1, Res.ok_bind]
    have := Gas.construct_flat (n := k) mem (Gas.real (e :: l)) (by simp [Gas.real]) (by
      intro x hx
      obtain ⟨y, hy, rfl⟩ := List.mem_map.mp hx
      simpa using hk y hy)
    refine this.trans ?_
    simp [Gas.real, Function.comp_def]

end Verif.Read
