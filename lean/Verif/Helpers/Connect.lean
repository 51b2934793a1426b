import Verif.Helpers.Move

/-!
# The program that adds a connection between gas network and power grid

Source: `/repo/helper_functions/construct_gaspowerconnection.cpp`. See `Verif.Helpers.Move` for how files are modelled. Returning
1 because the connection is there already is modelled as an exception: the program ends with the files as they are.
-/

set_option autoImplicit false

namespace Verif.Helpers

open Verif.Json Verif.Schema Edit

/-! ## The program -/

/-- The id of the new connection — `construct_gaspowerconnection.cpp` 33. -/
def newId (first last : String) : String := "g2p_" ++ first ++ "_" ++ last

/-- The copy with its new entries — `construct_gaspowerconnection.cpp` 63-64, 67-70, 73-74. -/
def relabel (topology : Bool) (first last : String) : Edit Unit :=
  andThen (key "id" (assign (str (newId first last)))) fun _ =>
    if topology then
      andThen (key "from" (assign (str ("node_" ++ first)))) fun _ => key "to" (assign (str last))
    else reading fun _ => Res.ok ()

/-- One round of the loop over nodes and connections — `construct_gaspowerconnection.cpp` 46-81. -/
def connectIn (topology : Bool) (first last : String) (class' : Json) : Res (Json × Unit) :=
  match class' with
  | obj m =>
    match m.lookup "Gaspowerconnection" with
    | none => Res.ok (class', ())
    | some current => do
      let found ← findId (newId first last) (elements current)
      match found with
      | some _ => Res.throws
      | none => do
        let c ← front current
        match current with
        | arr l => do
          let _ ← (relabel topology first last c).2
          Res.ok (obj (put "Gaspowerconnection" (arr ((relabel topology first last c).1 :: l)) m), ())
        | _ => Res.throws
  | _ => Res.ok (class', ())

/-- What is done with one file — `construct_gaspowerconnection.cpp` 40-86. -/
def connectFile (topology : Bool) (first last : String) : Json → Res (Option Json)
  | obj m => do
    let r ← eachValue (connectIn topology first last) m
    Res.ok (some (obj r.1))
  | j => Res.ok (some j)

/-- `construct_gaspowerconnection` — `construct_gaspowerconnection.cpp` 24-88: first the topology, then the other files. -/
def constructConnection (first last : String) (topology : Option Json) (others : List (Option Json)) :
    List (Option Json) × Res Unit :=
  match overFiles (connectFile true first last) [topology] with
  | (t, Res.ok _) => (t ++ (overFiles (connectFile false first last) others).1, (overFiles (connectFile false first last) others).2)
  | (t, r) => (t ++ others, r)

/-! ## Specification -/

/-- A file with lists of connections between gas and power, none of them empty, each connection with an id and none
with the id of the new one. -/
def Extendable (id : String) (file : Json) : Prop :=
  ∃ m, file = obj m ∧ ∀ k v, (k, v) ∈ m → ∀ w, value? v [.at "Gaspowerconnection"] = some w →
    ∃ c l, w = arr (c :: l) ∧ ∀ x ∈ c :: l, HasId x ∧ ¬ IdIs x id

/-- The new connection has its own id and, in the topology, its own ends, the rest is that of the first connection. -/
structure NewConnection (topology : Bool) (first last : String) (c new : Json) : Prop where
  id : value? new [.at "id"] = some (str ("g2p_" ++ first ++ "_" ++ last))
  ends : topology = true → value? new [.at "from"] = some (str ("node_" ++ first)) ∧ value? new [.at "to"] = some (str last)
  rest : ∀ p, Apart p [.at "id"] → (topology = true → Apart p [.at "from"] ∧ Apart p [.at "to"]) → value? new p = value? c p

/-- A new connection is added in front of the connections of the file and everything else is as it was. -/
structure Extended (topology : Bool) (first last : String) (file out : Json) : Prop where
  adds : ∀ k c l, value? file [.at k, .at "Gaspowerconnection"] = some (arr (c :: l)) →
    ∃ new, NewConnection topology first last c new ∧ value? out [.at k, .at "Gaspowerconnection"] = some (arr (new :: c :: l))
  stays : ∀ k, value? file [.at k, .at "Gaspowerconnection"] = none → value? out [.at k] = value? file [.at k]
  others : ∀ k p, Apart p [.at "Gaspowerconnection"] → value? out (.at k :: p) = value? file (.at k :: p)

/-! ## Lemmas -/

theorem key_obj {α : Type} (k : String) (f : Edit α) (m : List (String × Json)) : ∃ m', (key k f (obj m)).1 = obj m' := ⟨_, rfl⟩

/-- Setting a key of an object. -/
theorem acts_key (k : String) (v : Json) (m : List (String × Json)) :
    Acts (key k (assign v)) (obj m) (fun Q w => Q = [.at k] ∧ w = v) := by
  refine ⟨rfl, ?_, fun p hp => ?_⟩
  · rintro Q w ⟨rfl, rfl⟩
    simp [key, assign, value?, lookup_put]
  · have hp := hp _ v ⟨rfl, rfl⟩
    match p, hp with
    | [], hp => exact absurd hp (not_apart_nil _)
    | .nth i :: p, _ => simp [key, value?]
    | .at c :: p, hp =>
      have hc : c ≠ k := fun e => (apart_cons.mp hp (by rw [e])).2 List.nil_prefix
      simp [key, assign, value?, lookup_put, hc]

theorem relabel_spec (topology : Bool) (first last : String) (m : List (String × Json)) :
    (relabel topology first last (obj m)).2 = Res.ok () ∧
      NewConnection topology first last (obj m) (relabel topology first last (obj m)).1 := by
  have h1 := acts_key "id" (str (newId first last)) m
  obtain ⟨m1, e1⟩ := key_obj "id" (assign (str (newId first last))) m
  cases topology with
  | false =>
    have h := acts_andThen (g := fun _ => reading fun _ => Res.ok ()) (T := fun _ _ => False) h1
      ⟨rfl, by simp, fun _ _ => rfl⟩ (by simp)
    exact ⟨h.1, h.2.1 _ _ (.inl ⟨rfl, rfl⟩), by simp, fun p hp _ => h.2.2 p (by rintro P w (⟨rfl, rfl⟩ | h); exacts [hp, h.elim])⟩
  | true =>
    have h2 := acts_key "from" (str ("node_" ++ first)) m1
    obtain ⟨m2, e2⟩ := key_obj "from" (assign (str ("node_" ++ first))) m1
    have h3 := acts_key "to" (str last) m2
    rw [← e2] at h3
    have h23 := acts_andThen (g := fun _ => key "to" (assign (str last))) h2 h3 (by
      rintro P w Q v ⟨rfl, rfl⟩ ⟨rfl, rfl⟩; simp [apart_cons])
    rw [← e1] at h23
    have h := acts_andThen (g := fun _ => andThen (key "from" (assign (str ("node_" ++ first)))) fun _ => key "to" (assign (str last)))
      h1 h23 (by rintro P w Q v ⟨rfl, rfl⟩ (⟨rfl, rfl⟩ | ⟨rfl, rfl⟩) <;> simp [apart_cons])
    refine ⟨h.1, h.2.1 _ _ (.inl ⟨rfl, rfl⟩), fun _ => ⟨h.2.1 _ _ (.inr (.inl ⟨rfl, rfl⟩)), h.2.1 _ _ (.inr (.inr ⟨rfl, rfl⟩))⟩,
      fun p hp hp' => h.2.2 p ?_⟩
    rintro P w (⟨rfl, rfl⟩ | ⟨rfl, rfl⟩ | ⟨rfl, rfl⟩)
    · exact hp
    · exact (hp' rfl).1
    · exact (hp' rfl).2

theorem obj_of_hasId {c : Json} (h : HasId c) : ∃ m, c = obj m := by
  obtain ⟨id, h⟩ := h
  cases c with
  | obj m => exact ⟨m, rfl⟩
  | _ => simp [IdIs, value?] at h

theorem connectIn_spec {topology : Bool} {first last : String} {v : Json}
    (h : ∀ w, value? v [.at "Gaspowerconnection"] = some w →
      ∃ c l, w = arr (c :: l) ∧ ∀ x ∈ c :: l, HasId x ∧ ¬ IdIs x (newId first last)) :
    ∃ w, connectIn topology first last v = Res.ok (w, ()) ∧
      ((value? v [.at "Gaspowerconnection"] = none ∧ w = v) ∨ ∃ m c l new, v = obj m ∧ m.lookup "Gaspowerconnection" = some (arr (c :: l)) ∧
        NewConnection topology first last c new ∧ w = obj (put "Gaspowerconnection" (arr (new :: c :: l)) m)) := by
  cases v with
  | obj m =>
    rw [value_one] at h
    rw [value_one]
    simp only [connectIn]
    cases hs : m.lookup "Gaspowerconnection" with
    | none => exact ⟨_, rfl, .inl ⟨rfl, rfl⟩⟩
    | some w =>
      obtain ⟨c, l, rfl, hl⟩ := h w hs
      obtain ⟨r, hr⟩ := findId_exists (id := newId first last) fun x hx => (hl x hx).1
      have hspec := findId_spec hr
      cases r with
      | some i =>
        obtain ⟨l₁, x, l₂, e, _, hx, _⟩ := hspec
        exact absurd hx (hl x (by rw [e]; simp)).2
      | none =>
        obtain ⟨n, rfl⟩ := obj_of_hasId (hl c (by simp)).1
        obtain ⟨h1, h2⟩ := relabel_spec topology first last n
        simp only [elements, hr, Res.ok_bind, front, h1]
        exact ⟨_, rfl, .inr ⟨m, _, l, _, rfl, hs, h2, rfl⟩⟩
  | _ => exact ⟨_, rfl, .inl ⟨by simp [value?], rfl⟩⟩

theorem connectFile_spec {topology : Bool} {first last : String} {file : Json}
    (h : Extendable ("g2p_" ++ first ++ "_" ++ last) file) :
    ∃ r, connectFile topology first last file = Res.ok r ∧ Extended topology first last file (r.getD file) := by
  obtain ⟨m, rfl, h⟩ := h
  obtain ⟨r, hr⟩ := eachValue_exists (f := connectIn topology first last) (m := m) fun k v hkv => by
    obtain ⟨w, hw, _⟩ := connectIn_spec (topology := topology) (h k v hkv)
    exact ⟨_, hw⟩
  refine ⟨some (obj r.1), by simp only [connectFile, hr, Res.ok_bind], ?_⟩
  simp only [Option.getD_some]
  have hlook := eachValue_lookup hr
  have hnone : ∀ k, m.lookup k = none → r.1.lookup k = none := fun k hk => by
    have := hlook k
    rwa [hk] at this
  have hcase : ∀ k v, m.lookup k = some v → ∃ w, r.1.lookup k = some w ∧
      ((value? v [.at "Gaspowerconnection"] = none ∧ w = v) ∨ ∃ n c l new, v = obj n ∧
        n.lookup "Gaspowerconnection" = some (arr (c :: l)) ∧
        NewConnection topology first last c new ∧ w = obj (put "Gaspowerconnection" (arr (new :: c :: l)) n)) := by
    intro k v hv
    have := hlook k
    rw [hv] at this
    obtain ⟨w, b, hf, hw⟩ := this
    obtain ⟨w', hw', hc⟩ := connectIn_spec (topology := topology) (h k v (Json.mem_of_lookup hv))
    rw [hf] at hw'
    cases hw'
    exact ⟨w, hw, hc⟩
  constructor
  · intro k c l hv
    rw [value_at] at hv
    obtain ⟨v, hk, hv⟩ := Option.bind_eq_some_iff.mp hv
    obtain ⟨w, hw, ⟨hno, _⟩ | ⟨n, c', l', new, rfl, hs, hnew, rfl⟩⟩ := hcase k v hk
    · rw [hno] at hv; cases hv
    · rw [value_one, hs] at hv
      cases hv
      exact ⟨new, hnew, by rw [value_at, hw]; exact value_one.trans lookup_put_self⟩
  · intro k hv
    simp only [value_one]
    cases hk : m.lookup k with
    | none => exact hnone k hk
    | some v =>
      rw [value_at, hk] at hv
      have hv : value? v [.at "Gaspowerconnection"] = none := hv
      obtain ⟨w, hw, ⟨_, rfl⟩ | ⟨n, c', l', new, rfl, hs, _⟩⟩ := hcase k v hk
      · exact hw
      · rw [value_one, hs] at hv; cases hv
  · intro k p hp
    simp only [value_at]
    cases hk : m.lookup k with
    | none => rw [hnone k hk]
    | some v =>
      obtain ⟨w, hw, ⟨_, rfl⟩ | ⟨n, c', l', new, rfl, hs, _, rfl⟩⟩ := hcase k v hk
      · rw [hw]
      · rw [hw]
        simp only [Option.bind_some]
        match p, hp with
        | [], hp => exact absurd hp (not_apart_nil _)
        | .nth i :: p, _ => simp [value?]
        | .at c :: p, hp =>
          have hc : c ≠ "Gaspowerconnection" := fun e => (apart_cons.mp hp (by rw [e])).2 List.nil_prefix
          simp only [value_at, lookup_put_ne hc]

/-- **C132**, if all files can be read and the files list connections between gas and power, none of which has the new id: a
new connection is added in every file, with the ends that were given, and nothing else is changed. What is missing: files
without such connections, see `C132_false` and `C132_empty_false`. -/
theorem C132_partial {first last : String} {topology : Json} {others : List Json}
    (h : ∀ j ∈ topology :: others, Extendable ("g2p_" ++ first ++ "_" ++ last) j) :
    ∃ out rest, constructConnection first last (some topology) (others.map some) = (some out :: rest.map some, Res.ok ()) ∧
      Extended true first last topology out ∧ List.Forall₂ (Extended false first last) others rest := by
  obtain ⟨out, ho, hall⟩ := overFiles_ok (f := connectFile true first last) (R := Extended true first last) (files := [topology])
    fun j hj => connectFile_spec (h j (by simp_all))
  obtain ⟨rest, hr, hall'⟩ := overFiles_ok (f := connectFile false first last) (R := Extended false first last) (files := others)
    fun j hj => connectFile_spec (h j (by simp [hj]))
  cases hall with
  | cons hx hnil =>
    cases hnil
    refine ⟨_, rest, ?_, hx, hall'⟩
    simp only [List.map_cons, List.map_nil] at ho
    simp only [constructConnection, ho, hr]
    rfl

theorem connectIn_cases {topology : Bool} {first last : String} {v : Json}
    (h : ∀ w, value? v [.at "Gaspowerconnection"] = some w → ∃ c l, w = arr (c :: l) ∧ ∀ x ∈ c :: l, HasId x) :
    (∃ r, connectIn topology first last v = Res.ok r) ∨ connectIn topology first last v = Res.throws := by
  by_cases hn : ∀ w, value? v [.at "Gaspowerconnection"] = some w →
      ∃ c l, w = arr (c :: l) ∧ ∀ x ∈ c :: l, HasId x ∧ ¬ IdIs x (newId first last)
  · obtain ⟨w, hw, _⟩ := connectIn_spec (topology := topology) hn
    exact .inl ⟨_, hw⟩
  · cases v with
    | obj m =>
      simp only [value_one] at h hn
      simp only [connectIn]
      cases hs : m.lookup "Gaspowerconnection" with
      | none => exact .inl ⟨_, rfl⟩
      | some w =>
        obtain ⟨c, l, rfl, hl⟩ := h w hs
        obtain ⟨r, hr⟩ := findId_exists (id := newId first last) hl
        simp only [elements, hr, Res.ok_bind]
        have hspec := findId_spec hr
        cases r with
        | some i => exact .inr rfl
        | none =>
          refine absurd (fun w' hw' => ?_) hn
          rw [hs] at hw'
          cases hw'
          exact ⟨c, l, rfl, fun x hx => ⟨hl x hx, hspec x hx⟩⟩
    | _ => exact .inl ⟨_, rfl⟩

theorem eachValue_throws {α : Type} {f : Json → Res (Json × α)} : ∀ {m : List (String × Json)},
    (∀ k v, (k, v) ∈ m → (∃ r, f v = Res.ok r) ∨ f v = Res.throws) → (∃ k v, (k, v) ∈ m ∧ f v = Res.throws) →
    eachValue f m = Res.throws
  | [], _, ⟨_, _, h, _⟩ => by simp at h
  | (k, v) :: m, hall, ⟨k', v', hmem, ht⟩ => by
    rcases hall k v (by simp) with ⟨r, hr⟩ | hr
    · have hin : (k', v') ∈ m := by
        rcases List.mem_cons.mp hmem with e | h
        · cases e; rw [hr] at ht; cases ht
        · exact h
      simp only [eachValue, hr, Res.ok_bind, eachValue_throws (fun k v h => hall k v (by simp [h])) ⟨k', v', hin, ht⟩]
      rfl
    · simp only [eachValue, hr]; rfl

/-- **C132**: if the topology has a connection with the new id already, the program reports an error and changes no
file. -/
theorem C132_twice {first last : String} {m : List (String × Json)} (others : List (Option Json))
    (h : ∀ k v, (k, v) ∈ m → ∀ w, value? v [.at "Gaspowerconnection"] = some w → ∃ c l, w = arr (c :: l) ∧ ∀ x ∈ c :: l, HasId x)
    {k : String} {v c : Json} {l : List Json} (hk : (k, v) ∈ m) (hl : value? v [.at "Gaspowerconnection"] = some (arr l)) (hc : c ∈ l)
    (hid : IdIs c ("g2p_" ++ first ++ "_" ++ last)) :
    constructConnection first last (some (obj m)) others = (some (obj m) :: others, Res.throws) := by
  have ht : connectIn true first last v = Res.throws := by
    rcases connectIn_cases (topology := true) (first := first) (last := last) (h k v hk) with ⟨r, hr⟩ | ht
    · cases v with
      | obj n =>
        rw [value_one] at hl
        obtain ⟨c', l', e, hall⟩ := h k _ hk _ (value_one.trans hl)
        cases e
        obtain ⟨i, hi⟩ := findId_exists (id := newId first last) hall
        simp only [connectIn, hl, elements, hi, Res.ok_bind] at hr
        cases i with
        | some i => cases hr
        | none => exact absurd hid (findId_spec hi c hc)
      | _ => simp [value?] at hl
    · exact ht
  have hf : connectFile true first last (obj m) = Res.throws := by
    simp only [connectFile, eachValue_throws (fun k v hkv => connectIn_cases (h k v hkv)) ⟨k, v, hk, ht⟩]
    rfl
  simp [constructConnection, overFiles, hf]

/-! ## Examples -/

/-- An entry with an id. -/
def entryX (id : String) (more : List (String × Json)) : Json := obj (("id", str id) :: more)

/-- A topology with a connection between gas and power. -/
def topologyX : Json := obj [("nodes", obj [("Innode", arr [entryX "node_1" [], entryX "node_2" []]), ("PQnode", arr [entryX "N" []])]),
  ("connections", obj [("Gaspowerconnection", arr [entryX "g2p_1_N" [("from", str "node_1"), ("to", str "N")]])])]

/-- The other file of the example. -/
def otherX : Json := obj [("connections", obj [("Gaspowerconnection", arr [entryX "g2p_1_N" [("data", arr [])]])])]

theorem extendable_x : ∀ j ∈ [topologyX, otherX], Extendable ("g2p_" ++ "2" ++ "_" ++ "N") j := by
  intro j hj
  rcases List.mem_cons.mp hj with rfl | hj
  · refine ⟨_, rfl, fun k v hkv w hw => ?_⟩
    simp only [List.mem_cons, Prod.mk.injEq, List.not_mem_nil, or_false] at hkv
    rcases hkv with ⟨rfl, rfl⟩ | ⟨rfl, rfl⟩
    · simp [value?, List.lookup] at hw
    · simp only [value_one, lookup_cons, if_true, Option.some.injEq] at hw
      refine ⟨_, _, hw.symm, fun x hx => ?_⟩
      simp only [List.mem_cons, List.not_mem_nil, or_false] at hx
      subst hx
      exact ⟨⟨"g2p_1_N", by simp [IdIs, entryX, value?, List.lookup]⟩, by simp [IdIs, entryX, value?, List.lookup]⟩
  · simp only [List.mem_cons, List.not_mem_nil, or_false] at hj
    subst hj
    refine ⟨_, rfl, fun k v hkv w hw => ?_⟩
    simp only [List.mem_cons, Prod.mk.injEq, List.not_mem_nil, or_false] at hkv
    obtain ⟨rfl, rfl⟩ := hkv
    simp only [value_one, lookup_cons, if_true, Option.some.injEq] at hw
    refine ⟨_, _, hw.symm, fun x hx => ?_⟩
    simp only [List.mem_cons, List.not_mem_nil, or_false] at hx
    subst hx
    exact ⟨⟨"g2p_1_N", by simp [IdIs, entryX, value?, List.lookup]⟩, by simp [IdIs, entryX, value?, List.lookup]⟩

example : ∃ (out : Json) (rest : List Json) (new old : Json), constructConnection "2" "N" (some topologyX) ([otherX].map some) = (some out :: rest.map some, Res.ok ()) ∧
    value? out [.at "connections", .at "Gaspowerconnection"] = some (arr [new, old]) ∧
    value? new [.at "from"] = some (str "node_2") ∧ value? new [.at "to"] = some (str "N") := by
  obtain ⟨out, rest, h, ht, _⟩ := C132_partial extendable_x
  obtain ⟨new, hnew, hv⟩ := ht.adds "connections" (entryX "g2p_1_N" [("from", str "node_1"), ("to", str "N")]) []
    (by simp [topologyX, value?, List.lookup])
  exact ⟨out, rest, new, _, h, hv, (hnew.ends rfl).1, (hnew.ends rfl).2⟩

/-- The second time the program fails. -/
example : constructConnection "1" "N" (some topologyX) [] = ([some topologyX], Res.throws) :=
  C132_twice [] (k := "connections") (v := obj [("Gaspowerconnection", arr [entryX "g2p_1_N" [("from", str "node_1"), ("to", str "N")]])])
    (c := entryX "g2p_1_N" [("from", str "node_1"), ("to", str "N")]) (l := [entryX "g2p_1_N" [("from", str "node_1"), ("to", str "N")]])
    (by
      intro k v hkv w hw
      simp only [List.mem_cons, Prod.mk.injEq, List.not_mem_nil, or_false] at hkv
      rcases hkv with ⟨rfl, rfl⟩ | ⟨rfl, rfl⟩
      · simp [value?, List.lookup] at hw
      · simp only [value_one, lookup_cons, if_true, Option.some.injEq] at hw
        refine ⟨_, _, hw.symm, fun x hx => ?_⟩
        simp only [List.mem_cons, List.not_mem_nil, or_false] at hx
        subst hx
        exact ⟨"g2p_1_N", by simp [IdIs, entryX, value?, List.lookup]⟩)
    (by simp) (by simp [value?, List.lookup]) (by simp) (by simp [IdIs, entryX, value?, List.lookup])

/-- A topology without connections between gas and power. -/
def noneX : Json := obj [("nodes", obj [("Innode", arr [entryX "node_1" []]), ("PQnode", arr [entryX "N" []])]),
  ("connections", obj [])]

/-- **C132** fails for the program: it may end without an error and without a new connection. This is so whenever there
is no connection between gas and power in the topology before. -/
theorem C132_false : ¬ ∀ (first last : String) (topology : Json) (others : List (Option Json)) (out : Json) (rest : List (Option Json)),
    constructConnection first last (some topology) others = (some out :: rest, Res.ok ()) →
    ∃ c l, value? out [.at "connections", .at "Gaspowerconnection"] = some (arr l) ∧ c ∈ l ∧
      value? c [.at "from"] = some (str ("node_" ++ first)) ∧ value? c [.at "to"] = some (str last) := by
  intro h
  obtain ⟨c, l, h, _⟩ := h "1" "N" noneX [] noneX [] (by
    simp [constructConnection, overFiles, connectFile, noneX, eachValue, connectIn, List.lookup])
  simp [noneX, value?, List.lookup] at h

/-- A topology with an empty list of connections between gas and power. -/
def emptyX : Json := obj [("nodes", obj []), ("connections", obj [("Gaspowerconnection", arr [])])]

/-- With an empty list the behaviour of the program is undefined. -/
theorem C132_empty_false : ¬ ∀ (first last : String) (topology : Json) (others : List (Option Json)),
    (constructConnection first last (some topology) others).2 ≠ Res.ub := by
  intro h
  exact h "1" "N" emptyX [] (by
    simp [constructConnection, overFiles, connectFile, emptyX, eachValue, connectIn, List.lookup, findId, elements, front])

/-! ### `move_to_category` -/

/-- Boundary values of the nodes. -/
def boundaryM : Json := obj [("nodes", obj [("PQnode", arr [entryX "N" [("data", arr [])]])])]

theorem listed_x : ∀ j ∈ [topologyX, boundaryM], Listed "PQnode" "PVnode" j := by
  intro j hj
  rcases List.mem_cons.mp hj with rfl | hj
  · refine ⟨_, rfl, fun k v hkv w hw => ?_, fun k v hkv w hw => ?_⟩ <;>
      simp only [List.mem_cons, Prod.mk.injEq, List.not_mem_nil, or_false] at hkv <;> rcases hkv with ⟨rfl, rfl⟩ | ⟨rfl, rfl⟩ <;>
      simp [value?, List.lookup] at hw
    subst hw
    exact ⟨_, rfl, by simp [HasId, IdIs, entryX, value?, List.lookup]⟩
  · simp only [List.mem_cons, List.not_mem_nil, or_false] at hj
    subst hj
    refine ⟨_, rfl, fun k v hkv w hw => ?_, fun k v hkv w hw => ?_⟩ <;>
      simp only [List.mem_cons, Prod.mk.injEq, List.not_mem_nil, or_false] at hkv <;> obtain ⟨rfl, rfl⟩ := hkv <;>
      simp [value?, List.lookup] at hw
    subst hw
    exact ⟨_, rfl, by simp [HasId, IdIs, entryX, value?, List.lookup]⟩

example : ∃ a b, moveToCategory "PQnode" "PVnode" "N" [some topologyX, some boundaryM] = ([some a, some b], Res.ok ()) ∧
    value? a [.at "nodes", .at "PVnode"] = some (arr [entryX "N" []]) ∧ value? a [.at "nodes", .at "PQnode"] = some (arr []) ∧
    value? b [.at "nodes", .at "PVnode"] = some (arr [entryX "N" [("data", arr [])]]) ∧
    value? a [.at "nodes", .at "Innode"] = value? topologyX [.at "nodes", .at "Innode"] := by
  obtain ⟨out, h, hall⟩ := C131_partial (source := "PQnode") (target := "PVnode") (id := "N") (by decide) listed_x
  obtain ⟨a, out, ha, hall', rfl⟩ := List.forall₂_cons_left_iff.mp hall
  obtain ⟨b, out, hb, hnil, rfl⟩ := List.forall₂_cons_left_iff.mp hall'
  cases hnil
  have hN : ∀ m, IdIs (entryX "N" m) "N" := fun m => by simp [IdIs, entryX, value?, List.lookup]
  have h1 := ha.moves "nodes" [] (entryX "N" []) [] (by simp [topologyX, value?, List.lookup]) (hN _) (by simp)
  have h2 := hb.moves "nodes" [] (entryX "N" [("data", arr [])]) [] (by simp [boundaryM, value?, List.lookup]) (hN _) (by simp)
  refine ⟨a, b, h, ?_, h1.1, ?_, ha.others "nodes" [.at "Innode"] (by simp [apart_cons]) (by simp [apart_cons])⟩
  · rcases h1.2 with ⟨old, ho, _⟩ | ⟨_, h⟩
    · simp [topologyX, value?, List.lookup] at ho
    · exact h
  · rcases h2.2 with ⟨old, ho, _⟩ | ⟨_, h⟩
    · simp [boundaryM, value?, List.lookup] at ho
    · exact h

/-- **C131** fails for the program: it may change one file and leave another one with the component as it was, here because the file in
between is missing. The topology then says that the component has one type and the last file that it has another one. -/
theorem C131_false : ¬ ∀ (source target id : String) (files out : List (Option Json)) (r : Res Unit), source ≠ target →
    (∀ j, some j ∈ files → Listed source target j) → moveToCategory source target id files = (out, r) →
    out = files ∨ ∀ (i : ℕ) (a b : Json), files[i]? = some (some a) → out[i]? = some (some b) → Moved source target id a b := by
  intro h
  have hm : Moved "PQnode" "PVnode" "N" boundaryM boundaryM → False := fun hm => by
    have := (hm.moves "nodes" [] (entryX "N" [("data", arr [])]) [] (by simp [boundaryM, value?, List.lookup])
      (by simp [IdIs, entryX, value?, List.lookup]) (by simp)).1
    simp [boundaryM, value?, List.lookup] at this
  obtain ⟨r, hr, hmv⟩ := moveFile_spec (id := "N") (by decide) (listed_x topologyX (by simp))
  have htop : Moved "PQnode" "PVnode" "N" topologyX topologyX → False := fun hm => by
    have := (hm.moves "nodes" [] (entryX "N" []) [] (by simp [topologyX, value?, List.lookup])
      (by simp [IdIs, entryX, value?, List.lookup]) (by simp)).1
    simp [topologyX, value?, List.lookup] at this
  cases r with
  | none => exact htop hmv
  | some a =>
    have hrun : moveToCategory "PQnode" "PVnode" "N" [some topologyX, none, some boundaryM] =
        ([some a, none, some boundaryM], Res.throws) := by
      simp only [moveToCategory, overFiles, hr]
    rcases h _ _ _ _ _ _ (by decide) (by
      intro j hj
      simp only [List.mem_cons, Option.some.injEq, reduceCtorEq, List.not_mem_nil, or_false, false_or] at hj
      exact listed_x j (by simpa using hj)) hrun with h | h
    · simp only [List.cons.injEq, Option.some.injEq, and_true] at h
      subst h
      exact htop hmv
    · exact hm (h 2 boundaryM boundaryM rfl rfl)

end Verif.Helpers
