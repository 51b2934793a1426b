import Verif.Unit.Model
import Mathlib.Order.Monotone.Basic
import Mathlib.Tactic.NormNum
import Mathlib.Tactic.Positivity
import Mathlib.Tactic.Linarith
import Mathlib.Tactic.Ring

/-! # Properties C52 and C76: units -/

set_option autoImplicit false

namespace Verif.Unit

/-! ## Specification -/

/-- What the text of a number means. -/
def Number.value (n : Number) : ℚ :=
  (natOf (n.int ++ n.frac) : ℚ) / 10 ^ n.frac.length *
    match n.exponent with
    | none => 1
    | some (false, digits) => 10 ^ natOf digits
    | some (true, digits) => 1 / 10 ^ natOf digits

/-- There are digits before the exponent. -/
def Number.Numeric (n : Number) : Prop := n.int ≠ [] ∨ n.frac ≠ []

/-- `s` means: so many units of conversion `c`, where the number `x` includes the prefix. -/
inductive Means (units : Table) : List Char → ℚ → Conversion → Prop
  | plain (p u : List Char) (f c : Conversion) (hp : (p, f) ∈ siPrefixes) (hu : (u, c) ∈ units) (hs : '^' ∉ u) :
    Means units (p ++ u) f.factor c
  | scaled (n : Number) (p u : List Char) (f c : Conversion) (hn : n.Valid) (hn' : n.Numeric)
    (hp : (p, f) ∈ siPrefixes) (hu : (u, c) ∈ units) (hs : '^' ∉ u) :
    Means units (n.text ++ ' ' :: (p ++ u)) (n.value * f.factor) c

/-! ## The tables -/

/-- The tables are in the order of a `std::map`, without repetition. -/
theorem C52_tables_sorted : ∀ t ∈ siPrefixes :: measures,
    (t.map (·.1)).Pairwise fun a b => (a.map Char.toNat) < (b.map Char.toNat) := by decide

theorem tables_nodup : ∀ t ∈ siPrefixes :: measures, (t.map (·.1)).Nodup := by decide

theorem suffix_free : ∀ t ∈ measures, ∀ x ∈ t, ∀ y ∈ t, x.1 <:+ y.1 → x.1 = y.1 := by decide

theorem no_space : ∀ t ∈ siPrefixes :: measures, ∀ x ∈ t, ' ' ∉ x.1 := by decide

theorem prefixes_plain : ∀ x ∈ siPrefixes, '^' ∉ x.1 ∧ x.2.offset = 0 := by decide

theorem factors_pos : ∀ t ∈ siPrefixes :: measures, ∀ x ∈ t, 0 < x.2.factor := by decide +kernel

/-- Specification: the exponents of ten of the SI prefixes. -/
def prefixExponents : List (String × ℤ) :=
  [("", 0), ("da", 1), ("h", 2), ("k", 3), ("M", 6), ("G", 9), ("T", 12), ("P", 15), ("E", 18), ("Z", 21), ("Y", 24),
    ("d", -1), ("c", -2), ("m", -3), ("mu", -6), ("n", -9), ("p", -12), ("f", -15), ("a", -18), ("z", -21), ("y", -24)]

/-- **C52**: the prefixes are exactly those of the SI, each with its power of ten. -/
theorem C52_prefixes (p : List Char) (f : Conversion) :
    (p, f) ∈ siPrefixes ↔ ∃ x ∈ prefixExponents, x.1.toList = p ∧ f = ⟨10 ^ x.2, 0⟩ := by
  have h1 : ∀ y ∈ siPrefixes, ∃ x ∈ prefixExponents, x.1.toList = y.1 ∧ y.2 = ⟨10 ^ x.2, 0⟩ := by decide +kernel
  have h2 : ∀ x ∈ prefixExponents, (x.1.toList, (⟨10 ^ x.2, 0⟩ : Conversion)) ∈ siPrefixes := by decide +kernel
  constructor
  · exact h1 (p, f)
  · rintro ⟨x, hx, rfl, rfl⟩
    exact h2 x hx

/-- Specification: an inch, a pound and the standard gravity in SI units, from which other units are derived. -/
def inch : ℚ := 254 / 10000
/-- See `inch`. -/
def pound : ℚ := 45359237 / 100000000
/-- See `inch`. -/
def gravity : ℚ := 980665 / 100000

/-- Specification: what the units are: `(table, unit, a, b)` means that `x` units are `a * x + b` SI units. A degree
Fahrenheit is such that water freezes at 32 and boils at 212. -/
def unitMeanings : List (Table × String × ℚ × ℚ) :=
  [(length, "m", 1, 0), (length, "in", inch, 0), (length, "ft", 12 * inch, 0), (length, "yd", 3 * (12 * inch), 0),
    (length, "mi", 1760 * (3 * (12 * inch)), 0), (area, "m^2", 1, 0), (volume, "m^3", 1, 0), (volume, "l", 1 / 10 ^ 3, 0),
    (volume, "L", 1 / 10 ^ 3, 0), (pressure, "Pa", 1, 0), (pressure, "bar", 10 ^ 5, 0), (pressure, "atm", 101325, 0),
    (frequency, "Hz", 1, 0), (frequency, "per_min", 1 / 60, 0), (frequency, "per_minute", 1 / 60, 0), (force, "N", 1, 0),
    (power, "W", 1, 0), (power, "PS", 75 * gravity, 0), (mass, "g", 1 / 1000, 0), (mass, "t", 1000, 0),
    (mass, "lb", pound, 0), (mass, "oz", pound / 16, 0), (volumeFlux, "m_cube_per_s", 1, 0),
    (volumeFlux, "1000m_cube_per_hour", 1000 / (60 * 60), 0), (temperature, "K", 1, 0),
    (temperature, "C", 1, 27315 / 100), (temperature, "Celsius", 1, 27315 / 100),
    (temperature, "F", 100 / (212 - 32), 27315 / 100 - 32 * (100 / (212 - 32)))]

/-- **C52**: every unit has its true size, for every number of units. (A pound per square inch and an acre are rounded,
see `C52_rounded`.) -/
theorem C52_units (u : Table × String × ℚ × ℚ) (hu : u ∈ unitMeanings) :
    ∃ c, (u.2.1.toList, c) ∈ u.1 ∧ ∀ x, c.apply x = u.2.2.1 * x + u.2.2.2 := by
  have h : ∀ u ∈ unitMeanings, (u.2.1.toList, (⟨u.2.2.1, u.2.2.2⟩ : Conversion)) ∈ u.1 := by decide +kernel
  exact ⟨_, h u hu, fun _ => rfl⟩

/-- **C52**: the remaining units are right up to the given digits, and there are no others. -/
theorem C52_rounded : (∃ c, ("psi".toList, c) ∈ pressure ∧ c.offset = 0 ∧ |c.factor - pound * gravity / inch ^ 2| < 1 / 1000) ∧
    (∀ u ∈ ["ac", "acre"], ∃ c, (u.toList, c) ∈ area ∧ c.offset = 0 ∧ |c.factor - 4840 * (36 * inch) ^ 2| < 5 / 100) ∧
    ∀ t ∈ measures, ∀ x ∈ t, x.1 ∈ "psi".toList :: "ac".toList :: "acre".toList :: unitMeanings.map (·.2.1.toList) := by
  refine ⟨⟨⟨6894.757, 0⟩, by decide +kernel, rfl, by norm_num [pound, gravity, inch, abs_lt]⟩, ?_, by decide +kernel⟩
  intro u hu
  refine ⟨⟨4046.9, 0⟩, ?_, rfl, by norm_num [inch, abs_lt]⟩
  revert u
  decide +kernel

/-! ## Looking up and splitting -/

theorem find_eq {t : Table} (ht : (t.map (·.1)).Nodup) {k : List Char} {c : Conversion} (h : (k, c) ∈ t) :
    find t k = some c := by
  induction t with
  | nil => simp at h
  | cons x t ih =>
    unfold find
    rw [List.map_cons, List.nodup_cons] at ht
    rcases List.mem_cons.mp h with rfl | h
    · simp
    · have : x.1 ≠ k := by
        rintro rfl
        exact ht.1 (List.mem_map.mpr ⟨_, h, rfl⟩)
      rw [List.find?_cons_of_neg (by simpa using this)]
      exact ih ht.2 h

theorem parseUnit_eq {t : Table} (ht : t ∈ measures) {u : List Char} {c : Conversion} (h : (u, c) ∈ t)
    (w : List Char) : parseUnit (w ++ u) t = Res.ok (w, c) := by
  have hnd := tables_nodup t (List.mem_cons_of_mem _ ht)
  have hsf := suffix_free t ht
  unfold parseUnit
  have hex : ∃ x, t.find? (fun x => x.1.isSuffixOf (w ++ u)) = some x := by
    rw [← Option.isSome_iff_exists, List.find?_isSome]
    exact ⟨_, h, by simp [List.isSuffixOf_iff_suffix]⟩
  obtain ⟨x, hx⟩ := hex
  have hmem := List.mem_of_find?_eq_some hx
  have hsuf : x.1 <:+ w ++ u := by
    have := List.find?_some hx
    simpa [List.isSuffixOf_iff_suffix] using this
  have hxu : x.1 = u := by
    rcases List.suffix_or_suffix_of_suffix hsuf (List.suffix_append w u) with h' | h'
    · exact hsf x hmem _ h h'
    · exact (hsf _ h x hmem h').symm
  have hxc : x.2 = c := by
    have h1 := find_eq hnd h
    have h2 := find_eq hnd (show (x.1, x.2) ∈ t from hmem)
    rw [hxu, h1] at h2
    exact (Option.some.inj h2).symm
  rw [hx]
  simp [hxu, hxc]

theorem rfind_none {l : List Char} (h : ' ' ∉ l) : rfind l = none := by
  induction l with
  | nil => rfl
  | cons c l ih =>
    simp only [List.mem_cons, not_or] at h
    rw [rfind, ih h.2]
    simp [Ne.symm h.1]

theorem rfind_append (a : List Char) {l : List Char} (h : ' ' ∉ l) : rfind (a ++ ' ' :: l) = some a.length := by
  induction a with
  | nil => rw [List.nil_append, rfind, rfind_none h]; simp
  | cons c a ih => rw [List.cons_append, rfind, ih]; simp

theorem span_digits {d rest : List Char} (h : ∀ c ∈ d, c.isDigit) (h' : ∀ c ∈ rest.head?, c.isDigit = false) :
    (d ++ rest).span Char.isDigit = (d, rest) := by
  rw [List.span_eq_takeWhile_dropWhile]
  have h1 : rest.takeWhile Char.isDigit = [] ∧ rest.dropWhile Char.isDigit = rest := by
    cases rest with
    | nil => simp
    | cons c r => have := h' c (by simp); simp [this]
  rw [List.takeWhile_append_of_pos h, List.dropWhile_append_of_pos h, h1.1, h1.2, List.append_nil]

theorem digit_facts {c : Char} (h : c.isDigit) : c.isWhitespace = false ∧ c ≠ '-' ∧ c ≠ '+' ∧ c ≠ '.' ∧ c ≠ ' ' := by
  refine ⟨?_, ?_, ?_, ?_, ?_⟩
  · by_contra hw
    simp only [Char.isWhitespace, Bool.or_eq_true, decide_eq_true_eq, Bool.not_eq_false] at hw
    rcases hw with (((h' | h') | h') | h') <;> subst h' <;> simp at h
  all_goals rintro rfl; simp at h

theorem sign_plain {l : List Char} (h : ∀ c ∈ l.head?, c ≠ '-' ∧ c ≠ '+') : sign l = (false, l) := by
  cases l with
  | nil => rfl
  | cons c l =>
    have := h c (by simp)
    unfold sign
    split
    · next e => injection e with e; exact absurd e this.1
    · next e => injection e with e; exact absurd e this.2
    · rfl

/-- The value of an exponent. -/
def exponentValue : Option (Bool × List Char) → ℤ
  | none => 0
  | some (negative, digits) => if negative then -(natOf digits : ℤ) else natOf digits

theorem exponent_eq {e : Option (Bool × List Char)} (he : ∀ x ∈ e, x.2 ≠ [] ∧ ∀ c ∈ x.2, c.isDigit) (l : List Char) :
    exponent (Number.exponentText e ++ ' ' :: l) =
    (exponentValue e, ' ' :: l) := by
  match e, he with
  | none, _ => rfl
  | some (negative, digits), he =>
    obtain ⟨h1, h2⟩ := he _ rfl
    have hs : sign ((if negative then ['-'] else []) ++ digits ++ ' ' :: l) = (negative, digits ++ ' ' :: l) := by
      cases negative with
      | true => rfl
      | false =>
        refine sign_plain ?_
        cases digits with
        | nil => exact absurd rfl h1
        | cons c d =>
          intro c' hc'
          have : c = c' := by simpa using hc'
          have := digit_facts (h2 c (by simp))
          simp_all
    have hsp := span_digits (d := digits) (rest := ' ' :: l) h2 (by simp)
    simp only [Number.exponentText, List.cons_append, exponent]
    rw [hs]
    simp only [hsp]
    rw [if_neg (by simpa using h1)]
    rfl

theorem fraction_eq {f : List Char} (hf : ∀ c ∈ f, c.isDigit) {rest : List Char}
    (hr : ∀ c ∈ rest.head?, c.isDigit = false ∧ c ≠ '.') :
    fraction (Number.fractionText f ++ rest) = (f, rest) := by
  unfold Number.fractionText
  by_cases h : f = []
  · subst h
    simp only [if_true, List.nil_append]
    cases rest with
    | nil => rfl
    | cons c r =>
      have := (hr c (by simp)).2
      unfold fraction
      split
      · next e => injection e with e; exact absurd e this
      · rfl
  · rw [if_neg h]
    simp only [List.cons_append, fraction]
    exact span_digits hf fun c hc => (hr c hc).1

theorem exponent_head (e : Option (Bool × List Char)) (l : List Char) :
    ∀ c ∈ (Number.exponentText e ++ ' ' :: l).head?, c = 'e' ∨ c = ' ' := by
  match e with
  | none => intro c hc; right; exact (Option.some.inj hc).symm
  | some x => intro c hc; left; exact (Option.some.inj hc).symm

theorem fraction_head (f : List Char) (e : Option (Bool × List Char)) (l : List Char) :
    ∀ c ∈ (Number.fractionText f ++ (Number.exponentText e ++ ' ' :: l)).head?, c = '.' ∨ c = 'e' ∨ c = ' ' := by
  unfold Number.fractionText
  intro c hc
  split at hc
  · right; exact exponent_head e l c hc
  · left; exact (Option.some.inj hc).symm

/-- A number in the sense of the pattern, followed by a space. -/
theorem stod_number {n : Number} (hv : n.Valid) (hn : n.Numeric) (l : List Char) :
    stod (n.text ++ ' ' :: l) = Res.ok (n.value, n.text.length) := by
  have hhead : ∀ c ∈ (n.text ++ ' ' :: l).head?, c.isWhitespace = false ∧ c ≠ '-' ∧ c ≠ '+' := by
    intro c hc
    unfold Number.text at hc
    rcases hint : n.int with _ | ⟨d, ds⟩
    · have hf : n.frac ≠ [] := by rcases hn with h | h; exacts [absurd hint h, h]
      rw [hint] at hc
      simp only [List.nil_append, Number.fractionText, if_neg hf, List.cons_append, List.head?_cons,
        Option.mem_some_iff] at hc
      subst hc
      decide
    · rw [hint] at hc
      have : d = c := by simpa using hc
      subst this
      have := digit_facts (hv.int d (by rw [hint]; simp))
      exact ⟨this.1, this.2.1, this.2.2.1⟩
  have h1 : (n.text ++ ' ' :: l).dropWhile Char.isWhitespace = n.text ++ ' ' :: l := by
    generalize n.text ++ ' ' :: l = s at hhead
    cases s with
    | nil => rfl
    | cons c s => have := (hhead c (by simp)).1; simp [this]
  have h2 : sign (n.text ++ ' ' :: l) = (false, n.text ++ ' ' :: l) := sign_plain fun c hc => (hhead c hc).2
  have h3 : (n.text ++ ' ' :: l).span Char.isDigit =
      (n.int, Number.fractionText n.frac ++ (Number.exponentText n.exponent ++ ' ' :: l)) := by
    unfold Number.text
    rw [List.append_assoc, List.append_assoc]
    refine span_digits hv.int fun c hc => ?_
    rcases fraction_head _ _ _ c hc with rfl | rfl | rfl <;> decide
  have h4 := fraction_eq hv.frac (rest := Number.exponentText n.exponent ++ ' ' :: l) fun c hc => by
    rcases exponent_head _ _ c hc with rfl | rfl <;> decide
  have h5 := exponent_eq hv.exponent l
  unfold stod
  simp only [h1, h2, h3, h4]
  rw [if_neg, h5]
  · simp only [Bool.false_eq_true, if_false, List.length_append, List.length_cons]
    congr 2
    · unfold Number.value
      congr 1
      rcases n.exponent with _ | ⟨⟨⟩ | ⟨⟩, digits⟩ <;> simp [exponentValue]
    · omega
  · simp only [Bool.and_eq_true, List.isEmpty_iff, not_and]
    intro h
    rcases hn with h' | h'
    · exact absurd h h'
    · exact h'

/-- Without digits before the exponent it is no number. -/
theorem stod_throws {n : Number} (hn : ¬ n.Numeric) {l : List Char}
    (hl : ∀ c ∈ l.head?, c.isWhitespace = false ∧ c.isDigit = false ∧ c ≠ '-' ∧ c ≠ '+' ∧ c ≠ '.') :
    stod (n.text ++ ' ' :: l) = Res.throws := by
  have key : ∀ s : List Char, (∀ c ∈ s.head?, c.isDigit = false ∧ c ≠ '-' ∧ c ≠ '+' ∧ c ≠ '.') → ∀ t : List Char,
      t.dropWhile Char.isWhitespace = s → stod t = Res.throws := by
    intro s hs t ht
    unfold stod
    have h2 : sign s = (false, s) := sign_plain fun c hc => ⟨(hs c hc).2.1, (hs c hc).2.2.1⟩
    have h3 : s.span Char.isDigit = ([], s) := span_digits (d := []) (by simp) fun c hc => (hs c hc).1
    have h4 : fraction s = ([], s) := by
      have := fraction_eq (f := []) (rest := s) (by simp) fun c hc => ⟨(hs c hc).1, (hs c hc).2.2.2⟩
      simpa [Number.fractionText] using this
    simp only [ht, h2, h3, h4]
    rfl
  unfold Number.Numeric at hn
  push Not at hn
  unfold Number.text
  rw [hn.1, hn.2]
  match n.exponent with
  | none =>
    refine key l (fun c hc => (hl c hc).2) _ ?_
    simp only [Number.fractionText, Number.exponentText, if_true, List.nil_append]
    rw [List.dropWhile_cons_of_pos (by decide)]
    cases l with
    | nil => rfl
    | cons c l => rw [List.dropWhile_cons_of_neg (by simp [(hl c (by simp)).1])]
  | some x =>
    refine key _ ?_ _ rfl
    simp only [Number.fractionText, Number.exponentText, if_true, List.nil_append, List.cons_append]
    rw [List.dropWhile_cons_of_neg (by decide)]
    simp

/-! ## Main results -/

theorem number_no_space {n : Number} (hv : n.Valid) : ' ' ∉ n.text := by
  have hd : ∀ l : List Char, (∀ c ∈ l, c.isDigit) → ' ' ∉ l := fun l h hs => (digit_facts (h _ hs)).2.2.2.2 rfl
  unfold Number.text
  simp only [List.mem_append, not_or]
  refine ⟨hd _ hv.int, ?_, ?_⟩
  · unfold Number.fractionText
    split
    · simp
    · simp [hd _ hv.frac]
  · match he : n.exponent with
    | none => simp [Number.exponentText]
    | some (negative, digits) =>
      have := hd _ (hv.exponent (negative, digits) (by rw [he]; rfl)).2
      cases negative <;> simp [Number.exponentText, this]

theorem simple_no_space {units : Table} (hu : units ∈ measures) {s : List Char} (h : Simple units s) : ' ' ∉ s := by
  obtain ⟨p, u, ⟨f, hp, -⟩, ⟨c, hc, -⟩, rfl⟩ := h
  simp only [List.mem_append, not_or]
  exact ⟨no_space _ (by simp) _ hp, no_space _ (List.mem_cons_of_mem _ hu) _ hc⟩

theorem validate_eq {units : Table} (hu : units ∈ measures) (s : List Char) :
    validate units s = Res.ok () ↔ Simple units s ∨ WithNumber units s := by
  have hex : Simple units s → ¬ WithNumber units s := by
    rintro h ⟨n, t, hn, ht, rfl⟩
    exact simple_no_space hu h (by simp)
  unfold validate
  by_cases h1 : Simple units s <;> by_cases h2 : WithNumber units s <;> simp_all

theorem validate_throws {units : Table} {s : List Char} (h : validate units s ≠ Res.ok ()) :
    validate units s = Res.throws := by
  unfold validate at *
  split at h
  · exact absurd rfl h
  · rw [if_neg ‹_›]

theorem captured_prefix {p : List Char} {f : Conversion} (h : (p, f) ∈ siPrefixes) : Captured siPrefixes p :=
  ⟨f, h, (prefixes_plain _ h).1⟩

/-- C52. Every string of the documented form is accepted and means what it says: the value times the number times
the prefix, converted by the affine map of the unit. -/
theorem C52_meaning (units : Table) (hu : units ∈ measures) (s : List Char) (x : ℚ) (c : Conversion)
    (h : Means units s x c) (value : ℚ) :
    parseToSi units value s = Res.ok (c.factor * (value * x) + c.offset) := by
  have hsi := tables_nodup siPrefixes (by simp)
  cases h with
  | plain p u f _ hp hc hs =>
    have hv : validate units (p ++ u) = Res.ok () :=
      (validate_eq hu _).mpr (Or.inl ⟨p, u, captured_prefix hp, ⟨c, hc, hs⟩, rfl⟩)
    have hsp : splitPrefix p = Res.ok (1, p) := by
      unfold splitPrefix; rw [rfind_none (no_space _ (by simp) _ hp)]
    unfold parseToSi parsePrefix
    rw [hv, Res.ok_bind, parseUnit_eq hu hc, Res.ok_bind]
    simp only [hsp, Res.ok_bind, find_eq hsi hp, Conversion.apply]
    have h0 : f.offset = 0 := (prefixes_plain _ hp).2
    rw [h0]
    congr 1; ring
  | scaled n p u f _ hn hn' hp hc hs =>
    have hv : validate units (n.text ++ ' ' :: (p ++ u)) = Res.ok () :=
      (validate_eq hu _).mpr (Or.inr ⟨n, p ++ u, hn, ⟨p, u, captured_prefix hp, ⟨c, hc, hs⟩, rfl⟩, rfl⟩)
    have e : n.text ++ ' ' :: (p ++ u) = (n.text ++ ' ' :: p) ++ u := by simp
    have hsp : splitPrefix (n.text ++ ' ' :: p) = Res.ok (n.value, p) := by
      unfold splitPrefix
      rw [rfind_append _ (no_space _ (by simp) _ hp)]
      simp only [stod_number hn hn', Res.ok_bind]
      simp
    unfold parseToSi parsePrefix
    rw [hv, Res.ok_bind, e, parseUnit_eq hu hc, Res.ok_bind]
    simp only [hsp, Res.ok_bind, find_eq hsi hp, Conversion.apply]
    have h0 : f.offset = 0 := (prefixes_plain _ hp).2
    rw [h0]
    congr 1; ring

theorem prefix_heads : ∀ x ∈ siPrefixes, ∀ c ∈ x.1.head?, c.isWhitespace = false ∧ c.isDigit = false ∧ c ≠ '-' ∧
    c ≠ '+' ∧ c ≠ '.' := by decide

/-- C52. All other strings are rejected with an exception. -/
theorem C52_rejected (units : Table) (hu : units ∈ measures) (s : List Char) (h : ¬ ∃ x c, Means units s x c)
    (value : ℚ) : parseToSi units value s = Res.throws := by
  by_cases hv : validate units s = Res.ok ()
  · rcases (validate_eq hu s).mp hv with ⟨p, u, ⟨f, hp, -⟩, ⟨c, hc, hs⟩, rfl⟩ |
      ⟨n, t, hn, ⟨p, u, ⟨f, hp, -⟩, ⟨c, hc, hs⟩, rfl⟩, rfl⟩
    · exact absurd ⟨_, _, .plain p u f c hp hc hs⟩ h
    · by_cases hn' : n.Numeric
      · exact absurd ⟨_, _, .scaled n p u f c hn hn' hp hc hs⟩ h
      · have e : n.text ++ ' ' :: (p ++ u) = (n.text ++ ' ' :: p) ++ u := by simp
        have hsp : splitPrefix (n.text ++ ' ' :: p) = Res.throws := by
          unfold splitPrefix
          rw [rfind_append _ (no_space _ (by simp) _ hp)]
          simp only [stod_throws hn' (prefix_heads _ hp)]
          rfl
        unfold parseToSi parsePrefix
        rw [hv, Res.ok_bind, e, parseUnit_eq hu hc, Res.ok_bind]
        simp only [hsp]
        rfl
  · unfold parseToSi
    rw [validate_throws hv]
    rfl

/-- C52. A unit string has at most one meaning. -/
theorem C52_unique (units : Table) (hu : units ∈ measures) (s : List Char) (x x' : ℚ) (c c' : Conversion)
    (h : Means units s x c) (h' : Means units s x' c') : c.factor * x = c'.factor * x' ∧ c.offset = c'.offset := by
  have key : ∀ v : ℚ, c.factor * (v * x) + c.offset = c'.factor * (v * x') + c'.offset := by
    intro v
    have := (C52_meaning units hu s x c h v).symm.trans (C52_meaning units hu s x' c' h' v)
    injection this
  have h0 := key 0
  have h1 := key 1
  simp only [zero_mul, mul_zero, zero_add, one_mul] at h0 h1
  exact ⟨by linarith, h0⟩

/-- C52. Conversion is strictly increasing, unless the unit string begins with the number zero. -/
theorem C52_increasing (units : Table) (hu : units ∈ measures) (s : List Char) (x : ℚ) (c : Conversion)
    (h : Means units s x c) (hx : x ≠ 0) :
    ∃ f : ℚ → ℚ, StrictMono f ∧ ∀ value, parseToSi units value s = Res.ok (f value) := by
  have hc : 0 < c.factor := by
    cases h with
    | plain p u f _ hp hc hs => exact factors_pos _ (List.mem_cons_of_mem _ hu) _ hc
    | scaled n p u f _ hn hn' hp hc hs => exact factors_pos _ (List.mem_cons_of_mem _ hu) _ hc
  have hx0 : 0 ≤ x := by
    cases h with
    | plain p u f _ hp hc hs => exact (factors_pos _ (by simp) _ hp).le
    | scaled n p u f _ hn hn' hp hc hs =>
      refine mul_nonneg ?_ (factors_pos _ (by simp) _ hp).le
      unfold Number.value
      split <;> positivity
  have hx' : 0 < x := lt_of_le_of_ne hx0 (Ne.symm hx)
  refine ⟨fun v => c.factor * (v * x) + c.offset, fun a b hab => ?_, fun v => C52_meaning units hu s x c h v⟩
  have : a * x < b * x := mul_lt_mul_of_pos_right hab hx'
  have := mul_lt_mul_of_pos_left this hc
  simp only
  linarith

/-- `12.5e-1 km` is a length: 1250 metres per unit of the value. -/
example : Means length "12.5e-1 km".toList 1250 ⟨1, 0⟩ := by
  have h := Means.scaled (units := length) ⟨"12".toList, "5".toList, some (true, "1".toList)⟩ "k".toList "m".toList
    ⟨1000, 0⟩ ⟨1, 0⟩ ⟨by decide, by decide, by decide⟩ (Or.inl (by decide)) (by decide +kernel) (by decide +kernel)
    (by decide)
  have e : Number.value ⟨"12".toList, "5".toList, some (true, "1".toList)⟩ * (1000 : ℚ) = 1250 := by
    decide +kernel
  rw [e] at h
  exact h

/-- And 3 degrees Celsius are 276.15 Kelvin. -/
example : parseToSi temperature 3 "C".toList = Res.ok 276.15 := by
  have h := C52_meaning temperature (by simp [measures]) "C".toList 1 ⟨1, 273.15⟩
    (Means.plain [] "C".toList ⟨1, 0⟩ ⟨1, 273.15⟩ (by decide +kernel) (by decide +kernel) (by decide)) 3
  rw [h]
  norm_num

/-! ## C76: the units of the tables -/

/-- C76 is false: no area in square metres is ever accepted. -/
theorem C76_usable_false : ∃ units ∈ measures, ∃ u c, (u, c) ∈ units ∧
    ∀ value pre, parseToSi units value (pre ++ u) = Res.throws := by
  refine ⟨area, by simp [measures], "m^2".toList, ⟨1, 0⟩, by decide +kernel, fun value pre => ?_⟩
  refine C52_rejected area (by simp [measures]) _ ?_ value
  rintro ⟨x, c, h⟩
  have key : ∀ w v, ∀ c, (v, c) ∈ area → '^' ∉ v → pre ++ "m^2".toList = w ++ v → False := by
    intro w v c hc hs he
    have h1 := suffix_free area (by simp [measures]) (v, c) hc ("m^2".toList, ⟨1, 0⟩) (by decide +kernel)
    have h2 := suffix_free area (by simp [measures]) ("m^2".toList, ⟨1, 0⟩) (by decide +kernel) (v, c) hc
    have : v = "m^2".toList := by
      rcases List.suffix_or_suffix_of_suffix (he ▸ List.suffix_append pre "m^2".toList) (List.suffix_append w v) with h | h
      · exact (h2 h).symm
      · exact h1 h
    rw [this] at hs
    revert hs; decide
  generalize hs : pre ++ "m^2".toList = s at h
  cases h with
  | plain p u f _ hp hc hu => exact key p u c hc hu hs
  | scaled n p u f _ hn hn' hp hc hu => exact key (n.text ++ ' ' :: p) u c hc hu (by simpa using hs)

/-- C76, apart from square and cubic metres: every unit of every measure can be used, alone and with every SI prefix.
Missing: `m^2` and `m^3`, for which it is false. -/
theorem C76_usable_partial (units : Table) (hu : units ∈ measures) (p u : List Char) (f c : Conversion)
    (hp : (p, f) ∈ siPrefixes) (hc : (u, c) ∈ units) (h : u ≠ "m^2".toList ∧ u ≠ "m^3".toList) (value : ℚ) :
    parseToSi units value (p ++ u) = Res.ok (c.factor * (value * f.factor) + c.offset) := by
  refine C52_meaning units hu _ _ c (.plain p u f c hp hc ?_) value
  have : ∀ t ∈ measures, ∀ x ∈ t, x.1 ≠ "m^2".toList ∧ x.1 ≠ "m^3".toList → '^' ∉ x.1 := by decide
  exact this units hu _ hc h

end Verif.Unit
