import Verif.Basic.Res
import Mathlib.Algebra.Order.Field.Rat
import Mathlib.Data.List.Basic

/-!
# Model of the unit conversion

`src/Auxillary/unit_conversion/unit_conversion.cpp`. Numbers are rational, so there is neither rounding nor overflow
(`std::stod` throws for numbers that are too large or too small, which does not happen here). Strings are lists of
characters. A measurement is given by its two fields: that a json without exactly these fields, or with fields of wrong
types, is rejected is the task of the schema validator, which is not modelled; its regular expressions are.
-/

set_option autoImplicit false

namespace Verif.Unit

/-- `Conversion` — `unit_conversion.hpp` 42-49. -/
structure Conversion where
  factor : ℚ
  offset : ℚ := 0
  deriving DecidableEq

/-- `Conversion::operator()` — `unit_conversion.cpp` 116-118. -/
def Conversion.apply (c : Conversion) (value : ℚ) : ℚ := c.factor * value + c.offset

/-- A `std::map<std::string, Conversion>`, as the list of its entries in the order of iteration: `std::string` is
ordered lexicographically by character codes. That the tables below are in this order is `C52_tables_sorted`. -/
abbrev Table := List (List Char × Conversion)

/-- `length` — `unit_conversion.cpp` 24-30. -/
def length : Table :=
  [("ft".toList, ⟨0.3048, 0⟩), ("in".toList, ⟨0.0254, 0⟩), ("m".toList, ⟨1, 0⟩), ("mi".toList, ⟨1609.344, 0⟩),
    ("yd".toList, ⟨0.9144, 0⟩)]

/-- `area` — `unit_conversion.cpp` 32. -/
def area : Table := [("ac".toList, ⟨4046.9, 0⟩), ("acre".toList, ⟨4046.9, 0⟩), ("m^2".toList, ⟨1, 0⟩)]

/-- `volume` — `unit_conversion.cpp` 34-40. -/
def volume : Table := [("L".toList, ⟨0.001, 0⟩), ("l".toList, ⟨0.001, 0⟩), ("m^3".toList, ⟨1, 0⟩)]

/-- `pressure` — `unit_conversion.cpp` 42-44. -/
def pressure : Table :=
  [("Pa".toList, ⟨1, 0⟩), ("atm".toList, ⟨101325, 0⟩), ("bar".toList, ⟨100000, 0⟩), ("psi".toList, ⟨6894.757, 0⟩)]

/-- `frequency` — `unit_conversion.cpp` 46-48. -/
def frequency : Table :=
  [("Hz".toList, ⟨1, 0⟩), ("per_min".toList, ⟨1 / 60, 0⟩), ("per_minute".toList, ⟨1 / 60, 0⟩)]

/-- `force` — `unit_conversion.cpp` 50. -/
def force : Table := [("N".toList, ⟨1, 0⟩)]

/-- `power` — `unit_conversion.cpp` 52. -/
def power : Table := [("PS".toList, ⟨735.49875, 0⟩), ("W".toList, ⟨1, 0⟩)]

/-- `mass` — `unit_conversion.cpp` 54-56. -/
def mass : Table :=
  [("g".toList, ⟨0.001, 0⟩), ("lb".toList, ⟨0.45359237, 0⟩), ("oz".toList, ⟨0.028349523125, 0⟩), ("t".toList, ⟨1000, 0⟩)]

/-- `volume_flux` — `unit_conversion.cpp` 58-60. -/
def volumeFlux : Table := [("1000m_cube_per_hour".toList, ⟨1000 / 3600, 0⟩), ("m_cube_per_s".toList, ⟨1, 0⟩)]

/-- `temperature` — `unit_conversion.cpp` 62-67. -/
def temperature : Table :=
  [("C".toList, ⟨1, 273.15⟩), ("Celsius".toList, ⟨1, 273.15⟩), ("F".toList, ⟨5 / 9, 459.67 * 5 / 9⟩),
    ("K".toList, ⟨1, 0⟩)]

/-- The measures — `unit_conversion.hpp` 85-94. -/
def measures : List Table :=
  [length, area, volume, pressure, frequency, force, power, mass, volumeFlux, temperature]

/-- `si_prefixes` — `unit_conversion.cpp` 70-75. -/
def siPrefixes : Table :=
  [("".toList, ⟨1, 0⟩), ("E".toList, ⟨10 ^ 18, 0⟩), ("G".toList, ⟨10 ^ 9, 0⟩), ("M".toList, ⟨10 ^ 6, 0⟩),
    ("P".toList, ⟨10 ^ 15, 0⟩), ("T".toList, ⟨10 ^ 12, 0⟩), ("Y".toList, ⟨10 ^ 24, 0⟩), ("Z".toList, ⟨10 ^ 21, 0⟩),
    ("a".toList, ⟨1 / 10 ^ 18, 0⟩), ("c".toList, ⟨1 / 100, 0⟩), ("d".toList, ⟨1 / 10, 0⟩), ("da".toList, ⟨10, 0⟩),
    ("f".toList, ⟨1 / 10 ^ 15, 0⟩), ("h".toList, ⟨100, 0⟩), ("k".toList, ⟨1000, 0⟩), ("m".toList, ⟨1 / 1000, 0⟩),
    ("mu".toList, ⟨1 / 10 ^ 6, 0⟩), ("n".toList, ⟨1 / 10 ^ 9, 0⟩), ("p".toList, ⟨1 / 10 ^ 12, 0⟩),
    ("y".toList, ⟨1 / 10 ^ 24, 0⟩), ("z".toList, ⟨1 / 10 ^ 21, 0⟩)]

/-! ## Parsing -/

/-- `std::string::rfind(" ")`: the position of the last space. -/
def rfind : List Char → Option ℕ
  | [] => none
  | c :: l =>
    match rfind l with
    | some i => some (i + 1)
    | none => if c = ' ' then some 0 else none

/-- The number with these decimal digits. -/
def natOf (digits : List Char) : ℕ := digits.foldl (fun n c => 10 * n + (c.toNat - '0'.toNat)) 0

/-- An optional sign. -/
def sign : List Char → Bool × List Char
  | '-' :: l => (true, l)
  | '+' :: l => (false, l)
  | l => (false, l)

/-- An optional fraction: a point and digits (maybe none). -/
def fraction : List Char → List Char × List Char
  | '.' :: l => l.span Char.isDigit
  | l => ([], l)

/-- An optional exponent; it needs at least one digit. -/
def exponent : List Char → ℤ × List Char
  | 'e' :: l =>
    let (negative, l') := sign l
    let (digits, rest) := l'.span Char.isDigit
    if digits.isEmpty then (0, 'e' :: l) else (if negative then -(natOf digits : ℤ) else natOf digits, rest)
  | 'E' :: l =>
    let (negative, l') := sign l
    let (digits, rest) := l'.span Char.isDigit
    if digits.isEmpty then (0, 'E' :: l) else (if negative then -(natOf digits : ℤ) else natOf digits, rest)
  | l => (0, l)

/-- `std::stod`: the value and how many characters were used; throws if there is no number at the beginning. Hexadecimal
numbers, infinities and nans are not modelled; they are excluded by the schema. -/
def stod (s : List Char) : Res (ℚ × ℕ) :=
  let s1 := s.dropWhile Char.isWhitespace
  let (negative, s2) := sign s1
  let (int, s3) := s2.span Char.isDigit
  let (frac, s4) := fraction s3
  if int.isEmpty && frac.isEmpty then Res.throws
  else
    let (e, s5) := exponent s4
    let value := (natOf (int ++ frac) : ℚ) / 10 ^ frac.length * (10 : ℚ) ^ e
    Res.ok (if negative then -value else value, s.length - s5.length)

/-- `std::map::find`. -/
def find (table : Table) (key : List Char) : Option Conversion := (table.find? fun x => x.1 = key).map (·.2)

/-- Number and rest of a prefix — `unit_conversion.cpp` 84-97. -/
def splitPrefix (pre : List Char) : Res (ℚ × List Char) :=
  match rfind pre with
  | some lastSpace => do
    let (number, remaining) ← stod pre
    if remaining ≠ lastSpace then Res.throws else Res.ok (number, pre.drop (remaining + 1))
  | none => Res.ok (1, pre)

/-- `parse_prefix` — `unit_conversion.cpp` 77-107. -/
def parsePrefix (pre : List Char) (table : Table) : Res ℚ := do
  let (number, si) ← splitPrefix pre
  match find table si with
  | none => Res.throws
  | some c => Res.ok (c.apply number)

/-- `parse_unit` — `unit_conversion.cpp` 133-150: the first unit of the map that is a suffix. -/
def parseUnit (unit : List Char) (table : Table) : Res (List Char × Conversion) :=
  match table.find? fun x => x.1.isSuffixOf unit with
  | some x => Res.ok (unit.take (unit.length - x.1.length), x.2)
  | none => Res.throws

/-! ## Validation -/

/-- The text of `[0-9]*(\.[0-9]+)?(e-?[0-9]+)?`: digits, maybe a fraction, maybe an exponent. -/
structure Number where
  int : List Char
  frac : List Char
  exponent : Option (Bool × List Char)

namespace Number

/-- The text of `(\.[0-9]+)?`. -/
def fractionText (digits : List Char) : List Char := if digits = [] then [] else '.' :: digits

/-- The text of `(e-?[0-9]+)?`. -/
def exponentText : Option (Bool × List Char) → List Char
  | none => []
  | some (negative, digits) => 'e' :: ((if negative then ['-'] else []) ++ digits)

/-- The whole text. -/
def text (n : Number) : List Char := n.int ++ (fractionText n.frac ++ exponentText n.exponent)

/-- The regular expression. -/
structure Valid (n : Number) : Prop where
  int : ∀ c ∈ n.int, c.isDigit
  frac : ∀ c ∈ n.frac, c.isDigit
  exponent : ∀ x ∈ n.exponent, x.2 ≠ [] ∧ ∀ c ∈ x.2, c.isDigit

end Number

/-- The strings matched by the alternatives of `re_capture_from_map` — `unit_conversion.cpp` 172-179. The keys are used
as regular expressions, without escaping. The only special character in them is `^` in `m^2` and `m^3`: it asserts the
beginning of the string, so that these two match nothing. -/
def Captured (table : Table) (s : List Char) : Prop := ∃ c, (s, c) ∈ table ∧ '^' ∉ s

/-- `simple_pattern` — `unit_conversion.cpp` 161-163. (The prefix table contains the empty string, so the question mark
adds nothing.) -/
def Simple (units : Table) (s : List Char) : Prop :=
  ∃ p u, Captured siPrefixes p ∧ Captured units u ∧ s = p ++ u

/-- `pattern2` — `unit_conversion.cpp` 167. -/
def WithNumber (units : Table) (s : List Char) : Prop :=
  ∃ (n : Number) (t : List Char), n.Valid ∧ Simple units t ∧ s = n.text ++ ' ' :: t

open Classical in
/-- `validate_json` with `get_schema` — `unit_conversion.cpp` 126, 152-171: exactly one of the two patterns matches. -/
noncomputable def validate (units : Table) (s : List Char) : Res Unit :=
  if (Simple units s ∧ ¬ WithNumber units s) ∨ (¬ Simple units s ∧ WithNumber units s) then Res.ok () else Res.throws

/-- `Measure::parse_to_si` — `unit_conversion.cpp` 125-131. -/
noncomputable def parseToSi (units : Table) (value : ℚ) (unit : List Char) : Res ℚ := do
  validate units unit
  let (pre, c) ← parseUnit unit units
  let factor ← parsePrefix pre siPrefixes
  Res.ok (c.apply (value * factor))

end Verif.Unit
