import Mathlib.Data.Nat.Digits.Lemmas
import Mathlib.Data.List.Lex
import Mathlib.Order.Lattice

/-!
# Property C168: names of output directories tell the order of runs

Source: `/repo/src/Auxillary/Input_Output/Input_output.cpp`, `millisecond_datetime_timestamp` (106-127), by which output
directories are named (`/repo/src/Grazer/commands.cpp` through `unique_output_directory`). Names are lists of bytes,
ordered as `std::string` and directory listings order them.
-/

set_option autoImplicit false

namespace Verif.Timestamp

/-! ## Model -/

/-- `std::tm` as far as it is used: the broken-down local time (`Input_output.cpp` 119). -/
structure Civil where
  year : ℕ
  month : ℕ
  day : ℕ
  hour : ℕ
  minute : ℕ
  second : ℕ
deriving DecidableEq

/-- A number with leading zeros, as `%Y` (four digits), `%m`, `%d`, `%H`, `%M` and `%S` (two digits) write it
(`Input_output.cpp` 118-119). -/
def padded : ℕ → ℕ → List ℕ
  | 0, _ => []
  | w + 1, n => (48 + n / 10 ^ w) :: padded w (n % 10 ^ w)

/-- `std::to_string` of a number (`Input_output.cpp` 116): no leading zeros. -/
def decimal (n : ℕ) : List ℕ := if n = 0 then [48] else ((Nat.digits 10 n).map (48 + ·)).reverse

/-- `std::strftime` with `"%Y.%m.%d_%H:%M:%S"` (`Input_output.cpp` 118-119); 46 is a dot, 95 an underscore and 58 a
colon. -/
def civilString (c : Civil) : List ℕ :=
  padded 4 c.year ++ 46 :: (padded 2 c.month ++ 46 :: (padded 2 c.day ++ 95 :: (padded 2 c.hour ++ 58 ::
    (padded 2 c.minute ++ 58 :: padded 2 c.second))))

/-- `millisecond_datetime_timestamp` (`Input_output.cpp` 106-127) at a number of milliseconds since the epoch. `localtime`
is the calendar: the broken-down time of a number of seconds since the epoch. Simplified: the clock counts whole
milliseconds (finer digits are cut off), and times before the epoch are left out. -/
def timestamp (localtime : ℕ → Civil) (now : ℕ) : List ℕ :=
  let t := now / 1000
  let ms := now - t * 1000
  civilString (localtime t) ++ 46 :: decimal ms

/-! ## Specification -/

/-- The earlier broken-down time: the first of year, month, day, hour, minute and second that differs is less. -/
def Civil.Before (c d : Civil) : Prop :=
  c.year < d.year ∨ c.year = d.year ∧ (c.month < d.month ∨ c.month = d.month ∧ (c.day < d.day ∨ c.day = d.day ∧
    (c.hour < d.hour ∨ c.hour = d.hour ∧ (c.minute < d.minute ∨ c.minute = d.minute ∧ c.second < d.second))))

/-- A calendar for the seconds before `stop`: all its numbers have the usual number of digits, and later seconds have
later broken-down times (so no clock is set back). -/
structure Calendar (localtime : ℕ → Civil) (stop : ℕ) : Prop where
  year : ∀ t < stop, (localtime t).year < 10 ^ 4
  month : ∀ t < stop, (localtime t).month < 10 ^ 2
  day : ∀ t < stop, (localtime t).day < 10 ^ 2
  hour : ∀ t < stop, (localtime t).hour < 10 ^ 2
  minute : ∀ t < stop, (localtime t).minute < 10 ^ 2
  second : ∀ t < stop, (localtime t).second < 10 ^ 2
  order : ∀ s t, s < t → t < stop → (localtime s).Before (localtime t)

/-! ## Proofs -/

theorem padded_length (w : ℕ) : ∀ n, (padded w n).length = w := by
  induction w with
  | zero => intro n; rfl
  | succ w ih => intro n; simp [padded, ih]

theorem lt_append {a b : List ℕ} (h : a < b) (hl : a.length = b.length) (x y : List ℕ) : a ++ x < b ++ y := by
  induction a generalizing b with
  | nil =>
    cases b with
    | nil => exact absurd h (lt_irrefl _)
    | cons => simp at hl
  | cons i a ih =>
    cases b with
    | nil => simp at hl
    | cons j b =>
      rw [List.cons_append, List.cons_append, List.cons_lt_cons_iff]
      rw [List.cons_lt_cons_iff] at h
      rcases h with h | ⟨h, h'⟩
      · exact Or.inl h
      · exact Or.inr ⟨h, ih h' (by simpa using hl)⟩

theorem append_lt (a : List ℕ) {x y : List ℕ} (h : x < y) : a ++ x < a ++ y := by
  induction a with
  | nil => exact h
  | cons i a ih => rw [List.cons_append, List.cons_append, List.cons_lt_cons_iff]; exact Or.inr ⟨rfl, ih⟩

theorem padded_lt (w : ℕ) : ∀ {m n : ℕ}, n < 10 ^ w → m < n → padded w m < padded w n := by
  induction w with
  | zero => intro m n hn h; omega
  | succ w ih =>
    intro m n hn h
    have hp : 0 < 10 ^ w := by positivity
    simp only [padded]
    rw [List.cons_lt_cons_iff]
    rcases (Nat.div_le_div_right h.le : m / 10 ^ w ≤ n / 10 ^ w).lt_or_eq with h1 | h1
    · exact Or.inl (by omega)
    · refine Or.inr ⟨by omega, ih (Nat.mod_lt _ hp) ?_⟩
      have e1 := Nat.div_add_mod m (10 ^ w)
      have e2 := Nat.div_add_mod n (10 ^ w)
      rw [h1] at e1
      omega

theorem field_lt {w m n : ℕ} (hn : n < 10 ^ w) (h : m < n) (x y : List ℕ) : padded w m ++ x < padded w n ++ y :=
  lt_append (padded_lt w hn h) (by rw [padded_length, padded_length]) x y

theorem civilString_length (c : Civil) : (civilString c).length = 19 := by simp [civilString, padded_length]

theorem civil_lt {c d : Civil} (hy : d.year < 10 ^ 4) (hmo : d.month < 10 ^ 2) (hd : d.day < 10 ^ 2)
    (hh : d.hour < 10 ^ 2) (hmi : d.minute < 10 ^ 2) (hs : d.second < 10 ^ 2) (h : c.Before d) :
    civilString c < civilString d := by
  unfold civilString
  rcases h with h | ⟨e, h⟩
  · exact field_lt hy h _ _
  rw [e]
  refine append_lt _ (List.cons_lt_cons_iff.mpr (Or.inr ⟨rfl, ?_⟩))
  rcases h with h | ⟨e, h⟩
  · exact field_lt hmo h _ _
  rw [e]
  refine append_lt _ (List.cons_lt_cons_iff.mpr (Or.inr ⟨rfl, ?_⟩))
  rcases h with h | ⟨e, h⟩
  · exact field_lt hd h _ _
  rw [e]
  refine append_lt _ (List.cons_lt_cons_iff.mpr (Or.inr ⟨rfl, ?_⟩))
  rcases h with h | ⟨e, h⟩
  · exact field_lt hh h _ _
  rw [e]
  refine append_lt _ (List.cons_lt_cons_iff.mpr (Or.inr ⟨rfl, ?_⟩))
  rcases h with h | ⟨e, h⟩
  · exact field_lt hmi h _ _
  rw [e]
  exact append_lt _ (List.cons_lt_cons_iff.mpr (Or.inr ⟨rfl, padded_lt 2 hs h⟩))

theorem seconds_lt {localtime : ℕ → Civil} {stop : ℕ} (h : Calendar localtime stop) {s t : ℕ} (hst : s < t)
    (ht : t < stop) : civilString (localtime s) < civilString (localtime t) :=
  civil_lt (h.year t ht) (h.month t ht) (h.day t ht) (h.hour t ht) (h.minute t ht) (h.second t ht) (h.order s t hst ht)

theorem decimal_injective : Function.Injective decimal := by
  intro m n h
  unfold decimal at h
  have inj : Function.Injective fun d : ℕ => 48 + d := fun a b h => by simpa using h
  have head : ∀ n : ℕ, n ≠ 0 → [48] ≠ ((Nat.digits 10 n).map (48 + ·)).reverse := by
    intro n hn e
    have e := congrArg List.reverse e
    rw [List.reverse_reverse] at e
    have e' : Nat.digits 10 n = [0] := by
      apply List.map_injective_iff.mpr inj
      simpa using e.symm
    have := Nat.ofDigits_digits 10 n
    rw [e'] at this
    simp at this
    omega
  split at h <;> split at h
  · omega
  · rename_i hn; exact absurd h (head n hn)
  · rename_i hm _; exact absurd h.symm (head m hm)
  · exact Nat.digits_inj_iff.mp (List.map_injective_iff.mpr inj (List.reverse_injective h))

/-- With three digits there are no leading zeros to miss. -/
theorem decimal_three {n : ℕ} (h : 100 ≤ n) (h' : n < 1000) : decimal n = padded 3 n := by
  have e : n = n % 10 + 10 * (n / 10 % 10 + 10 * (n / 100)) := by omega
  have d : Nat.digits 10 n = [n % 10, n / 10 % 10, n / 100] := by
    rw [Nat.digits_def' (by norm_num) (by omega), Nat.digits_def' (by norm_num) (by omega),
      Nat.digits_def' (by norm_num) (by omega)]
    have : n / 10 / 10 / 10 = 0 := by omega
    rw [this, Nat.digits_zero]
    have : n / 10 / 10 % 10 = n / 100 := by omega
    rw [this]
  unfold decimal
  rw [if_neg (by omega), d]
  simp only [padded, List.map_cons, List.map_nil, List.reverse_cons, List.reverse_nil, List.nil_append,
    List.cons_append, pow_zero, Nat.div_one, List.cons.injEq]
  refine ⟨by omega, by omega, by omega, trivial⟩

/-- C168, the part that holds. Under every calendar: a run that starts in a later second has a name that comes later, and
so does one that starts later in the same second, if both start in the last nine tenths of it. -/
theorem C168_partial {localtime : ℕ → Civil} {stop : ℕ} (h : Calendar localtime stop) {now later : ℕ}
    (hlt : now < later) (hstop : later / 1000 < stop) (hs : now / 1000 < later / 1000 ∨ 100 ≤ now % 1000) : timestamp localtime now < timestamp localtime later := by
  unfold timestamp
  rcases (Nat.div_le_div_right hlt.le : now / 1000 ≤ later / 1000).lt_or_eq with h1 | h1
  · exact lt_append (seconds_lt h h1 hstop) (by rw [civilString_length, civilString_length]) _ _
  · simp only [h1]
    refine append_lt _ (List.cons_lt_cons_iff.mpr (Or.inr ⟨rfl, ?_⟩))
    rw [decimal_three (by omega) (by omega), decimal_three (by omega) (by omega)]
    exact padded_lt 3 (by omega) (by omega)

/-- C168. Runs that start at different milliseconds have different names. -/
theorem C168_distinct {localtime : ℕ → Civil} {stop : ℕ} (h : Calendar localtime stop) {now later : ℕ}
    (hnow : now / 1000 < stop) (hlater : later / 1000 < stop)
    (e : timestamp localtime now = timestamp localtime later) : now = later := by
  unfold timestamp at e
  obtain ⟨e1, e2⟩ := List.append_inj e (by rw [civilString_length, civilString_length])
  have h1 : now / 1000 = later / 1000 := by
    rcases lt_trichotomy (now / 1000) (later / 1000) with h' | h' | h'
    · exact absurd e1 (seconds_lt h h' hlater).ne
    · exact h'
    · exact absurd e1.symm (seconds_lt h h' hnow).ne
  have h2 := decimal_injective (List.cons_injective e2)
  omega

/-- The calendar in January 1970. -/
def january (t : ℕ) : Civil := ⟨1970, 1, 1 + t / 86400, t / 3600 % 24, t / 60 % 60, t % 60⟩

/-- January 1970 meets the hypotheses of `C168_partial` and `C168_distinct`. -/
theorem january_calendar : Calendar january (31 * 86400) := by
  refine ⟨?_, ?_, ?_, ?_, ?_, ?_, ?_⟩
  · intro t _; simp only [january]; norm_num
  · intro t _; simp only [january]; norm_num
  · intro t _; simp only [january]; omega
  · intro t _; simp only [january]; omega
  · intro t _; simp only [january]; omega
  · intro t _; simp only [january]; omega
  · intro s t h _
    simp only [january, Civil.Before]
    have a1 : s = 60 * (s / 60) + s % 60 := by omega
    have a2 : s / 60 = 60 * (s / 3600) + s / 60 % 60 := by omega
    have a3 : s / 3600 = 24 * (s / 86400) + s / 3600 % 24 := by omega
    have b1 : t = 60 * (t / 60) + t % 60 := by omega
    have b2 : t / 60 = 60 * (t / 3600) + t / 60 % 60 := by omega
    have b3 : t / 3600 = 24 * (t / 86400) + t / 3600 % 24 := by omega
    refine Or.inr ⟨trivial, Or.inr ⟨trivial, ?_⟩⟩
    rcases (Nat.div_le_div_right h.le : s / 86400 ≤ t / 86400).lt_or_eq with d | d
    · exact Or.inl (by omega)
    refine Or.inr ⟨by omega, ?_⟩
    rcases (Nat.div_le_div_right h.le : s / 3600 ≤ t / 3600).lt_or_eq with e | e
    · exact Or.inl (by omega)
    refine Or.inr ⟨by omega, ?_⟩
    rcases (Nat.div_le_div_right h.le : s / 60 ≤ t / 60).lt_or_eq with f | f
    · exact Or.inl (by omega)
    · exact Or.inr ⟨by omega, by omega⟩

example : timestamp january 1500100 < timestamp january 1500999 :=
  C168_partial january_calendar (by norm_num) (by norm_num) (Or.inr (by norm_num))

/-- C168 fails within a second: there are a calendar and two times of one second of which the later one has the name
that comes first, since the milliseconds are written without leading zeros: 12 comes before 5. -/
theorem C168_false : ∃ (localtime : ℕ → Civil) (stop now later : ℕ), Calendar localtime stop ∧ later / 1000 < stop ∧
    now < later ∧ timestamp localtime later < timestamp localtime now := by
  refine ⟨january, _, 5, 12, january_calendar, by norm_num, by norm_num, ?_⟩
  unfold timestamp
  have e : 12 / 1000 = 5 / 1000 := by norm_num
  simp only [e]
  refine append_lt _ (List.cons_lt_cons_iff.mpr (Or.inr ⟨rfl, ?_⟩))
  simp [decimal]
  exact List.cons_lt_cons_iff.mpr (Or.inl (by norm_num))

end Verif.Timestamp
