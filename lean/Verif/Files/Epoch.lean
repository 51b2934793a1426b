import Verif.Files.Timestamp
import Verif.Files.Unique

/-!
# Property C185: output files named by the clock

Source: `/repo/src/Auxillary/Input_Output/Input_output.cpp`, `attach_epoch_count` (44-59), `create_new_output_file` (61-84) and
`prepare_output_file` (86-104). Names are lists of bytes; 46 is a dot and 95 an underscore.
-/

set_option autoImplicit false

namespace Verif.Files.Epoch

open Verif.Timestamp Verif.Files.Unique

/-! ## Model -/

/-- `std::filesystem::path::stem` and `extension` of the last element of a path (`Input_output.cpp` 51-52): the name is split before its last dot, unless
there is none, or it is the first character, or the name is `..`. -/
def split (n : List ℕ) : List ℕ × List ℕ :=
  if n = [46, 46] then (n, [])
  else match n.reverse.dropWhile (· ≠ 46) with
    | [] => (n, [])
    | [_] => (n, [])
    | _ :: c :: s => ((c :: s).reverse, 46 :: (n.reverse.takeWhile (· ≠ 46)).reverse)

/-- A path: its directory and its last element. -/
structure File (D : Type) where
  directory : D
  name : List ℕ
  deriving DecidableEq

/-- `attach_epoch_count` — `Input_output.cpp` 44-59, at a number of milliseconds since the epoch. (Times before the epoch are left out.) -/
def attach {D : Type} (f : File D) (now : ℕ) : File D :=
  ⟨f.directory, (split f.name).1 ++ 95 :: decimal now ++ (split f.name).2⟩

/-- What is concerned: the directory `output` itself, and names in it. -/
inductive Place
  | output
  | inside (name : List ℕ)
  deriving DecidableEq

/-- `output.json`. -/
def outputName : List ℕ := [111, 117, 116, 112, 117, 116, 46, 106, 115, 111, 110]

/-- The loop of `create_new_output_file` — `Input_output.cpp` 66-82 — with the name generated from the clock. `clock i` is its value in the `i`-th round,
`refuse i` tells that opening fails although the name is free. -/
def createLoop (clock : ℕ → ℕ) (refuse : ℕ → Bool) (fs : FileSystem Place) : (left i : ℕ) → Res (FileSystem Place × List ℕ)
  | 0, _ => Res.throws
  | left + 1, i =>
    let name := (attach (⟨(), outputName⟩ : File Unit) (clock i)).name
    match if refuse i then none else fopenExclusive fs (.inside name) with
    | some fs' => Res.ok (fs', name)
    | none => createLoop clock refuse fs left (i + 1)

/-- `prepare_output_file` — `Input_output.cpp` 86-104; `create_directory` does nothing for a directory that exists. (It is left out that it may fail.) -/
def prepareFile (clock : ℕ → ℕ) (refuse : ℕ → Bool) (fs : FileSystem Place) : Res (FileSystem Place × List ℕ) :=
  match fs .output with
  | some (.file _) => Res.throws
  | some .directory => createLoop clock refuse fs fileTries 0
  | none => createLoop clock refuse (Function.update fs .output (some .directory)) fileTries 0

/-! ## Specification -/

/-- The name of an output file for a time: `output_`, the decimal digits of the milliseconds, `.json`. -/
def nameAt (now : ℕ) : List ℕ := [111, 117, 116, 112, 117, 116, 95] ++ decimal now ++ [46, 106, 115, 111, 110]

/-! ## Proofs -/

theorem decimal_injective : Function.Injective decimal := by
  intro a b h
  have pos : ∀ n : ℕ, n ≠ 0 → ((Nat.digits 10 n).map (48 + ·)).reverse ≠ [48] := by
    intro n hn e
    rw [List.reverse_eq_iff] at e
    have hl : Nat.digits 10 n = [0] := by
      cases hd : Nat.digits 10 n with
      | nil => rw [hd] at e; cases e
      | cons d l =>
        rw [hd] at e
        simp at e
        rw [e.1, e.2]
    exact (Nat.getLast_digit_ne_zero 10 hn) (by simp [hl])
  unfold decimal at h
  split at h <;> split at h
  · next ha hb => rw [ha, hb]
  · next ha hb => exact absurd h.symm (pos b hb)
  · next ha hb => exact absurd h (pos a ha)
  · have h1 := List.reverse_injective h
    have h2 := List.map_injective_iff.mpr (fun x y (e : 48 + x = 48 + y) => by omega) h1
    exact Nat.digits_inj_iff.mp h2

theorem mem_decimal {n c : ℕ} (h : c ∈ decimal n) : 48 ≤ c ∧ c ≤ 57 := by
  unfold decimal at h
  split at h
  · simp at h; omega
  · simp only [List.mem_reverse, List.mem_map] at h
    obtain ⟨d, hd, rfl⟩ := h
    have := Nat.digits_lt_base (by norm_num) hd
    omega

/-- The first occurrence of a byte splits a list in one way. -/
theorem split_unique {x : ℕ} {a b s t : List ℕ} (ha : x ∉ a) (hb : x ∉ b) (h : a ++ x :: s = b ++ x :: t) : a = b ∧ s = t := by
  induction a generalizing b with
  | nil =>
    cases b with
    | nil => simpa using h
    | cons y b => simp at h; exact absurd (by simp [h.1]) hb
  | cons y a ih =>
    cases b with
    | nil => simp at h; exact absurd (by simp [h.1]) ha
    | cons z b =>
      simp only [List.cons_append, List.cons.injEq] at h
      obtain ⟨h1, h2⟩ := ih (fun h => ha (by simp [h])) (fun h => hb (by simp [h])) h.2
      exact ⟨by rw [h.1, h1], h2⟩

theorem takeWhile_dot {e s : List ℕ} (he : 46 ∉ e) :
    (e ++ 46 :: s).takeWhile (· ≠ 46) = e ∧ (e ++ 46 :: s).dropWhile (· ≠ 46) = 46 :: s := by
  have h : ∀ x ∈ e, decide (x ≠ 46) = true := fun x hx => by simpa using fun h : x = 46 => he (h ▸ hx)
  rw [List.takeWhile_append_of_pos h, List.dropWhile_append_of_pos h]
  simp

theorem dropWhile_none {e : List ℕ} (he : 46 ∉ e) : e.dropWhile (· ≠ 46) = [] := by
  induction e with
  | nil => rfl
  | cons c e ih =>
    rw [List.dropWhile_cons_of_pos (by simpa using fun h : c = 46 => he (by simp [h]))]
    exact ih fun h => he (by simp [h])

theorem exists_first {r : List ℕ} (hm : 46 ∈ r) : ∃ e s, r = e ++ 46 :: s ∧ 46 ∉ e := by
  induction r with
  | nil => cases hm
  | cons c r ih =>
    by_cases hc : c = 46
    · exact ⟨[], r, by rw [hc]; rfl, by simp⟩
    · obtain ⟨e, s, h1, h2⟩ := ih (by simpa [Ne.symm hc] using hm)
      exact ⟨c :: e, s, by rw [h1]; rfl, by simp [h2, Ne.symm hc]⟩

/-- Either there is an extension, or the name has no dot but possibly the first character. -/
theorem split_cases {n : List ℕ} (hn : n ≠ [46, 46]) :
    (∃ s e, s ≠ [] ∧ 46 ∉ e ∧ n = s ++ 46 :: e ∧ split n = (s, 46 :: e)) ∨
    (split n = (n, []) ∧ (46 ∉ n ∨ ∃ e, 46 ∉ e ∧ n = 46 :: e)) := by
  by_cases h : 46 ∈ n
  · have hm : 46 ∈ n.reverse := List.mem_reverse.mpr h
    obtain ⟨e, s, hes, he⟩ := exists_first hm
    obtain ⟨t1, t2⟩ := takeWhile_dot (s := s) he
    have hnr : n = s.reverse ++ 46 :: e.reverse := by
      have := congrArg List.reverse hes
      simpa using this
    cases s with
    | nil =>
      refine Or.inr ⟨?_, Or.inr ⟨e.reverse, by simpa using he, by simpa using hnr⟩⟩
      unfold split
      rw [if_neg hn, hes, t2]
    | cons c s =>
      refine Or.inl ⟨(c :: s).reverse, e.reverse, by simp, by simpa using he, hnr, ?_⟩
      unfold split
      rw [if_neg hn, hes, t2, t1]
  · refine Or.inr ⟨?_, Or.inl h⟩
    unfold split
    rw [if_neg hn, dropWhile_none (by simpa using h)]

theorem split_append (n : List ℕ) : (split n).1 ++ (split n).2 = n := by
  by_cases hn : n = [46, 46]
  · subst hn; rfl
  · rcases split_cases hn with ⟨s, e, -, -, h1, h2⟩ | ⟨h, -⟩
    · rw [h2, h1]
    · rw [h]; simp

theorem split_of {s e : List ℕ} (hs : s ≠ []) (he : 46 ∉ e) (hne : s ++ 46 :: e ≠ [46, 46]) : split (s ++ 46 :: e) = (s, 46 :: e) := by
  obtain ⟨t1, t2⟩ := takeWhile_dot (e := e.reverse) (s := s.reverse) (by simpa using he)
  have hr : (s ++ 46 :: e).reverse = e.reverse ++ 46 :: s.reverse := by simp
  unfold split
  rw [if_neg hne, hr, t2, t1]
  cases hs' : s.reverse with
  | nil => exact absurd (by simpa using hs') hs
  | cons c l =>
    simp only [List.reverse_reverse]
    rw [← hs']
    simp

theorem split_attach {D : Type} (f : File D) (hn : f.name ≠ [46, 46]) (now : ℕ) :
    split (attach f now).name = ((split f.name).1 ++ 95 :: decimal now, (split f.name).2) := by
  have hd : 46 ∉ 95 :: decimal now := by
    intro h
    rcases List.mem_cons.mp h with h | h
    · cases h
    · have := mem_decimal h; omega
  have hne : ∀ l : List ℕ, 95 ∈ l → l ≠ [46, 46] := by rintro l h rfl; simp at h
  rcases split_cases hn with ⟨s, e, h1, h2, h3, h4⟩ | ⟨h, h'⟩
  · unfold attach
    simp only [h4]
    rw [split_of (by simp [h1]) h2 (hne _ (by simp))]
  · unfold attach
    simp only [h, List.append_nil]
    rcases h' with h' | ⟨e, he, h'⟩
    · unfold split
      rw [if_neg (hne _ (by simp)), dropWhile_none]
      simp only [List.mem_reverse, List.mem_append, not_or]
      exact ⟨h', hd⟩
    · have hr : (f.name ++ 95 :: decimal now).reverse = (e ++ 95 :: decimal now).reverse ++ 46 :: [] := by rw [h']; simp
      unfold split
      rw [if_neg (hne _ (by simp)), hr, (takeWhile_dot (s := []) (by
        simp only [List.mem_reverse, List.mem_append, not_or]
        exact ⟨he, hd⟩)).2]

/-! ## C185 -/

/-- C185. Generated names belong to one file and one time: if two of them are equal, they were generated for the same file in the same millisecond. -/
theorem C185_unique {D : Type} (f g : File D) (hf : f.name ≠ [46, 46]) (hg : g.name ≠ [46, 46]) (s t : ℕ) (h : attach f s = attach g t) : f = g ∧ s = t := by
  have hn := congrArg File.name h
  have hd : f.directory = g.directory := by simpa [attach] using congrArg File.directory h
  have hs := congrArg split hn
  rw [split_attach f hf, split_attach g hg] at hs
  obtain ⟨h1, h2⟩ := Prod.mk.inj hs
  have no : ∀ n, 95 ∉ (decimal n).reverse := fun n h => by
    have := mem_decimal (List.mem_reverse.mp h)
    omega
  have h3 := congrArg List.reverse h1
  simp only [List.reverse_append, List.reverse_cons, List.append_assoc, List.cons_append, List.nil_append] at h3
  obtain ⟨h4, h5⟩ := split_unique (no s) (no t) h3
  refine ⟨?_, decimal_injective (List.reverse_injective h4)⟩
  have e : f.name = g.name := by rw [← split_append f.name, ← split_append g.name, List.reverse_injective h5, h2]
  cases f; cases g
  simp only at hd e
  rw [hd, e]

/-- C185. The file stays in its directory and keeps its extension. -/
theorem C185_extension {D : Type} (f : File D) (hf : f.name ≠ [46, 46]) (now : ℕ) :
    (attach f now).directory = f.directory ∧ (split (attach f now).name).2 = (split f.name).2 := by
  rw [split_attach f hf]
  exact ⟨rfl, rfl⟩

theorem attach_output (now : ℕ) : (attach (⟨(), outputName⟩ : File Unit) now).name = nameAt now := by
  have h : split outputName = ([111, 117, 116, 112, 117, 116], [46, 106, 115, 111, 110]) := by decide
  unfold attach nameAt
  simp [h]

theorem createLoop_spec (clock : ℕ → ℕ) (refuse : ℕ → Bool) (fs : FileSystem Place) (left : ℕ) : ∀ i,
    (∃ k, k < left ∧ refuse (i + k) = false ∧ fs (.inside (nameAt (clock (i + k)))) = none ∧
      createLoop clock refuse fs left i = Res.ok (Function.update fs (.inside (nameAt (clock (i + k)))) (some (.file [])), nameAt (clock (i + k)))) ∨
    (createLoop clock refuse fs left i = Res.throws ∧ ∀ k < left, refuse (i + k) = true ∨ fs (.inside (nameAt (clock (i + k)))) ≠ none) := by
  induction left with
  | zero => exact fun i => Or.inr ⟨rfl, fun k hk => by omega⟩
  | succ left ih =>
    intro i
    unfold createLoop
    rw [attach_output]
    by_cases hr : refuse i = true ∨ fs (.inside (nameAt (clock i))) ≠ none
    · have hnone : (if refuse i then none else fopenExclusive fs (.inside (nameAt (clock i)))) = none := by
        rcases hr with h | h
        · rw [if_pos h]
        · split
          · rfl
          · unfold fopenExclusive
            split
            · next h' => exact absurd h' h
            · rfl
      simp only [hnone]
      rcases ih (i + 1) with ⟨k, h1, h2⟩ | ⟨h1, h2⟩
      · refine Or.inl ⟨k + 1, by omega, ?_⟩
        rw [show i + (k + 1) = i + 1 + k by omega]
        exact h2
      · refine Or.inr ⟨h1, fun k hk => ?_⟩
        cases k with
        | zero => exact hr
        | succ k =>
          rw [show i + (k + 1) = i + 1 + k by omega]
          exact h2 k (by omega)
    · push Not at hr
      obtain ⟨h1, h2⟩ := hr
      refine Or.inl ⟨0, by omega, by simpa using h1, h2, ?_⟩
      have hf : (if refuse i then none else fopenExclusive fs (.inside (nameAt (clock i)))) =
          some (Function.update fs (.inside (nameAt (clock i))) (some (.file []))) := by
        rw [if_neg h1]
        unfold fopenExclusive
        rw [h2]
      simp only [hf]
      rfl

/-- C185. Preparing an output file creates one new empty file, named by the time of one of ten readings of the clock, in a directory `output` that is there afterwards;
nothing else changes. -/
theorem C185_file (clock : ℕ → ℕ) (refuse : ℕ → Bool) (fs fs' : FileSystem Place) (name : List ℕ) (h : prepareFile clock refuse fs = Res.ok (fs', name)) :
    (∃ i < 10, name = nameAt (clock i)) ∧ fs (.inside name) = none ∧ fs' (.inside name) = some (.file []) ∧ fs' .output = some .directory ∧
      ∀ other, other ≠ name → fs' (.inside other) = fs (.inside other) := by
  have key : ∀ fs₀ : FileSystem Place, fs₀ .output = some .directory → (∀ x, fs₀ (.inside x) = fs (.inside x)) →
      createLoop clock refuse fs₀ fileTries 0 = Res.ok (fs', name) →
      (∃ i < 10, name = nameAt (clock i)) ∧ fs (.inside name) = none ∧ fs' (.inside name) = some (.file []) ∧ fs' .output = some .directory ∧
        ∀ other, other ≠ name → fs' (.inside other) = fs (.inside other) := by
    intro fs₀ hd hx h
    rcases createLoop_spec clock refuse fs₀ fileTries 0 with ⟨k, h1, -, h2, h3⟩ | ⟨h1, -⟩
    · rw [h3] at h
      injection h with h
      obtain ⟨rfl, rfl⟩ := Prod.mk.inj h
      refine ⟨⟨0 + k, by unfold fileTries at h1; omega, rfl⟩, by rw [← hx]; exact h2, by simp, by simpa using hd, fun other ho => ?_⟩
      rw [Function.update_of_ne (by simpa using ho), hx]
    · rw [h1] at h
      cases h
  unfold prepareFile at h
  split at h
  · cases h
  · next hd => exact key fs hd (fun _ => rfl) h
  · exact key _ (by simp) (fun x => by simp) h

/-- C185. It fails exactly if `output` is a file, or none of the ten names could be created: each of them exists or opening was refused. -/
theorem C185_fails (clock : ℕ → ℕ) (refuse : ℕ → Bool) (fs : FileSystem Place) :
    prepareFile clock refuse fs = Res.throws ↔
      (∃ c, fs .output = some (.file c)) ∨ ∀ i < 10, refuse i = true ∨ (fs (.inside (nameAt (clock i)))).isSome := by
  have key : ∀ fs₀ : FileSystem Place, (∀ x, fs₀ (.inside x) = fs (.inside x)) →
      (createLoop clock refuse fs₀ fileTries 0 = Res.throws ↔ ∀ i < 10, refuse i = true ∨ (fs (.inside (nameAt (clock i)))).isSome) := by
    intro fs₀ hx
    rcases createLoop_spec clock refuse fs₀ fileTries 0 with ⟨k, h1, h2, h3, h4⟩ | ⟨h1, h2⟩
    · rw [h4]
      rw [zero_add] at h2 h3
      refine ⟨fun h => (by cases h), fun h => ?_⟩
      rcases h k h1 with h | h
      · rw [h2] at h; cases h
      · rw [← hx, h3] at h; cases h
    · refine ⟨fun _ i hi => ?_, fun _ => h1⟩
      have := h2 i hi
      rw [zero_add, hx] at this
      exact this.imp id Option.isSome_iff_ne_none.mpr
  unfold prepareFile
  split
  · next c hc => exact ⟨fun _ => Or.inl ⟨c, hc⟩, fun _ => rfl⟩
  · next hd =>
    rw [key fs fun _ => rfl]
    exact ⟨Or.inr, fun h => h.resolve_left (by rintro ⟨c, hc⟩; rw [hd] at hc; cases hc)⟩
  · next hd =>
    rw [key _ fun x => by simp]
    exact ⟨Or.inr, fun h => h.resolve_left (by rintro ⟨c, hc⟩; rw [hd] at hc; cases hc)⟩

theorem decimal_small {n : ℕ} (h : n < 10) : decimal n = [48 + n] := by
  unfold decimal
  split
  · next h0 => rw [h0]
  · next h0 => rw [Nat.digits_of_lt 10 n h0 h]; rfl

theorem decimal_step {n : ℕ} (h : 10 ≤ n) : decimal n = decimal (n / 10) ++ [48 + n % 10] := by
  unfold decimal
  rw [if_neg (by omega), if_neg (by omega), Nat.digits_def' (by norm_num) (by omega)]
  simp

theorem decimal_pos (n : ℕ) : 0 < (decimal n).length := by
  rcases Nat.lt_or_ge n 10 with h | h
  · simp [decimal_small h]
  · simp [decimal_step h]

theorem decimal_lt : ∀ {n m : ℕ}, m < n → (decimal m).length = (decimal n).length → decimal m < decimal n := by
  intro n
  induction n using Nat.strong_induction_on with
  | _ n ih =>
    intro m h hl
    rcases Nat.lt_or_ge n 10 with hn | hn
    · rw [decimal_small hn, decimal_small (by omega)]
      exact List.cons_lt_cons_iff.mpr (Or.inl (by omega))
    · have hp := decimal_pos (n / 10)
      rcases Nat.lt_or_ge m 10 with hm | hm
      · rw [decimal_small hm, decimal_step hn] at hl
        simp at hl
        rw [hl] at hp
        simp at hp
      · rw [decimal_step hn, decimal_step hm] at hl ⊢
        simp only [List.length_append, List.length_cons, List.length_nil, Nat.add_right_cancel_iff] at hl
        rcases (Nat.div_le_div_right h.le : m / 10 ≤ n / 10).lt_or_eq with h1 | h1
        · exact lt_append (ih _ (by omega) h1 hl) hl _ _
        · rw [h1]
          exact append_lt _ (List.cons_lt_cons_iff.mpr (Or.inl (by omega)))

theorem decimal_length : ∀ {w n : ℕ}, 10 ^ w ≤ n → n < 10 ^ (w + 1) → (decimal n).length = w + 1 := by
  intro w
  induction w with
  | zero => intro n _ h; rw [decimal_small (by simpa using h)]; rfl
  | succ w ih =>
    intro n h h'
    have e : 10 ^ (w + 1) = 10 * 10 ^ w := by ring
    have e' : 10 ^ (w + 1 + 1) = 10 * 10 ^ (w + 1) := by ring
    have hp : 0 < 10 ^ w := by positivity
    rw [decimal_step (by omega), List.length_append, ih (by omega) (by omega)]
    rfl

/-- C185. In a listing in the order of names, output files are in the order of their times, as long as the times have equally many digits: thirteen, from
September 2001 to November 2286. -/
theorem C185_order (s t : ℕ) (hs : 10 ^ 12 ≤ s) (h : s < t) (ht : t < 10 ^ 13) :
    (attach (⟨(), outputName⟩ : File Unit) s).name < (attach (⟨(), outputName⟩ : File Unit) t).name := by
  rw [attach_output, attach_output]
  unfold nameAt
  have hl : (decimal s).length = (decimal t).length := by
    rw [decimal_length hs (by omega), decimal_length (w := 12) (by omega) ht]
  rw [List.append_assoc, List.append_assoc]
  exact append_lt _ (lt_append (decimal_lt h hl) hl _ _)

/-! ## Examples -/

/-- `run.7.json` and `run_1` at 42 milliseconds become `run.7_42.json` and `run_1_42`. -/
example : (attach (⟨(), [114, 117, 110, 46, 55, 46, 106, 115, 111, 110]⟩ : File Unit) 42).name =
      [114, 117, 110, 46, 55, 95, 52, 50, 46, 106, 115, 111, 110] ∧
    (attach (⟨(), [114, 117, 110, 95, 49]⟩ : File Unit) 42).name = [114, 117, 110, 95, 49, 95, 52, 50] := by
  have h : decimal 42 = [52, 50] := by simp [decimal]
  constructor <;> simp [attach, h, split]

/-- With an empty directory and a clock that goes on, the first name is taken; if the file of this millisecond exists, the next one is. -/
example (c : List Char) : (prepareFile (fun i => 42 + i) (fun _ => false) (fun _ => none)).bind (fun r => Res.ok r.2) = Res.ok (nameAt 42) ∧
    (prepareFile (fun i => 42 + i) (fun _ => false)
      (Function.update (Function.update (fun _ => none) .output (some .directory)) (.inside (nameAt 42)) (some (.file c)))).bind (fun r => Res.ok r.2) = Res.ok (nameAt 43) := by
  have hne : nameAt 43 ≠ nameAt 42 := by
    intro h
    have := C185_unique (⟨(), outputName⟩ : File Unit) ⟨(), outputName⟩ (by decide) (by decide) 43 42 (by
      have e := (attach_output 43).trans (h.trans (attach_output 42).symm)
      unfold attach at e ⊢
      simpa using e)
    omega
  constructor
  · simp only [prepareFile, fileTries, createLoop, attach_output, fopenExclusive]
    simp
    rfl
  · simp only [prepareFile, fileTries, createLoop, attach_output, fopenExclusive]
    simp [hne]
    rfl

/-- Two times of November 2026 meet the hypotheses of `C185_order`. -/
example : (attach (⟨(), outputName⟩ : File Unit) 1794962924000).name < (attach (⟨(), outputName⟩ : File Unit) 1794962924001).name :=
  C185_order _ _ (by norm_num) (by norm_num) (by norm_num)

end Verif.Files.Epoch
