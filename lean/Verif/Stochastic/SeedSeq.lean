import Mathlib.Data.BitVec
import Mathlib.Data.Finite.Prod
import Mathlib.Data.Fintype.Pi
import Mathlib.Data.List.FinRange
import Mathlib.Data.List.GetD
import Mathlib.Tactic.Ring
import Mathlib.Tactic.Linarith

/-!
# The seeds of random number generators (C157, C158)

`seed_seq_fe` of `/repo/Randutils/include/randutils.hpp` with words of 32 bits (`IntRep = uint32_t`): from the words of a seed
an entropy store of `n` words is computed, `generate` computes the words with which a random number generator is initialised,
and `param` computes a seed for the present store. `make_random_seed` and `setup_random_number_generator` in
`Normaldistribution.cpp` 29-46 use eight words. Words are modelled by `BitVec 32`, whose arithmetic is that of `uint32_t`.
-/

set_option autoImplicit false

namespace Verif.Stochastic.SeedSeq

/-! ## Model -/

/-- `uint32_t`. -/
abbrev Word := BitVec 32

/-- `std::array<IntRep, count>` — `randutils.hpp` 248. -/
abbrev Store (n : ℕ) := Fin n → Word

/-- `randutils.hpp` 225. -/
def initA : Word := 0x43b0d7e5
/-- `randutils.hpp` 226. -/
def multA : Word := 0x931e8875
/-- `randutils.hpp` 228. -/
def initB : Word := 0x8b51f9dd
/-- `randutils.hpp` 229. -/
def multB : Word := 0x58f38ded
/-- `randutils.hpp` 231. -/
def mixL : Word := 0xca01f9dd
/-- `randutils.hpp` 232. -/
def mixR : Word := 0x4973f715

/-- `value ^= value >> XSHIFT`, where `XSHIFT` is 16 — `randutils.hpp` 233. -/
def xorShift (x : Word) : Word := x ^^^ (x >>> 16)

/-- The loop of `fast_exp` — `randutils.hpp` 239-244. -/
def fastExpLoop (power : ℕ) (multiplier result : Word) : Word :=
  if power = 0 then result
  else fastExpLoop (power / 2) (multiplier * multiplier) (result * if power % 2 = 1 then multiplier else 1)
  termination_by power
  decreasing_by omega

/-- `fast_exp` — `randutils.hpp` 236-246. -/
def fastExp (x power : Word) : Word := fastExpLoop power.toNat x 1

/-- The value of `hash` — `randutils.hpp` 291-297, where `c` is the value of `hash_const` before; it is multiplied by `multA`
then. -/
def hash (c value : Word) : Word := xorShift ((value ^^^ c) * (c * multA))

/-- `mix` — `randutils.hpp` 298-302. -/
def mix (x y : Word) : Word := xorShift (mixL * x - mixR * y)

/-- A step of the first loop — `randutils.hpp` 304-310. The words of the input are copied to the store first, see
`mixEntropy`. -/
def hashStep {n : ℕ} (state : Store n × Word) (i : Fin n) : Store n × Word :=
  (Function.update state.1 i (hash state.2 (state.1 i)), state.2 * multA)

/-- A step of the second loop — `randutils.hpp` 311-314. -/
def mixStep {n : ℕ} (state : Store n × Word) (p : Fin n × Fin n) : Store n × Word :=
  (Function.update state.1 p.2 (mix (state.1 p.2) (hash state.2 (state.1 p.1))), state.2 * multA)

/-- The pairs of different elements in the order of the second loop — `randutils.hpp` 311-313. -/
def pairs (n : ℕ) : List (Fin n × Fin n) :=
  (List.finRange n).flatMap fun src => ((List.finRange n).filter fun dest => src ≠ dest).map fun dest => (src, dest)

/-- A step of the third loop — `randutils.hpp` 315-316. -/
def extraStep {n : ℕ} (word : Word) (state : Store n × Word) (i : Fin n) : Store n × Word :=
  (Function.update state.1 i (mix (state.1 i) (hash state.2 word)), state.2 * multA)

/-- The third loop for one further word — `randutils.hpp` 316. -/
def extraWord {n : ℕ} (state : Store n × Word) (word : Word) : Store n × Word :=
  (List.finRange n).foldl (extraStep word) state

/-- The first two loops, for `n` words. -/
def mixWords {n : ℕ} (words : Store n) : Store n × Word :=
  (pairs n).foldl mixStep ((List.finRange n).foldl hashStep (words, initA))

/-- `mix_entropy` — `randutils.hpp` 286-317. Missing words of the input are zero. -/
def mixEntropy (n : ℕ) (input : List Word) : Store n :=
  ((input.drop n).foldl extraWord (mixWords fun i => input.getD i 0)).1

/-- `stir` — `randutils.hpp` 280-283: the store is its own input. -/
def stir {n : ℕ} (store : Store n) : Store n := mixEntropy n (List.ofFn store)

/-- `mix_rounds` — `randutils.hpp` 218. -/
def mixRounds (n : ℕ) : ℕ := 1 + if n ≤ 2 then 1 else 0

/-- `seed` and the constructors — `randutils.hpp` 257-278. -/
def seedSeq (n : ℕ) (input : List Word) : Store n := stir^[mixRounds n - 1] (mixEntropy n input)

/-- `INV_A` — `randutils.hpp` 323. -/
def invA : Word := fastExp multA (-1)
/-- `MIX_INV_L` — `randutils.hpp` 324. -/
def mixInvL : Word := fastExp mixL (-1)

/-- A step of the first loop of `param` — `randutils.hpp` 333-345. -/
def unmixStep {n : ℕ} (state : Store n × Word) (p : Fin n × Fin n) : Store n × Word :=
  let c := state.2 * invA
  let revhashed := xorShift ((state.1 p.1 ^^^ c) * state.2)
  (Function.update state.1 p.2 ((xorShift (state.1 p.2) + mixR * revhashed) * mixInvL), c)

/-- The pairs of different elements in the order of `param` — `randutils.hpp` 331-333. -/
def pairsBack (n : ℕ) : List (Fin n × Fin n) :=
  (List.finRange n).reverse.flatMap fun src =>
    ((List.finRange n).reverse.filter fun dest => src ≠ dest).map fun dest => (src, dest)

/-- A step of the second loop of `param` — `randutils.hpp` 346-353. -/
def unhashStep {n : ℕ} (state : Store n × Word) (i : Fin n) : Store n × Word :=
  let c := state.2 * invA
  (Function.update state.1 i ((xorShift (state.1 i) * fastExp state.2 (-1)) ^^^ c), c)

/-- One round of `param` — `randutils.hpp` 327-354. -/
def unmixWords {n : ℕ} (store : Store n) : Store n :=
  ((List.finRange n).reverse.foldl unhashStep
    ((pairsBack n).foldl unmixStep (store, initA * fastExp multA (BitVec.ofNat 32 (n * n))))).1

/-- `param` — `randutils.hpp` 319-356. -/
def param {n : ℕ} (store : Store n) : List Word := List.ofFn (unmixWords^[mixRounds n] store)

/-- The loop of `generate` — `randutils.hpp` 366-375: `k` words are left, `i` is the position in the store. -/
def generateLoop {n : ℕ} (store : Store n) : ℕ → ℕ → Word → List Word
  | 0, _, _ => []
  | k + 1, i, c =>
    let value := if h : i < n then store ⟨i, h⟩ else 0
    xorShift ((value ^^^ c) * (c * multB)) :: generateLoop store k (if i + 1 = n then 0 else i + 1) (c * multB)

/-- `generate` — `randutils.hpp` 358-376: the first `k` words. -/
def generate {n : ℕ} (store : Store n) (k : ℕ) : List Word := generateLoop store k 0 initB

/-! ## Words -/

theorem xorShift_xorShift (x : Word) : xorShift (xorShift x) = x := by
  unfold xorShift
  ext i hi
  have : BitVec.getLsbD x (16 + (16 + i)) = false := BitVec.getLsbD_of_ge _ _ (by omega)
  simp [this]

theorem xorShift_injective : Function.Injective xorShift := fun x y h => by
  rw [← xorShift_xorShift x, h, xorShift_xorShift]

/-- Odd words. -/
def IsOdd (x : Word) : Prop := ∃ a, x = 1 + 2 * a

theorem IsOdd.mul {x y : Word} (hx : IsOdd x) (hy : IsOdd y) : IsOdd (x * y) := by
  obtain ⟨a, rfl⟩ := hx
  obtain ⟨b, rfl⟩ := hy
  exact ⟨a + b + 2 * (a * b), by ring⟩

theorem odd_multA : IsOdd multA := ⟨multA / 2, by decide⟩
theorem odd_initA : IsOdd initA := ⟨initA / 2, by decide⟩
theorem odd_multB : IsOdd multB := ⟨multB / 2, by decide⟩
theorem odd_initB : IsOdd initB := ⟨initB / 2, by decide⟩
theorem odd_mixL : IsOdd mixL := ⟨mixL / 2, by decide⟩
theorem odd_mixR : IsOdd mixR := ⟨mixR / 2, by decide⟩

theorem IsOdd.pow {x : Word} (hx : IsOdd x) (k : ℕ) : IsOdd (x ^ k) := by
  induction k with
  | zero => exact ⟨0, by simp⟩
  | succ k ih => rw [pow_succ]; exact ih.mul hx

/-- The order of an odd word is a power of two. -/
theorem IsOdd.pow_two_pow {x : Word} (hx : IsOdd x) : x ^ 2 ^ 32 = 1 := by
  have h : ∀ k : ℕ, ∃ b : Word, x ^ 2 ^ k = 1 + 2 ^ (k + 1) * b := by
    intro k
    induction k with
    | zero => obtain ⟨a, rfl⟩ := hx; exact ⟨a, by ring⟩
    | succ k ih =>
      obtain ⟨b, hb⟩ := ih
      refine ⟨b + 2 ^ k * b ^ 2, ?_⟩
      rw [pow_succ 2 k, pow_mul, hb]
      ring
  obtain ⟨b, hb⟩ := h 32
  rw [hb, show (2 : Word) ^ (32 + 1) = 0 from rfl, zero_mul, add_zero]

theorem fastExpLoop_eq (power : ℕ) : ∀ multiplier result : Word,
    fastExpLoop power multiplier result = result * multiplier ^ power := by
  induction power using Nat.strong_induction_on with
  | _ power ih =>
    intro m r
    rw [fastExpLoop]
    split
    · next h => simp [h]
    · next h =>
      rw [ih (power / 2) (by omega)]
      have hp : power = 2 * (power / 2) + power % 2 := by omega
      conv_rhs => rw [hp, pow_add, pow_mul]
      rcases Nat.mod_two_eq_zero_or_one power with h2 | h2
      · simp [h2, pow_two]
      · simp only [h2, if_true, pow_one, pow_two]; ring

theorem fastExp_eq (x power : Word) : fastExp x power = x ^ power.toNat := by
  rw [fastExp, fastExpLoop_eq, one_mul]

/-- The power that is used for inverses. -/
theorem mul_inverse {x : Word} (hx : IsOdd x) : x * fastExp x (-1) = 1 := by
  rw [fastExp_eq, show (-1 : Word).toNat = 2 ^ 32 - 1 from by decide, ← pow_succ', Nat.sub_add_cancel (by norm_num)]
  exact hx.pow_two_pow

theorem multA_invA : multA * invA = 1 := mul_inverse odd_multA
theorem mixL_inv : mixL * mixInvL = 1 := mul_inverse odd_mixL

theorem odd_of_mul {x y : Word} (h : x * y = 1) (hx : IsOdd x) : IsOdd y := by
  have : y = x ^ (2 ^ 32 - 1) := by
    have h1 : x * x ^ (2 ^ 32 - 1) = 1 := by
      rw [← pow_succ', Nat.sub_add_cancel (by norm_num)]; exact hx.pow_two_pow
    calc y = y * (x * x ^ (2 ^ 32 - 1)) := by rw [h1, mul_one]
      _ = (x * y) * x ^ (2 ^ 32 - 1) := by ring
      _ = x ^ (2 ^ 32 - 1) := by rw [h, one_mul]
  rw [this]
  exact hx.pow _

theorem mul_cancel_odd {x a b : Word} (hx : IsOdd x) (h : x * a = x * b) : a = b := by
  have hi := mul_inverse hx
  calc a = (x * fastExp x (-1)) * a := by rw [hi, one_mul]
    _ = fastExp x (-1) * (x * a) := by ring
    _ = fastExp x (-1) * (x * b) := by rw [h]
    _ = (x * fastExp x (-1)) * b := by ring
    _ = b := by rw [hi, one_mul]

theorem xor_cancel (a c : Word) : a ^^^ c ^^^ c = a := by
  ext i hi
  simp

/-! ## Steps and their inverses -/

variable {n : ℕ}

theorem unmix_mix {p : Fin n × Fin n} (hp : p.1 ≠ p.2) (s : Store n × Word) : unmixStep (mixStep s p) p = s := by
  obtain ⟨store, c⟩ := s
  have hc : c * multA * invA = c := by rw [mul_assoc, multA_invA, mul_one]
  simp only [mixStep, unmixStep, hc, Function.update_self, Function.update_of_ne hp]
  congr 1
  rw [Function.update_idem]
  convert Function.update_eq_self p.2 store using 2
  unfold mix hash
  rw [xorShift_xorShift]
  calc (mixL * store p.2 - mixR * _ + mixR * _) * mixInvL = (mixL * mixInvL) * store p.2 := by ring
    _ = store p.2 := by rw [mixL_inv, one_mul]

theorem mix_unmix {p : Fin n × Fin n} (hp : p.1 ≠ p.2) (s : Store n × Word) : mixStep (unmixStep s p) p = s := by
  obtain ⟨store, c⟩ := s
  have hc : c * invA * multA = c := by rw [mul_assoc, mul_comm invA, multA_invA, mul_one]
  simp only [mixStep, unmixStep, hc, Function.update_self, Function.update_of_ne hp]
  congr 1
  rw [Function.update_idem]
  convert Function.update_eq_self p.2 store using 2
  unfold mix hash
  rw [hc]
  have : ∀ u v : Word, mixL * ((u + mixR * v) * mixInvL) - mixR * v = u := fun u v => by
    calc mixL * ((u + mixR * v) * mixInvL) - mixR * v = (mixL * mixInvL) * (u + mixR * v) - mixR * v := by ring
      _ = u := by rw [mixL_inv]; ring
  rw [this, xorShift_xorShift]

theorem unhash_hash {i : Fin n} {s : Store n × Word} (hs : IsOdd s.2) : unhashStep (hashStep s i) i = s := by
  obtain ⟨store, c⟩ := s
  have hc : c * multA * invA = c := by rw [mul_assoc, multA_invA, mul_one]
  simp only [hashStep, unhashStep, hc, Function.update_self]
  congr 1
  rw [Function.update_idem]
  convert Function.update_eq_self i store using 2
  unfold hash
  rw [xorShift_xorShift, mul_assoc, mul_inverse (IsOdd.mul hs odd_multA), mul_one, xor_cancel]

theorem hash_unhash {i : Fin n} {s : Store n × Word} (hs : IsOdd s.2) : hashStep (unhashStep s i) i = s := by
  obtain ⟨store, c⟩ := s
  have hc : c * invA * multA = c := by rw [mul_assoc, mul_comm invA, multA_invA, mul_one]
  simp only [hashStep, unhashStep, hc, Function.update_self]
  congr 1
  rw [Function.update_idem]
  convert Function.update_eq_self i store using 2
  unfold hash
  rw [hc, xor_cancel, mul_assoc, mul_comm (fastExp c (-1)), mul_inverse hs, mul_one, xorShift_xorShift]

/-- Loops that are run backwards. -/
theorem foldl_inverse {S A : Type} (f g : S → A → S) (P : S → Prop) : ∀ (l : List A) (s : S),
    (∀ s, P s → ∀ a ∈ l, P (f s a)) → (∀ s, P s → ∀ a ∈ l, g (f s a) a = s) → P s →
    l.reverse.foldl g (l.foldl f s) = s
  | [], s, _, _, _ => rfl
  | a :: l, s, h1, h2, hs => by
    rw [List.reverse_cons, List.foldl_append, List.foldl_cons, List.foldl_cons, List.foldl_nil,
      foldl_inverse f g P l (f s a) (fun s hs a ha => h1 s hs a (List.mem_cons_of_mem _ ha))
        (fun s hs a ha => h2 s hs a (List.mem_cons_of_mem _ ha)) (h1 s hs a (List.mem_cons_self ..))]
    exact h2 s hs a (List.mem_cons_self ..)

theorem pairs_ne {p : Fin n × Fin n} (h : p ∈ pairs n) : p.1 ≠ p.2 := by
  unfold pairs at h
  simp only [List.mem_flatMap, List.mem_map, List.mem_filter, decide_eq_true_eq] at h
  obtain ⟨src, -, dest, ⟨-, hd⟩, rfl⟩ := h
  exact hd

theorem pairsBack_eq (n : ℕ) : pairsBack n = (pairs n).reverse := by
  unfold pairs pairsBack
  rw [List.reverse_flatMap]
  congr 1
  funext src
  simp [List.filter_reverse]

theorem pairs_length (n : ℕ) : n + (pairs n).length = n * n := by
  unfold pairs
  rw [List.length_flatMap]
  have h : ∀ src : Fin n, (((List.finRange n).filter fun dest => src ≠ dest).map fun dest => (src, dest)).length = n - 1 := by
    intro src
    rw [List.length_map]
    have h1 : ((List.finRange n).filter fun dest => src ≠ dest) = (List.finRange n).erase src := by
      rw [(List.nodup_finRange n).erase_eq_filter]
      refine List.filter_congr fun a _ => ?_
      by_cases h : a = src
      · simp [h]
      · simp [h, Ne.symm h]
    rw [h1, List.length_erase_of_mem (List.mem_finRange src), List.length_finRange]
  have hc : ∀ l : List (Fin n), (l.map fun src =>
      (((List.finRange n).filter fun dest => src ≠ dest).map fun dest => (src, dest)).length).sum = l.length * (n - 1) := by
    intro l
    induction l with
    | nil => simp
    | cons a l ih => rw [List.map_cons, List.sum_cons, ih, h, List.length_cons]; ring
  rw [hc, List.length_finRange]
  cases n with
  | zero => rfl
  | succ n => simp; ring

theorem const_fold {A : Type} {f : Store n × Word → A → Store n × Word} {m : Word} (h : ∀ s a, (f s a).2 = s.2 * m) :
    ∀ (l : List A) (s : Store n × Word), (l.foldl f s).2 = s.2 * m ^ l.length
  | [], s => by simp
  | a :: l, s => by rw [List.foldl_cons, const_fold h l, h, List.length_cons, pow_succ']; ring

/-- The constant after the two loops. -/
theorem mixWords_const (words : Store n) : (mixWords words).2 = initA * multA ^ (n * n) := by
  unfold mixWords
  rw [const_fold (m := multA) (fun _ _ => rfl), const_fold (m := multA) (fun _ _ => rfl), List.length_finRange, mul_assoc,
    ← pow_add, pairs_length]

theorem pow_mod {x : Word} (hx : IsOdd x) (k : ℕ) : x ^ (k % 2 ^ 32) = x ^ k := by
  conv_rhs => rw [← Nat.div_add_mod k (2 ^ 32), pow_add, pow_mul, hx.pow_two_pow, one_pow, one_mul]

theorem start_const (n : ℕ) : initA * fastExp multA (BitVec.ofNat 32 (n * n)) = initA * multA ^ (n * n) := by
  rw [fastExp_eq, BitVec.toNat_ofNat, pow_mod odd_multA]

theorem unmix_mixWords (words : Store n) : unmixWords (mixWords words).1 = words := by
  unfold unmixWords
  have e : ((mixWords words).1, initA * fastExp multA (BitVec.ofNat 32 (n * n))) = mixWords words :=
    Prod.ext rfl ((start_const n).trans (mixWords_const words).symm)
  rw [e, pairsBack_eq]
  unfold mixWords
  rw [foldl_inverse mixStep unmixStep (fun _ => True) (pairs n) _ (fun _ _ _ _ => trivial)
    (fun s _ p hp => unmix_mix (pairs_ne hp) s) trivial,
    foldl_inverse hashStep unhashStep (fun s => IsOdd s.2) (List.finRange n) _ (fun s hs _ _ => hs.mul odd_multA)
      (fun s hs i _ => unhash_hash hs) odd_initA]

theorem odd_invA : IsOdd invA := odd_of_mul multA_invA odd_multA

theorem mix_unmixWords (store : Store n) : (mixWords (unmixWords store)).1 = store := by
  unfold unmixWords
  rw [start_const, pairsBack_eq]
  generalize hs : (pairs n).reverse.foldl unmixStep (store, initA * multA ^ (n * n)) = s
  have hs2 : s.2 = initA * multA ^ (n * n) * invA ^ (pairs n).length := by
    rw [← hs, const_fold (m := invA) (fun _ _ => rfl), List.length_reverse]
  have hodd : IsOdd s.2 := by
    rw [hs2]; exact (odd_initA.mul (odd_multA.pow _)).mul (odd_invA.pow _)
  generalize ht : (List.finRange n).reverse.foldl unhashStep s = t
  have ht2 : t.2 = initA := by
    rw [← ht, const_fold (m := invA) (fun _ _ => rfl), hs2, List.length_reverse, List.length_finRange, mul_assoc, ← pow_add,
      add_comm, pairs_length, mul_assoc, ← mul_pow, multA_invA, one_pow, mul_one]
  have h1 : (List.finRange n).foldl hashStep t = s := by
    rw [← ht]
    have := foldl_inverse unhashStep hashStep (fun s : Store n × Word => IsOdd s.2) (List.finRange n).reverse s
      (fun s hs _ _ => hs.mul odd_invA) (fun s hs i _ => hash_unhash hs) hodd
    rwa [List.reverse_reverse] at this
  have h2 : (pairs n).foldl mixStep s = (store, initA * multA ^ (n * n)) := by
    rw [← hs]
    have := foldl_inverse unmixStep mixStep (fun _ => True) (pairs n).reverse (store, initA * multA ^ (n * n))
      (fun _ _ _ _ => trivial) (fun s _ p hp => mix_unmix (pairs_ne (List.mem_reverse.mp hp)) s) trivial
    rwa [List.reverse_reverse] at this
  unfold mixWords
  rw [show (t.1, initA) = t from Prod.ext rfl ht2.symm, h1, h2]

theorem mixEntropy_words (words : Store n) (extra : List Word) :
    mixEntropy n (List.ofFn words ++ extra) = (extra.foldl extraWord (mixWords words)).1 := by
  unfold mixEntropy
  rw [List.drop_left' (by simp)]
  congr 3
  funext i
  rw [List.getD_append _ _ _ _ (by simp), List.getD_eq_getElem _ _ (by simp), List.getElem_ofFn]

theorem stir_eq (store : Store n) : stir store = (mixWords store).1 := by
  unfold stir
  rw [← List.append_nil (List.ofFn store), mixEntropy_words]
  rfl

theorem stir_leftInverse : Function.LeftInverse (unmixWords (n := n)) stir := fun s => by rw [stir_eq, unmix_mixWords]

theorem stir_rightInverse : Function.RightInverse (unmixWords (n := n)) stir := fun s => by rw [stir_eq, mix_unmixWords]

theorem seedSeq_words (words : Store n) : seedSeq n (List.ofFn words) = stir^[mixRounds n] words := by
  have h : mixRounds n = (mixRounds n - 1) + 1 := by unfold mixRounds; omega
  conv_rhs => rw [h, Function.iterate_succ_apply]
  rfl

/-! ## Properties of seeds -/

/-- **C157**: from the seed that `param` reports the entropy store is restored, however the store has been filled. -/
theorem C157_restore (store : Store n) : seedSeq n (param store) = store := by
  unfold param
  rw [seedSeq_words]
  exact stir_rightInverse.iterate _ store

/-- **C157**: `param` reports the words of the seed itself if there are as many as the store has. -/
theorem C157_report {seed : List Word} (h : seed.length = n) : param (seedSeq n seed) = seed := by
  obtain ⟨words, rfl⟩ : ∃ words : Store n, seed = List.ofFn words := by
    subst h
    exact ⟨seed.get, (List.ofFn_get seed).symm⟩
  unfold param
  rw [seedSeq_words, stir_leftInverse.iterate _ words]

/-! ## Further words -/

theorem mix_left {x x' y : Word} (h : mix x y = mix x' y) : x = x' := by
  have := xorShift_injective h
  exact mul_cancel_odd odd_mixL (sub_left_injective this)

theorem mix_right {x y y' : Word} (h : mix x y = mix x y') : y = y' := by
  have := xorShift_injective h
  exact mul_cancel_odd odd_mixR (sub_right_injective this)

theorem scramble_injective {c m : Word} (hm : IsOdd m) {x y : Word} (h : xorShift ((x ^^^ c) * m) = xorShift ((y ^^^ c) * m)) :
    x = y := by
  have h1 := xorShift_injective h
  rw [mul_comm _ m, mul_comm _ m] at h1
  have h2 := mul_cancel_odd hm h1
  rw [← xor_cancel x c, h2, xor_cancel]

theorem hash_injective {c : Word} (hc : IsOdd c) {x y : Word} (h : hash c x = hash c y) : x = y :=
  scramble_injective (hc.mul odd_multA) h

/-- What a further word does to the store. -/
theorem extra_fold {l : List (Fin n)} (hl : l.Nodup) : ∀ {c0 : Word}, IsOdd c0 → ∃ c : Fin n → Word, (∀ i, IsOdd (c i)) ∧
    ∀ (store : Store n) (w : Word) (i : Fin n), (l.foldl (extraStep w) (store, c0)).1 i =
      if i ∈ l then mix (store i) (hash (c i) w) else store i := by
  induction l with
  | nil => intro c0 h; exact ⟨fun _ => c0, fun _ => h, by simp⟩
  | cons a l ih =>
    intro c0 h
    obtain ⟨ha, hl⟩ := List.nodup_cons.mp hl
    obtain ⟨c, hc, he⟩ := ih hl (h.mul odd_multA)
    refine ⟨Function.update c a c0, fun i => ?_, fun store w i => ?_⟩
    · by_cases hi : i = a
      · subst hi; rwa [Function.update_self]
      · rw [Function.update_of_ne hi]; exact hc i
    · rw [List.foldl_cons, show extraStep w (store, c0) a =
        (Function.update store a (mix (store a) (hash c0 w)), c0 * multA) from rfl, he]
      by_cases hi : i = a
      · subst hi; simp [ha]
      · simp [hi]

theorem extraWord_store {s t : Store n × Word} {w : Word} (hs : IsOdd s.2) (hst : s.2 = t.2)
    (h : (extraWord s w).1 = (extraWord t w).1) : s = t := by
  obtain ⟨s, c⟩ := s
  obtain ⟨t, c'⟩ := t
  simp only at hst
  subst hst
  obtain ⟨c', -, he⟩ := extra_fold (List.nodup_finRange n) hs
  congr 1
  funext i
  have := congrFun h i
  unfold extraWord at this
  rw [he, he, if_pos (List.mem_finRange i), if_pos (List.mem_finRange i)] at this
  exact mix_left this

theorem extraWord_word (hn : 0 < n) {s : Store n × Word} {w w' : Word} (hs : IsOdd s.2)
    (h : (extraWord s w).1 = (extraWord s w').1) : w = w' := by
  obtain ⟨s, c⟩ := s
  obtain ⟨c', hc, he⟩ := extra_fold (List.nodup_finRange n) hs
  have := congrFun h ⟨0, hn⟩
  unfold extraWord at this
  rw [he, he, if_pos (List.mem_finRange _), if_pos (List.mem_finRange _)] at this
  exact hash_injective (hc _) (mix_right this)

theorem extraWord_const (s : Store n × Word) (w : Word) : (extraWord s w).2 = s.2 * multA ^ n := by
  unfold extraWord
  rw [const_fold (m := multA) (fun _ _ => rfl), List.length_finRange]

theorem extraWords_store : ∀ (l : List Word) {s t : Store n × Word}, IsOdd s.2 → s.2 = t.2 →
    (l.foldl extraWord s).1 = (l.foldl extraWord t).1 → s = t
  | [], _, _, _, h1, h2 => Prod.ext h2 h1
  | w :: l, s, t, hs, h1, h2 => by
    have h3 := extraWords_store l (s := extraWord s w) (t := extraWord t w)
      (by rw [extraWord_const]; exact hs.mul (odd_multA.pow _)) (by rw [extraWord_const, extraWord_const, h1]) h2
    exact extraWord_store hs h1 (by rw [h3])

theorem extraWords_const (l : List Word) (s : Store n × Word) : (l.foldl extraWord s).2 = s.2 * (multA ^ n) ^ l.length :=
  const_fold (fun s w => extraWord_const s w) l s

theorem odd_mixWords (words : Store n) : IsOdd (mixWords words).2 := by
  rw [mixWords_const]; exact odd_initA.mul (odd_multA.pow _)

theorem mixWords_injective {v w : Store n} (h : (mixWords v).1 = (mixWords w).1) : v = w := by
  rw [← unmix_mixWords v, h, unmix_mixWords]

instance : Finite Word := Finite.of_injective (fun x : Word => x.toFin) fun _ _ h => BitVec.eq_of_toFin_eq h

theorem stir_injective : Function.Injective (stir (n := n)) := stir_leftInverse.injective

/-- **C157**: with further words, every store arises from exactly one choice of the first words, so that no store is
preferred. -/
theorem C157_uniform (extra : List Word) : Function.Bijective fun words : Store n => seedSeq n (List.ofFn words ++ extra) := by
  refine Finite.injective_iff_bijective.mp fun v w h => ?_
  have h := stir_injective.iterate _ h
  rw [mixEntropy_words, mixEntropy_words] at h
  exact mixWords_injective (congrArg Prod.fst (extraWords_store extra (odd_mixWords v)
    ((mixWords_const v).trans (mixWords_const w).symm) h))

/-! ## Generated words -/

theorem generateLoop_injective {s t : Store n} : ∀ (k i : ℕ) (c : Word), IsOdd c → i < n →
    generateLoop s k i c = generateLoop t k i c → ∀ j (hj : j < n), i ≤ j → j < i + k → s ⟨j, hj⟩ = t ⟨j, hj⟩
  | 0, i, c, _, _, _, j, hj, h1, h2 => by omega
  | k + 1, i, c, hc, hi, h, j, hj, h1, h2 => by
    simp only [generateLoop, hi, dif_pos, List.cons.injEq] at h
    by_cases he : i = j
    · subst he
      exact scramble_injective (hc.mul odd_multB) h.1
    · have hne : i + 1 ≠ n := by omega
      rw [if_neg hne] at h
      exact generateLoop_injective k (i + 1) (c * multB) (hc.mul odd_multB) (by omega) h.2 j hj (by omega) (by omega)

theorem generate_injective {s t : Store n} {k : ℕ} (hk : n ≤ k) (h : generate s k = generate t k) : s = t := by
  funext j
  rcases Nat.eq_zero_or_pos n with rfl | hn
  · exact j.elim0
  · exact generateLoop_injective k 0 initB odd_initB hn h j.1 j.2 (Nat.zero_le _) (by omega)

theorem generate_length (s : Store n) (k : ℕ) : (generate s k).length = k := by
  have : ∀ (k i : ℕ) (c : Word), (generateLoop s k i c).length = k := by
    intro k
    induction k with
    | zero => intro i c; rfl
    | succ k ih => intro i c; simp [generateLoop, ih]
  exact this k 0 initB

/-- **C158**: seeds of `n` words that lead to the same first words (at least `n`) for a random number generator are equal. -/
theorem C158_different {k : ℕ} (hk : n ≤ k) {seed seed' : List Word} (h : seed.length = n) (h' : seed'.length = n)
    (hg : generate (seedSeq n seed) k = generate (seedSeq n seed') k) : seed = seed' := by
  rw [← C157_report h, generate_injective hk hg, C157_report h']

/-- **C158**: every `n` words are the first words for a random number generator for some seed of `n` words, which is unique by
`C158_different`. -/
theorem C158_all {words : List Word} (h : words.length = n) : ∃ seed : List Word, seed.length = n ∧
    generate (seedSeq n seed) n = words := by
  let f : Store n → Store n := fun s i => (generate (seedSeq n (List.ofFn s)) n).getD i 0
  have hf : Function.Injective f := fun s t hst => by
    have : generate (seedSeq n (List.ofFn s)) n = generate (seedSeq n (List.ofFn t)) n := by
      refine List.ext_getElem (by rw [generate_length, generate_length]) fun i h1 h2 => ?_
      have hi : i < n := by rwa [generate_length] at h1
      have := congrFun hst ⟨i, hi⟩
      simp only [f] at this
      rwa [List.getD_eq_getElem _ _ h1, List.getD_eq_getElem _ _ h2] at this
    exact List.ofFn_injective (C158_different le_rfl (by simp) (by simp) this)
  obtain ⟨s, hs⟩ := Finite.injective_iff_surjective.mp hf fun i => words.getD i 0
  refine ⟨List.ofFn s, by simp, List.ext_getElem (by rw [generate_length, h]) fun i h1 h2 => ?_⟩
  have hi : i < n := by rwa [generate_length] at h1
  have := congrFun hs ⟨i, hi⟩
  simp only [f] at this
  rwa [List.getD_eq_getElem _ _ h1, List.getD_eq_getElem _ _ h2] at this

/-- **C158**: if all words of the input but one are kept, at any position of an input of any length, different values of this
word lead to different first words for a random number generator. -/
theorem C158_vary (hn : 0 < n) {k : ℕ} (hk : n ≤ k) {before after : List Word} {x y : Word}
    (h : generate (seedSeq n (before ++ x :: after)) k = generate (seedSeq n (before ++ y :: after)) k) : x = y := by
  have h := stir_injective.iterate _ (generate_injective hk h)
  unfold mixEntropy at h
  by_cases hb : before.length < n
  · have hd : ∀ z : Word, (before ++ z :: after).drop n = after.drop (n - before.length - 1) := by
      intro z
      rw [List.drop_append, List.drop_eq_nil_of_le hb.le, List.nil_append]
      obtain ⟨m, hm⟩ : ∃ m, n - before.length = m + 1 := ⟨n - before.length - 1, by omega⟩
      rw [hm]
      rfl
    rw [hd, hd] at h
    have h1 := congrArg Prod.fst (extraWords_store _ (odd_mixWords _) ((mixWords_const _).trans (mixWords_const _).symm) h)
    have h2 := congrFun (mixWords_injective h1) ⟨before.length, hb⟩
    simpa [List.getD_eq_getElem?_getD] using h2
  · have hb : n ≤ before.length := not_lt.mp hb
    have hd : ∀ z : Word, (before ++ z :: after).drop n = before.drop n ++ z :: after := by
      intro z
      rw [List.drop_append, Nat.sub_eq_zero_of_le hb, List.drop_zero]
    have hw : ∀ z : Word, (fun i : Fin n => (before ++ z :: after).getD i 0) = fun i : Fin n => before.getD i 0 := by
      intro z
      funext i
      exact List.getD_append _ _ _ _ (by have := i.2; omega)
    rw [hd, hd, hw, hw, List.foldl_append, List.foldl_append, List.foldl_cons, List.foldl_cons] at h
    generalize hs : (before.drop n).foldl extraWord (mixWords fun i : Fin n => before.getD i 0) = s at h
    have hodd : IsOdd s.2 := by
      rw [← hs, extraWords_const]; exact (odd_mixWords _).mul ((odd_multA.pow _).pow _)
    have h1 := extraWords_store after (s := extraWord s x) (t := extraWord s y)
      (by rw [extraWord_const]; exact hodd.mul (odd_multA.pow _)) (by rw [extraWord_const, extraWord_const]) h
    exact extraWord_word hn hodd (by rw [h1])

/-! ## Seeds of the program -/

/-- `make_random_seed` — `Normaldistribution.cpp` 29-35; `entropy` are the eleven words that `auto_seeded` collects
(`randutils.hpp` 432-522, 538). -/
def makeRandomSeed (entropy : List Word) : List Word := param (seedSeq 8 entropy)

/-- What `setup_random_number_generator` (`Normaldistribution.cpp` 37-46) hands to the generator: its first `k` words. -/
def generatorWords (seed : List Word) (k : ℕ) : List Word := generate (seedSeq 8 seed) k

/-- **C158**, seeds of the program: a drawn seed has eight words and initialises generators with the words that the collected
entropy stands for. If one word of the entropy has another value, the drawn seed and the generator's first words are other
ones. -/
theorem C158_drawn (entropy : List Word) : (makeRandomSeed entropy).length = 8 ∧
    (∀ k, generatorWords (makeRandomSeed entropy) k = generate (seedSeq 8 entropy) k) ∧
    ∀ (before after : List Word) (x y : Word), entropy = before ++ x :: after → x ≠ y →
      makeRandomSeed (before ++ y :: after) ≠ makeRandomSeed entropy ∧
      ∀ k, 8 ≤ k → generatorWords (makeRandomSeed (before ++ y :: after)) k ≠ generatorWords (makeRandomSeed entropy) k := by
  have hr : ∀ (entropy : List Word) k, generatorWords (makeRandomSeed entropy) k = generate (seedSeq 8 entropy) k :=
    fun entropy k => by unfold generatorWords makeRandomSeed; rw [C157_restore]
  refine ⟨by simp [makeRandomSeed, param], hr entropy, ?_⟩
  rintro before after x y rfl hxy
  have h : ∀ k, 8 ≤ k → generatorWords (makeRandomSeed (before ++ y :: after)) k ≠
      generatorWords (makeRandomSeed (before ++ x :: after)) k := by
    intro k hk he
    rw [hr, hr] at he
    exact hxy (C158_vary (by norm_num) hk he).symm
  exact ⟨fun he => h 8 le_rfl (by rw [he]), h⟩

/-- The increment of `random_int` — `randutils.hpp` 461. -/
def increment : Word := 0xedf19156

/-- `random_int` in draw number `k` of a process — `randutils.hpp` 446 and 461: it is initialised with some number once and
incremented in each draw. -/
def randomInt (start : Word) : ℕ → Word
  | 0 => start
  | k + 1 => randomInt start k + increment

theorem randomInt_eq (start : Word) (k : ℕ) : randomInt start k = start + BitVec.ofNat 32 k * increment := by
  induction k with
  | zero => simp [randomInt]
  | succ k ih =>
    rw [randomInt, ih, BitVec.ofNat_add]
    have : BitVec.ofNat 32 1 = (1 : Word) := rfl
    rw [this]; ring

/-- **C158**, draws of one process: different draws among the first 2³¹ give different seeds even if the clock, the addresses and
everything else that is collected is the same. -/
theorem C158_counter (start : Word) (others : List Word) {k l : ℕ} (hk : k < 2 ^ 31) (hl : l < 2 ^ 31) (hkl : k ≠ l) :
    makeRandomSeed (randomInt start k :: others) ≠ makeRandomSeed (randomInt start l :: others) := by
  have hne : randomInt start k ≠ randomInt start l := by
    intro h
    rw [randomInt_eq, randomInt_eq] at h
    have h := add_left_cancel h
    have hinc : increment = 2 * 0x76f8c8ab := by decide
    have hodd : IsOdd 0x76f8c8ab := ⟨0x76f8c8ab / 2, by decide⟩
    have h2 : BitVec.ofNat 32 k * 2 = BitVec.ofNat 32 l * 2 := mul_cancel_odd hodd (by
      rw [hinc] at h
      calc 0x76f8c8ab * (BitVec.ofNat 32 k * 2) = BitVec.ofNat 32 k * (2 * 0x76f8c8ab) := by ring
        _ = BitVec.ofNat 32 l * (2 * 0x76f8c8ab) := h
        _ = 0x76f8c8ab * (BitVec.ofNat 32 l * 2) := by ring)
    have h3 := congrArg BitVec.toNat h2
    simp only [BitVec.toNat_mul, BitVec.toNat_ofNat] at h3
    have e2 : (2 : Word).toNat = 2 := rfl
    rw [e2, Nat.mod_mul_mod, Nat.mod_mul_mod] at h3
    omega
  exact ((C158_drawn (randomInt start l :: others)).2.2 [] others _ _ rfl hne.symm).1

/-- The increment is even: after 2³¹ draws the counter repeats itself. -/
theorem counter_repeats (start : Word) (k : ℕ) : randomInt start (k + 2 ^ 31) = randomInt start k := by
  rw [randomInt_eq, randomInt_eq, BitVec.ofNat_add, add_mul,
    show BitVec.ofNat 32 (2 ^ 31) * increment = 0 from by decide, add_zero]

/-- A store of eight words and its seed. -/
example : ∃ store : Store 8, param store = [1, 2, 3, 4, 5, 6, 7, 8] ∧ seedSeq 8 [1, 2, 3, 4, 5, 6, 7, 8] = store :=
  ⟨_, C157_report rfl, rfl⟩

end Verif.Stochastic.SeedSeq
