import Verif.Basic.Res
import Mathlib.Data.List.Basic
import Mathlib.Data.List.Infix
import Mathlib.Tactic.Common

/-!
# Is a path inside a directory?

`absolute_file_path_in_root` — `src/Auxillary/Input_Output/Input_output.cpp` 29-42, with POSIX paths.
-/

set_option autoImplicit false

namespace Verif.Files.Root

/-- `std::filesystem::path`, taken apart: does it begin with a slash, the names in it, does it end with a slash (after a
name)? -/
structure Path where
  absolute : Bool
  names : List String
  trailing : Bool := false
  deriving DecidableEq

namespace Path

/-- The elements that iterators of `std::filesystem::path` go through: a slash at the beginning counts as an element, a
slash at the end gives an empty element. -/
def elements (p : Path) : List String :=
  (if p.absolute then ["/"] else []) ++ p.names ++ (if p.trailing ∧ p.names ≠ [] then [""] else [])

/-- `std::filesystem::path::operator/`: an absolute path replaces everything; an empty path adds a slash. -/
def append (p q : Path) : Path :=
  if q.absolute then q
  else if q.names = [] then { p with trailing := true }
  else { q with absolute := p.absolute, names := p.names ++ q.names }

/-- The names that are left by `lexically_normal`: dots are removed, and so are names before dot-dots, and dot-dots after
the slash at the beginning. `done` are the names so far, last first. -/
def normalNames (absolute : Bool) : (done names : List String) → List String
  | done, [] => done.reverse
  | done, name :: names =>
    if name = "." then normalNames absolute done names
    else if name = ".." then
      match done with
      | [] => normalNames absolute (if absolute then [] else [".."]) names
      | last :: before => normalNames absolute (if last = ".." then ".." :: done else before) names
    else normalNames absolute (name :: done) names

/-- `std::filesystem::path::lexically_normal`. A slash stays at the end, and appears there if the last name was a dot or
dot-dot that was removed; there is none after a dot-dot; an empty result is a dot. -/
def lexicallyNormal (p : Path) : Path :=
  let names := normalNames p.absolute [] p.names
  if names = [] then
    (if p.absolute then ⟨true, [], false⟩ else if p.names = [] then ⟨false, [], false⟩ else ⟨false, ["."], false⟩)
  else
    ⟨p.absolute, names, (p.trailing || p.names.getLast? == some "." || p.names.getLast? == some "..")
      && !(names.getLast? == some "..")⟩

end Path

/-- `std::mismatch` with three iterators, asking only whether the whole first range was matched. Reading behind the end
of the second range is undefined. -/
def mismatch : List String → List String → Res Bool
  | [], _ => Res.ok true
  | _ :: _, [] => Res.ub
  | a :: l, b :: l' => if a = b then mismatch l l' else Res.ok false

/-- `absolute_file_path_in_root` — `Input_output.cpp` 29-42. -/
def inRoot (root path : Path) : Res Bool := mismatch root.elements (root.append path).lexicallyNormal.elements

/-! ## Specification -/

/-- Where one gets from `here` by the given names: a dot stays, dot-dot goes up (if that is possible), any other name goes
down. A place is the list of names from the top; links are not followed. -/
def goTo : (here names : List String) → List String
  | here, [] => here
  | here, name :: names =>
    if name = "." then goTo here names else if name = ".." then goTo here.dropLast names else goTo (here ++ [name]) names

/-- The place that a path means for someone who is in `here`. -/
def place (here : List String) (path : Path) : List String :=
  if path.absolute then goTo [] path.names else goTo here path.names

/-- A directory as `std::filesystem::current_path` gives it. -/
def directory (names : List String) : Path := ⟨true, names, false⟩

/-- Ordinary names. -/
def Plain (names : List String) : Prop := ∀ n ∈ names, n ≠ "" ∧ n ≠ "." ∧ n ≠ ".."

theorem goTo_append (here a b : List String) : goTo here (a ++ b) = goTo (goTo here a) b := by
  induction a generalizing here with
  | nil => rfl
  | cons n a ih =>
    simp only [List.cons_append, goTo]
    split_ifs <;> exact ih _

theorem goTo_plain {here names : List String} (h : Plain names) : goTo here names = here ++ names := by
  induction names generalizing here with
  | nil => simp [goTo]
  | cons n a ih =>
    obtain ⟨-, h1, h2⟩ := h n (by simp)
    simp only [goTo, h1, h2, if_false]
    rw [ih fun m hm => h m (by simp [hm])]
    simp

theorem normal_eq_goTo (names : List String) (done : List String) (h : ".." ∉ done) :
    Path.normalNames true done names = goTo done.reverse names := by
  induction names generalizing done with
  | nil => rfl
  | cons n a ih =>
    simp only [Path.normalNames, goTo]
    split_ifs with h1 h2
    · exact ih _ h
    · cases done with
      | nil => simpa using ih [] (by simp)
      | cons l b =>
        simp only [List.mem_cons, not_or] at h
        simp only [Ne.symm h.1, if_false, List.reverse_cons, List.dropLast_concat]
        exact ih b h.2
    · rw [ih (n :: done) (by simp [h, Ne.symm h2]), List.reverse_cons]

theorem mismatch_iff (a b : List String) :
    (mismatch a b = Res.ok true ↔ a <+: b) ∧ (mismatch a b = Res.ub ↔ b <+: a ∧ b ≠ a) ∧ mismatch a b ≠ Res.throws := by
  induction a generalizing b with
  | nil => simp [mismatch]
  | cons x a ih =>
    cases b with
    | nil => simp [mismatch]
    | cons y b =>
      by_cases h : x = y
      · subst h
        simp only [mismatch, if_true, List.cons_prefix_cons, true_and, ne_eq, List.cons.injEq]
        exact ih b
      · simp [mismatch, h, List.cons_prefix_cons, Ne.symm h]

/-- The elements of the normalised path: the place, maybe with an empty element. -/
theorem elements_normal (root : List String) (path : Path) (h : Plain root) :
    ∃ suffix, (suffix = [] ∨ suffix = [""] ∧ place root path ≠ []) ∧
      ((directory root).append path).lexicallyNormal.elements = "/" :: place root path ++ suffix := by
  have hplace : Path.normalNames true [] ((directory root).append path).names = place root path ∧
      ((directory root).append path).absolute = true := by
    rw [normal_eq_goTo _ _ (by simp)]
    unfold Path.append place
    split_ifs with h1 h2
    · exact ⟨rfl, h1⟩
    · rw [h2]
      exact ⟨goTo_plain (here := []) h, rfl⟩
    · refine ⟨?_, rfl⟩
      simp only [directory, List.reverse_nil]
      rw [goTo_append, goTo_plain h, List.nil_append]
  unfold Path.lexicallyNormal
  simp only [hplace.2, hplace.1, if_true]
  by_cases hp : place root path = []
  · simp [hp, Path.elements]
  · rw [if_neg hp]
    refine ⟨_, ?_, by simp only [Path.elements, if_true]; rfl⟩
    split_ifs
    · exact Or.inr ⟨rfl, hp⟩
    · exact Or.inl rfl

/-- **C56**: a path is accepted exactly if the place it means lies in the root directory (or is the root directory). -/
theorem C56_accepted (root : List String) (path : Path) (h : Plain root) :
    inRoot (directory root) path = Res.ok true ↔ root <+: place root path := by
  obtain ⟨suffix, hs, he⟩ := elements_normal root path h
  unfold inRoot
  rw [(mismatch_iff _ _).1, he]
  simp only [directory, Path.elements, if_true, Bool.false_eq_true, false_and, if_false, List.append_nil,
    List.cons_append, List.nil_append, List.cons_prefix_cons, true_and]
  rcases hs with rfl | ⟨rfl, -⟩
  · simp
  · constructor
    · intro hp
      rcases List.prefix_concat_iff.mp hp with e | hp
      · exact absurd rfl (h "" (by rw [e]; simp)).1
      · exact hp
    · exact fun hp => hp.trans (List.prefix_append _ _)

/-- **C56 (partial)**: every path whose place is not above the root directory gets the right answer. For places above
it, the code may read behind the end of the path, see `C56_false`. -/
theorem C56_exact_partial (root : List String) (path : Path) (h : Plain root)
    (habove : place root path <+: root → place root path = root) :
    inRoot (directory root) path = Res.ok (decide (root <+: place root path)) := by
  by_cases hp : root <+: place root path
  · rw [decide_eq_true hp]
    exact (C56_accepted root path h).mpr hp
  · rw [decide_eq_false hp]
    obtain ⟨suffix, hs, he⟩ := elements_normal root path h
    have hnot := (C56_accepted root path h).not.mpr hp
    unfold inRoot at hnot ⊢
    have hm := mismatch_iff (directory root).elements ((directory root).append path).lexicallyNormal.elements
    have hub : mismatch (directory root).elements ((directory root).append path).lexicallyNormal.elements ≠ Res.ub := by
      rw [Ne, hm.2.1, he]
      simp only [directory, Path.elements, if_true, Bool.false_eq_true, false_and, if_false, List.append_nil,
        List.cons_append, List.nil_append, List.cons_prefix_cons, true_and]
      rintro ⟨h1, -⟩
      have := habove ((List.prefix_append _ _).trans h1)
      rw [this] at hp
      exact hp (List.prefix_refl root)
    cases hr : mismatch (directory root).elements ((directory root).append path).lexicallyNormal.elements with
    | ok b =>
      cases b
      · rfl
      · exact absurd hr hnot
    | ub => exact absurd hr hub
    | throws => exact absurd hr hm.2.2

/-- **C56 is false**: from `/home/user`, asking about the path `/home` is undefined behaviour. -/
theorem C56_false : ¬ ∀ (root : List String) (path : Path), Plain root →
    inRoot (directory root) path = Res.ok (decide (root <+: place root path)) := by
  intro h
  have := h ["home", "user"] ⟨true, ["home"], false⟩ (by unfold Plain; decide)
  revert this
  decide +kernel

/-- The root must be as `std::filesystem::current_path` gives it: a slash at its end makes the answer wrong. -/
theorem C56_trailing_slash_false : inRoot ⟨true, ["home", "user"], true⟩ ⟨false, ["output"], false⟩ = Res.ok false := by
  decide +kernel

/-- Non-trivial cases: inside, via a detour; outside. -/
example : inRoot (directory ["home", "user"]) ⟨false, ["..", "user", ".", "output", "x.csv"], false⟩ = Res.ok true :=
  (C56_accepted _ _ (by unfold Plain; decide)).mpr (by decide +kernel)

example : inRoot (directory ["home", "user"]) ⟨false, ["..", "x.csv"], false⟩ = Res.ok false :=
  (C56_exact_partial _ _ (by unfold Plain; decide) (by decide +kernel)).trans (by decide +kernel)

end Verif.Files.Root
