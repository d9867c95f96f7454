import Mathlib.Logic.Basic

/-!
# C52: which calls of `transparent_umap` with other types than `Key` compile

A model of the overloads of include/itlib/transparent_umap.hpp at the level of types. Types are class types `cls n`,
references to them, and the types that the declarations mention. What the program's types are like is a `World`: which of
them have a member `is_transparent`, and which conversions exist (`std::is_convertible`).

Not modelled: errors in the bodies of functions but the one that every instance has (the overload with a hint), and
deduction from braced lists.
-/
namespace Itlib.UMap.Types

inductive Ty where
  | cls (n : Nat)
  | ref (n : Nat)
  | iterator
  | constIterator
  | pair
deriving DecidableEq

/-- an argument of a call: an lvalue or an rvalue of a class type -/
structure Arg where
  ty : Nat
  lvalue : Bool

/-- The types of a program, for one map. -/
structure World where
  /-- the type has a member type `is_transparent` -/
  member : Nat → Bool
  /-- `std::is_convertible<a, b>` -/
  conv : Ty → Ty → Bool
  /-- the key type of the map, its hash and its equality -/
  key : Nat
  hash : Nat
  equal : Nat
  /-- `Key` can be constructed (explicitly) from this type -/
  constructs : Nat → Bool
  /-- facts of the language: an iterator is not converted to a pair -/
  iterPair : conv .iterator .pair = false

variable (w : World)

/-- the type of an argument as an operand -/
def Arg.type (a : Arg) : Ty := if a.lvalue then .ref a.ty else .cls a.ty

/-- `template <typename K> f(K&&)`: the type deduced for `K` -/
def deduceForward (a : Arg) : Ty := if a.lvalue then .ref a.ty else .cls a.ty

/-- `template <typename K> f(const K&)` -/
def deduceConst (a : Arg) : Ty := .cls a.ty

/-- transparent_umap.hpp:60-63, `is_transparent<T>`: whether `typename T::is_transparent` is well-formed; it never is if
`T` is a reference type -/
def isTransparent : Ty → Bool
  | .cls n => w.member n
  | _ => false

/-- transparent_umap.hpp:85-86, `enable_if_tr` -/
def enableTr (K : Ty) : Bool := isTransparent w K

/-- transparent_umap.hpp:89-97, `enable_if_tr_c` -/
def enableTrC (K : Ty) : Bool :=
  isTransparent w K && w.conv (.cls w.key) K && !w.conv K .iterator && !w.conv K .constIterator

/-- the overloads of the base (transparent_umap.hpp:99, 116, 123), which take a `Key` -/
def baseViable (a : Arg) : Bool := w.conv a.type (.cls w.key)

/-- transparent_umap.hpp:102, `m.try_emplace(a, ...)` compiles -/
def tryEmplaceOk (a : Arg) : Bool := baseViable w a || enableTrC w (deduceForward a)

/-- transparent_umap.hpp:119, `m[a]` compiles -/
def indexOk (a : Arg) : Bool := baseViable w a || enableTrC w (deduceForward a)

/-- transparent_umap.hpp:126, 133, `m.at(a)` compiles -/
def atOk (a : Arg) : Bool := baseViable w a || enableTr w (deduceConst a)

/-- transparent_umap.hpp:109-114, `try_emplace` with a hint: the overload is chosen, and the expression that it returns can
be converted to the type of the result -/
def hintOk (a : Arg) : Bool := enableTr w (deduceForward a) && w.conv .iterator .pair

/-! ## Specification -/

/-- what users of a transparent map may do: hash and equality are transparent, and `Key` can be made from the argument -/
def mayProbe (a : Arg) : Prop := w.member w.hash = true ∧ w.member w.equal = true ∧ w.constructs a.ty = true

/-- **C52, where it fails.** For no argument that is an lvalue, unless it converts to `Key` anyway, `try_emplace` and `[]`
compile. This is so for every map, whether its hash and equality are transparent or not. -/
theorem C52_lvalue_defect (a : Arg) (hl : a.lvalue = true) (hk : w.conv a.type (.cls w.key) = false) :
    tryEmplaceOk w a = false ∧ indexOk w a = false := by
  simp [tryEmplaceOk, indexOk, baseViable, hk, enableTrC, deduceForward, hl, isTransparent]

/-- **C52, where it fails.** For no argument whose own type does not have a member `is_transparent`, such as
`std::string_view`, unless it converts to `Key` anyway, any of the calls compiles. -/
theorem C52_member_defect (a : Arg) (hm : w.member a.ty = false) (hk : w.conv a.type (.cls w.key) = false) :
    tryEmplaceOk w a = false ∧ indexOk w a = false ∧ atOk w a = false := by
  cases hl : a.lvalue <;>
  simp [tryEmplaceOk, indexOk, atOk, enableTr, deduceConst, baseViable, hk, enableTrC, deduceForward, hl, isTransparent, hm]

/-- **C52, where it fails.** Whether calls compile does not depend on the hash and the equality of the map. -/
theorem C52_hash_irrelevant_defect (a : Arg) (h e : Nat) :
    tryEmplaceOk { w with hash := h, equal := e } a = tryEmplaceOk w a ∧
    indexOk { w with hash := h, equal := e } a = indexOk w a ∧ atOk { w with hash := h, equal := e } a = atOk w a := by
  refine ⟨?_, ?_, ?_⟩ <;> rcases a with ⟨_, _ | _⟩ <;> rfl

/-- **C52, where it fails.** `try_emplace` with a hint never compiles. -/
theorem C52_hint_defect (a : Arg) : hintOk w a = false := by simp [hintOk, w.iterPair]

/-- **C52, in part.** The calls that compile: with arguments that convert to `Key`, and those with rvalues of a type that
has itself a member `is_transparent` and to which `Key` (not: from which) converts. Missing: that these are all that the
transparency of the map allows; they are not (the theorems above). -/
theorem C52_calls_partial (a : Arg) :
    (tryEmplaceOk w a = true ↔ w.conv a.type (.cls w.key) = true ∨
      a.lvalue = false ∧ w.member a.ty = true ∧ w.conv (.cls w.key) (.cls a.ty) = true ∧
        w.conv (.cls a.ty) .iterator = false ∧ w.conv (.cls a.ty) .constIterator = false) ∧
    (indexOk w a = true ↔ tryEmplaceOk w a = true) ∧
    (atOk w a = true ↔ w.conv a.type (.cls w.key) = true ∨ w.member a.ty = true) := by
  refine ⟨?_, Iff.rfl, ?_⟩
  · cases hl : a.lvalue <;>
    simp [tryEmplaceOk, baseViable, enableTrC, deduceForward, hl, isTransparent, and_assoc]
  · simp [atOk, baseViable, enableTr, deduceConst, isTransparent]

/-! ### A concrete case: `std::string` (0), `std::string_view` (1), a transparent hash (2) and equality (3). A string
converts to a view, a view must be converted to a string explicitly. -/

def strings : World where
  member n := n == 2 || n == 3
  conv a b := a = b || (a = .cls 0 || a = .ref 0) && (b = .cls 0 || b = .cls 1) || a = .ref 1 && b = .cls 1
  key := 0
  hash := 2
  equal := 3
  constructs n := n ≤ 1
  iterPair := by decide

example : mayProbe strings ⟨1, false⟩ ∧ strings.member 1 = false ∧ strings.conv (Arg.type ⟨1, false⟩) (.cls strings.key) = false := by
  simp [mayProbe, strings, Arg.type]

example : mayProbe strings ⟨1, true⟩ ∧ strings.conv (Arg.type ⟨1, true⟩) (.cls strings.key) = false := by
  simp [mayProbe, strings, Arg.type]

/-- so `m.at(view)` does not compile, although the map is transparent -/
example : atOk strings ⟨1, true⟩ = false := by decide
/-- and with a string everything does -/
example : atOk strings ⟨0, true⟩ = true ∧ tryEmplaceOk strings ⟨0, false⟩ = true := by decide

end Itlib.UMap.Types
