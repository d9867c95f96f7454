import Verif.Core.Outcome
import Verif.Core.Elem

/-!
# Specification of `small_vector`

A vector is a list, and a home: the static buffer, or a heap buffer of some capacity. Nothing here refers to the model.
`Op` is the user-visible interface; positions are offsets from `begin()` and may be out of range.
-/
namespace Itlib.SmallVector
open Itlib

/-- Calls of member functions, and accesses through what they return. -/
inductive Op (α : Type) where
  | pushBack (v : Arg α)
  | emplaceBack (v : Arg α)
  | popBack
  | insert (pos : Int) (v : Arg α)
  | insertN (pos : Int) (n : Nat) (v : Arg α)
  | insertRange (pos : Int) (xs : List α)
  | erase (pos : Int)
  | eraseRange (first last : Int)
  | clear
  | resize (n : Nat)
  | resizeV (n : Nat) (v : Arg α)
  | assignN (n : Nat) (v : Arg α)
  | assignRange (xs : List α)
  | reserve (n : Nat)
  | shrinkToFit
  | revertToStatic
  | get (i : Nat)
  | getBack
  | front
  /-- `v[i] = a`, also through an iterator or `front()`, `back()`, `data()` -/
  | set (i : Nat) (v : Arg α)
  /-- `v[i] = std::move(v[j])` -/
  | moveElem (i j : Nat)
  | isEmpty
  /-- `for (auto& x : v)` -/
  | forward
  /-- a loop from `rbegin()` to `rend()` -/
  | backward
  | size
  | capacity
  | isStatic

/-- What the caller sees of a call. -/
inductive Reply (α : Type) where
  /-- returned nothing -/
  | done
  /-- returned an iterator/reference to position `i` -/
  | at (i : Nat)
  | elem (a : α)
  | num (n : Nat)
  | bool (b : Bool)
  /-- values read one after the other -/
  | elems (xs : List α)
  /-- left by an exception -/
  | exc (e : Exc)
  deriving DecidableEq, Repr

namespace Spec
variable {α : Type}

/-- Where the elements are. -/
inductive Home where
  | stat
  | dyn (cap : Nat)
  deriving DecidableEq, Repr

/-- capacity, `N` being that of the static buffer -/
def Home.cap (N : Nat) : Home → Nat
  | .stat => N
  | .dyn c => c

/-- The first of `c`, `⌈3c/2⌉`, … (rounded) which is at least `d`: growth by a factor of 1.5. At most `f` steps. -/
def growTo (d : Nat) : Nat → Nat → Nat
  | 0, c => c
  | f+1, c => if d ≤ c then c else growTo d f ((3 * c + 1) / 2)

/-- The policy of the container for a wanted size `d`: elements stay where they are if they fit, unless they are on the
heap and the wanted size is below `R`; leaving the static buffer allocates exactly the wanted capacity. -/
def choose (N R d : Nat) : Home → Home
  | .stat => if d ≤ N then .stat else .dyn d
  | .dyn c => if d ≤ c then (if d < R then .stat else .dyn c) else .dyn (growTo d d c)

/-- Does `choose` move the elements? -/
def moves (N R d : Nat) : Home → Prop
  | .stat => N < d
  | .dyn c => c < d ∨ d < R

instance (N R d : Nat) (h : Home) : Decidable (moves N R d h) := by
  cases h <;> simp only [moves] <;> infer_instance

/-- The value an argument denotes at the time of the call. -/
def argVal (xs : List α) : Arg α → Option α
  | .val a => some a
  | .self i => xs[i]?

/-- home after making room for `d` elements without ever going back to the static buffer (`reserve`, `resize`) -/
def reserved (N R d : Nat) (h : Home) : Home := if d ≤ h.cap N then h else choose N R d h

/-- Effect of a call on the home and the list, and what the caller sees; `none` if the call violates a precondition
(reading out of range, dangling reference). Positions out of range are rejected by `out_of_range` with no effect. -/
def step (N R : Nat) (E : Elem α) (op : Op α) (h : Home) (xs : List α) : Option (Reply α × Home × List α) :=
  let reject : Option (Reply α × Home × List α) := some (.exc .outOfRange, h, xs)
  let insert (pos : Int) (ys : List α) : Option (Reply α × Home × List α) :=
    if 0 ≤ pos ∧ pos ≤ xs.length then
      some (.at pos.toNat, choose N R (xs.length + ys.length) h, xs.take pos.toNat ++ ys ++ xs.drop pos.toNat)
    else reject
  let erase (first last : Int) : Option (Reply α × Home × List α) :=
    if 0 ≤ first ∧ first ≤ last ∧ last ≤ xs.length then
      let xs' := xs.take first.toNat ++ xs.drop last.toNat
      some (.at first.toNat,
        if xs' = [] then (if 0 < R then .stat else h) else choose N R xs'.length h, xs')
    else reject
  match op with
  | .pushBack v => do
    let a ← argVal xs v
    some (.done, choose N R (xs.length + 1) h, xs ++ [a])
  | .emplaceBack v => do
    let a ← argVal xs v
    some (.at xs.length, choose N R (xs.length + 1) h, xs ++ [a])
  | .popBack => do
    let (r, h', xs') ← erase (xs.length - 1 : Int) xs.length
    some (if xs = [] then r else .done, h', xs')
  | .insert pos v => do
    let a ← argVal xs v
    insert pos [a]
  | .insertN pos n v => do
    let a ← argVal xs v
    insert pos (List.replicate n a)
  | .insertRange pos ys => insert pos ys
  | .erase pos => erase pos (pos + 1)
  | .eraseRange first last => erase first last
  | .clear => some (.done, if 0 < R then .stat else h, [])
  | .resize n => some (.done, reserved N R n h, xs.take n ++ List.replicate (n - xs.length) E.dflt)
  | .resizeV n v => do
    let a ← argVal xs v
    some (.done, reserved N R n h, xs.take n ++ List.replicate (n - xs.length) a)
  | .assignN n v => do
    let a ← argVal xs v
    some (.done, choose N R n h, List.replicate n a)
  | .assignRange ys => some (.done, choose N R ys.length h, ys)
  | .reserve n => some (.done, reserved N R n h, xs)
  | .shrinkToFit =>
    match h with
    | .stat => some (.bool false, h, xs)
    | .dyn c =>
      if xs.length ≤ N then some (.bool true, .stat, xs)
      else if xs.length = c then some (.bool false, h, xs)
      else some (.bool true, .dyn xs.length, xs)
  | .revertToStatic =>
    if h = .stat ∨ xs.length ≤ N then some (.bool true, .stat, xs) else some (.bool false, h, xs)
  | .get i => do
    let a ← xs[i]?
    some (.elem a, h, xs)
  | .getBack => do
    let a ← xs.getLast?
    some (.elem a, h, xs)
  | .front => do
    let a ← xs.head?
    some (.elem a, h, xs)
  | .set i v => do
    let a ← argVal xs v
    if i < xs.length then some (.done, h, xs.set i a) else none
  | .moveElem i j => do
    -- `E.mv` is what moving leaves behind
    let a ← xs[j]?
    if i < xs.length ∧ i ≠ j then some (.done, h, (xs.set i a).set j (E.mv a)) else none
  | .isEmpty => some (.bool xs.isEmpty, h, xs)
  | .forward => some (.elems xs, h, xs)
  | .backward => some (.elems xs.reverse, h, xs)
  | .size => some (.num xs.length, h, xs)
  | .capacity => some (.num (h.cap N), h, xs)
  | .isStatic => some (.bool (h = .stat), h, xs)

/-! #### Guards

The code departs from `step` in the following cases, which the guard excludes and for which `Props.lean` proves that they
do go wrong. -/

/-- An argument that refers to an element of the vector needs the elements to stay in their buffer, and the element
itself to stay in place. -/
def Stable (N R d : Nat) (h : Home) (pos : Int) : Arg α → Prop
  | .val _ => True
  | .self i => ¬ moves N R d h ∧ (i : Int) < pos

/-- Calls on which the code meets `step`. -/
def Safe (N R : Nat) (op : Op α) (h : Home) (xs : List α) : Prop :=
  match op with
  -- adding a copy of an own element when this needs another buffer
  | .pushBack v | .emplaceBack v => Stable N R (xs.length + 1) h xs.length v
  -- ditto, or of an element at or after the insertion position
  | .insert pos v => (0 ≤ pos ∧ pos ≤ xs.length) → Stable N R (xs.length + 1) h pos v
  -- ditto; inserting nothing in the middle
  | .insertN pos n v => (0 ≤ pos ∧ pos ≤ xs.length) →
    if n = 0 then pos = xs.length ∨ moves N R xs.length h else Stable N R (xs.length + n) h pos v
  | .insertRange pos ys => (0 ≤ pos ∧ pos ≤ xs.length) → ys = [] → pos = xs.length ∨ moves N R xs.length h
  -- erasing an empty range in the middle
  | .eraseRange first last => (0 ≤ first ∧ first ≤ last ∧ last ≤ xs.length) → first = last →
    first = xs.length ∨ moves N R xs.length h
  | .resizeV n v => n ≤ h.cap N ∨ ∃ a, v = .val a
  | .assignN n v => n = 0 ∨ ∃ a, v = .val a
  -- a heap vector of exactly `N` elements is not brought back to the static buffer
  | .shrinkToFit | .revertToStatic => h = .stat ∨ xs.length ≠ N
  | _ => True

/-- All calls of a history are safe at the time they are made. -/
def SafeRun (N R : Nat) (E : Elem α) : List (Op α) → Home → List α → Prop
  | [], _, _ => True
  | op :: ops, h, xs => Safe N R op h xs ∧
    match step N R E op h xs with
    | some (_, h', xs') => SafeRun N R E ops h' xs'
    | none => False

/-- A history of calls, the caller catching all exceptions. -/
def run (N R : Nat) (E : Elem α) : List (Op α) → Home → List α → Option (List (Reply α) × Home × List α)
  | [], h, xs => some ([], h, xs)
  | op :: ops, h, xs => do
    let (r, h, xs) ← step N R E op h xs
    let (rs, h, xs) ← run N R E ops h xs
    some (r :: rs, h, xs)

end Spec

/-! ### Several vectors -/

/-- Calls in a program with several vectors of one type, named by numbers; `al` is an allocator. -/
inductive MOp (α : Type) where
  | ctor (i al : Nat)
  | ctorCount (i al n : Nat)
  | ctorVal (i al n : Nat) (a : α)
  | ctorRange (i al : Nat) (xs : List α)
  | copyCtor (i al j : Nat)
  | moveCtor (i j : Nat)
  | copyAssign (i j : Nat)
  | moveAssign (i j : Nat)
  | dtor (i : Nat)
  | call (i : Nat) (op : Op α)

namespace Spec
variable {α : Type}

/-- one vector: its allocator, home and elements -/
structure V (α : Type) where
  al : Nat
  home : Home
  xs : List α
  deriving DecidableEq

/-- all existing vectors -/
abbrev Sys (α : Type) := Nat → Option (V α)

/-- the same system with a change at `i` -/
def Sys.put (y : Sys α) (i : Nat) (v : Option (V α)) : Sys α := fun j => if j = i then v else y j

/-- Effect of a call on all vectors; `none` if a precondition is violated (using a vector that does not exist, creating
one that does). -/
def mstep (N R : Nat) (E : Elem α) (op : MOp α) (y : Sys α) : Option (Reply α × Sys α) :=
  let create (i al : Nat) (xs : List α) : Option (Reply α × Sys α) :=
    if (y i).isSome then none else some (.done, y.put i (some ⟨al, choose N R xs.length .stat, xs⟩))
  match op with
  | .ctor i al => create i al []
  | .ctorCount i al n => create i al (List.replicate n E.dflt)
  | .ctorVal i al n a => create i al (List.replicate n a)
  | .ctorRange i al xs => create i al xs
  | .copyCtor i al j => do
    let w ← y j
    create i al w.xs
  | .moveCtor i j => do
    let w ← y j
    if (y i).isSome then none
    else some (.done, (y.put i (some w)).put j (some ⟨w.al, .stat, []⟩))
  | .copyAssign i j => do
    let v ← y i
    let w ← y j
    if i = j then some (.done, y)
    else some (.done, y.put i (some ⟨v.al, choose N R w.xs.length v.home, w.xs⟩))
  | .moveAssign i j => do
    let _ ← y i
    let w ← y j
    if i = j then some (.done, y)
    else some (.done, (y.put i (some w)).put j (some ⟨w.al, .stat, []⟩))
  | .dtor i => do
    let _ ← y i
    some (.done, y.put i none)
  | .call i op => do
    let v ← y i
    let (r, h, xs) ← step N R E op v.home v.xs
    some (r, y.put i (some ⟨v.al, h, xs⟩))

/-- The calls excluded for several vectors: unsafe member calls. -/
def MSafe (N R : Nat) (op : MOp α) (y : Sys α) : Prop :=
  match op with
  | .call i op => ∀ v, y i = some v → Safe N R op v.home v.xs
  | _ => True

/-- All calls of a history are safe at the time they are made. -/
def MSafeRun (N R : Nat) (E : Elem α) : List (MOp α) → Sys α → Prop
  | [], _ => True
  | op :: ops, y => MSafe N R op y ∧
    match mstep N R E op y with
    | some (_, y') => MSafeRun N R E ops y'
    | none => False

/-- A history of calls, the caller catching all exceptions. -/
def mrun (N R : Nat) (E : Elem α) : List (MOp α) → Sys α → Option (List (Reply α) × Sys α)
  | [], y => some ([], y)
  | op :: ops, y => do
    let (r, y) ← mstep N R E op y
    let (rs, y) ← mrun N R E ops y
    some (r :: rs, y)

end Spec
end Itlib.SmallVector
