import Verif.Core.Outcome
import Verif.Core.Elem

/-!
# Specification of `static_vector`: a list with a bound on its length

Nothing here refers to the model. `Op` is the user-visible interface (positions are offsets from `begin()`).
-/
namespace Itlib.StaticVector
open Itlib

/-- Calls of member functions, and accesses through what they return. -/
inductive Op (α : Type) where
  | pushBack (v : Arg α)
  | emplaceBack (v : Arg α)
  | popBack
  | insert (pos : Nat) (v : Arg α)
  | insertN (pos n : Nat) (v : Arg α)
  | insertRange (pos : Nat) (xs : List α)
  | erase (pos : Nat)
  | eraseRange (first last : Nat)
  | clear
  | resize (n : Nat)
  | resizeV (n : Nat) (v : Arg α)
  | assignN (n : Nat) (v : Arg α)
  | assignRange (xs : List α)
  /-- `v[i] = a`, also through an iterator or `front()`, `back()`, `data()` -/
  | set (i : Nat) (v : Arg α)
  /-- `v[i] = std::move(v[j])` -/
  | moveElem (i j : Nat)
  /-- the value of `v[i]`, `v.at(i)`, `v.begin()[i]`, `v.data()[i]` -/
  | get (i : Nat)
  | front
  | back
  | size
  | isEmpty
  | capacity
  /-- `for (auto& x : v)` -/
  | forward
  /-- a loop from `rbegin()` to `rend()` -/
  | backward

/-- What the caller sees of a call. -/
inductive Reply (α : Type) where
  /-- returned nothing -/
  | done
  /-- returned an iterator/reference to position `i` -/
  | at (i : Nat)
  /-- left by an exception -/
  | exc (e : Exc)
  /-- a value read -/
  | elem (a : α)
  | num (n : Nat)
  | bool (b : Bool)
  /-- values read one after the other -/
  | elems (xs : List α)
  deriving DecidableEq, Repr

namespace Spec
variable {α : Type}

/-- The value an argument denotes at the time of the call. -/
def argVal (xs : List α) : Arg α → Option α
  | .val a => some a
  | .self i => xs[i]?

/-- The sequence after a call, and what the caller sees; `none` if the call violates a precondition of the function
(bad iterator, dangling reference). Exceeding the capacity, or removing more than there is, is rejected by
`out_of_range` with no effect. -/
def step (cap : Nat) (E : Elem α) (op : Op α) (xs : List α) : Option (Reply α × List α) :=
  match op with
  | .pushBack v => do
    let a ← argVal xs v
    if xs.length < cap then some (.done, xs ++ [a]) else some (.exc .outOfRange, xs)
  | .emplaceBack v => do
    let a ← argVal xs v
    if xs.length < cap then some (.at xs.length, xs ++ [a]) else some (.exc .outOfRange, xs)
  | .popBack =>
    if xs = [] then some (.exc .outOfRange, xs) else some (.done, xs.dropLast)
  | .insert pos v => do
    let a ← argVal xs v
    if pos ≤ xs.length then
      if xs.length < cap then some (.at pos, xs.take pos ++ [a] ++ xs.drop pos) else some (.exc .outOfRange, xs)
    else none
  | .insertN pos n v => do
    let a ← argVal xs v
    if pos ≤ xs.length then
      if xs.length + n ≤ cap then some (.at pos, xs.take pos ++ List.replicate n a ++ xs.drop pos)
      else some (.exc .outOfRange, xs)
    else none
  | .insertRange pos ys =>
    if pos ≤ xs.length then
      if xs.length + ys.length ≤ cap then some (.at pos, xs.take pos ++ ys ++ xs.drop pos)
      else some (.exc .outOfRange, xs)
    else none
  | .erase pos =>
    if pos < xs.length then some (.at pos, xs.take pos ++ xs.drop (pos + 1)) else none
  | .eraseRange first last =>
    if first ≤ last ∧ last ≤ xs.length then some (.at first, xs.take first ++ xs.drop last) else none
  | .clear => some (.done, [])
  | .resize n =>
    if n ≤ cap then some (.done, xs.take n ++ List.replicate (n - xs.length) E.dflt)
    else some (.exc .outOfRange, xs)
  | .resizeV n v => do
    let a ← argVal xs v
    if n ≤ cap then some (.done, xs.take n ++ List.replicate (n - xs.length) a)
    else some (.exc .outOfRange, xs)
  | .assignN n v => do
    let a ← argVal xs v
    if n ≤ cap then some (.done, List.replicate n a) else some (.exc .outOfRange, xs)
  | .assignRange ys =>
    if ys.length ≤ cap then some (.done, ys) else some (.exc .outOfRange, xs)
  | .set i v => do
    let a ← argVal xs v
    if i < xs.length then some (.done, xs.set i a) else none
  | .moveElem i j => do
    -- `E.mv` is what moving leaves behind
    let a ← xs[j]?
    if i < xs.length ∧ i ≠ j then some (.done, (xs.set i a).set j (E.mv a)) else none
  | .get i => do
    let a ← xs[i]?
    some (.elem a, xs)
  | .front => do
    let a ← xs.head?
    some (.elem a, xs)
  | .back => do
    let a ← xs.getLast?
    some (.elem a, xs)
  | .size => some (.num xs.length, xs)
  | .isEmpty => some (.bool xs.isEmpty, xs)
  | .capacity => some (.num cap, xs)
  | .forward => some (.elems xs, xs)
  | .backward => some (.elems xs.reverse, xs)

/-! #### Guards

`step` above is what one expects of a sequence container (the requirements of `std::vector`). The code departs from it in
the following cases, which the guard excludes and for which `Props.lean` proves that they do go wrong. -/

/-- The argument does not refer to an element of the vector at or after `pos`. -/
def Stable (pos : Nat) : Arg α → Prop
  | .val _ => True
  | .self i => i < pos

/-- Calls on which the code meets `step`. -/
def Safe (cap : Nat) (op : Op α) (xs : List α) : Prop :=
  match op with
  -- inserting a copy of an element that the insertion itself displaces
  | .insert pos v => xs.length < cap → Stable pos v
  -- ditto; the sum `size() + count` must not exceed `2^64 - 1`
  | .insertN pos n v => xs.length + n < 2 ^ 64 ∧ (n = 0 ∨ cap < xs.length + n ∨ Stable pos v)
  | .insertRange _ ys => xs.length + ys.length < 2 ^ 64
  -- erasing the empty range [first, first) at a position other than the end
  | .eraseRange first last => first < last ∨ first = xs.length
  -- assigning more than the capacity loses the old contents; the value must not be an element of the vector
  | .assignN n v => n ≤ cap ∧ (n = 0 ∨ ∃ a, v = .val a)
  | .assignRange ys => ys.length ≤ cap
  | _ => True

/-- All calls of a history are safe at the time they are made. -/
def SafeRun (cap : Nat) (E : Elem α) : List (Op α) → List α → Prop
  | [], _ => True
  | op :: ops, xs => Safe cap op xs ∧
    match step cap E op xs with
    | some (_, xs') => SafeRun cap E ops xs'
    | none => False

/-- A history of calls, the caller catching all exceptions. -/
def run (cap : Nat) (E : Elem α) : List (Op α) → List α → Option (List (Reply α) × List α)
  | [], xs => some ([], xs)
  | op :: ops, xs => do
    let (r, xs) ← step cap E op xs
    let (rs, xs) ← run cap E ops xs
    some (r :: rs, xs)

end Spec
end Itlib.StaticVector

/-! ### Several vectors -/
namespace Itlib.StaticVector
open Itlib

/-- Calls in a program with several vectors, named by numbers. -/
inductive MOp (α : Type) where
  /-- `static_vector<T, cap> vi;` -/
  | ctor (i cap : Nat)
  /-- `static_vector<T, cap> vi(count);` -/
  | ctorCount (i cap count : Nat)
  /-- `static_vector<T, cap> vi(count, a);` -/
  | ctorVal (i cap count : Nat) (a : α)
  /-- `static_vector<T, cap> vi(first, last);` -/
  | ctorRange (i cap : Nat) (xs : List α)
  /-- `static_vector<T, cap> vi(vj);` (`vj` may have another capacity) -/
  | copyCtor (i cap j : Nat)
  /-- `static_vector<T, cap> vi(std::move(vj));` -/
  | moveCtor (i j : Nat)
  /-- `vi = vj;` -/
  | copyAssign (i j : Nat)
  /-- `vi = std::move(vj);` -/
  | moveAssign (i j : Nat)
  /-- `vi.swap(vj);` -/
  | swap (i j : Nat)
  /-- end of the lifetime of `vi` -/
  | dtor (i : Nat)
  /-- call of a member function -/
  | call (i : Nat) (op : Op α)

namespace Spec
variable {α : Type}

/-- capacities and contents of all existing vectors -/
abbrev Sys (α : Type) := Nat → Option (Nat × List α)

/-- the same system with a change at `i` -/
def Sys.put (y : Sys α) (i : Nat) (v : Option (Nat × List α)) : Sys α := fun j => if j = i then v else y j

/-- Effect of a call on all vectors; `none` if a precondition is violated (using a vector that does not exist, creating
one that does, mixing types). Constructors that do not fit the capacity throw and create nothing. -/
def mstep (E : Elem α) (op : MOp α) (y : Sys α) : Option (Reply α × Sys α) :=
  let create (i cap : Nat) (xs : List α) : Option (Reply α × Sys α) :=
    if (y i).isSome then none
    else if xs.length ≤ cap then some (.done, y.put i (some (cap, xs)))
    else some (.exc .outOfRange, y)
  match op with
  | .ctor i cap => create i cap []
  | .ctorCount i cap count => create i cap (List.replicate count E.dflt)
  | .ctorVal i cap count a => create i cap (List.replicate count a)
  | .ctorRange i cap xs => create i cap xs
  | .copyCtor i cap j => do
    let (_, ys) ← y j
    create i cap ys
  | .moveCtor i j => do
    let (cap, ys) ← y j
    if (y i).isSome then none
    else some (.done, (y.put i (some (cap, ys))).put j (some (cap, [])))
  | .copyAssign i j => do
    let (cap, _) ← y i
    let (capj, ys) ← y j
    if cap = capj then some (.done, y.put i (some (cap, ys))) else none
  | .moveAssign i j => do
    let (cap, _) ← y i
    let (capj, ys) ← y j
    if cap = capj then
      if i = j then some (.done, y)
      else some (.done, (y.put i (some (cap, ys))).put j (some (cap, [])))
    else none
  | .swap i j => do
    let (cap, xs) ← y i
    let (capj, ys) ← y j
    if cap = capj then some (.done, (y.put i (some (cap, ys))).put j (some (cap, xs))) else none
  | .dtor i => do
    let _ ← y i
    some (.done, y.put i none)
  | .call i op => do
    let (cap, xs) ← y i
    let (r, xs) ← step cap E op xs
    some (r, y.put i (some (cap, xs)))

/-- The calls excluded for several vectors: unsafe member calls, and moving a vector into itself (which empties it).
A capacity is below `2^63` (no object can be larger than that). -/
def MSafe (op : MOp α) (y : Sys α) : Prop :=
  match op with
  | .ctor _ cap => cap < 2 ^ 63
  | .ctorCount _ cap _ => cap < 2 ^ 63
  | .ctorVal _ cap _ _ => cap < 2 ^ 63
  | .ctorRange _ cap _ => cap < 2 ^ 63
  | .copyCtor _ cap _ => cap < 2 ^ 63
  | .moveAssign i j => i ≠ j
  | .call i op => ∀ cap xs, y i = some (cap, xs) → Safe cap op xs
  | _ => True

/-- All calls of a history are safe at the time they are made. -/
def MSafeRun (E : Elem α) : List (MOp α) → Sys α → Prop
  | [], _ => True
  | op :: ops, y => MSafe op y ∧
    match mstep E op y with
    | some (_, y') => MSafeRun E ops y'
    | none => False

/-- A history of calls, the caller catching all exceptions. -/
def mrun (E : Elem α) : List (MOp α) → Sys α → Option (List (Reply α) × Sys α)
  | [], y => some ([], y)
  | op :: ops, y => do
    let (r, y) ← mstep E op y
    let (rs, y) ← mrun E ops y
    some (r :: rs, y)

end Spec
end Itlib.StaticVector
