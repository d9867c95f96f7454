import Verif.Core.Outcome

/-!
# Model of `itlib::flat_map` and `itlib::flat_set` (include/itlib/flat_map.hpp, include/itlib/flat_set.hpp)

The two classes have the same members up to the projection of an element to its key: an element `e : ε` has the key
`key e : κ`; for `flat_map` `ε = κ × τ` and `key = Prod.fst` (`pair_compare`, flat_map.hpp:124-133), for `flat_set`
`ε = κ` and `key = id`.

Simplifications:
* The underlying container is a sequence (`List`), iterators are offsets from `begin()`. Its `emplace` throws
  `out_of_range` without any effect when a capacity `cap` is given and reached (`static_vector`), never otherwise
  (`std::vector`). Exceptions of element copies, comparisons and allocation are not modelled.
* `std::lower_bound`, `std::upper_bound`, `std::equal_range` are the usual halving algorithms (as in libstdc++);
  `std::unique` keeps the first element of each group of adjacent equivalents; `std::sort` is a parameter: any
  permutation ordered by the comparison.
* A comparison object is a function `κ → κ → Bool` and is part of the container object.
-/
namespace Itlib.Flat
open Itlib

/-- What the lookup functions see of an argument `k` of any type `K`: `below a` is `comp(a, k)`, `above a` is
`comp(k, a)` (flat_map.hpp:131-132). -/
structure Probe (κ : Type) where
  below : κ → Bool
  above : κ → Bool

/-- the probe that is a key itself -/
def Probe.ofKey {κ : Type} (lt : κ → κ → Bool) (k : κ) : Probe κ := ⟨fun a => lt a k, fun a => lt k a⟩

/-- A `flat_map`/`flat_set` object: the comparison (a base class) and `m_container` (flat_map.hpp:137-139,
flat_set.hpp:104-106). -/
structure Flat (κ ε : Type) where
  lt : κ → κ → Bool
  cs : List ε

variable {κ ε : Type} (key : ε → κ) (cap : Option Nat)

/-- The loop of `std::lower_bound` on `[first, first + len)`, with the comparison counted. `none`: an element out of the
sequence is read. -/
def boundLoop (p : ε → Bool) (xs : List ε) (first len cmps : Nat) : Option (Nat × Nat) :=
  if len = 0 then some (first, cmps)
  else
    match xs[first + len / 2]? with
    | none => none
    | some e =>
      if p e then boundLoop p xs (first + len / 2 + 1) (len - len / 2 - 1) (cmps + 1)
      else boundLoop p xs first (len / 2) (cmps + 1)
termination_by len
decreasing_by all_goals omega

/-- `lower_bound` (flat_map.hpp:223-233, flat_set.hpp:191-201), with the number of comparisons -/
def lowerBoundC (k : Probe κ) (xs : List ε) : Option (Nat × Nat) :=
  boundLoop (fun e => k.below (key e)) xs 0 xs.length 0

/-- `upper_bound` (flat_map.hpp:235-245, flat_set.hpp:203-213): goes right unless `comp(k, *mid)` -/
def upperBoundC (k : Probe κ) (xs : List ε) : Option (Nat × Nat) :=
  boundLoop (fun e => !k.above (key e)) xs 0 xs.length 0

/-- The loop of `std::equal_range` -/
def equalLoop (k : Probe κ) (xs : List ε) (first len cmps : Nat) : Option ((Nat × Nat) × Nat) :=
  if len = 0 then some ((first, first), cmps)
  else
    match xs[first + len / 2]? with
    | none => none
    | some e =>
      if k.below (key e) then equalLoop k xs (first + len / 2 + 1) (len - len / 2 - 1) (cmps + 1)
      else if k.above (key e) then equalLoop k xs first (len / 2) (cmps + 2)
      else do
        let (l, c) ← boundLoop (fun e => k.below (key e)) xs first (len / 2) (cmps + 2)
        let (r, c) ← boundLoop (fun e => !k.above (key e)) xs (first + len / 2 + 1) (len - len / 2 - 1) c
        some ((l, r), c)
termination_by len
decreasing_by all_goals omega

/-- `equal_range` (flat_map.hpp:247-257, flat_set.hpp:215-225) -/
def equalRangeC (k : Probe κ) (xs : List ε) : Option ((Nat × Nat) × Nat) :=
  equalLoop key k xs 0 xs.length 0

/-- `find` (flat_map.hpp:259-277, flat_set.hpp:227-245), with the number of comparisons -/
def findC (k : Probe κ) (xs : List ε) : Option (Nat × Nat) := do
  let (i, c) ← lowerBoundC key k xs
  if i ≠ xs.length then do
    let e ← xs[i]?
    if !k.above (key e) then some (i, c + 1) else some (xs.length, c + 1)
  else some (xs.length, c)

/-- `lower_bound` as a member function -/
def lowerBound (k : Probe κ) : M (Flat κ ε) Nat := .load fun s => (lowerBoundC key k s.cs).map Prod.fst
/-- `upper_bound` as a member function -/
def upperBound (k : Probe κ) : M (Flat κ ε) Nat := .load fun s => (upperBoundC key k s.cs).map Prod.fst
/-- `equal_range` as a member function -/
def equalRange (k : Probe κ) : M (Flat κ ε) (Nat × Nat) := .load fun s => (equalRangeC key k s.cs).map Prod.fst
/-- `find` as a member function -/
def find (k : Probe κ) : M (Flat κ ε) Nat := .load fun s => (findC key k s.cs).map Prod.fst

/-- `count` (flat_map.hpp:279-283, flat_set.hpp:247-251) -/
def count (k : Probe κ) : M (Flat κ ε) Nat := do
  let i ← find key k
  let s ← M.get
  pure (if i = s.cs.length then 0 else 1)

/-- dereferencing an iterator -/
def deref (i : Nat) : M (Flat κ ε) ε := .load fun s => s.cs[i]?

/-- `m_container.emplace(i, ...)` of the underlying container -/
def emplace (i : Nat) (e : ε) : M (Flat κ ε) Nat := do
  let s ← M.get
  if cap = some s.cs.length then .raise .outOfRange
  else do
    M.set { s with cs := s.cs.take i ++ e :: s.cs.drop i }
    pure i

/-- `m_container(begin, end)` with `n` elements throws `out_of_range` -/
def tooMany : Option Nat → Nat → Bool
  | none, _ => false
  | some c, n => decide (c < n)

/-- both `insert`s (flat_map.hpp:285-306, flat_set.hpp:253-274); `emplace` (flat_map.hpp:308-313, flat_set.hpp:276-281)
is `insert` of a temporary. `k` is `val.first` (resp. `val`) as seen by the comparison, `e` the element constructed from
`val`. -/
def insert (k : Probe κ) (e : ε) : M (Flat κ ε) (Nat × Bool) := do
  let i ← lowerBound key k
  let s ← M.get
  if i ≠ s.cs.length then do
    let x ← deref i
    if !k.above (key x) then pure (i, false)
    else do
      let j ← emplace cap i e
      pure (j, true)
  else do
    let j ← emplace cap i e
    pure (j, true)

/-- `erase(iterator)` (flat_map.hpp:315-323, flat_set.hpp:283-291); the iterator must be dereferenceable -/
def eraseAt (i : Nat) : M (Flat κ ε) Nat := do
  let s ← M.get
  if i < s.cs.length then do
    M.set { s with cs := s.cs.eraseIdx i }
    pure i
  else .undef

/-- `erase(const K&)` (flat_map.hpp:325-336, flat_set.hpp:293-304) -/
def eraseKey (k : Probe κ) : M (Flat κ ε) Nat := do
  let i ← find key k
  let s ← M.get
  if i = s.cs.length then pure 0
  else do
    let _ ← eraseAt (κ := κ) i
    pure 1

/-- `flat_map::operator[]` (flat_map.hpp:338-350): the iterator whose `second` is referenced. `e` is the pair
constructed by `emplace(i, std::forward<K>(k), mapped_type())`. -/
def index (k : Probe κ) (e : ε) : M (Flat κ ε) Nat := do
  let i ← lowerBound key k
  let s ← M.get
  if i ≠ s.cs.length then do
    let x ← deref i
    if !k.above (key x) then pure i
    else emplace cap i e
  else emplace cap i e

/-- `flat_map::at` (flat_map.hpp:352-372): the iterator whose `second` is referenced -/
def at_ (k : Probe κ) : M (Flat κ ε) Nat := do
  let i ← lowerBound key k
  let s ← M.get
  if i = s.cs.length then .raise .outOfRange
  else do
    let x ← deref i
    if k.above (key x) then .raise .outOfRange else pure i

/-- assignment through an iterator or reference, to the part of an element that is not its key -/
def update (i : Nat) (f : ε → ε) : M (Flat κ ε) Unit := do
  let x ← deref i
  M.modify fun s => { s with cs := s.cs.set i (f x) }

/-- `clear` (flat_map.hpp:221, flat_set.hpp:189) -/
def clear : M (Flat κ ε) Unit := M.modify fun s => { s with cs := [] }

/-- `std::unique` (as called in flat_map.hpp:173-175, flat_set.hpp:139-141): `x` is the last element kept -/
def uniqueLoop (eq : ε → ε → Bool) (x : ε) : List ε → List ε
  | [] => [x]
  | y :: ys => if eq x y then uniqueLoop eq x ys else x :: uniqueLoop eq y ys

/-- `std::unique` followed by `erase(new_end, end())` -/
def unique (eq : ε → ε → Bool) : List ε → List ε
  | [] => []
  | x :: xs => uniqueLoop eq x xs

/-- constructor from a container (flat_map.hpp:168-178, flat_set.hpp:134-144), to which those from initializer lists and
iterator ranges delegate (180-198 / 146-164). `sorted` is what `std::sort` makes of the container. -/
def ofContainer (lt : κ → κ → Bool) (sorted : List ε) : Flat κ ε :=
  ⟨lt, unique (fun a b => !lt (key a) (key b) && !lt (key b) (key a)) sorted⟩

/-- `operator==` of the containers: sizes, then elements from the front; `eqv` is the `operator==` of the elements -/
def eqCs (eqv : ε → ε → Bool) (xs ys : List ε) : Bool :=
  if xs.length ≠ ys.length then false else (List.zip xs ys).all fun p => eqv p.1 p.2

/-- `operator==` (flat_map.hpp:392-396, flat_set.hpp:324-328): that of the containers -/
def eqBy (eqv : ε → ε → Bool) (a b : Flat κ ε) : Bool := eqCs eqv a.cs b.cs
/-- `operator!=` (flat_map.hpp:398-402, flat_set.hpp:330-334): that of the containers -/
def neBy (eqv : ε → ε → Bool) (a b : Flat κ ε) : Bool := !eqCs eqv a.cs b.cs

/-- `operator==` where that of the elements is the identity of values -/
def eq [DecidableEq ε] (a b : Flat κ ε) : Bool := eqBy (fun x y => decide (x = y)) a b

end Itlib.Flat
