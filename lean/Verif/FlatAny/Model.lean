import Verif.Core.Outcome

/-!
# `flat_map` and `flat_set` under any circumstances

The member functions of the classes (include/itlib/flat_map.hpp lines 223-389, include/itlib/flat_set.hpp lines 191-321) with
contents in any order (`modify_container` lets the program put any there) and comparisons that return anything: the answer may
depend on when it is asked for. Comparisons may throw, and so may the container when it inserts or erases (because elements
are copied or moved), leaving any elements behind, as `std::vector` does.

`std::lower_bound`, `std::upper_bound` and `std::equal_range` are the loops of libstdc++ (their preconditions in the standard
exclude contents that are not partitioned). `std::sort`, and so the constructors from elements, are left out: it may leave the
range if the comparison is no strict weak order.

Reading at a position outside of the container, and inserting or erasing there, is undefined behaviour.
-/
namespace Itlib.FlatAny
open Itlib

/-- What user code does. The first argument of the comparisons is the number of comparisons made before; `none` is an
exception. -/
structure World (κ ε : Type) where
  /-- `cmp()(e, k)` -/
  below : Nat → ε → κ → Option Bool
  /-- `cmp()(k, e)` -/
  above : Nat → ε → κ → Option Bool
  /-- insertions and erasures of the container, numbered; `some ys`: it throws and leaves `ys` -/
  fails : Nat → List ε → Option (List ε)

/-- the elements; the numbers of comparisons and of changes of the container so far -/
structure St (ε : Type) where
  xs : List ε
  asked : Nat
  changed : Nat

variable {κ ε : Type} (W : World κ ε)

abbrev Mem (ε : Type) := M (St ε)

/-- a comparison, `f` being what it answers -/
def ask (f : Nat → Option Bool) : Mem ε Bool := do
  let s ← M.get
  M.set { s with asked := s.asked + 1 }
  match f s.asked with
  | some b => pure b
  | none => .raise .user

/-- `m_container.end() - m_container.begin()` -/
def size : Mem ε Nat := do
  let s ← M.get
  pure s.xs.length

/-- `*(m_container.begin() + p)` -/
def get (p : Nat) : Mem ε ε := do
  let s ← M.get
  match s.xs[p]? with
  | some e => pure e
  | none => .undef

/-- a change of the container to `ys` -/
def change (ys : List ε) : Mem ε Unit := do
  let s ← M.get
  match W.fails s.changed s.xs with
  | none => M.set { s with xs := ys, changed := s.changed + 1 }
  | some zs => do
    M.set { s with xs := zs, changed := s.changed + 1 }
    .raise .element

/-- `m_container.emplace(begin + p, e)` -/
def emplaceAt (p : Nat) (e : ε) : Mem ε Nat := do
  let s ← M.get
  if p ≤ s.xs.length then do
    change W (s.xs.take p ++ e :: s.xs.drop p)
    pure p
  else .undef

/-- `m_container.erase(begin + p)` -/
def eraseAt (p : Nat) : Mem ε Nat := do
  let s ← M.get
  if p < s.xs.length then do
    change W (s.xs.take p ++ s.xs.drop (p + 1))
    pure p
  else .undef

/-- the loop of `std::lower_bound` -/
def lowerLoop (k : κ) (first len : Nat) : Mem ε Nat :=
  if len = 0 then pure first
  else do
    let e ← get (first + len / 2)
    let b ← ask fun n => W.below n e k
    if b then lowerLoop k (first + len / 2 + 1) (len - len / 2 - 1)
    else lowerLoop k first (len / 2)
termination_by len
decreasing_by all_goals omega

/-- the loop of `std::upper_bound` -/
def upperLoop (k : κ) (first len : Nat) : Mem ε Nat :=
  if len = 0 then pure first
  else do
    let e ← get (first + len / 2)
    let b ← ask fun n => W.above n e k
    if b then upperLoop k first (len / 2)
    else upperLoop k (first + len / 2 + 1) (len - len / 2 - 1)
termination_by len
decreasing_by all_goals omega

/-- the loop of `std::equal_range` -/
def equalLoop (k : κ) (first len : Nat) : Mem ε (Nat × Nat) :=
  if len = 0 then pure (first, first)
  else do
    let e ← get (first + len / 2)
    let b ← ask fun n => W.below n e k
    if b then equalLoop k (first + len / 2 + 1) (len - len / 2 - 1)
    else do
      let a ← ask fun n => W.above n e k
      if a then equalLoop k first (len / 2)
      else do
        let l ← lowerLoop W k first (len / 2)
        let r ← upperLoop W k (first + len / 2 + 1) (len - len / 2 - 1)
        pure (l, r)
termination_by len
decreasing_by all_goals omega

/-- `lower_bound` (flat_map.hpp:223-233, flat_set.hpp:191-201) -/
def lowerBound (k : κ) : Mem ε Nat := do
  let n ← size
  lowerLoop W k 0 n

/-- `upper_bound` (flat_map.hpp:235-245, flat_set.hpp:203-213) -/
def upperBound (k : κ) : Mem ε Nat := do
  let n ← size
  upperLoop W k 0 n

/-- `equal_range` (flat_map.hpp:247-257, flat_set.hpp:215-225) -/
def equalRange (k : κ) : Mem ε (Nat × Nat) := do
  let n ← size
  equalLoop W k 0 n

/-- `i != end() && !cmp()(k, *i)` -/
def isAt (k : κ) (j : Nat) : Mem ε Bool := do
  let n ← size
  if j ≠ n then do
    let e ← get j
    let a ← ask fun n => W.above n e k
    pure !a
  else pure false

/-- `find` (flat_map.hpp:259-277, flat_set.hpp:227-245) -/
def find (k : κ) : Mem ε Nat := do
  let j ← lowerBound W k
  let b ← isAt W k j
  if b then pure j else size

/-- `count` (flat_map.hpp:279-283, flat_set.hpp:247-251) -/
def count (k : κ) : Mem ε Nat := do
  let j ← find W k
  let n ← size
  pure (if j = n then 0 else 1)

/-- both `insert`s, and `emplace` after it has made the element (flat_map.hpp:285-313, flat_set.hpp:253-281) -/
def insert (k : κ) (e : ε) : Mem ε (Nat × Bool) := do
  let j ← lowerBound W k
  let b ← isAt W k j
  if b then pure (j, false)
  else do
    let j ← emplaceAt W j e
    pure (j, true)

/-- `erase(const K&)` (flat_map.hpp:325-336, flat_set.hpp:293-304) -/
def eraseKey (k : κ) : Mem ε Nat := do
  let j ← find W k
  let n ← size
  if j = n then pure 0
  else do
    let _ ← eraseAt W j
    pure 1

/-- `flat_map::operator[]` (flat_map.hpp:338-350); `e` is the new element -/
def index (k : κ) (e : ε) : Mem ε (Nat × ε) := do
  let j ← lowerBound W k
  let b ← isAt W k j
  if b then do
    let x ← get j
    pure (j, x)
  else do
    let j ← emplaceAt W j e
    let x ← get j
    pure (j, x)

/-- `flat_map::at` (flat_map.hpp:352-372) -/
def at_ (k : κ) : Mem ε (Nat × ε) := do
  let j ← lowerBound W k
  let n ← size
  if j = n then .raise .outOfRange
  else do
    let e ← get j
    let a ← ask fun n => W.above n e k
    if a then .raise .outOfRange
    else do
      let x ← get j
      pure (j, x)

end Itlib.FlatAny
