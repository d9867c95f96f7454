import Verif.FlatOver.Model

/-!
# `flat_map` and `flat_set` with user code that throws

The member functions of `Verif/FlatOver/Model.lean` once more, every call of user code that they make outside of the container being able to
throw: comparisons, the construction of the temporary in `emplace`, `mapped_type()` in `operator[]`. `left` is the number of such calls that
return before one throws (`none`: none throws). `std::sort` leaves any contents behind when it throws. Copying and moving elements inside the
container and copying comparison objects do not throw, except that copy assignment of a container may fail without effect (for lack of memory).
-/
namespace Itlib.FlatOver.T
open Itlib Itlib.Flat

/-- memory, and the number of calls of user code that still return -/
structure TMem (σ : Type) where
  mem : σ
  left : Option Nat

section programs
variable {σ κ ε α : Type}

/-- a call of the container -/
def act (f : M σ α) : M (TMem σ) α := fun t =>
  match f t.mem with
  | .ok a s => .ok a ⟨s, t.left⟩
  | .throw e s => .throw e ⟨s, t.left⟩
  | .ub => .ub

/-- a call of user code -/
def user (a : α) : M (TMem σ) α := fun t =>
  match t.left with
  | none => .ok a t
  | some 0 => .throw .user t
  | some (n+1) => .ok a ⟨t.mem, some n⟩

variable (key : ε → κ) (C : Cont σ ε) (i : Nat)

/-- the loop of `std::lower_bound` -/
def boundLoop (p : ε → Bool) (first len : Nat) : M (TMem σ) Nat :=
  if len = 0 then pure first
  else do
    let e ← act (C.get i (first + len / 2))
    let b ← user (p e)
    if b then boundLoop p (first + len / 2 + 1) (len - len / 2 - 1)
    else boundLoop p first (len / 2)
termination_by len
decreasing_by all_goals omega

/-- `lower_bound` (flat_map.hpp:223-233, flat_set.hpp:191-201) -/
def lowerBound (k : Probe κ) : M (TMem σ) Nat := do
  let n ← act (C.size i)
  boundLoop C i (fun e => k.below (key e)) 0 n

/-- `upper_bound` (flat_map.hpp:235-245, flat_set.hpp:203-213) -/
def upperBound (k : Probe κ) : M (TMem σ) Nat := do
  let n ← act (C.size i)
  boundLoop C i (fun e => !k.above (key e)) 0 n

/-- the loop of `std::equal_range` -/
def equalLoop (k : Probe κ) (first len : Nat) : M (TMem σ) (Nat × Nat) :=
  if len = 0 then pure (first, first)
  else do
    let e ← act (C.get i (first + len / 2))
    let b ← user (k.below (key e))
    if b then equalLoop k (first + len / 2 + 1) (len - len / 2 - 1)
    else do
      let a ← user (k.above (key e))
      if a then equalLoop k first (len / 2)
      else do
        let l ← boundLoop C i (fun e => k.below (key e)) first (len / 2)
        let r ← boundLoop C i (fun e => !k.above (key e)) (first + len / 2 + 1) (len - len / 2 - 1)
        pure (l, r)
termination_by len
decreasing_by all_goals omega

/-- `equal_range` (flat_map.hpp:247-257, flat_set.hpp:215-225) -/
def equalRange (k : Probe κ) : M (TMem σ) (Nat × Nat) := do
  let n ← act (C.size i)
  equalLoop key C i k 0 n

/-- `find` (flat_map.hpp:259-277, flat_set.hpp:227-245) -/
def find (k : Probe κ) : M (TMem σ) Nat := do
  let j ← lowerBound key C i k
  let n ← act (C.size i)
  if j ≠ n then do
    let e ← act (C.get i j)
    let a ← user (k.above (key e))
    if !a then pure j else act (C.size i)
  else act (C.size i)

/-- `count` (flat_map.hpp:279-283, flat_set.hpp:247-251) -/
def count (k : Probe κ) : M (TMem σ) Nat := do
  let j ← find key C i k
  let n ← act (C.size i)
  pure (if j = n then 0 else 1)

/-- both `insert`s (flat_map.hpp:285-306, flat_set.hpp:253-274) -/
def insert (k : Probe κ) (e : ε) : M (TMem σ) (Nat × Bool) := do
  let j ← lowerBound key C i k
  let n ← act (C.size i)
  if j ≠ n then do
    let x ← act (C.get i j)
    let a ← user (k.above (key x))
    if !a then pure (j, false)
    else do
      let j ← act (C.emplace i j e)
      pure (j, true)
  else do
    let j ← act (C.emplace i j e)
    pure (j, true)

/-- `emplace` (flat_map.hpp:308-313, flat_set.hpp:276-281): `value_type val(...)`, then `insert` -/
def emplace (k : Probe κ) (e : ε) : M (TMem σ) (Nat × Bool) := do
  let e ← user e
  insert key C i k e

/-- `erase(const K&)` (flat_map.hpp:325-336, flat_set.hpp:293-304) -/
def eraseKey (k : Probe κ) : M (TMem σ) Nat := do
  let j ← find key C i k
  let n ← act (C.size i)
  if j = n then pure 0
  else do
    let _ ← act (C.erase i j)
    pure 1

/-- `flat_map::operator[]` (flat_map.hpp:338-350); the argument `mapped_type()` is made before the call of the container -/
def index (k : Probe κ) (e : ε) : M (TMem σ) Nat := do
  let j ← lowerBound key C i k
  let n ← act (C.size i)
  if j ≠ n then do
    let x ← act (C.get i j)
    let a ← user (k.above (key x))
    if !a then pure j
    else do
      let e ← user e
      act (C.emplace i j e)
  else do
    let e ← user e
    act (C.emplace i j e)

/-- `flat_map::at` (flat_map.hpp:352-372) -/
def at_ (k : Probe κ) : M (TMem σ) Nat := do
  let j ← lowerBound key C i k
  let n ← act (C.size i)
  if j = n then .raise .outOfRange
  else do
    let x ← act (C.get i j)
    let a ← user (k.above (key x))
    if a then .raise .outOfRange else pure j

/-- one call of a member function -/
def exec (op : Op κ ε) : M (TMem σ) (Reply ε) :=
  match op with
  | .insert k e => do let (j, b) ← insert key C i k e; pure (.posFlag j b)
  | .index k e => do let j ← index key C i k e; let x ← act (C.get i j); pure (.ref j x)
  | .at_ k => do let j ← at_ key C i k; let x ← act (C.get i j); pure (.ref j x)
  | .eraseKey k => do let n ← eraseKey key C i k; pure (.num n)
  | .find k => do let j ← find key C i k; pure (.pos j)
  | .count k => do let n ← count key C i k; pure (.num n)
  | .lowerBound k => do let j ← lowerBound key C i k; pure (.pos j)
  | .upperBound k => do let j ← upperBound key C i k; pure (.pos j)
  | .equalRange k => do let (j, l) ← equalRange key C i k; pure (.range j l)
  | op => act (FlatOver.exec key C i op)

/-- `[this](a, b) { return !cmp()(a, b) && !cmp()(b, a); }` (flat_map.hpp:173-175, flat_set.hpp:139-141) -/
def same (lt : κ → κ → Bool) (a b : ε) : M (TMem σ) Bool := do
  let x ← user (lt (key a) (key b))
  if !x then do
    let y ← user (lt (key b) (key a))
    pure !y
  else pure false

/-- `std::adjacent_find` -/
def adjacentFind (lt : κ → κ → Bool) (p : Nat) : Nat → M (TMem σ) Nat
  | 0 => pure (p + 1)
  | k+1 => do
    let x ← act (C.get i p)
    let y ← act (C.get i (p+1))
    let b ← same key lt x y
    if b then pure p else adjacentFind lt (p+1) k

/-- the loop of `std::unique` -/
def uniqueLoop (lt : κ → κ → Bool) (dest first : Nat) : Nat → M (TMem σ) Nat
  | 0 => pure (dest + 1)
  | k+1 => do
    let x ← act (C.get i dest)
    let y ← act (C.get i first)
    let b ← same key lt x y
    if b then uniqueLoop lt dest (first+1) k
    else do
      act (C.moveElem i (dest+1) first)
      uniqueLoop lt (dest+1) (first+1) k

/-- `std::unique(begin(), end(), pred)` -/
def unique (lt : κ → κ → Bool) : M (TMem σ) Nat := do
  let n ← act (C.size i)
  if n = 0 then pure 0
  else do
    let p ← adjacentFind key C i lt 0 (n - 1)
    if p = n then pure n else uniqueLoop key C i lt p (p + 2) (n - (p + 2))

/-- what follows an exception: the cleanup, and the exception goes on -/
def cleanup (f : M (TMem σ) α) (c : M (TMem σ) Unit) : M (TMem σ) α := fun t =>
  match f t with
  | .ok a t => .ok a t
  | .ub => .ub
  | .throw e t =>
    match c t with
    | .ok () t => .throw e t
    | .throw _ _ => .ub
    | .ub => .ub

/-- constructor from a container (flat_map.hpp:168-178, flat_set.hpp:134-144). `sort`: what `std::sort` leaves, and whether it throws. An
exception in the body destroys `m_container`; the parameter is destroyed in any case. -/
def ofContainer (lt : κ → κ → Bool) (c t : Nat) (ys : List ε) (sort : List ε × Bool) : M (TMem σ) Unit := do
  act (C.ctorRange t ys)
  act (C.moveCtor c t)
  cleanup (do
    act (sortInto C c 0 sort.1)
    if sort.2 then .raise .user
    else do
      let newEnd ← unique key C c lt
      let n ← act (C.size c)
      let _ ← act (C.eraseRange c newEnd n)
      pure ()) (do
    act (C.dtor c)
    act (C.dtor t))
  act (C.dtor t)

end programs

/-- The calls of a program. -/
inductive TOp (κ ε : Type) where
  /-- `left` calls of user code return, then one throws -/
  | call (op : MOp κ ε) (left : Option Nat)
  | emplace (i : Nat) (k : Probe κ) (e : ε) (left : Option Nat)
  /-- construction from `ys`; `std::sort` throws and leaves `zs` -/
  | buildSort (i : Nat) (lt : κ → κ → Bool) (ys zs : List ε)
  /-- copy assignment when the copy assignment of the container fails: the base class, the comparison, has been assigned by then -/
  | assignFails (i src : Nat)

section calls
variable {σ κ ε : Type} (key : ε → κ) (C : Cont σ ε) [DecidableEq ε]

/-- run a program, the caller catching exceptions -/
def on {β : Type} (f : M (TMem σ) β) (r : β → Reply ε) (left : Option Nat) (lts : Nat → Option (κ → κ → Bool)) (m : Mem σ κ) :
    Option (Reply ε × Mem σ κ) :=
  match f ⟨m.mem, left⟩ with
  | .ok b s => some (r b, ⟨s.mem, lts⟩)
  | .throw e s => some (.exc e, ⟨s.mem, m.lt⟩)
  | .ub => none

/-- one call -/
def tcall (op : TOp κ ε) (m : Mem σ κ) : Option (Reply ε × Mem σ κ) :=
  match op with
  | .call (.on i op) left => on (exec key C (2 * i) op) id left m.lt m
  | .call (.build i lt ys sorted) left =>
    on (ofContainer key C lt (2 * i) (2 * i + 1) ys (sorted, false)) (fun _ => .unit) left (Function.update m.lt i (some lt)) m
  | .call op _ => mcall key C op m
  | .emplace i k e left => on (emplace key C (2 * i) k e) (fun p => .posFlag p.1 p.2) left m.lt m
  | .buildSort i lt ys zs =>
    on (ofContainer key C lt (2 * i) (2 * i + 1) ys (zs, true)) (fun _ => .unit) none (Function.update m.lt i (some lt)) m
  | .assignFails i src => some (.exc .badAlloc, ⟨m.mem, Function.update m.lt i (m.lt src)⟩)

end calls

/-! ### The standard container -/

/-- `std::vector`: memory is the contents of the containers that exist -/
def stdVector {ε : Type} (E : Elem ε) : Cont (Nat → Option (List ε)) ε where
  ctor i := .mem fun s => if (s i).isSome then none else some (Function.update s i (some []))
  ctorRange i xs := .mem fun s => if (s i).isSome then none else some (Function.update s i (some xs))
  copyCtor i j := .mem fun s => if (s i).isSome then none else (s j).map fun xs => Function.update s i (some xs)
  moveCtor i j := .mem fun s =>
    if (s i).isSome then none else (s j).map fun xs => Function.update (Function.update s i (some xs)) j (some [])
  copyAssign i j := .mem fun s => if (s i).isSome then (s j).map fun xs => Function.update s i (some xs) else none
  moveAssign i j := .mem fun s =>
    if (s i).isSome ∧ i ≠ j then (s j).map fun xs => Function.update (Function.update s i (some xs)) j (some []) else none
  swap i j := .mem fun s =>
    match s i, s j with
    | some zs, some xs => some (Function.update (Function.update s i (some xs)) j (some zs))
    | _, _ => none
  dtor i := .mem fun s => if (s i).isSome then some (Function.update s i none) else none
  size i := .load fun s => (s i).map List.length
  get i p := .load fun s => (s i).bind fun xs => xs[p]?
  set i p e := .mem fun s => (s i).bind fun xs => if p < xs.length then some (Function.update s i (some (xs.set p e))) else none
  moveElem i p q := .mem fun s => (s i).bind fun xs =>
    if p < xs.length then (xs[q]?).map fun e => Function.update s i (some ((xs.set p e).set q (E.mv e))) else none
  emplace i p e := fun s =>
    match s i with
    | some xs => if p ≤ xs.length then .ok p (Function.update s i (some (xs.take p ++ e :: xs.drop p))) else .ub
    | none => .ub
  erase i p := fun s =>
    match s i with
    | some xs => if p < xs.length then .ok p (Function.update s i (some (xs.eraseIdx p))) else .ub
    | none => .ub
  eraseRange i f l := fun s =>
    match s i with
    | some xs => if f ≤ l ∧ l ≤ xs.length then .ok f (Function.update s i (some (xs.take f ++ xs.drop l))) else .ub
    | none => .ub
  clear i := .mem fun s => (s i).map fun _ => Function.update s i (some [])
  eq eqv i j := .load fun s => do
    let xs ← s i
    let zs ← s j
    some (eqCs eqv xs zs)

end Itlib.FlatOver.T
