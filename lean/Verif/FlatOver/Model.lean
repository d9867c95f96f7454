import Verif.Flat.Exec
import Verif.StaticVector.Exec
import Verif.SmallVector.Exec

/-!
# `flat_map` and `flat_set` on top of the containers of this library

`Verif/Flat/Model.lean` models the two classes over an ideal sequence. Here the same member functions are modelled as
programs that call the member functions of the underlying container, `m_container`, so that they can be run on the models
of `static_vector` and `small_vector`, with their buffers, object lifetimes and exceptions.

The standard algorithms are those of `Verif/Flat/Model.lean`, now reading through iterators of the container; `std::unique`
is in place and moves elements, as in libstdc++; `std::sort` is reduced to its effect, every element being overwritten by
the one the sorted sequence has at its place.

Container objects are named by numbers: `m_container` of map `i` is `2 * i`, the by-value parameter of the constructor of
map `i` is `2 * i + 1`.
-/
namespace Itlib.FlatOver
open Itlib Itlib.Flat

/-- The member functions of a container of elements `ε` that the classes use; `σ` is the memory in which all containers of
the program live; iterators are offsets from `begin()`. -/
structure Cont (σ ε : Type) where
  /-- `container_type(alloc)` -/
  ctor : Nat → M σ Unit
  /-- `container_type(begin, end, alloc)` -/
  ctorRange : Nat → List ε → M σ Unit
  copyCtor : Nat → Nat → M σ Unit
  moveCtor : Nat → Nat → M σ Unit
  copyAssign : Nat → Nat → M σ Unit
  moveAssign : Nat → Nat → M σ Unit
  swap : Nat → Nat → M σ Unit
  dtor : Nat → M σ Unit
  size : Nat → M σ Nat
  /-- `*(begin() + p)` -/
  get : Nat → Nat → M σ ε
  /-- `*(begin() + p) = e` -/
  set : Nat → Nat → ε → M σ Unit
  /-- `*(begin() + p) = std::move(*(begin() + q))` -/
  moveElem : Nat → Nat → Nat → M σ Unit
  emplace : Nat → Nat → ε → M σ Nat
  erase : Nat → Nat → M σ Nat
  eraseRange : Nat → Nat → Nat → M σ Nat
  clear : Nat → M σ Unit
  /-- `operator==` of two containers -/
  eq : (ε → ε → Bool) → Nat → Nat → M σ Bool

section programs
variable {σ κ ε : Type} (key : ε → κ) (C : Cont σ ε) (i : Nat)

/-- the loop of `std::lower_bound` on `[first, first + len)` -/
def boundLoop (p : ε → Bool) (first len : Nat) : M σ Nat :=
  if len = 0 then pure first
  else do
    let e ← C.get i (first + len / 2)
    if p e then boundLoop p (first + len / 2 + 1) (len - len / 2 - 1)
    else boundLoop p first (len / 2)
termination_by len
decreasing_by all_goals omega

/-- `lower_bound` (flat_map.hpp:223-233, flat_set.hpp:191-201) -/
def lowerBound (k : Probe κ) : M σ Nat := do
  let n ← C.size i
  boundLoop C i (fun e => k.below (key e)) 0 n

/-- `upper_bound` (flat_map.hpp:235-245, flat_set.hpp:203-213) -/
def upperBound (k : Probe κ) : M σ Nat := do
  let n ← C.size i
  boundLoop C i (fun e => !k.above (key e)) 0 n

/-- the loop of `std::equal_range` -/
def equalLoop (k : Probe κ) (first len : Nat) : M σ (Nat × Nat) :=
  if len = 0 then pure (first, first)
  else do
    let e ← C.get i (first + len / 2)
    if k.below (key e) then equalLoop k (first + len / 2 + 1) (len - len / 2 - 1)
    else if k.above (key e) then equalLoop k first (len / 2)
    else do
      let l ← boundLoop C i (fun e => k.below (key e)) first (len / 2)
      let r ← boundLoop C i (fun e => !k.above (key e)) (first + len / 2 + 1) (len - len / 2 - 1)
      pure (l, r)
termination_by len
decreasing_by all_goals omega

/-- `equal_range` (flat_map.hpp:247-257, flat_set.hpp:215-225) -/
def equalRange (k : Probe κ) : M σ (Nat × Nat) := do
  let n ← C.size i
  equalLoop key C i k 0 n

/-- `find` (flat_map.hpp:259-277, flat_set.hpp:227-245) -/
def find (k : Probe κ) : M σ Nat := do
  let j ← lowerBound key C i k
  let n ← C.size i
  if j ≠ n then do
    let e ← C.get i j
    if !k.above (key e) then pure j else C.size i
  else C.size i

/-- `count` (flat_map.hpp:279-283, flat_set.hpp:247-251) -/
def count (k : Probe κ) : M σ Nat := do
  let j ← find key C i k
  let n ← C.size i
  pure (if j = n then 0 else 1)

/-- both `insert`s, `emplace` (flat_map.hpp:285-313, flat_set.hpp:253-281) -/
def insert (k : Probe κ) (e : ε) : M σ (Nat × Bool) := do
  let j ← lowerBound key C i k
  let n ← C.size i
  if j ≠ n then do
    let x ← C.get i j
    if !k.above (key x) then pure (j, false)
    else do
      let j ← C.emplace i j e
      pure (j, true)
  else do
    let j ← C.emplace i j e
    pure (j, true)

/-- `erase(const K&)` (flat_map.hpp:325-336, flat_set.hpp:293-304) -/
def eraseKey (k : Probe κ) : M σ Nat := do
  let j ← find key C i k
  let n ← C.size i
  if j = n then pure 0
  else do
    let _ ← C.erase i j
    pure 1

/-- `flat_map::operator[]` (flat_map.hpp:338-350) -/
def index (k : Probe κ) (e : ε) : M σ Nat := do
  let j ← lowerBound key C i k
  let n ← C.size i
  if j ≠ n then do
    let x ← C.get i j
    if !k.above (key x) then pure j
    else C.emplace i j e
  else C.emplace i j e

/-- `flat_map::at` (flat_map.hpp:352-372) -/
def at_ (k : Probe κ) : M σ Nat := do
  let j ← lowerBound key C i k
  let n ← C.size i
  if j = n then .raise .outOfRange
  else do
    let x ← C.get i j
    if k.above (key x) then .raise .outOfRange else pure j

/-- assignment through an iterator or reference, to the part of an element that is not its key -/
def update (j : Nat) (f : ε → ε) : M σ Unit := do
  let x ← C.get i j
  C.set i j (f x)

/-- the effect of `std::sort`: from position `p` on the elements become those of the list -/
def sortInto (p : Nat) : List ε → M σ Unit
  | [] => pure ()
  | e :: es => do
    C.set i p e
    sortInto (p+1) es

/-- `std::adjacent_find` from `p` on, `k` elements being left after `p`; `p + k + 1` is the end. -/
def adjacentFind (eq : ε → ε → Bool) (p : Nat) : Nat → M σ Nat
  | 0 => pure (p + 1)
  | k+1 => do
    let x ← C.get i p
    let y ← C.get i (p+1)
    if eq x y then pure p else adjacentFind eq (p+1) k

/-- the loop of `std::unique`: `while (++first != last) if (!pred(*dest, *first)) *++dest = std::move(*first);`, `k`
elements being left from `first` on -/
def uniqueLoop (eq : ε → ε → Bool) (dest first : Nat) : Nat → M σ Nat
  | 0 => pure (dest + 1)
  | k+1 => do
    let x ← C.get i dest
    let y ← C.get i first
    if eq x y then uniqueLoop eq dest (first+1) k
    else do
      C.moveElem i (dest+1) first
      uniqueLoop eq (dest+1) (first+1) k

/-- `std::unique(begin(), end(), pred)` -/
def unique (eq : ε → ε → Bool) : M σ Nat := do
  let n ← C.size i
  if n = 0 then pure 0
  else do
    let p ← adjacentFind C i eq 0 (n - 1)
    if p = n then pure n else uniqueLoop C i eq p (p + 2) (n - (p + 2))

/-- constructor from a container (flat_map.hpp:168-178, flat_set.hpp:134-144); the parameter is made from the range `ys`
(flat_map.hpp:180-195, flat_set.hpp:146-161). `m_container` is `c`, the parameter is `t`. -/
def ofContainer (lt : κ → κ → Bool) (c t : Nat) (ys sorted : List ε) : M σ Unit := do
  C.ctorRange t ys
  C.moveCtor c t
  sortInto C c 0 sorted
  let newEnd ← unique C c (fun a b => !lt (key a) (key b) && !lt (key b) (key a))
  let n ← C.size c
  let _ ← C.eraseRange c newEnd n
  C.dtor t

/-- one call of a member function -/
def exec (op : Op κ ε) : M σ (Reply ε) :=
  match op with
  | .insert k e => do let (j, b) ← insert key C i k e; pure (.posFlag j b)
  | .index k e => do let j ← index key C i k e; let x ← C.get i j; pure (.ref j x)
  | .at_ k => do let j ← at_ key C i k; let x ← C.get i j; pure (.ref j x)
  | .eraseKey k => do let n ← eraseKey key C i k; pure (.num n)
  | .eraseAt j => do let j ← C.erase i j; pure (.pos j)
  | .find k => do let j ← find key C i k; pure (.pos j)
  | .count k => do let n ← count key C i k; pure (.num n)
  | .lowerBound k => do let j ← lowerBound key C i k; pure (.pos j)
  | .upperBound k => do let j ← upperBound key C i k; pure (.pos j)
  | .equalRange k => do let (j, l) ← equalRange key C i k; pure (.range j l)
  | .get j => do let e ← C.get i j; pure (.elem e)
  | .update j f => do update C i j f; pure .unit
  | .size => do let n ← C.size i; pure (.num n)
  | .clear => do C.clear i; pure .unit

end programs

/-- All maps of a program: the memory of their containers, and their comparison objects. -/
structure Mem (σ κ : Type) where
  mem : σ
  lt : Nat → Option (κ → κ → Bool)

section calls
variable {σ κ ε : Type} (key : ε → κ) (C : Cont σ ε) [DecidableEq ε]

/-- run a program of container calls, the caller catching exceptions; when it returns, the comparison objects become
`lts` -/
def on {β : Type} (f : M σ β) (r : β → Reply ε) (lts : Nat → Option (κ → κ → Bool)) (m : Mem σ κ) :
    Option (Reply ε × Mem σ κ) :=
  match f m.mem with
  | .ok b s => some (r b, ⟨s, lts⟩)
  | .throw e s => some (.exc e, ⟨s, m.lt⟩)
  | .ub => none

/-- one call in a program with several maps; copying and moving are the defaulted members (flat_map.hpp:197-201,
flat_set.hpp:163-167), `swap` (flat_map.hpp:374-378, flat_set.hpp:306-310), `operator==` (flat_map.hpp:392-396,
flat_set.hpp:324-328) -/
def mcall (op : MOp κ ε) (m : Mem σ κ) : Option (Reply ε × Mem σ κ) :=
  match op with
  | .new i lt => on (C.ctor (2 * i)) (fun _ => .unit) (Function.update m.lt i (some lt)) m
  | .build i lt ys sorted =>
    on (ofContainer key C lt (2 * i) (2 * i + 1) ys sorted) (fun _ => .unit) (Function.update m.lt i (some lt)) m
  | .copy i src => on (C.copyCtor (2 * i) (2 * src)) (fun _ => .unit) (Function.update m.lt i (m.lt src)) m
  | .assign i src => on (C.copyAssign (2 * i) (2 * src)) (fun _ => .unit) (Function.update m.lt i (m.lt src)) m
  | .move i src => on (C.moveCtor (2 * i) (2 * src)) (fun _ => .unit) (Function.update m.lt i (m.lt src)) m
  | .moveAssign i src => on (C.moveAssign (2 * i) (2 * src)) (fun _ => .unit) (Function.update m.lt i (m.lt src)) m
  | .swap i j =>
    on (C.swap (2 * i) (2 * j)) (fun _ => .unit) (Function.update (Function.update m.lt i (m.lt j)) j (m.lt i)) m
  | .destroy i => on (C.dtor (2 * i)) (fun _ => .unit) (Function.update m.lt i none) m
  | .eq i j => on (C.eq (fun x y => decide (x = y)) (2 * i) (2 * j)) .bool m.lt m
  | .on i op => on (exec key C (2 * i) op) id m.lt m

/-- a history; `none`: undefined behaviour -/
def mrun : List (MOp κ ε) → Mem σ κ → Option (List (Reply ε) × Mem σ κ)
  | [], m => some ([], m)
  | op :: ops, m => do
    let (r, m) ← mcall key C op m
    let (rs, m) ← mrun ops m
    some (r :: rs, m)

end calls

/-! ### The containers -/

/-- `static_vector<ε, cap>`; a function of one vector runs on that vector in the store -/
def staticVector {ε : Type} (E : Elem ε) (cap : Nat) : Cont (StaticVector.Store ε) ε where
  ctor i := StaticVector.construct i cap none
  ctorRange i xs := StaticVector.ctorRange i cap xs none
  copyCtor i j := StaticVector.copyCtor i cap j none
  moveCtor i j := StaticVector.moveCtor E i j
  copyAssign i j := StaticVector.copyAssign i j
  moveAssign i j := StaticVector.moveAssign E i j
  swap i j := StaticVector.swap E i j
  dtor i := StaticVector.destruct i
  size i := StaticVector.at' i StaticVector.size
  get i p := StaticVector.at' i (StaticVector.at_ p)
  set i p e := StaticVector.at' i (StaticVector.setAt p (.val e))
  moveElem i p q := StaticVector.at' i (StaticVector.moveElem E p q)
  emplace i p e := StaticVector.at' i (StaticVector.insert E p (.val e))
  erase i p := StaticVector.at' i (StaticVector.erase E p)
  eraseRange i f l := StaticVector.at' i (StaticVector.eraseRange E f l)
  clear i := StaticVector.at' i StaticVector.clear
  eq eqv i j := .load fun s => do
    let a ← s.vec i
    let b ← s.vec j
    StaticVector.eq eqv a b

/-- `static_vector::emplace(pos, args...)` (static_vector.hpp:512-518), one of `args` being a reference into element `q` of
the vector itself, and the new element made from it by `mk` -/
def emplaceOwn {ε : Type} (E : Elem ε) (pos q : Nat) (mk : ε → ε) : M (StaticVector.SV ε) Nat := do
  let pos ← StaticVector.growAt E pos 1
  let a ← StaticVector.readArg (.self q)
  StaticVector.emplaceAt pos (mk a)
  pure pos

/-- `m[(m.begin() + q)->second]` (flat_map.hpp:338-350) for a map from keys to keys, over a `static_vector` -/
def indexOwn {κ : Type} (E : Elem (κ × κ)) (cap : Nat) (lt : κ → κ → Bool) (dflt : κ) (i q : Nat) :
    M (StaticVector.Store (κ × κ)) Nat := do
  let k ← (staticVector E cap).get i q
  let j ← lowerBound Prod.fst (staticVector E cap) i (Probe.ofKey lt k.2)
  let n ← (staticVector E cap).size i
  if j ≠ n then do
    let x ← (staticVector E cap).get i j
    if !lt k.2 x.1 then pure j
    else StaticVector.at' i (emplaceOwn E j q fun e => (e.2, dflt))
  else StaticVector.at' i (emplaceOwn E j q fun e => (e.2, dflt))

/-- `small_vector<ε, P.N, P.R, Alloc>`, all maps being given the allocator `al`; the class has no member `swap` -/
def smallVector {ε : Type} (P : SmallVector.Params) (E : Elem ε) (al : Nat) : Cont (SmallVector.Mem ε) ε where
  ctor i := SmallVector.construct P i al
  ctorRange i xs := SmallVector.ctorRange P i al xs
  copyCtor i j := SmallVector.copyCtor P i al j
  moveCtor i j := SmallVector.moveCtor P E i j
  copyAssign i j := SmallVector.copyAssign P i j
  moveAssign i j := SmallVector.moveAssign P E i j
  swap _ _ := .undef
  dtor i := SmallVector.destruct i
  size i := SmallVector.at' i SmallVector.size
  get i p := SmallVector.at' i (SmallVector.at_ p)
  set i p e := SmallVector.at' i (SmallVector.setAt p (.val e))
  moveElem i p q := SmallVector.at' i (SmallVector.moveElem E p q)
  emplace i p e := SmallVector.at' i (SmallVector.insert P E p (.val e))
  erase i p := SmallVector.at' i (SmallVector.erase P E p)
  eraseRange i f l := SmallVector.at' i (SmallVector.eraseRange P E f l)
  clear i := SmallVector.at' i (SmallVector.clear P)
  eq eqv i j := .load fun m => do
    let a ← m.vec i
    let b ← m.vec j
    SmallVector.eq eqv (m.view a) (m.view b)

end Itlib.FlatOver
