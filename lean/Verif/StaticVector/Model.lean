import Verif.Core.Outcome
import Verif.Core.Buf
import Verif.Core.Elem

/-!
# Model of `itlib::static_vector` (include/itlib/static_vector.hpp)

Error handling mode: `ITLIB_STATIC_VECTOR_ERROR_HANDLING_THROW`, the default (lines 125-133). The debug asserts
`I_ITLIB_STATIC_VECTOR_BOUNDS_CHECK*` (static_vector.hpp:147-154) are preconditions: their violation is undefined behaviour here
(it is in release builds).

Iterators are represented by their offset from `begin()`. `size_t` arithmetic is only modelled as wrapping where an
argument that is not the size of an existing sequence enters it (the check in `grow_at`).

Exceptions of element constructors: `tick = some k` means that the construction of an element by copying/emplacing
(not by moving) that comes after `k` successful ones throws; `none` means that none throws. Move constructors and
destructors of elements are taken not to throw.
-/
namespace Itlib.StaticVector
open Itlib

/-- `2^64`, the modulus of `size_t`. -/
def sizeMod : Nat := 2 ^ 64

/-- A `static_vector<T, Capacity>` object: `m_data` and `m_size` (static_vector.hpp:672-673); `buf.cap` is `Capacity`.
`tick` is not part of the object, see above. -/
structure SV (α : Type) where
  buf : Buf α
  size : Nat
  tick : Option Nat

variable {α : Type}

/-- run a buffer operation on `m_data` -/
def onBuf (f : Buf α → Option (Buf α)) : M (SV α) Unit :=
  .mem fun s => (f s.buf).map fun b => { s with buf := b }

/-- `::new (m_data + i) T(a)`, which may throw -/
def emplaceAt (i : Nat) (a : α) : M (SV α) Unit := fun s =>
  match s.buf.construct i a with
  | none => .ub
  | some b =>
    match s.tick with
    | none => .ok () { s with buf := b }
    | some 0 => .throw .element { s with tick := none }
    | some (k+1) => .ok () { s with buf := b, tick := some k }

/-- reading a `const T&` argument -/
def readArg : Arg α → M (SV α) α
  | .val a => pure a
  | .self i => .load fun s => s.buf.read i

/-- `I_ITLIB_STATIC_VECTOR_OUT_OF_RANGE_IF` (static_vector.hpp:133) -/
def outOfRangeIf (c : Prop) [Decidable c] : M (SV α) Unit :=
  if c then .raise .outOfRange else pure ()

/-- `static_vector() = default` (static_vector.hpp:183, 672-673) -/
def empty (cap : Nat) (tick : Option Nat) : SV α := ⟨.fresh cap, 0, tick⟩

/-- `at`/`operator[]` (static_vector.hpp:289-309); out of bounds is the assert of line 152 -/
def at_ (i : Nat) : M (SV α) α := fun s =>
  if i < s.size then
    match s.buf.read i with
    | some a => .ok a s
    | none => .ub
  else .ub

/-- `back()` (static_vector.hpp:321-329); on an empty vector `m_size - 1` wraps and the assert fails -/
def back : M (SV α) α := fun s => if s.size = 0 then .ub else at_ (s.size - 1) s

/-- `front()` (static_vector.hpp:311-319) -/
def front : M (SV α) α := at_ 0

/-- `size()` (static_vector.hpp:408-411) -/
def size : M (SV α) Nat := do let s ← M.get; pure s.size

/-- `empty()` (static_vector.hpp:403-406) -/
def isEmpty : M (SV α) Bool := do let s ← M.get; pure (s.size == 0)

/-- `capacity()`, `max_size()` (static_vector.hpp:413-421) -/
def capacity : M (SV α) Nat := do let s ← M.get; pure s.buf.cap

/-- `v[i] = a` through the reference `at`/`operator[]` return (static_vector.hpp:295-309) -/
def setAt (i : Nat) (v : Arg α) : M (SV α) Unit := do
  let a ← readArg v
  let _ ← at_ i
  onBuf fun b => b.assign i a

/-- `v[i] = std::move(v[j])`; the assignment of the element type takes the value of the source and leaves it moved-from.
Self-move of an element is left to the element type, and excluded. -/
def moveElem (E : Elem α) (i j : Nat) : M (SV α) Unit := do
  let a ← at_ j
  let _ ← at_ i
  if i = j then .undef
  else do
    onBuf fun b => b.assign i a
    onBuf fun b => b.assign j (E.mv a)

/-- reading through pointers from `p` up, `k` of them -/
def readUp (p : Nat) : Nat → M (SV α) (List α)
  | 0 => pure []
  | k+1 => do
    let a ← .load fun s => s.buf.read p
    let as ← readUp (p+1) k
    pure (a :: as)

/-- `for (auto i = begin(); i != end(); ++i) *i` (static_vector.hpp:342-370): from `data()` to `data() + m_size` -/
def forward : M (SV α) (List α) := do
  let s ← M.get
  readUp 0 s.size

/-- reading through reverse iterators whose base is `p`, downwards: `*r` is `p[-1]` -/
def readDown : Nat → M (SV α) (List α)
  | 0 => pure []
  | p+1 => do
    let a ← .load fun s => s.buf.read p
    let as ← readDown p
    pure (a :: as)

/-- `for (auto r = rbegin(); r != rend(); ++r) *r` (static_vector.hpp:372-400): from `end()` down to `begin()` -/
def backward : M (SV α) (List α) := do
  let s ← M.get
  readDown s.size

/-- `clear` (static_vector.hpp:429-436) -/
def clear : M (SV α) Unit := do
  let s ← M.get
  onBuf (Buf.destroyRange 0 s.size)
  M.modify fun s => { s with size := 0 }

/-- `push_back(const T&)` (static_vector.hpp:438-444); also `push_back(T&&)` (static_vector.hpp:446-452), the moved-from argument
living outside of the container -/
def pushBack (v : Arg α) : M (SV α) Unit := do
  let s ← M.get
  outOfRangeIf (s.size ≥ s.buf.cap)
  let a ← readArg v
  emplaceAt s.size a
  M.modify fun s => { s with size := s.size + 1 }

/-- `emplace_back` (static_vector.hpp:454-462); returns the index of the referenced element `back()` -/
def emplaceBack (v : Arg α) : M (SV α) Nat := do
  let s ← M.get
  outOfRangeIf (s.size ≥ s.buf.cap)
  let a ← readArg v
  emplaceAt s.size a
  M.modify fun s => { s with size := s.size + 1 }
  let s ← M.get
  let _ ← back
  pure (s.size - 1)

/-- `emplace_back(std::move(x))` (static_vector.hpp:454-462) with `a` the value of `x`: as above, but the element
is move-constructed and this does not throw -/
def emplaceBackMove (a : α) : M (SV α) Nat := do
  let s ← M.get
  outOfRangeIf (s.size ≥ s.buf.cap)
  onBuf (Buf.construct s.size a)
  M.modify fun s => { s with size := s.size + 1 }
  let s ← M.get
  let _ ← back
  pure (s.size - 1)

/-- `grow_at` (static_vector.hpp:624-639). `cp` is an offset from `begin()`. The sum in line 625 wraps. -/
def growAt (E : Elem α) (cp by_ : Nat) : M (SV α) Nat := do
  let s ← M.get
  outOfRangeIf ((s.size + by_) % sizeMod > s.buf.cap)
  if cp ≤ s.size then
    if by_ = 0 then pure cp
    else do
      onBuf (Buf.shiftUp E.mv by_ cp (s.size - cp))
      M.modify fun s => { s with size := s.size + by_ }
      pure cp
  else .undef

/-- `shrink_at` (static_vector.hpp:641-670) -/
def shrinkAt (E : Elem α) (cp num : Nat) : M (SV α) Nat := do
  let s ← M.get
  outOfRangeIf (num > s.size)
  if cp ≤ s.size then
    if s.size - num = 0 then do
      clear
      pure 0
    else do
      onBuf (Buf.shiftDown E.mv s.size (s.buf.cap + 1) cp (cp + num))
      onBuf (Buf.destroyRange (s.size - num) num)
      M.modify fun s => { s with size := s.size - num }
      pure cp
  else .undef

/-- `pop_back` (static_vector.hpp:424-427): `shrink_at(end() - 1, 1)`. For an empty vector the pointer `end() - 1` is
only formed; the call throws before it is used. -/
def popBack (E : Elem α) : M (SV α) Unit := do
  let s ← M.get
  let _ ← shrinkAt E (s.size - 1) 1
  pure ()

/-- `insert(pos, const T&)`, `insert(pos, T&&)`, `emplace(pos, ...)` (static_vector.hpp:464-476, 512-518) -/
def insert (E : Elem α) (pos : Nat) (v : Arg α) : M (SV α) Nat := do
  let pos ← growAt E pos 1
  let a ← readArg v
  emplaceAt pos a
  pure pos

/-- the loop of `insert(pos, count, val)` (static_vector.hpp:481-484), `k` iterations left, the next one at `p` -/
def fillLoop (v : Arg α) (p : Nat) : Nat → M (SV α) Unit
  | 0 => pure ()
  | k+1 => do
    let a ← readArg v
    emplaceAt p a
    fillLoop v (p+1) k

/-- `insert(pos, count, val)` (static_vector.hpp:478-486) -/
def insertN (E : Elem α) (pos count : Nat) (v : Arg α) : M (SV α) Nat := do
  let pos ← growAt E pos count
  fillLoop v pos count
  pure pos

/-- the loop of the range insertions (static_vector.hpp:493-496, 504-508) -/
def copyLoop (p : Nat) : List α → M (SV α) Unit
  | [] => pure ()
  | a :: as => do
    emplaceAt p a
    copyLoop (p+1) as

/-- `insert(pos, first, last)`, `insert(pos, initializer_list)` (static_vector.hpp:488-510). The source range is a
sequence outside of the container. -/
def insertRange (E : Elem α) (pos : Nat) (xs : List α) : M (SV α) Nat := do
  let pos ← growAt E pos xs.length
  copyLoop pos xs
  pure pos

/-- `erase(pos)` (static_vector.hpp:520-523) -/
def erase (E : Elem α) (pos : Nat) : M (SV α) Nat := shrinkAt E pos 1

/-- `erase(first, last)` (static_vector.hpp:525-528); `last < first` is undefined -/
def eraseRange (E : Elem α) (first last : Nat) : M (SV α) Nat :=
  if first ≤ last then shrinkAt E first (last - first) else .undef

/-- `while (m_size > n) pop_back();` (static_vector.hpp:534-537, 549-552). Fuel: each iteration removes an element;
running out of fuel (which the theorems exclude) is reported as undefined. -/
def popLoop (E : Elem α) (n : Nat) : Nat → M (SV α) Unit
  | 0 => do let s ← M.get; if s.size > n then .undef else pure ()
  | f+1 => do
    let s ← M.get
    if s.size > n then do popBack E; popLoop E n f
    else pure ()

/-- `while (n > m_size) push_back(v);` (static_vector.hpp:539-542, 554-557), same remark on fuel -/
def pushLoop (v : Arg α) (n : Nat) : Nat → M (SV α) Unit
  | 0 => do let s ← M.get; if n > s.size then .undef else pure ()
  | f+1 => do
    let s ← M.get
    if n > s.size then do pushBack v; pushLoop v n f
    else pure ()

/-- `resize(n, v)` (static_vector.hpp:545-558) -/
def resizeV (E : Elem α) (n : Nat) (v : Arg α) : M (SV α) Unit := do
  let s ← M.get
  outOfRangeIf (n > s.buf.cap)
  popLoop E n s.size
  pushLoop v n n

/-- `resize(n)` (static_vector.hpp:530-543); `emplace_back()` with no arguments -/
def resize (E : Elem α) (n : Nat) : M (SV α) Unit := resizeV E n (.val E.dflt)

/-- `assign_impl_val` (static_vector.hpp:593-601): `count` times `push_back` -/
def pushN (v : Arg α) : Nat → M (SV α) Unit
  | 0 => pure ()
  | k+1 => do pushBack v; pushN v k

/-- `for (x : xs) push_back(x)` (static_vector.hpp:210-213, 608-611, 618-621) -/
def pushAll : List α → M (SV α) Unit
  | [] => pure ()
  | a :: as => do pushBack (.val a); pushAll as

/-- `assign_impl_val` (static_vector.hpp:593-601), also the constructor of lines 192-195 -/
def assignImplVal (count : Nat) (v : Arg α) : M (SV α) Unit := do
  let s ← M.get
  outOfRangeIf (count > s.buf.cap)
  pushN v count

/-- `assign_impl_iter`, `assign_impl_ilist` (static_vector.hpp:603-622), also the constructors of lines 197-206 -/
def assignImplRange (xs : List α) : M (SV α) Unit := do
  let s ← M.get
  outOfRangeIf (xs.length > s.buf.cap)
  pushAll xs

/-- `assign(count, value)` (static_vector.hpp:270-274) -/
def assignN (count : Nat) (v : Arg α) : M (SV α) Unit := do
  clear
  assignImplVal count v

/-- `assign(first, last)`, `assign(ilist)` (static_vector.hpp:276-287) -/
def assignRange (xs : List α) : M (SV α) Unit := do
  clear
  assignImplRange xs

/-- `~static_vector` (static_vector.hpp:236-239) -/
def dtor : M (SV α) Unit := clear

/-! ### Several vectors

Functions involving two vectors run on a store of vectors, addressed by ids, so that the same object can be given twice. -/

/-- All `static_vector` objects of a program: `vec i = none` if there is no vector object with id `i`. `graves`
records the storage of vectors whose lifetime has ended, as it was at that moment: an object still alive there was
leaked. -/
structure Store (α : Type) where
  vec : Nat → Option (SV α)
  graves : List (Buf α)

/-- replace vector `i` -/
def Store.put (st : Store α) (i : Nat) (v : Option (SV α)) : Store α :=
  { st with vec := Function.update st.vec i v }

/-- run a member function on vector `i` -/
def at' (i : Nat) {β : Type} (m : M (SV α) β) : M (Store α) β := fun st =>
  match st.vec i with
  | none => .ub
  | some v =>
    match m v with
    | .ok b v' => .ok b (st.put i (some v'))
    | .throw e v' => .throw e (st.put i (some v'))
    | .ub => .ub

/-- `for (const auto& i : v) push_back(i);` with `*this` = `dst`, `v` = `src` (static_vector.hpp:210-213, 250-253),
reading one element and pushing it, `f` iterations left, next index `k` -/
def copyFromLoop (dst src k : Nat) : Nat → M (Store α) Unit
  | 0 => pure ()
  | f+1 => do
    let a ← at' src (at_ k)
    at' dst (pushBack (.val a))
    copyFromLoop dst src (k+1) f

/-- `for (auto i = v.begin(); i != v.end(); ++i) emplace_back(std::move(*i));` (static_vector.hpp:229-232, 261-264).
`v.end()` is evaluated again in each iteration. Running out of fuel (which the theorems exclude) is reported as
undefined. -/
def moveFromLoop (E : Elem α) (dst src k : Nat) : Nat → M (Store α) Unit
  | 0 => do
    let n ← at' src (do let s ← M.get; pure s.size)
    if k = n then pure () else .undef
  | f+1 => do
    let n ← at' src (do let s ← M.get; pure s.size)
    if k = n then pure ()
    else do
      -- `*i` is read and left moved-from by the element constructor inside of `emplace_back`
      let a ← at' src (at_ k)
      let _ ← at' dst (emplaceBackMove a)
      at' src (onBuf fun b => b.assign k (E.mv a))
      moveFromLoop E dst src (k+1) f

/-- a vector comes to life: `static_vector v;` (static_vector.hpp:183) -/
def construct (i cap : Nat) (tick : Option Nat) : M (Store α) Unit := fun st =>
  match st.vec i with
  | some _ => .ub
  | none => .ok () (st.put i (some (empty cap tick)))

/-- the storage of vector `i` goes away, with whatever is in it -/
def bury (i : Nat) (st : Store α) : Store α :=
  match st.vec i with
  | none => st
  | some v => { vec := Function.update st.vec i none, graves := v.buf :: st.graves }

/-- the vector goes away (static_vector.hpp:236-239) -/
def destruct (i : Nat) : M (Store α) Unit := do
  at' i dtor
  M.modify (bury i)

/-- If an exception leaves the body of a constructor, no destructor of the vector runs: its storage goes away with
whatever is in it. -/
def ctorBody (i : Nat) (body : M (Store α) Unit) : M (Store α) Unit := fun st =>
  match body st with
  | .ok () st' => .ok () st'
  | .throw e st' => .throw e (bury i st')
  | .ub => .ub

/-- `static_vector(count)` (static_vector.hpp:187-190) -/
def ctorCount (E : Elem α) (i cap count : Nat) (tick : Option Nat) : M (Store α) Unit := do
  construct i cap tick
  ctorBody i (at' i (resize E count))

/-- `static_vector(count, value)` (static_vector.hpp:192-195) -/
def ctorVal (i cap count : Nat) (a : α) (tick : Option Nat) : M (Store α) Unit := do
  construct i cap tick
  ctorBody i (at' i (assignImplVal count (.val a)))

/-- `static_vector(first, last)`, `static_vector(ilist)` (static_vector.hpp:197-206) -/
def ctorRange (i cap : Nat) (xs : List α) (tick : Option Nat) : M (Store α) Unit := do
  construct i cap tick
  ctorBody i (at' i (assignImplRange xs))

/-- copy constructors, also from other capacities (static_vector.hpp:208-225). The range check of line 219 is vacuous
for equal capacities. -/
def copyCtor (i cap src : Nat) (tick : Option Nat) : M (Store α) Unit := do
  construct i cap tick
  ctorBody i do
    let n ← at' src (do let s ← M.get; pure s.size)
    if n > cap then .raise .outOfRange
    else copyFromLoop i src 0 n

/-- move constructor (static_vector.hpp:227-234) -/
def moveCtor (E : Elem α) (i src : Nat) : M (Store α) Unit := do
  let (cap, n) ← at' src (do let s ← M.get; pure (s.buf.cap, s.size))
  construct i cap none
  moveFromLoop E i src 0 n
  at' src clear

/-- copy assignment (static_vector.hpp:241-256) -/
def copyAssign (i src : Nat) : M (Store α) Unit :=
  if i = src then pure ()
  else do
    at' i clear
    let n ← at' src (do let s ← M.get; pure s.size)
    copyFromLoop i src 0 n

/-- move assignment (static_vector.hpp:258-268), no self check. The fuel is the size of the source before the call. -/
def moveAssign (E : Elem α) (i src : Nat) : M (Store α) Unit := do
  let n ← at' src (do let s ← M.get; pure s.size)
  at' i clear
  moveFromLoop E i src 0 n
  at' src clear

/-- `std::swap(a.at(k), b.at(k))` for elements of vectors `x` and `y` : `T t = move(p); p = move(q); q = move(t);` -/
def swapElem (E : Elem α) (x y k : Nat) : M (Store α) Unit := do
  let t ← at' x (at_ k)
  at' x (onBuf fun b => b.assign k (E.mv t))
  let q ← at' y (at_ k)
  at' y (onBuf fun b => b.assign k (E.mv q))
  at' x (onBuf fun b => b.assign k q)
  at' y (onBuf fun b => b.assign k t)

/-- loop of static_vector.hpp:576-579 -/
def swapLoop (E : Elem α) (x y k : Nat) : Nat → M (Store α) Unit
  | 0 => pure ()
  | f+1 => do
    swapElem E x y k
    swapLoop E x y (k+1) f

/-- loop of static_vector.hpp:583-587: the elements `[k, k+f)` of `l` (longer) move to the end of `s` (shorter) -/
def swapTail (E : Elem α) (s l k : Nat) : Nat → M (Store α) Unit
  | 0 => pure ()
  | f+1 => do
    let a ← at' l (at_ k)
    let _ ← at' s (emplaceBackMove a)
    at' l (onBuf fun b => b.assign k (E.mv a))
    at' l (onBuf fun b => b.destroy k)
    swapTail E s l (k+1) f

/-- `swap` (static_vector.hpp:560-590), `x.swap(y)` -/
def swap (E : Elem α) (x y : Nat) : M (Store α) Unit := do
  let sx ← at' x (do let s ← M.get; pure s.size)
  let sy ← at' y (do let s ← M.get; pure s.size)
  let longer := if sy > sx then y else x
  let shorter := if sy > sx then x else y
  let sl := if sy > sx then sy else sx
  let ss := if sy > sx then sx else sy
  swapLoop E shorter longer 0 ss
  swapTail E shorter longer ss (sl - ss)
  at' longer (M.modify fun s => { s with size := ss })

/-- loop of `operator==` (static_vector.hpp:684-688); `eqv` is the `operator==` of the elements -/
def eqLoop (eqv : α → α → Bool) (a b : SV α) (k : Nat) : Nat → Option Bool
  | 0 => some true
  | f+1 => do
    let x ← a.buf.read k
    let y ← b.buf.read k
    if !eqv x y then some false else eqLoop eqv a b (k+1) f

/-- `operator==` (static_vector.hpp:676-691); `none` is undefined behaviour -/
def eq (eqv : α → α → Bool) (a b : SV α) : Option Bool :=
  if a.size ≠ b.size then some false else eqLoop eqv a b 0 a.size

/-- `operator!=` (static_vector.hpp:693-697) -/
def ne (eqv : α → α → Bool) (a b : SV α) : Option Bool := (eq eqv a b).map (!·)

end Itlib.StaticVector
