import Verif.Core.Outcome
import Verif.Core.Buf
import Verif.Core.Elem

/-!
# Model of `small_vector.hpp`

Template parameters: `P.N = StaticCapacity` and `P.R = RevertToStaticBelow`. Configuration: the default
`ITLIB_SMALL_VECTOR_ERROR_HANDLING_THROW`, bounds checks on; a violated `assert` is undefined behaviour.

A pointer is a storage location (`Loc`: the static buffer of vector `i`, or heap block `k`) and an offset. Simplifications
common to all functions: `size_t` is unbounded; element types have non-throwing move constructors and destructors (the
library itself declares its moves `noexcept`); copy/emplace constructions may throw (`ctick`), allocations may throw
(`atick`); pointers below `begin()` can be formed and compared.
-/
namespace Itlib.SmallVector
open Itlib
variable {α : Type}

/-- `StaticCapacity` and `RevertToStaticBelow` (small_vector.hpp:197). -/
structure Params where
  N : Nat
  R : Nat

/-- Where a buffer lives: `m_static_data` of vector `i`, or the heap block `k`. -/
inductive Loc where
  | stat (i : Nat)
  | dyn (k : Nat)
  deriving DecidableEq, Repr

/-- The members of a `small_vector` (small_vector.hpp:1003-1006, and the allocator base 198): `m_begin` is
`(bgn, 0)`, `m_end` is `(endp, endo)`, `m_capacity` is `cap`, the allocator is named by the number `al`, `m_static_data` is
`stat`; `self` names the object itself (the address of `m_static_data`). -/
structure Vec (α : Type) where
  self : Nat
  bgn : Loc
  endp : Loc
  endo : Nat
  cap : Nat
  al : Nat
  stat : Buf α

/-- A heap block and the allocator it came from. -/
structure Block (α : Type) where
  al : Nat
  buf : Buf α

/-- What a member function of one vector acts on. `graves` collects the storage that was given back (to be able to say
that nothing alive was in it). `ctick = some k`: after `k` more successful ones, an element construction by copy throws;
`atick` likewise for allocations. -/
structure St (α : Type) where
  v : Vec α
  heap : Nat → Option (Block α)
  next : Nat
  graves : List (Buf α)
  ctick : Option Nat
  atick : Option Nat

/-- the storage at a location -/
def St.buf (s : St α) : Loc → Option (Buf α)
  | .stat i => if i = s.v.self then some s.v.stat else none
  | .dyn k => (s.heap k).map (·.buf)

/-- replace the storage at a location -/
def St.setBuf (s : St α) (l : Loc) (b : Buf α) : St α :=
  match l with
  | .stat _ => { s with v := { s.v with stat := b } }
  | .dyn k => { s with heap := Function.update s.heap k ((s.heap k).map fun x => { x with buf := b }) }

/-- operation on the storage at a location -/
def onLoc (l : Loc) (f : Buf α → Option (Buf α)) : M (St α) Unit := M.mem fun s => do
  let b ← s.buf l
  let b ← f b
  some (s.setBuf l b)

/-- operation on the storages at two different locations -/
def onLoc2 (src dst : Loc) (f : Buf α → Buf α → Option (Buf α × Buf α)) : M (St α) Unit := M.mem fun s => do
  if src = dst then none
  else
    let b ← s.buf src
    let c ← s.buf dst
    let (b, c) ← f b c
    some ((s.setBuf src b).setBuf dst c)

/-- `for (; k--; ++p, ++np) construct(np, std::move(*p));` from one buffer to another
(small_vector.hpp:484-487, 738-742, 791-794, 797-800). -/
def moveLoop (mv : α → α) : Nat → Nat → Nat → Buf α → Buf α → Option (Buf α × Buf α)
  | _, _, 0, b, c => some (b, c)
  | p, np, k+1, b, c => do
    let (a, b) ← b.moveOut mv p
    let c ← c.construct np a
    moveLoop mv (p+1) (np+1) k b c

/-- `for (; k--; ++p, ++np) { construct(np, std::move(*p)); destroy(p); }` from one buffer to another
(small_vector.hpp:535-540, 861-865, 872-876). -/
def relocLoop (mv : α → α) : Nat → Nat → Nat → Buf α → Buf α → Option (Buf α × Buf α)
  | _, _, 0, b, c => some (b, c)
  | p, np, k+1, b, c => do
    let (a, b) ← b.moveOut mv p
    let c ← c.construct np a
    let b ← b.destroy p
    relocLoop mv (p+1) (np+1) k b c

/-- `atraits::construct(get_alloc(), p, x)` with a constructor that may throw -/
def emplaceAt (l : Loc) (i : Nat) (a : α) : M (St α) Unit := fun s =>
  match s.ctick with
  | some 0 => .throw .element s
  | some (k+1) => onLoc l (·.construct i a) { s with ctick := some k }
  | none => onLoc l (·.construct i a) s

/-- `atraits::allocate(get_alloc(), n)`: a block nobody has; may throw. -/
def allocate (n : Nat) : M (St α) Loc := fun s =>
  let go (t : Option Nat) : Res (St α) Loc := .ok (.dyn s.next)
    { s with heap := Function.update s.heap s.next (some ⟨s.v.al, Buf.fresh n⟩), next := s.next + 1, atick := t }
  match s.atick with
  | some 0 => .throw .badAlloc s
  | some (k+1) => go (some k)
  | none => go none

/-- `atraits::deallocate(get_alloc(), p, n)`: undefined unless `p` is a block that this allocator gave out with size
`n`. -/
def deallocate (l : Loc) (n : Nat) : M (St α) Unit := M.mem fun s =>
  match l with
  | .stat _ => none
  | .dyn k =>
    match s.heap k with
    | none => none
    | some x =>
      if x.al = s.v.al ∧ x.buf.cap = n then
        some { s with heap := Function.update s.heap k none, graves := x.buf :: s.graves }
      else none

/-- A `const T&` argument: an object elsewhere, or a slot of some storage. -/
inductive Ref (α : Type) where
  | val (a : α)
  | slot (l : Loc) (i : Nat)

/-- binding a reference argument at the time of the call -/
def bindRef (v : Arg α) : M (St α) (Ref α) := do
  let s ← M.get
  match v with
  | .val a => pure (.val a)
  | .self i => pure (.slot s.v.bgn i)

/-- reading the object a reference refers to -/
def loadRef : Ref α → M (St α) α
  | .val a => pure a
  | .slot l i => M.load fun s => do
    let b ← s.buf l
    b.read i

/-- `size()` (small_vector.hpp:462-465); undefined if `m_begin` and `m_end` point into different storages. -/
def size : M (St α) Nat := do
  let s ← M.get
  if s.v.endp = s.v.bgn then pure s.v.endo else M.undef

/-- `is_static()` (small_vector.hpp:709-712) -/
def Vec.isStatic (v : Vec α) : Bool := v.bgn = .stat v.self

/-- `at(i)`, `operator[]` (small_vector.hpp:343-363) -/
def at_ (i : Nat) : M (St α) α := do
  let n ← size
  if i < n then
    let s ← M.get
    loadRef (.slot s.v.bgn i)
  else M.undef

/-- `back()` (small_vector.hpp:375-383); the pointer below the start of the storage is undefined behaviour when read. -/
def back : M (St α) α := do
  let s ← M.get
  if s.v.endo = 0 then M.undef else loadRef (.slot s.v.endp (s.v.endo - 1))

/-- `front()` (small_vector.hpp:365-373) -/
def front : M (St α) α := at_ 0

/-- `empty()` (small_vector.hpp:457-460): the pointers are compared -/
def isEmpty : M (St α) Bool := do
  let s ← M.get
  pure (decide (s.v.endp = s.v.bgn) && s.v.endo == 0)

/-- `v[i] = a` through the reference `at`/`operator[]` return (small_vector.hpp:343-363) -/
def setAt (i : Nat) (v : Arg α) : M (St α) Unit := do
  let r ← bindRef v
  let a ← loadRef r
  let _ ← at_ i
  let s ← M.get
  onLoc s.v.bgn (·.assign i a)

/-- `v[i] = std::move(v[j])`; the assignment of the element type takes the value of the source and leaves it moved-from.
Self-move of an element is left to the element type, and excluded. -/
def moveElem (E : Elem α) (i j : Nat) : M (St α) Unit := do
  let a ← at_ j
  let _ ← at_ i
  if i = j then M.undef
  else do
    let s ← M.get
    onLoc s.v.bgn (·.assign i a)
    onLoc s.v.bgn (·.assign j (E.mv a))

/-- reading through pointers from `l + p` up, `k` of them -/
def readUp (l : Loc) : Nat → Nat → M (St α) (List α)
  | _, 0 => pure []
  | p, k+1 => do
    let a ← loadRef (.slot l p)
    let as ← readUp l (p+1) k
    pure (a :: as)

/-- `for (auto i = begin(); i != end(); ++i) *i` (small_vector.hpp:396-424); runs past the storage if `m_begin` and `m_end`
do not point into the same one -/
def forward : M (St α) (List α) := do
  let s ← M.get
  if s.v.endp = s.v.bgn then readUp s.v.bgn 0 s.v.endo else M.undef

/-- reading through reverse iterators whose base is `l + p`, downwards: `*r` is `(l + p)[-1]` -/
def readDown (l : Loc) : Nat → M (St α) (List α)
  | 0 => pure []
  | p+1 => do
    let a ← loadRef (.slot l p)
    let as ← readDown l p
    pure (a :: as)

/-- `for (auto r = rbegin(); r != rend(); ++r) *r` (small_vector.hpp:426-454): from `end()` down to `begin()` -/
def backward : M (St α) (List α) := do
  let s ← M.get
  if s.v.endp = s.v.bgn then readDown s.v.endp s.v.endo else M.undef

/-- `while (ret.cap < desired_capacity) { ret.cap *= 3; ++ret.cap; ret.cap /= 2; }` (small_vector.hpp:966-972). The
first argument is fuel; a positive capacity grows in every round, so `desired_capacity` rounds suffice. -/
def growLoop (desired : Nat) : Nat → Nat → Nat
  | 0, c => c
  | f+1, c => if c < desired then growLoop desired f ((c * 3 + 1) / 2) else c

/-- `choose_data` (small_vector.hpp:956-998) -/
def chooseData (P : Params) (desired : Nat) : M (St α) (Loc × Nat) := do
  let s ← M.get
  if s.v.isStatic then
    if desired > P.N then
      let l ← allocate desired
      pure (l, desired)
    else pure (s.v.bgn, s.v.cap)
  else if desired > s.v.cap then
    let c := growLoop desired desired s.v.cap
    let l ← allocate c
    pure (l, c)
  else if desired < P.R then pure (.stat s.v.self, P.N)
  else pure (s.v.bgn, s.v.cap)

/-- `destroy_all` (small_vector.hpp:725-731); `m_end` keeps its value. -/
def destroyAll : M (St α) Unit := do
  let n ← size
  let s ← M.get
  onLoc s.v.bgn (·.destroyRange 0 n)

/-- set `m_begin = l; m_end = l + n; m_capacity = cap` -/
def setPtrs (l : Loc) (n cap : Nat) : M (St α) Unit :=
  M.modify fun s => { s with v := { s.v with bgn := l, endp := l, endo := n, cap := cap } }

/-- set `m_end = l + n` -/
def setEnd (l : Loc) (n : Nat) : M (St α) Unit :=
  M.modify fun s => { s with v := { s.v with endp := l, endo := n } }

/-- `if (!is_static()) deallocate(get_alloc(), m_begin, m_capacity)` -/
def freeDyn : M (St α) Unit := do
  let s ← M.get
  if s.v.isStatic then pure () else deallocate s.v.bgn s.v.cap

/-- `reserve` (small_vector.hpp:472-504) -/
def reserve (P : Params) (E : Elem α) (n : Nat) : M (St α) Unit := do
  let s ← M.get
  if n ≤ s.v.cap then pure ()
  else
    let (l, c) ← chooseData P n
    -- the two assertions
    if l = s.v.bgn ∨ l = .stat s.v.self then M.undef
    else
      let sz ← size
      onLoc2 s.v.bgn l (moveLoop E.mv 0 0 sz)
      onLoc s.v.bgn (·.destroyRange 0 sz)
      freeDyn
      setPtrs l sz c

/-- `shrink_to_fit` (small_vector.hpp:511-544). The new pointers are stored after the loop here (nothing in it can
throw). -/
def shrinkToFit (P : Params) (E : Elem α) : M (St α) Bool := do
  let sz ← size
  let s ← M.get
  if sz = s.v.cap then pure false
  else if s.v.isStatic then pure false
  else if sz < P.N then
    onLoc2 s.v.bgn (.stat s.v.self) (relocLoop E.mv 0 0 sz)
    setPtrs (.stat s.v.self) sz P.N
    deallocate s.v.bgn s.v.cap
    pure true
  else
    let l ← allocate sz
    onLoc2 s.v.bgn l (relocLoop E.mv 0 0 sz)
    setPtrs l sz sz
    deallocate s.v.bgn s.v.cap
    pure true

/-- `revert_to_static` (small_vector.hpp:549-557) -/
def revertToStatic (P : Params) (E : Elem α) : M (St α) Bool := do
  let sz ← size
  let s ← M.get
  if s.v.isStatic then pure true
  else if sz > P.N then pure false
  else
    let _ ← shrinkToFit P E
    pure true

/-- `clear` (small_vector.hpp:560-581) -/
def clear (P : Params) : M (St α) Unit := do
  destroyAll
  let s ← M.get
  if P.R > 0 ∧ ¬ s.v.isStatic then
    deallocate s.v.bgn s.v.cap
    setPtrs (.stat s.v.self) 0 P.N
  else setEnd s.v.bgn 0

/-- `grow_at` (small_vector.hpp:759-820); positions are offsets from `m_begin`. -/
def growAt (P : Params) (E : Elem α) (pos : Int) (num : Nat) : M (St α) (Loc × Nat) := do
  let sz ← size
  if pos < 0 ∨ pos > sz then M.raise .outOfRange
  else
    let pos := pos.toNat
    let (l, c) ← chooseData P (sz + num)
    let s ← M.get
    if l = s.v.bgn then
      setEnd s.v.bgn (sz + num)
      onLoc s.v.bgn (Buf.shiftUp E.mv num pos (sz - pos))
      pure (l, pos)
    else
      onLoc2 s.v.bgn l (moveLoop E.mv 0 0 pos)
      onLoc2 s.v.bgn l (moveLoop E.mv pos (pos + num) (sz - pos))
      onLoc s.v.bgn (·.destroyRange 0 sz)
      freeDyn
      setPtrs l (sz + num) c
      pure (l, pos)

/-- `shrink_at` (small_vector.hpp:822-888) -/
def shrinkAt (P : Params) (E : Elem α) (pos : Int) (num : Nat) : M (St α) Nat := do
  let sz ← size
  if pos < 0 ∨ pos > sz ∨ pos + num > sz then M.raise .outOfRange
  else
    let pos := pos.toNat
    if sz - num = 0 then
      clear P
      let s ← M.get
      pure s.v.endo
    else
      let (l, _) ← chooseData P (sz - num)
      let s ← M.get
      if l = s.v.bgn then
        onLoc s.v.bgn (fun b => b.shiftDown E.mv sz (b.cap + 1) pos (pos + num))
        onLoc s.v.bgn (·.destroyRange (sz - num) num)
        setEnd s.v.endp (sz - num)
        pure pos
      else if l ≠ .stat s.v.self then M.undef -- the assertion
      else
        onLoc2 s.v.bgn l (relocLoop E.mv 0 0 pos)
        onLoc s.v.bgn (·.destroyRange pos num)
        onLoc2 s.v.bgn l (relocLoop E.mv (pos + num) pos (sz - num - pos))
        deallocate s.v.bgn s.v.cap
        setPtrs l (sz - num) P.N
        pure pos

/-- `insert(position, const T&)`, `insert(position, T&&)`, `emplace` (small_vector.hpp:583-595, 631-637). The argument is
read when the element is constructed. -/
def insert (P : Params) (E : Elem α) (pos : Int) (v : Arg α) : M (St α) Nat := do
  let r ← bindRef v
  let (l, p) ← growAt P E pos 1
  let a ← loadRef r
  emplaceAt l p a
  pure p

/-- `for (i = 0; i < count; ++i) construct(pos + i, val)` (small_vector.hpp:600-603) -/
def fillAt (r : Ref α) (l : Loc) : Nat → Nat → M (St α) Unit
  | _, 0 => pure ()
  | p, k+1 => do
    let a ← loadRef r
    emplaceAt l p a
    fillAt r l (p+1) k

/-- `for (p = first; p != last; ++p, ++np) construct(np, *p)` (small_vector.hpp:612-615, 623-627) -/
def copyAt (l : Loc) : Nat → List α → M (St α) Unit
  | _, [] => pure ()
  | p, a :: as => do
    emplaceAt l p a
    copyAt l (p+1) as

/-- `insert(position, count, val)` (small_vector.hpp:597-605) -/
def insertN (P : Params) (E : Elem α) (pos : Int) (n : Nat) (v : Arg α) : M (St α) Nat := do
  let r ← bindRef v
  let (l, p) ← growAt P E pos n
  fillAt r l p n
  pure p

/-- `insert(position, first, last)`, `insert(position, initializer_list)` (small_vector.hpp:607-629); the range lies
outside of the vector. -/
def insertRange (P : Params) (E : Elem α) (pos : Int) (xs : List α) : M (St α) Nat := do
  let (l, p) ← growAt P E pos xs.length
  copyAt l p xs
  pure p

/-- `push_back` (small_vector.hpp:650-660) -/
def pushBack (P : Params) (E : Elem α) (v : Arg α) : M (St α) Unit := do
  let r ← bindRef v
  let sz ← size
  let (l, p) ← growAt P E sz 1
  let a ← loadRef r
  emplaceAt l p a

/-- `emplace_back` (small_vector.hpp:662-668); returns the position of the element whose reference it returns. -/
def emplaceBack (P : Params) (E : Elem α) (v : Arg α) : M (St α) Nat := do
  let r ← bindRef v
  let sz ← size
  let (l, p) ← growAt P E sz 1
  let a ← loadRef r
  emplaceAt l p a
  pure p

/-- `pop_back` (small_vector.hpp:670-673) -/
def popBack (P : Params) (E : Elem α) : M (St α) Unit := do
  let sz ← size
  let _ ← shrinkAt P E ((sz : Int) - 1) 1
  pure ()

/-- `erase(position)` (small_vector.hpp:639-642) -/
def erase (P : Params) (E : Elem α) (pos : Int) : M (St α) Nat := shrinkAt P E pos 1

/-- `erase(first, last)` (small_vector.hpp:644-648) -/
def eraseRange (P : Params) (E : Elem α) (first last : Int) : M (St α) Nat :=
  if first > last then M.raise .outOfRange else shrinkAt P E first (last - first).toNat

/-- `while (m_end > new_end) destroy(--m_end)` (small_vector.hpp:681-684, 698-701), `k` rounds -/
def popLoop : Nat → M (St α) Unit
  | 0 => pure ()
  | k+1 => do
    let s ← M.get
    setEnd s.v.endp (s.v.endo - 1)
    onLoc s.v.endp (·.destroy (s.v.endo - 1))
    popLoop k

/-- `while (new_end > m_end) construct(m_end++, v)` (small_vector.hpp:686-689, 703-706), `k` rounds; `m_end` is
incremented before the construction. -/
def pushLoop (r : Ref α) : Nat → M (St α) Unit
  | 0 => pure ()
  | k+1 => do
    let s ← M.get
    setEnd s.v.endp (s.v.endo + 1)
    let a ← loadRef r
    emplaceAt s.v.endp s.v.endo a
    pushLoop r k

/-- `resize(n, v)` (small_vector.hpp:675-690); `resize(n)` (692-707) is the case where the value is `T()`. -/
def resizeV (P : Params) (E : Elem α) (n : Nat) (v : Arg α) : M (St α) Unit := do
  let r ← bindRef v
  reserve P E n
  let sz ← size
  popLoop (sz - n)
  pushLoop r (n - sz)

/-- `for (i=0; i<count; ++i) { construct(m_end, value); ++m_end; }` (small_vector.hpp:895-899) -/
def fillEnd (r : Ref α) : Nat → M (St α) Unit
  | 0 => pure ()
  | k+1 => do
    let s ← M.get
    let a ← loadRef r
    emplaceAt s.v.endp s.v.endo a
    setEnd s.v.endp (s.v.endo + 1)
    fillEnd r k

/-- `for (p = first; p != last; ++p) { construct(m_end, *p); ++m_end; }` (small_vector.hpp:916-920, 937-941) -/
def copyEnd : List α → M (St α) Unit
  | [] => pure ()
  | a :: as => do
    let s ← M.get
    emplaceAt s.v.endp s.v.endo a
    setEnd s.v.endp (s.v.endo + 1)
    copyEnd as

/-- the end of `assign_fill/copy/move` (small_vector.hpp:901-907, 922-928, 943-949) -/
def adopt (l : Loc) (c : Nat) : M (St α) Unit := do
  let s ← M.get
  if ¬ s.v.isStatic ∧ s.v.bgn ≠ l then deallocate s.v.bgn s.v.cap else pure ()
  M.modify fun s => { s with v := { s.v with bgn := l, cap := c } }

/-- `assign_fill` (small_vector.hpp:890-908) -/
def assignFill (P : Params) (n : Nat) (r : Ref α) : M (St α) Unit := do
  let (l, c) ← chooseData P n
  setEnd l 0
  fillEnd r n
  adopt l c

/-- `assign_copy`, `assign_move` (small_vector.hpp:910-950); the elements of the source range are given as a list (the
source is outside of the vector; an `initializer_list` gives out copies). -/
def assignCopy (P : Params) (xs : List α) : M (St α) Unit := do
  let (l, c) ← chooseData P xs.length
  setEnd l 0
  copyEnd xs
  adopt l c

/-- `assign(count, value)` (small_vector.hpp:319-323) -/
def assignN (P : Params) (n : Nat) (v : Arg α) : M (St α) Unit := do
  let r ← bindRef v
  destroyAll
  assignFill P n r

/-- `assign(first, last)`, `assign(initializer_list)` (small_vector.hpp:325-336) -/
def assignRange (P : Params) (xs : List α) : M (St α) Unit := do
  destroyAll
  assignCopy P xs

/-- the body of the destructor (small_vector.hpp:273-281) -/
def dtorBody : M (St α) Unit := do
  destroyAll
  freeDyn

/-! ### Several vectors -/

/-- All vectors of a program, their common heap. -/
structure Mem (α : Type) where
  vec : Nat → Option (Vec α)
  heap : Nat → Option (Block α)
  next : Nat
  graves : List (Buf α)
  ctick : Option Nat
  atick : Option Nat

/-- what vector `v` sees -/
def Mem.view (m : Mem α) (v : Vec α) : St α := ⟨v, m.heap, m.next, m.graves, m.ctick, m.atick⟩
/-- and back -/
def Mem.upd (m : Mem α) (i : Nat) (s : St α) : Mem α :=
  ⟨Function.update m.vec i (some s.v), s.heap, s.next, s.graves, s.ctick, s.atick⟩

/-- a member function called on vector `i` -/
def at' {β : Type} (i : Nat) (f : M (St α) β) : M (Mem α) β := fun m =>
  match m.vec i with
  | none => .ub
  | some v =>
    match f (m.view v) with
    | .ok b s => .ok b (m.upd i s)
    | .throw e s => .throw e (m.upd i s)
    | .ub => .ub

/-- `small_vector(const Alloc&)`, `small_vector()` (small_vector.hpp:220-229) -/
def construct (P : Params) (i al : Nat) : M (Mem α) Unit := M.mem fun m =>
  match m.vec i with
  | some _ => none
  | none => some { m with vec := Function.update m.vec i (some ⟨i, .stat i, .stat i, 0, P.N, al, Buf.fresh P.N⟩) }

/-- `~small_vector()`; afterwards the object is gone, its static storage with it (small_vector.hpp:273-281). -/
def destruct (i : Nat) : M (Mem α) Unit := do
  at' i dtorBody
  M.mem fun m => do
    let v ← m.vec i
    some { m with vec := Function.update m.vec i none, graves := v.stat :: m.graves }

/-- the rest of a delegating constructor: if it throws, the destructor runs (C++11 [except.ctor]) -/
def ctorRest (i : Nat) (f : M (St α) Unit) : M (Mem α) Unit := fun m =>
  match at' i f m with
  | .ok _ m => .ok () m
  | .ub => .ub
  | .throw e m =>
    match destruct i m with
    | .ok _ m => .throw e m
    | .throw _ _ => .ub
    | .ub => .ub

/-- `small_vector(count, alloc)` (small_vector.hpp:231-235) -/
def ctorCount (P : Params) (E : Elem α) (i al n : Nat) : M (Mem α) Unit := do
  construct P i al
  ctorRest i (resizeV P E n (.val E.dflt))

/-- `small_vector(count, value, alloc)` (small_vector.hpp:237-241) -/
def ctorVal (P : Params) (i al n : Nat) (a : α) : M (Mem α) Unit := do
  construct P i al
  ctorRest i (assignFill P n (.val a))

/-- `small_vector(first, last, alloc)`, `small_vector(initializer_list, alloc)` (small_vector.hpp:243-254) -/
def ctorRange (P : Params) (i al : Nat) (xs : List α) : M (Mem α) Unit := do
  construct P i al
  ctorRest i (assignCopy P xs)

/-- the elements `[begin(), end())` of a vector -/
def elems : M (St α) (List α) := do
  let n ← size
  M.load fun s => do
    let b ← s.buf s.v.bgn
    (List.range n).mapM b.read

/-- `small_vector(const small_vector& v, const Alloc&)`, `small_vector(const small_vector&)`
(small_vector.hpp:256-264); the allocator is whatever `select_on_container_copy_construction` gives. -/
def copyCtor (P : Params) (i al j : Nat) : M (Mem α) Unit := do
  let xs ← at' j elems
  construct P i al
  ctorRest i (assignCopy P xs)

/-- `take_impl` (small_vector.hpp:733-754) of vector `i` from vector `j` -/
def takeImpl (P : Params) (E : Elem α) (i j : Nat) : M (Mem α) Unit := M.mem fun m => do
  if i = j then none
  else
    let vi ← m.vec i
    let vj ← m.vec j
    if vj.isStatic then
      if vj.endp = vj.bgn then
        let (bj, bi) ← moveLoop E.mv 0 0 vj.endo vj.stat vi.stat
        let bj ← bj.destroyRange 0 vj.endo
        let vi := { vi with bgn := .stat i, endp := .stat i, endo := vj.endo, stat := bi }
        let vj := { vj with bgn := .stat j, endp := .stat j, endo := 0, cap := P.N, stat := bj }
        some { m with vec := Function.update (Function.update m.vec i (some vi)) j (some vj) }
      else none
    else
      let vi := { vi with bgn := vj.bgn, endp := vj.endp, endo := vj.endo }
      let vj := { vj with bgn := .stat j, endp := .stat j, endo := 0, cap := P.N }
      some { m with vec := Function.update (Function.update m.vec i (some vi)) j (some vj) }

/-- `small_vector(small_vector&&)` (small_vector.hpp:266-271) -/
def moveCtor (P : Params) (E : Elem α) (i j : Nat) : M (Mem α) Unit := do
  let m ← M.get
  match m.vec j with
  | none => M.undef
  | some vj =>
    construct P i vj.al
    at' i (M.modify fun s => { s with v := { s.v with cap := vj.cap } })
    takeImpl P E i j

/-- `operator=(const small_vector&)` (small_vector.hpp:283-295) -/
def copyAssign (P : Params) (i j : Nat) : M (Mem α) Unit :=
  if i = j then at' i (pure ())
  else do
    let xs ← at' j elems
    at' i (do
      destroyAll
      assignCopy P xs)

/-- `operator=(small_vector&&)` (small_vector.hpp:297-317) -/
def moveAssign (P : Params) (E : Elem α) (i j : Nat) : M (Mem α) Unit :=
  if i = j then at' i (pure ())
  else do
    let m ← M.get
    match m.vec j with
    | none => M.undef
    | some vj =>
      at' i (do
        destroyAll
        freeDyn
        M.modify fun s => { s with v := { s.v with al := vj.al, cap := vj.cap } })
      takeImpl P E i j

/-- the loop of `operator==` (small_vector.hpp:1021-1025); `eqv` is the `operator==` of the elements -/
def eqLoop (eqv : α → α → Bool) (a b : St α) : Nat → Nat → Option Bool
  | _, 0 => some true
  | i, k+1 =>
    match at_ i a, at_ i b with
    | .ok x _, .ok y _ => if !eqv x y then some false else eqLoop eqv a b (i+1) k
    | _, _ => none

/-- `operator==` (small_vector.hpp:1013-1028) -/
def eq (eqv : α → α → Bool) (a b : St α) : Option Bool :=
  match size a, size b with
  | .ok m _, .ok n _ => if m ≠ n then some false else eqLoop eqv a b 0 m
  | _, _ => none

/-- `operator!=` (small_vector.hpp:1034-1039) -/
def ne (eqv : α → α → Bool) (a b : St α) : Option Bool := (eq eqv a b).map (!·)

end Itlib.SmallVector
