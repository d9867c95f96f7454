import Verif.Core.Outcome
import Verif.Core.Elem
import Mathlib.Logic.Function.Basic

/-!
# Model of `pod_vector.hpp`

Bytes are what is modelled: an element is a list of `sizeof(T)` bytes (`T` is trivial, so copying it is copying bytes); a
heap block is a row of cells, each a byte or indeterminate. A pointer is the address of a block and an offset into it;
its numeric value is their sum. The allocator is an arbitrary oracle: it decides which (unused) address a new block gets,
whether `realloc` moves and whether `expand` succeeds, and which requests it cannot satisfy; it reports these by a null
pointer, like the default one, or by an exception, as an allocator of the user's may.

Simplifications common to all functions: `size_t` is unbounded (so no overflow of `n * sizeof(T)`); all vectors have
interchangeable allocators. Positions (iterator arguments) are indices. Adding to a null pointer is not by itself undefined
(accessing the result is).
-/
namespace Itlib.PodVector
open Itlib

abbrev Byte := BitVec 8
/-- a byte of memory; `none` is indeterminate -/
abbrev Cell := Option Byte

/-- a block of memory given out by the allocator -/
structure Block where
  size : Nat
  cells : Nat → Cell

/-- `n` cells from offset `off` -/
def Block.sl (b : Block) (off n : Nat) : List Cell := (List.range n).map fun i => b.cells (off + i)
/-- the block with the cells `l` written at offset `off` -/
def Block.wr (b : Block) (off : Nat) (l : List Cell) : Block :=
  { b with cells := fun i => if off ≤ i ∧ i < off + l.length then l.getD (i - off) none else b.cells i }
/-- the block with another size; old cells stay, new ones are indeterminate -/
def Block.resize (b : Block) (n : Nat) : Block := ⟨n, fun i => if i < b.size then b.cells i else none⟩

abbrev Heap := Nat → Option Block

/-- The template argument `Alloc` and its behaviour at run time (the traits are documented at pod_vector.hpp:87-103; default
`impl::pod_allocator` at 124-146). `pick h t n`: the address of the block of `n` bytes given out as the `t`-th action in
heap `h`; `moves t`: `realloc` gives out another block; `expands t`: `expand` succeeds; `fails t n`: there is no memory for
a request of `n` bytes made as the `t`-th action, which `malloc` and `realloc` tell by an exception if `throws`, and by
returning `nullptr` if not (as `std::malloc` does). -/
structure Alloc where
  align : Nat
  hasExpand : Bool
  wasteful : Nat
  zeroFill : Bool
  pick : Heap → Nat → Nat → Nat
  moves : Nat → Bool
  expands : Nat → Bool
  fails : Nat → Nat → Bool
  throws : Bool

/-- `sizeof(T)`, `alignof(T)`, the allocator -/
structure Params where
  sz : Nat
  al : Nat
  A : Alloc

structure Ptr where
  base : Nat
  off : Nat
  deriving DecidableEq

/-- `nullptr` -/
def null : Ptr := ⟨0, 0⟩
/-- the numeric value, as by `reinterpret_cast<uintptr_t>` -/
def Ptr.addr (p : Ptr) : Nat := p.base + p.off
def Ptr.add (p : Ptr) (bytes : Nat) : Ptr := ⟨p.base, p.off + bytes⟩

/-- The members of a `pod_vector` (pod_vector.hpp:903-906). -/
structure Vec where
  bgn : Ptr
  endp : Ptr
  cap : Nat

structure St where
  v : Vec
  heap : Heap
  tick : Nat

/-! ### Memory and allocator -/

/-- the `n > 0` or more cells at a pointer: undefined outside of the block -/
def readAt (p : Ptr) (n : Nat) : M St (List Cell) := M.load fun s =>
  match s.heap p.base with
  | none => none
  | some b => if p.off + n ≤ b.size then some (b.sl p.off n) else none

/-- overwrite cells at a pointer -/
def writeAt (p : Ptr) (l : List Cell) : M St Unit := M.mem fun s =>
  match s.heap p.base with
  | none => none
  | some b =>
    if p.off + l.length ≤ b.size then some { s with heap := Function.update s.heap p.base (some (b.wr p.off l)) }
    else none

/-- `memcpy`, `memmove` of `n` bytes -/
def copyBytes (dst src : Ptr) (n : Nat) : M St Unit := do
  let l ← readAt src n
  writeAt dst l

/-- a request that cannot be satisfied -/
def noMemory (A : Alloc) : M St Ptr := fun s =>
  if A.throws then .throw .badAlloc { s with tick := s.tick + 1 } else .ok null { s with tick := s.tick + 1 }

/-- `Alloc::malloc` (pod_vector.hpp:128) -/
def malloc (A : Alloc) (n : Nat) : M St Ptr := fun s =>
  if A.fails s.tick n then noMemory A s
  else .ok ⟨A.pick s.heap s.tick n, 0⟩
    { s with heap := Function.update s.heap (A.pick s.heap s.tick n) (some ⟨n, fun _ => none⟩), tick := s.tick + 1 }

/-- `Alloc::free` (pod_vector.hpp:129): undefined unless null or the start of a live block -/
def free (p : Ptr) : M St Unit := M.mem fun s =>
  if p = null then some s
  else if p.off = 0 then
    match s.heap p.base with
    | none => none
    | some _ => some { s with heap := Function.update s.heap p.base none }
  else none

/-- `Alloc::realloc` (pod_vector.hpp:143): in place, or a new block with the old bytes, the old block being released;
on failure the old block is kept -/
def realloc (A : Alloc) (p : Ptr) (n : Nat) : M St Ptr := fun s =>
  if p = null then malloc A n s
  else if p.off = 0 then
    match s.heap p.base with
    | none => .ub
    | some b =>
      if A.fails s.tick n then noMemory A s
      else if A.moves s.tick then
        .ok ⟨A.pick s.heap s.tick n, 0⟩ { s with
          heap := Function.update (Function.update s.heap p.base none) (A.pick s.heap s.tick n) (some (b.resize n)),
          tick := s.tick + 1 }
      else .ok p { s with heap := Function.update s.heap p.base (some (b.resize n)), tick := s.tick + 1 }
  else .ub

/-- `Alloc::expand` (pod_vector.hpp:137, documented at 101-102): resize in place or fail -/
def expand (A : Alloc) (p : Ptr) (n : Nat) : M St Bool := fun s =>
  if p.off = 0 then
    match s.heap p.base with
    | none => .ub
    | some b =>
      if A.expands s.tick then
        .ok true { s with heap := Function.update s.heap p.base (some (b.resize n)), tick := s.tick + 1 }
      else .ok false { s with tick := s.tick + 1 }
  else .ub

/-- `allocator_aligned()` (pod_vector.hpp:794-797) -/
def Params.aligned (P : Params) : Bool := P.al ≤ P.A.align

/-- `real_addr` (pod_vector.hpp:799-810) -/
def realAddr (P : Params) (p : Ptr) : M St Ptr :=
  if P.aligned then pure p
  else if p = null then pure null
  else if p.off = 0 then M.undef
  else do
    let l ← readAt ⟨p.base, p.off - 1⟩ 1
    match l with
    | [some c] => if c.toNat ≤ p.off then pure ⟨p.base, p.off - c.toNat⟩ else M.undef
    | _ => M.undef

/-- `align_ptr` (pod_vector.hpp:812-823); `uint8_t(offset)` is the offset modulo 256 -/
def alignPtr (P : Params) (p : Ptr) : M St Ptr :=
  if p = null then pure null
  else do
    let offset := P.al - p.addr % P.al
    writeAt ⟨p.base, p.off + offset - 1⟩ [some (BitVec.ofNat 8 offset)]
    pure (p.add offset)

/-- `a_malloc` (pod_vector.hpp:825-837) -/
def aMalloc (P : Params) (n : Nat) : M St Ptr :=
  if P.aligned then malloc P.A (n * P.sz)
  else do
    let p ← malloc P.A (n * P.sz + P.al)
    alignPtr P p

/-- `a_free_begin` (pod_vector.hpp:881-891) -/
def aFreeBegin (P : Params) : M St Unit := do
  let s ← M.get
  let p ← realAddr P s.v.bgn
  free p

/-- `size()` (pod_vector.hpp:426-429) -/
def size (P : Params) : M St Nat := do
  let s ← M.get
  if s.v.endp.base = s.v.bgn.base ∧ s.v.bgn.off ≤ s.v.endp.off then pure ((s.v.endp.off - s.v.bgn.off) / P.sz)
  else M.undef

def setBegin (p : Ptr) : M St Unit := M.modify fun s => { s with v := { s.v with bgn := p } }
def setCap (c : Nat) : M St Unit := M.modify fun s => { s with v := { s.v with cap := c } }
/-- `m_end = m_begin + n` -/
def setSize (P : Params) (n : Nat) : M St Unit :=
  M.modify fun s => { s with v := { s.v with endp := s.v.bgn.add (n * P.sz) } }

/-- `a_realloc_begin` (pod_vector.hpp:839-863) -/
def aReallocBegin (P : Params) (n : Nat) : M St Unit := do
  let s ← M.get
  if P.aligned then
    let p ← realloc P.A s.v.bgn (n * P.sz)
    setBegin p
  else
    let p ← aMalloc P n
    if s.v.bgn = null then pure ()
    else
      let k ← size P
      copyBytes p s.v.bgn (k * P.sz)
      aFreeBegin P
    setBegin p
  setCap n

/-- `a_expand_begin` (pod_vector.hpp:865-879) -/
def aExpandBegin (P : Params) (n : Nat) : M St Bool := do
  let s ← M.get
  let ok ← if P.aligned then expand P.A s.v.bgn (n * P.sz)
    else do
      let p ← realAddr P s.v.bgn
      expand P.A p (n * P.sz + P.al)
  if ok then
    setCap n
    pure true
  else pure false

/-- the loop of `get_new_capacity`; the first argument is fuel, a positive capacity grows in every round, so
`desired_capacity` rounds suffice -/
def growLoop (desired : Nat) : Nat → Nat → Nat
  | 0, c => c
  | f+1, c => if c < desired then growLoop desired f ((c * 3 + 1) / 2) else c

/-- `get_new_capacity` (pod_vector.hpp:655-675) -/
def getNewCapacity (cap desired : Nat) : Nat := if cap = 0 then desired else growLoop desired desired cap

/-! ### The public interface -/

/-- `malloc_copy` in `reserve` (pod_vector.hpp:450-456) -/
def mallocCopy (P : Params) (newCap s : Nat) : M St Unit := do
  let p ← aMalloc P newCap
  let st ← M.get
  if s ≠ 0 then copyBytes p st.v.bgn (s * P.sz) else pure ()
  aFreeBegin P
  setBegin p
  setCap newCap

/-- `reserve` (pod_vector.hpp:441-487) -/
def reserve (P : Params) (n : Nat) : M St Bool := do
  let st ← M.get
  if n ≤ st.v.cap then pure false
  else
    let old := st.v.bgn
    let newCap := getNewCapacity st.v.cap n
    let s ← size P
    if P.A.hasExpand then
      if old = null then
        let p ← aMalloc P newCap
        setBegin p
        setCap newCap
      else
        let ok ← aExpandBegin P newCap
        if ok then pure () else mallocCopy P newCap s
    else if (st.v.cap - s) * P.sz > P.A.wasteful then mallocCopy P newCap s
    else aReallocBegin P newCap
    setSize P s
    let st ← M.get
    pure (decide (old.addr ≠ st.v.bgn.addr))

/-- `shrink_to_fit` (pod_vector.hpp:494-530) -/
def shrinkToFit (P : Params) : M St Bool := do
  let s ← size P
  let st ← M.get
  if s = st.v.cap then pure false
  else if s = 0 then
    aFreeBegin P
    setCap 0
    setBegin null
    setSize P 0
    pure true
  else
    let old := st.v.bgn
    if P.A.hasExpand then
      let ok ← aExpandBegin P s
      if ok then pure ()
      else
        let p ← aMalloc P s
        copyBytes p st.v.bgn (s * P.sz)
        aFreeBegin P
        setBegin p
        setCap s
    else aReallocBegin P s
    setSize P s
    let st ← M.get
    pure (decide (old.addr ≠ st.v.bgn.addr))

/-- `clear` (pod_vector.hpp:533-536) -/
def clear (P : Params) : M St Unit := setSize P 0

/-- A `const T&` argument, bound at the time of the call. -/
inductive Ref where
  | val (a : List Byte)
  | slot (p : Ptr)

def bindRef (P : Params) (v : Arg (List Byte)) : M St Ref := do
  let s ← M.get
  match v with
  | .val a => pure (.val a)
  | .self i => pure (.slot (s.v.bgn.add (i * P.sz)))

/-- the bytes of the object referred to -/
def loadRef (P : Params) : Ref → M St (List Cell)
  | .val a => pure (a.map some)
  | .slot p => readAt p P.sz

/-- `fill` (pod_vector.hpp:635-638), `std::fill` being a loop of assignments: `k` elements from `p` -/
def fill (P : Params) (r : Ref) : Ptr → Nat → M St Unit
  | _, 0 => pure ()
  | p, k+1 => do
    let l ← loadRef P r
    writeAt p l
    fill P r (p.add P.sz) k

/-- `copy_not_aliased` (pod_vector.hpp:640-652) -/
def copyIn (p : Ptr) (l : List Cell) : M St Unit := if l = [] then pure () else writeAt p l

/-- `resize(n)` (pod_vector.hpp:615-624) -/
def resize (P : Params) (n : Nat) : M St Bool := do
  let ret ← reserve P n
  let s ← size P
  let st ← M.get
  if n > s ∧ P.A.zeroFill then writeAt st.v.endp (List.replicate ((n - s) * P.sz) (some 0)) else pure ()
  setSize P n
  pure ret

/-- `resize(n, val)` (pod_vector.hpp:607-613): fills `n` elements from the old end on -/
def resizeV (P : Params) (n : Nat) (v : Arg (List Byte)) : M St Bool := do
  let r ← bindRef P v
  let ret ← reserve P n
  let st ← M.get
  fill P r st.v.endp n
  setSize P n
  pure ret

/-- `make_gap` in `grow_at` (pod_vector.hpp:691-693) -/
def makeGap (P : Params) (s pos num : Nat) : M St Unit := do
  let st ← M.get
  copyBytes (st.v.bgn.add ((pos + num) * P.sz)) (st.v.bgn.add (pos * P.sz)) ((s - pos) * P.sz)

/-- `malloc_copy` in `grow_at` (pod_vector.hpp:699-708) -/
def mallocGap (P : Params) (newCap s pos num : Nat) : M St Unit := do
  let p ← aMalloc P newCap
  let st ← M.get
  if pos ≠ 0 then copyBytes p st.v.bgn (pos * P.sz) else pure ()
  copyBytes (p.add ((pos + num) * P.sz)) (st.v.bgn.add (pos * P.sz)) ((s - pos) * P.sz)
  aFreeBegin P
  setBegin p
  setCap newCap

/-- `grow_at` (pod_vector.hpp:680-742); undefined for positions past the end (a negative length is moved) -/
def growAt (P : Params) (pos num : Nat) : M St Ptr := do
  let s ← size P
  if pos > s then M.undef
  else
    if pos = s then
      let _ ← resize P (s + num)
    else
      let st ← M.get
      if s + num > st.v.cap then
        let newCap := getNewCapacity st.v.cap (s + num)
        if P.A.hasExpand then
          let ok ← aExpandBegin P newCap
          if ok then makeGap P s pos num else mallocGap P newCap s pos num
        else if (st.v.cap - pos) * P.sz > P.A.wasteful then mallocGap P newCap s pos num
        else
          aReallocBegin P newCap
          makeGap P s pos num
      else makeGap P s pos num
    setSize P (s + num)
    let st ← M.get
    pure (st.v.bgn.add (pos * P.sz))

/-- `shrink_at` (pod_vector.hpp:746-762); undefined past the end -/
def shrinkAt (P : Params) (pos num : Nat) : M St Unit := do
  let s ← size P
  if s = num then clear P
  else if pos + num > s then M.undef
  else
    let st ← M.get
    copyBytes (st.v.bgn.add (pos * P.sz)) (st.v.bgn.add ((pos + num) * P.sz)) ((s - pos - num) * P.sz)
    setSize P (s - num)

/-- `insert(position, val)`, `emplace` (pod_vector.hpp:538-543, 567-571) -/
def insert (P : Params) (pos : Nat) (v : Arg (List Byte)) : M St Unit := do
  let r ← bindRef P v
  let p ← growAt P pos 1
  let l ← loadRef P r
  writeAt p l

/-- `insert(position, count, val)` (pod_vector.hpp:545-550) -/
def insertN (P : Params) (pos n : Nat) (v : Arg (List Byte)) : M St Unit := do
  let r ← bindRef P v
  let p ← growAt P pos n
  fill P r p n

/-- `insert(position, first, last)`, `insert(position, ilist)` (pod_vector.hpp:552-565); the range is elsewhere -/
def insertRange (P : Params) (pos : Nat) (ys : List (List Byte)) : M St Unit := do
  let p ← growAt P pos ys.length
  copyIn p (ys.flatten.map some)

/-- `emplace_back()` (pod_vector.hpp:584-589) -/
def emplaceBack (P : Params) : M St Unit := do
  let s ← size P
  let _ ← reserve P (s + 1)
  M.modify fun st => { st with v := { st.v with endp := st.v.endp.add P.sz } }

/-- `back()` (pod_vector.hpp:339-347) -/
def backPtr (P : Params) : M St Ptr := do
  let s ← M.get
  if s.v.endp.off < P.sz then M.undef else pure ⟨s.v.endp.base, s.v.endp.off - P.sz⟩

/-- `push_back(val)`, `emplace_back(val)` (pod_vector.hpp:591-600); the argument is read last -/
def pushBack (P : Params) (v : Arg (List Byte)) : M St Unit := do
  let r ← bindRef P v
  emplaceBack P
  let p ← backPtr P
  let l ← loadRef P r
  writeAt p l

/-- `pop_back` (pod_vector.hpp:602-605): `shrink_at(m_end - 1, 1)`; undefined if empty -/
def popBack (P : Params) : M St Unit := do
  let s ← size P
  if s = 0 then M.undef else shrinkAt P (s - 1) 1

/-- `safe_grow` (pod_vector.hpp:765-773) -/
def safeGrow (P : Params) (n : Nat) : M St Unit := do
  let st ← M.get
  if n ≤ st.v.cap then pure ()
  else
    aFreeBegin P
    setCap (getNewCapacity st.v.cap n)
    let p ← aMalloc P (getNewCapacity st.v.cap n)
    M.modify fun s => { s with v := { s.v with bgn := p, endp := p } }

/-- `assign(count, value)` via `assign_fill` (pod_vector.hpp:288-291, 776-781) -/
def assignN (P : Params) (n : Nat) (v : Arg (List Byte)) : M St Unit := do
  let r ← bindRef P v
  safeGrow P n
  let st ← M.get
  fill P r st.v.bgn n
  setSize P n

/-- `assign_copy` (pod_vector.hpp:784-791) of `n` elements that have the bytes `l` -/
def assignCopy (P : Params) (n : Nat) (l : List Cell) : M St Unit := do
  safeGrow P n
  let st ← M.get
  copyIn st.v.bgn l
  setSize P n

/-- `at(i)`, `operator[]` (pod_vector.hpp:309-327): the bytes of an element; undefined if one is indeterminate -/
def at_ (P : Params) (i : Nat) : M St (List Byte) := do
  let s ← M.get
  let l ← readAt (s.v.bgn.add (i * P.sz)) P.sz
  match l.mapM id with
  | some bs => pure bs
  | none => M.undef

/-- `back()` -/
def back (P : Params) : M St (List Byte) := do
  let p ← backPtr P
  let l ← readAt p P.sz
  match l.mapM id with
  | some bs => pure bs
  | none => M.undef

/-- `*(begin() + i) = x`, writing through `at`, `operator[]` or an iterator -/
def setAt (P : Params) (i : Nat) (x : List Byte) : M St Unit := do
  let s ← M.get
  writeAt (s.v.bgn.add (i * P.sz)) (x.map some)

/-- the bytes of `[begin(), end())` -/
def bytes (P : Params) : M St (List Cell) := do
  let n ← size P
  let s ← M.get
  if n = 0 then pure [] else readAt s.v.bgn (n * P.sz)

/-! ### Several vectors, of several element types, on one heap -/

/-- `sizeof` and `alignof` of an element type -/
structure Ty where
  sz : Nat
  al : Nat
  deriving DecidableEq

def Ty.params (T : Ty) (A : Alloc) : Params := ⟨T.sz, T.al, A⟩

structure Mem where
  vec : Nat → Option (Ty × Vec)
  heap : Heap
  tick : Nat

/-- a member function called on vector `i` -/
def at' {β : Type} (A : Alloc) (i : Nat) (f : Params → M St β) : M Mem β := fun m =>
  match m.vec i with
  | none => .ub
  | some (T, v) =>
    match f (T.params A) ⟨v, m.heap, m.tick⟩ with
    | .ok b s => .ok b ⟨Function.update m.vec i (some (T, s.v)), s.heap, s.tick⟩
    | .throw e s => .throw e ⟨Function.update m.vec i (some (T, s.v)), s.heap, s.tick⟩
    | .ub => .ub

/-- `pod_vector()`, `pod_vector(const Alloc&)` (pod_vector.hpp:171-180) -/
def construct (i : Nat) (T : Ty) : M Mem Unit := M.mem fun m =>
  match m.vec i with
  | some _ => none
  | none => some { m with vec := Function.update m.vec i (some (T, ⟨null, null, 0⟩)) }

/-- `~pod_vector()` (pod_vector.hpp:227-230) -/
def destruct (A : Alloc) (i : Nat) : M Mem Unit := do
  at' A i aFreeBegin
  M.modify fun m => { m with vec := Function.update m.vec i none }

/-- The body of a constructor that delegates to `pod_vector(alloc)`: the object counts as constructed already, so when the
body throws, it is destroyed. -/
def ctorBody {β : Type} (A : Alloc) (i : Nat) (f : Params → M St β) : M Mem β := fun m =>
  match at' A i f m with
  | .ok u m' => .ok u m'
  | .throw e m' =>
    match destruct A i m' with
    | .ok _ m'' => .throw e m''
    | .throw _ _ => .ub
    | .ub => .ub
  | .ub => .ub

/-- `pod_vector(count)` (pod_vector.hpp:182-186) -/
def ctorCount (A : Alloc) (i : Nat) (T : Ty) (n : Nat) : M Mem Unit := do
  construct i T
  let _ ← ctorBody A i (fun P => resize P n)

/-- `pod_vector(count, value)` (pod_vector.hpp:188-192) -/
def ctorVal (A : Alloc) (i : Nat) (T : Ty) (n : Nat) (a : List Byte) : M Mem Unit := do
  construct i T
  ctorBody A i (fun P => assignN P n (.val a))

/-- `pod_vector(first, last)`, `pod_vector(ilist)` (pod_vector.hpp:194-205) -/
def ctorRange (A : Alloc) (i : Nat) (T : Ty) (ys : List (List Byte)) : M Mem Unit := do
  construct i T
  ctorBody A i (fun P => assignCopy P ys.length (ys.flatten.map some))

/-- the element type of vector `i` -/
def tyOf (i : Nat) : M Mem Ty := M.load fun m => (m.vec i).map (·.1)

/-- `pod_vector(const pod_vector&)` (pod_vector.hpp:207-215) -/
def copyCtor (A : Alloc) (i j : Nat) : M Mem Unit := do
  let T ← tyOf j
  let n ← at' A j size
  let l ← at' A j bytes
  construct i T
  ctorBody A i (fun P => assignCopy P n l)

/-- take over the members of vector `j`, leaving it empty (the common end of move construction and assignment,
pod_vector.hpp:218-225, 246-252) -/
def take (i j : Nat) : M Mem Unit := M.mem fun m =>
  match m.vec j with
  | none => none
  | some (T, v) =>
    some { m with vec := Function.update (Function.update m.vec i (some (T, v))) j (some (T, ⟨null, null, 0⟩)) }

/-- `pod_vector(pod_vector&&)` (pod_vector.hpp:217-225) -/
def moveCtor (i j : Nat) : M Mem Unit := do
  let T ← tyOf j
  construct i T
  take i j

/-- `operator=(const pod_vector&)` (pod_vector.hpp:232-238) -/
def copyAssign (A : Alloc) (i j : Nat) : M Mem Unit :=
  if i = j then at' A i (fun _ => pure ())
  else do
    at' A i clear
    let n ← at' A j size
    let l ← at' A j bytes
    at' A i (fun P => assignCopy P n l)

/-- `operator=(pod_vector&&)` (pod_vector.hpp:240-255) -/
def moveAssign (A : Alloc) (i j : Nat) : M Mem Unit :=
  if i = j then at' A i (fun _ => pure ())
  else do
    at' A i aFreeBegin
    take i j

/-- `i.swap(j)` (pod_vector.hpp:626-631) with a temporary object named `t` -/
def swap (A : Alloc) (t i j : Nat) : M Mem Unit := do
  moveCtor t j
  moveAssign A j i
  moveAssign A i t
  destruct A t

/-- `i.recast_copy_from(j)` (pod_vector.hpp:257-264); the source is another object -/
def recastCopy (A : Alloc) (i j : Nat) : M Mem Unit := do
  at' A i clear
  let U ← tyOf j
  let n ← at' A j size
  let l ← at' A j bytes
  at' A i (fun P => assignCopy P (n * U.sz / P.sz) (l.take (n * U.sz / P.sz * P.sz)))

/-- `i.recast_take_from(std::move(j))` (pod_vector.hpp:266-286); the static assertion is a precondition -/
def recastTake (A : Alloc) (i j : Nat) : M Mem Unit := do
  at' A i aFreeBegin
  let T ← tyOf i
  let U ← tyOf j
  let n ← at' A j size
  if (T.params A).aligned ≠ (U.params A).aligned then M.undef
  else M.mem fun m =>
    match m.vec j with
    | none => none
    | some (_, v) =>
      some { m with vec := Function.update (Function.update m.vec i
        (some (T, ⟨v.bgn, v.bgn.add (n * U.sz / T.sz * T.sz), U.sz * v.cap / T.sz⟩))) j (some (U, ⟨null, null, 0⟩)) }

/-- `memcmp(a, b, n) == 0` on known bytes; undefined on indeterminate ones -/
def memEq (a b : List Cell) : Option Bool := do
  let x ← a.mapM id
  let y ← b.mapM id
  some (decide (x = y))

/-- `operator==` (pod_vector.hpp:909-915) -/
def eq (P : Params) (a b : St) : Option Bool :=
  match size P a, size P b with
  | .ok m _, .ok n _ =>
    if m ≠ n then some false
    else if m = 0 then some true
    else
      match readAt a.v.bgn (m * P.sz) a, readAt b.v.bgn (m * P.sz) b with
      | .ok x _, .ok y _ => memEq x y
      | _, _ => none
  | _, _ => none

/-- `operator!=` (pod_vector.hpp:917-923) -/
def ne (P : Params) (a b : St) : Option Bool :=
  match size P a, size P b with
  | .ok m _, .ok n _ =>
    if m ≠ n then some true
    else if m = 0 then some false
    else
      match readAt a.v.bgn (m * P.sz) a, readAt b.v.bgn (m * P.sz) b with
      | .ok x _, .ok y _ => (memEq x y).map (!·)
      | _, _ => none
  | _, _ => none

end Itlib.PodVector
