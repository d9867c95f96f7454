import Verif.MemOut.Spec
import Mathlib.Logic.Function.Basic

/-!
# Model of several `mem_ostreambuf`s that are copied, moved and assigned (include/itlib/mem_streambuf.hpp:98-202)

The class declares no copy or move constructor and no assignment, so it has the implicit ones: the base
`std::basic_streambuf` is copied, which copies the pointers of the put area (also when moving: it has no move constructor), and the
container `m_data` is copied or moved.

All objects share one memory. An allocation is a number, its contents and its capacity; the buffer of a container with inline
storage is an allocation too. The functions of `Model.lean` are repeated here for object `i` of the program, because a pointer of the put
area may now point into the container of another object: arithmetic and writing are defined within any allocation that exists.
-/
namespace Itlib.MemOut
open Itlib
variable {C : Type}

/-- How the container is copied and moved. -/
structure Transfer (C : Type) where
  /-- capacity of a copy of a container with so many elements -/
  copyCap : Nat → Nat
  /-- capacity of the new allocation when a container of a capacity is assigned so many elements; `none`: the allocation is kept -/
  assignCap : Nat → Nat → Option Nat
  /-- moving a container of this capacity takes its allocation (and does not move the elements one by one) -/
  steals : Nat → Bool
  /-- what is left in a container whose elements were moved one by one -/
  left : List C → List C

/-- what every container satisfies -/
structure Transfer.Lawful (T : Transfer C) (K : Container C) : Prop where
  copy_ge : ∀ n, n ≤ T.copyCap n
  copy_fits : ∀ n, K.Fits n → K.Fits (T.copyCap n)
  assign_ge : ∀ c n m, T.assignCap c n = some m → n ≤ m
  assign_fits : ∀ c n m, T.assignCap c n = some m → K.Fits n → K.Fits m
  assign_keep : ∀ c n, T.assignCap c n = none → n ≤ c
  left_le : ∀ s, (T.left s).length ≤ s.length

/-- An allocation. -/
structure Block (C : Type) where
  elems : List C
  cap : Nat

/-- A `mem_ostreambuf`: the allocation of its container, and the put area. -/
structure Obj where
  gen : Nat
  pptr : Ptr
  epptr : Ptr

/-- The memory. -/
structure World (C : Type) where
  objs : Nat → Option Obj
  blocks : Nat → Option (Block C)
  fresh : Nat

/-- The program start. -/
def World.init : World C := ⟨fun _ => none, fun _ => none, 0⟩

variable (K : Container C) (T : Transfer C)

namespace W

abbrev Mem (C : Type) := M (World C)

/-- access to an object -/
def obj (i : Nat) : Mem C Obj := .load fun w => w.objs i

/-- access to the allocation of its container -/
def block (i : Nat) : Mem C (Block C) := do
  let o ← obj i
  .load fun w => w.blocks o.gen

/-- `m_data.data()` -/
def data (i : Nat) : Mem C Ptr := do
  let o ← obj i
  let b ← block i
  if K.nullEmpty && b.cap == 0 then pure .null else pure (.at o.gen 0)

/-- `p + n` -/
def shift (p : Ptr) (n : Int) : Mem C Ptr := do
  match p with
  | .null => if n = 0 then pure .null else .undef
  | .at g o => do
    let b ← M.load fun w => w.blocks g
    if 0 ≤ (o : Int) + n ∧ (o : Int) + n ≤ b.cap then pure (.at g ((o : Int) + n).toNat) else .undef

/-- `p - q` -/
def diff (p q : Ptr) : Mem C Int := do
  match p, q with
  | .null, .null => pure 0
  | .at g o, .at g' o' => do
    let _ ← M.load fun w => w.blocks g
    if g = g' then pure ((o : Int) - o') else .undef
  | _, _ => .undef

/-- the container of `i` gets another allocation -/
def reallocate (i : Nat) (b : Block C) : Mem C Unit := do
  let o ← obj i
  .modify fun w => { w with
    objs := Function.update w.objs i (some { o with gen := w.fresh })
    blocks := Function.update (Function.update w.blocks o.gen none) w.fresh (some b)
    fresh := w.fresh + 1 }

/-- the container of `i` gets other contents in the same allocation -/
def refill (i : Nat) (b : Block C) : Mem C Unit := do
  let o ← obj i
  .modify fun w => { w with blocks := Function.update w.blocks o.gen (some b) }

/-- `m_data.resize(n)` -/
def resize (i : Nat) (n : Nat) : Mem C Unit := do
  let b ← block i
  if n ≤ b.cap then
    refill i { b with elems := b.elems.take n ++ List.replicate (n - b.elems.length) K.fill }
  else if K.Fits n then
    reallocate i ⟨b.elems ++ List.replicate (n - b.elems.length) K.fill, K.grow b.cap n⟩
  else .raise .outOfRange

/-- `memcpy(p, s, ...)` -/
def copyTo (p : Ptr) (s : List C) : Mem C Unit := do
  match p with
  | .null => if s = [] then pure () else .undef
  | .at g o => do
    let b ← M.load fun w => w.blocks g
    if o + s.length ≤ b.elems.length then
      .modify fun w => { w with
        blocks := Function.update w.blocks g (some { b with elems := b.elems.take o ++ s ++ b.elems.drop (o + s.length) }) }
    else .undef

/-- `setp(p, e)` -/
def setp (i : Nat) (p e : Ptr) : Mem C Unit := do
  let o ← obj i
  .modify fun w => { w with objs := Function.update w.objs i (some { o with pptr := p, epptr := e }) }

/-- `pbump(n)` -/
def pbump (i : Nat) (n : Int) : Mem C Unit := do
  let o ← obj i
  let p ← shift o.pptr n
  setp i p o.epptr

/-- `poff` (mem_streambuf.hpp:118-121) -/
def poff (i : Nat) : Mem C Int := do
  let o ← obj i
  let d ← data K i
  diff o.pptr d

/-- `cap_resize_by` (mem_streambuf.hpp:191-201) -/
def capResizeBy (i : Nat) (n : Nat) : Mem C Unit := do
  let off ← poff K i
  let b ← block i
  resize K i (b.elems.length + n)
  let b ← block i
  resize K i b.cap
  let d ← data K i
  let p ← shift d off
  let e ← shift d b.cap
  setp i p e

/-- an object with an empty container begins -/
def begin_ (i : Nat) (b : Block C) (p e : Ptr) : Mem C Unit := fun w =>
  match w.objs i with
  | some _ => .ub
  | none => .ok () { w with
      objs := Function.update w.objs i (some ⟨w.fresh, p, e⟩)
      blocks := Function.update w.blocks w.fresh (some b)
      fresh := w.fresh + 1 }

/-- the object and its container end -/
def end_ (i : Nat) : Mem C Unit := do
  let o ← obj i
  .modify fun w => { w with objs := Function.update w.objs i none, blocks := Function.update w.blocks o.gen none }

/-- the constructor (mem_streambuf.hpp:111-115); if it throws, there is no object -/
def ctor (i : Nat) (reserve : Nat) : Mem C Unit := do
  begin_ i ⟨[], K.cap0⟩ .null .null
  let d ← data K i
  setp i d d
  fun w => match capResizeBy K i reserve w with
    | .throw e w => (do end_ i; .raise e : Mem C Unit) w
    | r => r

/-- `overflow` (mem_streambuf.hpp:146-154) -/
def overflow (i : Nat) (ch : C) : Mem C Unit := do
  capResizeBy K i 1
  let o ← obj i
  copyTo o.pptr [ch]
  pbump i 1

/-- `std::basic_streambuf::sputc`: store in the put area or call `overflow` -/
def sputc (i : Nat) (ch : C) : Mem C Unit := do
  let o ← obj i
  let rem ← diff o.epptr o.pptr
  if 0 < rem then do
    copyTo o.pptr [ch]
    pbump i 1
  else overflow K i ch

/-- `xsputn` (mem_streambuf.hpp:161-173) -/
def xsputn (i : Nat) (s : List C) : Mem C Unit := do
  let o ← obj i
  let rem ← diff o.epptr o.pptr
  if rem < s.length then capResizeBy K i (s.length - rem).toNat
  let o ← obj i
  copyTo o.pptr s
  pbump i (bumpArg K s.length)

/-- `seekpos` (mem_streambuf.hpp:175-179) -/
def seekpos (i : Nat) (sp : Int) : Mem C Int := do
  let b ← block i
  let d ← data K i
  let p ← shift d (toInt32 sp)
  let e ← shift d b.elems.length
  setp i p e
  pure sp

/-- `seekoff` (mem_streambuf.hpp:181-187) -/
def seekoff (i : Nat) (off : Int) (way : Way) : Mem C Int := do
  match way with
  | .cur => do
    let o ← poff K i
    seekpos K i (o + off)
  | .beg => seekpos K i off
  | .end => do
    let b ← block i
    seekpos K i (b.elems.length + off)

/-- `get_container` (mem_streambuf.hpp:128-136); the result of `ret.resize(size)`; `m_data` is a new empty container afterwards -/
def getContainer (i : Nat) : Mem C (List C) := do
  let size ← poff K i
  let b ← block i
  reallocate i ⟨[], K.cap0⟩
  setp i .null .null
  pure (b.elems.take size.toNat ++ List.replicate (size.toNat - b.elems.length) K.fill)

/-- `clear` (mem_streambuf.hpp:138-142) -/
def clear (i : Nat) : Mem C Unit := do
  let b ← block i
  refill i { b with elems := [] }
  let d ← data K i
  setp i d d

/-- implicit copy constructor -/
def copyCtor (i j : Nat) : Mem C Unit := do
  let o ← obj j
  let b ← block j
  begin_ i ⟨b.elems, T.copyCap b.elems.length⟩ o.pptr o.epptr

/-- implicit copy assignment -/
def copyAssign (i j : Nat) : Mem C Unit := do
  let o ← obj j
  let b ← block j
  let c ← block i
  setp i o.pptr o.epptr
  if i = j then pure ()
  else match T.assignCap c.cap b.elems.length with
    | none => refill i { c with elems := b.elems }
    | some m => reallocate i ⟨b.elems, m⟩

/-- The container of `j` is moved into the one of `i`, which is given up. -/
def moveData (i j : Nat) : Mem C Unit := do
  let oi ← obj i
  let oj ← obj j
  let b ← block j
  if T.steals b.cap then
    .modify fun w => { w with
      objs := Function.update (Function.update w.objs i (some { oi with gen := oj.gen })) j (some { oj with gen := w.fresh })
      blocks := Function.update (Function.update w.blocks oi.gen none) w.fresh (some ⟨[], K.cap0⟩)
      fresh := w.fresh + 1 }
  else do
    let c ← block i
    match T.assignCap c.cap b.elems.length with
    | none => refill i { c with elems := b.elems }
    | some m => reallocate i ⟨b.elems, m⟩
    refill j { b with elems := T.left b.elems }

/-- implicit move constructor: the container of the new object is the moved one of `j` -/
def moveCtor (i j : Nat) : Mem C Unit := do
  let o ← obj j
  begin_ i ⟨[], K.cap0⟩ o.pptr o.epptr
  moveData K T i j

/-- implicit move assignment; to the object itself it does to the container whatever that does, here: not modelled -/
def moveAssign (i j : Nat) : Mem C Unit := do
  let o ← obj j
  let _ ← obj i
  if i = j then .undef
  setp i o.pptr o.epptr
  moveData K T i j

end W

/-- The calls of a program. -/
inductive WOp (C : Type) where
  | new (i reserve : Nat)
  | on (i : Nat) (op : Op C)
  | copy (i j : Nat)
  | move (i j : Nat)
  | assign (i j : Nat)
  | moveAssign (i j : Nat)
  | destroy (i : Nat)

/-- a call of a function of object `i` -/
def W.exec (i : Nat) : Op C → W.Mem C (Reply C)
  | .put c => do W.sputc K i c; pure .unit
  | .write s => do W.xsputn K i s; pure .unit
  | .seek off way => do let p ← W.seekoff K i off way; pure (.pos p)
  | .poff => do let p ← W.poff K i; pure (.pos p)
  | .get => do let s ← W.getContainer K i; pure (.container s)
  | .clear => do W.clear K i; pure .unit

/-- one call -/
def wexec : WOp C → W.Mem C (Reply C)
  | .new i n => do W.ctor K i n; pure .unit
  | .on i op => W.exec K i op
  | .copy i j => do W.copyCtor T i j; pure .unit
  | .move i j => do W.moveCtor K T i j; pure .unit
  | .assign i j => do W.copyAssign T i j; pure .unit
  | .moveAssign i j => do W.moveAssign K T i j; pure .unit
  | .destroy i => do W.end_ i; pure .unit

/-- A call; an exception is a reply, `none` is undefined behaviour. -/
def wcall (op : WOp C) (w : World C) : Option (Reply C × World C) :=
  match wexec K T op w with
  | .ok r w => some (r, w)
  | .throw _ w => some (.exc, w)
  | .ub => none

/-- A history of calls. -/
def wrun : List (WOp C) → World C → Option (List (Reply C) × World C)
  | [], w => some ([], w)
  | op :: ops, w => do
    let (r, w) ← wcall K T op w
    let (rs, w) ← wrun ops w
    some (r :: rs, w)

end Itlib.MemOut
