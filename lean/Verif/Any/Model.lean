import Verif.Core.Outcome
import Mathlib.Logic.Function.Basic

/-!
# Model of `itlib::any` (include/itlib/any.hpp)

A program has any number of `any` objects, variables of its own, and a heap of blocks. Types are numbered; values of all
types live in one type `V`. Allocators are elements of `A`; the allocator given to `deallocate_bytes` is recorded in the
log of the world together with size and alignment, so that matching allocations with deallocations is a theorem.

Simplifications: the address returned by an allocator is a fresh number (never reused); alignment is only recorded; data
races are out of scope; stored types have non-throwing destructors and moves.
-/
namespace Itlib.Any
open Itlib

/-- What the model needs to know of the stored types: arbitrary. -/
structure Types (V : Type) where
  /-- `sizeof(obj_block_for<T>)` -/
  size : Nat → Nat
  /-- `alignof(obj_block_for<T>)` -/
  align : Nat → Nat
  /-- `sizeof(obj_block_for<T&>)` and `alignof(obj_block_for<T&>)` -/
  refSize : Nat
  refAlign : Nat
  /-- `std::is_copy_constructible<T>` -/
  copyable : Nat → Bool
  /-- value left behind by a move -/
  mv : Nat → V → V

/-- What `m_data` of an `obj_block_for<T>` is (any.hpp:100-107): for `T = U&` it is a reference to a variable. -/
inductive Content (V : Type) where
  | val (ty : Nat) (v : V)
  | ref (ty : Nat) (var : Nat)

/-- A block obtained from an allocator and, once constructed, the `obj_block_for` in it (any.hpp:87-107). -/
structure Block (V : Type) where
  bytes : Nat
  content : Option (Content V)
  /-- the members `size`, `alignment` (any.hpp:88-89), `none` while indeterminate -/
  hdr : Option (Nat × Nat)

/-- An `any` (any.hpp:142-144): allocator and `m_block`. -/
structure Obj (A : Type) where
  alloc : A
  block : Option Nat

/-- One allocation or deallocation. -/
structure Ev (A : Type) where
  block : Nat
  alloc : A
  size : Nat
  align : Nat
  deriving DecidableEq

/-- Everything in memory. -/
structure World (A V : Type) where
  any : Nat → Option (Obj A)
  heap : Nat → Option (Block V)
  next : Nat
  vars : Nat → Option (Nat × V)
  allocd : List (Ev A)
  freed : List (Ev A)

/-- The program start. -/
def World.init {A V : Type} : World A V := ⟨fun _ => none, fun _ => none, 0, fun _ => none, [], []⟩

variable {A V : Type}

abbrev Mem (A V : Type) := M (World A V)

/-- How an attempt to store a value ends. -/
inductive Fate where
  | fine
  /-- the allocator throws -/
  | badAlloc
  /-- the constructor of the stored type throws -/
  | throws
  deriving DecidableEq

/-- access an `any` -/
def rd (i : Nat) : Mem A V (Obj A) := fun w =>
  match w.any i with
  | some o => .ok o w
  | none => .ub

/-- `m_block = p` -/
def setBlock (i : Nat) (p : Option Nat) : Mem A V Unit := fun w =>
  match w.any i with
  | some o => .ok () { w with any := Function.update w.any i (some { o with block := p }) }
  | none => .ub

/-- access a block -/
def rdBlock (p : Nat) : Mem A V (Block V) := fun w =>
  match w.heap p with
  | some b => .ok b w
  | none => .ub

/-- change a block -/
def wrBlock (p : Nat) (b : Block V) : Mem A V Unit := fun w =>
  match w.heap p with
  | some _ => .ok () { w with heap := Function.update w.heap p (some b) }
  | none => .ub

/-- `Alloc::allocate_bytes(n, a)` (any.hpp:68-77 for the default allocator) -/
def allocateBytes (a : A) (n al : Nat) (fail : Bool) : Mem A V Nat := fun w =>
  if fail then .throw .badAlloc w
  else .ok w.next
    { w with
      heap := Function.update w.heap w.next (some ⟨n, none, none⟩)
      next := w.next + 1
      allocd := ⟨w.next, a, n, al⟩ :: w.allocd }

/-- `Alloc::deallocate_bytes(p, n, a)` (any.hpp:78-84 for the default allocator). Releasing a block in which an object is still
alive is not undefined in C++, but the object would never be destroyed: it is counted as an error here. -/
def deallocateBytes (a : A) (p n al : Nat) : Mem A V Unit := fun w =>
  match w.heap p with
  | some ⟨_, none, _⟩ =>
    .ok () { w with heap := Function.update w.heap p none, freed := ⟨p, a, n, al⟩ :: w.freed }
  | _ => .ub

/-- placement construction of an `obj_block_for` of `size` bytes in a block; its header is indeterminate -/
def construct (p : Nat) (size : Nat) (c : Content V) : Mem A V Unit := do
  let b ← rdBlock p
  match b.content with
  | none => if size ≤ b.bytes then wrBlock p ⟨b.bytes, some c, none⟩ else .undef
  | some _ => .undef

/-- `m_block->~obj_block()` -/
def destroyBlock (p : Nat) : Mem A V Unit := do
  let b ← rdBlock p
  match b.content with
  | some _ => wrBlock p ⟨b.bytes, none, none⟩
  | none => .undef

/-- reading `size` and `alignment` of a block -/
def header (p : Nat) : Mem A V (Nat × Nat) := do
  let b ← rdBlock p
  match b.hdr with
  | some h => pure h
  | none => .undef

/-- writing `size` and `alignment` of a block -/
def setHeader (p : Nat) (h : Nat × Nat) : Mem A V Unit := do
  let b ← rdBlock p
  match b.content with
  | some _ => wrBlock p { b with hdr := some h }
  | none => .undef

/-- the object in a block -/
def content (p : Nat) : Mem A V (Content V) := do
  let b ← rdBlock p
  match b.content with
  | some c => pure c
  | none => .undef

/-- `free_block` (any.hpp:258-261) -/
def freeBlock (i : Nat) (p size align : Nat) : Mem A V Unit := do
  let o ← rd i
  deallocateBytes o.alloc p size align
  setBlock i none

/-- `reset` (any.hpp:209-215) -/
def reset (i : Nat) : Mem A V Unit := do
  let o ← rd i
  match o.block with
  | none => pure ()
  | some p => do
    let (size, align) ← header p
    destroyBlock p
    freeBlock i p size align

/-- `any(const Alloc&)`, `any()`, `any(std::allocator_arg_t, const Alloc&)` (any.hpp:148-150) -/
def ctorEmpty (i : Nat) (a : A) : Mem A V Unit := fun w =>
  match w.any i with
  | none => .ok () { w with any := Function.update w.any i (some ⟨a, none⟩) }
  | some _ => .ub

/-- storage of an `any` goes away -/
def endObj (i : Nat) : Mem A V Unit := fun w =>
  match w.any i with
  | some _ => .ok () { w with any := Function.update w.any i none }
  | none => .ub

/-- destructor (any.hpp:188) -/
def dtor (i : Nat) : Mem A V Unit := do
  reset i
  endObj i

/-- `any(any&&)` (any.hpp:152-154) -/
def moveCtor (i j : Nat) : Mem A V Unit := do
  let o ← rd j
  ctorEmpty i o.alloc
  setBlock i o.block
  setBlock j none

/-- `operator=(any&&)` (any.hpp:155-161) -/
def moveAssign (i j : Nat) : Mem A V Unit := do
  if i = j then pure ()
  else do
    reset i
    let o ← rd j
    setBlock i o.block
    setBlock j none

variable (T : Types V)

/-- `emplace<T>(args...)` (any.hpp:217-234) where the arguments make the value `v`; sizes are converted to `uint32_t` (any.hpp:221-222) -/
def emplace (i ty : Nat) (v : V) (f : Fate) : Mem A V Unit := do
  reset i
  let o ← rd i
  let size := T.size ty % 2 ^ 32
  let align := T.align ty % 2 ^ 32
  let p ← allocateBytes o.alloc size align (f = .badAlloc)
  setBlock i (some p)
  if f = .throws then do
    freeBlock i p size align
    .raise .element
  else do
    construct p (T.size ty) (.val ty v)
    setHeader p (size, align)

/-- `emplace<T>(std::forward<T>(t))` with `T = U&` (any.hpp:217-234), as called by `any(T&&)` and `operator=(T&&)` (any.hpp:173-186) for
an lvalue: the block holds a reference to the variable -/
def emplaceRef (i ty var : Nat) (f : Fate) : Mem A V Unit := do
  reset i
  let o ← rd i
  let size := T.refSize % 2 ^ 32
  let align := T.refAlign % 2 ^ 32
  let p ← allocateBytes o.alloc size align (f = .badAlloc)
  setBlock i (some p)
  construct p T.refSize (.ref ty var)
  setHeader p (size, align)

/-- reading a variable of the caller -/
def rdVar (k : Nat) : Mem A V (Nat × V) := fun w =>
  match w.vars k with
  | some x => .ok x w
  | none => .ub

/-- the value seen through the content of a block; the referenced variable must exist -/
def deref : Content V → Mem A V V
  | .val _ v => pure v
  | .ref _ k => do
    let x ← rdVar k
    pure x.2

/-- `a.emplace<T>(*any_cast<T>(&a))` (any.hpp:217-234): the argument refers to the value that `reset` destroys, and is read after
that -/
def emplaceOwn (i ty : Nat) (f : Fate) : Mem A V Unit := do
  let o ← rd i
  match o.block with
  | none => .undef
  | some q => do
    let _ ← content q
    reset i
    let size := T.size ty % 2 ^ 32
    let align := T.align ty % 2 ^ 32
    let p ← allocateBytes o.alloc size align (f = .badAlloc)
    setBlock i (some p)
    let c ← content q
    let v ← deref c
    construct p (T.size ty) (.val ty v)
    setHeader p (size, align)

/-- `any(T&&)` and `any(std::allocator_arg_t, const Alloc&, T&&)` (any.hpp:173-181) with an rvalue; if the constructor throws there
is no object (the delegating member initialisers are complete, but `m_block` needs no destructor) -/
def ctorVal (i : Nat) (a : A) (ty : Nat) (v : V) (f : Fate) : Mem A V Unit := fun w =>
  match (do ctorEmpty i a; emplace T i ty v f : Mem A V Unit) w with
  | .throw e w => (do endObj i; .raise e : Mem A V Unit) w
  | r => r

/-- `clone_to` (any.hpp:115-127) into a block -/
def cloneTo (q p : Nat) (f : Fate) : Mem A V Unit := do
  let c ← content q
  match c with
  | .ref ty k => construct p T.refSize (.ref ty k)
  | .val ty v =>
    if T.copyable ty then
      if f = .throws then .raise .element else construct p (T.size ty) (.val ty v)
    else .raise .badCast

/-- the `try` block of `copy_from` (any.hpp:241-249): `q` is the block of the source, `p` the new one -/
def copyTail (i q p : Nat) (f : Fate) : Mem A V Unit := fun w =>
  match cloneTo T q p f w with
  | .ok _ w => (do
      let (size, align) ← header q
      setHeader p (size, align) : Mem A V Unit) w
  | .throw e w => (do
      let (size, align) ← header q
      freeBlock i p size align
      .raise e : Mem A V Unit) w
  | .ub => .ub

/-- `copy_from` (any.hpp:236-250) -/
def copyFrom (i j : Nat) (f : Fate) : Mem A V Unit := do
  reset i
  let src ← rd j
  match src.block with
  | none => pure ()
  | some q => do
    let (size, align) ← header q
    let o ← rd i
    let p ← allocateBytes o.alloc size align (f = .badAlloc)
    setBlock i (some p)
    copyTail T i q p f

/-- `any(const any<OAlloc>&, const Alloc& = {})` and `any(const any&)` (any.hpp:163-167) -/
def copyCtor (i j : Nat) (a : A) (f : Fate) : Mem A V Unit := fun w =>
  match (do ctorEmpty i a; copyFrom T i j f : Mem A V Unit) w with
  | .throw e w => (do endObj i; .raise e : Mem A V Unit) w
  | r => r

/-- `operator=(const any&)` (any.hpp:168-171) -/
def copyAssign (i j : Nat) (f : Fate) : Mem A V Unit := copyFrom T i j f

/-- `has_value`, `operator bool` (any.hpp:190-191) -/
def hasValue (i : Nat) : Mem A V Bool := do
  let o ← rd i
  pure o.block.isSome

/-- `get_allocator` (any.hpp:207) -/
def getAllocator (i : Nat) : Mem A V A := do
  let o ← rd i
  pure o.alloc

/-- the type in a block (any.hpp:129-131); `typeid(U&)` is `typeid(U)` -/
def Content.ty : Content V → Nat
  | .val ty _ => ty
  | .ref ty _ => ty

/-- `type` (any.hpp:252-255); `none` is `typeid(void)` -/
def typeOf (i : Nat) : Mem A V (Option Nat) := do
  let o ← rd i
  match o.block with
  | none => pure none
  | some p => do
    let c ← content p
    pure (some c.ty)

/-- `any_cast<T>(&a)` (any.hpp:264-279) and reading through the pointer; `none` is a null pointer -/
def castPtr (i ty : Nat) : Mem A V (Option V) := do
  let t ← typeOf i
  if t = some ty then do
    let o ← rd i
    match o.block with
    | none => .undef
    | some p => do
      let c ← content p
      let v ← deref c
      pure (some v)
  else pure none

/-- `any_cast<T>(a)` (any.hpp:281-295) -/
def cast (i ty : Nat) : Mem A V V := do
  let r ← castPtr i ty
  match r with
  | some v => pure v
  | none => .raise .badCast

/-- assigning to a variable of the caller -/
def wrVar (k : Nat) (v : V) : Mem A V Unit := fun w =>
  match w.vars k with
  | some (ty, _) => .ok () { w with vars := Function.update w.vars k (some (ty, v)) }
  | none => .ub

/-- writing through the content of a block -/
def store (p : Nat) (v : V) : Mem A V Unit := do
  let b ← rdBlock p
  match b.content with
  | none => .undef
  | some (.val ty _) => wrBlock p { b with content := some (.val ty v) }
  | some (.ref _ k) => wrVar k v

/-- `if (auto p = any_cast<T>(&a)) *p = v`; the result tells whether the pointer was not null -/
def setThrough (i ty : Nat) (v : V) : Mem A V Bool := do
  let r ← castPtr i ty
  match r with
  | none => pure false
  | some _ => do
    let o ← rd i
    match o.block with
    | none => .undef
    | some p => do
      store p v
      pure true

/-- `any_cast<T>(std::move(a))` (any.hpp:297-298): the value is moved out -/
def castMove (i ty : Nat) : Mem A V V := do
  let v ← cast i ty
  let o ← rd i
  match o.block with
  | none => .undef
  | some p => do
    store p (T.mv ty v)
    pure v

/-- the caller's own variables -/
def setVar (k ty : Nat) (v : V) : Mem A V Unit := fun w =>
  .ok () { w with vars := Function.update w.vars k (some (ty, v)) }

/-- the caller's variable goes out of scope -/
def endVar (k : Nat) : Mem A V Unit := fun w =>
  .ok () { w with vars := Function.update w.vars k none }

end Itlib.Any
