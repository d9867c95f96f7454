import Mathlib.Logic.Function.Basic

/-!
# Storage slots and object lifetimes

A buffer of uninitialised storage for `cap` objects of type `T` (`std::aligned_storage` array, or memory from an
allocator). A slot is `raw` or holds a `live` object. Every operation that C++ leaves undefined is `none`:
constructing over a live object (its destructor would be skipped), destroying or reading a slot with no live object,
touching a slot out of the buffer.
-/
namespace Itlib

/-- One storage slot. -/
inductive Cell (α : Type) where
  | raw
  | live (a : α)
  deriving DecidableEq, Repr

/-- Storage for `cap` objects. -/
structure Buf (α : Type) where
  cap : Nat
  cells : Nat → Cell α

namespace Buf
variable {α : Type}

/-- Freshly obtained storage. -/
def fresh (cap : Nat) : Buf α := ⟨cap, fun _ => .raw⟩

/-- `::new (p + i) T(a)` -/
def construct (i : Nat) (a : α) (b : Buf α) : Option (Buf α) :=
  if i < b.cap then
    match b.cells i with
    | .raw => some { b with cells := Function.update b.cells i (.live a) }
    | .live _ => none
  else none

/-- `p[i].~T()` -/
def destroy (i : Nat) (b : Buf α) : Option (Buf α) :=
  if i < b.cap then
    match b.cells i with
    | .raw => none
    | .live _ => some { b with cells := Function.update b.cells i .raw }
  else none

/-- reading `p[i]` -/
def read (i : Nat) (b : Buf α) : Option α :=
  if i < b.cap then
    match b.cells i with
    | .raw => none
    | .live a => some a
  else none

/-- assigning to the live object `p[i] = a` -/
def assign (i : Nat) (a : α) (b : Buf α) : Option (Buf α) :=
  if i < b.cap then
    match b.cells i with
    | .raw => none
    | .live _ => some { b with cells := Function.update b.cells i (.live a) }
  else none

/-- `std::move(p[i])` consumed by a move constructor: the value goes out, the object stays alive in the moved-from
state `mv a`. -/
def moveOut (mv : α → α) (i : Nat) (b : Buf α) : Option (α × Buf α) :=
  if i < b.cap then
    match b.cells i with
    | .raw => none
    | .live a => some (a, { b with cells := Function.update b.cells i (.live (mv a)) })
  else none

/-- `::new (p + dst) T(std::move(p[src]))` -/
def moveConstruct (mv : α → α) (dst src : Nat) (b : Buf α) : Option (Buf α) := do
  let (a, b) ← b.moveOut mv src
  b.construct dst a

/-- The buffer whose first slots hold exactly the objects of `xs`, all others being raw. -/
def ofList (cap : Nat) (xs : List α) : Buf α :=
  ⟨cap, fun i => match xs[i]? with | some a => .live a | none => .raw⟩

/-! ### The loops which containers run on a buffer -/

/-- `for (p = pos + k - 1; p >= pos; --p) { ::new (p + by) T(std::move(*p)); p->~T(); }`
(static_vector.hpp:631-635, small_vector.hpp:774-778). -/
def shiftUp (mv : α → α) (by_ pos : Nat) : Nat → Buf α → Option (Buf α)
  | 0, b => some b
  | k+1, b => do
    let b ← b.moveConstruct mv (pos + k + by_) (pos + k)
    let b ← b.destroy (pos + k)
    shiftUp mv by_ pos k b

/-- `for (; np != myend; ++p, ++np) { p->~T(); ::new (p) T(std::move(*np)); }`
(static_vector.hpp:656-660, small_vector.hpp:841-845). The first argument is fuel; the loop has UB as soon as `np`
leaves the buffer, so with fuel `cap + 1` running out of fuel coincides with UB. -/
def shiftDown (mv : α → α) (myend : Nat) : Nat → Nat → Nat → Buf α → Option (Buf α)
  | 0, _, _, _ => none
  | f+1, p, np, b =>
    if np = myend then some b
    else do
      let b ← b.destroy p
      let b ← b.moveConstruct mv p np
      shiftDown mv myend f (p+1) (np+1) b

/-- `for (p = from; p != from + k; ++p) p->~T();` -/
def destroyRange (pos : Nat) : Nat → Buf α → Option (Buf α)
  | 0, b => some b
  | k+1, b => do
    let b ← b.destroy pos
    destroyRange (pos+1) k b

end Buf
end Itlib
