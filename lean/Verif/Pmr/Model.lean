import Verif.Core.Catch
import Mathlib.Logic.Function.Basic

/-!
# Model of `itlib::pmr_allocator` (include/itlib/pmr_allocator.hpp), the C++17 part (pmr_allocator.hpp:62-104)

A memory resource hands out blocks at addresses of its own choice (any address that is not in use, so released addresses
may come again). Giving a block back with another size or alignment than it was requested with, or while an object is alive
in it, or giving back what was not handed out, is `.ub`. Sizes are `std::size_t`: products are taken modulo `2^64`.
-/
namespace Itlib.Pmr
open Itlib

/-- `sizeof(U)`, `alignof(U)` for each type -/
structure Types where
  size : Nat → Nat
  align : Nat → Nat

/-- A block of the resource and the object in it. -/
structure Block (V : Type) where
  bytes : Nat
  align : Nat
  obj : Option (Nat × V)

/-- The memory of the resource. -/
abbrev World (V : Type) := Nat → Option (Block V)

abbrev Mem (V : Type) := M (World V)

/-- How an attempt to make an object ends. -/
inductive Fate where
  | fine
  /-- the resource throws -/
  | badAlloc
  /-- the constructor throws -/
  | throws
  deriving DecidableEq

variable {V : Type} (T : Types)

/-- `allocate_bytes` (pmr_allocator.hpp:66-68); `p` is the address that the resource chooses -/
def allocateBytes (p n a : Nat) (fail : Bool) : Mem V Nat := fun w =>
  if fail then .throw .badAlloc w
  else match w p with
    | some _ => .ub
    | none => .ok p (Function.update w p (some ⟨n, a, none⟩))

/-- `deallocate_bytes` (pmr_allocator.hpp:70-72) -/
def deallocateBytes (p n a : Nat) : Mem V Unit := fun w =>
  match w p with
  | some ⟨bytes, align, none⟩ => if bytes = n ∧ align = a then .ok () (Function.update w p none) else .ub
  | _ => .ub

/-- `allocate_object<U>(n)` (pmr_allocator.hpp:74-77) -/
def allocateObject (p ty n : Nat) (fail : Bool) : Mem V Nat :=
  allocateBytes p (n * T.size ty % 2 ^ 64) (T.align ty) fail

/-- `deallocate_object(p, n)` (pmr_allocator.hpp:79-82) -/
def deallocateObject (p ty n : Nat) : Mem V Unit :=
  deallocateBytes p (n * T.size ty % 2 ^ 64) (T.align ty)

/-- `construct(p, args...)` of `std::pmr::polymorphic_allocator`: there must be room -/
def construct (p ty : Nat) (v : V) (throws : Bool) : Mem V Unit := fun w =>
  match w p with
  | some ⟨bytes, align, none⟩ =>
    if T.size ty ≤ bytes ∧ align = T.align ty then
      if throws then .throw .element w
      else .ok () (Function.update w p (some ⟨bytes, align, some (ty, v)⟩))
    else .ub
  | _ => .ub

/-- `p->~U()` -/
def destruct (p ty : Nat) : Mem V Unit := fun w =>
  match w p with
  | some ⟨bytes, align, some (t, _)⟩ =>
    if t = ty then .ok () (Function.update w p (some ⟨bytes, align, none⟩)) else .ub
  | _ => .ub

/-- `new_object<U>(args...)` (pmr_allocator.hpp:84-95) -/
def newObject (p ty : Nat) (v : V) (f : Fate) : Mem V Nat := do
  let p ← allocateObject T p ty 1 (f = .badAlloc)
  M.catching
    (do
      construct T p ty v (f = .throws)
      pure p)
    (fun e => do
      deallocateObject T p ty 1
      .raise e)

/-- `delete_object(p)` (pmr_allocator.hpp:97-101) -/
def deleteObject (p ty : Nat) : Mem V Unit := do
  destruct p ty
  deallocateObject T p ty 1

end Itlib.Pmr
