import Mathlib.Logic.Function.Basic
import Mathlib.Data.Set.Card

/-!
# Shared ownership, without counts

A pointer is an address together with the object it shares the ownership of (`0`: of none). An object lives while some
variable owns it.
-/
namespace Itlib.SharedFrom

/-- a shared or weak pointer: what `get()` gives, and whose ownership it shares -/
structure Ptr where
  ptr : Nat
  ctl : Nat
deriving DecidableEq

/-- an empty one -/
def Ptr.null : Ptr := ⟨0, 0⟩

/-- calls; `d`, `x` are variables with shared pointers, `w` with weak ones, `o` objects, `p` addresses -/
inductive Op where
  /-- `x = make_shared(T())`, the new object has its base `enable_shared_from` at address `a` -/
  | make (x a : Nat)
  | copy (d x : Nat)
  | move (d x : Nat)
  | reset (x : Nat)
  | useCount (x : Nat)
  /-- `d = make_aliased(x, p)` -/
  | aliased (d x p : Nat)
  /-- `d = o.shared_from(p)` -/
  | sharedFrom (d o p : Nat)
  | sharedFromThis (d o : Nat)
  /-- `w = o.weak_from(p)` -/
  | weakFrom (w o p : Nat)
  | weakFromThis (w o : Nat)
  /-- `w = x` -/
  | weakOf (w x : Nat)
  /-- `d = w.lock()` -/
  | lock (d w : Nat)
  | resetW (w : Nat)
  /-- the destructor of `o` ends -/
  | finish (o : Nat)

/-- results of calls -/
inductive Reply where
  | done
  | count (n : Nat)
  | badWeakPtr
deriving DecidableEq

namespace Spec

/-- variables; the addresses of the objects; the objects whose destructors ended; the name of the next object -/
structure Sys where
  sp : Nat → Ptr
  wp : Nat → Ptr
  addr : Nat → Nat
  ended : Nat → Bool
  next : Nat

/-- some variable owns `o` -/
def Owned (y : Sys) (o : Nat) : Prop := o ≠ 0 ∧ ∃ x, (y.sp x).ctl = o

/-- `o` exists, perhaps in its destructor -/
def Exists (y : Sys) (o : Nat) : Prop := o ≠ 0 ∧ o < y.next ∧ y.ended o = false

/-- what users must observe: member functions are called for existing objects; a destructor ends at most once, and only
when it has begun -/
def Allowed (y : Sys) : Op → Prop
  | .sharedFrom _ o _ | .sharedFromThis _ o | .weakFrom _ o _ | .weakFromThis _ o => o = 0 ∨ Exists y o
  | .finish o => Exists y o ∧ ¬ Owned y o
  | _ => True

/-- a shared variable gets a value -/
def Sys.setS (y : Sys) (d : Nat) (v : Ptr) : Sys := { y with sp := Function.update y.sp d v }
/-- a weak variable gets a value -/
def Sys.setW (y : Sys) (d : Nat) (v : Ptr) : Sys := { y with wp := Function.update y.wp d v }

open Classical in
/-- the effects of calls -/
noncomputable def step (cpp17 : Bool) (y : Sys) : Op → Reply × Sys
  | .make x a => (.done, { y.setS x ⟨a, y.next⟩ with
      addr := Function.update y.addr y.next a
      ended := Function.update y.ended y.next false
      next := y.next + 1 })
  | .copy d x => (.done, y.setS d (y.sp x))
  | .move d x => (.done, (y.setS x Ptr.null).setS d (y.sp x))
  | .reset x => (.done, y.setS x Ptr.null)
  | .useCount x => (.count (if (y.sp x).ctl = 0 then 0 else Set.ncard {z | (y.sp z).ctl = (y.sp x).ctl}), y)
  | .aliased d x p => (.done, y.setS d (if (y.sp x).ctl = 0 then Ptr.null else ⟨p, (y.sp x).ctl⟩))
  | .sharedFrom d o p => if Owned y o then (.done, y.setS d ⟨p, o⟩) else (.badWeakPtr, y)
  | .sharedFromThis d o => if Owned y o then (.done, y.setS d ⟨y.addr o, o⟩) else (.badWeakPtr, y)
  | .weakFrom w o p => if Owned y o then (.done, y.setW w ⟨p, o⟩) else (.badWeakPtr, y)
  | .weakFromThis w o =>
    if cpp17 then (.done, y.setW w (if o = 0 then Ptr.null else ⟨y.addr o, o⟩))
    else if Owned y o then (.done, y.setW w ⟨y.addr o, o⟩) else (.badWeakPtr, y)
  | .weakOf w x => (.done, y.setW w (y.sp x))
  | .lock d w => (.done, y.setS d (if Owned y (y.wp w).ctl then y.wp w else Ptr.null))
  | .resetW w => (.done, y.setW w Ptr.null)
  | .finish o => (.done, { y with ended := Function.update y.ended o true })

/-- the calls of a history are allowed -/
def Valid (cpp17 : Bool) : List Op → Sys → Prop
  | [], _ => True
  | op :: ops, y => Allowed y op ∧ Valid cpp17 ops (step cpp17 y op).2

/-- the results of a history -/
noncomputable def run (cpp17 : Bool) : List Op → Sys → List Reply × Sys
  | [], y => ([], y)
  | op :: ops, y => ((step cpp17 y op).1 :: (run cpp17 ops (step cpp17 y op).2).1, (run cpp17 ops (step cpp17 y op).2).2)

def start : Sys := ⟨fun _ => Ptr.null, fun _ => Ptr.null, fun _ => 0, fun _ => false, 1⟩

end Spec
end Itlib.SharedFrom
