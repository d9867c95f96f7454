import Mathlib.Logic.Function.Basic
import Verif.Core.Outcome
import Verif.SharedFrom.Spec

/-!
# make_ptr.hpp, shared_from.hpp

The two headers are small layers over `std::shared_ptr`, so the pointers themselves are modelled here with control blocks
(use count, weak count), the way the standard library has them; a count is changed by each constructor, assignment and
destructor. Everything that would be a memory error is undefined behaviour: raising a use count of zero, touching a
freed control block, constructing over a living pointer.

The destructor of an object begins when its use count becomes zero. What its body and its members do are further calls of
the history; `finish` is the end of the destructor, where the base `std::enable_shared_from_this` with its weak pointer goes
away and the control block loses the reference the object had to it.

Object `0` stands for objects that no `std::shared_ptr` has ever owned: their weak pointer is empty.
-/
namespace Itlib.SharedFrom

/-- where shared pointers live: variables, temporaries -/
inductive Loc where
  | var (x : Nat)
  | t1
  | t2
  | res
deriving DecidableEq

/-- where weak pointers live that are not inside of objects -/
inductive WL where
  | var (x : Nat)
  | res
deriving DecidableEq

/-- where weak pointers live: `this o` is the member of the base `std::enable_shared_from_this` of object `o` -/
inductive WLoc where
  | user (w : WL)
  | this (o : Nat)
deriving DecidableEq

/-- The memory. `log`: the objects whose destructors began; `done`: the objects whose destructors ended. -/
structure St where
  sp : Loc → Ptr
  wp : WLoc → Ptr
  use : Nat → Nat
  weak : Nat → Nat
  freed : Nat → Bool
  done : Nat → Bool
  next : Nat
  log : List Nat

/-- the pointer `p` with control block `q` is constructed in `d` from another one with that control block -/
def acquire (d : Loc) (p q : Nat) : M St Unit := fun s =>
  if s.sp d ≠ Ptr.null then .ub
  else if q = 0 then .ok () { s with sp := Function.update s.sp d ⟨p, 0⟩ }
  else if s.use q = 0 ∨ s.freed q then .ub
  else .ok () { s with sp := Function.update s.sp d ⟨p, q⟩, use := Function.update s.use q (s.use q + 1) }

/-- `std::shared_ptr::~shared_ptr` -/
def release (d : Loc) : M St Unit := fun s =>
  let q := (s.sp d).ctl
  let s1 := { s with sp := Function.update s.sp d Ptr.null }
  if q = 0 then .ok () s1
  else if s.use q = 0 ∨ s.freed q then .ub
  else .ok () { s1 with
    use := Function.update s.use q (s.use q - 1)
    log := if s.use q = 1 then s.log ++ [q] else s.log }

/-- `std::shared_ptr::swap`, and the move constructor if one of them is empty -/
def swap (a b : Loc) : M St Unit := fun s =>
  .ok () { s with sp := Function.update (Function.update s.sp a (s.sp b)) b (s.sp a) }

/-- `std::shared_ptr::use_count` -/
def useCount (x : Loc) : M St Nat := fun s =>
  let q := (s.sp x).ctl
  if q = 0 then .ok 0 s else if s.freed q then .ub else .ok (s.use q) s

/-- a weak count is lowered; the last one frees the control block -/
def decWeak (q : Nat) : M St Unit := fun s =>
  if q = 0 then .ok () s
  else if s.weak q = 0 ∨ s.freed q then .ub
  else .ok () { s with
    weak := Function.update s.weak q (s.weak q - 1)
    freed := Function.update s.freed q (s.weak q == 1) }

/-- the weak pointer `p` with control block `q` is constructed in `d` from another (weak or shared) one -/
def acquireW (d : WL) (p q : Nat) : M St Unit := fun s =>
  if s.wp (.user d) ≠ Ptr.null then .ub
  else if q = 0 then .ok () { s with wp := Function.update s.wp (.user d) ⟨p, 0⟩ }
  else if s.freed q then .ub
  else .ok () { s with wp := Function.update s.wp (.user d) ⟨p, q⟩, weak := Function.update s.weak q (s.weak q + 1) }

/-- `std::weak_ptr::~weak_ptr` -/
def releaseW (d : WLoc) : M St Unit := fun s =>
  decWeak (s.wp d).ctl { s with wp := Function.update s.wp d Ptr.null }

/-- `std::weak_ptr::swap` -/
def swapW (a b : WL) : M St Unit := fun s =>
  .ok () { s with wp := Function.update (Function.update s.wp (.user a) (s.wp (.user b))) (.user b) (s.wp (.user a)) }

/-- `std::weak_ptr::lock`: the pointer is constructed in `d`, and is empty if the object is gone -/
def lockW (d : Loc) (w : WLoc) : M St Unit := fun s =>
  let v := s.wp w
  if v.ctl = 0 then acquire d 0 0 s
  else if s.freed v.ctl then .ub
  else if s.use v.ctl = 0 then acquire d 0 0 s
  else acquire d v.ptr v.ctl s

/-- `std::shared_ptr(std::weak_ptr)`: constructed in `d`; throws if the object is gone -/
def fromWeak (d : Loc) (w : WLoc) : M St Unit := fun s =>
  let v := s.wp w
  if v.ctl = 0 then .throw .badWeakPtr s
  else if s.freed v.ctl then .ub
  else if s.use v.ctl = 0 then .throw .badWeakPtr s
  else acquire d v.ptr v.ctl s

/-- Assignment of the temporary `res` to a variable. -/
def assign (d : Nat) : M St Unit := do
  swap .res (.var d)
  release .res

/-- Assignment of the temporary `res` to a variable. -/
def assignW (d : Nat) : M St Unit := do
  swapW .res (.var d)
  releaseW (.user .res)

/-- make_ptr.hpp:83-87, `make_shared`, of a type derived from `enable_shared_from`, with the object at address `a`:
`std::make_shared` creates a control block and sets the weak pointer of the object -/
def makeShared (a : Nat) : M St Unit := fun s =>
  let q := s.next
  .ok () { s with
    next := q + 1
    sp := Function.update s.sp .res ⟨a, q⟩
    wp := Function.update s.wp (.this q) ⟨a, q⟩
    use := Function.update s.use q 1
    weak := Function.update s.weak q 2
    freed := Function.update s.freed q false
    done := Function.update s.done q false }

/-- the end of the destructor of an object -/
def finish (q : Nat) : M St Unit := fun s =>
  if q = 0 ∨ s.next ≤ q ∨ s.use q ≠ 0 ∨ s.done q then .ub
  else (do
    releaseW (.this q)
    decWeak q : M St Unit) { s with done := Function.update s.done q true }

/-- make_ptr.hpp:96-100, `make_aliased` -/
def makeAliased (owner : Loc) (p : Nat) : M St Unit := do
  if (← useCount owner) = 0 then acquire .res 0 0
  else do
    let s ← M.get
    acquire .res p (s.sp owner).ctl

/-- A member function of `enable_shared_from` is called for object `o`: the object must exist. -/
def callOn (o : Nat) : M St Unit := fun s =>
  if o = 0 ∨ (o < s.next ∧ s.done o = false) then .ok () s else .ub

/-- shared_from.hpp:76-77, `shared_from_this`: the result of the base class is converted to `std::shared_ptr<void>`, in `t2` -/
def sharedFromThis (o : Nat) : M St Unit := do
  callOn o
  fromWeak .t1 (.this o)
  swap .t2 .t1
  release .t1

/-- shared_from.hpp:98-100, `shared_from` -/
def sharedFrom (o p : Nat) : M St Unit := do
  callOn o
  sharedFromThis o
  let s ← M.get
  acquire .res p (s.sp .t2).ctl
  release .t2

/-- A weak pointer from the shared pointer in `l`. -/
def weakOf (l : Loc) : M St Unit := do
  let s ← M.get
  acquireW .res (s.sp l).ptr (s.sp l).ctl

/-- shared_from.hpp:103-106, `weak_from` -/
def weakFrom (o p : Nat) : M St Unit := do
  callOn o
  sharedFrom o p
  weakOf .res
  release .res

/-- shared_from.hpp:79-95, `weak_from_this` -/
def weakFromThis (cpp17 : Bool) (o : Nat) : M St Unit := do
  callOn o
  if cpp17 then do
    let s ← M.get
    acquireW .res (s.wp (.this o)).ptr (s.wp (.this o)).ctl
  else do
    sharedFromThis o
    weakOf .t2
    release .t2

/-- one call -/
def exec (cpp17 : Bool) : Op → M St Reply
  | .make x a => do makeShared a; assign x; pure .done
  | .copy d x => do
    let s ← M.get
    acquire .res (s.sp (.var x)).ptr (s.sp (.var x)).ctl
    assign d; pure .done
  | .move d x => do swap .res (.var x); assign d; pure .done
  | .reset x => do assign x; pure .done
  | .useCount x => do return .count (← useCount (.var x))
  | .aliased d x p => do makeAliased (.var x) p; assign d; pure .done
  | .sharedFrom d o p => do sharedFrom o p; assign d; pure .done
  | .sharedFromThis d o => do sharedFromThis o; swap .res .t2; release .t2; assign d; pure .done
  | .weakFrom w o p => do weakFrom o p; assignW w; pure .done
  | .weakFromThis w o => do weakFromThis cpp17 o; assignW w; pure .done
  | .weakOf w x => do weakOf (.var x); assignW w; pure .done
  | .lock d w => do lockW .res (.user (.var w)); assign d; pure .done
  | .resetW w => do assignW w; pure .done
  | .finish o => do finish o; pure .done

/-- one call whose exceptions are caught by the user -/
def call (cpp17 : Bool) (op : Op) : M St Reply := fun s =>
  match exec cpp17 op s with
  | .throw .badWeakPtr s' => .ok .badWeakPtr s'
  | r => r

/-- a history -/
def run (cpp17 : Bool) : List Op → M St (List Reply)
  | [] => pure []
  | op :: ops => do
    let r ← call cpp17 op
    let rs ← run cpp17 ops
    pure (r :: rs)

/-- the beginning -/
def start : St := ⟨fun _ => Ptr.null, fun _ => Ptr.null, fun _ => 0, fun _ => 0, fun _ => false, fun _ => false, 1, []⟩

end Itlib.SharedFrom
