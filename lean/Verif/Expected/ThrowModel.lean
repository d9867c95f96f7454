import Verif.Expected.Exec
import Verif.Expected.ThrowSpec

/-!
# Model of `itlib::expected` with values and errors whose operations throw (include/itlib/expected.hpp)

The functions of `Model.lean` in which an operation of a value or an error (construction, move, copy, assignment) throws. In
each function there is at most one such operation that can be reached. Functions declared `noexcept` end the program if an
exception leaves them (`Out.ended`).

The arguments of the constructors are outside the model.
-/
namespace Itlib.Expected
open Itlib

/-- How a call ends. -/
inductive Out (O α : Type) where
  | ret (a : α) (s : Store O)
  | thrown (s : Store O)
  | ended
  | ub

/-- a call of a function without `noexcept` -/
def open_ {O α : Type} (m : M (Store O) α) (s : Store O) : Out O α :=
  match m s with
  | .ok a s => .ret a s
  | .throw _ s => .thrown s
  | .ub => .ub

/-- a call of a function with `noexcept` -/
def sealed {O α : Type} (m : M (Store O) α) (s : Store O) : Out O α :=
  match m s with
  | .ok a s => .ret a s
  | .throw _ _ => .ended
  | .ub => .ub

section
variable {O α : Type} (m : Member O α)

/-- `T(std::move(i.m))`, which throws: there is no new object, the source is what the move made of it -/
def moveOutT (n : Torn α) (i : Nat) : M (Store O) Unit := do
  let a ← read m i
  assign m i (n.source a)
  .raise .element

/-- `i.m = x`, which throws -/
def assignT (n : Torn α) (i : Nat) : M (Store O) Unit := do
  let a ← read m i
  assign m i (n.target a)
  .raise .element

/-- `i.m = std::move(j.m)`, which throws -/
def assignMoveT (n : Torn α) (i j : Nat) : M (Store O) Unit := do
  let a ← read m j
  let _ ← read m i
  assign m j (n.source a)
  assignT m n i

/-- `T(i.m)`, which throws -/
def copyOutT (i : Nat) : M (Store O) Unit := do
  let _ ← read m i
  .raise .element

end

/-! ## `expected<T, E>` -/
namespace TE
variable {V E : Type}

/-- expected.hpp:182-183, the constructor of the value throws -/
def ctorValT (i : Nat) : Mem V E Unit := do
  begin_ i ⟨.raw, true⟩
  abandon i
  .raise .element

/-- expected.hpp:185-188, the constructor of the error throws -/
def ctorErrT (i : Nat) : Mem V E Unit := do
  begin_ i ⟨.raw, false⟩
  abandon i
  .raise .element

variable (nv : Torn V) (ne : Torn E)

/-- move constructor (expected.hpp:195-206) -/
def moveCtorT (i j : Nat) : Mem V E Unit := do
  let h ← hasValue j
  begin_ i ⟨.raw, h⟩
  if h then moveOutT mval nv j else moveOutT merr ne j

/-- move assignment (expected.hpp:208-231) -/
def moveAssignT (i j : Nat) : Mem V E Unit := do
  let hi ← hasValue i
  let hj ← hasValue j
  if hi && hj then assignMoveT mval nv i j
  else if hi && !hj then do
    setHas i false
    destroy mval i
    moveOutT merr ne j
  else if !hi && hj then do
    setHas i true
    destroy merr i
    moveOutT mval nv j
  else assignMoveT merr ne i j

/-- assigning through `value() &` (expected.hpp:251-255) -/
def setValueT (i : Nat) : Mem V E Unit := do
  let _ ← value i
  assignT mval nv i

/-- moving from `value() &&` (expected.hpp:263-267) -/
def takeValueT (i : Nat) : Mem V E Unit := do
  let _ ← value i
  moveOutT mval nv i

/-- `value_or const &` (expected.hpp:273-274): the copy of the value, or the conversion of the argument, throws -/
def valueOrT (i : Nat) : Mem V E Unit := do
  let h ← hasValue i
  if h then do
    let _ ← value i
    copyOutT mval i
  else .raise .element

/-- `value_or &&` (expected.hpp:275-276) -/
def takeValueOrT (i : Nat) : Mem V E Unit := do
  let h ← hasValue i
  if h then takeValueT nv i else .raise .element

/-- assigning through `error() &` (expected.hpp:283-287) -/
def setErrorT (i : Nat) : Mem V E Unit := do
  let _ ← error i
  assignT merr ne i

/-- moving from `error() &&` (expected.hpp:295-299) -/
def takeErrorT (i : Nat) : Mem V E Unit := do
  let _ ← error i
  moveOutT merr ne i

end TE

/-! ## `expected<T&, E>` -/
namespace RE
variable {E : Type}

/-- expected.hpp:318-321, the constructor of the error throws -/
def ctorErrT (i : Nat) : Mem E Unit := do
  begin_ i ⟨none, none⟩
  abandon i
  .raise .element

variable (ne : Torn E)

/-- move constructor (expected.hpp:328-335) -/
def moveCtorT (i j : Nat) : Mem E Unit := do
  let p ← ptr j
  begin_ i ⟨p, none⟩
  match p with
  | none => moveOutT merr ne j
  | some _ => pure ()

/-- move assignment (expected.hpp:337-358) -/
def moveAssignT (i j : Nat) : Mem E Unit := do
  let p ← ptr i
  let q ← ptr j
  if p.isSome && q.isSome then setPtr i q
  else if p.isSome && !q.isSome then do
    setPtr i none
    moveOutT merr ne j
  else if !p.isSome && q.isSome then do
    setPtr i q
    destroy merr i
  else assignMoveT merr ne i j

/-- assigning through `error() &` (expected.hpp:385-389) -/
def setErrorT (i : Nat) : Mem E Unit := do
  let _ ← error i
  assignT merr ne i

/-- moving from `error() &&` (expected.hpp:397-401) -/
def takeErrorT (i : Nat) : Mem E Unit := do
  let _ ← error i
  moveOutT merr ne i

end RE

/-! ## `expected<void, E>` -/
namespace VE
variable {E : Type}

/-- expected.hpp:418-421, the constructor of the error throws -/
def ctorErrT (i : Nat) : Mem E Unit := do
  begin_ i ⟨none, false⟩
  abandon i
  .raise .element

variable (ne : Torn E)

/-- move constructor (expected.hpp:428-435) -/
def moveCtorT (i j : Nat) : Mem E Unit := do
  let h ← hasValue j
  begin_ i ⟨none, h⟩
  if !h then moveOutT merr ne j

/-- move assignment (expected.hpp:437-454) -/
def moveAssignT (i j : Nat) : Mem E Unit := do
  let hi ← hasValue i
  let hj ← hasValue j
  if hi && !hj then do
    setHas i false
    moveOutT merr ne j
  else if !hi && hj then do
    setHas i true
    destroy merr i
  else assignMoveT merr ne i j

/-- assigning through `error() &` (expected.hpp:473-477) -/
def setErrorT (i : Nat) : Mem E Unit := do
  let _ ← error i
  assignT merr ne i

/-- moving from `error() &&` (expected.hpp:485-489) -/
def takeErrorT (i : Nat) : Mem E Unit := do
  let _ ← error i
  moveOutT merr ne i

end VE

/-! ## `expected<T, void>` -/
namespace TV
variable {V : Type}

/-- expected.hpp:506-507, the constructor of the value throws -/
def ctorValT (i : Nat) : Mem V Unit := do
  begin_ i ⟨none, true⟩
  abandon i
  .raise .element

variable (nv : Torn V)

/-- move constructor (expected.hpp:537-544) -/
def moveCtorT (i j : Nat) : Mem V Unit := do
  let h ← hasValue j
  begin_ i ⟨none, h⟩
  if h then moveOutT mval nv j

/-- move assignment (expected.hpp:546-563) -/
def moveAssignT (i j : Nat) : Mem V Unit := do
  let hi ← hasValue i
  let hj ← hasValue j
  if hi && hj then assignMoveT mval nv i j
  else if hi && !hj then do
    setHas i false
    destroy mval i
  else if !hi && hj then do
    setHas i true
    moveOutT mval nv j

/-- assigning through `value() &` (expected.hpp:594-598) -/
def setValueT (i : Nat) : Mem V Unit := do
  let _ ← value i
  assignT mval nv i

/-- moving from `value() &&` (expected.hpp:606-610) -/
def takeValueT (i : Nat) : Mem V Unit := do
  let _ ← value i
  moveOutT mval nv i

/-- `value_or const &` (expected.hpp:616-617) -/
def valueOrT (i : Nat) : Mem V Unit := do
  let h ← hasValue i
  if h then do
    let _ ← value i
    copyOutT mval i
  else .raise .element

/-- `value_or &&` (expected.hpp:618-619) -/
def takeValueOrT (i : Nat) : Mem V Unit := do
  let h ← hasValue i
  if h then takeValueT nv i else .raise .element

end TV

/-! ## Histories -/

/-- a reply to a call, and what is left of the program; `none` is undefined behaviour -/
def Out.reply {O V E : Type} (f : Reply V E) : Out O Unit → Option (Reply V E × Option (Store O))
  | .ret _ s => some (f, some s)
  | .thrown s => some (.exc, some s)
  | .ended => some (.exc, none)
  | .ub => none

/-- a call in which nothing throws (or only what the calls of `Model.lean` say) -/
def plainCall {O V E : Type} (m : M (Store O) (Reply V E)) (s : Store O) : Option (Reply V E × Option (Store O)) :=
  (caught m s).map fun p => (p.1, some p.2)

/-- dispatch for `expected<T, E>` -/
def TE.execT {V E : Type} (tv : Ty V) (te : Ty E) (nv : Torn V) (ne : Torn E) (op : TOp V E) (s : Store (TE.Obj V E)) :
    Option (Reply V E × Option (Store (TE.Obj V E))) :=
  match op with
  | .quiet op => plainCall (TE.exec tv te op) s
  | .ctorVal i => (open_ (ctorValT i) s).reply .done
  | .ctorErr i => (open_ (ctorErrT i) s).reply .done
  | .moveCtor i j => (sealed (moveCtorT nv ne i j) s).reply .done
  | .moveAssign i j => (sealed (moveAssignT nv ne i j) s).reply .done
  | .setValue i => (open_ (setValueT nv i) s).reply .done
  | .takeValue i => (open_ (takeValueT nv i) s).reply .done
  | .valueOr i => (open_ (valueOrT i) s).reply .done
  | .takeValueOr i => (open_ (takeValueOrT nv i) s).reply .done
  | .setError i => (open_ (setErrorT ne i) s).reply .done
  | .takeError i => (open_ (takeErrorT ne i) s).reply .done

/-- dispatch for `expected<T&, E>` -/
def RE.execT {E : Type} (te : Ty E) (ne : Torn E) (op : TOp Nat E) (s : Store (RE.Obj E)) :
    Option (Reply Nat E × Option (Store (RE.Obj E))) :=
  match op with
  | .quiet op => plainCall (RE.exec te op) s
  | .ctorErr i => (open_ (ctorErrT i) s).reply .done
  | .moveCtor i j => (sealed (moveCtorT ne i j) s).reply .done
  | .moveAssign i j => (sealed (moveAssignT ne i j) s).reply .done
  | .setError i => (open_ (setErrorT ne i) s).reply .done
  | .takeError i => (open_ (takeErrorT ne i) s).reply .done
  | _ => none

/-- dispatch for `expected<void, E>` -/
def VE.execT {E : Type} (te : Ty E) (ne : Torn E) (op : TOp Unit E) (s : Store (VE.Obj E)) :
    Option (Reply Unit E × Option (Store (VE.Obj E))) :=
  match op with
  | .quiet op => plainCall (VE.exec te op) s
  | .ctorErr i => (open_ (ctorErrT i) s).reply .done
  | .moveCtor i j => (sealed (moveCtorT ne i j) s).reply .done
  | .moveAssign i j => (sealed (moveAssignT ne i j) s).reply .done
  | .setError i => (open_ (setErrorT ne i) s).reply .done
  | .takeError i => (open_ (takeErrorT ne i) s).reply .done
  | _ => none

/-- dispatch for `expected<T, void>` -/
def TV.execT {V : Type} (tv : Ty V) (nv : Torn V) (op : TOp V Unit) (s : Store (TV.Obj V)) :
    Option (Reply V Unit × Option (Store (TV.Obj V))) :=
  match op with
  | .quiet op => plainCall (TV.exec tv op) s
  | .ctorVal i => (open_ (ctorValT i) s).reply .done
  | .moveCtor i j => (sealed (moveCtorT nv i j) s).reply .done
  | .moveAssign i j => (sealed (moveAssignT nv i j) s).reply .done
  | .setValue i => (open_ (setValueT nv i) s).reply .done
  | .takeValue i => (open_ (takeValueT nv i) s).reply .done
  | .valueOr i => (open_ (valueOrT i) s).reply .done
  | .takeValueOr i => (open_ (takeValueOrT nv i) s).reply .done
  | _ => none

/-- A history of calls; none follows the end of the program. -/
def runTOf {O V E : Type} (exec : TOp V E → Store O → Option (Reply V E × Option (Store O))) :
    List (TOp V E) → Store O → Option (List (Reply V E) × Option (Store O))
  | [], s => some ([], some s)
  | op :: ops, s => do
    let (r, a) ← exec op s
    match a with
    | none => some ([r], none)
    | some s => do
      let (rs, a) ← runTOf exec ops s
      some (r :: rs, a)

end Itlib.Expected
