import Verif.Core.Outcome
import Mathlib.Logic.Function.Basic

/-!
# Model of `itlib::expected` (include/itlib/expected.hpp)

All six classes: the primary template and the specialisations for `T&`, `void` values and `void` errors. The anonymous
unions hold objects with lifetimes: using a member that is not alive, constructing over a live one, or destroying a dead
one is undefined behaviour (`.ub`).

The asserts of the getters (expected.hpp:253, 259, ...) are preconditions: violating them is undefined behaviour (the documentation,
lines 75-77, says so).

Objects are named by numbers and live in a store, so that a function that takes two objects may be given the same one
twice. Moves of values and errors do not throw (the code declares its move operations `noexcept`); copies may.
-/
namespace Itlib.Expected
open Itlib

/-- What the model needs to know of a type `T` (or `E`): arbitrary functions. -/
structure Ty (α : Type) where
  /-- value left in an object that was moved from -/
  mv : α → α
  /-- value of an object after `x = std::move(x)` -/
  selfMv : α → α
  /-- value of an object after a copy assignment to it threw -/
  spoiled : α → α
  /-- the value-initialised object `T()` -/
  dflt : α

/-- A type whose moves and failed copies change nothing: pointers. -/
def Ty.plain {α : Type} (d : α) : Ty α := ⟨id, id, id, d⟩

/-- Everything in memory: the objects that exist and the storage left behind by destroyed ones. -/
structure Store (O : Type) where
  obj : Nat → Option O
  graves : List O

/-- The program start. -/
def Store.init {O : Type} : Store O := ⟨fun _ => none, []⟩

section store
variable {O α : Type}

/-- access object `i` -/
def rd (i : Nat) : M (Store O) O := fun s =>
  match s.obj i with
  | some o => .ok o s
  | none => .ub

/-- overwrite object `i` -/
def wr (i : Nat) (o : O) : M (Store O) Unit := fun s =>
  .ok () { s with obj := Function.update s.obj i (some o) }

/-- begin an object in fresh storage -/
def begin_ (i : Nat) (o : O) : M (Store O) Unit := fun s =>
  match s.obj i with
  | some _ => .ub
  | none => wr i o s

/-- the storage of object `i` goes away -/
def end_ (i : Nat) : M (Store O) Unit := fun s =>
  match s.obj i with
  | some o => .ok () ⟨Function.update s.obj i none, o :: s.graves⟩
  | none => .ub

/-- the constructor of object `i` failed: there is no object -/
def abandon (i : Nat) : M (Store O) Unit := end_ i

/-- A member `α` of an (anonymous) union in an object `O`. -/
structure Member (O α : Type) where
  /-- the object, if this member is alive -/
  get : O → Option α
  /-- no member of the union is alive -/
  free : O → Bool
  put : α → O → O
  kill : O → O

variable (m : Member O α)

/-- `::new (&m) T(a)` -/
def construct (i : Nat) (a : α) : M (Store O) Unit := do
  let o ← rd i
  if m.free o then wr i (m.put a o) else .undef

/-- `m.~T()` -/
def destroy (i : Nat) : M (Store O) Unit := do
  let o ← rd i
  match m.get o with
  | some _ => wr i (m.kill o)
  | none => .undef

/-- reading the member (also binding a reference to it) -/
def read (i : Nat) : M (Store O) α := do
  let o ← rd i
  match m.get o with
  | some a => pure a
  | none => .undef

/-- assigning to the live member -/
def assign (i : Nat) (a : α) : M (Store O) Unit := do
  let o ← rd i
  match m.get o with
  | some _ => wr i (m.put a o)
  | none => .undef

/-- `T(std::move(m))`: the value goes out, the member stays alive in the moved-from state -/
def moveOut (ty : Ty α) (i : Nat) : M (Store O) α := do
  let a ← read m i
  assign m i (ty.mv a)
  pure a

/-- `i.m = std::move(j.m)` -/
def assignMove (ty : Ty α) (i j : Nat) : M (Store O) Unit :=
  if i = j then do
    let a ← read m i
    assign m i (ty.selfMv a)
  else do
    let a ← moveOut m ty j
    assign m i a

/-- `i.m = j.m`, which may throw -/
def assignCopy (ty : Ty α) (i j : Nat) (throws : Bool) : M (Store O) Unit := do
  let a ← read m j
  if throws then do
    let b ← read m i
    assign m i (ty.spoiled b)
    .raise .element
  else assign m i a

end store

/-! ## `expected<T, E>` (expected.hpp:175-308) -/
namespace TE
variable {V E : Type}

/-- the union (expected.hpp:302-306) -/
inductive Slot (V E : Type) where
  | raw
  | val (v : V)
  | err (e : E)

/-- the object (expected.hpp:302-307) -/
structure Obj (V E : Type) where
  u : Slot V E
  has : Bool

/-- `m_value` (expected.hpp:304) -/
def mval : Member (Obj V E) V where
  get o := match o.u with | .val v => some v | _ => none
  free o := match o.u with | .raw => true | _ => false
  put v o := { o with u := .val v }
  kill o := { o with u := .raw }

/-- `m_error` (expected.hpp:305) -/
def merr : Member (Obj V E) E where
  get o := match o.u with | .err e => some e | _ => none
  free o := match o.u with | .raw => true | _ => false
  put e o := { o with u := .err e }
  kill o := { o with u := .raw }

abbrev Mem (V E : Type) := M (Store (Obj V E))

def setHas (i : Nat) (b : Bool) : Mem V E Unit := do
  let o ← rd i
  wr i { o with has := b }

/-- `has_value` (expected.hpp:246), `operator bool` (expected.hpp:248) -/
def hasValue (i : Nat) : Mem V E Bool := do
  let o ← rd i
  pure o.has

/-- `has_error` (expected.hpp:247) -/
def hasError (i : Nat) : Mem V E Bool := do
  let o ← rd i
  pure (!o.has)

/-- `expected(T&&)` (expected.hpp:183) and the default constructor (expected.hpp:182) -/
def ctorVal (i : Nat) (v : V) : Mem V E Unit := do
  begin_ i ⟨.raw, true⟩
  construct mval i v
  setHas i true

/-- `expected(unexpected_t<E2>&&)` (expected.hpp:185-186) and `expected(unexpected_t<void>)` (expected.hpp:188) -/
def ctorErr (i : Nat) (e : E) : Mem V E Unit := do
  begin_ i ⟨.raw, false⟩
  construct merr i e
  setHas i false

variable (tv : Ty V) (te : Ty E)

/-- move constructor (expected.hpp:195-206) -/
def moveCtor (i j : Nat) : Mem V E Unit := do
  let h ← hasValue j
  begin_ i ⟨.raw, h⟩
  if h then do
    let v ← moveOut mval tv j
    construct mval i v
  else do
    let e ← moveOut merr te j
    construct merr i e

/-- move assignment (expected.hpp:208-231) -/
def moveAssign (i j : Nat) : Mem V E Unit := do
  let hi ← hasValue i
  let hj ← hasValue j
  if hi && hj then assignMove mval tv i j
  else if hi && !hj then do
    setHas i false
    destroy mval i
    let e ← moveOut merr te j
    construct merr i e
  else if !hi && hj then do
    setHas i true
    destroy merr i
    let v ← moveOut mval tv j
    construct mval i v
  else assignMove merr te i j

/-- destructor (expected.hpp:233-243) -/
def dtor (i : Nat) : Mem V E Unit := do
  let h ← hasValue i
  if h then destroy mval i else destroy merr i
  end_ i

/-- `value() &`, `value() const &`, `operator*`, `operator->` (expected.hpp:251-261, 269-270, 278-279); the assert is a precondition -/
def value (i : Nat) : Mem V E V := do
  let h ← hasValue i
  if h then read mval i else .undef

/-- assigning through the reference given by `value() &` -/
def setValue (i : Nat) (v : V) : Mem V E Unit := do
  let _ ← value i
  assign mval i v

/-- moving from `value() &&`, `operator*() &&` (expected.hpp:263-267, 271) -/
def takeValue (i : Nat) : Mem V E V := do
  let _ ← value i
  moveOut mval tv i

/-- `value_or const &` (expected.hpp:273-274) -/
def valueOr (i : Nat) (v : V) : Mem V E V := do
  let h ← hasValue i
  if h then value i else pure v

/-- `value_or &&` (expected.hpp:275-276) -/
def takeValueOr (i : Nat) (v : V) : Mem V E V := do
  let h ← hasValue i
  if h then takeValue tv i else pure v

/-- `error() &`, `error() const &` (expected.hpp:283-293) -/
def error (i : Nat) : Mem V E E := do
  let h ← hasError i
  if h then read merr i else .undef

/-- assigning through the reference given by `error() &` -/
def setError (i : Nat) (e : E) : Mem V E Unit := do
  let _ ← error i
  assign merr i e

/-- moving from `error() &&` (expected.hpp:295-299) -/
def takeError (i : Nat) : Mem V E E := do
  let _ ← error i
  moveOut merr te i

end TE

/-! ## `expected<T&, E>` (expected.hpp:310-408) -/
namespace RE
variable {E : Type}

/-- the object (expected.hpp:404-407): a pointer (`none` is `nullptr`) and the union with the error -/
structure Obj (E : Type) where
  ptr : Option Nat
  u : Option E

/-- `m_error` (expected.hpp:406) -/
def merr : Member (Obj E) E where
  get o := o.u
  free o := o.u.isNone
  put e o := { o with u := some e }
  kill o := { o with u := none }

abbrev Mem (E : Type) := M (Store (Obj E))

def setPtr (i : Nat) (p : Option Nat) : Mem E Unit := do
  let o ← rd i
  wr i { o with ptr := p }

def ptr (i : Nat) : Mem E (Option Nat) := do
  let o ← rd i
  pure o.ptr

/-- `has_value` (expected.hpp:369), `operator bool` (expected.hpp:371) -/
def hasValue (i : Nat) : Mem E Bool := do
  let p ← ptr i
  pure p.isSome

/-- `has_error` (expected.hpp:370) -/
def hasError (i : Nat) : Mem E Bool := do
  let p ← ptr i
  pure (!p.isSome)

/-- `expected(T&)` (expected.hpp:316) -/
def ctorVal (i : Nat) (v : Nat) : Mem E Unit := begin_ i ⟨some v, none⟩

/-- `expected(unexpected_t<E2>&&)` (expected.hpp:318-319) and `expected(unexpected_t<void>)` (expected.hpp:321) -/
def ctorErr (i : Nat) (e : E) : Mem E Unit := do
  begin_ i ⟨none, none⟩
  construct merr i e

variable (te : Ty E)

/-- move constructor (expected.hpp:328-335) -/
def moveCtor (i j : Nat) : Mem E Unit := do
  let p ← ptr j
  begin_ i ⟨p, none⟩
  match p with
  | none => do
    let e ← moveOut merr te j
    construct merr i e
  | some _ => pure ()

/-- move assignment (expected.hpp:337-358) -/
def moveAssign (i j : Nat) : Mem E Unit := do
  let p ← ptr i
  let q ← ptr j
  if p.isSome && q.isSome then setPtr i q
  else if p.isSome && !q.isSome then do
    setPtr i none
    let e ← moveOut merr te j
    construct merr i e
  else if !p.isSome && q.isSome then do
    setPtr i q
    destroy merr i
  else assignMove merr te i j

/-- destructor (expected.hpp:360-366) -/
def dtor (i : Nat) : Mem E Unit := do
  let p ← ptr i
  match p with
  | none => destroy merr i
  | some _ => pure ()
  end_ i

/-- `value`, `operator*`, `operator->` (expected.hpp:374-379, 381): the referenced object -/
def value (i : Nat) : Mem E Nat := do
  let p ← ptr i
  match p with
  | some a => pure a
  | none => .undef

/-- `value_or` (expected.hpp:380) -/
def valueOr (i : Nat) (v : Nat) : Mem E Nat := do
  let h ← hasValue i
  if h then value i else pure v

/-- `error() &`, `error() const &` (expected.hpp:385-395) -/
def error (i : Nat) : Mem E E := do
  let h ← hasError i
  if h then read merr i else .undef

/-- assigning through the reference given by `error() &` -/
def setError (i : Nat) (e : E) : Mem E Unit := do
  let _ ← error i
  assign merr i e

/-- moving from `error() &&` (expected.hpp:397-401) -/
def takeError (i : Nat) : Mem E E := do
  let _ ← error i
  moveOut merr te i

end RE

/-! ## `expected<void, E>` (expected.hpp:410-497) -/
namespace VE
variable {E : Type}

/-- the object (expected.hpp:493-496) -/
structure Obj (E : Type) where
  u : Option E
  has : Bool

/-- `m_error` (expected.hpp:494) -/
def merr : Member (Obj E) E where
  get o := o.u
  free o := o.u.isNone
  put e o := { o with u := some e }
  kill o := { o with u := none }

abbrev Mem (E : Type) := M (Store (Obj E))

def setHas (i : Nat) (b : Bool) : Mem E Unit := do
  let o ← rd i
  wr i { o with has := b }

/-- `has_value` (expected.hpp:465), `operator bool` (expected.hpp:467) -/
def hasValue (i : Nat) : Mem E Bool := do
  let o ← rd i
  pure o.has

/-- `has_error` (expected.hpp:466) -/
def hasError (i : Nat) : Mem E Bool := do
  let o ← rd i
  pure (!o.has)

/-- default constructor (expected.hpp:416) -/
def ctorDefault (i : Nat) : Mem E Unit := begin_ i ⟨none, true⟩

/-- `expected(unexpected_t<E2>&&)` (expected.hpp:418-419) and `expected(unexpected_t<void>)` (expected.hpp:421) -/
def ctorErr (i : Nat) (e : E) : Mem E Unit := do
  begin_ i ⟨none, false⟩
  construct merr i e
  setHas i false

variable (te : Ty E)

/-- move constructor (expected.hpp:428-435) -/
def moveCtor (i j : Nat) : Mem E Unit := do
  let h ← hasValue j
  begin_ i ⟨none, h⟩
  if !h then do
    let e ← moveOut merr te j
    construct merr i e

/-- move assignment (expected.hpp:437-454). The final `else` is also taken if both sides hold a value. -/
def moveAssign (i j : Nat) : Mem E Unit := do
  let hi ← hasValue i
  let hj ← hasValue j
  if hi && !hj then do
    setHas i false
    let e ← moveOut merr te j
    construct merr i e
  else if !hi && hj then do
    setHas i true
    destroy merr i
  else assignMove merr te i j

/-- destructor (expected.hpp:456-462) -/
def dtor (i : Nat) : Mem E Unit := do
  let h ← hasValue i
  if !h then destroy merr i
  end_ i

/-- `error() &`, `error() const &` (expected.hpp:473-483) -/
def error (i : Nat) : Mem E E := do
  let h ← hasError i
  if h then read merr i else .undef

/-- assigning through the reference given by `error() &` -/
def setError (i : Nat) (e : E) : Mem E Unit := do
  let _ ← error i
  assign merr i e

/-- moving from `error() &&` (expected.hpp:485-489) -/
def takeError (i : Nat) : Mem E E := do
  let _ ← error i
  moveOut merr te i

end VE

/-! ## `expected<T, void>` (expected.hpp:499-632) -/
namespace TV
variable {V : Type}

/-- the object (expected.hpp:627-631) -/
structure Obj (V : Type) where
  u : Option V
  has : Bool

/-- `m_value` (expected.hpp:629) -/
def mval : Member (Obj V) V where
  get o := o.u
  free o := o.u.isNone
  put v o := { o with u := some v }
  kill o := { o with u := none }

abbrev Mem (V : Type) := M (Store (Obj V))

def setHas (i : Nat) (b : Bool) : Mem V Unit := do
  let o ← rd i
  wr i { o with has := b }

/-- `has_value` (expected.hpp:574), `operator bool` (expected.hpp:576) -/
def hasValue (i : Nat) : Mem V Bool := do
  let o ← rd i
  pure o.has

/-- `has_error` (expected.hpp:575) -/
def hasError (i : Nat) : Mem V Bool := do
  let o ← rd i
  pure (!o.has)

/-- `expected(T&&)` (expected.hpp:507) and the default constructor (expected.hpp:506) -/
def ctorVal (i : Nat) (v : V) : Mem V Unit := do
  begin_ i ⟨none, true⟩
  construct mval i v
  setHas i true

/-- `expected(unexpected_t<void>)` (expected.hpp:508) -/
def ctorErr (i : Nat) : Mem V Unit := begin_ i ⟨none, false⟩

/-- copy constructor (expected.hpp:510-517); if the copy of the value throws, there is no object -/
def copyCtor (i j : Nat) (throws : Bool) : Mem V Unit := do
  let h ← hasValue j
  begin_ i ⟨none, h⟩
  if h then do
    let v ← read mval j
    if throws then do
      abandon i
      .raise .element
    else construct mval i v

variable (tv : Ty V)

/-- copy assignment (expected.hpp:518-535); `throws`: the copy construction or copy assignment of the value throws -/
def copyAssign (i j : Nat) (throws : Bool) : Mem V Unit := do
  let hi ← hasValue i
  let hj ← hasValue j
  if hi && hj then assignCopy mval tv i j throws
  else if hi && !hj then do
    setHas i false
    destroy mval i
  else if !hi && hj then do
    setHas i true
    let v ← read mval j
    if throws then .raise .element
    else construct mval i v

/-- move constructor (expected.hpp:537-544) -/
def moveCtor (i j : Nat) : Mem V Unit := do
  let h ← hasValue j
  begin_ i ⟨none, h⟩
  if h then do
    let v ← moveOut mval tv j
    construct mval i v

/-- move assignment (expected.hpp:546-563) -/
def moveAssign (i j : Nat) : Mem V Unit := do
  let hi ← hasValue i
  let hj ← hasValue j
  if hi && hj then assignMove mval tv i j
  else if hi && !hj then do
    setHas i false
    destroy mval i
  else if !hi && hj then do
    setHas i true
    let v ← moveOut mval tv j
    construct mval i v

/-- destructor (expected.hpp:565-571) -/
def dtor (i : Nat) : Mem V Unit := do
  let h ← hasValue i
  if h then destroy mval i
  end_ i

/-- `clear` (expected.hpp:579-584) -/
def clear (i : Nat) : Mem V Unit := do
  let h ← hasValue i
  if h then do
    destroy mval i
    setHas i false

/-- `emplace` (expected.hpp:585-591) with an argument from outside; `throws`: the constructor throws -/
def emplace (i : Nat) (v : V) (throws : Bool) : Mem V Unit := do
  clear i
  if throws then .raise .element
  else do
    construct mval i v
    setHas i true

/-- `x.emplace(*x)` or `x.emplace(std::move(*x))` (expected.hpp:585-591): the argument is a reference to the own value, read after
`clear` -/
def emplaceSelf (i : Nat) : Mem V Unit := do
  let _ ← read mval i
  clear i
  let v ← read mval i
  construct mval i v
  setHas i true

/-- `value() &`, `value() const &`, `operator*`, `operator->` (expected.hpp:594-604, 612-613, 621-622) -/
def value (i : Nat) : Mem V V := do
  let h ← hasValue i
  if h then read mval i else .undef

/-- assigning through the reference given by `value() &` -/
def setValue (i : Nat) (v : V) : Mem V Unit := do
  let _ ← value i
  assign mval i v

/-- moving from `value() &&`, `operator*() &&` (expected.hpp:606-610, 614) -/
def takeValue (i : Nat) : Mem V V := do
  let _ ← value i
  moveOut mval tv i

/-- `value_or const &` (expected.hpp:616-617) -/
def valueOr (i : Nat) (v : V) : Mem V V := do
  let h ← hasValue i
  if h then value i else pure v

/-- `value_or &&` (expected.hpp:618-619) -/
def takeValueOr (i : Nat) (v : V) : Mem V V := do
  let h ← hasValue i
  if h then takeValue tv i else pure v

end TV

/-! ## `expected<T&, void>` (expected.hpp:634-671) -/
namespace RV

/-- the object (expected.hpp:670): a pointer, `none` is `nullptr` -/
structure Obj where
  ptr : Option Nat

abbrev Mem := M (Store Obj)

/-- `has_value` (expected.hpp:649), `operator bool` (expected.hpp:651) -/
def hasValue (i : Nat) : Mem Bool := do
  let o ← rd i
  pure o.ptr.isSome

/-- `has_error` (expected.hpp:650) -/
def hasError (i : Nat) : Mem Bool := do
  let o ← rd i
  pure (!o.ptr.isSome)

/-- `expected(T&)` (expected.hpp:640) -/
def ctorVal (i : Nat) (v : Nat) : Mem Unit := begin_ i ⟨some v⟩

/-- `expected(unexpected_t<void>)` (expected.hpp:641) -/
def ctorErr (i : Nat) : Mem Unit := begin_ i ⟨none⟩

/-- defaulted copy and move constructors (expected.hpp:643, 645) -/
def copyCtor (i j : Nat) : Mem Unit := do
  let o ← rd j
  begin_ i o

/-- defaulted copy and move assignments (expected.hpp:644, 646) -/
def copyAssign (i j : Nat) : Mem Unit := do
  let _ ← rd i
  let o ← rd j
  wr i o

/-- implicit destructor -/
def dtor (i : Nat) : Mem Unit := end_ i

/-- `clear` (expected.hpp:654) -/
def clear (i : Nat) : Mem Unit := do
  let _ ← rd i
  wr i ⟨none⟩

/-- `emplace` (expected.hpp:655) -/
def emplace (i : Nat) (v : Nat) : Mem Unit := do
  let _ ← rd i
  wr i ⟨some v⟩

/-- `value`, `operator*`, `operator->` (expected.hpp:658-663, 665): the referenced object -/
def value (i : Nat) : Mem Nat := do
  let o ← rd i
  match o.ptr with
  | some a => pure a
  | none => .undef

/-- `value_or` (expected.hpp:664) -/
def valueOr (i : Nat) (v : Nat) : Mem Nat := do
  let h ← hasValue i
  if h then value i else pure v

end RV

/-! ## `expected<void, void>` (expected.hpp:673-702) -/
namespace VV

/-- the object (expected.hpp:701) -/
structure Obj where
  has : Bool

abbrev Mem := M (Store Obj)

/-- `has_value` (expected.hpp:688), `operator bool` (expected.hpp:690) -/
def hasValue (i : Nat) : Mem Bool := do
  let o ← rd i
  pure o.has

/-- `has_error` (expected.hpp:689) -/
def hasError (i : Nat) : Mem Bool := do
  let o ← rd i
  pure (!o.has)

/-- default constructor (expected.hpp:679) -/
def ctorDefault (i : Nat) : Mem Unit := begin_ i ⟨true⟩

/-- `expected(unexpected_t<void>)` (expected.hpp:680) -/
def ctorErr (i : Nat) : Mem Unit := begin_ i ⟨false⟩

/-- defaulted copy and move constructors (expected.hpp:682, 684) -/
def copyCtor (i j : Nat) : Mem Unit := do
  let o ← rd j
  begin_ i o

/-- defaulted copy and move assignments (expected.hpp:683, 685) -/
def copyAssign (i j : Nat) : Mem Unit := do
  let _ ← rd i
  let o ← rd j
  wr i o

/-- implicit destructor -/
def dtor (i : Nat) : Mem Unit := end_ i

/-- `clear` (expected.hpp:693) -/
def clear (i : Nat) : Mem Unit := do
  let _ ← rd i
  wr i ⟨false⟩

/-- `emplace` (expected.hpp:694) -/
def emplace (i : Nat) : Mem Unit := do
  let _ ← rd i
  wr i ⟨true⟩

end VV
end Itlib.Expected
