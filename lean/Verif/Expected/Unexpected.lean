import Verif.Expected.Exec

/-!
# Model of `unexpected` and `unexpected_t` (include/itlib/expected.hpp:147-173) and of their use by `expected`

`unexpected(E&& e)` has a forwarding reference: for an argument that is not a temporary `E` is a reference type, and the
`unexpected_t<E>` that is returned has a reference for a member. The constructors of `expected` from an `unexpected_t`
(expected.hpp:185-186, 318-319, 418-419) apply `std::move` to the member, which makes an rvalue of what it refers to, unless that
is const.

A program has variables with errors of a type `F`, objects of the types `unexpected_t<F>`, `unexpected_t<F&>`,
`unexpected_t<const F&>`, and objects of one class `expected<T, E>`, `expected<T&, E>` or `expected<void, E>`; `exec` is the
dispatcher of its functions (Exec.lean). `conv` makes an `E` of an `F`. Using a variable through a reference when it does not
exist any more is undefined.

Simplification: moves and conversions do not throw; copying an `F` neither.
-/
namespace Itlib.Expected
open Itlib

/-- What the model needs to know of `F`: arbitrary functions. -/
structure Src (F E : Type) where
  /-- value left in an `F` when another `F` is constructed from it as an rvalue -/
  mv : F → F
  /-- value left in an `F` when an `E` is constructed from it as an rvalue -/
  mvTo : F → F
  /-- the `E` constructed from an `F` -/
  conv : F → E

/-- An `unexpected_t`: the member `m_error` (expected.hpp:158) is an object, or a reference to a variable. -/
inductive Pkg (F : Type) where
  | own (f : F)
  | ref (x : Nat)
  | cref (x : Nat)

/-- The memory. -/
structure World (O F : Type) where
  vars : Nat → Option F
  pkgs : Nat → Option (Pkg F)
  objs : Store O

/-- The calls of such a program. -/
inductive UOp (V E F : Type) where
  /-- `F x = f;` -/
  | newVar (x : Nat) (f : F)
  /-- `x = f;` -/
  | setVar (x : Nat) (f : F)
  /-- reading `x` -/
  | getVar (x : Nat)
  /-- the end of `x` -/
  | endVar (x : Nat)
  /-- `auto p = unexpected(std::move(x));` -/
  | wrapRvalue (p x : Nat)
  /-- `auto p = unexpected(x);` -/
  | wrapLvalue (p x : Nat)
  /-- `auto p = unexpected(std::as_const(x));` -/
  | wrapConst (p x : Nat)
  /-- `auto p = q;` -/
  | copyPkg (p q : Nat)
  /-- `auto p = std::move(q);` -/
  | movePkg (p q : Nat)
  /-- the end of `p` -/
  | endPkg (p : Nat)
  /-- `expected i = std::move(p);` -/
  | take (i p : Nat)
  /-- a function of `expected` -/
  | call (op : Op V E)

inductive UReply (V E F : Type) where
  | done
  | var (f : F)
  | of (r : Reply V E)
  deriving DecidableEq

section
variable {O V E F : Type}

/-- access to a variable -/
def rdVar (x : Nat) : M (World O F) F := .load fun w => w.vars x

/-- assignment to a variable that exists -/
def wrVar (x : Nat) (f : F) : M (World O F) Unit := do
  let _ ← rdVar x
  .modify fun w => { w with vars := Function.update w.vars x (some f) }

/-- an `unexpected_t` begins -/
def beginPkg (p : Nat) (k : Pkg F) : M (World O F) Unit := fun w =>
  match w.pkgs p with
  | some _ => .ub
  | none => .ok () { w with pkgs := Function.update w.pkgs p (some k) }

/-- access to an `unexpected_t` -/
def rdPkg (p : Nat) : M (World O F) (Pkg F) := .load fun w => w.pkgs p

/-- assignment to the member of an `unexpected_t` -/
def wrPkg (p : Nat) (k : Pkg F) : M (World O F) Unit := .modify fun w => { w with pkgs := Function.update w.pkgs p (some k) }

/-- a function of `expected` is called -/
def onObjs (exec : Op V E → M (Store O) (Reply V E)) (op : Op V E) : M (World O F) (UReply V E F) := fun w =>
  match caught (exec op) w.objs with
  | some (r, s) => .ok (.of r) { w with objs := s }
  | none => .ub

variable (src : Src F E)

/-- `unexpected(std::move(x))` (expected.hpp:161-165): `E` is `F`; the constructor expected.hpp:152 constructs the member -/
def wrapRvalue (p x : Nat) : M (World O F) Unit := do
  let f ← rdVar x
  wrVar x (src.mv f)
  beginPkg p (.own f)

/-- `unexpected(x)`: `E` is `F&`; the member is bound to `x` -/
def wrapLvalue (p x : Nat) : M (World O F) Unit := do
  let _ ← rdVar x
  beginPkg p (.ref x)

/-- `unexpected(x)` with `x` const: `E` is `const F&` -/
def wrapConst (p x : Nat) : M (World O F) Unit := do
  let _ ← rdVar x
  beginPkg p (.cref x)

/-- implicit copy constructor of `unexpected_t` -/
def copyPkg (p q : Nat) : M (World O F) Unit := do
  let k ← rdPkg q
  beginPkg p k

/-- implicit move constructor of `unexpected_t`: a reference is copied -/
def movePkg (p q : Nat) : M (World O F) Unit := do
  let k ← rdPkg q
  match k with
  | .own f => do
    wrPkg q (.own (src.mv f))
    beginPkg p (.own f)
  | .ref x => beginPkg p (.ref x)
  | .cref x => beginPkg p (.cref x)

/-- the end of an `unexpected_t` -/
def endPkg (p : Nat) : M (World O F) Unit := do
  let _ ← rdPkg p
  .modify fun w => { w with pkgs := Function.update w.pkgs p none }

/-- `std::move(u.m_error)` as the argument of the constructor of `m_error` (expected.hpp:186, 319, 419): an rvalue of `F` if the
member is an `F` or an `F&`, an rvalue of `const F`, from which the copy is made, if it is a `const F&` -/
def takeError (p : Nat) : M (World O F) E := do
  let k ← rdPkg p
  match k with
  | .own f => do
    wrPkg p (.own (src.mvTo f))
    pure (src.conv f)
  | .ref x => do
    let f ← rdVar x
    wrVar x (src.mvTo f)
    pure (src.conv f)
  | .cref x => do
    let f ← rdVar x
    pure (src.conv f)

/-- `expected(unexpected_t<E2>&&)` (expected.hpp:185-186, 318-319, 418-419) -/
def takePkg (exec : Op V E → M (Store O) (Reply V E)) (i p : Nat) : M (World O F) (UReply V E F) := do
  let e ← takeError src p
  onObjs exec (.ctorErr i e)

/-- one call -/
def uexec (exec : Op V E → M (Store O) (Reply V E)) : UOp V E F → M (World O F) (UReply V E F)
  | .newVar x f => fun w =>
    match w.vars x with
    | some _ => .ub
    | none => .ok .done { w with vars := Function.update w.vars x (some f) }
  | .setVar x f => do wrVar x f; pure .done
  | .getVar x => do let f ← rdVar x; pure (.var f)
  | .endVar x => do
    let _ ← rdVar x
    .modify fun w => { w with vars := Function.update w.vars x none }
    pure .done
  | .wrapRvalue p x => do wrapRvalue src p x; pure .done
  | .wrapLvalue p x => do wrapLvalue p x; pure .done
  | .wrapConst p x => do wrapConst p x; pure .done
  | .copyPkg p q => do copyPkg p q; pure .done
  | .movePkg p q => do movePkg src p q; pure .done
  | .endPkg p => do endPkg p; pure .done
  | .take i p => takePkg src exec i p
  | .call op => onObjs exec op

/-- A history of calls. -/
def urun (exec : Op V E → M (Store O) (Reply V E)) : List (UOp V E F) → M (World O F) (List (UReply V E F))
  | [] => pure []
  | op :: ops => do
    let r ← uexec src exec op
    let rs ← urun exec ops
    pure (r :: rs)

/-- The program start. -/
def World.init : World O F := ⟨fun _ => none, fun _ => none, Store.init⟩

end
end Itlib.Expected
