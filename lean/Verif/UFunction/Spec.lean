import Mathlib.Logic.Function.Basic

/-! # Specification of `ufunction`: variables that hold at most one callable -/
namespace Itlib.UFunction

/-- what a `ufunction` can hold: a pointer to a function, or a function object in some state -/
inductive Callee (S : Type) where
  | ptr (p : Nat)
  | obj (v : S)
deriving DecidableEq

/-- where a new target comes from: `nullptr`, a pointer to a function of the very type `F*` (`none` if null), a function
object of the user that is moved or copied into the parameter -/
inductive Src where
  | null
  | ptr (p : Option Nat)
  | byMove (u : Nat)
  | byCopy (u : Nat)

/-- calls; `x`, `d` are variables of type `ufunction`, `u` variables of the user with function objects -/
inductive Op (A : Type) where
  /-- `ufunction x;` -/
  | default (x : Nat)
  /-- `ufunction x(src);` -/
  | create (x : Nat) (src : Src)
  /-- `x = src;` -/
  | assign (x : Nat) (src : Src)
  /-- `ufunction d(std::move(x));` -/
  | moveNew (d x : Nat)
  /-- `d = std::move(x);` -/
  | moveAssign (d x : Nat)
  /-- `x(a)` -/
  | call (x : Nat) (a : A)
  /-- `bool(x)` -/
  | test (x : Nat)
  /-- end of the life of `x` -/
  | destroy (x : Nat)

/-- results; `terminated`: `std::terminate` was called -/
inductive Reply (R : Type) where
  | unit
  | val (r : R)
  | bool (b : Bool)
  | badFunctionCall
  | terminated
deriving DecidableEq

/-- What functions and function objects do. `call v a = none`: calling a function object in this state is undefined (a
null pointer to a function of another type, for example). `mv v` is the state of a function object of which the contents
were moved elsewhere. -/
structure Lang (S A R : Type) where
  pcall : Nat → A → R
  call : S → A → Option (R × S)
  mv : S → S

variable {S A R : Type}

namespace Spec

/-- the `ufunction`s (`none`: does not exist; `some none`: empty), and the function objects of the user -/
structure Sys (S : Type) where
  fn : Nat → Option (Option (Callee S))
  usr : Nat → S

/-- what a source gives -/
def value (y : Sys S) : Src → Option (Callee S)
  | .null => none
  | .ptr p => p.map .ptr
  | .byMove u | .byCopy u => some (.obj (y.usr u))

/-- the user's objects after giving them away -/
def given (L : Lang S A R) (y : Sys S) : Src → Nat → S
  | .byMove u => Function.update y.usr u (L.mv (y.usr u))
  | _ => y.usr

/-- a call; `none`: not allowed (the variable does not exist, or exists already, or its function object must not be
called). `selfMoveClears`: what a self move leaves, which the standard does not say. -/
def step (L : Lang S A R) (selfMoveClears : Bool) (y : Sys S) : Op A → Option (Reply R × Sys S)
  | .default x => if y.fn x = none then some (.unit, { y with fn := Function.update y.fn x (some none) }) else none
  | .create x src =>
    if y.fn x = none then some (.unit, ⟨Function.update y.fn x (some (value y src)), given L y src⟩) else none
  | .assign x src =>
    if y.fn x = none then none else some (.unit, ⟨Function.update y.fn x (some (value y src)), given L y src⟩)
  | .moveNew d x =>
    if y.fn d = none ∧ y.fn x ≠ none then
      some (.unit, { y with fn := Function.update (Function.update y.fn x (some none)) d (y.fn x) })
    else none
  | .moveAssign d x =>
    if y.fn d = none ∨ y.fn x = none then none
    else if d = x then some (.unit, { y with fn := if selfMoveClears then Function.update y.fn x (some none) else y.fn })
    else some (.unit, { y with fn := Function.update (Function.update y.fn x (some none)) d (y.fn x) })
  | .call x a =>
    match y.fn x with
    | none => none
    | some none => some (.badFunctionCall, y)
    | some (some (.ptr p)) => some (.val (L.pcall p a), y)
    | some (some (.obj v)) =>
      match L.call v a with
      | none => none
      | some (r, v') => some (.val r, { y with fn := Function.update y.fn x (some (some (.obj v'))) })
  | .test x =>
    match y.fn x with
    | none => none
    | some c => some (.bool c.isSome, y)
  | .destroy x => if y.fn x = none then none else some (.unit, { y with fn := Function.update y.fn x none })

def run (L : Lang S A R) (selfMoveClears : Bool) : List (Op A) → Sys S → Option (List (Reply R) × Sys S)
  | [], y => some ([], y)
  | op :: ops, y => do
    let (r, y) ← step L selfMoveClears y op
    let (rs, y) ← run L selfMoveClears ops y
    some (r :: rs, y)

def start (usr : Nat → S) : Sys S := ⟨fun _ => none, usr⟩

end Spec
end Itlib.UFunction
