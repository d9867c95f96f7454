import Verif.Core.Outcome
import Mathlib.Logic.Function.Basic

/-!
# Model of `sentry` (include/itlib/sentry.hpp:87-124)

Sentry objects are named by numbers; the temporary returned by `make_sentry` where its move is not elided is `tmp`. A function is
a number, calling it appends it to a log. Moving a function object leaves the source callable (a lambda without captures that
own something, a reference) or not (`keeps`); calling a function object that is moved from is undefined. `cpp17` selects the
branch of the preprocessor.

Simplifications: the functions return (one that throws ends the program, the destructor being `noexcept`), do not touch sentries,
and moving them does not throw; constructing the function object from the argument may throw. Not modelled: before C++17,
`make_sentry` of an lvalue does not compile (`Func` is a reference, and the move constructor binds it to an rvalue).
-/
namespace Itlib.Sentry
open Itlib

/-- where a sentry is -/
inductive Loc where
  | user (n : Nat)
  | tmp
deriving DecidableEq

/-- members: `m_func` (`none`: moved from), `m_has_func` (109; in C++17 there is none, here constantly true) -/
structure Obj where
  func : Option Nat
  has : Bool

/-- the sentries, and the functions called so far -/
structure St where
  objs : Loc → Option Obj
  log : List Nat

abbrev Mem := M St

def put (i : Loc) (o : Option Obj) : Mem Unit := .modify fun s => { s with objs := Function.update s.objs i o }

/-- reads a sentry -/
def rd (i : Loc) : Mem Obj := .load fun s => s.objs i

/-- `m_func()` -/
def call (f : Option Nat) : Mem Unit :=
  match f with
  | some n => .modify fun s => { s with log := s.log ++ [n] }
  | none => .undef

/-- constructor: sentry.hpp:91, 109 -/
def ctor (i : Loc) (n : Nat) (throws : Bool) : Mem Unit := do
  if throws then .raise .user
  put i (some ⟨some n, true⟩)

/-- destructor: sentry.hpp:105 (C++17), 113 -/
def dtor (cpp17 : Bool) (i : Loc) : Mem Unit := do
  let o ← rd i
  if cpp17 then call o.func
  else if o.has then call o.func
  put i none

/-- what is left of a function object that was moved -/
def leftover (keeps : Nat → Bool) : Option Nat → Option Nat
  | some n => if keeps n then some n else none
  | none => none

/-- move constructor (before C++17): sentry.hpp:107-112 -/
def moveCtor (keeps : Nat → Bool) (d s : Loc) : Mem Unit := do
  let o ← rd s
  put s (some ⟨leftover keeps o.func, o.has⟩)
  let o' ← rd s
  put d (some ⟨o.func, o'.has⟩)
  put s (some ⟨o'.func, false⟩)

/-- make_sentry: sentry.hpp:119-123; `elided`: the result is constructed in place (always in C++17) -/
def makeSentry (cpp17 : Bool) (keeps : Nat → Bool) (x n : Nat) (throws elided : Bool) : Mem Unit := do
  if cpp17 || elided then ctor (.user x) n throws
  else
    ctor .tmp n throws
    moveCtor keeps (.user x) .tmp
    dtor cpp17 .tmp

end Itlib.Sentry
