import Verif.Sentry.Model
import Verif.Sentry.ReSpec

/-!
# Model of `sentry` whose functions use sentries themselves (include/itlib/sentry.hpp:87-124)

As Model.lean, but `m_func()` runs a program, and moving a function object may throw. The members of a sentry exist while its
destructor runs: another sentry can be made from it then. Destroying it once more is undefined.

Simplification: a function does not use its captures after its function object was moved.
-/
namespace Itlib.Sentry
open Itlib

/-- the sentries, those being destroyed, and what was observed -/
structure RSt where
  objs : Loc → Option Obj
  dying : Loc → Bool
  log : List Event

/-- How a call, or a function, ends -/
inductive Out where
  | done (r : Reply) (s : RSt)
  /-- by `std::terminate` -/
  | terminated (log : List Event)
  | ub
  /-- not within the nesting depth considered -/
  | unfinished

/-- what comes after a call that does not throw -/
def Out.andThen (o : Out) (f : RSt → Out) : Out :=
  match o with
  | .done .done s => f s
  | o => o

def RSt.put (s : RSt) (i : Loc) (o : Option Obj) : RSt := { s with objs := Function.update s.objs i o }

/-- constructor: sentry.hpp:91, 109 -/
def rctor (i : Loc) (n : Nat) (throws : Bool) (s : RSt) : Out :=
  if throws then .done .exc s
  else .done .done { s with objs := Function.update s.objs i (some ⟨some n, true⟩), log := s.log ++ [.made n] }

/-- `m_func()` in the destructor, which is `noexcept` (105, 113) -/
def rcall (prog : Nat → Body) (body : Body → RSt → Out) (f : Option Nat) (s : RSt) : Out :=
  match f with
  | none => .ub
  | some n =>
    match body (prog n) { s with log := s.log ++ [.ran n] } with
    | .done .done s => .done .done { s with log := s.log ++ [.left n] }
    | .done .exc s => .terminated s.log
    | o => o

/-- destructor: sentry.hpp:105 (C++17), 113 -/
def rdtor (cpp17 : Bool) (prog : Nat → Body) (body : Body → RSt → Out) (i : Loc) (s : RSt) : Out :=
  match s.objs i with
  | none => .ub
  | some o =>
    if s.dying i then .ub
    else
      let s := { s with dying := Function.update s.dying i true }
      (if cpp17 || o.has then rcall prog body o.func s else .done .done s).andThen fun s =>
        .done .done { s.put i none with dying := Function.update s.dying i false }

/-- move constructor (before C++17), `noexcept`: sentry.hpp:107-112 -/
def rmoveCtor (keeps : Nat → Bool) (d s : Loc) (mthrows : Bool) (t : RSt) : Out :=
  match t.objs s with
  | none => .ub
  | some o =>
    if mthrows then .terminated t.log
    else
      let t := t.put s (some ⟨leftover keeps o.func, o.has⟩)
      let t := t.put d (some ⟨o.func, o.has⟩)
      .done .done (t.put s (some ⟨leftover keeps o.func, false⟩))

/-- make_sentry: sentry.hpp:119-123; `elided`: the result is constructed in place (always in C++17) -/
def rmakeSentry (cpp17 : Bool) (keeps : Nat → Bool) (prog : Nat → Body) (body : Body → RSt → Out) (x n : Nat)
    (throws elided mthrows : Bool) (s : RSt) : Out :=
  if cpp17 || elided then rctor (.user x) n throws s
  else
    (rctor .tmp n throws s).andThen fun s =>
      (rmoveCtor keeps (.user x) .tmp mthrows s).andThen (rdtor cpp17 prog body .tmp)

/-- a call; names of new sentries are not in use, and moving a sentry in C++17 does not compile -/
def rexec (cpp17 : Bool) (keeps : Nat → Bool) (prog : Nat → Body) (body : Body → RSt → Out) : ROp → RSt → Out
  | .create x n throws elided mthrows, s =>
    if s.objs (.user x) ≠ none then .ub else rmakeSentry cpp17 keeps prog body x n throws elided mthrows s
  | .move d s₀ mthrows, s =>
    if cpp17 ∨ s.objs (.user d) ≠ none then .ub else rmoveCtor keeps (.user d) (.user s₀) mthrows s
  | .destroy x, s => rdtor cpp17 prog body (.user x) s

/-- a function, its calls being made by `call` -/
def mbody (call : ROp → RSt → Out) : Body → RSt → Out
  | .ret, s => .done .done s
  | .throw, s => .done .exc s
  | .op o k, s =>
    match call o s with
    | .done r s => mbody call (k r) s
    | o => o

/-- a program whose functions nest at most this deep -/
def mrun (cpp17 : Bool) (keeps : Nat → Bool) (prog : Nat → Body) : Nat → Body → RSt → Out
  | 0 => mbody (rexec cpp17 keeps prog fun _ _ => .unfinished)
  | d+1 => mbody (rexec cpp17 keeps prog (mrun cpp17 keeps prog d))

def rinitial : RSt := ⟨fun _ => none, fun _ => false, []⟩

end Itlib.Sentry
