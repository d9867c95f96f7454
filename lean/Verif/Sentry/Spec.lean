import Mathlib.Logic.Function.Basic

/-! # Duties: which sentry has which function to call -/
namespace Itlib.Sentry

/-- calls -/
inductive Op where
  /-- `auto x = make_sentry(n)`, or `sentry x(n)` if `elided`; constructing the function object throws if `throws` -/
  | create (x n : Nat) (throws elided : Bool)
  /-- `auto d = std::move(s)` -/
  | move (d s : Nat)
  /-- end of the life of `x` -/
  | destroy (x : Nat)

/-- results of calls -/
inductive Reply where
  | done
  | exc
deriving DecidableEq

namespace Spec

/-- the sentries (with their duties), the functions called so far -/
structure Sys where
  duty : Nat → Option (Option Nat)
  log : List Nat

/-- a call; `none`: not allowed (a name in use, an object that does not exist, a move in C++17) -/
def step (cpp17 : Bool) : Op → Sys → Option (Reply × Sys)
  | .create x n throws _, y =>
    if y.duty x ≠ none then none
    else if throws then some (.exc, y) else some (.done, { y with duty := Function.update y.duty x (some (some n)) })
  | .move d s, y =>
    if cpp17 ∨ y.duty d ≠ none ∨ y.duty s = none then none
    else some (.done, { y with duty := Function.update (Function.update y.duty s (some none)) d (y.duty s) })
  | .destroy x, y =>
    match y.duty x with
    | none => none
    | some q => some (.done, ⟨Function.update y.duty x none, y.log ++ q.toList⟩)

def run (cpp17 : Bool) : List Op → Sys → Option (List Reply × Sys)
  | [], y => some ([], y)
  | op :: ops, y => do
    let (r, y) ← step cpp17 op y
    let (rs, y) ← run cpp17 ops y
    some (r :: rs, y)

def start : Sys := ⟨fun _ => none, []⟩

/-- number of sentries created for function `n` -/
def created (n : Nat) : List Op → Nat
  | [] => 0
  | .create _ m false _ :: ops => (if m = n then 1 else 0) + created n ops
  | _ :: ops => created n ops

end Spec
end Itlib.Sentry
