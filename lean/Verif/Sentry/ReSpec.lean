import Verif.Sentry.Spec

/-!
# Duties whose functions use sentries themselves

Functions are programs; what they do is a tree of calls, the continuation depending on how each call ends. Nothing here refers to
the model.
-/
namespace Itlib.Sentry

/-- calls -/
inductive ROp where
  /-- `auto x = make_sentry(n)`, or `sentry x(n)` if `elided`; constructing the function object from the argument throws if
  `throws`; moving it (where a move is not elided) throws if `mthrows` -/
  | create (x n : Nat) (throws elided mthrows : Bool)
  /-- `auto d = std::move(s)`; moving the function object throws if `mthrows` -/
  | move (d s : Nat) (mthrows : Bool)
  /-- end of the life of `x` -/
  | destroy (x : Nat)
deriving DecidableEq

/-- what a function (or the program) does -/
inductive Body where
  /-- returns -/
  | ret
  /-- throws -/
  | throw
  /-- makes a call, catching its exception; how it goes on depends on that -/
  | op (o : ROp) (k : Reply → Body)

/-- what can be observed -/
inductive Event where
  /-- a function object was made for a sentry -/
  | made (n : Nat)
  /-- function `n` was entered -/
  | ran (n : Nat)
  /-- and left -/
  | left (n : Nat)
deriving DecidableEq

namespace Spec

/-- a sentry has to call a function, has nothing to do any more, or is being destroyed, its function running -/
inductive Duty where
  | owes (n : Nat)
  | free
  | busy
deriving DecidableEq

structure RSys where
  duty : Nat → Option Duty
  log : List Event

/-- How a call, or a function, ends -/
inductive ROut (σ : Type) where
  | done (r : Reply) (s : σ)
  /-- by `std::terminate` -/
  | terminated (log : List Event)
  /-- a precondition was violated -/
  | nosay
  /-- not within the nesting depth considered -/
  | unfinished

variable (cpp17 : Bool)

/-- A call; `body` runs functions. Not allowed: a name in use, an object that does not exist or is being destroyed, a move in
C++17. -/
def rstep (prog : Nat → Body) (body : Body → RSys → ROut RSys) : ROp → RSys → ROut RSys
  | .create x n throws elided mthrows, y =>
    if y.duty x ≠ none then .nosay
    else if throws then .done .exc y
    else if mthrows ∧ cpp17 = false ∧ elided = false then .terminated (y.log ++ [.made n])
    else .done .done ⟨Function.update y.duty x (some (.owes n)), y.log ++ [.made n]⟩
  | .move d s mthrows, y =>
    if cpp17 ∨ y.duty d ≠ none ∨ y.duty s = none ∨ y.duty s = some .busy then .nosay
    else if mthrows then .terminated y.log
    else .done .done { y with duty := Function.update (Function.update y.duty s (some .free)) d (y.duty s) }
  | .destroy x, y =>
    match y.duty x with
    | some (.owes n) =>
      match body (prog n) ⟨Function.update y.duty x (some .busy), y.log ++ [.ran n]⟩ with
      | .done .done y => .done .done ⟨Function.update y.duty x none, y.log ++ [.left n]⟩
      | .done .exc y => .terminated y.log
      | .terminated l => .terminated l
      | .nosay => .nosay
      | .unfinished => .unfinished
    | some .free => .done .done { y with duty := Function.update y.duty x none }
    | _ => .nosay

/-- a function, its calls being made by `call` -/
def rbody (call : ROp → RSys → ROut RSys) : Body → RSys → ROut RSys
  | .ret, y => .done .done y
  | .throw, y => .done .exc y
  | .op o k, y =>
    match call o y with
    | .done r y => rbody call (k r) y
    | .terminated l => .terminated l
    | .nosay => .nosay
    | .unfinished => .unfinished

/-- a program whose functions nest at most this deep -/
def rrun (prog : Nat → Body) : Nat → Body → RSys → ROut RSys
  | 0 => rbody (rstep cpp17 prog fun _ _ => .unfinished)
  | d+1 => rbody (rstep cpp17 prog (rrun prog d))

def rstart : RSys := ⟨fun _ => none, []⟩

end Spec
end Itlib.Sentry
