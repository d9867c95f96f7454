import Verif.UFunction.Spec

/-!
# Specification of `ufunction`s whose callables use `ufunction`s themselves

A callable is a program (`Body`): it reads and writes its own captures and makes calls on `ufunction`s, also on the one that it was called from.
Function objects have identities: a new one is made whenever a `ufunction` gets a function object, also when it is moved from another `ufunction`.
-/
namespace Itlib.UFunction

/-- What a function or function object does when it is called. -/
inductive Body (S A R : Type) where
  /-- it returns -/
  | ret (r : R)
  /-- it reads its captures -/
  | load (k : S → Body S A R)
  /-- it writes its captures -/
  | store (v : S) (k : Body S A R)
  /-- it makes a call -/
  | op (o : Op A) (k : Reply R → Body S A R)

/-- The functions of a program, and its function objects: the program that is run when a function object in the state `v` is called with `a`. -/
structure RLang (S A R : Type) where
  pbody : Nat → A → Body S A R
  body : S → A → Body S A R
  mv : S → S

namespace Spec
variable {S A R : Type}

/-- what became of a function object -/
inductive Life (S : Type) where
  | unborn
  | alive (v : S)
  /-- its `ufunction` was moved from -/
  | moved
  /-- its `ufunction` got another target, or ended -/
  | gone

/-- what a `ufunction` has: a function, or the function object number `i` -/
inductive Held where
  | ptr (p : Nat)
  | obj (i : Nat)
deriving DecidableEq

structure RSys (S : Type) where
  fn : Nat → Option (Option Held)
  st : Nat → Life S
  next : Nat
  usr : Nat → S

/-- `x` gets a target -/
def RSys.hold (y : RSys S) (x : Nat) : Option (Callee S) → RSys S
  | none => { y with fn := Function.update y.fn x (some none) }
  | some (.ptr p) => { y with fn := Function.update y.fn x (some (some (.ptr p))) }
  | some (.obj v) => { y with
      fn := Function.update y.fn x (some (some (.obj y.next)))
      st := Function.update y.st y.next (.alive v)
      next := y.next + 1 }

/-- `x` is left without a target -/
def RSys.lose (y : RSys S) (x : Nat) (how : Life S) : RSys S :=
  match y.fn x with
  | some (some (.obj i)) => { y with fn := Function.update y.fn x (some none), st := Function.update y.st i how }
  | _ => { y with fn := Function.update y.fn x (some none) }

/-- what `x` holds -/
def RSys.content (y : RSys S) (x : Nat) : Option (Option (Callee S)) :=
  match y.fn x with
  | none => none
  | some none => some none
  | some (some (.ptr p)) => some (some (.ptr p))
  | some (some (.obj i)) =>
    match y.st i with
    | .alive v => some (some (.obj v))
    | _ => some none

/-- what a source gives -/
def RSys.value (y : RSys S) : Src → Option (Callee S)
  | .null => none
  | .ptr p => p.map .ptr
  | .byMove u | .byCopy u => some (.obj (y.usr u))

/-- the source has been given away -/
def RSys.give (mv : S → S) (y : RSys S) : Src → RSys S
  | .byMove u => { y with usr := Function.update y.usr u (mv (y.usr u)) }
  | _ => y

/-- a call that runs no callable -/
def rstep (mv : S → S) (selfMoveClears : Bool) (y : RSys S) : Op A → Option (Reply R × RSys S)
  | .default x => if y.fn x = none then some (.unit, y.hold x none) else none
  | .create x src => if y.fn x = none then some (.unit, (y.give mv src).hold x (y.value src)) else none
  | .assign x src => if y.fn x = none then none else some (.unit, ((y.give mv src).lose x .gone).hold x (y.value src))
  | .moveNew d x =>
    match y.fn d, y.content x with
    | none, some c => some (.unit, (y.lose x .moved).hold d c)
    | _, _ => none
  | .moveAssign d x =>
    match y.fn d, y.content x with
    | some _, some c =>
      if d = x then some (.unit, (y.lose x .moved).hold x (if selfMoveClears then none else c))
      else some (.unit, ((y.lose d .gone).lose x .moved).hold d c)
    | _, _ => none
  | .call _ _ => none
  | .test x => (y.content x).map fun c => (.bool c.isSome, y)
  | .destroy x => if y.fn x = none then none else some (.unit, { y.lose x .gone with fn := Function.update y.fn x none })

/-- What running a program comes to. `ub`: a function object is used that is gone. `unsaid`: nothing is said (a variable that does not exist, or exists
already; captures that were moved from below the callable). `fuel`: not finished in so many steps. -/
inductive Out (S R : Type) where
  | ret (r : R) (y : RSys S)
  | ub
  | unsaid
  | fuel

def Out.bind (o : Out S R) (f : R → RSys S → Out S R) : Out S R :=
  match o with
  | .ret r y => f r y
  | .ub => .ub
  | .unsaid => .unsaid
  | .fuel => .fuel

/-- Running a program, as (part of) the function object `me`. -/
def rrun (L : RLang S A R) (selfMoveClears : Bool) : Nat → Option Nat → Body S A R → RSys S → Out S R
  | 0, _, _, _ => .fuel
  | _+1, _, .ret r, y => .ret r y
  | n+1, me, .load k, y =>
    match me with
    | none => .unsaid
    | some i =>
      match y.st i with
      | .alive v => rrun L selfMoveClears n me (k v) y
      | .gone => .ub
      | _ => .unsaid
  | n+1, me, .store v k, y =>
    match me with
    | none => .unsaid
    | some i =>
      match y.st i with
      | .alive _ => rrun L selfMoveClears n me k { y with st := Function.update y.st i (.alive v) }
      | .gone => .ub
      | _ => .unsaid
  | n+1, me, .op (.call x a) k, y =>
    match y.fn x with
    | none => .unsaid
    | some none => rrun L selfMoveClears n me (k .badFunctionCall) y
    | some (some (.ptr p)) => (rrun L selfMoveClears n none (L.pbody p a) y).bind fun r y => rrun L selfMoveClears n me (k (.val r)) y
    | some (some (.obj i)) =>
      match y.st i with
      | .alive v => (rrun L selfMoveClears n (some i) (L.body v a) y).bind fun r y => rrun L selfMoveClears n me (k (.val r)) y
      | _ => .unsaid
  | n+1, me, .op o k, y =>
    match rstep L.mv selfMoveClears y o with
    | some (r, y) => rrun L selfMoveClears n me (k r) y
    | none => .unsaid

def rstart (usr : Nat → S) : RSys S := ⟨fun _ => none, fun _ => .unborn, 0, usr⟩

end Spec
end Itlib.UFunction
