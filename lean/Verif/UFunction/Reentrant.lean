import Verif.UFunction.Model
import Verif.UFunction.ReSpec

/-!
# `ufunction`s whose callables use `ufunction`s themselves

The functions are those of `Model.lean`; only `operator()` (ufunction.hpp:111, 132-136) is different: the callable is a program that may
make any calls, also on the `ufunction` that it was called from. The base class's `operator()` and the wrapper's do nothing after the callable has
returned. The callable reads and writes its captures at the address that it was called at.
-/
namespace Itlib.UFunction
variable {S A R : Type}

/-- `Model.exec` does not need to know what callables do, but for calls. -/
def RLang.base (L : RLang S A R) : Lang S A Unit := ⟨fun _ _ => (), fun _ _ => none, L.mv⟩

def Reply.ofBase : Reply Unit → Reply R
  | .unit => .unit
  | .bool b => .bool b
  | .badFunctionCall => .badFunctionCall
  | .terminated => .terminated
  | .val _ => .unit

/-- What running a program comes to: it returns, is undefined, is terminated, or is not finished in so many steps. -/
inductive ROut (S R : Type) where
  | ret (r : R) (s : St S)
  | ub
  | terminated
  | fuel

def ROut.bind (o : ROut S R) (f : R → St S → ROut S R) : ROut S R :=
  match o with
  | .ret r s => f r s
  | .ub => .ub
  | .terminated => .terminated
  | .fuel => .fuel

/-- Running a program, as (part of) the function object at the address `me`. -/
def xrun (L : RLang S A R) (lib : Lib S) (fails : Nat → Bool) : Nat → Option Nat → Body S A R → St S → ROut S R
  | 0, _, _, _ => .fuel
  | _+1, _, .ret r, s => .ret r s
  | n+1, me, .load k, s =>
    match me with
    | none => .ub
    | some a =>
      match s.obj a with
      | some v => xrun L lib fails n me (k v) s
      | none => .ub
  | n+1, me, .store v k, s =>
    match me with
    | none => .ub
    | some a =>
      match s.obj a with
      | some _ => xrun L lib fails n me k { s with obj := Function.update s.obj a (some v) }
      | none => .ub
  | n+1, me, .op (.call x a) k, s =>
    match s.fn (.var x) with
    | none => .ub
    | some .none => xrun L lib fails n me (k .badFunctionCall) s
    | some (.ptr p) => (xrun L lib fails n none (L.pbody p a) s).bind fun r s => xrun L lib fails n me (k (.val r)) s
    | some (.obj _ b) =>
      match s.obj b with
      | some v => (xrun L lib fails n (some b) (L.body v a) s).bind fun r s => xrun L lib fails n me (k (.val r)) s
      | none => .ub
  | n+1, me, .op o k, s =>
    match exec L.base lib fails o s with
    | .ok .terminated _ => .terminated
    | .ok r s => xrun L lib fails n me (k r.ofBase) s
    | .throw _ _ => .terminated
    | .ub => .ub

end Itlib.UFunction
