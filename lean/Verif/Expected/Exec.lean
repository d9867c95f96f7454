import Verif.Expected.Spec

/-! # Running histories of calls on the models of `expected` -/
namespace Itlib.Expected
open Itlib

/-- A call, the caller catching exceptions; `none` is undefined behaviour. -/
def caught {O V E : Type} (m : M (Store O) (Reply V E)) (s : Store O) : Option (Reply V E × Store O) :=
  match m s with
  | .ok r s' => some (r, s')
  | .throw _ s' => some (.exc, s')
  | .ub => none

/-- A history of calls, each dispatched by `exec`. -/
def runOf {O V E : Type} (exec : Op V E → M (Store O) (Reply V E)) :
    List (Op V E) → Store O → Option (List (Reply V E) × Store O)
  | [], s => some ([], s)
  | op :: ops, s => do
    let (r, s) ← caught (exec op) s
    let (rs, s) ← runOf exec ops s
    some (r :: rs, s)

/-- dispatch for `expected<T, E>`; functions that the class does not have are `undef` here, in all the dispatchers -/
def TE.exec {V E : Type} (tv : Ty V) (te : Ty E) : Op V E → M (Store (TE.Obj V E)) (Reply V E)
  | .ctorDefault i => do ctorVal i tv.dflt; pure .done
  | .ctorVal i v => do ctorVal i v; pure .done
  | .ctorErr i e => do ctorErr i e; pure .done
  | .ctorErrDefault i => do ctorErr i te.dflt; pure .done
  | .moveCtor i j => do moveCtor tv te i j; pure .done
  | .moveAssign i j => do moveAssign tv te i j; pure .done
  | .dtor i => do dtor i; pure .done
  | .hasValue i => do let b ← hasValue i; pure (.bool b)
  | .hasError i => do let b ← hasError i; pure (.bool b)
  | .value i => do let v ← value i; pure (.val v)
  | .setValue i v => do setValue i v; pure .done
  | .takeValue i => do let v ← takeValue tv i; pure (.val v)
  | .valueOr i w => do let v ← valueOr i w; pure (.val v)
  | .takeValueOr i w => do let v ← takeValueOr tv i w; pure (.val v)
  | .error i => do let e ← error i; pure (.err e)
  | .setError i e => do setError i e; pure .done
  | .takeError i => do let e ← takeError te i; pure (.err e)
  | _ => .undef

/-- dispatch for `expected<T&, E>` -/
def RE.exec {E : Type} (te : Ty E) : Op Nat E → M (Store (RE.Obj E)) (Reply Nat E)
  | .ctorVal i v => do ctorVal i v; pure .done
  | .ctorErr i e => do ctorErr i e; pure .done
  | .ctorErrDefault i => do ctorErr i te.dflt; pure .done
  | .moveCtor i j => do moveCtor te i j; pure .done
  | .moveAssign i j => do moveAssign te i j; pure .done
  | .dtor i => do dtor i; pure .done
  | .hasValue i => do let b ← hasValue i; pure (.bool b)
  | .hasError i => do let b ← hasError i; pure (.bool b)
  | .value i => do let v ← value i; pure (.val v)
  | .valueOr i w => do let v ← valueOr i w; pure (.val v)
  | .error i => do let e ← error i; pure (.err e)
  | .setError i e => do setError i e; pure .done
  | .takeError i => do let e ← takeError te i; pure (.err e)
  | _ => .undef

/-- dispatch for `expected<void, E>` -/
def VE.exec {E : Type} (te : Ty E) : Op Unit E → M (Store (VE.Obj E)) (Reply Unit E)
  | .ctorDefault i => do ctorDefault i; pure .done
  | .ctorErr i e => do ctorErr i e; pure .done
  | .ctorErrDefault i => do ctorErr i te.dflt; pure .done
  | .moveCtor i j => do moveCtor te i j; pure .done
  | .moveAssign i j => do moveAssign te i j; pure .done
  | .dtor i => do dtor i; pure .done
  | .hasValue i => do let b ← hasValue i; pure (.bool b)
  | .hasError i => do let b ← hasError i; pure (.bool b)
  | .error i => do let e ← error i; pure (.err e)
  | .setError i e => do setError i e; pure .done
  | .takeError i => do let e ← takeError te i; pure (.err e)
  | _ => .undef

/-- dispatch for `expected<T, void>` -/
def TV.exec {V : Type} (tv : Ty V) : Op V Unit → M (Store (TV.Obj V)) (Reply V Unit)
  | .ctorDefault i => do ctorVal i tv.dflt; pure .done
  | .ctorVal i v => do ctorVal i v; pure .done
  | .ctorErrDefault i => do ctorErr i; pure .done
  | .moveCtor i j => do moveCtor tv i j; pure .done
  | .copyCtor i j throws => do copyCtor i j throws; pure .done
  | .moveAssign i j => do moveAssign tv i j; pure .done
  | .copyAssign i j throws => do copyAssign tv i j throws; pure .done
  | .dtor i => do dtor i; pure .done
  | .clear i => do clear i; pure .done
  | .emplace i v throws => do emplace i v throws; pure .done
  | .emplaceSelf i => do emplaceSelf i; pure .done
  | .hasValue i => do let b ← hasValue i; pure (.bool b)
  | .hasError i => do let b ← hasError i; pure (.bool b)
  | .value i => do let v ← value i; pure (.val v)
  | .setValue i v => do setValue i v; pure .done
  | .takeValue i => do let v ← takeValue tv i; pure (.val v)
  | .valueOr i w => do let v ← valueOr i w; pure (.val v)
  | .takeValueOr i w => do let v ← takeValueOr tv i w; pure (.val v)
  | _ => .undef

/-- dispatch for `expected<T&, void>` -/
def RV.exec : Op Nat Unit → M (Store RV.Obj) (Reply Nat Unit)
  | .ctorVal i v => do ctorVal i v; pure .done
  | .ctorErrDefault i => do ctorErr i; pure .done
  | .moveCtor i j => do copyCtor i j; pure .done
  | .copyCtor i j false => do copyCtor i j; pure .done
  | .moveAssign i j => do copyAssign i j; pure .done
  | .copyAssign i j false => do copyAssign i j; pure .done
  | .dtor i => do dtor i; pure .done
  | .clear i => do clear i; pure .done
  | .emplace i v false => do emplace i v; pure .done
  | .hasValue i => do let b ← hasValue i; pure (.bool b)
  | .hasError i => do let b ← hasError i; pure (.bool b)
  | .value i => do let v ← value i; pure (.val v)
  | .valueOr i w => do let v ← valueOr i w; pure (.val v)
  | _ => .undef

/-- dispatch for `expected<void, void>` -/
def VV.exec : Op Unit Unit → M (Store VV.Obj) (Reply Unit Unit)
  | .ctorDefault i => do ctorDefault i; pure .done
  | .ctorErrDefault i => do ctorErr i; pure .done
  | .moveCtor i j => do copyCtor i j; pure .done
  | .copyCtor i j false => do copyCtor i j; pure .done
  | .moveAssign i j => do copyAssign i j; pure .done
  | .copyAssign i j false => do copyAssign i j; pure .done
  | .dtor i => do dtor i; pure .done
  | .clear i => do clear i; pure .done
  | .emplace i _ false => do emplace i; pure .done
  | .hasValue i => do let b ← hasValue i; pure (.bool b)
  | .hasError i => do let b ← hasError i; pure (.bool b)
  | _ => .undef

end Itlib.Expected
