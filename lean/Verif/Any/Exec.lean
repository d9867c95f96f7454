import Verif.Any.Spec

/-! # Running histories of calls on the model of `any` -/
namespace Itlib.Any
open Itlib
variable {A V : Type} (T : Types V)

/-- one call -/
def exec : Op A V → Mem A V (Reply A V)
  | .ctorEmpty i a => do ctorEmpty i a; pure .done
  | .ctorVal i a ty v f => do ctorVal T i a ty v f; pure .done
  | .copyCtor i j a f => do copyCtor T i j a f; pure .done
  | .moveCtor i j => do moveCtor i j; pure .done
  | .copyAssign i j f => do copyAssign T i j f; pure .done
  | .moveAssign i j => do moveAssign i j; pure .done
  | .emplace i ty v f => do emplace T i ty v f; pure .done
  | .emplaceOwn i ty => do emplaceOwn T i ty .fine; pure .done
  | .assignVar i k f => do
    let x ← rdVar k
    emplaceRef T i x.1 k f
    pure .done
  | .reset i => do reset i; pure .done
  | .dtor i => do dtor i; pure .done
  | .hasValue i => do let b ← hasValue i; pure (.bool b)
  | .getAllocator i => do let a ← getAllocator i; pure (.alloc a)
  | .typeOf i => do let t ← typeOf i; pure (.type t)
  | .castPtr i ty => do let v ← castPtr i ty; pure (.ptr v)
  | .cast i ty => do let v ← cast i ty; pure (.val v)
  | .castMove i ty => do let v ← castMove T i ty; pure (.val v)
  | .setThrough i ty v => do let b ← setThrough i ty v; pure (.bool b)
  | .setVar k ty v => do setVar k ty v; pure .done
  | .endVar k => do endVar k; pure .done

/-- A call, the caller catching exceptions; `none` is undefined behaviour. -/
def call (op : Op A V) (w : World A V) : Option (Reply A V × World A V) :=
  match exec T op w with
  | .ok r w => some (r, w)
  | .throw e w => some (.exc e, w)
  | .ub => none

/-- A history of calls. -/
def run : List (Op A V) → World A V → Option (List (Reply A V) × World A V)
  | [], w => some ([], w)
  | op :: ops, w => do
    let (r, w) ← call T op w
    let (rs, w) ← run ops w
    some (r :: rs, w)

end Itlib.Any
