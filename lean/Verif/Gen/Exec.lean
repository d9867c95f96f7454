import Verif.Gen.Spec

/-! # Running histories of calls on the model of `generator` -/
namespace Itlib.Gen
open Itlib
variable {S V E : Type} (step : S → Act S V E) (mv : V → V)

/-- one call -/
def exec : Op S → Mem S V E (Reply V E)
  | .create i s => do create i s; pure .unit
  | .moveCtor i j => do moveCtor i j; pure .unit
  | .moveAssign i j => do moveAssign i j; pure .unit
  | .dtor i => do dtor i; pure .unit
  | .reset i => do reset i; pure .unit
  | .toBool i => do let b ← toBool i; pure (.bool b)
  | .done i => do let b ← done i; pure (.bool b)
  | .next i => do
    let x ← next step mv i
    match x with
    | .ok (some v) => pure (.value v)
    | .ok none => pure .empty
    | .error e => pure (.exc e)
  | .begin i k => do
    let x ← begin step i k
    match x with
    | .ok _ => pure .unit
    | .error e => pure (.exc e)
  | .incr k => do
    let x ← incr step k
    match x with
    | .ok _ => pure .unit
    | .error e => pure (.exc e)
  | .deref k => do let v ← deref k; pure (.value v)
  | .isEnd k => do let b ← isEnd k; pure (.bool b)

/-- A call; `none` is undefined behaviour. -/
def call (op : Op S) (w : World S V E) : Option (Reply V E × World S V E) :=
  match exec step mv op w with
  | .ok r w => some (r, w)
  | _ => none

/-- A history of calls. -/
def run : List (Op S) → World S V E → Option (List (Reply V E) × World S V E)
  | [], w => some ([], w)
  | op :: ops, w => do
    let (r, w) ← call step mv op w
    let (rs, w) ← run ops w
    some (r :: rs, w)

end Itlib.Gen
