import Verif.StaticVector.Model
import Verif.StaticVector.Spec

/-! # Running histories of calls on the model of `static_vector` -/
namespace Itlib.StaticVector
open Itlib
variable {α : Type}

/-- The vector of capacity `cap` holding exactly the elements `xs`, all other slots being raw; element constructors
do not throw. -/
def rep (cap : Nat) (xs : List α) : SV α := ⟨Buf.ofList cap xs, xs.length, none⟩

/-- One call, dispatched to the model of the C++ function. -/
def exec (E : Elem α) : Op α → M (SV α) (Reply α)
  | .pushBack v => do pushBack v; pure .done
  | .emplaceBack v => do let i ← emplaceBack v; pure (.at i)
  | .popBack => do popBack E; pure .done
  | .insert pos v => do let i ← insert E pos v; pure (.at i)
  | .insertN pos n v => do let i ← insertN E pos n v; pure (.at i)
  | .insertRange pos xs => do let i ← insertRange E pos xs; pure (.at i)
  | .erase pos => do let i ← erase E pos; pure (.at i)
  | .eraseRange f l => do let i ← eraseRange E f l; pure (.at i)
  | .clear => do clear; pure .done
  | .resize n => do resize E n; pure .done
  | .resizeV n v => do resizeV E n v; pure .done
  | .assignN n v => do assignN n v; pure .done
  | .assignRange xs => do assignRange xs; pure .done
  | .set i v => do setAt i v; pure .done
  | .moveElem i j => do moveElem E i j; pure .done
  | .get i => do let a ← at_ i; pure (.elem a)
  | .front => do let a ← front; pure (.elem a)
  | .back => do let a ← back; pure (.elem a)
  | .size => do let n ← size; pure (.num n)
  | .isEmpty => do let b ← isEmpty; pure (.bool b)
  | .capacity => do let n ← capacity; pure (.num n)
  | .forward => do let xs ← forward; pure (.elems xs)
  | .backward => do let xs ← backward; pure (.elems xs)

/-- One call, the caller catching exceptions; `none` is undefined behaviour. -/
def call (E : Elem α) (op : Op α) (s : SV α) : Option (Reply α × SV α) :=
  match exec E op s with
  | .ok r s' => some (r, s')
  | .throw e s' => some (.exc e, s')
  | .ub => none

/-- A history of calls, the caller catching all exceptions; `none` is undefined behaviour. -/
def run (E : Elem α) : List (Op α) → SV α → Option (List (Reply α) × SV α)
  | [], s => some ([], s)
  | op :: ops, s => do
    let (r, s) ← call E op s
    let (rs, s) ← run E ops s
    some (r :: rs, s)

/-- One call in a program with several vectors. Element constructors do not throw here (`tick = none`). -/
def mexec (E : Elem α) : MOp α → M (Store α) (Reply α)
  | .ctor i cap => do construct i cap none; pure .done
  | .ctorCount i cap count => do ctorCount E i cap count none; pure .done
  | .ctorVal i cap count a => do ctorVal i cap count a none; pure .done
  | .ctorRange i cap xs => do ctorRange i cap xs none; pure .done
  | .copyCtor i cap j => do copyCtor i cap j none; pure .done
  | .moveCtor i j => do moveCtor E i j; pure .done
  | .copyAssign i j => do copyAssign i j; pure .done
  | .moveAssign i j => do moveAssign E i j; pure .done
  | .swap i j => do swap E i j; pure .done
  | .dtor i => do destruct i; pure .done
  | .call i op => at' i (exec E op)

/-- One call, the caller catching exceptions; `none` is undefined behaviour. -/
def mcall (E : Elem α) (op : MOp α) (s : Store α) : Option (Reply α × Store α) :=
  match mexec E op s with
  | .ok r s' => some (r, s')
  | .throw e s' => some (.exc e, s')
  | .ub => none

/-- A history of calls, the caller catching all exceptions; `none` is undefined behaviour. -/
def mrun (E : Elem α) : List (MOp α) → Store α → Option (List (Reply α) × Store α)
  | [], s => some ([], s)
  | op :: ops, s => do
    let (r, s) ← mcall E op s
    let (rs, s) ← mrun E ops s
    some (r :: rs, s)

/-- The program start: no vectors. -/
def Store.init : Store α := ⟨fun _ => none, []⟩

end Itlib.StaticVector
