import Verif.SmallVector.Model
import Verif.SmallVector.Spec

/-! # Running histories of calls on the model of `small_vector` -/
namespace Itlib.SmallVector
open Itlib
variable {α : Type}

/-- One call, dispatched to the model of the C++ function. -/
def exec (P : Params) (E : Elem α) : Op α → M (St α) (Reply α)
  | .pushBack v => do pushBack P E v; pure .done
  | .emplaceBack v => do let i ← emplaceBack P E v; pure (.at i)
  | .popBack => do popBack P E; pure .done
  | .insert pos v => do let i ← insert P E pos v; pure (.at i)
  | .insertN pos n v => do let i ← insertN P E pos n v; pure (.at i)
  | .insertRange pos xs => do let i ← insertRange P E pos xs; pure (.at i)
  | .erase pos => do let i ← erase P E pos; pure (.at i)
  | .eraseRange f l => do let i ← eraseRange P E f l; pure (.at i)
  | .clear => do clear P; pure .done
  | .resize n => do resizeV P E n (.val E.dflt); pure .done
  | .resizeV n v => do resizeV P E n v; pure .done
  | .assignN n v => do assignN P n v; pure .done
  | .assignRange xs => do assignRange P xs; pure .done
  | .reserve n => do reserve P E n; pure .done
  | .shrinkToFit => do let b ← shrinkToFit P E; pure (.bool b)
  | .revertToStatic => do let b ← revertToStatic P E; pure (.bool b)
  | .get i => do let a ← at_ i; pure (.elem a)
  | .getBack => do let a ← back; pure (.elem a)
  | .front => do let a ← front; pure (.elem a)
  | .set i v => do setAt i v; pure .done
  | .moveElem i j => do moveElem E i j; pure .done
  | .isEmpty => do let b ← isEmpty; pure (.bool b)
  | .forward => do let xs ← forward; pure (.elems xs)
  | .backward => do let xs ← backward; pure (.elems xs)
  | .size => do let n ← size; pure (.num n)
  | .capacity => do let s ← M.get; pure (.num s.v.cap)
  | .isStatic => do let s ← M.get; pure (.bool s.v.isStatic)

/-- One call, the caller catching exceptions; `none` is undefined behaviour. -/
def call (P : Params) (E : Elem α) (op : Op α) (s : St α) : Option (Reply α × St α) :=
  match exec P E op s with
  | .ok r s' => some (r, s')
  | .throw e s' => some (.exc e, s')
  | .ub => none

/-- A history of calls, the caller catching all exceptions; `none` is undefined behaviour. -/
def run (P : Params) (E : Elem α) : List (Op α) → St α → Option (List (Reply α) × St α)
  | [], s => some ([], s)
  | op :: ops, s => do
    let (r, s) ← call P E op s
    let (rs, s) ← run P E ops s
    some (r :: rs, s)

/-- One call in a program with several vectors. -/
def mexec (P : Params) (E : Elem α) : MOp α → M (Mem α) (Reply α)
  | .ctor i al => do construct P i al; pure .done
  | .ctorCount i al n => do ctorCount P E i al n; pure .done
  | .ctorVal i al n a => do ctorVal P i al n a; pure .done
  | .ctorRange i al xs => do ctorRange P i al xs; pure .done
  | .copyCtor i al j => do copyCtor P i al j; pure .done
  | .moveCtor i j => do moveCtor P E i j; pure .done
  | .copyAssign i j => do copyAssign P i j; pure .done
  | .moveAssign i j => do moveAssign P E i j; pure .done
  | .dtor i => do destruct i; pure .done
  | .call i op => at' i (exec P E op)

/-- One call, the caller catching exceptions; `none` is undefined behaviour. -/
def mcall (P : Params) (E : Elem α) (op : MOp α) (m : Mem α) : Option (Reply α × Mem α) :=
  match mexec P E op m with
  | .ok r m' => some (r, m')
  | .throw e m' => some (.exc e, m')
  | .ub => none

/-- A history of calls, the caller catching all exceptions; `none` is undefined behaviour. -/
def mrun (P : Params) (E : Elem α) : List (MOp α) → Mem α → Option (List (Reply α) × Mem α)
  | [], m => some ([], m)
  | op :: ops, m => do
    let (r, m) ← mcall P E op m
    let (rs, m) ← mrun P E ops m
    some (r :: rs, m)

/-- The program start: no vectors, nothing allocated; nothing throws. -/
def Mem.init : Mem α := ⟨fun _ => none, fun _ => none, 0, [], none, none⟩

/-- A new vector, named 0, with the heap to itself; nothing throws. -/
def new (P : Params) : St α :=
  ⟨⟨0, .stat 0, .stat 0, 0, P.N, 0, Buf.fresh P.N⟩, fun _ => none, 0, [], none, none⟩

end Itlib.SmallVector
