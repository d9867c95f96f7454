import Verif.StaticVector.Exec
import Verif.StaticVector.ThrowSpec

/-! # Histories of `static_vector` with throw points -/
namespace Itlib.StaticVector
open Itlib Spec
variable {α : Type}

/-- the vector with another throw point -/
def SV.tk (s : SV α) (c : Option Nat) : SV α := { s with tick := c }

/-- element constructors called for vector `i` throw as `c` says -/
def arm (i : Nat) (c : Option Nat) (st : Store α) : Store α :=
  { st with vec := Function.update st.vec i ((st.vec i).map (·.tk c)) }

/-- no element constructors throw -/
def disarm (st : Store α) : Store α := { st with vec := fun i => (st.vec i).map (·.tk none) }

/-- One call with the throw point `c`. Only one vector has elements constructed (other than by moving) in a call. -/
def texec (E : Elem α) (c : Option Nat) : MOp α → M (Store α) (Reply α)
  | .ctorCount i cap count => do ctorCount E i cap count c; pure .done
  | .ctorVal i cap count a => do ctorVal i cap count a c; pure .done
  | .ctorRange i cap xs => do ctorRange i cap xs c; pure .done
  | .copyCtor i cap j => do copyCtor i cap j c; pure .done
  | .copyAssign i j => do M.modify (arm i c); copyAssign i j; pure .done
  | .call i op => do M.modify (arm i c); at' i (exec E op)
  | op => mexec E op

/-- One call during which elements throw as `t` says, the caller catching exceptions; afterwards there are no more throw
points. `none` is undefined behaviour. -/
def tcall (E : Elem α) (t : TOp α) (st : Store α) : Option (Reply α × Store α) :=
  match texec E t.c t.op st with
  | .ok r st' => some (r, disarm st')
  | .throw e st' => some (.exc e, disarm st')
  | .ub => none

/-- A history of such calls. -/
def mtrun (E : Elem α) : List (TOp α) → Store α → Option (List (Reply α) × Store α)
  | [], st => some ([], st)
  | t :: ts, st => do
    let (r, st) ← tcall E t st
    let (rs, st) ← mtrun E ts st
    some (r :: rs, st)

/-- the live objects in a storage, in order -/
def objects (b : Buf α) : List α :=
  (List.range b.cap).filterMap fun i => match b.cells i with
    | .live a => some a
    | .raw => none

/-- The objects that were alive in the storage of vectors when that went away, in the order in which it did: they are
never destroyed. -/
def Store.leaked (st : Store α) : List α := st.graves.reverse.flatMap objects

end Itlib.StaticVector
