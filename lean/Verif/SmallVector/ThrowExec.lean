import Verif.SmallVector.Exec
import Verif.SmallVector.ThrowSpec

/-! # Histories of `small_vector` with throw points -/
namespace Itlib.SmallVector
open Itlib Spec
variable {α : Type}

/-- One call during which elements and allocations throw as `t` says, the caller catching exceptions; afterwards there
are no more throw points. `none` is undefined behaviour. -/
def tcall (P : Params) (E : Elem α) (t : TOp α) (m : Mem α) : Option (Reply α × Mem α) :=
  match mexec P E t.op { m with ctick := t.c, atick := t.a } with
  | .ok r m' => some (r, { m' with ctick := none, atick := none })
  | .throw e m' => some (.exc e, { m' with ctick := none, atick := none })
  | .ub => none

/-- A history of such calls. -/
def mtrun (P : Params) (E : Elem α) : List (TOp α) → Mem α → Option (List (Reply α) × Mem α)
  | [], m => some ([], m)
  | t :: ts, m => do
    let (r, m) ← tcall P E t m
    let (rs, m) ← mtrun P E ts m
    some (r :: rs, m)

end Itlib.SmallVector
