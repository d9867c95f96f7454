import Verif.PodVector.Exec
import Verif.PodVector.FailSpec

/-! # Running calls with an allocator that may throw `std::bad_alloc` -/
namespace Itlib.PodVector
open Itlib Spec

/-- a call and its outcome, the exception being caught; `none`: undefined behaviour -/
def tcall (A : Alloc) (op : MOp) (m : Mem) : Option (Out × Mem) :=
  match mexec A op m with
  | .ok r m' => some (.reply r, m')
  | .throw .badAlloc m' => some (.badAlloc, m')
  | .throw _ _ => none
  | .ub => none

/-- the same allocator with unlimited memory -/
def Alloc.never (A : Alloc) : Alloc := { A with fails := fun _ _ => false }
def Params.never (P : Params) : Params := { P with A := P.A.never }

end Itlib.PodVector
