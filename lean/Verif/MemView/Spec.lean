import Verif.MemView.Model

/-! # Specification of `memory_view`: what the constructors denote -/
namespace Itlib.MemView
open Itlib View

/-- The window a constructor call denotes in an array of `n` elements; `none` if it is not inside. -/
def ctorView : Ctor → Nat → Option View
  | .ptrSize off len, n => if off + len ≤ n then some ⟨off, 1, len, 0⟩ else none
  | .container off, n => if off ≤ n then some ⟨off, 1, n - off, 0⟩ else none

/-- An array of `n` elements of `sz` bytes at address `a` in the address space, not at null. -/
structure Array (a sz n : Nat) : Prop where
  pos : 0 < a
  szpos : 0 < sz
  fits : a + n * sz < 18446744073709551616

/-- There are no needs beyond the preconditions; `first` and `last` are not functions of this class. -/
def cond : View.Spec.Cond Ctor where
  ctor _ _ := True
  sub _ _ := True
  first := False
  last _ _ := False

end Itlib.MemView
