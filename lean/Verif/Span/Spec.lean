import Verif.Span.Model

/-! # Specification of `span`: what the constructors denote, and the needs of the code -/
namespace Itlib.Span
open Itlib View

/-- The window a constructor call denotes in an array of `n` elements; `none` if it is not inside. -/
def ctorView : Ctor → Nat → Option View
  | .ptrSize off len, n => if off + len ≤ n then some ⟨off, 1, len, 0⟩ else none
  | .range off e, n => if off ≤ e ∧ e ≤ n then some ⟨off, 1, e - off, 0⟩ else none
  | .whole, n => some ⟨0, 1, n, 0⟩

/-- An array of `n` elements of `sz` bytes at address `a` that exists: not at null, in the address space, and not larger than
the largest pointer difference. -/
structure Array (a sz n : Nat) : Prop where
  pos : 0 < a
  szpos : 0 < sz
  small : n * sz < 9223372036854775808
  fits : a + n * sz < 18446744073709551616

/-- What the code needs: an offset beyond the view must not wrap around to an address up to the view's end, and `last` must
not ask for more than there is. -/
def cond (a sz : Nat) : View.Spec.Cond Ctor where
  ctor _ _ := True
  sub
    | some v, off => off ≤ v.len ∨ a + (v.off + v.len) * sz < (a + (v.off + off) * sz) % 18446744073709551616
    | none, off => off = 0 ∨ 0 < off * sz % 18446744073709551616
  first := True
  last v n := n ≤ View.Spec.len v

end Itlib.Span
