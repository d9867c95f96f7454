import Verif.StrideSpan.Model

/-! # Specification of `stride_span` and `poly_span`: what the constructors denote, and the needs of the code -/
namespace Itlib.StrideSpan
open Itlib View

/-- The elements of a window are in the array. -/
def Inside (n : Nat) (v : View) : Prop := 0 < v.step ∧ (v.len = 0 ∨ v.off + (v.len - 1) * v.step < n)

instance (n : Nat) (v : View) : Decidable (Inside n v) := by unfold Inside; infer_instance

/-- The window a constructor call denotes in an array of `n` elements; `none` if it is not inside. From an array with offset
and stride: as many elements as there are `i` with `off + i * step < n`. -/
def ctorView : Ctor → Nat → Option View
  | .array off step, n => if 0 < step then some ⟨off, step, ((List.range n).filter fun p => off + p * step < n).length, 0⟩ else none
  | .buf off step len, n => if Inside n ⟨off, step, len, 0⟩ then some ⟨off, step, len, 0⟩ else none
  | .members, n => some ⟨0, 1, n, 0⟩

def polyCtorView : PolyCtor → Nat → Option View
  | .ptrNum off len fn, n => if off + len ≤ n then some ⟨off, 1, len, fn⟩ else none

/-- The end of a window (one stride after its last element) is in the address space, and so is its stride. -/
def EndFits (a pitch : Nat) (v : View) : Prop :=
  a + (v.off + v.len * v.step) * pitch < 18446744073709551616 ∧ v.step * pitch < 18446744073709551616

/-- What the code needs: the window's end in the address space; from an array, an offset less than one stride behind the end
of the array, and lengths that do not overflow; `last` must not ask for more than there is. -/
def cond (a pitch : Nat) : View.Spec.Cond Ctor where
  ctor
    | .array off step, n => off < n + step ∧ n + step < 18446744073709551616 ∧ ∀ v, ctorView (.array off step) n = some v → EndFits a pitch v
    | .buf off step len, _ => EndFits a pitch ⟨off, step, len, 0⟩
    | .members, n => EndFits a pitch ⟨0, 1, n, 0⟩
  sub _ _ := True
  first := True
  last v n := n ≤ View.Spec.len v

/-- What the code of poly_span needs. -/
def polyCond : View.Spec.Cond PolyCtor where
  ctor _ _ := True
  sub _ _ := True
  first := True
  last v n := n ≤ View.Spec.len v

end Itlib.StrideSpan
