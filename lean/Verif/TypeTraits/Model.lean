import Verif.TypeTraits.Spec

/-!
# Model of `is_noop_convertible` (include/itlib/type_traits.hpp)

The other traits of this header (`is_instantiation_of`, `type_identity`) say nothing about run time and are not modelled.
-/
namespace Itlib.TypeTraits
variable {F : Type} (w : World F)

/-- `std::remove_cv` -/
def removeCv (t : QTy) : Ty := t.ty

/-- `std::is_scalar` -/
def isScalar : Ty → Bool
  | .cls _ => false
  | _ => true

/-- `std::is_floating_point` -/
def isFloating : Ty → Bool
  | .flt _ => true
  | _ => false

/-- type_traits.hpp:78-90, `is_noop_convertible<From, To>::value` -/
def isNoopConvertible (a b : QTy) : Bool :=
  let a := removeCv a
  let b := removeCv b
  size w a == size w b && isScalar a && isScalar b && isFloating a == isFloating b
    && (if b = .integral .bool then a = .integral .bool else true)

end Itlib.TypeTraits
