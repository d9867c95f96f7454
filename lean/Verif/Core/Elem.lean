/-!
# Element types

What the models need to know of a C++ element type `T` beyond its values.
-/
namespace Itlib

/-- An element type with values in `α`. -/
structure Elem (α : Type) where
  /-- value left behind in an object that was moved from (arbitrary; identity for trivially copyable types) -/
  mv : α → α
  /-- the value-initialised object `T()` -/
  dflt : α

/-- Argument of type `const T&`: either an object outside of the container, or a reference to element `i` of the very
container the function is called on (aliasing). -/
inductive Arg (α : Type) where
  | val (a : α)
  | self (i : Nat)
  deriving DecidableEq, Repr

end Itlib
