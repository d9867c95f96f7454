import Verif.ThrowEx.Spec

/-!
# Model of `throw_ex` (include/itlib/throw_ex.hpp)

`n` is the number of exceptions that are on their way and not yet caught, `std::uncaught_exceptions()`: a destructor that
runs because of an exception runs with one more. `std::uncaught_exception()`, which is used before C++17, says whether the
number is not zero.

Constructors of `E` that throw are covered: `Lang.ex` is what comes out of `throw E(text)`, which may be another exception. Operands that contain
further `throw_ex` expressions are operands whose evaluation throws.
-/
namespace Itlib.ThrowEx
variable {S X : Type} (L : Lang S X)

/-- throw_ex.hpp:59-67, `~throw_ex` with `n` exceptions on their way -/
def destroy (out : S) (n : Nat) : Out X := if n ≠ 0 then .terminated else .threw (L.ex out)

/-- throw_ex.hpp:69-73, 76-79, `operator<<`: prints to the stream of the object. If an operand throws, the object is destroyed
while that exception is on its way. A destructor that throws then ends the program. -/
def stream : List (Operand S X) → (out : S) → (n : Nat) → Out X
  | [], out, n => destroy L out n
  | op :: ops, out, n =>
    match op.eval with
    | .error x => unwind x out n
    | .ok () =>
      match op.print out with
      | .error x => unwind x out n
      | .ok out => stream ops out n
where
  /-- the exception `x` leaves the expression, and the temporary is destroyed -/
  unwind (x : X) (out : S) (n : Nat) : Out X :=
    match destroy L out (n + 1) with
    | .done => .threw x
    | _ => .terminated

/-- throw_ex.hpp:58, the expression `throw_ex<E>{} << ...` -/
def throwEx (ops : List (Operand S X)) (n : Nat) : Out X := stream L ops L.fresh n

/-- what a program does, with `n` exceptions on their way -/
def eval : Prog S X → Nat → Out X
  | .skip, _ => .done
  | .throwEx ops, n => throwEx L ops n
  | .raise x, _ => .threw x
  | .seq p q, n =>
    match eval p n with
    | .done => eval q n
    | o => o
  | .tryCatch p q, n =>
    match eval p n with
    | .threw x => eval (q x) n
    | o => o
  | .scope p q, n =>
    match eval p n with
    | .done => eval q n
    | .threw x =>
      match eval q (n + 1) with
      | .done => .threw x
      | _ => .terminated
    | .terminated => .terminated

end Itlib.ThrowEx
