/-!
# Specification of `throw_ex`: programs that throw, catch and unwind

Programs are built from `throw_ex` expressions, other throws, sequences, `try` blocks, and scopes with a local object whose
destructor runs code. `Ideal.eval` says what they do if `throw_ex<E>{} << a << b` is the same as
`{ std::ostringstream o; o << a << b; throw E(o.str()); }`.
-/
namespace Itlib.ThrowEx

/-- An operand of `<<`. Evaluating it may throw. Printing it changes a stream - its text and its format - and may throw. -/
structure Operand (S X : Type) where
  eval : Except X Unit
  print : S → Except X S

/-- what the types do: an empty stream, the exception made from a stream's text -/
structure Lang (S X : Type) where
  fresh : S
  ex : S → X

/-- programs -/
inductive Prog (S X : Type) where
  | skip
  /-- `throw_ex<E>{} << op1 << op2 ...;` -/
  | throwEx (ops : List (Operand S X))
  /-- `throw x;` -/
  | raise (x : X)
  /-- one after the other -/
  | seq (p q : Prog S X)
  /-- `try { p } catch (...) { q }`; the handler may look at the exception -/
  | tryCatch (p : Prog S X) (q : X → Prog S X)
  /-- `{ Local a; p }`, where the destructor of `a` (which is `noexcept(false)`) runs `q` -/
  | scope (p q : Prog S X)

/-- how a program ends -/
inductive Out (X : Type) where
  | done
  | threw (x : X)
  | terminated
deriving DecidableEq

variable {S X : Type}

namespace Ideal

/-- `o << a << b << ...` -/
def stream : List (Operand S X) → S → Except X S
  | [], s => .ok s
  | op :: ops, s =>
    match op.eval with
    | .error x => .error x
    | .ok () =>
      match op.print s with
      | .error x => .error x
      | .ok s => stream ops s

/-- what a program does; an exception that leaves a destructor while another one is on its way ends the program -/
def eval (L : Lang S X) : Prog S X → Out X
  | .skip => .done
  | .throwEx ops =>
    match stream ops L.fresh with
    | .ok s => .threw (L.ex s)
    | .error x => .threw x
  | .raise x => .threw x
  | .seq p q =>
    match eval L p with
    | .done => eval L q
    | o => o
  | .tryCatch p q =>
    match eval L p with
    | .threw x => eval L (q x)
    | o => o
  | .scope p q =>
    match eval L p with
    | .done => eval L q
    | .threw x =>
      match eval L q with
      | .done => .threw x
      | _ => .terminated
    | .terminated => .terminated

end Ideal
end Itlib.ThrowEx
