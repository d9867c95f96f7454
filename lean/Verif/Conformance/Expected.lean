import Verif.Expected.Exec

/-!
# The models of `expected` against the unit tests of the library

Tests of the model, not proofs: the calls of `test/t-expected-11.cpp` are run on the models of the classes, which must give what the tests check.
Strings are numbers, 0 being the empty one; `ecode` is 0 to 2; `value` and `error` are their numbers, `error()` being 1. A function returning an
`expected` that is then assigned is a construction of object 9, a move assignment from it and its destruction. Not transcribed: the counts of
constructors and assignments (only the values are compared), changes made through references to referenced objects, and addresses.
-/
namespace Itlib.Conformance.Expected
open Itlib Itlib.Expected

/-- numbers, with a default; moving leaves them -/
def num (d : Nat) : Ty Nat := ⟨id, id, id, d⟩
/-- strings: moved from they are empty -/
def str : Ty Nat := ⟨fun _ => 0, id, id, 0⟩

/-- calls with what the test expects of each -/
def passes {O V E : Type} [DecidableEq V] [DecidableEq E] (exec : Op V E → M (Store O) (Reply V E)) (l : List (Op V E × Reply V E)) : Bool :=
  match runOf exec (l.map (·.1)) Store.init with
  | some (rs, _) => rs == l.map (·.2)
  | none => false

variable {V E : Type}
/-- `!!x`, `x.has_value()`, `!x.has_error()` -/
def good (i : Nat) : List (Op V E × Reply V E) := [(.hasValue i, .bool true), (.hasError i, .bool false)]
def bad (i : Nat) : List (Op V E × Reply V E) := [(.hasValue i, .bool false), (.hasError i, .bool true)]
/-- `x = f()` where `f` makes its result by `c` -/
def assign (i : Nat) (c : Op V E) : List (Op V E × Reply V E) := [(c, .done), (.moveAssign i 9, .done), (.dtor 9, .done)]

/-- "i/e": t-expected-11.cpp:31-52 -/
example : passes (TE.exec (num 0) (num 0)) ([(.ctorDefault 0, .done)] ++ good 0 ++ [(.value 0, .val 0), (.valueOr 0 74, .val 0),
    (.ctorVal 1 123, .done)] ++ good 1 ++ [(.value 1, .val 123), (.valueOr 1 74, .val 123), (.ctorErr 2 1, .done)] ++ bad 2 ++
    [(.error 2, .err 1), (.valueOr 2 74, .val 74), (.dtor 2, .done), (.dtor 1, .done), (.dtor 0, .done)]) = true := by
  decide +kernel

/-- "string", `expected<int, std::string>`: t-expected-11.cpp:74-83; "foo" is 1 -/
example : passes (TE.exec (num 0) str) ([(.ctorVal 0 432, .done)] ++ good 0 ++ [(.ctorErr 1 1, .done)] ++ bad 1 ++ [(.error 1, .err 1),
    (.ctorErrDefault 2, .done)] ++ bad 2 ++ [(.error 2, .err 0), (.dtor 2, .done), (.dtor 1, .done), (.dtor 0, .done)]) = true := by
  decide +kernel

/-- "string", `expected<std::string, int>`: t-expected-11.cpp:89-105; "asdf" is 1, "mnp" is 2, "xyz" is 3 -/
example : passes (TE.exec str (num 0)) ([(.ctorDefault 0, .done)] ++ good 0 ++ [(.value 0, .val 0), (.ctorErr 1 23, .done)] ++ bad 1 ++
    [(.ctorErrDefault 2, .done)] ++ bad 2 ++ [(.error 2, .err 0), (.valueOr 2 1, .val 1),
    (.ctorErrDefault 9, .done), (.takeValueOr 9 1, .val 1), (.dtor 9, .done), (.ctorErrDefault 9, .done), (.takeValueOr 9 2, .val 2),
    (.dtor 9, .done), (.ctorVal 9 3, .done), (.takeValueOr 9 1, .val 3), (.dtor 9, .done), (.ctorVal 9 3, .done), (.takeValueOr 9 2, .val 3),
    (.dtor 9, .done), (.dtor 2, .done), (.dtor 1, .done), (.dtor 0, .done)]) = true := by
  decide +kernel

/-- "lifetime", the values: t-expected-11.cpp:140-141, 164-173, 187-196, 211-213, 227-229 -/
example : passes (TE.exec (num 0) (num 1)) ([(.ctorErrDefault 0, .done)] ++ bad 0 ++ assign 0 (.ctorErrDefault 9) ++ bad 0 ++
    [(.error 0, .err 1), (.ctorErrDefault 9, .done), (.takeError 9, .err 1), (.dtor 9, .done), (.dtor 0, .done), (.ctorDefault 0, .done)] ++
    assign 0 (.ctorDefault 9) ++ good 0 ++ [(.value 0, .val 0), (.ctorDefault 9, .done), (.takeValue 9, .val 0), (.dtor 9, .done),
    (.dtor 0, .done), (.ctorErrDefault 0, .done)] ++ assign 0 (.ctorDefault 9) ++ good 0 ++ [(.dtor 0, .done), (.ctorDefault 0, .done)] ++
    assign 0 (.ctorErrDefault 9) ++ bad 0 ++ [(.dtor 0, .done)]) = true := by
  decide +kernel

/-- "ref basic", `o.v` being object 100 and `x` object 101: t-expected-11.cpp:252-271, 274-282 -/
example : passes (RE.exec (num 1)) ([(.ctorVal 0 100, .done)] ++ good 0 ++ [(.value 0, .val 100), (.valueOr 0 101, .val 100)] ++
    assign 0 (.ctorErr 9 1) ++ bad 0 ++ [(.error 0, .err 1), (.valueOr 0 101, .val 101), (.dtor 0, .done), (.ctorVal 0 100, .done)] ++ good 0 ++
    [(.value 0, .val 100), (.valueOr 0 102, .val 100)] ++ assign 0 (.ctorErrDefault 9) ++ bad 0 ++ [(.valueOr 0 103, .val 103),
    (.dtor 0, .done)]) = true := by
  decide +kernel

/-- "void basic": t-expected-11.cpp:404-421 -/
example : passes (VE.exec (num 1)) ([(.ctorErr 0 5, .done)] ++ bad 0 ++ [(.error 0, .err 5), (.ctorDefault 1, .done)] ++ good 1 ++
    [(.ctorDefault 2, .done)] ++ good 2 ++ assign 2 (.ctorErrDefault 9) ++ bad 2 ++ [(.error 2, .err 1), (.dtor 2, .done), (.dtor 1, .done),
    (.dtor 0, .done)]) = true := by
  decide +kernel

/-- "eoptional", strings: t-expected-11.cpp:504-524; "xx" is 1, "yy" is 2, the long string is 3, "asd" is 4 -/
example : passes (TV.exec str) ([(.ctorDefault 0, .done)] ++ good 0 ++ [(.setValue 0 1, .done), (.value 0, .val 1),
    (.copyCtor 1 0 false, .done)] ++ good 1 ++ [(.valueOr 1 2, .val 1), (.setValue 0 3, .done), (.moveCtor 2 0, .done), (.value 2, .val 3),
    (.clear 0, .done)] ++ bad 0 ++ [(.valueOr 0 4, .val 4), (.dtor 2, .done), (.dtor 1, .done), (.dtor 0, .done)]) = true := by
  decide +kernel

/-- "eoptional", `int`: t-expected-11.cpp:526-534 -/
example : passes (TV.exec (num 0)) ([(.ctorErrDefault 0, .done)] ++ bad 0 ++ [(.valueOr 0 44, .val 44), (.emplace 0 5 false, .done)] ++ good 0 ++
    [(.value 0, .val 5), (.valueOr 0 44, .val 5), (.dtor 0, .done)]) = true := by
  decide +kernel

/-- "eoptional ref", `str` being object 100, `i` object 101 and the temporary 44 object 102: t-expected-11.cpp:539-568 -/
example : passes RV.exec ([(.ctorVal 0 100, .done)] ++ good 0 ++ [(.value 0, .val 100), (.copyCtor 1 0 false, .done)] ++ good 1 ++
    [(.value 1, .val 100), (.clear 0, .done)] ++ bad 0 ++ [(.ctorErrDefault 2, .done)] ++ bad 2 ++ [(.valueOr 2 102, .val 102),
    (.emplace 2 101 false, .done)] ++ good 2 ++ [(.value 2, .val 101)]) = true := by
  decide +kernel

/-- "eoptional void": t-expected-11.cpp:573-592 -/
example : passes VV.exec ([(.ctorDefault 0, .done)] ++ good 0 ++ [(.clear 0, .done)] ++ bad 0 ++ [(.ctorErrDefault 1, .done)] ++ bad 1 ++
    [(.copyCtor 2 1 false, .done)] ++ bad 2 ++ [(.emplace 1 () false, .done)] ++ good 1 ++ bad 2) = true := by
  decide +kernel

end Itlib.Conformance.Expected
