import Verif.Any.Exec

/-!
# The model of `any` against the unit tests of the library

Tests of the model, not proofs: the calls of `test/t-any-11.cpp` are run on the model, which must give what the tests check. Type 0 is `std::string`,
type 1 is `std::unique_ptr<int>`, which cannot be copied, type 2 is `int`, type 3 is `char`. Strings are numbers, 0 being the empty one, and a
string moved from is empty (line 114). `tdata` is `any_cast` of the pointer. Not transcribed: addresses, null pointers to `any`, and the
`std::vector<any<>>` of lines 65-69.
-/
namespace Itlib.Conformance.Any
open Itlib Itlib.Any

def T : Types Nat := ⟨fun _ => 32, fun _ => 8, 16, 8, fun t => t != 1, fun t v => if t == 2 then v else 0⟩

def passes (l : List (Op Unit Nat × Reply Unit Nat)) : Bool :=
  match run T (l.map (·.1)) World.init with
  | some (rs, w) => rs == l.map (·.2) && w.allocd.length == w.freed.length
  | none => false

/-- "basic": t-any-11.cpp:11-60; `a` to `e` are 0 to 4, "foo bar" is 7, "baz" is 8; all are destroyed at the end -/
example : passes [(.ctorEmpty 0 (), .done), (.hasValue 0, .bool false), (.castPtr 0 0, .ptr none),
    (.copyCtor 1 0 () .fine, .done), (.hasValue 1, .bool false),
    (.ctorVal 2 () 0 7 .fine, .done), (.hasValue 2, .bool true), (.copyCtor 3 2 () .fine, .done), (.hasValue 3, .bool true),
    (.castPtr 3 0, .ptr (some 7)), (.reset 3, .done), (.hasValue 3, .bool false), (.castPtr 2 0, .ptr (some 7)),
    (.copyAssign 0 2 .fine, .done), (.hasValue 0, .bool true), (.castPtr 0 0, .ptr (some 7)),
    (.emplace 0 1 43 .fine, .done), (.hasValue 0, .bool true), (.castPtr 0 1, .ptr (some 43)),
    (.copyAssign 1 0 .fine, .exc .badCast), (.copyCtor 4 0 () .fine, .exc .badCast),
    (.moveAssign 1 0, .done), (.hasValue 0, .bool false), (.hasValue 1, .bool true), (.castPtr 1 1, .ptr (some 43)),
    (.moveCtor 4 1, .done), (.hasValue 1, .bool false), (.hasValue 4, .bool true), (.castPtr 4 1, .ptr (some 43)),
    (.emplace 0 0 8 .fine, .done), (.hasValue 0, .bool true),
    (.dtor 4, .done), (.dtor 3, .done), (.dtor 2, .done), (.dtor 1, .done), (.dtor 0, .done)] = true := by
  decide +kernel

/-- "any cast", `int`: t-any-11.cpp:80-100 -/
example : passes [(.ctorVal 0 () 2 5 .fine, .done), (.castPtr 0 0, .ptr none), (.castPtr 0 2, .ptr (some 5)), (.setThrough 0 2 6, .bool true),
    (.cast 0 0, .exc .badCast), (.cast 0 2, .val 6), (.setThrough 0 2 42, .bool true), (.cast 0 2, .val 42), (.dtor 0, .done)] = true := by
  decide +kernel

/-- "any cast", `std::string`: t-any-11.cpp:102-120; "abc" is 1, "xyz" is 2, "mnp" is 3 -/
example : passes [(.ctorVal 0 () 0 1 .fine, .done), (.castPtr 0 3, .ptr none), (.castPtr 0 0, .ptr (some 1)), (.setThrough 0 0 2, .bool true),
    (.castPtr 0 0, .ptr (some 2)), (.castMove 0 0, .val 2), (.castPtr 0 0, .ptr (some 0)), (.setThrough 0 0 3, .bool true),
    (.castMove 0 0, .val 3), (.castPtr 0 0, .ptr (some 0)), (.dtor 0, .done)] = true := by
  decide +kernel

end Itlib.Conformance.Any
