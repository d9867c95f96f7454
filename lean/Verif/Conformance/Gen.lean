import Verif.Gen.Exec

/-!
# The model of `generator` against the unit tests of the library

Tests of the model, not proofs: the calls of `test/t-generator-20.cpp` are run on the model, which must give what the tests check. A range-for is
`begin`, then comparison with `end`, dereferencing and increment in turn; iterators are numbered after the generators. Not transcribed: the counts
of copies and moves of the yielded values (lines 123-134, 138-148) and addresses.
-/
namespace Itlib.Conformance.Gen
open Itlib Itlib.Gen

/-- `range(begin, end)` (t-generator-20.cpp:15-29): what is left to yield; the exception is `()` -/
def range : List Nat → Act (List Nat) Nat Unit
  | [] => .ret
  | i :: l => if i = 103 then .throw () else .yield i l

/-- calls with what the test expects of each -/
def passes (l : List (Op (List Nat) × Reply Nat Unit)) : Bool :=
  match run range id (l.map (·.1)) World.init with
  | some (rs, _) => rs == l.map (·.2)
  | none => false

def new (i a n : Nat) : Op (List Nat) × Reply Nat Unit := (.create i (List.range' a n), .unit)

/-- one round of a loop over iterator `k`, and the end of the loop -/
def round (k v : Nat) : List (Op (List Nat) × Reply Nat Unit) := [(.isEnd k, .bool false), (.deref k, .value v), (.incr k, .unit)]

/-- "simple", range-for: t-generator-20.cpp:32-39 -/
example : passes (new 0 50 10 :: (.begin 0 0, .unit) :: ((List.range' 50 10).flatMap (round 0)) ++ [(.isEnd 0, .bool true), (.dtor 0, .unit)]) = true := by
  decide +kernel

/-- "simple", next: t-generator-20.cpp:42-50 -/
def nexts : List (Op (List Nat) × Reply Nat Unit) :=
  [new 0 1 4, (.next 0, .value 1), (.done 0, .bool false), (.next 0, .value 2), (.next 0, .value 3), (.next 0, .value 4),
   (.next 0, .empty), (.next 0, .empty), (.done 0, .bool true)]

/-- "simple", exceptions: t-generator-20.cpp:54-64 -/
def loopThrows : List (Op (List Nat) × Reply Nat Unit) :=
  [new 1 100 5, (.begin 1 1, .unit)] ++ round 1 100 ++ round 1 101 ++
  [(.isEnd 1, .bool false), (.deref 1, .value 102), (.incr 1, .exc ()), (.dtor 1, .unit)]

/-- "simple", all after the first loop: t-generator-20.cpp:42-73 -/
example : passes (nexts ++ loopThrows ++
    [new 2 101 4, (.moveAssign 0 2, .unit), (.dtor 2, .unit), (.next 0, .value 101), (.next 0, .value 102), (.next 0, .exc ()),
     (.toBool 0, .bool true), (.reset 0, .unit), (.toBool 0, .bool false), (.dtor 0, .unit)]) = true := by
  decide +kernel

/-- "ref", mixing `next` and a loop, the values being the positions 0 to 4 of the referenced elements: t-generator-20.cpp:91-98 -/
example : passes ([new 0 0 5, (.next 0, .value 0), (.next 0, .value 1), (.begin 0 0, .unit)] ++ round 0 2 ++ round 0 3 ++ round 0 4 ++
    [(.isEnd 0, .bool true), (.done 0, .bool true), (.dtor 0, .unit)]) = true := by
  decide +kernel

/-- "lifetime", the values: t-generator-20.cpp:125-130, 140-144 -/
example : passes ([new 0 0 5, (.begin 0 0, .unit)] ++ (List.range 5).flatMap (round 0) ++ [(.isEnd 0, .bool true), (.dtor 0, .unit)] ++
    [new 1 0 3, (.next 1, .value 0), (.next 1, .value 1), (.next 1, .value 2), (.next 1, .empty), (.dtor 1, .unit)]) = true := by
  decide +kernel

end Itlib.Conformance.Gen
