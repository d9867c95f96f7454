import Verif.StaticVector.Exec

/-!
# The model of `static_vector` against the unit tests of the library

These are tests of the model, not proofs of properties: the calls of `test/t-static_vector-11.cpp` are run on the model, which must give what the
tests check (they pass with the real code). Strings are numbers: `0` is the empty one, a long one is `100`, and moving from a string empties it.
Not transcribed: the addresses of elements and of the characters of strings, `max_size`; `emplace` is run as `insert` (the model has one for both).
-/
namespace Itlib.Conformance.StaticVector
open Itlib Itlib.StaticVector

/-- calls with what the test expects of each -/
def passes (E : Elem Nat) (l : List (MOp Nat × Reply Nat)) : Bool :=
  (mrun E (l.map (·.1)) Store.init).map (·.1) == some (l.map (·.2))

def ints : Elem Nat := ⟨id, 0⟩
def strings : Elem Nat := ⟨fun _ => 0, 0⟩

/-- a call on vector `i` that returns nothing -/
def go (i : Nat) (op : Op Nat) : MOp Nat × Reply Nat := (.call i op, .done)
/-- a vector is made -/
def new (op : MOp Nat) : MOp Nat × Reply Nat := (op, .done)

/-- "[static_vector] test": t-static_vector-11.cpp:11-90, integers -/
example : passes ints [
    new (.ctor 0 10), (.call 0 .size, .num 0), (.call 0 .capacity, .num 10), (.call 0 .isEmpty, .bool true), (.call 0 .forward, .elems []),
    go 0 (.pushBack (.val 5)), (.call 0 .size, .num 1), (.call 0 (.get 0), .elem 5),
    (.call 0 (.emplaceBack (.val 3)), .at 1), (.call 0 .back, .elem 3), (.call 0 .size, .num 2), (.call 0 .backward, .elems [3, 5]),
    go 0 (.set 0 (.val 12)), (.call 0 .front, .elem 12), (.call 0 .back, .elem 3),
    (.call 0 (.insert 0 (.val 53)), .at 0), (.call 0 (.insert 2 (.val 90)), .at 2), (.call 0 (.insert 4 (.val 17)), .at 4),
    (.call 0 (.insert 5 (.val 6)), .at 5), (.call 0 .size, .num 6), (.call 0 .forward, .elems [53, 12, 90, 3, 17, 6]),
    go 0 .popBack, (.call 0 .size, .num 5), (.call 0 .forward, .elems [53, 12, 90, 3, 17]),
    go 0 (.resize 6), (.call 0 .size, .num 6), (.call 0 .forward, .elems [53, 12, 90, 3, 17, 0]),
    new (.ctorRange 1 5 [1, 2, 3, 4]), (.call 1 .size, .num 4), (.call 1 .front, .elem 1), (.call 1 (.get 1), .elem 2),
    (.call 1 (.get 2), .elem 3), (.call 1 .back, .elem 4),
    (.call 0 (.erase 0), .at 0), (.call 0 .size, .num 5), (.call 0 .front, .elem 12), (.call 0 .forward, .elems [12, 90, 3, 17, 0]),
    (.call 0 (.erase 2), .at 2), (.call 0 .size, .num 4), (.call 0 (.get 2), .elem 17)] = true := by
  decide +kernel

/-- "[static_vector] test": t-static_vector-11.cpp:92-161, strings -/
example : passes strings [
    new (.ctorRange 0 11 [1, 2]), (.call 0 .size, .num 2), (.call 0 (.emplaceBack (.val 100)), .at 2), (.call 0 .back, .elem 100),
    new (.copyCtor 1 11 0), (.call 1 .forward, .elems [1, 2, 100]),
    new (.moveCtor 2 0), (.call 2 .size, .num 3), (.call 2 .back, .elem 100), (.call 0 .isEmpty, .bool true),
    new (.moveAssign 0 2), (.call 2 .isEmpty, .bool true), (.call 0 .back, .elem 100),
    new (.copyAssign 2 0), (.call 2 .back, .elem 100), (.call 0 .back, .elem 100), (.call 0 .forward, .elems [1, 2, 100]),
    (.call 2 .forward, .elems [1, 2, 100]),
    (.call 0 (.insert 0 (.val 100)), .at 0), (.call 0 .size, .num 4), (.call 0 .forward, .elems [100, 1, 2, 100]),
    (.call 0 (.insert 2 (.val 100)), .at 2), (.call 0 .size, .num 5), (.call 0 .forward, .elems [100, 1, 100, 2, 100]),
    go 0 .clear, (.call 0 .isEmpty, .bool true), go 2 .clear, (.call 2 .isEmpty, .bool true),
    go 0 (.resize 11), (.call 0 .size, .num 11), (.call 0 .forward, .elems (List.replicate 11 0)),
    (.call 0 (.pushBack (.val 3)), .exc .outOfRange), (.call 0 .size, .num 11),
    (.call 0 (.resize 55), .exc .outOfRange), (.call 0 .size, .num 11),
    (.call 0 (.insert 0 (.val 55)), .exc .outOfRange), (.call 0 .size, .num 11),
    new (.copyAssign 0 0), (.call 0 .size, .num 11)] = true := by
  decide +kernel

/-- "[static_vector] test": t-static_vector-11.cpp:163-197, swap and resize; assignment of a braced list is move assignment of a temporary -/
example : passes strings [
    new (.ctor 0 11), new (.ctor 2 11),
    new (.ctorRange 8 11 [1, 2, 3]), new (.moveAssign 0 8), new (.dtor 8), new (.ctorRange 8 11 [4, 5, 6, 7]), new (.moveAssign 2 8), new (.dtor 8),
    new (.swap 0 2), (.call 0 .size, .num 4), (.call 2 .size, .num 3), (.call 2 .front, .elem 1), (.call 0 .back, .elem 7),
    new (.ctorRange 8 11 [20, 21, 22]), new (.moveAssign 0 8), new (.dtor 8),
    new (.swap 2 0), (.call 2 .size, .num 3), (.call 0 .size, .num 3), (.call 2 .back, .elem 22), (.call 0 .front, .elem 1),
    go 0 (.resizeV 6 (.val 77)), (.call 0 .size, .num 6), (.call 0 (.get 3), .elem 77), (.call 0 (.get 4), .elem 77), (.call 0 .back, .elem 77),
    go 0 (.resizeV 3 (.val 77)), (.call 0 .size, .num 3),
    go 0 (.resize 5), (.call 0 .size, .num 5), (.call 0 (.get 3), .elem 0), (.call 0 .back, .elem 0),
    go 0 (.resize 3), (.call 0 .size, .num 3), (.call 0 .forward, .elems [1, 2, 3])] = true := by
  decide +kernel

/-- "[static_vector] compare": t-static_vector-11.cpp:205-218 -/
example : eq (· == ·) (rep 10 [1, 2, 3]) (rep 5 [1, 2, 3]) = some true ∧ ne (· == ·) (rep 10 [1, 2, 3]) (rep 5 [1, 8, 3]) = some true := by
  decide +kernel

/-- "[static_vector] assign": t-static_vector-11.cpp:220-248 -/
example : passes ints [
    new (.ctorRange 0 10 [1, 2, 3]), (.call 0 .forward, .elems [1, 2, 3]),
    go 0 (.assignRange [8, 9, 10, 11]), (.call 0 .forward, .elems [8, 9, 10, 11]),
    go 0 (.assignN 2 (.val 4)), (.call 0 .forward, .elems [4, 4]),
    go 0 (.assignRange [7, 6, 5]), (.call 0 .forward, .elems [7, 6, 5])] = true := by
  decide +kernel

/-- "[static_vector] insert/erase": t-static_vector-11.cpp:250-317; the empty string is `90` here, `"0"` is `0` -/
example : passes ⟨fun _ => 90, 90⟩ [
    new (.ctor 1 20), (.call 1 (.insertRange 0 [0, 1]), .at 0), (.call 1 .forward, .elems [0, 1]), new (.dtor 1),
    new (.ctorRange 0 20 [5, 8, 9]), (.call 0 (.insertRange 0 [2, 3, 4]), .at 0), (.call 0 (.insertRange 0 [0, 1]), .at 0),
    (.call 0 (.insertRange 0 []), .at 0), (.call 0 (.insertN 6 0 (.val 70)), .at 6), (.call 0 (.insertN 6 2 (.val 71)), .at 6),
    (.call 0 (.insert 10 (.val 10)), .at 10), (.call 0 (.insertRange 11 [11, 12]), .at 11), (.call 0 .size, .num 13),
    (.call 0 .forward, .elems [0, 1, 2, 3, 4, 5, 71, 71, 8, 9, 10, 11, 12]),
    (.call 0 (.eraseRange 6 8), .at 6), (.call 0 .forward, .elems [0, 1, 2, 3, 4, 5, 8, 9, 10, 11, 12]),
    (.call 0 (.eraseRange 7 11), .at 7), (.call 0 .forward, .elems [0, 1, 2, 3, 4, 5, 8]),
    (.call 0 (.eraseRange 0 3), .at 0), (.call 0 .forward, .elems [3, 4, 5, 8]),
    (.call 0 (.eraseRange 0 4), .at 0), (.call 0 .isEmpty, .bool true),
    (.call 0 (.eraseRange 0 0), .at 0), (.call 0 .isEmpty, .bool true)] = true := by
  decide +kernel

end Itlib.Conformance.StaticVector
