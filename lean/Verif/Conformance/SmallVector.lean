import Verif.SmallVector.Exec

/-!
# The model of `small_vector` against the unit tests of the library

Tests of the model, not proofs: the calls of `test/t-small_vector-11.cpp` are run on the model, which must give what the tests check. Strings are
numbers as in `Conformance/StaticVector.lean`. Whether `data()` is the static buffer is observed with `is_static`. Not transcribed: the addresses of
elements and of the characters of strings, the numbers of bytes and of deallocations, `==`; `emplace` is run as `insert`.

One call of the tests is undefined in the model: the empty erase `v.erase(v.begin() + 1, v.begin() + 1)` (lines 131 and 332), which destroys an
element and constructs it from itself (C05). The tests do it with `int`, where neither has an effect on usual compilers.
-/
namespace Itlib.Conformance.SmallVector
open Itlib Itlib.SmallVector

/-- calls with what the test expects of each; at last the number of allocations -/
def passes (N R : Nat) (E : Elem Nat) (l : List (MOp Nat × Reply Nat)) (allocs : Option Nat := none) : Bool :=
  match mrun ⟨N, R⟩ E (l.map (·.1)) Mem.init with
  | some (rs, m) => rs == l.map (·.2) && (match allocs with | some n => m.next == n | none => true)
  | none => false

def ints : Elem Nat := ⟨id, 0⟩
def strings : Elem Nat := ⟨fun _ => 0, 0⟩

/-- a call on vector `i` that returns nothing -/
def go (i : Nat) (op : Op Nat) : MOp Nat × Reply Nat := (.call i op, .done)
/-- a vector is made -/
def new (op : MOp Nat) : MOp Nat × Reply Nat := (op, .done)

/-- "[small_vector] static": t-small_vector-11.cpp:19-128, integers, `StaticCapacity` 10; nothing is allocated -/
example : passes 10 0 ints [
    new (.ctor 0 7), (.call 0 .size, .num 0), (.call 0 .capacity, .num 10), (.call 0 .isEmpty, .bool true),
    go 0 (.reserve 9), (.call 0 .capacity, .num 10), (.call 0 .isStatic, .bool true),
    go 0 (.resizeV 2 (.val 8)), (.call 0 .size, .num 2), (.call 0 .front, .elem 8), (.call 0 .getBack, .elem 8), (.call 0 .isStatic, .bool true),
    go 0 .clear, (.call 0 .size, .num 0), (.call 0 .capacity, .num 10), (.call 0 .isEmpty, .bool true), (.call 0 .isStatic, .bool true),
    go 0 (.pushBack (.val 5)), (.call 0 .size, .num 1), (.call 0 (.get 0), .elem 5),
    (.call 0 (.emplaceBack (.val 3)), .at 1), (.call 0 .size, .num 2), (.call 0 .backward, .elems [3, 5]),
    go 0 (.set 0 (.val 12)), (.call 0 .front, .elem 12), (.call 0 .getBack, .elem 3),
    (.call 0 (.insert 0 (.val 53)), .at 0), (.call 0 (.insert 2 (.val 90)), .at 2), (.call 0 (.insert 4 (.val 17)), .at 4),
    (.call 0 (.insert 5 (.val 6)), .at 5), (.call 0 (.insertRange 0 [1, 2]), .at 0), (.call 0 .isStatic, .bool true),
    (.call 0 .size, .num 8), (.call 0 .forward, .elems [1, 2, 53, 12, 90, 3, 17, 6]),
    (.call 0 .shrinkToFit, .bool false), (.call 0 .size, .num 8), (.call 0 .capacity, .num 10),
    (.call 0 .revertToStatic, .bool true), (.call 0 .size, .num 8), (.call 0 .capacity, .num 10),
    go 0 .popBack, (.call 0 .size, .num 7), (.call 0 .forward, .elems [1, 2, 53, 12, 90, 3, 17]),
    go 0 (.resize 8), (.call 0 .size, .num 8), (.call 0 .forward, .elems [1, 2, 53, 12, 90, 3, 17, 0]),
    (.call 0 (.erase 0), .at 0), (.call 0 .size, .num 7), (.call 0 .front, .elem 2), (.call 0 .forward, .elems [2, 53, 12, 90, 3, 17, 0]),
    (.call 0 (.eraseRange 2 4), .at 2), (.call 0 .size, .num 5), (.call 0 (.get 3), .elem 17)] (some 0) = true := by
  decide +kernel

/-- the empty erase -/
example : passes 10 0 ints [new (.ctorRange 0 7 [2, 53, 3, 17, 0]), (.call 0 (.eraseRange 1 1), .at 1)] = false := by decide +kernel

/-- "[small_vector] static" and "dynamic": t-small_vector-11.cpp:135-189, 336-390, strings -/
def stringTest (cap : Nat) : List (MOp Nat × Reply Nat) := [
    new (.ctor 0 7), go 0 (.assignRange [1, 2]), (.call 0 .size, .num 2), (.call 0 (.emplaceBack (.val 100)), .at 2), (.call 0 .getBack, .elem 100),
    new (.copyCtor 1 7 0), (.call 1 .forward, .elems [1, 2, 100]),
    new (.moveCtor 2 0), (.call 2 .size, .num 3), (.call 2 .getBack, .elem 100), (.call 0 .isEmpty, .bool true),
    new (.moveAssign 0 2), (.call 2 .isEmpty, .bool true), (.call 0 .getBack, .elem 100),
    new (.copyAssign 2 0), (.call 2 .forward, .elems [1, 2, 100]), (.call 0 .forward, .elems [1, 2, 100]),
    (.call 0 (.insert 0 (.val 100)), .at 0), (.call 0 .size, .num 4), (.call 0 .forward, .elems [100, 1, 2, 100]),
    (.call 0 (.insert 2 (.val 100)), .at 2), (.call 0 .size, .num 5), (.call 0 .forward, .elems [100, 1, 100, 2, 100]),
    go 0 .clear, (.call 0 .isEmpty, .bool true), go 2 .clear, (.call 2 .isEmpty, .bool true),
    (.call 0 .capacity, .num cap), go 0 (.resize cap), (.call 0 .size, .num cap), (.call 0 .forward, .elems (List.replicate cap 0)),
    new (.dtor 1), new (.dtor 2), new (.dtor 0)]

example : passes 11 0 strings (stringTest 11) (some 0) = true := by decide +kernel
example : passes 1 0 strings (stringTest 5) = true := by decide +kernel

/-- "[small_vector] static" and "dynamic": t-small_vector-11.cpp:191-205, 392-406; the characters of "asdf" and "baz" -/
def charTest : List (MOp Nat × Reply Nat) := [
    new (.ctorRange 0 7 [97, 115, 100, 102]), (.call 0 .size, .num 4), (.call 0 .front, .elem 97), (.call 0 .getBack, .elem 102), go 0 .clear,
    (.call 0 .size, .num 0), (.call 0 .isEmpty, .bool true), go 0 (.assignRange [98, 97, 122]), (.call 0 .size, .num 3),
    (.call 0 .forward, .elems [98, 97, 122])]

example : passes 10 10 ints charTest (some 0) = true := by decide +kernel
example : passes 1 0 ints charTest = true := by decide +kernel

/-- "[small_vector] static" and "dynamic": t-small_vector-11.cpp:112-117, 313-318 -/
def listTest : List (MOp Nat × Reply Nat) := [
    new (.ctorRange 0 7 [1, 2, 3, 4]), (.call 0 .size, .num 4), (.call 0 .front, .elem 1), (.call 0 (.get 1), .elem 2), (.call 0 (.get 2), .elem 3),
    (.call 0 .getBack, .elem 4)]

example : passes 5 0 ints listTest (some 0) = true := by decide +kernel
example : passes 1 0 ints listTest = true := by decide +kernel

/-- "[small_vector] static": t-small_vector-11.cpp:207-220 -/
example : passes 4 4 ints [
    new (.ctorVal 0 7 2 0), (.call 0 .forward, .elems [0, 0]), go 0 (.assignN 3 (.val 0)), (.call 0 .forward, .elems [0, 0, 0]),
    (.call 0 (.insertN 0 1 (.val 0)), .at 0), (.call 0 .forward, .elems [0, 0, 0, 0])] (some 0) = true := by
  decide +kernel

/-- "[small_vector] dynamic": t-small_vector-11.cpp:230-248, one and two allocations -/
example : passes 1 0 ints [new (.ctor 0 7), (.call 0 .capacity, .num 1), go 0 (.reserve 2), (.call 0 .capacity, .num 2),
    (.call 0 .isStatic, .bool false)] (some 1) = true := by
  decide +kernel

/-- "[small_vector] dynamic": t-small_vector-11.cpp:230-329 -/
example : passes 1 0 ints [
    new (.ctor 0 7), (.call 0 .capacity, .num 1), go 0 (.reserve 2), (.call 0 .capacity, .num 2),
    go 0 (.resizeV 3 (.val 8)), (.call 0 .capacity, .num 3), (.call 0 .forward, .elems [8, 8, 8])] (some 2) = true := by
  decide +kernel

example : passes 1 0 ints [
    new (.ctor 0 7), go 0 (.reserve 2), go 0 (.resizeV 3 (.val 8)),
    go 0 .clear, (.call 0 .size, .num 0), (.call 0 .capacity, .num 3), (.call 0 .isStatic, .bool false),
    go 0 (.pushBack (.val 5)), (.call 0 (.get 0), .elem 5), (.call 0 (.emplaceBack (.val 3)), .at 1), go 0 (.set 0 (.val 12)),
    (.call 0 (.insert 0 (.val 53)), .at 0), (.call 0 .capacity, .num 3), (.call 0 (.insert 2 (.val 90)), .at 2),
    (.call 0 (.insert 4 (.val 17)), .at 4), (.call 0 (.insert 5 (.val 6)), .at 5), (.call 0 (.insertRange 0 [1, 2]), .at 0),
    (.call 0 .size, .num 8), (.call 0 .forward, .elems [1, 2, 53, 12, 90, 3, 17, 6]),
    go 0 .popBack, (.call 0 .size, .num 7), go 0 (.resize 8), (.call 0 .forward, .elems [1, 2, 53, 12, 90, 3, 17, 0]),
    (.call 0 (.erase 0), .at 0), (.call 0 .forward, .elems [2, 53, 12, 90, 3, 17, 0]),
    (.call 0 (.eraseRange 2 4), .at 2), (.call 0 .size, .num 5), (.call 0 (.get 3), .elem 17)] = true := by
  decide +kernel

/-- "[small_vector] static-dynamic": t-small_vector-11.cpp:409-494, `StaticCapacity` 5, `RevertToStaticBelow` 3 -/
example : passes 5 3 ints [
    new (.ctor 0 7), go 0 (.pushBack (.val 1)), go 0 (.pushBack (.val 2)), go 0 (.pushBack (.val 3)), (.call 0 .isStatic, .bool true),
    (.call 0 (.insertN 3 3 (.val 8)), .at 3), (.call 0 .size, .num 6), (.call 0 .isStatic, .bool false),
    go 0 (.reserve 20), (.call 0 .isStatic, .bool false),
    (.call 0 (.eraseRange 0 6), .at 0), (.call 0 .isStatic, .bool true), (.call 0 .isEmpty, .bool true),
    go 0 (.resizeV 19 (.val 11)), (.call 0 .isStatic, .bool false), (.call 0 .capacity, .num 19), (.call 0 .size, .num 19),
    go 0 (.resize 4), (.call 0 .size, .num 4), (.call 0 .isStatic, .bool false),
    (.call 0 .revertToStatic, .bool true), (.call 0 .size, .num 4), (.call 0 .capacity, .num 5), (.call 0 .isStatic, .bool true),
    go 0 (.reserve 10), (.call 0 .isStatic, .bool false), (.call 0 .size, .num 4), (.call 0 .capacity, .num 10),
    (.call 0 .shrinkToFit, .bool true), (.call 0 .size, .num 4), (.call 0 .capacity, .num 5), (.call 0 .isStatic, .bool true),
    go 0 (.reserve 10), (.call 0 .size, .num 4), (.call 0 .capacity, .num 10), (.call 0 .isStatic, .bool false),
    (.call 0 (.insertN 3 5 (.val 88)), .at 3), (.call 0 .size, .num 9), (.call 0 .capacity, .num 10),
    (.call 0 .forward, .elems [11, 11, 11, 88, 88, 88, 88, 88, 11]),
    (.call 0 (.eraseRange 1 7), .at 1), (.call 0 .size, .num 3),
    (.call 0 (.erase 2), .at 2), (.call 0 .size, .num 2), (.call 0 .capacity, .num 5), (.call 0 .isStatic, .bool true)] = true := by
  decide +kernel

/-- t-small_vector-11.cpp:478-484, 496-499, 507-509: `small_vector<int, 3, 4>` -/
example : passes 3 4 ints [
    new (.ctorRange 0 7 [11, 11, 11, 88, 88, 88, 88, 88, 11]), (.call 0 .size, .num 9), (.call 0 .capacity, .num 9), (.call 0 (.get 2), .elem 11),
    (.call 0 (.get 7), .elem 88), (.call 0 (.get 8), .elem 11), (.call 0 (.eraseRange 1 7), .at 1), (.call 0 .size, .num 3),
    (.call 0 .capacity, .num 3), (.call 0 .forward, .elems [11, 88, 11])] = true := by
  decide +kernel

/-- t-small_vector-11.cpp:501-519: `small_vector<int, 4, 3>` -/
example : passes 4 3 ints [
    new (.ctorCount 0 7 50), go 0 (.resize 2), (.call 0 .size, .num 2), (.call 0 .capacity, .num 50), (.call 0 .isStatic, .bool false),
    (.call 0 (.insertRange 1 [11, 88, 11]), .at 1), (.call 0 .size, .num 5), (.call 0 .forward, .elems [0, 11, 88, 11, 0])] = true := by
  decide +kernel

/-- "[small_vector] out of range": t-small_vector-11.cpp:543-566 -/
example : passes 5 0 ints [
    new (.ctor 0 7), go 0 (.resize 4), (.call 0 .capacity, .num 5),
    (.call 0 (.insert (-1) (.val 1)), .exc .outOfRange), (.call 0 .size, .num 4), (.call 0 (.insert 5 (.val 1)), .exc .outOfRange),
    (.call 0 .size, .num 4), (.call 0 (.erase (-1)), .exc .outOfRange), (.call 0 .size, .num 4), (.call 0 (.erase 5), .exc .outOfRange),
    (.call 0 .size, .num 4), (.call 0 (.eraseRange (-1) 1), .exc .outOfRange), (.call 0 .size, .num 4),
    (.call 0 (.eraseRange 2 5), .exc .outOfRange), (.call 0 .size, .num 4), (.call 0 (.eraseRange 5 7), .exc .outOfRange), (.call 0 .size, .num 4),
    (.call 0 (.eraseRange 3 1), .exc .outOfRange), (.call 0 .size, .num 4)] = true := by
  decide +kernel

end Itlib.Conformance.SmallVector
