import Verif.PodVector.Exec

/-!
# The model of `pod_vector` against the unit tests of the library

Tests of the model, not proofs: the calls of `test/t-pod_vector-11.cpp` are run on the model with the allocators of the tests (alignment 1, 2, 16;
`realloc` that moves or not; `expand` that succeeds or not), which must give what the tests check. At the end of each test all memory is free.

What is not the same as in the tests: the values returned by `reserve`, `resize`, `shrink_to_fit`, the iterators returned by `insert` and `erase`,
`==` and the numbers of calls of the allocator are not observed here; contents are compared in full where the tests look at some elements, and
where a test only bounds a capacity, or uses `capacity()` as an argument, the number written here is the one of the specification. The allocators
of the tests may return an address at any multiple of the alignment; here it is one address per call, and `expand`, `realloc` in place always
succeed or always fail, which in the tests depends on the space left.
-/
namespace Itlib.Conformance.PodVector
open Itlib Itlib.PodVector Itlib.PodVector.Spec

/-- the allocators of the tests; each block is at a new address, an odd multiple of the alignment -/
def alloc (align : Nat) (hasExpand succeeds : Bool) : Alloc where
  align := align
  hasExpand := hasExpand
  wasteful := 32
  zeroFill := true
  pick _ t _ := 65536 * (t + 1) + align
  moves _ := !succeeds
  expands _ := succeeds
  fails _ _ := false
  throws := false

def allocs : List Alloc :=
  [alloc 1 false true, alloc 1 false false, alloc 2 false true, alloc 16 false true, alloc 16 false false,
   alloc 1 true true, alloc 1 true false, alloc 2 true true, alloc 16 true true, alloc 16 true false]

/-- calls with what the test expects of each; memory is free at the end -/
def passesWith (A : Alloc) (l : List (MOp × Reply)) : Bool :=
  match PodVector.mrun A (l.map (·.1)) Mem.init with
  | some (rs, m) => rs == l.map (·.2) && (List.range 200).all fun t => (m.heap (65536 * (t + 1) + A.align)).isNone
  | none => false

def passes (l : List (MOp × Reply)) : Bool := allocs.all fun A => passesWith A l

/-- an `int32_t` with a small value, in memory -/
def int (n : Nat) : List (BitVec 8) := [BitVec.ofNat 8 n, BitVec.ofNat 8 (n / 256), 0, 0]

def go (i : Nat) (op : Op) : MOp × Reply := (.call i op, .done)
def new (op : MOp) : MOp × Reply := (op, .done)
def size (i n : Nat) : MOp × Reply := (.call i .size, .num n)
def cap (i n : Nat) : MOp × Reply := (.call i .capacity, .num n)
/-- the contents of a vector of integers -/
def has (i : Nat) (l : List Nat) : List (MOp × Reply) :=
  size i l.length :: l.mapIdx fun k a => (.call i (.get k), .elem (int a))

/-- `basic_test`: t-pod_vector-11.cpp:28-143, integers -/
example : passes ([new (.ctor 0 4 4), size 0 0, cap 0 0, go 0 (.reserve 2), cap 0 2, size 0 0,
    go 0 (.resizeV 3 (.val (int 8))), cap 0 3] ++ has 0 [8, 8, 8] ++
    [go 0 .clear, size 0 0, cap 0 3, go 0 .shrinkToFit, size 0 0, cap 0 0,
    go 0 (.pushBack (.val (int 5)))] ++ has 0 [5] ++
    [go 0 (.pushBack (.val (int 3))), (.call 0 .getBack, .elem (int 3)), size 0 2, go 0 (.set 0 (int 12))] ++ has 0 [12, 3] ++
    [go 0 (.insert 0 (.val (int 53))), size 0 3, cap 0 3, go 0 (.insert 2 (.val (int 90))), go 0 (.insert 4 (.val (int 17))),
    go 0 (.insert 5 (.val (int 6))), go 0 (.insertRange 0 [int 1, int 2])] ++ has 0 [1, 2, 53, 12, 90, 3, 17, 6] ++
    [go 0 .popBack] ++ has 0 [1, 2, 53, 12, 90, 3, 17] ++ [go 0 .shrinkToFit, cap 0 7, go 0 (.resize 8)] ++ has 0 [1, 2, 53, 12, 90, 3, 17, 0] ++
    [new (.ctorRange 1 4 4 [int 1, int 2, int 3, int 4])] ++ has 1 [1, 2, 3, 4] ++
    [go 0 (.erase 0)] ++ has 0 [2, 53, 12, 90, 3, 17, 0] ++ [go 0 (.eraseRange 2 4), size 0 5, (.call 0 (.get 3), .elem (int 17)),
    go 0 (.eraseRange 1 1), size 0 5, new (.dtor 1), new (.dtor 0)]) = true := by
  decide +kernel

/-- `basic_test`: t-pod_vector-11.cpp:145-232, `wchar_t` of four bytes; `s1[5]` is `u` (117) -/
example : passes ([new (.ctor 0 4 4), go 0 (.assignRange [int 115, int 102]), size 0 2, go 0 (.pushBack (.val (int 117))),
    (.call 0 .getBack, .elem (int 117)), new (.copyCtor 1 0)] ++ has 0 [115, 102, 117] ++ has 1 [115, 102, 117] ++
    [new (.moveCtor 2 0)] ++ has 2 [115, 102, 117] ++ [size 0 0, new (.moveAssign 0 2), size 2 0] ++
    has 0 [115, 102, 117] ++ [new (.copyAssign 2 0)] ++ has 2 [115, 102, 117] ++ has 0 [115, 102, 117] ++
    [go 0 (.insert 0 (.val (int 117)))] ++ has 0 [117, 115, 102, 117] ++
    [go 0 (.insert 2 (.val (int 117)))] ++ has 0 [117, 115, 117, 102, 117] ++
    [go 0 .clear, size 0 0, go 2 .clear, size 2 0, cap 0 5, go 0 (.resize 5), cap 0 5] ++ has 0 [0, 0, 0, 0, 0] ++
    [new (.ctorRange 3 4 4 ([97, 115, 100, 102].map int))] ++ has 3 [97, 115, 100, 102] ++ [go 3 .clear, size 3 0,
    go 3 (.assignRange ([98, 97, 122].map int))] ++ has 3 [98, 97, 122] ++ [go 3 (.resize 1)] ++ has 3 [98] ++
    [new (.ctorVal 4 4 4 2 (int 0))] ++ has 4 [0, 0] ++ [go 4 (.assignN 3 (.val (int 0)))] ++ has 4 [0, 0, 0] ++
    [go 4 (.insertN 0 1 (.val (int 0)))] ++ has 4 [0, 0, 0, 0] ++
    [new (.dtor 4), new (.dtor 3), new (.dtor 2), new (.dtor 1), new (.dtor 0)]) = true := by
  decide +kernel

/-- `swap_test`: t-pod_vector-11.cpp:244-265; `a.swap(b)` and `std::swap(a, b)` -/
example : passes ([new (.ctorRange 0 4 4 [int 1, int 2, int 3]), new (.ctorRange 1 4 4 [int 5, int 6]), size 0 3, size 1 2,
    new (.swap 9 0 1)] ++ has 0 [5, 6] ++ has 1 [1, 2, 3] ++
    [new (.moveCtor 8 0), new (.moveAssign 0 1), new (.moveAssign 1 8), new (.dtor 8)] ++ has 1 [5, 6] ++ has 0 [1, 2, 3] ++
    [new (.dtor 1), new (.dtor 0)]) = true := by
  decide +kernel

/-- `empty_test`: t-pod_vector-11.cpp:278-294 -/
example : passes [new (.ctorRange 0 4 4 [int 1, int 2, int 3, int 4]), new (.ctor 1 4 4), new (.moveAssign 0 1), new (.dtor 1), size 0 0, cap 0 0,
    new (.ctorRange 1 4 4 [int 1, int 2, int 3, int 4]), new (.moveAssign 0 1), new (.dtor 1), new (.ctor 1 4 4), new (.copyAssign 0 1), size 0 0,
    cap 0 4, go 0 .shrinkToFit, cap 0 0, new (.dtor 1), new (.dtor 0)] = true := by
  decide +kernel

/-- `realloc_test`: t-pod_vector-11.cpp:306-348, run with `two_alloc_r` -/
example : passesWith (alloc 2 false true) [new (.ctorCount 0 2 2 11), cap 0 11, go 0 .clear, cap 0 11, go 0 (.reserve 16), cap 0 17,
    go 0 (.reserve 34), new (.dtor 0),
    new (.ctorCount 0 2 2 5), new (.ctorVal 1 2 2 16 [10, 0]), go 0 (.insertRange 0 (List.replicate 16 [10, 0])), size 0 21,
    (.call 0 (.get 15), .elem [10, 0]), (.call 0 (.get 16), .elem [0, 0]), new (.dtor 1), new (.dtor 0),
    new (.ctorCount 0 2 2 25), new (.ctorVal 1 2 2 17 [10, 0]), go 0 (.insertRange 0 (List.replicate 17 [10, 0])), size 0 42,
    (.call 0 (.get 16), .elem [10, 0]), (.call 0 (.get 17), .elem [0, 0]), new (.dtor 1), new (.dtor 0)] = true := by
  decide +kernel

/-- `align_test`: t-pod_vector-11.cpp:596-603, elements of `sz` bytes with alignment `al` -/
def alignTest (sz al : Nat) : List (MOp × Reply) :=
  [new (.ctor 0 sz al), go 0 (.resize 2), go 0 (.reserve 10), go 0 (.insertN 0 1 (.val (List.replicate sz 0))), size 0 3, new (.dtor 0)]

/-- "align": t-pod_vector-11.cpp:610-618 -/
example : ([alloc 16 false true, alloc 16 false false, alloc 1 false true, alloc 1 false false, alloc 1 true true, alloc 1 true false].all
      fun A => passesWith A (alignTest 64 64)) = true ∧
    passesWith (alloc 1 false true) (alignTest 8 8) = true := by
  decide +kernel

/-- "compare": t-pod_vector-11.cpp:626-645; the contents that the test compares -/
example : passesWith (alloc 16 false true) ([new (.ctor 0 4 4), new (.ctor 1 4 4), go 1 (.pushBack (.val (int 1)))] ++ has 0 [] ++ has 1 [1] ++
    [go 0 (.pushBack (.val (int 1)))] ++ has 0 [1] ++
    ((List.range 23).flatMap fun k => [go 0 (.pushBack (.val (int k))), go 1 (.pushBack (.val (int k)))]) ++
    has 0 (1 :: List.range 23) ++ has 1 (1 :: List.range 23) ++ [go 1 (.set 23 (int 1232))] ++ has 1 (1 :: List.range 22 ++ [1232]) ++
    [new (.dtor 1), new (.dtor 0)]) = true := by
  decide +kernel

/-- "recast": t-pod_vector-11.cpp:658-707 -/
example : passesWith (alloc 16 false true) ([new (.ctorRange 0 4 4 ([1, 2, 3, 4, 5, 6, 7, 8].map int)), size 0 8, cap 0 8,
    new (.ctor 1 1 1), new (.recastCopy 1 0), size 1 32] ++
    ((([1, 2, 3, 4, 5, 6, 7, 8].flatMap int).mapIdx fun k b => (MOp.call 1 (.get k), Reply.elem [b]))) ++
    [new (.ctor 2 4 4), new (.recastCopy 2 1)] ++ has 2 [1, 2, 3, 4, 5, 6, 7, 8] ++
    [new (.ctor 3 1 1), new (.recastTake 3 2), size 3 32] ++
    ((([1, 2, 3, 4, 5, 6, 7, 8].flatMap int).mapIdx fun k b => (MOp.call 3 (.get k), Reply.elem [b]))) ++
    [cap 3 32, size 2 0, cap 2 0,
    new (.ctor 4 8 8), new (.recastCopy 4 0), size 4 4, (.call 4 (.get 0), .elem (int 1 ++ int 2)), (.call 4 (.get 1), .elem (int 3 ++ int 4)),
    (.call 4 (.get 2), .elem (int 5 ++ int 6)), (.call 4 (.get 3), .elem (int 7 ++ int 8)),
    new (.ctor 5 4 4), new (.recastCopy 5 4)] ++ has 5 [1, 2, 3, 4, 5, 6, 7, 8] ++
    [go 0 .popBack, new (.ctor 6 8 8), new (.recastCopy 6 0), size 6 3, (.call 6 (.get 0), .elem (int 1 ++ int 2)),
    (.call 6 (.get 1), .elem (int 3 ++ int 4)), (.call 6 (.get 2), .elem (int 5 ++ int 6)), new (.recastCopy 5 6)] ++
    has 5 [1, 2, 3, 4, 5, 6] ++ ((List.range 7).map fun i => new (.dtor i))) = true := by
  decide +kernel

/-- "recast": t-pod_vector-11.cpp:713-728 -/
example : passesWith (alloc 16 false true) [new (.ctorVal 0 3 1 5 [1, 2, 3]), size 0 5, cap 0 5, (.call 0 (.get 3), .elem [1, 2, 3]),
    new (.ctor 1 2 2), new (.recastCopy 1 0), size 1 7, cap 1 7, new (.recastCopy 0 1), size 0 4, cap 0 5, go 0 .shrinkToFit, cap 0 4,
    new (.dtor 1), new (.dtor 0)] = true := by
  decide +kernel

end Itlib.Conformance.PodVector
