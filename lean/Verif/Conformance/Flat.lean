import Verif.Flat.Exec

/-!
# The models of `flat_map` and `flat_set` against the unit tests of the library

Tests of the model, not proofs: the calls of `test/t-flat_map-11.cpp` and `test/t-flat_set-11.cpp` are run on the model, which must give what the
tests check. Keys and values are numbers; strings are numbers in the same order, floating point values are multiplied by 100. `m[k] = v` is the
call of `operator[]` followed by a write through the reference; `is_sorted` is seen by reading all elements. Not transcribed: `capacity` and
`reserve` (not in the model), addresses of characters, and the second, `const`, run of the same calls.
-/
namespace Itlib.Conformance.Flat
open Itlib Itlib.Flat

deriving instance DecidableEq for Reply

/-- calls with what the test expects of each -/
def passes {ε : Type} [DecidableEq ε] (key : ε → Nat) (cap : Option Nat) (l : List (MOp Nat ε × Reply ε)) : Bool :=
  match mrun key cap (l.map (·.1)) fun _ => none with
  | some (rs, _) => rs == l.map (·.2)
  | none => false

abbrev less (a b : Nat) : Bool := decide (a < b)
abbrev K (n : Nat) : Probe Nat := Probe.ofKey less n

section Maps
abbrev E := Nat × Nat
/-- `m[k] = v`; the element is at position `p` and was `(k, old)` -/
def put (i k v p : Nat) (old : Nat := 0) : List (MOp Nat E × Reply E) :=
  [(.on i (.index (K k) (k, 0)), .ref p (k, old)), (.on i (.update p fun e => (e.1, v)), .unit)]
/-- size and all elements in order -/
def has {ε : Type} (i : Nat) (l : List ε) : List (MOp Nat ε × Reply ε) :=
  (.on i .size, .num l.length) :: l.mapIdx fun k e => (.on i (.get k), .elem e)

/-- t-flat_map-11.cpp:37-90 and, with a `static_vector`, 318-371 -/
def mapTest : List (MOp Nat E × Reply E) :=
  put 0 1 320 0 ++ has 0 [(1, 320)] ++
  [(.on 0 (.index (K 1) (1, 0)), .ref 0 (1, 320)), (.on 0 (.at_ (K 1)), .ref 0 (1, 320)), (.on 0 (.count (K 1)), .num 1),
   (.on 0 (.count (K 5)), .num 0), (.on 0 (.insert (K 6) (6, 314)), .posFlag 1 true), (.on 0 (.insert (K 3) (3, 550)), .posFlag 1 true),
   (.on 0 (.insert (K 6) (6, 800)), .posFlag 2 false)] ++
  put 0 2 500 1 ++ put 0 52 1500 4 ++ put 0 12 100 4 ++
  has 0 [(1, 320), (2, 500), (3, 550), (6, 314), (12, 100), (52, 1500)] ++
  [(.on 0 (.eraseKey (K 12)), .num 1)] ++ has 0 [(1, 320), (2, 500), (3, 550), (6, 314), (52, 1500)] ++
  [(.on 0 (.find (K 12)), .pos 5), (.on 0 (.find (K 6)), .pos 3), (.on 0 (.eraseAt 3), .pos 3)] ++
  has 0 [(1, 320), (2, 500), (3, 550), (52, 1500)] ++ [(.on 0 (.find (K 6)), .pos 4)]

/-- "[flat_map] test": t-flat_map-11.cpp:28-90 -/
example : passes Prod.fst none ([(.new 0 less, .unit)] ++ has 0 [] ++ mapTest) = true := by decide +kernel

/-- "[flat_map] test": t-flat_map-11.cpp:94-127; "0The…" is 10, "123" is 20, "asd" is 30, "bababa" is 40 -/
example : passes Prod.fst none ([(.new 0 less, .unit), (.on 0 (.index (K 20) (20, 0)), .ref 0 (20, 0)), (.on 0 (.get 0), .elem (20, 0))] ++
    put 0 30 1 1 ++ [(.on 0 (.find (K 30)), .pos 1), (.on 0 (.get 1), .elem (30, 1)), (.on 0 (.count (K 40)), .num 0),
    (.on 0 (.count (K 30)), .num 1), (.on 0 (.at_ (K 30)), .ref 1 (30, 1))] ++ put 0 10 555 0 ++
    has 0 [(10, 555), (20, 0), (30, 1)] ++ [(.move 1 0, .unit)] ++ has 0 [] ++ has 1 [(10, 555), (20, 0), (30, 1)] ++
    [(.moveAssign 0 1, .unit)] ++ has 1 [] ++ has 0 [(10, 555), (20, 0), (30, 1)] ++
    [(.eq 1 0, .bool false), (.assign 1 0, .unit), (.eq 1 0, .bool true)]) = true := by
  decide +kernel

/-- "[flat_map] test": t-flat_map-11.cpp:130-167 -/
example : passes Prod.fst none ([(.new 0 less, .unit)] ++ put 0 5 1 0 ++ put 0 20 15 1 ++ put 0 10 5 1 ++
    [(.on 0 (.insert (K 3) (3, 4)), .posFlag 0 true), (.on 0 (.get 0), .elem (3, 4)), (.on 0 (.get 3), .elem (20, 15)),
    (.on 0 (.at_ (K 10)), .ref 2 (10, 5)), (.on 0 (.insert (K 11) (11, 6)), .posFlag 3 true), (.on 0 .size, .num 5),
    (.on 0 (.index (K 11) (11, 0)), .ref 3 (11, 6)), (.on 0 (.insert (K 10) (10, 55)), .posFlag 2 false), (.on 0 (.get 2), .elem (10, 5)),
    (.on 0 (.find (K 18)), .pos 5), (.on 0 (.find (K 11)), .pos 3), (.copy 1 0, .unit)] ++
    has 1 [(3, 4), (5, 1), (10, 5), (11, 6), (20, 15)] ++
    [(.on 1 (.at_ (K 10)), .ref 2 (10, 5)), (.on 1 (.find (K 18)), .pos 5), (.on 1 (.find (K 11)), .pos 3)]) = true := by
  decide +kernel

/-- "[flat_map] test": t-flat_map-11.cpp:170-185, swap and self-assignment -/
example : passes Prod.fst none ([(.new 0 less, .unit), (.new 1 less, .unit)] ++ put 0 1 2 0 ++ put 0 2 5 1 ++ [(.swap 0 1, .unit)] ++
    has 1 [(1, 2), (2, 5)] ++ has 0 [] ++ [(.assign 1 1, .unit)] ++ has 1 [(1, 2), (2, 5)]) = true := by
  decide +kernel

/-- t-flat_map-11.cpp:202-218, t-flat_set-11.cpp:215-231; "aaa", "abc", "bbb", "def", "geh", "xxx", "xxz" are 1, 2, 3, 4, 5, 6, 7 -/
def rangeTest {ε : Type} : List (MOp Nat ε × Reply ε) :=
  [(.on 0 (.find (K 2)), .pos 0), (.on 0 (.find (K 4)), .pos 1), (.on 0 (.find (K 5)), .pos 2), (.on 0 (.find (K 6)), .pos 3),
   (.on 0 (.lowerBound (K 1)), .pos 0), (.on 0 (.lowerBound (K 2)), .pos 0), (.on 0 (.lowerBound (K 3)), .pos 1),
   (.on 0 (.lowerBound (K 6)), .pos 3), (.on 0 (.lowerBound (K 7)), .pos 4),
   (.on 0 (.upperBound (K 1)), .pos 0), (.on 0 (.upperBound (K 2)), .pos 1), (.on 0 (.upperBound (K 3)), .pos 1),
   (.on 0 (.upperBound (K 6)), .pos 4), (.on 0 (.upperBound (K 7)), .pos 4),
   (.on 0 (.equalRange (K 1)), .range 0 0), (.on 0 (.equalRange (K 2)), .range 0 1), (.on 0 (.equalRange (K 3)), .range 1 1),
   (.on 0 (.equalRange (K 6)), .range 3 4), (.on 0 (.equalRange (K 7)), .range 4 4)]

/-- "[flat_map] ranges": t-flat_map-11.cpp:189-219 -/
example : passes Prod.fst none ([(.build 0 less [(2, 1), (4, 44), (5, 11), (6, 43)] [(2, 1), (4, 44), (5, 11), (6, 43)], .unit)] ++ rangeTest) =
    true := by
  decide +kernel

/-- "[flat_map] initialize": t-flat_map-11.cpp:224-242; equivalent elements are equal, so there is one sorted sequence. "azz", "b", "ccc", "za"
are 1, 2, 3, 4. -/
example : passes Prod.fst none ([(.build 0 less [(5, 4), (3, 44), (23, 11)] [(3, 44), (5, 4), (23, 11)], .unit)] ++
    has 0 [(3, 44), (5, 4), (23, 11)] ++ [(.build 1 less [(4, 1), (2, 0), (3, 1), (1, 0)] [(1, 0), (2, 0), (3, 1), (4, 1)], .unit)] ++
    has 1 [(1, 0), (2, 0), (3, 1), (4, 1)] ++
    [(.build 2 less [(5, 4), (23, 11), (3, 44), (5, 4), (23, 11)] [(3, 44), (5, 4), (5, 4), (23, 11), (23, 11)], .unit)] ++
    has 2 [(3, 44), (5, 4), (23, 11)] ++
    [(.build 3 less [(5, 4), (23, 11), (3, 44), (5, 4), (3, 44)] [(3, 44), (3, 44), (5, 4), (5, 4), (23, 11)], .unit), (.eq 3 2, .bool true)]) =
    true := by
  decide +kernel

/-- distance from 10 -/
abbrev dist (a b : Nat) : Bool := decide ((a - 10) + (10 - a) < (b - 10) + (10 - b))

/-- "[flat_map] custom cmp": t-flat_map-11.cpp:255-275, with both orders of each pair of equivalent elements after sorting -/
example : ([[(10, 3), (9, 2), (11, 4), (12, 5), (0, 1), (20, 6)], [(10, 3), (11, 4), (9, 2), (12, 5), (20, 6), (0, 1)]].all fun sorted =>
    passes Prod.fst none ([(.build 0 dist [(0, 1), (9, 2), (10, 3), (11, 4), (12, 5), (20, 6)] sorted, .unit), (.on 0 .size, .num 4),
    (.on 0 .clear, .unit), (.on 0 (.insert (Probe.ofKey dist 5) (5, 50)), .posFlag 0 true),
    (.on 0 (.index (Probe.ofKey dist 10) (10, 0)), .ref 0 (10, 0)), (.on 0 (.update 0 fun e => (e.1, 100)), .unit),
    (.on 0 (.insert (Probe.ofKey dist 15) (15, 77)), .posFlag 1 false)] ++ has 0 [(10, 100), (5, 50)] ++
    [(.on 0 (.find (Probe.ofKey dist 15)), .pos 1), (.on 0 (.index (Probe.ofKey dist 15) (15, 0)), .ref 1 (5, 50)), (.on 0 .size, .num 2)])) =
    true := by
  decide +kernel

/-- "[flat_map] at bounds check": t-flat_map-11.cpp:280-286 -/
example : passes Prod.fst none [(.build 0 less [(1, 97), (4, 100), (3, 99)] [(1, 97), (3, 99), (4, 100)], .unit), (.on 0 (.at_ (K 1)), .ref 0 (1, 97)),
    (.on 0 (.at_ (K 3)), .ref 1 (3, 99)), (.on 0 (.at_ (K 4)), .ref 2 (4, 100)), (.on 0 (.at_ (K 0)), .exc .outOfRange),
    (.on 0 (.at_ (K 2)), .exc .outOfRange), (.on 0 (.at_ (K 5)), .exc .outOfRange)] = true := by
  decide +kernel

/-- "[flat_map] static_vector test": t-flat_map-11.cpp:303-371; the values of `mapTest` instead of those of the second half of the test -/
example : passes Prod.fst (some 10) ([(.build 0 less [(0, 97), (1, 98), (3, 100), (1, 98), (1, 98), (2, 99)]
    [(0, 97), (1, 98), (1, 98), (1, 98), (2, 99), (3, 100)], .unit)] ++ has 0 [(0, 97), (1, 98), (2, 99), (3, 100)] ++
    [(.on 0 (.index (K 0) (0, 0)), .ref 0 (0, 97)), (.on 0 (.at_ (K 1)), .ref 1 (1, 98)), (.on 0 (.find (K 2)), .pos 2),
    (.on 0 (.find (K 10)), .pos 4), (.on 0 .clear, .unit)] ++ has 0 [] ++ mapTest) = true := by
  decide +kernel
end Maps

section Sets

/-- an insertion at a position, of something new or not -/
def ins (i k p : Nat) (new : Bool := true) : MOp Nat Nat × Reply Nat := (.on i (.insert (K k) k), .posFlag p new)

/-- t-flat_set-11.cpp:37-82 and, with a `static_vector`, 276-321, which insert `x` (5 and 2) at position `p` -/
def setTest (x p : Nat) (l5 l4 : List Nat) : List (MOp Nat Nat × Reply Nat) :=
  [ins 0 1 0] ++ has 0 [1] ++ [(.on 0 (.count (K 1)), .num 1), (.on 0 (.count (K 5)), .num 0), ins 0 6 1, ins 0 3 1, ins 0 6 2 false,
   ins 0 x p, ins 0 52 4, ins 0 12 4, (.on 0 .size, .num 6), (.on 0 (.eraseKey (K 12)), .num 1)] ++ has 0 l5 ++
  [(.on 0 (.find (K 12)), .pos 5), (.on 0 (.find (K 6)), .pos 3), (.on 0 (.eraseAt 3), .pos 3)] ++ has 0 l4 ++ [(.on 0 (.find (K 6)), .pos 4)]

/-- "[flat_set] test": t-flat_set-11.cpp:28-82 -/
example : passes id none ([(.new 0 less, .unit)] ++ has 0 [] ++ setTest 5 2 [1, 3, 5, 6, 52] [1, 3, 5, 52]) = true := by decide +kernel

/-- "[flat_set] test": t-flat_set-11.cpp:86-118; strings as in the test of `flat_map` -/
example : passes id none ([(.new 0 less, .unit), ins 0 20 0, (.on 0 (.get 0), .elem 20), ins 0 30 1, (.on 0 (.find (K 30)), .pos 1),
    (.on 0 (.count (K 40)), .num 0), (.on 0 (.count (K 30)), .num 1), ins 0 10 0, (.on 0 (.get 0), .elem 10), (.move 1 0, .unit)] ++ has 0 [] ++
    has 1 [10, 20, 30] ++ [(.moveAssign 0 1, .unit)] ++ has 1 [] ++ has 0 [10, 20, 30] ++
    [(.eq 1 0, .bool false), (.assign 1 0, .unit), (.eq 1 0, .bool true)]) = true := by
  decide +kernel

/-- "[flat_set] test": t-flat_set-11.cpp:121-153 -/
example : passes id none ([(.new 0 less, .unit), ins 0 5 0, ins 0 20 1, ins 0 10 1, ins 0 3 0, (.on 0 (.get 0), .elem 3), (.on 0 (.get 3), .elem 20),
    (.on 0 (.find (K 10)), .pos 2), (.on 0 (.get 2), .elem 10), ins 0 11 3, (.on 0 .size, .num 5), (.on 0 (.find (K 11)), .pos 3),
    ins 0 10 2 false, (.on 0 (.find (K 18)), .pos 5), (.on 0 (.find (K 11)), .pos 3), (.copy 1 0, .unit)] ++ has 1 [3, 5, 10, 11, 20] ++
    [(.on 1 (.find (K 18)), .pos 5), (.on 1 (.find (K 11)), .pos 3)]) = true := by
  decide +kernel

/-- "[flat_set] test": t-flat_set-11.cpp:156-171 -/
example : passes id none ([(.new 0 less, .unit), (.new 1 less, .unit), ins 0 1 0, ins 0 2 1, (.swap 0 1, .unit)] ++ has 1 [1, 2] ++ has 0 [] ++
    [(.assign 1 1, .unit)] ++ has 1 [1, 2]) = true := by
  decide +kernel

/-- "[flat_set] initialize": t-flat_set-11.cpp:178-199; "aa", "ba", "gg" are 1, 2, 3 -/
example : passes id none ([(.build 0 less [5, 3, 23] [3, 5, 23], .unit)] ++ has 0 [3, 5, 23] ++ [(.build 1 less [4, 2, 3, 1] [1, 2, 3, 4], .unit)] ++
    has 1 [1, 2, 3, 4] ++ [(.build 2 less [2, 1, 2, 3, 2] [1, 2, 2, 2, 3], .unit)] ++ has 2 [1, 2, 3] ++
    [(.build 3 less [4, 3, 2, 2, 1, 4] [1, 2, 2, 3, 4, 4], .unit)] ++ has 3 [1, 2, 3, 4]) = true := by
  decide +kernel

/-- "[flat_set] ranges": t-flat_set-11.cpp:205-231 -/
example : passes id none ([(.build 0 less [2, 4, 5, 6] [2, 4, 5, 6], .unit)] ++ rangeTest) = true := by decide +kernel

/-- "[flat_set] custom cmp": t-flat_set-11.cpp:244-258 -/
example : ([[10, 9, 11, 12, 0, 20], [10, 11, 9, 12, 20, 0]].all fun sorted =>
    passes id none ([(.build 0 dist [0, 9, 10, 11, 12, 20] sorted, .unit), (.on 0 .size, .num 4), (.on 0 .clear, .unit),
    (.on 0 (.insert (Probe.ofKey dist 5) 5), .posFlag 0 true), (.on 0 (.insert (Probe.ofKey dist 10) 10), .posFlag 0 true),
    (.on 0 (.insert (Probe.ofKey dist 15) 15), .posFlag 1 false)] ++ has 0 [10, 5] ++ [(.on 0 (.find (Probe.ofKey dist 15)), .pos 1)])) = true := by
  decide +kernel

/-- "[flat_set] static_vector test": t-flat_set-11.cpp:267-321 -/
example : passes id (some 10) ([(.build 0 less [1, 5, 3, 5, 5, 2, 1] [1, 1, 2, 3, 5, 5, 5], .unit)] ++ has 0 [1, 2, 3, 5] ++
    [(.on 0 .clear, .unit)] ++ has 0 [] ++ setTest 2 1 [1, 2, 3, 6, 52] [1, 2, 3, 52]) = true := by
  decide +kernel
end Sets

end Itlib.Conformance.Flat
