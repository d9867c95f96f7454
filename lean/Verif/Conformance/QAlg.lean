import Verif.QAlg.Model

/-!
# The model of `qalgorithm.hpp` against the unit tests of the library

Tests of the model, not proofs: the calls of `test/t-qalgorithm-11.cpp`. Not transcribed: the types of results, and the repetition of the calls for
`const` containers and for `span` (the model is the same for them).
-/
namespace Itlib.Conformance.QAlg
open Itlib Itlib.QAlg

def vec (l : List Nat) : List (Cell Nat) := l.map .val
def is (v : Nat) : Nat → Q Nat Bool := testVal (· == ·) id (.ext v)
def when (p : Nat → Bool) : Nat → Q Nat Bool := testPred fun x => some (p x)

/-- the result, if the call ends normally, and the container -/
def after {α : Type} (f : Q Nat α) (l : List Nat) : Option (α × List (Option Nat)) :=
  match f (vec l) with
  | .ok r c => some (r, c.map fun | .val x => some x | .moved => none)
  | _ => none

/-- the call has this result and leaves this container -/
def gives {α : Type} [BEq α] (f : Q Nat α) (l : List Nat) (r : α) (l' : List Nat) : Bool := after f l == some (r, l'.map some)

/-- "find": t-qalgorithm-11.cpp:12-43 -/
example : gives (qfind (is 1)) [1, 2, 3, 4] 0 [1, 2, 3, 4] = true ∧ gives (qfind (is 5)) [100, 2, 3, 4] 4 [100, 2, 3, 4] = true ∧
    gives (pfind (is 2)) [100, 2, 3, 4] (some 1) [100, 2, 3, 4] = true ∧ gives (pfind (is 5)) [100, 2, 3, 4] none [100, 2, 3, 4] = true ∧
    gives (qfind (when (· < 3))) [100, 2, 3, 4] 1 [100, 2, 3, 4] = true ∧ gives (qfind (when (· > 300))) [100, 2, 3, 4] 4 [100, 2, 3, 4] = true ∧
    gives (pfind (when (· < 3))) [100, 2, 3, 4] (some 1) [100, 2, 3, 4] = true ∧
    gives (pfind (when (· > 300))) [100, 2, 3, 4] none [100, 2, 3, 4] = true := by
  decide +kernel

/-- "erase_first": t-qalgorithm-11.cpp:81-89 -/
example : gives (eraseFirst (is 8)) [1, 2, 3, 4] false [1, 2, 3, 4] = true ∧ gives (eraseFirst (when (· > 4))) [1, 2, 3, 4] false [1, 2, 3, 4] = true ∧
    gives (eraseFirst (is 2)) [1, 2, 3, 4] true [1, 3, 4] = true ∧ gives (eraseFirst (when (· > 2))) [1, 3, 4] true [1, 4] = true := by
  decide +kernel

/-- "erase_all": t-qalgorithm-11.cpp:95-105 -/
example : gives (eraseAll (is 8)) [1, 2, 3, 2, 4] 0 [1, 2, 3, 2, 4] = true ∧ gives (eraseAll (when (· > 4))) [1, 2, 3, 2, 4] 0 [1, 2, 3, 2, 4] = true ∧
    gives (eraseAll (is 2)) [1, 2, 3, 2, 4] 2 [1, 3, 4] = true ∧ gives (eraseAll (when (· > 2))) [1, 3, 4] 2 [1] = true := by
  decide +kernel

/-- an `int` as a condition -/
def truth (x : Nat) : Option Bool := some (x != 0)

/-- "all/any/none": t-qalgorithm-11.cpp:110-129 -/
example : ([([], true, false, true), ([1, 5, 3, 6, 7], true, true, false), ([0, 1, 2, 3, 4], false, true, false),
      ([0, 0, 0, 0, 0, 0], false, false, true)].all fun (l, all, any, no) =>
    gives (qallOf truth) l all l && gives (qanyOf truth) l any l && gives (qnoneOf truth) l no l) = true := by
  decide +kernel

/-- "span": t-qalgorithm-11.cpp:136-147 -/
example : gives (qfind (is 3)) [1, 2, 3, 2, 4] 2 [1, 2, 3, 2, 4] = true ∧ gives (qfind (is 1)) [1, 2, 3, 2, 4] 0 [1, 2, 3, 2, 4] = true ∧
    gives (pfind (is 2)) [1, 2, 3, 2, 4] (some 1) [1, 2, 3, 2, 4] = true ∧ gives (pfind (is 18)) [1, 18, 3, 2, 4] (some 1) [1, 18, 3, 2, 4] = true := by
  decide +kernel

end Itlib.Conformance.QAlg
