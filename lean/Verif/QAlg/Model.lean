import Verif.Core.Outcome

/-!
# Model of `include/itlib/qalgorithm.hpp`

A container is a sequence of elements, some of which may be moved from; iterators are positions. The container's `erase`
functions and the algorithms of `<algorithm>` the header wraps are modelled after the standard's definitions (in the form
of the common implementations): `find`/`find_if` stop at the first match, `remove`/`remove_if` move the elements to keep to
the front and return the new end, `all_of`/`any_of`/`none_of` are `find_if_not`/`find_if`. Using an element that was moved
from, or a position outside, counts as undefined behaviour. A predicate may throw. The value that `qfind`, `erase_first`
and `erase_all` take is a reference: it may refer to (a part `asV` of) an element of the container.
-/
namespace Itlib.QAlg
open Itlib

/-- an element of the container -/
inductive Cell (T : Type) where
  | val (x : T)
  | moved

abbrev Q (T : Type) := M (List (Cell T))

variable {T V : Type}

/-- use of the element at a position -/
def rd (i : Nat) : Q T T := M.load fun c => match c[i]? with
  | some (.val x) => some x
  | _ => none

/-- `*i = std::move(*j)` -/
def moveTo (i j : Nat) : Q T Unit := do
  let x ← rd j
  M.mem fun c => if i < c.length then some ((c.set j .moved).set i (.val x)) else none

/-- `c.size()` -/
def size : Q T Nat := do
  let c ← M.get
  pure c.length

/-- `c.erase(it)` -/
def erase1 (i : Nat) : Q T Unit := M.mem fun c => if i < c.length then some (c.eraseIdx i) else none

/-- `c.erase(first, last)` -/
def eraseRange (i j : Nat) : Q T Unit := M.mem fun c => if i ≤ j ∧ j ≤ c.length then some (c.take i ++ c.drop j) else none

/-- a predicate on an element; `none`: it throws -/
def testPred (p : T → Option Bool) (i : Nat) : Q T Bool := do
  let x ← rd i
  match p x with
  | some b => pure b
  | none => .raise .user

/-- the reference `const Value& val`: to an object outside of the container, or to (a part of) an element -/
inductive Ref (V : Type) where
  | ext (v : V)
  | elem (i : Nat)

/-- reading the referenced value -/
def Ref.read (asV : T → V) : Ref V → Q T V
  | .ext v => pure v
  | .elem i => do
    let x ← rd i
    pure (asV x)

/-- `*it == val` -/
def testVal (eq : T → V → Bool) (asV : T → V) (r : Ref V) (i : Nat) : Q T Bool := do
  let x ← rd i
  let v ← r.read asV
  pure (eq x v)

/-- `std::find_if` from position `i`, `n` positions -/
def findIf (test : Nat → Q T Bool) : Nat → Nat → Q T Nat
  | 0, i => pure i
  | n + 1, i => do
    let b ← test i
    if b then pure i else findIf test n (i + 1)

/-- the loop of `std::remove_if`: position `i`, `n` positions to go, result `r` -/
def removeLoop (test : Nat → Q T Bool) : Nat → Nat → Nat → Q T Nat
  | 0, _, r => pure r
  | n + 1, i, r => do
    let b ← test i
    if b then removeLoop test n (i + 1) r
    else do
      moveTo r i
      removeLoop test n (i + 1) (r + 1)

/-- `std::remove_if(c.begin(), c.end(), ...)` -/
def removeIf (test : Nat → Q T Bool) : Q T Nat := do
  let n ← size
  let f ← findIf test n 0
  if f = n then pure f
  else removeLoop test (n - (f + 1)) (f + 1) f

/-- `qfind` (qalgorithm.hpp:86-90), `qfind_if` (qalgorithm.hpp:100-104) -/
def qfind (test : Nat → Q T Bool) : Q T Nat := do
  let n ← size
  findIf test n 0

/-- `pfind` (qalgorithm.hpp:92-98), `pfind_if` (qalgorithm.hpp:106-112): the position pointed to, or null -/
def pfind (test : Nat → Q T Bool) : Q T (Option Nat) := do
  let n ← size
  let f ← findIf test n 0
  if f = n then pure none
  else do
    let _ ← rd f
    pure (some f)

/-- `erase_first` (qalgorithm.hpp:114-121), `erase_first_if` (qalgorithm.hpp:123-130) -/
def eraseFirst (test : Nat → Q T Bool) : Q T Bool := do
  let f ← qfind test
  let n ← size
  if f = n then pure false
  else do
    erase1 f
    pure true

/-- `erase_all` (qalgorithm.hpp:132-139), `erase_all_if` (qalgorithm.hpp:141-148) -/
def eraseAll (test : Nat → Q T Bool) : Q T Nat := do
  let newend ← removeIf test
  let n ← size
  let ret := n - newend
  eraseRange newend n
  pure ret

/-- `qall_of` (qalgorithm.hpp:156-159) -/
def qallOf (p : T → Option Bool) : Q T Bool := do
  let n ← size
  let f ← findIf (testPred fun x => (p x).map not) n 0
  pure (f == n)

/-- `qany_of` (qalgorithm.hpp:160-163) -/
def qanyOf (p : T → Option Bool) : Q T Bool := do
  let n ← size
  let f ← findIf (testPred p) n 0
  pure (f != n)

/-- `qnone_of` (qalgorithm.hpp:164-167) -/
def qnoneOf (p : T → Option Bool) : Q T Bool := do
  let n ← size
  let f ← findIf (testPred p) n 0
  pure (f == n)

end Itlib.QAlg
