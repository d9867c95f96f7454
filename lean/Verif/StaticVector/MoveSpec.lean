import Verif.StaticVector.ThrowSpec

/-!
# Specification of `static_vector` whose elements throw when they are moved

`m = some k`: in this call the move of an element (construction or assignment from `std::move` of an element of a vector)
throws after `k` such moves were made. Nothing here refers to the model.
-/
namespace Itlib.StaticVector.Spec
open Itlib
variable {α : Type}

/-- What a move that throws leaves behind: this is up to the element type. -/
structure Torn (α : Type) where
  /-- the source of a construction -/
  src : α → α
  /-- the target of an assignment, from the values of the target and the source before it -/
  adst : α → α → α
  /-- the source of an assignment, ditto -/
  asrc : α → α → α

/-- how many elements a member function moves if it is carried out -/
def vmoves (cap : Nat) (op : Op α) (xs : List α) : Nat :=
  match op with
  | .insert pos _ => if xs.length < cap then xs.length - pos else 0
  | .insertN pos n _ => if n ≠ 0 ∧ xs.length + n ≤ cap then xs.length - pos else 0
  | .insertRange pos ys => if ys ≠ [] ∧ xs.length + ys.length ≤ cap then xs.length - pos else 0
  | .erase pos => xs.length - (pos + 1)
  | .eraseRange _ last => xs.length - last
  | _ => 0

/-- the number of elements of a vector -/
def len (y : Sys α) (i : Nat) : Nat :=
  match y i with
  | some (_, xs) => xs.length
  | none => 0

/-- how many moves of elements a call makes if it is carried out -/
def moves (op : MOp α) (y : Sys α) : Nat :=
  match op with
  | .call i op =>
    match y i with
    | some (cap, xs) => vmoves cap op xs
    | none => 0
  | .moveCtor _ j | .moveAssign _ j => len y j
  -- three for each pair of elements, one for each of the others
  | .swap i j => 3 * min (len y i) (len y j) + (max (len y i) (len y j) - min (len y i) (len y j))
  | _ => 0

/-- a sequence whose first `k` elements were moved from, and whose next one threw while it was -/
def torn (E : Elem α) (T : Torn α) (k : Nat) (xs : List α) : List α :=
  (xs.take k).map E.mv ++
    match xs.drop k with
    | [] => []
    | a :: as => T.src a :: as

/-- a sequence whose last element threw when it was moved from -/
def tornLast (T : Torn α) (xs : List α) : List α :=
  match xs.getLast? with
  | some a => xs.dropLast ++ [T.src a]
  | none => xs

/-- Two sequences, the first not longer than the second, whose exchange threw after `k` moves. Pairs are exchanged by
`t = move(a); a = move(b); b = move(t)`, then the rest is moved to the end of the shorter sequence. If that rest is only
partly moved, the longer vector does not survive. -/
def swapTorn (E : Elem α) (T : Torn α) (k : Nat) (xs ys : List α) : Option (List α × List α) :=
  let j := k / 3
  -- `j` pairs are exchanged
  let xs' := ys.take j ++ xs.drop j
  let ys' := xs.take j ++ ys.drop j
  match xs[j]?, ys[j]? with
  | some a, some b =>
    if k % 3 = 0 then some (xs'.set j (T.src a), ys')
    else if k % 3 = 1 then some (xs'.set j (T.adst (E.mv a) b), ys'.set j (T.asrc (E.mv a) b))
    else some (xs'.set j b, ys'.set j (T.adst (E.mv b) a))
  | none, some b => if k = 3 * xs.length then some (xs', ys'.set j (T.src b)) else none
  | _, _ => none

/-- a call with its throw points: `c` for constructions other than by moving elements, `m` for moves -/
structure VOp (α : Type) where
  op : MOp α
  c : Option Nat
  m : Option Nat

/-- Effect on a system of vectors: what the caller sees, the elements that will never be destroyed because of this call,
and the system afterwards. `none`: a precondition is violated, a vector does not survive the exception, or the exception
cannot leave the function. `nx`: the move assignment of the elements is declared `noexcept` (their move constructor, which
throws, is not). -/
def vstep (E : Elem α) (T : Torn α) (nx : Bool) (t : VOp α) (y : Sys α) : Option (Reply α × List α × Sys α) := do
  let _ ← mstep E t.op y
  match fault t.m (moves t.op y) with
  | none => mtstep E ⟨t.op, t.c⟩ y
  | some k =>
    match t.op with
    | .call i op => do
      let (cap, xs) ← y i
      match op with
      | .insert _ _ | .insertN _ _ _ | .insertRange _ _ =>
        if k = 0 then some (.exc .element, [], y.put i (some (cap, tornLast T xs))) else none
      | _ => none
    | .moveCtor _ j => do
      let (cap, ys) ← y j
      some (.exc .element, ys.take k, y.put j (some (cap, torn E T k ys)))
    | .moveAssign i j => do
      let (cap, ys) ← y j
      if nx then none
      else some (.exc .element, [], (y.put i (some (cap, ys.take k))).put j (some (cap, torn E T k ys)))
    | .swap i j => do
      let (cap, xs) ← y i
      let (_, ys) ← y j
      if xs.length < ys.length then do
        let (xs, ys) ← swapTorn E T k xs ys
        some (.exc .element, [], (y.put i (some (cap, xs))).put j (some (cap, ys)))
      else do
        let (ys, xs) ← swapTorn E T k ys xs
        some (.exc .element, [], (y.put i (some (cap, xs))).put j (some (cap, ys)))
    | _ => none

/-- a history: what the caller saw, the elements never destroyed, and the system at the end; `none` if the
specification has no say at some call -/
def vrun (E : Elem α) (T : Torn α) (nx : Bool) : List (VOp α) → Sys α → Option (List (Reply α) × List α × Sys α)
  | [], y => some ([], [], y)
  | t :: ts, y => do
    let (r, l, y) ← vstep E T nx t y
    let (rs, ls, y) ← vrun E T nx ts y
    some (r :: rs, l ++ ls, y)

/-- The calls considered: those of `MSafe`, and no vector is swapped with itself when moves throw. -/
def VSafe (t : VOp α) (y : Sys α) : Prop :=
  MSafe t.op y ∧ ∀ i, t.op = .swap i i → t.m = none

/-- All calls of a history are safe at the time they are made. -/
def VSafeRun (E : Elem α) (T : Torn α) (nx : Bool) : List (VOp α) → Sys α → Prop
  | [], _ => True
  | t :: ts, y => VSafe t y ∧
    match vstep E T nx t y with
    | some (_, _, y') => VSafeRun E T nx ts y'
    | none => False

end Itlib.StaticVector.Spec
