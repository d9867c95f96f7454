import Verif.StaticVector.Spec

/-!
# Specification of `static_vector` with exceptions of elements

`c = some k`: in this call, the construction of an element (by copying, or from arguments) throws after `k` were made.
Nothing here refers to the model.
-/
namespace Itlib.StaticVector.Spec
open Itlib
variable {α : Type}

/-- how many elements a call constructs if it is carried out -/
def made (cap : Nat) (op : Op α) (xs : List α) : Nat :=
  match op with
  | .pushBack _ | .emplaceBack _ | .insert _ _ => if xs.length < cap then 1 else 0
  | .insertN _ n _ => if xs.length + n ≤ cap then n else 0
  | .insertRange _ ys => if xs.length + ys.length ≤ cap then ys.length else 0
  | .resize n | .resizeV n _ => if n ≤ cap then n - xs.length else 0
  | .assignN n _ => if n ≤ cap then n else 0
  | .assignRange ys => if ys.length ≤ cap then ys.length else 0
  | _ => 0

/-- the number of elements made before one throws, if one does, in a call that makes `n` of them -/
def fault (c : Option Nat) (n : Nat) : Option Nat :=
  match c with
  | some k => if k < n then some k else none
  | none => none

/-- Effect of a call during which elements may throw. `none`: a precondition is violated, or the vector does not survive
the exception, which is so for all insertions other than at the end by `push_back` and `emplace_back`. These two have
no effect if they throw; `resize` and `assign` keep the elements already made. -/
def tstep (cap : Nat) (E : Elem α) (c : Option Nat) (op : Op α) (xs : List α) : Option (Reply α × List α) := do
  let r ← step cap E op xs
  match fault c (made cap op xs) with
  | none => some r
  | some k =>
    match op with
    | .pushBack _ | .emplaceBack _ => some (.exc .element, xs)
    | .resize _ | .resizeV _ _ => some (.exc .element, r.2.take (xs.length + k))
    | .assignN _ _ | .assignRange _ => some (.exc .element, r.2.take k)
    | _ => none

/-- a call with its throw point -/
structure TOp (α : Type) where
  op : MOp α
  c : Option Nat

/-- Effect on a system of vectors: what the caller sees, the elements that will never be destroyed because of this call,
and the system afterwards. Such elements are those made by a constructor of `static_vector` that then throws. -/
def mtstep (E : Elem α) (t : TOp α) (y : Sys α) : Option (Reply α × List α × Sys α) := do
  let (r, y') ← mstep E t.op y
  let create (cap : Nat) (xs : List α) : Option (Reply α × List α × Sys α) :=
    match fault t.c (if xs.length ≤ cap then xs.length else 0) with
    | none => some (r, [], y')
    | some k => some (.exc .element, xs.take k, y)
  match t.op with
  | .ctorCount _ cap n => create cap (List.replicate n E.dflt)
  | .ctorVal _ cap n a => create cap (List.replicate n a)
  | .ctorRange _ cap xs => create cap xs
  | .copyCtor _ cap j => do
    let (_, ys) ← y j
    create cap ys
  | .copyAssign i j => do
    let (cap, xs) ← y i
    let (_, ys) ← y j
    if i = j then some (r, [], y')
    else do
      let (r, xs) ← tstep cap E t.c (.assignRange ys) xs
      some (r, [], y.put i (some (cap, xs)))
  | .call i op => do
    let (cap, xs) ← y i
    let (r, xs) ← tstep cap E t.c op xs
    some (r, [], y.put i (some (cap, xs)))
  | _ => some (r, [], y')

/-- a history: what the caller saw, the elements never destroyed, and the system at the end; `none` if the
specification has no say at some call -/
def mtrun (E : Elem α) : List (TOp α) → Sys α → Option (List (Reply α) × List α × Sys α)
  | [], y => some ([], [], y)
  | t :: ts, y => do
    let (r, l, y) ← mtstep E t y
    let (rs, ls, y) ← mtrun E ts y
    some (r :: rs, l ++ ls, y)

/-- All calls of a history are safe at the time they are made. -/
def MTSafeRun (E : Elem α) : List (TOp α) → Sys α → Prop
  | [], _ => True
  | t :: ts, y => MSafe t.op y ∧
    match mtstep E t y with
    | some (_, _, y') => MTSafeRun E ts y'
    | none => False

end Itlib.StaticVector.Spec
