import Verif.SmallVector.ThrowSpec

/-!
# Specification of `small_vector` whose elements throw when they are moved

`m = some k`: in this call the construction of an element from `std::move` of an element of a vector throws after `k` such
moves were made. What this leaves in the source is up to the element type (`tr`). Nothing here refers to the model.
-/
namespace Itlib.SmallVector.Spec
open Itlib
variable {α : Type}

/-- A heap block that belongs to no vector and so will never be freed: the allocator it came from, its capacity, and the
elements that are alive in it. -/
structure Leak (α : Type) where
  al : Nat
  cap : Nat
  xs : List α
  deriving DecidableEq

/-- how many elements are moved to insert `n` of them at `pos` -/
def insMoves (N R : Nat) (h : Home) (len : Nat) (pos : Int) (n : Nat) : Nat :=
  if 0 ≤ pos ∧ pos ≤ len then
    if moves N R (len + n) h then len else len - pos.toNat
  else 0

/-- how many elements are moved to erase those from `first` to `last` -/
def eraMoves (N R : Nat) (h : Home) (len : Nat) (first last : Int) : Nat :=
  if 0 ≤ first ∧ first ≤ last ∧ last ≤ len then
    let rest := len - (last - first).toNat
    if rest = 0 then 0 else if moves N R rest h then rest else len - last.toNat
  else 0

/-- how many elements a member function moves if it is carried out -/
def vmoves (N R : Nat) (op : Op α) (h : Home) (len : Nat) : Nat :=
  match op with
  | .pushBack _ | .emplaceBack _ => insMoves N R h len len 1
  | .insert pos _ => insMoves N R h len pos 1
  | .insertN pos n _ => insMoves N R h len pos n
  | .insertRange pos ys => insMoves N R h len pos ys.length
  | .popBack => eraMoves N R h len (len - 1 : Int) len
  | .erase pos => eraMoves N R h len pos (pos + 1)
  | .eraseRange first last => eraMoves N R h len first last
  | .resize n | .resizeV n _ | .reserve n => if h.cap N < n then len else 0
  | .shrinkToFit => if h = .stat ∨ h = .dyn len then 0 else len
  | .revertToStatic => if h = .stat ∨ N < len ∨ h = .dyn len then 0 else len
  | _ => 0

/-- a sequence whose first `k` elements were moved from, and whose next one threw while it was -/
def torn (E : Elem α) (tr : α → α) (k : Nat) (xs : List α) : List α :=
  (xs.take k).map E.mv ++
    match xs.drop k with
    | [] => []
    | a :: as => tr a :: as

/-- What a vector is after the move of an element threw, `k` elements having been moved, and the blocks that are lost
(capacity and elements). `none`: the vector does not survive.
* When the elements were on the way to a larger heap block, they are where they were; the new block is lost.
* When they were on the way to the static buffer, this needs that none had been moved (nor destroyed).
* When the buffer was to stay the same, the vector does not survive.
* `shrink_to_fit` leaves a vector of the elements moved so far; the old block is lost. -/
def tornStep (N R : Nat) (E : Elem α) (tr : α → α) (k : Nat) (op : Op α) (h : Home) (xs : List α) :
    Option (Home × List α × List (Nat × List α)) :=
  let grow (d : Nat) : Option (Home × List α × List (Nat × List α)) :=
    if moves N R d h then
      match choose N R d h with
      | .dyn c => some (h, torn E tr k xs, [(c, xs.take k)])
      | .stat => if k = 0 then some (h, torn E tr k xs, []) else none
    else none
  let shrink (first last : Int) : Option (Home × List α × List (Nat × List α)) :=
    if moves N R (xs.length - (last - first).toNat) h ∧ k = 0 ∧ (0 < first ∨ first = last) then
      some (h, torn E tr k xs, [])
    else none
  match op with
  | .pushBack _ | .emplaceBack _ | .insert _ _ => grow (xs.length + 1)
  | .insertN _ n _ => grow (xs.length + n)
  | .insertRange _ ys => grow (xs.length + ys.length)
  | .popBack => shrink (xs.length - 1 : Int) xs.length
  | .erase pos => shrink pos (pos + 1)
  | .eraseRange first last => shrink first last
  | .resize n | .resizeV n _ | .reserve n => grow n
  | .shrinkToFit | .revertToStatic =>
    match h with
    | .dyn c => some (if xs.length ≤ N then .stat else .dyn xs.length, xs.take k, [(c, (torn E tr k xs).drop k)])
    | .stat => none
  | _ => none

/-- a call with its throw points: `c` for constructions other than by moving elements, `a` for allocations, `m` for moves -/
structure VOp (α : Type) where
  op : MOp α
  c : Option Nat
  a : Option Nat
  m : Option Nat

/-- how many moves of elements a call makes if it is carried out -/
def cmoves (N R : Nat) (op : MOp α) (y : Sys α) : Nat :=
  match op with
  | .call i op =>
    match y i with
    | some v => vmoves N R op v.home v.xs.length
    | none => 0
  | .moveCtor i j | .moveAssign i j =>
    match y j with
    | some w => if w.home = .stat ∧ i ≠ j then w.xs.length else 0
    | none => 0
  | _ => 0

/-- does an allocation fail, which comes before any moves? -/
def allocFails (N : Nat) (t : VOp α) (y : Sys α) : Bool :=
  match t.op with
  | .call i op =>
    match y i with
    | some v => allocs N op v.home v.xs && t.a == some 0
    | none => false
  | _ => false

/-- after how many moves does one throw, if it does? -/
def mfault (m : Option Nat) (n : Nat) : Option Nat :=
  match m with
  | some k => if k < n then some k else none
  | none => none

/-- Effect on a system of vectors: what the caller sees, the blocks lost because of this call, and the system
afterwards. `none`: a precondition is violated, a vector does not survive the exception, or the exception cannot leave the
function: the move constructor and the move assignment are `noexcept`. -/
def vstep (N R : Nat) (E : Elem α) (tr : α → α) (t : VOp α) (y : Sys α) : Option (Reply α × List (Leak α) × Sys α) := do
  let _ ← mstep N R E t.op y
  match if allocFails N t y then none else mfault t.m (cmoves N R t.op y) with
  | none => do
    let (r, y) ← mtstep N R E ⟨t.op, t.c, t.a⟩ y
    some (r, [], y)
  | some k =>
    match t.op with
    | .call i op => do
      let v ← y i
      let (h, xs, ls) ← tornStep N R E tr k op v.home v.xs
      some (.exc .element, ls.map fun l => ⟨v.al, l.1, l.2⟩, y.put i (some ⟨v.al, h, xs⟩))
    | _ => none

/-- a history: what the caller saw, the blocks lost, and the system at the end; `none` if the specification has no say at
some call -/
def vrun (N R : Nat) (E : Elem α) (tr : α → α) : List (VOp α) → Sys α → Option (List (Reply α) × List (Leak α) × Sys α)
  | [], y => some ([], [], y)
  | t :: ts, y => do
    let (r, l, y) ← vstep N R E tr t y
    let (rs, ls, y) ← vrun N R E tr ts y
    some (r :: rs, l ++ ls, y)

/-- All calls of a history are safe at the time they are made. -/
def VSafeRun (N R : Nat) (E : Elem α) (tr : α → α) : List (VOp α) → Sys α → Prop
  | [], _ => True
  | t :: ts, y => MSafe N R t.op y ∧
    match vstep N R E tr t y with
    | some (_, _, y') => VSafeRun N R E tr ts y'
    | none => False

end Itlib.SmallVector.Spec
