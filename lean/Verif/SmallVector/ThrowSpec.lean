import Verif.SmallVector.Spec

/-!
# Specification of `small_vector` with exceptions of elements and allocators

`c = some k`: in this call, the construction of an element (by copying, or from arguments) throws after `k` were made;
`a = some k`: an allocation throws after `k` were made. Nothing here refers to the model.
-/
namespace Itlib.SmallVector.Spec
open Itlib
variable {α : Type}

/-- how many elements a call constructs if it is carried out -/
def made (op : Op α) (xs : List α) : Nat :=
  match op with
  | .pushBack _ | .emplaceBack _ => 1
  | .insert pos _ => if 0 ≤ pos ∧ pos ≤ xs.length then 1 else 0
  | .insertN pos n _ => if 0 ≤ pos ∧ pos ≤ xs.length then n else 0
  | .insertRange pos ys => if 0 ≤ pos ∧ pos ≤ xs.length then ys.length else 0
  | .resize n | .resizeV n _ => n - xs.length
  | .assignN n _ => n
  | .assignRange ys => ys.length
  | _ => 0

/-- does it allocate? -/
def allocs (N : Nat) (op : Op α) (h : Home) (xs : List α) : Bool :=
  match op with
  | .pushBack _ | .emplaceBack _ => h.cap N < xs.length + 1
  | .insert pos _ => (0 ≤ pos ∧ pos ≤ xs.length) ∧ h.cap N < xs.length + 1
  | .insertN pos n _ => (0 ≤ pos ∧ pos ≤ xs.length) ∧ h.cap N < xs.length + n
  | .insertRange pos ys => (0 ≤ pos ∧ pos ≤ xs.length) ∧ h.cap N < xs.length + ys.length
  | .resize n | .resizeV n _ | .reserve n | .assignN n _ => h.cap N < n
  | .assignRange ys => h.cap N < ys.length
  | .shrinkToFit => N < xs.length ∧ h ≠ .stat ∧ h ≠ .dyn xs.length
  | _ => false

/-- The exception that comes out of a call that allocates (`al`) and then constructs `n` elements. -/
def fault (c a : Option Nat) (al : Bool) (n : Nat) : Option Exc :=
  if al ∧ a = some 0 then some .badAlloc
  else match c with
    | some k => if k < n then some .element else none
    | none => none

/-- Effect of a call during which elements and allocations may throw. `none`: a precondition is violated, or the vector
does not survive the exception. It survives a failing allocation unchanged, except in `assign` of a vector that had
elements; and a failing construction only in `assign` without a change of buffer, holding then what was constructed. -/
def tstep (N R : Nat) (E : Elem α) (c a : Option Nat) (op : Op α) (h : Home) (xs : List α) :
    Option (Reply α × Home × List α) := do
  let r ← step N R E op h xs
  match fault c a (allocs N op h xs) (made op xs) with
  | none => some r
  | some .badAlloc =>
    match op with
    | .assignN .. | .assignRange _ => if xs = [] then some (.exc .badAlloc, h, []) else none
    | _ => some (.exc .badAlloc, h, xs)
  | some e =>
    match op with
    | .assignN .. | .assignRange _ => do
      let k ← c
      if moves N R (made op xs) h then none else some (.exc e, h, r.2.2.take k)
    | _ => none

/-- a call with its throw points -/
structure TOp (α : Type) where
  op : MOp α
  c : Option Nat
  a : Option Nat

/-- Effect on a system of vectors. A constructor that throws makes no vector; it survives (does not itself run into
undefined behaviour) if the allocation throws, or the elements were to be in the static buffer, `small_vector(count)`
excepted. -/
def mtstep (N R : Nat) (E : Elem α) (t : TOp α) (y : Sys α) : Option (Reply α × Sys α) := do
  let r ← mstep N R E t.op y
  let create (n : Nat) (inPlace : Bool) : Option (Reply α × Sys α) :=
    match fault t.c t.a (N < n) n with
    | none => some r
    | some .badAlloc => some (.exc .badAlloc, y)
    | some e => if n ≤ N ∧ inPlace then some (.exc e, y) else none
  match t.op with
  | .ctorCount _ _ n => create n false
  | .ctorVal _ _ n _ => create n true
  | .ctorRange _ _ xs => create xs.length true
  | .copyCtor _ _ j => do
    let w ← y j
    create w.xs.length true
  | .copyAssign i j => do
    let v ← y i
    let w ← y j
    if i = j then some r
    else do
      let (r, h, xs) ← tstep N R E t.c t.a (.assignRange w.xs) v.home v.xs
      some (r, y.put i (some ⟨v.al, h, xs⟩))
  | .call i op => do
    let v ← y i
    let (r, h, xs) ← tstep N R E t.c t.a op v.home v.xs
    some (r, y.put i (some ⟨v.al, h, xs⟩))
  | _ => some r

/-- a history; `none` if the specification has no say at some call -/
def mtrun (N R : Nat) (E : Elem α) : List (TOp α) → Sys α → Option (List (Reply α) × Sys α)
  | [], y => some ([], y)
  | t :: ts, y => do
    let (r, y) ← mtstep N R E t y
    let (rs, y) ← mtrun N R E ts y
    some (r :: rs, y)

/-- All calls of a history are safe at the time they are made. -/
def MTSafeRun (N R : Nat) (E : Elem α) : List (TOp α) → Sys α → Prop
  | [], _ => True
  | t :: ts, y => MSafe N R t.op y ∧
    match mtstep N R E t y with
    | some (_, y') => MTSafeRun N R E ts y'
    | none => False

end Itlib.SmallVector.Spec
