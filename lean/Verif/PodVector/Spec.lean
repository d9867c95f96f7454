import Verif.Core.Elem
import Mathlib.Logic.Function.Basic

/-!
# What a `pod_vector` should do

Its contents are a list of elements, an element being `some` string of `sizeof(T)` bytes, or `none` for an element whose
value nothing is promised about (`emplace_back()` and growing `resize` without zero filling). In addition the capacity is
specified. The allocator does not occur here.
-/
namespace Itlib.PodVector.Spec
open Itlib

abbrev Byte := BitVec 8
abbrev E := Option (List Byte)

inductive Op where
  | reserve (n : Nat)
  | shrinkToFit
  | clear
  | insert (pos : Nat) (v : Arg (List Byte))
  | insertN (pos n : Nat) (v : Arg (List Byte))
  | insertRange (pos : Nat) (ys : List (List Byte))
  | erase (pos : Nat)
  | eraseRange (first last : Nat)
  | emplaceBack
  | pushBack (v : Arg (List Byte))
  | popBack
  | resize (n : Nat)
  | resizeV (n : Nat) (v : Arg (List Byte))
  | assignN (n : Nat) (v : Arg (List Byte))
  | assignRange (ys : List (List Byte))
  | set (i : Nat) (x : List Byte)
  | get (i : Nat)
  | getBack
  | size
  | capacity

inductive Reply where
  | done
  | elem (x : List Byte)
  | num (n : Nat)
  deriving DecidableEq

/-- growth by a factor of 3/2, rounded up, until `d` is reached -/
def growTo (d : Nat) : Nat → Nat → Nat
  | 0, c => c
  | f+1, c => if d ≤ c then c else growTo d f ((3 * c + 1) / 2)

/-- capacity after room for `d` elements was requested -/
def newCap (c d : Nat) : Nat := if d ≤ c then c else if c = 0 then d else growTo d d c

def argVal (sz : Nat) (xs : List E) : Arg (List Byte) → Option E
  | .val a => if a.length = sz then some (some a) else none
  | .self i => xs[i]?

/-- The effect of a call; `none`: the precondition of the call is violated. -/
def step (sz : Nat) (zero : Bool) (op : Op) (c : Nat) (xs : List E) : Option (Reply × Nat × List E) :=
  match op with
  | .reserve n => some (.done, newCap c n, xs)
  | .shrinkToFit => some (.done, xs.length, xs)
  | .clear => some (.done, c, [])
  | .insert pos v => do
    let a ← argVal sz xs v
    if pos ≤ xs.length then some (.done, newCap c (xs.length + 1), xs.take pos ++ [a] ++ xs.drop pos) else none
  | .insertN pos n v => do
    let a ← argVal sz xs v
    if pos ≤ xs.length then
      some (.done, newCap c (xs.length + n), xs.take pos ++ List.replicate n a ++ xs.drop pos)
    else none
  | .insertRange pos ys =>
    if pos ≤ xs.length ∧ ∀ y ∈ ys, y.length = sz then
      some (.done, newCap c (xs.length + ys.length), xs.take pos ++ ys.map some ++ xs.drop pos)
    else none
  | .erase pos => if pos < xs.length then some (.done, c, xs.take pos ++ xs.drop (pos + 1)) else none
  | .eraseRange f l => if f ≤ l ∧ l ≤ xs.length then some (.done, c, xs.take f ++ xs.drop l) else none
  | .emplaceBack => some (.done, newCap c (xs.length + 1), xs ++ [none])
  | .pushBack v => do
    let a ← argVal sz xs v
    some (.done, newCap c (xs.length + 1), xs ++ [a])
  | .popBack => if xs = [] then none else some (.done, c, xs.dropLast)
  | .resize n =>
    some (.done, newCap c n, xs.take n ++
      List.replicate (n - xs.length) (if zero then some (List.replicate sz 0) else none))
  | .resizeV n v => do
    let a ← argVal sz xs v
    some (.done, newCap c n, xs.take n ++ List.replicate (n - xs.length) a)
  | .assignN n v => do
    let a ← argVal sz xs v
    some (.done, newCap c n, List.replicate n a)
  | .assignRange ys =>
    if ∀ y ∈ ys, y.length = sz then some (.done, newCap c ys.length, ys.map some) else none
  | .set i x => if i < xs.length ∧ x.length = sz then some (.done, c, xs.set i (some x)) else none
  | .get i => do
    let x ← xs[i]?
    let b ← x
    some (.elem b, c, xs)
  | .getBack => do
    let x ← xs.getLast?
    let b ← x
    some (.elem b, c, xs)
  | .size => some (.num xs.length, c, xs)
  | .capacity => some (.num c, c, xs)

/-- Calls on which the code does what the specification says. What is excluded: references to own elements as arguments
of calls that have to enlarge the buffer, or that shift the element referred to; `resize(n, val)` whenever `n` more
elements than there are would exceed the capacity. -/
def Safe (op : Op) (c : Nat) (xs : List E) : Prop :=
  match op with
  | .pushBack (.self _) => xs.length + 1 ≤ c
  | .insert pos (.self i) => xs.length + 1 ≤ c ∧ i ≤ pos
  | .insertN pos n (.self i) => n = 0 ∨ xs.length + n ≤ c ∧ i < pos + n
  | .assignN n (.self _) => n ≤ c
  | .resizeV n (.self _) => n = 0 ∨ n ≤ c ∧ xs.length + n ≤ c
  | .resizeV n (.val _) => n = 0 ∨ xs.length + n ≤ newCap c n
  | _ => True

def run (sz : Nat) (zero : Bool) : List Op → Nat → List E → Option (List Reply × Nat × List E)
  | [], c, xs => some ([], c, xs)
  | op :: ops, c, xs => do
    let (r, c, xs) ← step sz zero op c xs
    let (rs, c, xs) ← run sz zero ops c xs
    some (r :: rs, c, xs)

def SafeRun (sz : Nat) (zero : Bool) : List Op → Nat → List E → Prop
  | [], _, _ => True
  | op :: ops, c, xs => Safe op c xs ∧ ∀ r c' xs', step sz zero op c xs = some (r, c', xs') → SafeRun sz zero ops c' xs'

/-! ### Several vectors -/

/-- a vector: element size and alignment, capacity, contents -/
structure V where
  sz : Nat
  al : Nat
  cap : Nat
  xs : List E

abbrev Sys := Nat → Option V

inductive MOp where
  | ctor (i sz al : Nat)
  | ctorCount (i sz al n : Nat)
  | ctorVal (i sz al n : Nat) (a : List Byte)
  | ctorRange (i sz al : Nat) (ys : List (List Byte))
  | copyCtor (i j : Nat)
  | moveCtor (i j : Nat)
  | copyAssign (i j : Nat)
  | moveAssign (i j : Nat)
  | swap (t i j : Nat)
  | recastCopy (i j : Nat)
  | recastTake (i j : Nat)
  | dtor (i : Nat)
  | call (i : Nat) (op : Op)

def Sys.put (y : Sys) (i : Nat) (v : Option V) : Sys := Function.update y i v

/-- cut a string of bytes (some of which may be unknown) into elements of size `sz` -/
def chunks (sz : Nat) (l : List (Option Byte)) : List E :=
  (List.range (l.length / sz)).map fun k => ((l.drop (k * sz)).take sz).mapM id

/-- the bytes of an element of size `sz` -/
def E.bytes (sz : Nat) : E → List (Option Byte)
  | some x => x.map some
  | none => List.replicate sz none

/-- the contents of `w` seen as elements of another size; what does not fill an element is lost -/
def recast (w : V) (sz : Nat) : List E := chunks sz (w.xs.flatMap (E.bytes w.sz))

/-- `al` is the alignment the allocator guarantees -/
def mstep (al : Nat) (zero : Bool) (op : MOp) (y : Sys) : Option (Reply × Sys) :=
  match op with
  | .ctor i sz a => if y i = none then some (.done, y.put i (some ⟨sz, a, 0, []⟩)) else none
  | .ctorCount i sz a n =>
    if y i = none then
      some (.done, y.put i (some ⟨sz, a, n, List.replicate n (if zero then some (List.replicate sz 0) else none)⟩))
    else none
  | .ctorVal i sz a n x =>
    if y i = none ∧ x.length = sz then some (.done, y.put i (some ⟨sz, a, n, List.replicate n (some x)⟩)) else none
  | .ctorRange i sz a ys =>
    if y i = none ∧ ∀ x ∈ ys, x.length = sz then some (.done, y.put i (some ⟨sz, a, ys.length, ys.map some⟩)) else none
  | .copyCtor i j => do
    let w ← y j
    if y i = none then some (.done, y.put i (some { w with cap := w.xs.length })) else none
  | .moveCtor i j => do
    let w ← y j
    if y i = none then some (.done, (y.put i (some w)).put j (some { w with cap := 0, xs := [] })) else none
  | .copyAssign i j => do
    let v ← y i
    let w ← y j
    if v.sz = w.sz ∧ v.al = w.al then
      some (.done, if i = j then y else y.put i (some { w with cap := newCap v.cap w.xs.length }))
    else none
  | .moveAssign i j => do
    let v ← y i
    let w ← y j
    if v.sz = w.sz ∧ v.al = w.al then
      some (.done, if i = j then y else (y.put i (some w)).put j (some { w with cap := 0, xs := [] }))
    else none
  | .swap t i j => do
    let v ← y i
    let w ← y j
    if y t = none ∧ v.sz = w.sz ∧ v.al = w.al then some (.done, (y.put i (some w)).put j (some v)) else none
  | .recastCopy i j => do
    let v ← y i
    let w ← y j
    if i = j then none
    else some (.done, y.put i (some { v with cap := newCap v.cap (recast w v.sz).length, xs := recast w v.sz }))
  | .recastTake i j => do
    let v ← y i
    let w ← y j
    -- the static assertion, and the other object is not the same
    if i = j ∨ (decide (v.al ≤ al) ≠ decide (w.al ≤ al)) then none
    else
      some (.done, (y.put i (some { v with cap := w.sz * w.cap / v.sz, xs := recast w v.sz })).put j
        (some { w with cap := 0, xs := [] }))
  | .dtor i => do
    let _ ← y i
    some (.done, y.put i none)
  | .call i op => do
    let v ← y i
    let (r, c, xs) ← step v.sz zero op v.cap v.xs
    some (r, y.put i (some { v with cap := c, xs := xs }))

/-- Calls on which the code does what the specification says; types are such as the class supports. `al` is the alignment
the allocator guarantees, `expand` says that it has the `expand` interface. `recast_take_from` between over-aligned types
needs that the old buffer is aligned for the new type, and with `expand` also that the alignments are the same. -/
def MSafe (al : Nat) (expand : Bool) (op : MOp) (y : Sys) : Prop :=
  match op with
  | .ctor _ sz a | .ctorCount _ sz a _ | .ctorVal _ sz a _ _ | .ctorRange _ sz a _ => 0 < sz ∧ a ≤ 128 ∧ ∃ k, a = 2 ^ k
  | .call i op => ∀ v, y i = some v → Safe op v.cap v.xs
  | .recastTake i j => ∀ v w, y i = some v → y j = some w →
    v.al ≤ al ∨ v.al = w.al ∨ (expand = false ∧ v.al ≤ w.al)
  | _ => True

def mrun (al : Nat) (zero : Bool) : List MOp → Sys → Option (List Reply × Sys)
  | [], y => some ([], y)
  | op :: ops, y => do
    let (r, y) ← mstep al zero op y
    let (rs, y) ← mrun al zero ops y
    some (r :: rs, y)

def MSafeRun (al : Nat) (expand zero : Bool) : List MOp → Sys → Prop
  | [], _ => True
  | op :: ops, y => MSafe al expand op y ∧ ∀ r y', mstep al zero op y = some (r, y') → MSafeRun al expand zero ops y'

end Itlib.PodVector.Spec
