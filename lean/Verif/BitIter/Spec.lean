import Verif.BitIter.Model

/-!
# Specification: an iterator is a position in a list of booleans

It refers to its bitset by name, so it remains valid whatever happens to the bitset; reading and writing needs the position to be in the
bitset at that time.
-/
namespace Itlib.BitIter.Spec
open Itlib Bitset

variable {w : Nat}

/-- bitsets as lists, iterators as positions -/
structure Sys where
  bits : Bitset.Spec.Sys
  its : Nat → Option (Nat × Nat)

def Sys.def_ (s : Sys) (z : Nat) (a : Nat × Nat) : Sys := { s with its := Function.update s.its z (some a) }

/-- the largest position -/
def maxPos : Nat := 2 ^ 63 - 1

/-- position `p` moved by `n` -/
def move (a : Nat × Nat) (n : Int) : Option (Nat × Nat) :=
  if 0 ≤ (a.2 : Int) + n ∧ ¬ (maxPos : Int) < (a.2 : Int) + n then some (a.1, ((a.2 : Int) + n).toNat) else none

/-- replace the bit at an iterator -/
def put (s : Sys) (a : Nat × Nat) (f : Bool → Bool) : Option (Reply × Sys) := do
  let xs ← s.bits a.1
  let v ← xs[a.2]?
  some (.unit, { s with bits := Function.update s.bits a.1 (some (xs.set a.2 (f v))) })

/-- `none`: a precondition is violated -/
def step (op : Op w) (s : Sys) : Option (Reply × Sys) :=
  match op with
  | .bits o => do
    let (r, y) ← Bitset.Spec.step o s.bits
    some (.bits r, { s with bits := y })
  | .begin x i => do
    let _ ← s.bits i
    some (.unit, s.def_ x (i, 0))
  | .end x i => do
    let xs ← s.bits i
    if xs.length ≤ maxPos then some (.unit, s.def_ x (i, xs.length)) else none
  | .copy z x => do
    let a ← s.its x
    some (.unit, s.def_ z a)
  | .inc x => do
    let a ← s.its x
    let a' ← move a 1
    some (.unit, s.def_ x a')
  | .dec x => do
    let a ← s.its x
    let a' ← move a (-1)
    some (.unit, s.def_ x a')
  | .postInc z x => do
    let a ← s.its x
    let a' ← move a 1
    some (.unit, (s.def_ x a').def_ z a)
  | .postDec z x => do
    let a ← s.its x
    let a' ← move a (-1)
    some (.unit, (s.def_ x a').def_ z a)
  | .plus z x n => do
    let a ← s.its x
    let a' ← move a n
    some (.unit, s.def_ z a')
  | .minus z x n => do
    let a ← s.its x
    let a' ← move a (-n)
    some (.unit, s.def_ z a')
  | .eq x z => do
    let a ← s.its x
    let b ← s.its z
    if a.1 = b.1 then some (.bool (decide (a.2 = b.2)), s) else none
  | .ne x z => do
    let a ← s.its x
    let b ← s.its z
    if a.1 = b.1 then some (.bool (decide (a.2 ≠ b.2)), s) else none
  | .diff x z => do
    let a ← s.its x
    let b ← s.its z
    if a.1 = b.1 then some (.int ((a.2 : Int) - b.2), s) else none
  | .read x => do
    let a ← s.its x
    let xs ← s.bits a.1
    let v ← xs[a.2]?
    some (.bool v, s)
  | .write x v => do
    let a ← s.its x
    put s a fun _ => v
  | .set x => do
    let a ← s.its x
    put s a fun _ => true
  | .reset x => do
    let a ← s.its x
    put s a fun _ => false
  | .flip x => do
    let a ← s.its x
    put s a not

/-- a history -/
def run : List (Op w) → Sys → Option (List Reply × Sys)
  | [], s => some ([], s)
  | op :: ops, s => do
    let (r, s) ← step op s
    let (rs, s) ← run ops s
    some (r :: rs, s)

/-- the calls of the bitsets are safe throughout (see `Bitset.Spec.Safe`) -/
def SafeRun : List (Op w) → Sys → Prop
  | [], _ => True
  | op :: ops, s => (∀ o, op = .bits o → Bitset.Spec.Safe o s.bits) ∧ ∀ r s', step op s = some (r, s') → SafeRun ops s'

end Itlib.BitIter.Spec
