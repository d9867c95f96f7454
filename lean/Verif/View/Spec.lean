import Verif.View.Addr
import Mathlib.Logic.Function.Basic

/-!
# Specification of views: windows on one array, shared memory

The array is a list. A view is a position in it, a step and a length: element `i` of the view is element `off + i * step` of
the array. `look` and `put` say what is seen of an element and what writing means (the identity for span, stride_span and
memory_view; the view's access function for poly_span).
-/
namespace Itlib.View

structure View where
  off : Nat
  step : Nat
  len : Nat
  /-- number of the access function (poly_span); 0 for the other classes -/
  fn : Nat := 0
  deriving DecidableEq

/-- Calls. View variables are numbered. `Mk` is the type of constructor calls. -/
inductive Op (R Mk : Type) where
  | null (k : Nat)
  | make (k : Nat) (c : Mk)
  | copy (k j : Nat)
  | sub (k j off : Nat) (cnt : Option Nat)
  | first (k j n : Nat)
  | last (k j n : Nat)
  | removePrefix (k n : Nat)
  | removeSuffix (k n : Nat)
  | get (k i : Nat)
  | set (k i : Nat) (v : R)
  | front (k : Nat)
  | back (k : Nat)
  | size (k : Nat)
  | empty (k : Nat)
  | bool (k : Nat)
  /-- iterate from `begin()` to `end()` -/
  | toList (k : Nat)
  /-- iterate from `rbegin()` to `rend()` -/
  | toListRev (k : Nat)

inductive Reply (R : Type) where
  | unit
  | val (v : R)
  | num (n : Nat)
  | bool (b : Bool)
  | list (l : List R)
  deriving DecidableEq

namespace Spec
variable {T R Mk : Type}

structure State (T : Type) where
  arr : List T
  /-- `none`: a null view -/
  views : Nat → Option View

/-- nothing constructed -/
def start (arr : List T) : State T := ⟨arr, fun _ => none⟩

/-- length of a view; null views are empty -/
def len : Option View → Nat
  | some v => v.len
  | none => 0

/-- The part of a view from `off` on, at most `cnt` elements, clipped to the view. -/
def slice (v : View) (off cnt : Nat) : View := ⟨v.off + min off v.len * v.step, v.step, min cnt (v.len - off), v.fn⟩

/-- what is seen of element `i` of a view -/
def look (f : Nat → T → R) (arr : List T) : Option View → Nat → Option R
  | some v, i => if i < v.len then arr[v.off + i * v.step]?.map (f v.fn) else none
  | none, _ => none

/-- all elements of a view -/
def elems (f : Nat → T → R) (arr : List T) : Option View → List R
  | some v => (List.range v.len).filterMap fun i => arr[v.off + i * v.step]?.map (f v.fn)
  | none => []

def setView (y : State T) (k : Nat) (v : Option View) : State T := { y with views := Function.update y.views k v }

/-- What a call returns and does. `none`: the call is outside its preconditions. -/
def call (f : Nat → T → R) (put : Nat → T → R → T) (mk : Mk → Nat → Option View) (op : Op R Mk) (y : State T) :
    Option (Reply R × State T) :=
  match op with
  | .null k => some (.unit, setView y k none)
  | .make k c => (mk c y.arr.length).map fun v => (.unit, setView y k (some v))
  | .copy k j => some (.unit, setView y k (y.views j))
  | .sub k j off cnt => some (.unit, setView y k ((y.views j).map fun v => slice v off (cnt.getD v.len)))
  | .first k j n => some (.unit, setView y k ((y.views j).map fun v => slice v 0 n))
  | .last k j n => some (.unit, setView y k ((y.views j).map fun v => slice v (v.len - n) v.len))
  | .removePrefix k n => if n ≤ len (y.views k) then some (.unit, setView y k ((y.views k).map fun v => slice v n v.len)) else none
  | .removeSuffix k n => if n ≤ len (y.views k) then some (.unit, setView y k ((y.views k).map fun v => slice v 0 (v.len - n))) else none
  | .get k i => (look f y.arr (y.views k) i).map fun x => (.val x, y)
  | .set k i r => match y.views k with
    | some v => if i < v.len then (y.arr[v.off + i * v.step]?).map fun x => (.unit, { y with arr := y.arr.set (v.off + i * v.step) (put v.fn x r) })
                else none
    | none => none
  | .front k => (look f y.arr (y.views k) 0).map fun x => (.val x, y)
  | .back k => (look f y.arr (y.views k) (len (y.views k) - 1)).map fun x => (.val x, y)
  | .size k => some (.num (len (y.views k)), y)
  | .empty k => some (.bool (len (y.views k) == 0), y)
  | .bool k => some (.bool (y.views k).isSome, y)
  | .toList k => some (.list (elems f y.arr (y.views k)), y)
  | .toListRev k => some (.list (elems f y.arr (y.views k)).reverse, y)

/-- Replies and final state of a history. -/
def run (f : Nat → T → R) (put : Nat → T → R → T) (mk : Mk → Nat → Option View) : List (Op R Mk) → State T → Option (List (Reply R) × State T)
  | [], y => some ([], y)
  | op :: ops, y => do
    let (r, y) ← call f put mk op y
    let (rs, y) ← run f put mk ops y
    some (r :: rs, y)

/-- What a class needs beyond the preconditions: of constructor calls, sub-views, `first`, `last`. -/
structure Cond (Mk : Type) where
  ctor : Mk → Nat → Prop
  sub : Option View → Nat → Prop
  first : Prop
  last : Option View → Nat → Prop

/-- The call meets the class's needs. -/
def Safe (c : Cond Mk) (op : Op R Mk) (y : State T) : Prop :=
  match op with
  | .make _ m => c.ctor m y.arr.length
  | .sub _ j off _ => c.sub (y.views j) off
  | .first _ _ _ => c.first
  | .last _ j n => c.last (y.views j) n
  | _ => True

/-- The history is safe throughout. -/
def SafeRun (c : Cond Mk) (f : Nat → T → R) (put : Nat → T → R → T) (mk : Mk → Nat → Option View) :
    List (Op R Mk) → State T → Prop
  | [], _ => True
  | op :: ops, y => Safe c op y ∧ ∀ r y', call f put mk op y = some (r, y') → SafeRun c f put mk ops y'

end Spec
end Itlib.View
