import Verif.View.Spec

/-!
# Running calls on a view class

Memory holds objects at addresses; using an address without an object is undefined behaviour. `Impl` collects the member
functions of a view class (modelled in `Span`, `StrideSpan`, `MemView`).
-/
namespace Itlib.View
open Itlib

/-- The member functions of a view class with representation `S`. -/
structure Impl (S Mk : Type) where
  /-- default constructor -/
  null : S
  /-- the constructors and make functions, over the array at hand -/
  ctor : Mk → S
  /-- `subspan`/`slice`, with or without count -/
  sub : S → Nat → Option Nat → S
  /-- `first`, if there is such a function -/
  first : Option (S → Nat → S)
  last : Option (S → Nat → S)
  removePrefix : S → Nat → S
  removeSuffix : S → Nat → S
  /-- address of the object `at(i)` refers to -/
  elem : S → Nat → Nat
  front : S → Nat
  back : S → Nat
  size : S → Nat
  empty : S → Bool
  bool : S → Bool
  /-- `begin()`, `end()` as addresses, and the bytes an iterator moves by -/
  begin : S → Nat
  fin : S → Nat
  step : S → Nat
  /-- the access function -/
  fn : S → Nat

structure World (T S : Type) where
  mem : Nat → Option T
  views : Nat → S

abbrev Mem (T S : Type) := M (World T S)

variable {T R S Mk : Type}

/-- use of the object at an address -/
def deref (a : Nat) : Mem T S T := do
  let w ← M.get
  match w.mem a with
  | some x => pure x
  | none => .undef

/-- assignment to the object at an address -/
def store (a : Nat) (x : T) : Mem T S Unit := do
  let w ← M.get
  match w.mem a with
  | some _ => M.set { w with mem := Function.update w.mem a (some x) }
  | none => .undef

/-- `for (p = begin(); p != end(); ++p)`: at most `fuel` rounds; a loop that does not end counts as undefined behaviour -/
def loop (step : Nat) : Nat → Nat → Nat → Mem T S (List T)
  | fuel, p, e =>
    if p = e then pure []
    else match fuel with
    | 0 => .undef
    | fuel + 1 => do
      let x ← deref p
      let l ← loop step fuel (wadd p step) e
      pure (x :: l)

/-- `std::reverse_iterator`: the loop from `rbegin()` to `rend()` -/
def loopRev (step : Nat) : Nat → Nat → Nat → Mem T S (List T)
  | fuel, p, b =>
    if p = b then pure []
    else match fuel with
    | 0 => .undef
    | fuel + 1 => do
      let x ← deref (wsub p step)
      let l ← loopRev step fuel (wsub p step) b
      pure (x :: l)

def setView (k : Nat) (s : S) : Mem T S Unit := M.modify fun w => { w with views := Function.update w.views k s }

/-- one call -/
def exec (I : Impl S Mk) (f : Nat → T → R) (put : Nat → T → R → T) : Op R Mk → Mem T S (Reply R)
  | .null k => do setView k I.null; pure .unit
  | .make k c => do setView k (I.ctor c); pure .unit
  | .copy k j => do let w ← M.get; setView k (w.views j); pure .unit
  | .sub k j off cnt => do let w ← M.get; setView k (I.sub (w.views j) off cnt); pure .unit
  | .first k j n => do
    let w ← M.get
    match I.first with
    | some g => setView k (g (w.views j) n)
    | none => .undef
    pure .unit
  | .last k j n => do
    let w ← M.get
    match I.last with
    | some g => setView k (g (w.views j) n)
    | none => .undef
    pure .unit
  | .removePrefix k n => do let w ← M.get; setView k (I.removePrefix (w.views k) n); pure .unit
  | .removeSuffix k n => do let w ← M.get; setView k (I.removeSuffix (w.views k) n); pure .unit
  | .get k i => do let w ← M.get; let x ← deref (I.elem (w.views k) i); pure (.val (f (I.fn (w.views k)) x))
  | .set k i r => do
    let w ← M.get
    let x ← deref (I.elem (w.views k) i)
    store (I.elem (w.views k) i) (put (I.fn (w.views k)) x r)
    pure .unit
  | .front k => do let w ← M.get; let x ← deref (I.front (w.views k)); pure (.val (f (I.fn (w.views k)) x))
  | .back k => do let w ← M.get; let x ← deref (I.back (w.views k)); pure (.val (f (I.fn (w.views k)) x))
  | .size k => do let w ← M.get; pure (.num (I.size (w.views k)))
  | .empty k => do let w ← M.get; pure (.bool (I.empty (w.views k)))
  | .bool k => do let w ← M.get; pure (.bool (I.bool (w.views k)))
  | .toList k => do
    let w ← M.get
    let s := w.views k
    let l ← loop (I.step s) 18446744073709551616 (I.begin s) (I.fin s)
    pure (.list (l.map (f (I.fn s))))
  | .toListRev k => do
    let w ← M.get
    let s := w.views k
    let l ← loopRev (I.step s) 18446744073709551616 (I.fin s) (I.begin s)
    pure (.list (l.map (f (I.fn s))))

/-- A call; `none` is undefined behaviour. -/
def call (I : Impl S Mk) (f : Nat → T → R) (put : Nat → T → R → T) (op : Op R Mk) (w : World T S) : Option (Reply R × World T S) :=
  match exec I f put op w with
  | .ok r w => some (r, w)
  | _ => none

def run (I : Impl S Mk) (f : Nat → T → R) (put : Nat → T → R → T) : List (Op R Mk) → World T S → Option (List (Reply R) × World T S)
  | [], w => some ([], w)
  | op :: ops, w => do
    let (r, w) ← call I f put op w
    let (rs, w) ← run I f put ops w
    some (r :: rs, w)

/-- Memory with an array at address `a`: element `i` is the object at `a + i * pitch`. -/
def Holds (mem : Nat → Option T) (a pitch : Nat) (arr : List T) : Prop := ∀ i (_ : i < arr.length), mem (a + i * pitch) = some arr[i]

/-- nothing constructed -/
def start (I : Impl S Mk) (mem : Nat → Option T) : World T S := ⟨mem, fun _ => I.null⟩

end Itlib.View
