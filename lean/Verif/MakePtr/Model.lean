import Verif.Core.Outcome
import Verif.MakePtr.Spec

/-!
# Model of `make_shared` and `make_unique` (include/itlib/make_ptr.hpp)

Memory is blocks: those of `new` (`heap`), and those of `std::make_shared` (`ctls`), with a count and room for an object. A block is
allocated, an object is constructed in it, destroyed, and the block is freed; each of these twice, or in another order, is undefined
behaviour. `std::unique_ptr` and `std::shared_ptr` are modelled after the standard.

Simplified: whether an object is constant (`make_shared` of a constant lvalue or rvalue makes a `std::shared_ptr` to a constant) is a
matter of types, here it only says that it is copied and not moved. No weak pointers (they are in SharedFrom/Model.lean).
-/
namespace Itlib.MakePtr
open Itlib
variable {V : Type}

/-- where pointers live: variables, and the temporary that a function returns -/
inductive Loc where
  | var (x : Nat)
  | res
deriving DecidableEq

/-- A block of `std::make_shared`. -/
structure Ctl (V : Type) where
  obj : Option V
  use : Nat

/-- The memory. Pointers are numbers of blocks, `0` is the null pointer. -/
structure St (V : Type) where
  arg : Nat → V
  u : Loc → Nat
  s : Loc → Nat
  heap : Nat → Option (Option V)
  ctls : Nat → Option (Ctl V)
  nextU : Nat
  nextS : Nat

variable (L : Lang V)

/-- the constructor of an object, called with `std::forward<T>(t)`: the move constructor for rvalues, the copy constructor for all others;
`put` places the object -/
def construct (a : Nat) (c : Cat) (f : Fault) (put : V → M (St V) Unit) : M (St V) Unit := do
  let s ← M.get
  if f = .ctor then do
    M.set (if c = .rvalue then { s with arg := Function.update s.arg a (L.broken (s.arg a)) } else s)
    .raise .element
  else do
    M.set (if c = .rvalue then { s with arg := Function.update s.arg a (L.moved (s.arg a)) } else s)
    put (s.arg a)

/-- `try { m } catch (...) { h; throw; }` -/
def onThrow {α : Type} (m : M (St V) α) (h : M (St V) Unit) : M (St V) α := fun s =>
  match m s with
  | .throw e s' => (match h s' with
    | .ok _ s'' => .throw e s''
    | .throw e' s'' => .throw e' s''
    | .ub => .ub)
  | r => r

/-- `operator new` -/
def allocU (f : Fault) : M (St V) Nat := fun s =>
  if f = .alloc then .throw .badAlloc s
  else .ok s.nextU { s with heap := Function.update s.heap s.nextU (some none), nextU := s.nextU + 1 }

/-- `operator delete` -/
def freeU (q : Nat) : M (St V) Unit := fun s =>
  match s.heap q with
  | some none => .ok () { s with heap := Function.update s.heap q none }
  | _ => .ub

/-- an object begins in a block -/
def putU (q : Nat) (v : V) : M (St V) Unit := fun s =>
  match s.heap q with
  | some none => .ok () { s with heap := Function.update s.heap q (some (some v)) }
  | _ => .ub

/-- an object ends -/
def endU (q : Nat) : M (St V) Unit := fun s =>
  match s.heap q with
  | some (some _) => .ok () { s with heap := Function.update s.heap q (some none) }
  | _ => .ub

/-- `std::unique_ptr`'s deleter -/
def deleteU (q : Nat) : M (St V) Unit :=
  if q = 0 then pure () else do endU q; freeU q

/-- make_ptr.hpp:89-94, `make_unique`: a new-expression frees the block if the constructor throws -/
def makeUnique (a : Nat) (c : Cat) (f : Fault) : M (St V) Unit := do
  let q ← allocU f
  onThrow (construct L a c f (putU q)) (freeU q)
  M.modify fun s => { s with u := Function.update s.u .res q }

/-- `std::unique_ptr::operator=(unique_ptr&&)`: `reset(x.release())` -/
def moveU (d x : Loc) : M (St V) Unit := do
  let s ← M.get
  let q := s.u x
  M.set { s with u := Function.update s.u x 0 }
  let s ← M.get
  let old := s.u d
  M.set { s with u := Function.update s.u d q }
  deleteU old

/-- `std::unique_ptr::reset()` -/
def resetU (x : Loc) : M (St V) Unit := do
  let s ← M.get
  M.set { s with u := Function.update s.u x 0 }
  deleteU (s.u x)

/-- `*x`, of the block -/
def loadU (q : Nat) : M (St V) V := M.load fun s => (s.heap q).bind id

/-- `*x = v` -/
def storeU (q : Nat) (v : V) : M (St V) Unit := fun s =>
  match s.heap q with
  | some (some _) => .ok () { s with heap := Function.update s.heap q (some (some v)) }
  | _ => .ub

/-- `std::make_shared` gets a block with room for the object and the count -/
def allocS (f : Fault) : M (St V) Nat := fun s =>
  if f = .alloc then .throw .badAlloc s
  else .ok s.nextS { s with ctls := Function.update s.ctls s.nextS (some ⟨none, 1⟩), nextS := s.nextS + 1 }

/-- it frees the block -/
def freeS (q : Nat) : M (St V) Unit := fun s =>
  match s.ctls q with
  | some ⟨none, _⟩ => .ok () { s with ctls := Function.update s.ctls q none }
  | _ => .ub

/-- an object begins in a block -/
def putS (q : Nat) (v : V) : M (St V) Unit := fun s =>
  match s.ctls q with
  | some ⟨none, n⟩ => .ok () { s with ctls := Function.update s.ctls q (some ⟨some v, n⟩) }
  | _ => .ub

/-- an object ends -/
def endS (q : Nat) : M (St V) Unit := fun s =>
  match s.ctls q with
  | some ⟨some _, n⟩ => .ok () { s with ctls := Function.update s.ctls q (some ⟨none, n⟩) }
  | _ => .ub

/-- make_ptr.hpp:83-87, `make_shared` -/
def makeShared (a : Nat) (c : Cat) (f : Fault) : M (St V) Unit := do
  let q ← allocS f
  onThrow (construct L a c f (putS q)) (freeS q)
  M.modify fun s => { s with s := Function.update s.s .res q }

/-- a count is raised -/
def incS (q : Nat) : M (St V) Unit := fun s =>
  if q = 0 then .ok () s
  else match s.ctls q with
    | some ⟨some v, n⟩ => .ok () { s with ctls := Function.update s.ctls q (some ⟨some v, n + 1⟩) }
    | _ => .ub

/-- a count is lowered; the last one destroys the object and frees the block -/
def decS (q : Nat) : M (St V) Unit := fun s =>
  if q = 0 then .ok () s
  else match s.ctls q with
    | some ⟨some v, n + 1⟩ =>
      if n = 0 then (do endS q; freeS q : M (St V) Unit) { s with ctls := Function.update s.ctls q (some ⟨some v, 0⟩) }
      else .ok () { s with ctls := Function.update s.ctls q (some ⟨some v, n⟩) }
    | _ => .ub

/-- `std::shared_ptr::operator=(const shared_ptr&)`: a copy, in `res`, is swapped -/
def copyS (d x : Loc) : M (St V) Unit := do
  let s ← M.get
  incS (s.s x)
  M.modify fun s => { s with s := Function.update s.s .res (s.s x) }
  M.modify fun s => { s with s := Function.update (Function.update s.s .res (s.s d)) d (s.s .res) }
  let s ← M.get
  M.set { s with s := Function.update s.s .res 0 }
  decS (s.s .res)

/-- `std::shared_ptr::operator=(shared_ptr&&)` from the temporary in `res`, which is swapped -/
def takeS (d : Loc) : M (St V) Unit := do
  M.modify fun s => { s with s := Function.update (Function.update s.s .res (s.s d)) d (s.s .res) }
  let s ← M.get
  M.set { s with s := Function.update s.s .res 0 }
  decS (s.s .res)

/-- `std::shared_ptr::operator=(shared_ptr&&)`: `shared_ptr(std::move(x)).swap(*this)` -/
def moveS (d x : Loc) : M (St V) Unit := do
  M.modify fun s => { s with s := Function.update (Function.update s.s .res (s.s x)) x 0 }
  takeS d

/-- `std::shared_ptr::reset()` -/
def resetS (x : Loc) : M (St V) Unit := do
  let s ← M.get
  M.set { s with s := Function.update s.s x 0 }
  decS (s.s x)

/-- `*x`, of the block -/
def loadS (q : Nat) : M (St V) V := M.load fun s => (s.ctls q).bind Ctl.obj

/-- `*x = v` -/
def storeS (q : Nat) (v : V) : M (St V) Unit := fun s =>
  match s.ctls q with
  | some ⟨some _, n⟩ => .ok () { s with ctls := Function.update s.ctls q (some ⟨some v, n⟩) }
  | _ => .ub

/-- one call -/
def exec : Op V → M (St V) (Reply V)
  | .set a v => do M.modify fun s => { s with arg := Function.update s.arg a v }; pure .done
  | .get a => do let s ← M.get; pure (.value (some (s.arg a)))
  | .makeU d a c f => do makeUnique L a c f; moveU (.var d) .res; pure .done
  | .makeS d a c f => do makeShared L a c f; takeS (.var d); pure .done
  | .moveU d x => do moveU (.var d) (.var x); pure .done
  | .resetU x => do resetU (.var x); pure .done
  | .readU x => do
    let s ← M.get
    if s.u (.var x) = 0 then pure (.value none) else do return .value (some (← loadU (s.u (.var x))))
  | .writeU x v => do
    let s ← M.get
    if s.u (.var x) = 0 then pure .done else do storeU (s.u (.var x)) v; pure .done
  | .copyS d x => do copyS (.var d) (.var x); pure .done
  | .moveS d x => do moveS (.var d) (.var x); pure .done
  | .resetS x => do resetS (.var x); pure .done
  | .readS x => do
    let s ← M.get
    if s.s (.var x) = 0 then pure (.value none) else do return .value (some (← loadS (s.s (.var x))))
  | .writeS x v => do
    let s ← M.get
    if s.s (.var x) = 0 then pure .done else do storeS (s.s (.var x)) v; pure .done

/-- one call whose exceptions are caught by the user -/
def call (op : Op V) : M (St V) (Reply V) := fun s =>
  match exec L op s with
  | .throw .badAlloc s' => .ok .noMemory s'
  | .throw .element s' => .ok .thrown s'
  | r => r

/-- a history -/
def run : List (Op V) → M (St V) (List (Reply V))
  | [] => pure []
  | op :: ops => do
    let r ← call L op
    let rs ← run ops
    pure (r :: rs)

/-- the beginning -/
def start (arg : Nat → V) : St V := ⟨arg, fun _ => 0, fun _ => 0, fun _ => none, fun _ => none, 1, 1⟩

end Itlib.MakePtr
