import Mathlib.Logic.Function.Basic

/-!
# Pointers that own values, without memory

Variables with values, with unique pointers and with shared pointers. A unique pointer is its value, if it has one. Of shared
pointers it is known what values they have, and which of them share one.

Written without reference to the model.
-/
namespace Itlib.MakePtr

/-- What moves do to the object they move from: `moved`, and `broken` if the move constructor throws. -/
structure Lang (V : Type) where
  moved : V → V
  broken : V → V

/-- How the argument is passed: an lvalue (constant or not), an rvalue, a constant rvalue. -/
inductive Cat where
  | lvalue
  | rvalue
  | constRvalue
deriving DecidableEq

/-- What goes wrong in a call. -/
inductive Fault where
  | none
  /-- there is no memory -/
  | alloc
  /-- the constructor of the new object throws -/
  | ctor
deriving DecidableEq

/-- Calls; `a` are variables with values, `d`, `x` are variables with unique or shared pointers. -/
inductive Op (V : Type) where
  /-- `a = v` -/
  | set (a : Nat) (v : V)
  /-- the value of `a` -/
  | get (a : Nat)
  /-- `d = make_unique(a)`, `d = make_unique(std::move(a))` -/
  | makeU (d a : Nat) (c : Cat) (f : Fault)
  /-- `d = make_shared(a)`, `d = make_shared(std::move(a))` -/
  | makeS (d a : Nat) (c : Cat) (f : Fault)
  /-- `d = std::move(x)` -/
  | moveU (d x : Nat)
  | resetU (x : Nat)
  /-- `x ? *x : nothing` -/
  | readU (x : Nat)
  /-- `if (x) *x = v` -/
  | writeU (x : Nat) (v : V)
  /-- `d = x` -/
  | copyS (d x : Nat)
  | moveS (d x : Nat)
  | resetS (x : Nat)
  | readS (x : Nat)
  | writeS (x : Nat) (v : V)

/-- Results of calls. -/
inductive Reply (V : Type) where
  | done
  | value (v : Option V)
  /-- `std::bad_alloc` -/
  | noMemory
  /-- the exception of the constructor -/
  | thrown

namespace Spec
variable {V : Type}

/-- The variables. -/
structure Sys (V : Type) where
  arg : Nat → V
  up : Nat → Option V
  sp : Nat → Option V
  same : Nat → Nat → Prop

/-- the shared variables get what others had before: `src d` says which -/
def Sys.rebind (y : Sys V) (src : Nat → Option Nat) : Sys V :=
  { y with
    sp := fun d => (src d).bind y.sp
    same := fun d e => ∃ a b, src d = some a ∧ src e = some b ∧ y.same a b }

/-- a shared variable gets a new value of its own -/
def Sys.fresh (y : Sys V) (d : Nat) (v : V) : Sys V :=
  { y with
    sp := Function.update y.sp d (some v)
    same := fun a b => (a = d ∧ b = d) ∨ (a ≠ d ∧ b ≠ d ∧ y.same a b) }

/-- what is left of the argument -/
def rest (L : Lang V) (c : Cat) (v : V) : V := if c = .rvalue then L.moved v else v

/-- what is left of the argument when the constructor throws -/
def wreck (L : Lang V) (c : Cat) (v : V) : V := if c = .rvalue then L.broken v else v

/-- a call that makes an object; `k` is what is done with it -/
def make (L : Lang V) (y : Sys V) (a : Nat) (c : Cat) (f : Fault) (k : Sys V → V → Sys V) : Reply V × Sys V :=
  match f with
  | .none => (.done, k { y with arg := Function.update y.arg a (rest L c (y.arg a)) } (y.arg a))
  | .alloc => (.noMemory, y)
  | .ctor => (.thrown, { y with arg := Function.update y.arg a (wreck L c (y.arg a)) })

open Classical in
/-- the effects of calls -/
noncomputable def step (L : Lang V) (y : Sys V) : Op V → Reply V × Sys V
  | .set a v => (.done, { y with arg := Function.update y.arg a v })
  | .get a => (.value (some (y.arg a)), y)
  | .makeU d a c f => make L y a c f fun y v => { y with up := Function.update y.up d (some v) }
  | .makeS d a c f => make L y a c f fun y v => y.fresh d v
  | .moveU d x => (.done, { y with up := fun z => if z = d then y.up x else if z = x then none else y.up z })
  | .resetU x => (.done, { y with up := Function.update y.up x none })
  | .readU x => (.value (y.up x), y)
  | .writeU x v => (.done, { y with up := Function.update y.up x ((y.up x).map fun _ => v) })
  | .copyS d x => (.done, y.rebind fun z => if z = d then some x else some z)
  | .moveS d x => (.done, y.rebind fun z => if z = d then some x else if z = x then none else some z)
  | .resetS x => (.done, y.rebind fun z => if z = x then none else some z)
  | .readS x => (.value (y.sp x), y)
  | .writeS x v => (.done, { y with sp := fun z => if y.same x z then some v else y.sp z })

/-- the results of a history -/
noncomputable def run (L : Lang V) : List (Op V) → Sys V → List (Reply V) × Sys V
  | [], y => ([], y)
  | op :: ops, y => ((step L y op).1 :: (run L ops (step L y op).2).1, (run L ops (step L y op).2).2)

/-- all pointers are empty -/
def start (arg : Nat → V) : Sys V := ⟨arg, fun _ => none, fun _ => none, fun _ _ => False⟩

end Spec
end Itlib.MakePtr
