import Verif.Pmr.Model

/-! # Specification of `pmr_allocator`: which objects and which raw arrays exist -/
namespace Itlib.Pmr

inductive Op (V : Type) where
  /-- `new_object<ty>`, the resource will choose address `p` -/
  | newObject (p ty : Nat) (v : V) (f : Fate)
  | deleteObject (p ty : Nat)
  | allocateObject (p ty n : Nat) (fail : Bool)
  | deallocateObject (p ty n : Nat)

inductive Reply where
  | done
  | ptr (p : Nat)
  | exc (e : Exc)
  deriving DecidableEq

/-- What was handed out at an address: an object, or room for `n` objects. -/
inductive Entry (V : Type) where
  | obj (ty : Nat) (v : V)
  | room (ty n : Nat)

namespace Spec
variable {V : Type}

abbrev Sys (V : Type) := Nat → Option (Entry V)

/-- one call; `none`: precondition violated, or the resource hands out an address that is in use -/
def step (op : Op V) (y : Sys V) : Option (Reply × Sys V) :=
  match op with
  | .newObject p ty v f => match y p, f with
    | none, .fine => some (.ptr p, Function.update y p (some (.obj ty v)))
    | none, .badAlloc => some (.exc .badAlloc, y)
    | none, .throws => some (.exc .element, y)
    | some _, _ => none
  | .deleteObject p ty => match y p with
    | some (.obj t _) => if t = ty then some (.done, Function.update y p none) else none
    | _ => none
  | .allocateObject p ty n fail => match y p with
    | none => if fail then some (.exc .badAlloc, y) else some (.ptr p, Function.update y p (some (.room ty n)))
    | some _ => none
  | .deallocateObject p ty n => match y p with
    | some (.room t m) => if t = ty ∧ m = n then some (.done, Function.update y p none) else none
    | _ => none

def run : List (Op V) → Sys V → Option (List Reply × Sys V)
  | [], y => some ([], y)
  | op :: ops, y => do
    let (r, y) ← step op y
    let (rs, y) ← run ops y
    some (r :: rs, y)

/-- every array asked for has fewer than `2^64` bytes; see the defect theorem for the others -/
def Safe (T : Types) : Op V → Prop
  | .allocateObject _ ty n _ => n * T.size ty < 2 ^ 64
  | _ => True

/-- the block that must be in the resource -/
def block (T : Types) : Entry V → Block V
  | .obj ty v => ⟨T.size ty, T.align ty, some (ty, v)⟩
  | .room ty n => ⟨n * T.size ty, T.align ty, none⟩

end Spec
end Itlib.Pmr
