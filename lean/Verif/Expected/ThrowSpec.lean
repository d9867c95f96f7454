import Verif.Expected.Spec

/-!
# Specification of `expected` with values and errors whose operations throw

What a program may expect of a call in which an operation of a value or an error throws: a constructor makes no object, an
exception on the way to a value or an error that is in an object leaves the object with the alternative that it has, and
moving an `expected` ends the program, because the move operations are `noexcept`.
-/
namespace Itlib.Expected

/-- Calls. In those other than `quiet`, constructions and assignments of values and errors throw, if there are any. -/
inductive TOp (V E : Type) where
  | quiet (op : Op V E)
  | ctorVal (i : Nat)
  | ctorErr (i : Nat)
  | moveCtor (i j : Nat)
  | moveAssign (i j : Nat)
  | setValue (i : Nat)
  | takeValue (i : Nat)
  | valueOr (i : Nat)
  | takeValueOr (i : Nat)
  | setError (i : Nat)
  | takeError (i : Nat)

/-- What throwing operations leave behind: arbitrary functions. -/
structure Torn (α : Type) where
  /-- value of an object that could not be moved from -/
  source : α → α
  /-- value of an object that could not be assigned to -/
  target : α → α

namespace Spec
variable {V E : Type}

/-- Calls that can throw in a class. -/
def offersT : Kind → TOp V E → Bool
  | k, .quiet op => offers k op
  | k, .ctorVal _ => k ∈ [.te, .tv]
  | k, .ctorErr _ => k ∈ [.te, .re, .ve]
  | k, .moveCtor _ _ => k ∈ [.te, .re, .ve, .tv]
  | k, .moveAssign _ _ => k ∈ [.te, .re, .ve, .tv]
  | k, .setValue _ => k ∈ [.te, .tv]
  | k, .takeValue _ => k ∈ [.te, .tv]
  | k, .valueOr _ => k ∈ [.te, .tv]
  | k, .takeValueOr _ => k ∈ [.te, .tv]
  | k, .setError _ => k ∈ [.te, .re, .ve]
  | k, .takeError _ => k ∈ [.te, .re, .ve]

/-- Does an `expected` with this content have an object of the value's or the error's type inside? -/
def inside : Kind → V ⊕ E → Bool
  | k, .inl _ => k ∈ [.te, .tv]
  | k, .inr _ => k ∈ [.te, .re, .ve]

/-- What is left of a program after a call: its objects, or nothing, if it was ended. -/
abbrev After (V E : Type) := Option (Sys V E)

variable (tv : Ty V) (te : Ty E) (nv : Torn V) (ne : Torn E)

/-- the effect of one call; `none`: the precondition is violated -/
def effectT (k : Kind) (op : TOp V E) (y : Sys V E) : Option (Reply V E × After V E) :=
  match op with
  | .quiet op => (effect tv te op y).map fun p => (p.1, some p.2)
  | .ctorVal i | .ctorErr i => match y i with
    | none => some (.exc, some y)
    | some _ => none
  | .moveCtor i j => match y i, y j with
    | none, some s =>
      if inside k s then some (.exc, none)
      else (effect tv te (.moveCtor i j) y).map fun p => (p.1, some p.2)
    | _, _ => none
  | .moveAssign i j => match y i, y j with
    | some _, some s =>
      if inside k s then some (.exc, none)
      else (effect tv te (.moveAssign i j) y).map fun p => (p.1, some p.2)
    | _, _ => none
  | .setValue i => match y i with
    | some (.inl v) => some (.exc, some (Function.update y i (some (.inl (nv.target v)))))
    | _ => none
  | .takeValue i => match y i with
    | some (.inl v) => some (.exc, some (Function.update y i (some (.inl (nv.source v)))))
    | _ => none
  | .valueOr i => match y i with
    | some _ => some (.exc, some y)
    | none => none
  | .takeValueOr i => match y i with
    | some (.inl v) => some (.exc, some (Function.update y i (some (.inl (nv.source v)))))
    | some (.inr _) => some (.exc, some y)
    | none => none
  | .setError i => match y i with
    | some (.inr e) => some (.exc, some (Function.update y i (some (.inr (ne.target e)))))
    | _ => none
  | .takeError i => match y i with
    | some (.inr e) => some (.exc, some (Function.update y i (some (.inr (ne.source e)))))
    | _ => none

/-- one call on objects of class `k` -/
def stepT (k : Kind) (op : TOp V E) (y : Sys V E) : Option (Reply V E × After V E) :=
  if offersT k op then effectT tv te nv ne k op y else none

/-- Replies and what is left after a history; no calls follow the end of the program. -/
def runT (k : Kind) : List (TOp V E) → Sys V E → Option (List (Reply V E) × After V E)
  | [], y => some ([], some y)
  | op :: ops, y => do
    let (r, a) ← stepT tv te nv ne k op y
    match a with
    | none => some ([r], none)
    | some y => do
      let (rs, a) ← runT k ops y
      some (r :: rs, a)

/-- The calls for which the code does what it should: those of `Safe`. -/
def SafeT (k : Kind) (op : TOp V E) (y : Sys V E) : Prop :=
  match op with
  | .quiet op => Safe k op y
  | .moveAssign i j => Safe k (.moveAssign i j) y
  | _ => True

/-- The history is safe throughout. -/
def SafeRunT (k : Kind) : List (TOp V E) → Sys V E → Prop
  | [], _ => True
  | op :: ops, y => SafeT k op y ∧ ∀ r y', stepT tv te nv ne k op y = some (r, some y') → SafeRunT k ops y'

end Spec
end Itlib.Expected
