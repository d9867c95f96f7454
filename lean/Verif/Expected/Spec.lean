import Verif.Expected.Model

/-!
# Specification of `expected`: a sum of a value and an error

Written without reference to the model, except for the description `Ty` of the contained types.
-/
namespace Itlib.Expected

/-- The six classes: which of `T`/`T&`/`void` is the value and which of `E`/`void` the error. -/
inductive Kind where
  | te | re | ve | tv | rv | vv
  deriving DecidableEq

/-- Calls in a program with several `expected` objects, named by numbers. For the classes with a reference value, `V` is
the identity of the referenced object. -/
inductive Op (V E : Type) where
  | ctorDefault (i : Nat)
  | ctorVal (i : Nat) (v : V)
  | ctorErr (i : Nat) (e : E)
  | ctorErrDefault (i : Nat)
  | moveCtor (i j : Nat)
  | copyCtor (i j : Nat) (throws : Bool)
  | moveAssign (i j : Nat)
  | copyAssign (i j : Nat) (throws : Bool)
  | dtor (i : Nat)
  | clear (i : Nat)
  | emplace (i : Nat) (v : V) (throws : Bool)
  | emplaceSelf (i : Nat)
  | hasValue (i : Nat)
  | hasError (i : Nat)
  | value (i : Nat)
  | setValue (i : Nat) (v : V)
  | takeValue (i : Nat)
  | valueOr (i : Nat) (v : V)
  | takeValueOr (i : Nat) (v : V)
  | error (i : Nat)
  | setError (i : Nat) (e : E)
  | takeError (i : Nat)

inductive Reply (V E : Type) where
  | done
  | bool (b : Bool)
  | val (v : V)
  | err (e : E)
  | exc
  deriving DecidableEq

namespace Spec
variable {V E : Type}

/-- Which functions a class has. -/
def offers : Kind → Op V E → Bool
  | k, .ctorDefault _ => k ∈ [.te, .ve, .tv, .vv]
  | k, .ctorVal _ _ => k ∈ [.te, .re, .tv, .rv]
  | k, .ctorErr _ _ => k ∈ [.te, .re, .ve]
  | _, .ctorErrDefault _ => true
  | _, .moveCtor _ _ => true
  | k, .copyCtor _ _ throws => k = .tv ∨ k ∈ [.rv, .vv] ∧ throws = false
  | _, .moveAssign _ _ => true
  | k, .copyAssign _ _ throws => k = .tv ∨ k ∈ [.rv, .vv] ∧ throws = false
  | _, .dtor _ => true
  | k, .clear _ => k ∈ [.tv, .rv, .vv]
  | k, .emplace _ _ throws => k = .tv ∨ k ∈ [.rv, .vv] ∧ throws = false
  | k, .emplaceSelf _ => k = .tv
  | _, .hasValue _ => true
  | _, .hasError _ => true
  | k, .value _ => k ∈ [.te, .re, .tv, .rv]
  | k, .setValue _ _ => k ∈ [.te, .tv]
  | k, .takeValue _ => k ∈ [.te, .tv]
  | k, .valueOr _ _ => k ∈ [.te, .re, .tv, .rv]
  | k, .takeValueOr _ _ => k ∈ [.te, .tv]
  | k, .error _ => k ∈ [.te, .re, .ve]
  | k, .setError _ _ => k ∈ [.te, .re, .ve]
  | k, .takeError _ => k ∈ [.te, .re, .ve]

/-- All objects of a program: absent, holding a value, or holding an error. -/
abbrev Sys (V E : Type) := Nat → Option (V ⊕ E)

variable (tv : Ty V) (te : Ty E)

/-- what is left in an object that was moved from: the same alternative, its content moved from -/
def moved : V ⊕ E → V ⊕ E
  | .inl v => .inl (tv.mv v)
  | .inr e => .inr (te.mv e)

/-- what is left after `x = std::move(x)` -/
def selfMoved : V ⊕ E → V ⊕ E
  | .inl v => .inl (tv.selfMv v)
  | .inr e => .inr (te.selfMv e)

/-- the effect of one call; `none`: the precondition is violated -/
def effect (op : Op V E) (y : Sys V E) : Option (Reply V E × Sys V E) :=
  match op with
  | .ctorDefault i => match y i with
    | none => some (.done, Function.update y i (some (.inl tv.dflt)))
    | some _ => none
  | .ctorVal i v => match y i with
    | none => some (.done, Function.update y i (some (.inl v)))
    | some _ => none
  | .ctorErr i e => match y i with
    | none => some (.done, Function.update y i (some (.inr e)))
    | some _ => none
  | .ctorErrDefault i => match y i with
    | none => some (.done, Function.update y i (some (.inr te.dflt)))
    | some _ => none
  | .moveCtor i j => match y i, y j with
    | none, some s => some (.done, Function.update (Function.update y i (some s)) j (some (moved tv te s)))
    | _, _ => none
  | .copyCtor i j throws => match y i, y j with
    | none, some (.inl v) => if throws then some (.exc, y) else some (.done, Function.update y i (some (.inl v)))
    | none, some (.inr e) => some (.done, Function.update y i (some (.inr e)))
    | _, _ => none
  | .moveAssign i j => match y i, y j with
    | some _, some s =>
      if i = j then some (.done, Function.update y i (some (selfMoved tv te s)))
      else some (.done, Function.update (Function.update y i (some s)) j (some (moved tv te s)))
    | _, _ => none
  | .copyAssign i j throws => match y i, y j with
    | some (.inl v), some (.inl w) =>
      if throws then some (.exc, Function.update y i (some (.inl (tv.spoiled v))))
      else some (.done, Function.update y i (some (.inl w)))
    -- if the copy throws, the destination still holds its error
    | some (.inr _), some (.inl w) =>
      if throws then some (.exc, y) else some (.done, Function.update y i (some (.inl w)))
    | some _, some (.inr e) => some (.done, Function.update y i (some (.inr e)))
    | _, _ => none
  | .dtor i => match y i with
    | some _ => some (.done, Function.update y i none)
    | none => none
  | .clear i => match y i with
    | some _ => some (.done, Function.update y i (some (.inr te.dflt)))
    | none => none
  | .emplace i v throws => match y i with
    | some _ =>
      if throws then some (.exc, Function.update y i (some (.inr te.dflt)))
      else some (.done, Function.update y i (some (.inl v)))
    | none => none
  | .emplaceSelf i => match y i with
    | some (.inl v) => some (.done, Function.update y i (some (.inl v)))
    | _ => none
  | .hasValue i => match y i with
    | some s => some (.bool s.isLeft, y)
    | none => none
  | .hasError i => match y i with
    | some s => some (.bool s.isRight, y)
    | none => none
  | .value i => match y i with
    | some (.inl v) => some (.val v, y)
    | _ => none
  | .setValue i v => match y i with
    | some (.inl _) => some (.done, Function.update y i (some (.inl v)))
    | _ => none
  | .takeValue i => match y i with
    | some (.inl v) => some (.val v, Function.update y i (some (.inl (tv.mv v))))
    | _ => none
  | .valueOr i w => match y i with
    | some (.inl v) => some (.val v, y)
    | some (.inr _) => some (.val w, y)
    | none => none
  | .takeValueOr i w => match y i with
    | some (.inl v) => some (.val v, Function.update y i (some (.inl (tv.mv v))))
    | some (.inr _) => some (.val w, y)
    | none => none
  | .error i => match y i with
    | some (.inr e) => some (.err e, y)
    | _ => none
  | .setError i e => match y i with
    | some (.inr _) => some (.done, Function.update y i (some (.inr e)))
    | _ => none
  | .takeError i => match y i with
    | some (.inr e) => some (.err e, Function.update y i (some (.inr (te.mv e))))
    | _ => none

/-- one call on objects of class `k` -/
def step (k : Kind) (op : Op V E) (y : Sys V E) : Option (Reply V E × Sys V E) :=
  if offers k op then effect tv te op y else none

/-- Replies and final state of a history; `none`: some precondition is violated. -/
def run (k : Kind) : List (Op V E) → Sys V E → Option (List (Reply V E) × Sys V E)
  | [], y => some ([], y)
  | op :: ops, y => do
    let (r, y) ← step tv te k op y
    let (rs, y) ← run k ops y
    some (r :: rs, y)

/-- The calls for which the code does what it should; see the `defect` theorems for the others. -/
def Safe (k : Kind) (op : Op V E) (y : Sys V E) : Prop :=
  match op with
  -- `expected<void, E>`: move assignment between two values touches an error that does not exist
  | .moveAssign i j => k = .ve → ∀ v w, y i = some (.inl v) → y j ≠ some (.inl w)
  -- `expected<T, void>`: a throwing copy into an object without value
  | .copyAssign i j throws => throws = true → ∀ e w, y i = some (.inr e) → y j ≠ some (.inl w)
  -- the argument of `emplace` is destroyed before it is used
  | .emplaceSelf _ => False
  | _ => True

/-- The history is safe throughout. -/
def SafeRun (k : Kind) : List (Op V E) → Sys V E → Prop
  | [], _ => True
  | op :: ops, y => Safe k op y ∧ ∀ r y', step tv te k op y = some (r, y') → SafeRun k ops y'

end Spec
end Itlib.Expected
