import Verif.PodVector.Spec

/-!
# What may happen to `pod_vector`s when there is no memory

A call that needs memory may fail instead of doing what `Spec.step` says. Here it is said which calls these are, for an
allocator that reports failure by an exception, and which of them should not be made unless there is memory.
-/
namespace Itlib.PodVector.Spec
open Itlib

/-- the call needs another buffer -/
def Wants (op : Op) (c : Nat) (xs : List E) : Prop :=
  match op with
  | .reserve n | .resize n | .resizeV n _ | .assignN n _ => c < n
  | .shrinkToFit => xs.length < c ∧ xs ≠ []
  | .insert _ _ | .emplaceBack | .pushBack _ => c < xs.length + 1
  | .insertN _ n _ => c < xs.length + n
  | .insertRange _ ys => c < xs.length + ys.length
  | .assignRange ys => c < ys.length
  | _ => False

/-- the vector does not survive a failure of this call -/
def Fatal (op : Op) (c : Nat) : Prop :=
  match op with
  | .assignN n _ => c < n
  | .assignRange ys => c < ys.length
  | _ => False

/-- the call needs another buffer -/
def MWants (op : MOp) (y : Sys) : Prop :=
  match op with
  | .ctorCount _ _ _ n | .ctorVal _ _ _ n _ => 0 < n
  | .ctorRange _ _ _ ys => ys ≠ []
  | .copyCtor _ j => ∃ w, y j = some w ∧ w.xs ≠ []
  | .copyAssign i j => i ≠ j ∧ ∃ v w, y i = some v ∧ y j = some w ∧ v.cap < w.xs.length
  | .recastCopy i j => ∃ v w, y i = some v ∧ y j = some w ∧ v.cap < (recast w v.sz).length
  | .call i op => ∃ v, y i = some v ∧ Wants op v.cap v.xs
  | _ => False

/-- a vector does not survive a failure of this call: it assigns more than there is room for -/
def MFatal (op : MOp) (y : Sys) : Prop :=
  match op with
  | .copyAssign i j => i ≠ j ∧ ∃ v w, y i = some v ∧ y j = some w ∧ v.cap < w.xs.length
  | .recastCopy i j => ∃ v w, y i = some v ∧ y j = some w ∧ v.cap < (recast w v.sz).length
  | .call i op => ∃ v, y i = some v ∧ Fatal op v.cap
  | _ => False

inductive Out where
  | reply (r : Reply)
  | badAlloc
  deriving DecidableEq

/-- The calls that may be made: those of which the preconditions hold, that are in `MSafe`, and that the vectors survive
whether there is memory or not. -/
def Allowed (al : Nat) (expand zero : Bool) (op : MOp) (y : Sys) : Prop :=
  (mstep al zero op y).isSome ∧ MSafe al expand op y ∧ ¬ MFatal op y

/-- What may come of a call: what the specification says, or, if the call needs memory, an exception with no effect. -/
def Effect (al : Nat) (zero : Bool) (op : MOp) (y : Sys) (o : Out) (y' : Sys) : Prop :=
  match o with
  | .reply r => mstep al zero op y = some (r, y')
  | .badAlloc => MWants op y ∧ y' = y

end Itlib.PodVector.Spec
