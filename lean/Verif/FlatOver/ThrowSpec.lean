import Verif.FlatOver.Throw

/-! # Specification of `flat_map` and `flat_set` with user code that throws: no effect or the whole one -/
namespace Itlib.Flat.Spec
open Itlib Itlib.FlatOver.T
variable {κ ε : Type} (key : ε → κ) (cap : Option Nat)

/-- the functions that compare keys -/
def compares : Op κ ε → Bool
  | .insert .. | .index .. | .at_ .. | .eraseKey .. | .find .. | .count .. | .lowerBound .. | .upperBound .. | .equalRange .. => true
  | .eraseAt .. | .get .. | .update .. | .size | .clear => false

/-- may the call throw what user code throws -/
def mayThrow : TOp κ ε → Bool
  | .call (.on _ op) (some _) => compares op
  | .call (.build ..) (some _) => true
  | .emplace _ _ _ (some _) => true
  | _ => false

/-- preconditions -/
def TPre (op : TOp κ ε) (y : Sys κ ε) : Prop :=
  match op with
  | .call op _ => MPre key op y
  | .emplace i k e _ => MPre key (.on i (.insert k e)) y
  | .buildSort i lt ys zs => y i = none ∧ StrictWeak lt ∧ zs.length = ys.length
  | .assignFails i src => (y i).isSome ∧ (y src).isSome

/-- the call that this is when nothing throws -/
def whole : TOp κ ε → MOp κ ε
  | .call op _ => op
  | .emplace i k e _ => .on i (.insert k e)
  | .buildSort i lt ys zs => .build i lt ys zs
  | .assignFails i src => .assign i src

/-- what a call may reply -/
def Allowed (op : TOp κ ε) (y : Sys κ ε) (r : Reply ε) : Prop :=
  match op with
  | .buildSort _ _ ys _ => r = .exc (if fits cap ys.length then .user else .outOfRange)
  | .assignFails _ _ => r = .exc .badAlloc
  | op => r = (mstep key cap (whole op) y).1 ∨ mayThrow op = true ∧ r = .exc .user

/-- the state after a call: a call that throws has no effect -/
noncomputable def next (op : TOp κ ε) (r : Reply ε) (y : Sys κ ε) : Sys κ ε :=
  match r with
  | .exc _ => y
  | _ => (mstep key cap (whole op) y).2

/-- Not for copy assignment between maps with different orders (defect). -/
def Guard (op : TOp κ ε) (y : Sys κ ε) : Prop :=
  match op with
  | .assignFails i src => (y i).map AMap.lt = (y src).map AMap.lt
  | _ => True

end Itlib.Flat.Spec

namespace Itlib.FlatOver.T
open Itlib Itlib.Flat
variable {σ κ ε : Type}

/-- The states of all programs: each call is any one that meets its precondition, the program knowing all replies so far. `sw`: the
container has a member `swap`. -/
inductive Reached [DecidableEq ε] (key : ε → κ) (C : Cont σ ε) (cap : Option Nat) (sw : Bool) (s : σ) : Mem σ κ → Spec.Sys κ ε → Prop
  | start : Reached key C cap sw s ⟨s, fun _ => none⟩ fun _ => none
  | step {m m' y op r} : Reached key C cap sw s m y → Spec.TPre key op y → Spec.Guard op y → (sw = true ∨ ∀ i j, Spec.whole op ≠ .swap i j) →
      tcall key C op m = some (r, m') → Reached key C cap sw s m' (Spec.next key cap op r y)

end Itlib.FlatOver.T
