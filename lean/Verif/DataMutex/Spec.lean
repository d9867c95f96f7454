import Verif.DataMutex.Model
import Verif.Conc.Lin

/-! # Lock objects and data, one call at a time; rules for users -/
namespace Itlib.DataMutex.Spec
open Itlib.DataMutex Itlib.Conc

/-- a lock object as its user sees it -/
inductive Slot where
  | absent
  | empty (k : Kind)
  | engaged (k : Kind)

def Slot.isEngaged : Slot → Bool
  | .engaged _ => true
  | _ => false

/-- disengaged -/
def Slot.leave : Slot → Slot
  | .engaged k => .empty k
  | s => s

/-- what a call with this result does to the objects of its thread -/
def eff : Op → Out → (Nat → Slot) → Nat → Slot
  | .make k _ x, .unit, σ => Function.update σ x (.engaged k)
  | .tryMake k _ x, .flag true, σ => Function.update σ x (.engaged k)
  | .tryMake k _ x, .flag false, σ => Function.update σ x (.empty k)
  | .move d s, _, σ => Function.update (Function.update σ s (σ s).leave) d (σ s)
  | .destroy x, _, σ => Function.update σ x .absent
  | _, _, σ => σ

/-- the objects of a thread after a trace -/
def slots (t : Nat) : List (Ev Op Out) → (Nat → Slot) → Nat → Slot
  | [], σ => σ
  | .ret t' f y :: l, σ => slots t l (if t' = t then eff f y σ else σ)
  | .inv _ _ :: l, σ => slots t l σ

/-- object `x` of thread `t` after the trace -/
def slot (tr : List (Ev Op Out)) (t x : Nat) : Slot := slots t tr (fun _ => .absent) x

/-- Users' rules: construct where nothing is; move, test and destroy what is; access through what is engaged, and write only
through an object that allows it. -/
def Ok (σ : Nat → Slot) : Op → Prop
  | .make _ _ x => σ x = .absent
  | .tryMake _ _ x => σ x = .absent
  | .move d s => σ d = .absent ∧ σ s ≠ .absent
  | .destroy x => σ x ≠ .absent
  | .write x _ => σ x = .engaged .unique
  | .read x => ∃ k, σ x = .engaged k
  | .test x => σ x ≠ .absent

/-- the call is allowed after the trace -/
def Allowed (tr : List (Ev Op Out)) (t : Nat) (f : Op) : Prop := Ok (slot tr t) f

/-- all lock objects and the data -/
structure Z where
  objs : Nat → Nat → Slot
  data : Nat

/-- a lock object of kind `k` may become engaged -/
def Free (z : Z) (k : Kind) : Prop := ∀ t x k', z.objs t x = .engaged k' → k.excl = false ∧ k'.excl = false

/-- when a call may have which result; and the data afterwards -/
def Can (z : Z) (t : Nat) : Op → Out → Nat → Prop
  | .make k _ _, y, v' => y = .unit ∧ Free z k ∧ v' = z.data
  | .tryMake k _ _, y, v' => (y = .flag true ∧ Free z k ∨ y = .flag false) ∧ v' = z.data
  | .move _ _, y, v' => y = .unit ∧ v' = z.data
  | .destroy _, y, v' => y = .unit ∧ v' = z.data
  | .write x v, y, v' => y = .unit ∧ z.objs t x = .engaged .unique ∧ v' = v
  | .read x, y, v' => y = .val z.data ∧ (∃ k, z.objs t x = .engaged k) ∧ v' = z.data
  | .test x, y, v' => y = .flag (z.objs t x).isEngaged ∧ v' = z.data

/-- one call executed alone -/
def call (z : Z) (e : Nat × Op × Out) (z' : Z) : Prop :=
  ∃ v', Can z e.1 e.2.1 e.2.2 v' ∧ z' = ⟨Function.update z.objs e.1 (eff e.2.1 e.2.2 (z.objs e.1)), v'⟩

/-- initially -/
def start (v : Nat) : Z := ⟨fun _ _ => .absent, v⟩

/-- object `x` of `t` gives access to the data: it is engaged, and not just being destroyed -/
def Grants (tr : List (Ev Op Out)) (c : Config Act Act.Res St Op Out) (t x : Nat) (k : Kind) : Prop :=
  slot tr t x = .engaged k ∧ ∀ p, c.threads t ≠ some (.destroy x, p)

end Itlib.DataMutex.Spec
