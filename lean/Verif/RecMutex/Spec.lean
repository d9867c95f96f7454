import Verif.RecMutex.Model
import Verif.Conc.Lin

/-! # A recursive mutex, one call at a time; rules for its users -/
namespace Itlib.RecMutex.Spec
open Itlib.RecMutex Itlib.Conc

/-- free, or the owner and how often the owner locked it -/
abbrev Z := Option (Nat × Nat)

/-- how often `t` locked it -/
def levels : Z → Nat → Nat
  | none, _ => 0
  | some (o, d), t => if o = t then d else 0

/-- One call of thread `t`, executed alone. `try_lock` fails exactly if another thread owns the mutex; `unlock` undoes one lock,
the last one frees the mutex. -/
def call : Z → Nat × Op × Bool → Z → Prop
  | none, (t, .tryLock, y), z' => y = true ∧ z' = some (t, 1)
  | some (o, d), (t, .tryLock, y), z' => if o = t then y = true ∧ z' = some (o, d + 1) else y = false ∧ z' = some (o, d)
  | none, (_, .unlock, _), _ => False
  | some (o, d), (t, .unlock, y), z' => o = t ∧ y = true ∧ z' = if d = 1 then none else some (o, d - 1)

/-- number of successful `try_lock`s of `t` that returned -/
def locks (t : Nat) : List (Ev Op Bool) → Nat
  | [] => 0
  | .ret t' .tryLock true :: l => (if t' = t then 1 else 0) + locks t l
  | _ :: l => locks t l

/-- number of `unlock`s of `t` that were called -/
def unlocks (t : Nat) : List (Ev Op Bool) → Nat
  | [] => 0
  | .inv t' .unlock :: l => (if t' = t then 1 else 0) + unlocks t l
  | _ :: l => unlocks t l

/-- Users' rules: unlock only what you locked, and do not lock more than `max` times. -/
def Allowed (max : Nat) (tr : List (Ev Op Bool)) (t : Nat) : Op → Prop
  | .unlock => unlocks t tr < locks t tr
  | .tryLock => locks t tr < unlocks t tr + max

/-- `t` locked it more often than it began to unlock it -/
def Holds (tr : List (Ev Op Bool)) (t : Nat) : Prop := unlocks t tr < locks t tr

end Itlib.RecMutex.Spec
