import Verif.Conc.Core

/-!
# Model of `strong_try_rec_mutex` (include/itlib/mutex.hpp:67-110)

One mutex used by any number of threads; a thread is its `std::thread::id`, `none` is the id of no thread.

Simplifications: the internal `std::mutex` waits while it is held (its `lock` does not throw); the steps interleave sequentially
consistently, and touching the members without holding the internal mutex is undefined (a data race). A failing `assert` and
overflow of `m_depth` (values up to `max`) are undefined.
-/
namespace Itlib.RecMutex
open Itlib.Conc

/-- members: holder of `m_mutex`, `m_owner`, `m_depth` -/
structure St where
  holder : Option Nat
  owner : Option Nat
  depth : Int

/-- actions -/
inductive Act where
  /-- `m_mutex.lock()`, `m_mutex.unlock()` (by `lock_guard`) -/
  | lock
  | unlock
  /-- `std::this_thread::get_id()` -/
  | getId
  | rdOwner
  | wrOwner (o : Option Nat)
  | rdDepth
  | wrDepth (d : Int)
  /-- failed `assert`, overflow -/
  | undef

/-- results of actions -/
def Act.Res : Act → Type
  | .getId => Nat
  | .rdOwner => Option Nat
  | .rdDepth => Int
  | .undef => Empty
  | _ => Unit

/-- what the actions do -/
inductive Does (t : Nat) : (a : Act) → St → a.Res → St → Prop where
  | lock (s : St) (h : s.holder = none) : Does t .lock s () { s with holder := some t }
  | unlock (s : St) : Does t .unlock s () { s with holder := none }
  | getId (s : St) : Does t .getId s t s
  | rdOwner (s : St) : Does t .rdOwner s s.owner s
  | wrOwner (s : St) (o : Option Nat) : Does t (.wrOwner o) s () { s with owner := o }
  | rdDepth (s : St) : Does t .rdDepth s s.depth s
  | wrDepth (s : St) (d : Int) : Does t (.wrDepth d) s () { s with depth := d }

/-- what is undefined -/
def Bad (t : Nat) : Act → St → Prop
  | .lock, s => s.holder = some t
  | .getId, _ => False
  | .undef, _ => True
  | _, s => s.holder ≠ some t

/-- the system -/
def sys : Sys Act Act.Res St := ⟨Does, Bad⟩

abbrev P := Prog Act Act.Res

def lock : P Unit := Prog.perform (A := Act) (R := Act.Res) .lock
def unlockM : P Unit := Prog.perform (A := Act) (R := Act.Res) .unlock
def getId : P Nat := Prog.perform (A := Act) (R := Act.Res) .getId
def rdOwner : P (Option Nat) := Prog.perform (A := Act) (R := Act.Res) .rdOwner
def wrOwner (o : Option Nat) : P Unit := Prog.perform (A := Act) (R := Act.Res) (.wrOwner o)
def rdDepth : P Int := Prog.perform (A := Act) (R := Act.Res) .rdDepth
def wrDepth (d : Int) : P Unit := Prog.perform (A := Act) (R := Act.Res) (.wrDepth d)
def undef : P Unit := .act .undef fun e => nomatch e

/-- `assert(b)` -/
def check (b : Bool) : P Unit := if b then pure () else undef

/-- `++m_depth`: the result must be at most `max` -/
def incDepth (max : Nat) : P Unit := do
  let d ← rdDepth
  check (decide (d + 1 ≤ max))
  wrDepth (d + 1)

/-- `--m_depth`: the result must be at least `-max - 1` -/
def decDepth (max : Nat) : P Unit := do
  let d ← rdDepth
  check (decide (-max - 1 ≤ d - 1))
  wrDepth (d - 1)

/-- calls -/
inductive Op where
  | tryLock
  | unlock

/-- try_lock: mutex.hpp:70-85 -/
def tryLock (max : Nat) : P Bool := do
  lock
  let tid ← getId
  let o ← rdOwner
  if o = none then
    let d ← rdDepth
    check (decide (d = 0))
    wrOwner (some tid)
    incDepth max
    unlockM
    return true
  else
    let o ← rdOwner
    if some tid ≠ o then
      unlockM
      return false
    else
      incDepth max
      unlockM
      return true

/-- unlock: mutex.hpp:87-97 -/
def unlock (max : Nat) : P Unit := do
  lock
  let o ← rdOwner
  let tid ← getId
  check (decide (o = some tid))
  let d ← rdDepth
  check (decide (d > 0))
  decDepth max
  let d ← rdDepth
  if d = 0 then
    wrOwner none
    unlockM
  else
    unlockM

/-- the code of a call; the result of `unlock` is shown as `true` -/
def body (max : Nat) : Op → P Bool
  | .tryLock => tryLock max
  | .unlock => do unlock max; return true

/-- a new mutex: mutex.hpp:100-103 -/
def initial : Config Act Act.Res St Op Bool := ⟨⟨none, none, 0⟩, fun _ => none⟩

end Itlib.RecMutex
