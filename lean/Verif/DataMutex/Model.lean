import Verif.Conc.Core

/-!
# Model of `data_mutex` (include/itlib/data_mutex.hpp:61-176)

One `data_mutex` used by any number of threads. Every thread has its own lock objects, named by numbers; lock objects are not
handed to other threads (an object that must be unlocked by the locking thread cannot be). A temporary of the thread (`tmp`)
stands for the local of `unique_lock()` and for the returned temporary where the language does not elide the move.

Simplifications: the mutex type is a readers-writer mutex: `lock` and `lock_shared` wait, also if the caller already has the
mutex; `try_lock` and `try_lock_shared` may fail spuriously; with `mayThrow` all four may throw, without locking. Unlocking
what the calling thread has not locked is undefined. The data is one number. Steps interleave sequentially consistently;
`Racy` is a data race.
-/
namespace Itlib.DataMutex
open Itlib.Conc

/-- the types of lock objects: `unique_lock_t` / `try_unique_lock_t`, `const_unique_lock_t` / `try_const_unique_lock_t`,
`shared_lock_t` / `try_shared_lock_t` -/
inductive Kind where
  | unique
  | constUnique
  | shared
deriving DecidableEq

/-- uses `lock`, `try_lock`, `unlock` rather than the `_shared` ones -/
def Kind.excl : Kind → Bool
  | .shared => false
  | _ => true

/-- `m_data` of a lock object: not yet written, null, or `&dm.m_data` -/
inductive Ptr where
  | indet
  | null
  | data
deriving DecidableEq

/-- a lock object -/
structure Obj where
  kind : Kind
  ptr : Ptr

/-- where a lock object of a thread is -/
inductive Loc where
  | user (n : Nat)
  | tmp
deriving DecidableEq

/-- the mutex (writing thread, number of locks of each reading thread), the data, the lock objects of the threads -/
structure St where
  writer : Option Nat
  readers : Nat → Nat
  data : Nat
  objs : Nat → Loc → Option Obj

/-- `objs[t][i] = o` -/
def St.setObj (s : St) (t : Nat) (i : Loc) (o : Option Obj) : St :=
  { s with objs := Function.update s.objs t (Function.update (s.objs t) i o) }

/-- how a lock function ended -/
inductive Got where
  | ok
  | no
  | thrown
deriving DecidableEq

/-- actions -/
inductive Act where
  /-- `m_mutex.lock()`, or `lock_shared()` if not `excl` -/
  | lock (excl : Bool)
  /-- `m_mutex.try_lock()`, or `try_lock_shared()` -/
  | tryLock (excl : Bool)
  /-- `m_mutex.unlock()`, or `unlock_shared()` -/
  | unlock (excl : Bool)
  /-- a lock object begins to exist, with this `m_data` -/
  | newObj (i : Loc) (k : Kind) (p : Ptr)
  /-- reads a lock object -/
  | rdObj (i : Loc)
  /-- writes `m_data` of a lock object -/
  | setPtr (i : Loc) (p : Ptr)
  /-- a lock object ceases to exist -/
  | delObj (i : Loc)
  /-- accesses to the data -/
  | rdData
  | wrData (v : Nat)
  /-- undefined: access through a null pointer -/
  | undef

/-- results of actions -/
def Act.Res : Act → Type
  | .lock _ => Got
  | .tryLock _ => Got
  | .rdObj _ => Obj
  | .rdData => Nat
  | .undef => Empty
  | _ => Unit

/-- what the actions do -/
inductive Does (mayThrow : Bool) (t : Nat) : (a : Act) → St → a.Res → St → Prop where
  | lockX (s : St) (h : s.writer = none) (hr : ∀ t, s.readers t = 0) : Does mayThrow t (.lock true) s .ok { s with writer := some t }
  | lockS (s : St) (h : s.writer = none) : Does mayThrow t (.lock false) s .ok { s with readers := Function.update s.readers t (s.readers t + 1) }
  | lockThrows (s : St) (e : Bool) (h : mayThrow = true) : Does mayThrow t (.lock e) s .thrown s
  | tryX (s : St) (h : s.writer = none) (hr : ∀ t, s.readers t = 0) : Does mayThrow t (.tryLock true) s .ok { s with writer := some t }
  | tryS (s : St) (h : s.writer = none) :
      Does mayThrow t (.tryLock false) s .ok { s with readers := Function.update s.readers t (s.readers t + 1) }
  | tryFails (s : St) (e : Bool) : Does mayThrow t (.tryLock e) s .no s
  | tryThrows (s : St) (e : Bool) (h : mayThrow = true) : Does mayThrow t (.tryLock e) s .thrown s
  | unlockX (s : St) : Does mayThrow t (.unlock true) s () { s with writer := none }
  | unlockS (s : St) : Does mayThrow t (.unlock false) s () { s with readers := Function.update s.readers t (s.readers t - 1) }
  | newObj (s : St) (i : Loc) (k : Kind) (p : Ptr) : Does mayThrow t (.newObj i k p) s () (s.setObj t i (some ⟨k, p⟩))
  | rdObj (s : St) (i : Loc) (o : Obj) (h : s.objs t i = some o) : Does mayThrow t (.rdObj i) s o s
  | setPtr (s : St) (i : Loc) (p : Ptr) (o : Obj) (h : s.objs t i = some o) : Does mayThrow t (.setPtr i p) s () (s.setObj t i (some ⟨o.kind, p⟩))
  | delObj (s : St) (i : Loc) : Does mayThrow t (.delObj i) s () (s.setObj t i none)
  | rdData (s : St) : Does mayThrow t .rdData s s.data s
  | wrData (s : St) (v : Nat) : Does mayThrow t (.wrData v) s () { s with data := v }

/-- what is undefined -/
def Bad (t : Nat) : Act → St → Prop
  | .lock _, _ => False
  | .tryLock _, _ => False
  | .unlock true, s => s.writer ≠ some t
  | .unlock false, s => s.readers t = 0
  | .newObj i _ _, s => s.objs t i ≠ none
  | .rdObj i, s => ∀ o, s.objs t i = some o → o.ptr = .indet
  | .setPtr i _, s => s.objs t i = none
  | .delObj i, s => s.objs t i = none
  | .rdData, _ => False
  | .wrData _, _ => False
  | .undef, _ => True

/-- the system -/
def sys (mayThrow : Bool) : Sys Act Act.Res St := ⟨Does mayThrow, Bad⟩

abbrev P := Prog Act Act.Res

def lockM (e : Bool) : P Got := Prog.perform (A := Act) (R := Act.Res) (.lock e)
def tryLockM (e : Bool) : P Got := Prog.perform (A := Act) (R := Act.Res) (.tryLock e)
def unlockM (e : Bool) : P Unit := Prog.perform (A := Act) (R := Act.Res) (.unlock e)
def newObj (i : Loc) (k : Kind) (p : Ptr) : P Unit := Prog.perform (A := Act) (R := Act.Res) (.newObj i k p)
def rdObj (i : Loc) : P Obj := Prog.perform (A := Act) (R := Act.Res) (.rdObj i)
def setPtr (i : Loc) (p : Ptr) : P Unit := Prog.perform (A := Act) (R := Act.Res) (.setPtr i p)
def delObj (i : Loc) : P Unit := Prog.perform (A := Act) (R := Act.Res) (.delObj i)
def rdData : P Nat := Prog.perform (A := Act) (R := Act.Res) .rdData
def wrData (v : Nat) : P Unit := Prog.perform (A := Act) (R := Act.Res) (.wrData v)
def undef {α : Type} : P α := .act .undef fun e => nomatch e

/-- destructor: data_mutex.hpp:100 (unique), 135 (shared), 81 -/
def dtor (i : Loc) : P Unit := do
  let o ← rdObj i
  if o.ptr ≠ .null then
    unlockM o.kind.excl
    delObj i
  else
    delObj i

/-- Constructors `unique_lock_t`, `const_unique_lock_t`, `shared_lock_t`: data_mutex.hpp:104-106, 118-120, 139-141, base 79. If
`lock` throws, the base class, already constructed, is destroyed. Result: whether it did not throw. -/
def ctor (i : Loc) (k : Kind) : P Bool := do
  newObj i k .data
  let g ← lockM k.excl
  if g = .thrown then
    dtor i
    return false
  else
    return true

/-- Constructors `try_unique_lock_t`, `try_const_unique_lock_t`, `try_shared_lock_t`: data_mutex.hpp:110-113, 124-127, 145-148,
base 80. Result: whether it is engaged, `none` if it threw. -/
def tryCtor (i : Loc) (k : Kind) : P (Option Bool) := do
  newObj i k .indet
  let g ← tryLockM k.excl
  if g = .thrown then
    dtor i
    return none
  else if g = .ok then
    setPtr i .data
    return some true
  else
    setPtr i .null
    return some false

/-- move constructor: data_mutex.hpp:84-86, 99, 134 -/
def moveCtor (d s : Loc) : P Unit := do
  let o ← rdObj s
  newObj d o.kind o.ptr
  setPtr s .null

/-- calls -/
inductive Op where
  /-- `auto x = dm.unique_lock()` and the like; `elided`: the result is constructed in place -/
  | make (k : Kind) (elided : Bool) (x : Nat)
  /-- `auto x = dm.try_unique_lock()` and the like -/
  | tryMake (k : Kind) (elided : Bool) (x : Nat)
  /-- `auto d = std::move(s)` -/
  | move (d s : Nat)
  /-- end of the life of `x` -/
  | destroy (x : Nat)
  /-- `*x = v` -/
  | write (x v : Nat)
  /-- the value of `*x` -/
  | read (x : Nat)
  /-- `bool(x)` (only of the `try_` types) -/
  | test (x : Nat)

/-- results of calls -/
inductive Out where
  | unit
  | flag (b : Bool)
  | val (v : Nat)
  /-- an exception -/
  | exc

/-- unique_lock() etc.: data_mutex.hpp:152-159, 169-171 -/
def make (k : Kind) (elided : Bool) (x : Nat) : P Out := do
  if elided then
    let b ← ctor (.user x) k
    return if b then .unit else .exc
  else
    let b ← ctor .tmp k
    if b then
      moveCtor (.user x) .tmp
      dtor .tmp
      return .unit
    else
      return .exc

/-- result of a `try_` function -/
def tryOut : Option Bool → Out
  | none => .exc
  | some b => .flag b

/-- try_unique_lock() etc.: data_mutex.hpp:161-167, 173-175 -/
def tryMake (k : Kind) (elided : Bool) (x : Nat) : P Out := do
  if elided then
    let b ← tryCtor (.user x) k
    return tryOut b
  else
    let b ← tryCtor .tmp k
    if b = none then
      return .exc
    else
      moveCtor (.user x) .tmp
      dtor .tmp
      return tryOut b

/-- operator*, operator->: data_mutex.hpp:89-92 -/
def deref (x : Nat) : P Unit := do
  let o ← rdObj (.user x)
  if o.ptr = .null then undef else return ()

/-- the code of a call -/
def body : Op → P Out
  | .make k e x => make k e x
  | .tryMake k e x => tryMake k e x
  | .move d s => do moveCtor (.user d) (.user s); return .unit
  | .destroy x => do dtor (.user x); return .unit
  | .write x v => do deref x; wrData v; return .unit
  | .read x => do deref x; let v ← rdData; return .val v
  | .test x => do let o ← rdObj (.user x); return .flag (decide (o.ptr ≠ .null)) -- data_mutex.hpp:114, 128, 149

/-- a new `data_mutex` with data `v`: data_mutex.hpp:66-67 -/
def initial (v : Nat) : Config Act Act.Res St Op Out := ⟨⟨none, fun _ => 0, v, fun _ _ => none⟩, fun _ => none⟩

/-- a data race: two threads are about to access the data, one of them writes it -/
def Racy (c : Config Act Act.Res St Op Out) : Prop :=
  ∃ t f v k t' f' a' k', c.threads t = some (f, .act (.wrData v) k) ∧ c.threads t' = some (f', .act a' k') ∧ t ≠ t' ∧
    (a' = .rdData ∨ ∃ v', a' = .wrData v')

end Itlib.DataMutex
