import Verif.Conc.Core

/-!
# Model of `atomic_shared_ptr_storage` (include/itlib/atomic_shared_ptr_storage.hpp:57-163)

The implementation used when `std::atomic<std::shared_ptr>` is not available (`asps_spinlock`, `asps_holder`), one storage
used by any number of threads. A `shared_ptr` has two words, the pointer and the control block; those of `m_ptr` are read and
written one at a time. A control block is its reference count. Every thread has `shared_ptr` variables of its own; it can make,
copy, alias, move and reset them, use the objects they own, and hand them to other threads through slots of its own (`xchg`).

Simplifications: spinning is waiting (a failed `test_and_set` changes nothing); the steps interleave sequentially consistently,
and touching `m_ptr` without holding the lock is undefined (a data race; `Hb.lean` has the memory orders); control blocks are counts (no weak references,
destruction of an object is recorded in `log`, with the thread and whether it holds the lock); an address can be reused once its
object is destroyed. Writes to variables of the thread itself are merged with the neighbouring shared action.

Not modelled: construction and destruction of the storage; the C++20 alternative (lines 57-62), which is the standard library's.
-/
namespace Itlib.ASptr
open Itlib.Conc

/-- a `shared_ptr` value: pointer and control block, `0` is null -/
structure SP where
  ptr : Nat
  ctl : Nat
deriving DecidableEq

/-- the empty `shared_ptr` -/
def null : SP := ⟨0, 0⟩

/-- variables of a thread: its own, and the parameters, temporaries and results of the calls -/
inductive Var where
  | user (n : Nat)
  /-- parameter of `atomic_shared_ptr_storage`'s function -/
  | prm
  /-- parameter of `asps_holder`'s function -/
  | prm2
  /-- result -/
  | res
  /-- temporary of `shared_ptr::operator=` -/
  | tmp
deriving DecidableEq

/-- shared state -/
structure St where
  holder : Option Nat
  /-- words of `m_ptr` -/
  mp : Nat
  mc : Nat
  cells : Nat → Var → SP
  /-- slots for handing over pointers -/
  box : Nat → SP
  count : Nat → Nat
  /-- destroyed objects: by which thread, which control block, whether the thread held the lock -/
  log : List (Nat × Nat × Bool)

/-- actions -/
inductive Act where
  /-- `while (flag.test_and_set(acquire));`: lines 70-72 -/
  | lock
  /-- `flag.clear(release)`: lines 73-75 -/
  | unlock
  /-- reads a word of `m_ptr` -/
  | rdPtr
  | rdCtl
  /-- the first word of `m_ptr` becomes that of `x` -/
  | wrPtr (x : Var)
  /-- the second word of `m_ptr` becomes that of `x`, and `x` becomes `⟨p, q⟩` -/
  | wrCtl (x : Var) (p q : Nat)
  /-- reads the thread's own variable -/
  | rd (x : Var)
  /-- constructs `x` from the words of another `shared_ptr`: increments the count -/
  | acquire (x : Var) (p q : Nat)
  /-- `make_shared` into `x` -/
  | make (x : Var)
  /-- destroys (or resets) `x`: decrements the count, destroys the object when it reaches zero -/
  | release (x : Var)
  /-- move-constructs `d` from `s` -/
  | move (d s : Var)
  /-- swaps own variables -/
  | swap (a b : Var)
  /-- uses the object that `x` owns -/
  | deref (x : Var)
  /-- swaps `x` with slot `b` (atomically) -/
  | xchg (x : Var) (b : Nat)

/-- results of actions -/
def Act.Res : Act → Type
  | .rdPtr => Nat
  | .rdCtl => Nat
  | .rd _ => SP
  | .make _ => SP
  | .xchg _ _ => SP
  | _ => Unit

/-- variable `x` of thread `t` becomes `v` -/
def St.set (s : St) (t : Nat) (x : Var) (v : SP) : St := { s with cells := Function.update s.cells t (Function.update (s.cells t) x v) }

/-- one more owner of control block `q` -/
def St.inc (s : St) (q : Nat) : St := if q = 0 then s else { s with count := Function.update s.count q (s.count q + 1) }

/-- one owner less; the last one destroys the object -/
def St.dec (s : St) (t q : Nat) : St :=
  if q = 0 then s else
    { s with count := Function.update s.count q (s.count q - 1),
             log := if s.count q = 1 then s.log ++ [(t, q, decide (s.holder = some t))] else s.log }

/-- what the actions do -/
inductive Does (t : Nat) : (a : Act) → St → a.Res → St → Prop where
  | lock (s : St) (h : s.holder = none) : Does t .lock s () { s with holder := some t }
  | unlock (s : St) : Does t .unlock s () { s with holder := none }
  | rdPtr (s : St) : Does t .rdPtr s s.mp s
  | rdCtl (s : St) : Does t .rdCtl s s.mc s
  | wrPtr (s : St) (x : Var) : Does t (.wrPtr x) s () { s with mp := (s.cells t x).ptr }
  | wrCtl (s : St) (x : Var) (p q : Nat) : Does t (.wrCtl x p q) s () ({ s with mc := (s.cells t x).ctl }.set t x ⟨p, q⟩)
  | rd (s : St) (x : Var) : Does t (.rd x) s (s.cells t x) s
  | acquire (s : St) (x : Var) (p q : Nat) : Does t (.acquire x p q) s () ((s.inc q).set t x ⟨p, q⟩)
  | make (s : St) (x : Var) (v : SP) (hq : v.ctl ≠ 0) (h : s.count v.ctl = 0) : Does t (.make x) s v ((s.inc v.ctl).set t x v)
  | release (s : St) (x : Var) : Does t (.release x) s () ((s.dec t (s.cells t x).ctl).set t x null)
  | move (s : St) (d x : Var) : Does t (.move d x) s () ((s.set t d (s.cells t x)).set t x null)
  | swap (s : St) (a b : Var) : Does t (.swap a b) s () ((s.set t a (s.cells t b)).set t b (s.cells t a))
  | deref (s : St) (x : Var) : Does t (.deref x) s () s
  | xchg (s : St) (x : Var) (b : Nat) :
      Does t (.xchg x b) s (s.box b) ({ s with box := Function.update s.box b (s.cells t x) }.set t x (s.box b))

/-- what is undefined: locking twice (the thread waits for itself forever), unlocking without holding, touching `m_ptr` without
holding the lock, counting on a control block without owners, constructing over a variable that owns something, using an object through an empty
pointer or after its destruction -/
def Bad (t : Nat) : Act → St → Prop
  | .lock, s => s.holder = some t
  | .unlock, s => s.holder ≠ some t
  | .rdPtr, s => s.holder ≠ some t
  | .rdCtl, s => s.holder ≠ some t
  | .wrPtr _, s => s.holder ≠ some t
  | .wrCtl _ _ _, s => s.holder ≠ some t
  | .acquire x _ q, s => (q ≠ 0 ∧ s.count q = 0) ∨ s.cells t x ≠ null
  | .make x, s => s.cells t x ≠ null
  | .release x, s => (s.cells t x).ctl ≠ 0 ∧ s.count (s.cells t x).ctl = 0
  | .move d _, s => s.cells t d ≠ null
  | .deref x, s => (s.cells t x).ctl = 0 ∨ s.count (s.cells t x).ctl = 0
  | _, _ => False

/-- the system -/
def sys : Sys Act Act.Res St := ⟨Does, Bad⟩

abbrev P := Prog Act Act.Res

def lock : P Unit := Prog.perform (A := Act) (R := Act.Res) .lock
def unlock : P Unit := Prog.perform (A := Act) (R := Act.Res) .unlock
def rdPtr : P Nat := Prog.perform (A := Act) (R := Act.Res) .rdPtr
def rdCtl : P Nat := Prog.perform (A := Act) (R := Act.Res) .rdCtl
def wrPtr (x : Var) : P Unit := Prog.perform (A := Act) (R := Act.Res) (.wrPtr x)
def wrCtl (x : Var) (p q : Nat) : P Unit := Prog.perform (A := Act) (R := Act.Res) (.wrCtl x p q)
def rd (x : Var) : P SP := Prog.perform (A := Act) (R := Act.Res) (.rd x)
def acquire (x : Var) (p q : Nat) : P Unit := Prog.perform (A := Act) (R := Act.Res) (.acquire x p q)
def makeNew (x : Var) : P SP := Prog.perform (A := Act) (R := Act.Res) (.make x)
def release (x : Var) : P Unit := Prog.perform (A := Act) (R := Act.Res) (.release x)
def move (d s : Var) : P Unit := Prog.perform (A := Act) (R := Act.Res) (.move d s)
def swap (a b : Var) : P Unit := Prog.perform (A := Act) (R := Act.Res) (.swap a b)
def deref (x : Var) : P Unit := Prog.perform (A := Act) (R := Act.Res) (.deref x)
def xchg (x : Var) (b : Nat) : P SP := Prog.perform (A := Act) (R := Act.Res) (.xchg x b)

/-! ### `std::shared_ptr` -/

/-- copy constructor: `d` from `s` -/
def copyCtor (d s : Var) : P Unit := do
  let v ← rd s
  acquire d v.ptr v.ctl

/-- move assignment: `shared_ptr(std::move(s)).swap(d)` -/
def moveAssign (d s : Var) : P Unit := do
  move .tmp s
  swap .tmp d
  release .tmp

/-- copy assignment: `shared_ptr(s).swap(d)` -/
def copyAssign (d s : Var) : P Unit := do
  copyCtor .tmp s
  swap .tmp d
  release .tmp

/-- `m_ptr.swap(x)`: both words, one after the other -/
def swapReg (x : Var) : P Unit := do
  let p ← rdPtr
  wrPtr x
  let q ← rdCtl
  wrCtl x p q

/-- copy constructor from `m_ptr` -/
def copyReg (d : Var) : P Unit := do
  let p ← rdPtr
  let q ← rdCtl
  acquire d p q

/-- passes variable `s` by value: copied or (`std::move(s)`) moved into the parameter -/
def pass (mv : Bool) (s : Var) : P Unit := if mv then move .prm s else copyCtor .prm s

/-! ### `asps_holder` -/

/-- asps_holder::load (lines 98-101); the lock is released by `lock_guard`'s destructor (line 79) -/
def holderLoad : P Unit := do
  lock
  copyReg .res
  unlock

/-- asps_holder::store (lines 103-106); the parameter dies after the lock guard -/
def holderStore : P Unit := do
  lock
  swapReg .prm2
  unlock
  release .prm2

/-- asps_holder::exchange (lines 108-118) -/
def holderExchange : P Unit := do
  lock
  swapReg .prm2
  unlock
  move .res .prm2
  release .prm2

/-- asps_holder::compare_exchange_strong (lines 121-131); `==` compares the pointers (`get()`) -/
def holderCas (e : Var) : P Bool := do
  lock
  let p ← rdPtr
  let v ← rd e
  if p = v.ptr then
    swapReg .prm2
    unlock
    release .prm2
    return true
  else
    copyReg .tmp
    swap .tmp e
    release .tmp
    unlock
    release .prm2
    return false

/-! ### `atomic_shared_ptr_storage` and its users -/

/-- calls; `mv` says whether the argument is moved -/
inductive Op where
  /-- `d = s.load();` -/
  | load (d : Nat)
  /-- `s.store(x);` -/
  | store (mv : Bool) (x : Nat)
  /-- `d = s.exchange(x);` -/
  | exchange (mv : Bool) (d x : Nat)
  /-- `s.compare_exchange(e, x)` -/
  | cas (mv : Bool) (e x : Nat)
  /-- `d = std::make_shared<T>();` -/
  | make (d : Nat)
  /-- `d = x;` -/
  | copy (d x : Nat)
  /-- `d = std::shared_ptr<T>(x, p);` -/
  | aliased (d x p : Nat)
  /-- `d = std::move(x);` -/
  | move (d x : Nat)
  /-- `d.reset();` -/
  | reset (d : Nat)
  /-- `if (d) use(*d);` -/
  | use (d : Nat)
  /-- exchanges `d` with slot `b` -/
  | xchg (d b : Nat)

/-- results -/
inductive Out where
  | unit
  | ptr (v : SP)
  | flag (b : Bool)

/-- load: line 154 -/
def load (d : Nat) : P Out := do
  holderLoad
  let v ← rd .res
  moveAssign (.user d) .res
  return .ptr v

/-- store: line 155 -/
def store (mv : Bool) (x : Nat) : P Out := do
  pass mv (.user x)
  move .prm2 .prm
  holderStore
  release .prm
  return .unit

/-- exchange: line 157 -/
def exchange (mv : Bool) (d x : Nat) : P Out := do
  pass mv (.user x)
  move .prm2 .prm
  holderExchange
  let v ← rd .res
  moveAssign (.user d) .res
  release .prm
  return .ptr v

/-- compare_exchange: lines 159-161 -/
def cas (mv : Bool) (e x : Nat) : P Out := do
  pass mv (.user x)
  move .prm2 .prm
  let b ← holderCas (.user e)
  release .prm
  return .flag b

/-- the code of a call -/
def body : Op → P Out
  | .load d => load d
  | .store mv x => store mv x
  | .exchange mv d x => exchange mv d x
  | .cas mv e x => cas mv e x
  | .make d => do
    let v ← makeNew .res
    moveAssign (.user d) .res
    return .ptr v
  | .copy d x => do copyAssign (.user d) (.user x); return .unit
  | .aliased d x p => do
    let v ← rd (.user x)
    acquire .res p v.ctl
    moveAssign (.user d) .res
    return .unit
  | .move d x => do moveAssign (.user d) (.user x); return .unit
  | .reset d => do release (.user d); return .unit
  | .use d => do
    let v ← rd (.user d)
    if v.ctl = 0 then return .unit
    else do
      deref (.user d)
      return .unit
  | .xchg d b => do
    let v ← xchg (.user d) b
    return .ptr v

/-- Everything is empty except the storage, which holds `v` as only owner (or is empty). -/
def initial (v : SP) : Config Act Act.Res St Op Out :=
  ⟨⟨none, v.ptr, v.ctl, fun _ _ => null, fun _ => null, fun q => if q = v.ctl then 1 else 0, []⟩, fun _ => none⟩

end Itlib.ASptr
