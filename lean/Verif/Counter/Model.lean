import Verif.Conc.Core

/-!
# Model of `atomic_relaxed_counter` (include/itlib/atomic.hpp:56-88)

Any number of counters of one integral type `I`, used by any number of threads. The memory is that of relaxed atomics: every
counter has its modification order (all values it ever had, oldest first); a load returns any value that is not older than
what the thread already saw of this counter; a read-modify-write operation reads the newest value. The steps of an execution
are numbered so that stores and read-modify-write operations of one counter happen in modification order.

Not modelled: construction (`a(init)`, `a(b.load())`: the initial values are arbitrary), other memory (relaxed operations
synchronize nothing), the order of the store in `operator=` (line 68 stores with the default order, sequentially consistent; the
model's is relaxed, which allows more), `operator I()` (atomic.hpp:75, it is `load`), `I = bool` (no `fetch_add`).
-/
namespace Itlib.Counter
open Itlib.Conc

/-- The integral type: values `lo ≤ v < lo + size`. `strict`: arithmetic on `I` is done in `I` itself, which is signed (`int`,
`long`, ...), so that leaving the range is undefined; otherwise it is reduced modulo `size` (unsigned types, and types that are
promoted to `int` and converted back). -/
structure IntTy where
  lo : Int
  size : Int
  pos : 0 < size
  strict : Bool

/-- conversion to `I` -/
def IntTy.wrap (T : IntTy) (v : Int) : Int := T.lo + (v - T.lo) % T.size

/-- `v` is a value of `I` -/
def IntTy.InRange (T : IntTy) (v : Int) : Prop := T.lo ≤ v ∧ v < T.lo + T.size

instance (T : IntTy) (v : Int) : Decidable (T.InRange v) := inferInstanceAs (Decidable (_ ∧ _))

/-- actions: operations of `std::atomic<I>` -/
inductive Act where
  /-- `a.load(relaxed)` -/
  | load (x : Nat)
  /-- `a.store(v, relaxed)` -/
  | store (x : Nat) (v : Int)
  /-- `a.fetch_add(d, relaxed)`: adds modulo `size` (no undefined results), returns the value before -/
  | fetchAdd (x : Nat) (d : Int)
  /-- `a.fetch_sub(d, relaxed)` -/
  | fetchSub (x : Nat) (d : Int)
  /-- undefined behaviour -/
  | undef

/-- results of actions -/
def Act.Res : Act → Type
  | .load _ => Int
  | .store _ _ => Unit
  | .fetchAdd _ _ => Int
  | .fetchSub _ _ => Int
  | .undef => Empty

/-- Memory: modification orders without their last values, the last values, and per thread how much of it it already saw. -/
structure Mem where
  old : Nat → List Int
  last : Nat → Int
  seen : Nat → Nat → Nat

/-- the modification order of `x` -/
def Mem.mo (m : Mem) (x : Nat) : List Int := m.old x ++ [m.last x]

/-- thread `t` appends `v` to the modification order of `x` -/
def Mem.push (m : Mem) (t x : Nat) (v : Int) : Mem :=
  ⟨Function.update m.old x (m.mo x), Function.update m.last x v,
   fun t' x' => if t' = t ∧ x' = x then (m.mo x).length else m.seen t' x'⟩

/-- thread `t` reads the value number `i` of `x` -/
def Mem.look (m : Mem) (t x i : Nat) : Mem := ⟨m.old, m.last, fun t' x' => if t' = t ∧ x' = x then i else m.seen t' x'⟩

/-- what the actions do -/
inductive Does (T : IntTy) (t : Nat) : (a : Act) → Mem → a.Res → Mem → Prop where
  | load (m : Mem) (x i : Nat) (v : Int) (h : m.seen t x ≤ i) (hv : (m.mo x)[i]? = some v) : Does T t (.load x) m v (m.look t x i)
  | store (m : Mem) (x : Nat) (v : Int) : Does T t (.store x v) m () (m.push t x v)
  | fetchAdd (m : Mem) (x : Nat) (d : Int) : Does T t (.fetchAdd x d) m (m.last x) (m.push t x (T.wrap (m.last x + d)))
  | fetchSub (m : Mem) (x : Nat) (d : Int) : Does T t (.fetchSub x d) m (m.last x) (m.push t x (T.wrap (m.last x - d)))

/-- the system -/
def sys (T : IntTy) : Sys Act Act.Res Mem := ⟨Does T, fun _ a _ => match a with | .undef => True | _ => False⟩

abbrev P := Prog Act Act.Res

/-- `a.load(relaxed)` -/
def aload (x : Nat) : P Int := Prog.perform (A := Act) (R := Act.Res) (.load x)
/-- `a.store(v, relaxed)` -/
def astore (x : Nat) (v : Int) : P Unit := Prog.perform (A := Act) (R := Act.Res) (.store x v)
/-- `a.fetch_add(d, relaxed)` -/
def fetchAdd (x : Nat) (d : Int) : P Int := Prog.perform (A := Act) (R := Act.Res) (.fetchAdd x d)
/-- `a.fetch_sub(d, relaxed)` -/
def fetchSub (x : Nat) (d : Int) : P Int := Prog.perform (A := Act) (R := Act.Res) (.fetchSub x d)

/-- arithmetic on `I` (`+ 1`, `- i`, ...) with result `v` -/
def arith (T : IntTy) (v : Int) : P Int :=
  if T.strict ∧ ¬ T.InRange v then .act .undef fun e => nomatch e else .ret (T.wrap v)

/-- calls of member functions -/
inductive Op where
  | load (x : Nat)
  | store (x : Nat) (i : Int)
  | preInc (x : Nat)
  | postInc (x : Nat)
  | add (x : Nat) (i : Int)
  | preDec (x : Nat)
  | postDec (x : Nat)
  | sub (x : Nat) (i : Int)
  | setTo (x : Nat) (i : Int)
  | assign (x y : Nat)

/-- atomic.hpp:72 -/
def load (x : Nat) : P Int := do
  let v ← aload x
  return v

/-- atomic.hpp:73 -/
def store (x : Nat) (i : Int) : P Unit := do
  astore x i
  return ()

/-- `operator++()`: atomic.hpp:77 -/
def preInc (T : IntTy) (x : Nat) : P Int := do
  let v ← fetchAdd x 1
  arith T (v + 1)

/-- `operator++(int)`: atomic.hpp:78 -/
def postInc (x : Nat) : P Int := do
  let v ← fetchAdd x 1
  return v

/-- `operator+=`: atomic.hpp:79 -/
def add (T : IntTy) (x : Nat) (i : Int) : P Int := do
  let v ← fetchAdd x i
  arith T (v + i)

/-- `operator--()`: atomic.hpp:80 -/
def preDec (T : IntTy) (x : Nat) : P Int := do
  let v ← fetchSub x 1
  arith T (v - 1)

/-- `operator--(int)`: atomic.hpp:81 -/
def postDec (x : Nat) : P Int := do
  let v ← fetchSub x 1
  return v

/-- `operator-=`: atomic.hpp:82 -/
def sub (T : IntTy) (x : Nat) (i : Int) : P Int := do
  let v ← fetchSub x i
  arith T (v - i)

/-- `operator=(I)`: atomic.hpp:84-87 -/
def setTo (x : Nat) (i : Int) : P Int := do
  store x i
  return i

/-- `operator=(const atomic_relaxed_counter&)`: atomic.hpp:67-70 -/
def assign (x y : Nat) : P Unit := do
  let v ← load y
  store x v

/-- the code of a call; `none` is the result of a function returning nothing (or a reference) -/
def body (T : IntTy) : Op → P (Option Int)
  | .load x => do return some (← load x)
  | .store x i => do store x i; return none
  | .preInc x => do return some (← preInc T x)
  | .postInc x => do return some (← postInc x)
  | .add x i => do return some (← add T x i)
  | .preDec x => do return some (← preDec T x)
  | .postDec x => do return some (← postDec x)
  | .sub x i => do return some (← sub T x i)
  | .setTo x i => do return some (← setTo x i)
  | .assign x y => do assign x y; return none

/-- all counters have their initial values, nothing is running -/
def initial (init : Nat → Int) : Config Act Act.Res Mem Op (Option Int) := ⟨⟨fun _ => [], init, fun _ _ => 0⟩, fun _ => none⟩

end Itlib.Counter
