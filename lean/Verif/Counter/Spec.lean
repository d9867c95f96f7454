import Verif.Counter.Model
import Verif.Conc.Lin

/-! # Sequential counters -/
namespace Itlib.Counter.Spec
open Itlib.Counter

/-- registers: their values, and the values they ever had -/
structure Regs where
  val : Nat → Int
  past : Nat → Int → Prop

/-- the new value of `x` is `v` -/
def Regs.write (z : Regs) (x : Nat) (v : Int) : Regs :=
  ⟨Function.update z.val x v, fun x' v' => z.past x' v' ∨ (x' = x ∧ v' = v)⟩

/-- One call, executed alone. Loads return some value the counter has or had. -/
def call (T : IntTy) (z : Regs) : Nat × Op × Option Int → Regs → Prop
  | (_, .load x, y), z' => ∃ v, z.past x v ∧ y = some v ∧ z' = z
  | (_, .store x i, y), z' => y = none ∧ z' = z.write x i
  | (_, .preInc x, y), z' => y = some (T.wrap (z.val x + 1)) ∧ z' = z.write x (T.wrap (z.val x + 1))
  | (_, .postInc x, y), z' => y = some (z.val x) ∧ z' = z.write x (T.wrap (z.val x + 1))
  | (_, .add x i, y), z' => y = some (T.wrap (z.val x + i)) ∧ z' = z.write x (T.wrap (z.val x + i))
  | (_, .preDec x, y), z' => y = some (T.wrap (z.val x - 1)) ∧ z' = z.write x (T.wrap (z.val x - 1))
  | (_, .postDec x, y), z' => y = some (z.val x) ∧ z' = z.write x (T.wrap (z.val x - 1))
  | (_, .sub x i, y), z' => y = some (T.wrap (z.val x - i)) ∧ z' = z.write x (T.wrap (z.val x - i))
  | (_, .setTo x i, y), z' => y = some i ∧ z' = z.write x i
  | (_, .assign x s, y), z' => ∃ v, z.past s v ∧ y = none ∧ z' = z.write x v

/-- initially -/
def start (init : Nat → Int) : Regs := ⟨init, fun x v => v = init x⟩

/-- what the call adds to counter `x` -/
def delta (x : Nat) : Op → Int
  | .preInc x' => if x' = x then 1 else 0
  | .postInc x' => if x' = x then 1 else 0
  | .add x' i => if x' = x then i else 0
  | .preDec x' => if x' = x then -1 else 0
  | .postDec x' => if x' = x then -1 else 0
  | .sub x' i => if x' = x then -i else 0
  | _ => 0

/-- the call overwrites counter `x` -/
def Sets (x : Nat) : Op → Prop
  | .store x' _ => x' = x
  | .setTo x' _ => x' = x
  | .assign x' _ => x' = x
  | _ => False

/-- the call increments counter `x` by one -/
def Incs (x : Nat) : Op → Bool
  | .preInc x' => x' = x
  | .postInc x' => x' = x
  | _ => false

/-- the call increments `x` by one or leaves it alone -/
def OnlyIncs (x : Nat) (c : Op) : Prop := Incs x c = true ∨ (delta x c = 0 ∧ ¬ Sets x c ∧ ∀ i, c ≠ .add x i ∧ c ≠ .sub x i)

/-- the value of `x` after an increment that returned `y` -/
def ticket (T : IntTy) (x : Nat) : Nat × Op × Option Int → Option Int
  | (_, .preInc x', y) => if x' = x then y else none
  | (_, .postInc x', y) => if x' = x then y.map fun v => T.wrap (v + 1) else none
  | _ => none

/-- results of `++x` -/
def preResult (x : Nat) : Nat × Op × Option Int → Option Int
  | (_, .preInc x', y) => if x' = x then y else none
  | _ => none

/-- results of `x++` -/
def postResult (x : Nat) : Nat × Op × Option Int → Option Int
  | (_, .postInc x', y) => if x' = x then y else none
  | _ => none

/-- the call returns a value of `x` -/
def Reads (x : Nat) : Op → Bool
  | .load x' => x' = x
  | .preInc x' => x' = x
  | .postInc x' => x' = x
  | .add x' _ => x' = x
  | .preDec x' => x' = x
  | .postDec x' => x' = x
  | .sub x' _ => x' = x
  | _ => false

/-- calls that never lower `x`: reads, increments, additions of nonnegative values -/
def Grows (x : Nat) : Op → Prop
  | .add x' i => x' = x → 0 ≤ i
  | .preDec x' => x' ≠ x
  | .postDec x' => x' ≠ x
  | .sub x' _ => x' ≠ x
  | .store x' _ => x' ≠ x
  | .setTo x' _ => x' ≠ x
  | .assign x' _ => x' ≠ x
  | _ => True

/-- all calls let `x` grow, and the sum of all of them fits -/
structure Fits (T : IntTy) (init : Int) (x : Nat) (l : List (Nat × Op)) : Prop where
  grows : ∀ e ∈ l, Grows x e.2
  fits : init + (l.map fun e => delta x e.2).sum < T.lo + T.size

/-- the values of `x` that thread `t` got as results, oldest first -/
def views (t x : Nat) (l : List (Nat × Op × Option Int)) : List Int :=
  l.filterMap fun e => if e.1 = t ∧ Reads x e.2.1 then e.2.2 else none

end Itlib.Counter.Spec
