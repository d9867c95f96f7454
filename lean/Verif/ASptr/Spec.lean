import Verif.ASptr.Model
import Verif.Conc.Lin

/-! # An atomic register of `shared_ptr` values, and the threads' variables -/
namespace Itlib.ASptr.Spec
open Itlib.ASptr

/-- value of the register, values of the threads' variables -/
structure Z where
  reg : SP
  vars : Nat → Nat → SP

/-- `x := v` -/
def put (vars : Nat → SP) (x : Nat) (v : SP) : Nat → SP := fun y => if y = x then v else vars y

/-- the variables after passing `x` by value -/
def passed (vars : Nat → SP) (mv : Bool) (x : Nat) : Nat → SP := if mv then put vars x null else vars

/-- One call of one thread, executed alone: register and variables before, result, register and variables after. -/
def loc (r : SP) (vars : Nat → SP) : Op → Out → SP → (Nat → SP) → Prop
  | .load d, y, r', vars' => y = .ptr r ∧ r' = r ∧ vars' = put vars d r
  | .store mv x, y, r', vars' => y = .unit ∧ r' = vars x ∧ vars' = passed vars mv x
  | .exchange mv d x, y, r', vars' => y = .ptr r ∧ r' = vars x ∧ vars' = put (passed vars mv x) d r
  | .cas mv e x, y, r', vars' =>
      if r.ptr = (passed vars mv x e).ptr then y = .flag true ∧ r' = vars x ∧ vars' = passed vars mv x
      else y = .flag false ∧ r' = r ∧ vars' = put (passed vars mv x) e r
  | .make d, y, r', vars' => ∃ v : SP, v.ctl ≠ 0 ∧ y = .ptr v ∧ r' = r ∧ vars' = put vars d v
  | .copy d x, y, r', vars' => y = .unit ∧ r' = r ∧ vars' = put vars d (vars x)
  | .aliased d x p, y, r', vars' => y = .unit ∧ r' = r ∧ vars' = put vars d ⟨p, (vars x).ctl⟩
  | .move d x, y, r', vars' => y = .unit ∧ r' = r ∧ vars' = put (put vars x null) d (vars x)
  | .reset d, y, r', vars' => y = .unit ∧ r' = r ∧ vars' = put vars d null
  | .use _, y, r', vars' => y = .unit ∧ r' = r ∧ vars' = vars
  | .xchg d _, y, r', vars' => ∃ v : SP, y = .ptr v ∧ r' = r ∧ vars' = put vars d v

/-- one call executed alone -/
def call (z : Z) (e : Nat × Op × Out) (z' : Z) : Prop :=
  ∃ r' vars', loc z.reg (z.vars e.1) e.2.1 e.2.2 r' vars' ∧ z' = ⟨r', Function.update z.vars e.1 vars'⟩

/-- initially -/
def start (v : SP) : Z := ⟨v, fun _ _ => null⟩

/-- the places that own something -/
inductive Place where
  | storage
  | var (t : Nat) (x : Var)
  | slot (b : Nat)
deriving DecidableEq

/-- the control block owned by a place -/
def owns (s : St) : Place → Nat
  | .storage => s.mc
  | .var t x => (s.cells t x).ctl
  | .slot b => (s.box b).ctl

/-- every count is the number of owners -/
def Exact (g : Place → Nat) (n : Nat → Nat) : Prop :=
  ∀ q, q ≠ 0 → ∃ l : List Place, l.Nodup ∧ (∀ p, p ∈ l ↔ g p = q) ∧ n q = l.length

end Itlib.ASptr.Spec
