import Verif.FlatAny.Model

/-! # What a `flat_map` or `flat_set` does under any circumstances -/
namespace Itlib.FlatAny
open Itlib
variable {κ ε : Type}

inductive Op (κ ε : Type) where
  | lowerBound (k : κ)
  | upperBound (k : κ)
  | equalRange (k : κ)
  | find (k : κ)
  | count (k : κ)
  | insert (k : κ) (e : ε)
  | eraseKey (k : κ)
  | index (k : κ) (e : ε)
  | at_ (k : κ)
  /-- `erase(begin() + p)` -/
  | eraseAt (p : Nat)
  /-- `*(begin() + p)` -/
  | get (p : Nat)
  /-- whatever the program does with `modify_container()` -/
  | modify (ys : List ε)

inductive Reply (ε : Type) where
  | unit
  | pos (p : Nat)
  | range (p q : Nat)
  | num (n : Nat)
  | posFlag (p : Nat) (b : Bool)
  | ref (p : Nat) (e : ε)
  | exc (e : Exc)
  deriving DecidableEq

namespace Spec

/-- positions given by the program are those of elements -/
def Pre (op : Op κ ε) (xs : List ε) : Prop :=
  match op with
  | .eraseAt p | .get p => p < xs.length
  | _ => True

/-- there is an element at the position that comparisons have reported to be neither less nor greater than the key -/
def Hit (W : World κ ε) (k : κ) (xs : List ε) (p : Nat) : Prop :=
  ∃ e, xs[p]? = some e ∧ (∃ n, W.below n e k = some false) ∧ ∃ n, W.above n e k = some false

/-- some comparison throws -/
def Throws (W : World κ ε) : Prop := ∃ n e k, W.below n e k = none ∨ W.above n e k = none

/-- What may come of a call if no change of the container throws: positions are in range; only hits are found, and erased;
at most one element is added or removed, the others stay as they are and in their order. -/
def Allowed (W : World κ ε) (op : Op κ ε) (xs : List ε) (r : Reply ε) (ys : List ε) : Prop :=
  match op, r with
  | .lowerBound _, .pos p | .upperBound _, .pos p => p ≤ xs.length ∧ ys = xs
  | .find k, .pos p => (p = xs.length ∨ Hit W k xs p) ∧ ys = xs
  | .equalRange _, .range p q => p ≤ q ∧ q ≤ xs.length ∧ ys = xs
  | .count k, .num n => (n = 0 ∨ n = 1 ∧ ∃ p, Hit W k xs p) ∧ ys = xs
  | .insert _ e, .posFlag p true => p ≤ xs.length ∧ ys = xs.insertIdx p e
  | .insert k _, .posFlag p false => Hit W k xs p ∧ ys = xs
  | .eraseKey k, .num n => n = 0 ∧ ys = xs ∨ n = 1 ∧ ∃ p, Hit W k xs p ∧ ys = xs.eraseIdx p
  | .index k e, .ref p x => ys[p]? = some x ∧ (Hit W k xs p ∧ ys = xs ∨ p ≤ xs.length ∧ ys = xs.insertIdx p e)
  | .at_ k, .ref p x => xs[p]? = some x ∧ Hit W k xs p ∧ ys = xs
  | .at_ _, .exc .outOfRange => ys = xs
  | .eraseAt p, .pos q => q = p ∧ ys = xs.eraseIdx p
  | .get p, .ref q x => q = p ∧ xs[p]? = some x ∧ ys = xs
  | .modify zs, .unit => ys = zs
  -- a comparison threw
  | _, .exc .user => Throws W ∧ ys = xs
  | _, _ => False

/-- the calls that change the container -/
def changes : Op κ ε → Bool
  | .insert .. | .eraseKey .. | .index .. | .eraseAt .. => true
  | _ => false

/-- comparisons that a call may make in a container with less than `2 ^ L` elements -/
def limit (L : Nat) : Op κ ε → Nat
  | .lowerBound _ | .upperBound _ => L
  | .equalRange _ => 2 * L
  | .find _ | .count _ | .insert .. | .eraseKey _ | .index .. | .at_ _ => L + 1
  | .eraseAt _ | .get _ | .modify _ => 0

end Spec

variable (W : World κ ε)

/-- a call -/
def exec : Op κ ε → Mem ε (Reply ε)
  | .lowerBound k => do let p ← lowerBound W k; pure (.pos p)
  | .upperBound k => do let p ← upperBound W k; pure (.pos p)
  | .equalRange k => do let (p, q) ← equalRange W k; pure (.range p q)
  | .find k => do let p ← find W k; pure (.pos p)
  | .count k => do let n ← count W k; pure (.num n)
  | .insert k e => do let (p, b) ← insert W k e; pure (.posFlag p b)
  | .eraseKey k => do let n ← eraseKey W k; pure (.num n)
  | .index k e => do let (p, x) ← index W k e; pure (.ref p x)
  | .at_ k => do let (p, x) ← at_ W k; pure (.ref p x)
  | .eraseAt p => do let p ← eraseAt W p; pure (.pos p)
  | .get p => do let x ← get p; pure (.ref p x)
  | .modify ys => do M.modify fun s => { s with xs := ys }; pure .unit

/-- a call; an exception is a reply, `none` is undefined behaviour -/
def call (op : Op κ ε) (s : St ε) : Option (Reply ε × St ε) :=
  match exec W op s with
  | .ok r s => some (r, s)
  | .throw e s => some (.exc e, s)
  | .ub => none

end Itlib.FlatAny
