import Verif.BitBuf.Model

/-!
# Specification: lists of booleans; a call that throws has no effect

`Bitset.Spec.step` with failures.
-/
namespace Itlib.BitBuf.Spec
open Itlib Bitset Bitset.Spec

variable {w : Nat}

/-- number of words for `n` bits: the least number of words with at least that many bits -/
def words (w n : Nat) : Nat := (n + (w - 1)) / w

/-- a buffer of `old` words cannot be made to have `k` -/
def short (env : Env w) (old k : Nat) : Bool := decide (old < k) && !env.room k

/-- Does the call throw? -/
def fails (env : Env w) (c : Call w) (y : Sys) : Bool :=
  match c with
  | .reserve i n => match y i with
    | some xs => short env (words w xs.length) (words w n)
    | none => false
  | .op (.new _ n _) => short env 0 (words w n)
  | .op (.clone _ src) | .op (.copyAssign _ src) => match y src with
    | some xs => short env 0 (words w xs.length)
    | none => false
  | .op (.resize i n) => match y i with
    | some xs => short env (words w xs.length) (words w n)
    | none => false
  | .op (.pushBack i _) => match y i with
    | some xs => short env (words w xs.length) (words w (xs.length + 1))
    | none => false
  | .op (.assign _ ws) => short env 0 ws.length
  | .op (.append i j) => match y i, y j with
    | some xs, some ys => short env (words w xs.length) (words w (xs.length + ys.length))
    | _, _ => false
  | _ => false

/-- `none`: a precondition is violated -/
def step (env : Env w) (c : Call w) (y : Sys) : Option (Out × Sys) :=
  match c with
  | .reserve i n => do
    let _ ← y i
    if fails env (.reserve i n) y then some (.exc env.exc, y) else some (.ret .unit, y)
  | .op o => do
    let (r, y') ← Bitset.Spec.step o y
    if fails env (.op o) y then some (.exc env.exc, y) else some (.ret r, y')

/-- Sizes are far enough from `2^64`. -/
def Fits (w n : Nat) : Prop := n + w ≤ 2 ^ 64

/-- The calls for which the code does what it should; see the `defect` theorems for the others. -/
def Safe (env : Env w) (c : Call w) (y : Sys) : Prop :=
  match c with
  | .reserve _ n => Fits w n
  | .op (.new _ n _) => Fits w n
  -- `resize` must not throw, and the words it adds must be zero
  | .op (.resize i n) => Fits w n ∧ ∀ xs, y i = some xs → words w xs.length < words w n →
      env.room (words w n) = true ∧ ∀ k, words w xs.length ≤ k → k < words w n → env.fresh k = 0
  -- `push_back` must not throw
  | .op (.pushBack i v) => fails env (.op (.pushBack i v)) y = false ∧ ∀ xs, y i = some xs → Fits w (xs.length + 1)
  | .op (.assign _ ws) => Fits w (ws.length * w)
  -- `append` must not throw, unless the bits fill their words; nor be applied to a bitset that fills its words, and to itself
  | .op (.append i j) => Bitset.Spec.Safe (.append i j : Op w) y ∧ ∀ xs ys, y i = some xs → y j = some ys →
      Fits w (xs.length + ys.length) ∧ (xs.length % w ≠ 0 → fails env (.op (.append i j)) y = false)
  | .op o => Bitset.Spec.Safe o y

/-- the history is safe throughout -/
def SafeRun : List (Env w × Call w) → Sys → Prop
  | [], _ => True
  | (env, c) :: cs, y => Safe env c y ∧ ∀ r y', step env c y = some (r, y') → SafeRun cs y'

/-- replies and final state of a history -/
def run : List (Env w × Call w) → Sys → Option (List Out × Sys)
  | [], y => some ([], y)
  | (env, c) :: cs, y => do
    let (r, y) ← step env c y
    let (rs, y) ← run cs y
    some (r :: rs, y)

end Itlib.BitBuf.Spec
