import Verif.Gen.Model

/-!
# Specification of `generator`

What a body does is the sequence of its events; a consumer that has advanced a run `n` times sees event `n` next.
-/
namespace Itlib.Gen

/-- One thing a body does, as seen from outside. -/
inductive Event (V E : Type) where
  | yield (v : V)
  | ret
  | throw (e : E)
  deriving DecidableEq

variable {S V E : Type}

/-- The `n`-th event of the body started in state `s`; `none`: it has finished before. -/
def event (step : S → Act S V E) : Nat → S → Option (Event V E)
  | 0, s => match step s with
    | .yield v _ => some (.yield v)
    | .ret => some .ret
    | .throw e => some (.throw e)
  | n + 1, s => match step s with
    | .yield _ s' => event step n s'
    | _ => none

inductive Op (S : Type) where
  /-- call the coroutine function -/
  | create (i : Nat) (s : S)
  | moveCtor (i j : Nat)
  | moveAssign (i j : Nat)
  | dtor (i : Nat)
  | reset (i : Nat)
  | toBool (i : Nat)
  | done (i : Nat)
  | next (i : Nat)
  | begin (i k : Nat)
  | incr (k : Nat)
  | deref (k : Nat)
  | isEnd (k : Nat)

inductive Reply (V E : Type) where
  | unit
  | bool (b : Bool)
  | value (v : V)
  | empty
  | exc (e : E)
  deriving DecidableEq

namespace Spec

/-- A started coroutine: its initial state, how often it was advanced, and the value that an iterator shows. -/
structure Run (S V : Type) where
  start : S
  n : Nat
  cur : Option V

/-- Generators hold the number of a run or nothing; iterators refer to runs. -/
structure Sys (S V : Type) where
  gen : Nat → Option (Option Nat)
  iter : Nat → Option Nat
  run : Nat → Option (Run S V)
  count : Nat

def init : Sys S V := ⟨fun _ => none, fun _ => none, fun _ => none, 0⟩

/-- run `f` becomes `x` -/
def Sys.setRun (y : Sys S V) (f : Nat) (x : Option (Run S V)) : Sys S V := { y with run := Function.update y.run f x }
/-- generator `i` becomes `x` -/
def Sys.setGen (y : Sys S V) (i : Nat) (x : Option (Option Nat)) : Sys S V := { y with gen := Function.update y.gen i x }

/-- the run held by a generator ends -/
def Sys.drop (y : Sys S V) : Option Nat → Sys S V
  | none => y
  | some f => y.setRun f none

variable (step : S → Act S V E) (mv : V → V)

/-- advance run `f`; `none` if it has finished -/
def advance (y : Sys S V) (f : Nat) : Option (Event V E × Sys S V) :=
  match y.run f with
  | none => none
  | some r => match event step r.n r.start with
    | none => none
    | some (.yield v) => some (.yield v, y.setRun f (some ⟨r.start, r.n + 1, some v⟩))
    | some x => some (x, y.setRun f (some ⟨r.start, r.n + 1, none⟩))

/-- one call; `none`: precondition violated -/
def call (op : Op S) (y : Sys S V) : Option (Reply V E × Sys S V) :=
  match op with
  | .create i s => match y.gen i with
    | none => some (.unit, { y with
        gen := Function.update y.gen i (some (some y.count))
        run := Function.update y.run y.count (some ⟨s, 0, none⟩)
        count := y.count + 1 })
    | some _ => none
  | .moveCtor i j => match y.gen i, y.gen j with
    | none, some h => some (.unit, (y.setGen j (some none)).setGen i (some h))
    | _, _ => none
  | .moveAssign i j => match y.gen i, y.gen j with
    | some h, some h' =>
      if i = j then some (.unit, y)
      else some (.unit, ((y.drop h).setGen j (some none)).setGen i (some h'))
    | _, _ => none
  | .dtor i => match y.gen i with
    | some h => some (.unit, (y.drop h).setGen i none)
    | none => none
  | .reset i => match y.gen i with
    | some h => some (.unit, (y.drop h).setGen i (some none))
    | none => none
  | .toBool i => match y.gen i with
    | some h => some (.bool h.isSome, y)
    | none => none
  | .done i => match y.gen i with
    | some (some f) => match y.run f with
      | some r => some (.bool (event step r.n r.start).isNone, y)
      | none => none
    | _ => none
  | .next i => match y.gen i with
    | some (some f) => match advance step y f with
      -- a value: it is moved to the caller, a moved-from one stays behind
      | some (.yield v, y') => match y'.run f with
        | some r => some (.value v, y'.setRun f (some { r with cur := some (mv v) }))
        | none => none
      | some (.ret, y') => some (.empty, y')
      | some (.throw e, y') => some (.exc e, y')
      -- finished: empty, again and again
      | none => match y.run f with
        | some _ => some (.empty, y)
        | none => none
    | _ => none
  | .begin i k => match y.gen i with
    | some (some f) => match advance step y f with
      | some (.throw e, y') => some (.exc e, y')
      | some (_, y') => some (.unit, { y' with iter := Function.update y'.iter k (some f) })
      -- finished: an iterator equal to the end
      | none => match y.run f with
        | some _ => some (.unit, { y with iter := Function.update y.iter k (some f) })
        | none => none
    | _ => none
  | .incr k => match y.iter k with
    | some f => match advance step y f with
      | some (.throw e, y') => some (.exc e, y')
      | some (_, y') => some (.unit, y')
      | none => none
    | none => none
  | .deref k => match y.iter k with
    | some f => match y.run f with
      | some r => r.cur.map fun v => (.value v, y)
      | none => none
    | none => none
  | .isEnd k => match y.iter k with
    | some f => match y.run f with
      | some r => some (.bool (event step r.n r.start).isNone, y)
      | none => none
    | none => none

/-- Replies and final state of a history; `none`: some precondition is violated. -/
def run : List (Op S) → Sys S V → Option (List (Reply V E) × Sys S V)
  | [], y => some ([], y)
  | op :: ops, y => do
    let (r, y) ← call step mv op y
    let (rs, y) ← run ops y
    some (r :: rs, y)

/-- The calls for which the code does what it should; see the `defect` theorems for the others. -/
def Safe (op : Op S) (y : Sys S V) : Prop :=
  match op with
  -- move assignment of a non-empty generator to itself destroys its frame
  | .moveAssign i j => i = j → y.gen i = some none
  -- a range-for over a finished generator resumes it
  | .begin i _ => ∀ f r, y.gen i = some (some f) → y.run f = some r → event step r.n r.start ≠ none
  | _ => True

/-- The history is safe throughout. -/
def SafeRun : List (Op S) → Sys S V → Prop
  | [], _ => True
  | op :: ops, y => Safe step op y ∧ ∀ r y', call step mv op y = some (r, y') → SafeRun ops y'

end Spec
end Itlib.Gen
