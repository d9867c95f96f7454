import Verif.Any.Model

/-!
# Specification of `any`

Every `any` has an allocator and is empty or holds a value of some type. Written without reference to the model, except
for the description `Types` of the stored types and `Fate`.
-/
namespace Itlib.Any

inductive Op (A V : Type) where
  | ctorEmpty (i : Nat) (a : A)
  | ctorVal (i : Nat) (a : A) (ty : Nat) (v : V) (f : Fate)
  | copyCtor (i j : Nat) (a : A) (f : Fate)
  | moveCtor (i j : Nat)
  | copyAssign (i j : Nat) (f : Fate)
  | moveAssign (i j : Nat)
  | emplace (i ty : Nat) (v : V) (f : Fate)
  /-- `a.emplace<T>(*any_cast<T>(&a))` -/
  | emplaceOwn (i ty : Nat)
  /-- `a = x` for a variable `x` of the caller -/
  | assignVar (i k : Nat) (f : Fate)
  | reset (i : Nat)
  | dtor (i : Nat)
  | hasValue (i : Nat)
  | getAllocator (i : Nat)
  | typeOf (i : Nat)
  | castPtr (i ty : Nat)
  | cast (i ty : Nat)
  | castMove (i ty : Nat)
  | setThrough (i ty : Nat) (v : V)
  | setVar (k ty : Nat) (v : V)
  | endVar (k : Nat)

inductive Reply (A V : Type) where
  | done
  | bool (b : Bool)
  | val (v : V)
  | ptr (v : Option V)
  | alloc (a : A)
  | type (t : Option Nat)
  | exc (e : Exc)
  deriving DecidableEq

namespace Spec
variable {A V : Type} (T : Types V)

structure Sys (A V : Type) where
  any : Nat → Option (A × Option (Nat × V))
  vars : Nat → Option (Nat × V)

def init : Sys A V := ⟨fun _ => none, fun _ => none⟩

/-- any `i` becomes `x` -/
def Sys.put (y : Sys A V) (i : Nat) (x : Option (A × Option (Nat × V))) : Sys A V :=
  { y with any := Function.update y.any i x }

/-- what storing a copy of `c` in an any with allocator `a` gives: the exception if any, and the new content -/
def copied (f : Fate) : Option (Nat × V) → Option Exc × Option (Nat × V)
  | none => (none, none)
  | some (ty, v) =>
    if f = .badAlloc then (some .badAlloc, none)
    else if T.copyable ty = false then (some .badCast, none)
    else if f = .throws then (some .element, none)
    else (none, some (ty, v))

/-- what storing the new value gives -/
def stored (f : Fate) (ty : Nat) (v : V) : Option Exc × Option (Nat × V) :=
  match f with
  | .fine => (none, some (ty, v))
  | .badAlloc => (some .badAlloc, none)
  | .throws => (some .element, none)

def reply : Option Exc → Reply A V
  | none => .done
  | some e => .exc e

/-- one call; `none`: precondition violated -/
def step (op : Op A V) (y : Sys A V) : Option (Reply A V × Sys A V) :=
  match op with
  | .ctorEmpty i a => match y.any i with
    | none => some (.done, y.put i (some (a, none)))
    | some _ => none
  | .ctorVal i a ty v f => match y.any i with
    | none => match stored f ty v with
      | (none, c) => some (.done, y.put i (some (a, c)))
      | (some e, _) => some (.exc e, y)
    | some _ => none
  | .copyCtor i j a f => match y.any i, y.any j with
    | none, some (_, c) => match copied T f c with
      | (none, c) => some (.done, y.put i (some (a, c)))
      | (some e, _) => some (.exc e, y)
    | _, _ => none
  | .moveCtor i j => match y.any i, y.any j with
    | none, some (a, c) => some (.done, (y.put i (some (a, c))).put j (some (a, none)))
    | _, _ => none
  | .copyAssign i j f => match y.any i, y.any j with
    | some (a, _), some (_, c) =>
      if i = j then some (.done, y)
      else some (reply (copied T f c).1, y.put i (some (a, (copied T f c).2)))
    | _, _ => none
  | .moveAssign i j => match y.any i, y.any j with
    | some (a, _), some (b, c) =>
      if i = j then some (.done, y)
      else some (.done, (y.put i (some (a, c))).put j (some (b, none)))
    | _, _ => none
  | .emplace i ty v f => match y.any i with
    | some (a, _) => some (reply (stored f ty v).1, y.put i (some (a, (stored f ty v).2)))
    | none => none
  | .emplaceOwn i ty => match y.any i with
    | some (a, some (t, v)) => if t = ty then some (.done, y.put i (some (a, some (t, v)))) else none
    | _ => none
  | .assignVar i k f => match y.any i, y.vars k with
    | some (a, _), some (ty, v) => some (reply (stored f ty v).1, y.put i (some (a, (stored f ty v).2)))
    | _, _ => none
  | .reset i => match y.any i with
    | some (a, _) => some (.done, y.put i (some (a, none)))
    | none => none
  | .dtor i => match y.any i with
    | some _ => some (.done, y.put i none)
    | none => none
  | .hasValue i => match y.any i with
    | some (_, c) => some (.bool c.isSome, y)
    | none => none
  | .getAllocator i => match y.any i with
    | some (a, _) => some (.alloc a, y)
    | none => none
  | .typeOf i => match y.any i with
    | some (_, c) => some (.type (c.map Prod.fst), y)
    | none => none
  | .castPtr i ty => match y.any i with
    | some (_, some (t, v)) => some (.ptr (if t = ty then some v else none), y)
    | some (_, none) => some (.ptr none, y)
    | none => none
  | .cast i ty => match y.any i with
    | some (_, some (t, v)) => some (if t = ty then .val v else .exc .badCast, y)
    | some (_, none) => some (.exc .badCast, y)
    | none => none
  | .castMove i ty => match y.any i with
    | some (a, some (t, v)) =>
      if t = ty then some (.val v, y.put i (some (a, some (t, T.mv t v)))) else some (.exc .badCast, y)
    | some (_, none) => some (.exc .badCast, y)
    | none => none
  | .setThrough i ty v => match y.any i with
    | some (a, some (t, _)) =>
      if t = ty then some (.bool true, y.put i (some (a, some (t, v)))) else some (.bool false, y)
    | some (_, none) => some (.bool false, y)
    | none => none
  | .setVar k ty v => some (.done, { y with vars := Function.update y.vars k (some (ty, v)) })
  | .endVar k => some (.done, { y with vars := Function.update y.vars k none })

/-- Replies and final state of a history; `none`: some precondition is violated. -/
def run : List (Op A V) → Sys A V → Option (List (Reply A V) × Sys A V)
  | [], y => some ([], y)
  | op :: ops, y => do
    let (r, y) ← step T op y
    let (rs, y) ← run ops y
    some (r :: rs, y)

/-- The calls for which the code does what it should; see the `defect` theorems for the others. -/
def Safe (op : Op A V) (y : Sys A V) : Prop :=
  match op with
  -- the block does not fit in a `uint32_t`
  | .ctorVal _ _ ty _ _ | .emplace _ ty _ _ => T.size ty < 2 ^ 32 ∧ T.align ty < 2 ^ 32
  -- self assignment empties
  | .copyAssign i j _ => i = j → ∃ a, y.any i = some (a, none)
  -- the block moves to an `any` that has another allocator
  | .moveAssign i j => ∀ a b c d, y.any i = some (a, c) → y.any j = some (b, some d) → a = b
  -- the argument is destroyed before it is used
  | .emplaceOwn _ _ => False
  -- a reference is stored
  | .assignVar _ _ _ => False
  | _ => True

/-- The history is safe throughout. -/
def SafeRun : List (Op A V) → Sys A V → Prop
  | [], _ => True
  | op :: ops, y => Safe T op y ∧ ∀ r y', step T op y = some (r, y') → SafeRun ops y'

end Spec
end Itlib.Any
