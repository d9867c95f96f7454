import Verif.Bitset.Model

/-!
# Specification of bit sets: lists of booleans
-/
namespace Itlib.Bitset

/-- Calls in a program with several bitsets, named by numbers. -/
inductive Op (w : Nat) where
  | new (i n : Nat) (value : BitVec w)
  | clone (i src : Nat)
  | copyAssign (i src : Nat)
  /-- move construction and move assignment -/
  | move (i src : Nat)
  | test (i k : Nat)
  | set (i k : Nat)
  | reset (i k : Nat)
  | setTo (i k : Nat) (v : Bool)
  | flip (i k : Nat)
  | resize (i n : Nat)
  | pushBack (i : Nat) (v : Bool)
  | assign (i : Nat) (ws : List (BitVec w))
  | append (i j : Nat)
  /-- `i.copy(i.begin() + frm, i.begin() + to, j.begin() + source)` -/
  | copy (i frm to j source : Nat)
  | size (i : Nat)
  | empty (i : Nat)
  | all (i : Nat)
  | any (i : Nat)
  | none (i : Nat)

inductive Reply where
  | unit
  | bool (b : Bool)
  | num (n : Nat)
  deriving DecidableEq, Repr

namespace Spec

/-- all bitsets of a program -/
abbrev Sys := Nat → Option (List Bool)

/-- the bits of a sequence of words, least significant first -/
def bitsOf {w : Nat} (ws : List (BitVec w)) : List Bool :=
  ws.flatMap fun x => (List.range w).map x.getLsbD

/-- the destination with the bits `[frm, to)` replaced by those of `src` from `source` on -/
def splice (dst : List Bool) (frm to : Nat) (src : List Bool) (source : Nat) : List Bool :=
  dst.take frm ++ (src.drop source).take (to - frm) ++ dst.drop to

variable {w : Nat}

/-- `none`: the precondition is violated -/
def step (op : Op w) (y : Sys) : Option (Reply × Sys) :=
  match op with
  | .new i n value => some (.unit, Function.update y i (some ((bitsOf (List.replicate n value)).take n)))
  | .clone i src | .copyAssign i src => do
    let b ← y src
    some (.unit, Function.update y i (some b))
  | .move i src => do
    let b ← y src
    if i = src then none
    else some (.unit, Function.update (Function.update y i (some b)) src (some []))
  | .test i k => do
    let b ← y i
    let v ← b[k]?
    some (.bool v, y)
  | .set i k => do
    let b ← y i
    if k < b.length then some (.unit, Function.update y i (some (b.set k true))) else none
  | .reset i k => do
    let b ← y i
    if k < b.length then some (.unit, Function.update y i (some (b.set k false))) else none
  | .setTo i k v => do
    let b ← y i
    if k < b.length then some (.unit, Function.update y i (some (b.set k v))) else none
  | .flip i k => do
    let b ← y i
    let v ← b[k]?
    some (.unit, Function.update y i (some (b.set k (!v))))
  | .resize i n => do
    let b ← y i
    some (.unit, Function.update y i (some (b.take n ++ List.replicate (n - b.length) false)))
  | .pushBack i v => do
    let b ← y i
    some (.unit, Function.update y i (some (b ++ [v])))
  | .assign i ws => do
    let _ ← y i
    some (.unit, Function.update y i (some (bitsOf ws)))
  | .append i j => do
    let b ← y i
    let o ← y j
    some (.unit, Function.update y i (some (b ++ o)))
  | .copy i frm to j source => do
    let b ← y i
    let o ← y j
    if frm ≤ to ∧ to ≤ b.length ∧ source + (to - frm) ≤ o.length ∧
        -- overlapping ranges must not start before the destination (as for std::copy)
        ¬ (i = j ∧ source < frm ∧ frm < source + (to - frm)) then
      some (.unit, Function.update y i (some (splice b frm to o source)))
    else none
  | .size i => do
    let b ← y i
    some (.num b.length, y)
  | .empty i => do
    let b ← y i
    some (.bool b.isEmpty, y)
  | .all i => do
    let b ← y i
    some (.bool (!b.isEmpty && b.all id), y)
  | .any i => do
    let b ← y i
    some (.bool (b.any id), y)
  | .none i => do
    let b ← y i
    some (.bool (!b.any id), y)

/-- The calls for which the code does what it should; see the `defect` theorems for the others. -/
def Safe (op : Op w) (y : Sys) : Prop :=
  match op with
  -- narrow words: `all` compares promoted words
  | .all i => 32 ≤ w ∨ ∀ b, y i = some b → b.length < w
  -- a bitset may be appended to itself only if it does not fill its words
  | .append i j => i = j → ∀ b, y i = some b → b = [] ∨ b.length % w ≠ 0
  -- the bits that go to a partial last word of the destination must come from a single word of the source
  | .copy _ frm to _ source => frm / w = to / w ∧ frm % w ≠ 0 ∨ to % w = 0 ∨ (source + (to / w * w - frm)) % w + to % w ≤ w
  | _ => True

/-- the history is safe throughout -/
def SafeRun : List (Op w) → Sys → Prop
  | [], _ => True
  | op :: ops, y => Safe op y ∧ ∀ r y', step op y = some (r, y') → SafeRun ops y'

/-- replies and final state of a history; `none` if some precondition is violated -/
def run : List (Op w) → Sys → Option (List Reply × Sys)
  | [], y => some ([], y)
  | op :: ops, y => do
    let (r, y) ← step op y
    let (rs, y) ← run ops y
    some (r :: rs, y)

end Spec

/-- all bitset objects of a program -/
abbrev Store (w : Nat) := Nat → Option (Bits w)

variable {w : Nat}

/-- run a member function on bitset `i` -/
def on (st : Store w) (i : Nat) (f : Bits w → Option (Bits w)) : Option (Reply × Store w) := do
  let b ← st i
  let b ← f b
  some (.unit, Function.update st i (some b))

/-- one call; `none`: undefined behaviour. Copying is defaulted, moving takes the buffer and sets the size to 0
(dynamic_bitset.hpp:164-178; a moved-from buffer is empty). -/
def call (op : Op w) (st : Store w) : Option (Reply × Store w) :=
  match op with
  | .new i n value => some (.unit, Function.update st i (some (new n value)))
  | .clone i src | .copyAssign i src => do
    let b ← st src
    some (.unit, Function.update st i (some b))
  | .move i src => do
    let b ← st src
    some (.unit, Function.update (Function.update st i (some b)) src (some ⟨[], 0⟩))
  | .test i k => do
    let b ← st i
    let v ← test b k
    some (.bool v, st)
  | .set i k => on st i (set · k)
  | .reset i k => on st i (reset · k)
  | .setTo i k v => on st i (setTo · k v)
  | .flip i k => on st i (flip · k)
  | .resize i n => on st i (resize · n)
  | .pushBack i v => on st i (pushBack · v)
  | .assign i ws => on st i fun _ => some (assign ws)
  | .append i j => do
    let o ← st j
    on st i (append · (if i = j then none else some o))
  | .copy i frm to j source => do
    let o ← st j
    on st i (copy · frm to (if i = j then none else some o) source)
  | .size i => do
    let b ← st i
    some (.num b.size, st)
  | .empty i => do
    let b ← st i
    some (.bool (empty b), st)
  | .all i => do
    let b ← st i
    let v ← all b
    some (.bool v, st)
  | .any i => do
    let b ← st i
    let v ← any b
    some (.bool v, st)
  | .none i => do
    let b ← st i
    let v ← none_ b
    some (.bool v, st)

/-- a history; `none`: undefined behaviour -/
def run : List (Op w) → Store w → Option (List Reply × Store w)
  | [], st => some ([], st)
  | op :: ops, st => do
    let (r, st) ← call op st
    let (rs, st) ← run ops st
    some (r :: rs, st)

end Itlib.Bitset
