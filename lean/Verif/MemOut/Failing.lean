import Verif.MemOut.Lemmas

/-!
# `mem_ostreambuf` when memory cannot be had (include/itlib/mem_streambuf.hpp, lines 98-202)

Every call comes with a flag: `true` if the container gets no memory during this call. `resize` (two of them in
`cap_resize_by`, 196 and 198) then throws if it needs memory, and only then; a `resize` that throws has no effect (the
strong guarantee of `std::vector`, `std::string`, `small_vector`, `pod_vector`). The code is that of `Model.lean`, with such a
container.
-/
namespace Itlib.MemOut
open Itlib M
variable {C : Type}

/-- The container `K` with the capacity `cap` as long as there is no memory: `resize` beyond the capacity throws. (`grow` is
not used then.) -/
def Container.starved (K : Container C) (cap : Nat) : Container C := { K with max := some cap, grow := fun _ n => n }

/-- A call, with (`fails = false`) or without memory to be had. -/
def callF (K : Container C) (fails : Bool) (op : Op C) (b : Buf C) : Option (Reply C × Buf C) :=
  if fails then call (K.starved b.cap) op b else call K op b

/-- A history of calls, each with its flag. -/
def runF (K : Container C) : List (Bool × Op C) → Buf C → Option (List (Reply C) × Buf C)
  | [], b => some ([], b)
  | (f, op) :: ops, b => do
    let (r, b) ← callF K f op b
    let (rs, b) ← runF K ops b
    some (r :: rs, b)

/-- The constructor, with or without memory to be had. -/
def ctorF (K : Container C) (fails : Bool) (reserve : Nat) : Mem C Unit :=
  ctor (if fails then K.starved K.cap0 else K) reserve

/-- Construction with `reserve` and with memory, then a history. -/
def programF (K : Container C) (reserve : Nat) (ops : List (Bool × Op C)) : Option (List (Reply C) × Buf C) :=
  match ctorF K false reserve ⟨[], 0, 0, .null, .null, 0⟩ with
  | .ok _ b => runF K ops b
  | _ => none

namespace Spec

/-- how much a call writes -/
def amount : Op C → Option Nat
  | .put _ => some 1
  | .write s => some s.length
  | _ => none

/-- The call may be refused: there is no memory, and it writes beyond `room` characters. -/
def Refused (fails : Bool) (room : Nat) (op : Op C) (y : File C) : Prop :=
  fails = true ∧ ∃ k, amount op = some k ∧ room < y.pos + k

/-- Room that is certainly there after a call that was not refused: what was reserved, or written before, until the container
is handed out. -/
def roomAfter (room : Nat) (op : Op C) (y : File C) (r : Reply C) : Nat :=
  match op, r with
  | .get, _ => 0
  | _, .exc => room
  | op, _ => match amount op with
    | some k => max room (y.pos + k)
    | none => room

/-- Histories without memory at times: a call does what it does otherwise, or it is refused, which means that it throws and
nothing happens. -/
inductive Runs (K : Container C) : Nat → List (Bool × Op C) → File C → List (Reply C) → File C → Prop
  | nil {room y} : Runs K room [] y [] y
  | done {room f op ops y r y1 rs y2} (h : call K op y = some (r, y1))
      (rest : Runs K (roomAfter room op y r) ops y1 rs y2) : Runs K room ((f, op) :: ops) y (r :: rs) y2
  | refused {room f op ops y rs y2} (h : Refused f room op y) (rest : Runs K room ops y rs y2) :
      Runs K room ((f, op) :: ops) y (.exc :: rs) y2

/-- The history is safe throughout, whatever is refused. -/
def SafeRuns (K : Container C) : Nat → List (Bool × Op C) → File C → Prop
  | _, [], _ => True
  | room, (f, op) :: ops, y =>
    Safe K op y ∧ call K op y ≠ none ∧
    (∀ r y', call K op y = some (r, y') → SafeRuns K (roomAfter room op y r) ops y') ∧
    (Refused f room op y → SafeRuns K room ops y)

end Spec
end Itlib.MemOut
