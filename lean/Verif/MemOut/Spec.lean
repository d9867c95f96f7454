import Verif.MemOut.Model

/-! # Specification of `mem_ostreambuf`: a file with a write position -/
namespace Itlib.MemOut
variable {C : Type}

inductive Op (C : Type) where
  /-- write one character -/
  | put (c : C)
  /-- write a chunk -/
  | write (s : List C)
  /-- seek; also the way to ask for the position -/
  | seek (off : Int) (way : Way)
  /-- `poff` -/
  | poff
  | get
  | clear

inductive Reply (C : Type) where
  | unit
  | pos (n : Int)
  | container (s : List C)
  | exc
  deriving DecidableEq

namespace Spec

/-- What was written and where the next write goes. `taken`: the last thing was `get_container` on a container whose
`data()` is not null when it is empty. -/
structure File (C : Type) where
  data : List C
  pos : Nat
  taken : Bool

def init : File C := ⟨[], 0, false⟩

/-- writing at the position: overwrite, extend at the end -/
def File.write (y : File C) (s : List C) : File C :=
  { y with data := y.data.take y.pos ++ s ++ y.data.drop (y.pos + s.length), pos := y.pos + s.length }

/-- where a seek goes -/
def File.target (y : File C) (off : Int) : Way → Int
  | .beg => off
  | .cur => y.pos + off
  | .end => y.data.length + off

variable (K : Container C)

/-- one call; `none`: seek outside of the written data -/
def call (op : Op C) (y : File C) : Option (Reply C × File C) :=
  match op with
  | .put c => if K.Fits (y.pos + 1) then some (.unit, y.write [c]) else some (.exc, y)
  | .write s => if K.Fits (y.pos + s.length) then some (.unit, y.write s) else some (.exc, y)
  | .seek off way =>
    let t := y.target off way
    if 0 ≤ t ∧ t ≤ y.data.length then some (.pos t, { y with pos := t.toNat }) else none
  | .poff => some (.pos y.pos, y)
  | .get => some (.container y.data, ⟨[], 0, !K.nullEmpty⟩)
  | .clear => some (.unit, ⟨[], 0, false⟩)

/-- Replies and final state of a history. -/
def run : List (Op C) → File C → Option (List (Reply C) × File C)
  | [], y => some ([], y)
  | op :: ops, y => do
    let (r, y) ← call K op y
    let (rs, y) ← run ops y
    some (r :: rs, y)

/-- largest chunk whose length survives the conversion to the stream's `int_type` and `int` -/
def chunkLimit : Nat := if K.int16 then 65536 else 2147483648

/-- The calls for which the code does what it should; see the `defect` theorems for the others. -/
def Safe (op : Op C) (y : File C) : Prop :=
  -- after get_container, containers with non-null data() can only be cleared
  (y.taken = true → op = .clear) ∧
  match op with
  -- long chunks: the length is truncated
  | .write s => s.length < chunkLimit K
  -- the position is truncated to int; "end" is the end of the reserved memory
  | .seek off way => y.target off way < 2147483648 ∧ way ≠ .end
  -- data after the position is lost
  | .get => y.pos = y.data.length
  | _ => True

/-- The history is safe throughout. -/
def SafeRun : List (Op C) → File C → Prop
  | [], _ => True
  | op :: ops, y => Safe K op y ∧ ∀ r y', call K op y = some (r, y') → SafeRun ops y'

end Spec

/-- one call -/
def exec (K : Container C) : Op C → Mem C (Reply C)
  | .put c => do sputc K c; pure .unit
  | .write s => do xsputn K s; pure .unit
  | .seek off way => do let p ← seekoff K off way; pure (.pos p)
  | .poff => do let p ← poff K; pure (.pos p)
  | .get => do let s ← getContainer K; pure (.container s)
  | .clear => do clear K; pure .unit

/-- A call; an exception is a reply, `none` is undefined behaviour. -/
def call (K : Container C) (op : Op C) (b : Buf C) : Option (Reply C × Buf C) :=
  match exec K op b with
  | .ok r b => some (r, b)
  | .throw _ b => some (.exc, b)
  | .ub => none

/-- A history of calls. -/
def run (K : Container C) : List (Op C) → Buf C → Option (List (Reply C) × Buf C)
  | [], b => some ([], b)
  | op :: ops, b => do
    let (r, b) ← call K op b
    let (rs, b) ← run K ops b
    some (r :: rs, b)

/-- Construction with `reserve`, then a history. -/
def program (K : Container C) (reserve : Nat) (ops : List (Op C)) : Option (List (Reply C) × Buf C) :=
  match ctor K reserve ⟨[], 0, 0, .null, .null, 0⟩ with
  | .ok _ b => run K ops b
  | _ => none

end Itlib.MemOut
