import Verif.RStream.Model

/-! # Specification of `redirect_rstream`: positions saved and restored like a stack -/
namespace Itlib.RStream
open Itlib
variable {C : Type}

inductive Op where
  /-- read through the innermost `rstream`, or by the owner of the stream -/
  | read (n : Nat)
  /-- the owner looks at the next character -/
  | peek
  /-- the owner clears the state bits -/
  | clear
  /-- the owner asks for the position -/
  | tell
  | fail | good | eof
  /-- a `redirect_rstream` is created / the innermost one goes away -/
  | open (p : Nat)
  | close

inductive Reply (C : Type) where
  | unit
  | text (s : List C)
  | char (c : Option C)
  | bool (b : Bool)
  | pos (p : Option Nat)
  deriving DecidableEq

namespace Spec

/-- The text, the position, whether the last reads hit the end (`eof`) or failed, and the positions to come back to. -/
structure State (C : Type) where
  text : List C
  pos : Nat
  eof : Bool
  fail : Bool
  saved : List Nat

/-- the stream at some position, no redirect -/
def start (text : List C) (pos : Nat) : State C := ⟨text, pos, false, false, []⟩

/-- Reading at the position; nothing can be read from a stream that has failed or hit the end. `open` goes to the requested
position, `close` goes back. -/
def call (op : Op) (y : State C) : Option (Reply C × State C) :=
  match op with
  | .read n =>
    if y.eof ∨ y.fail then some (.text [], { y with fail := true })
    else if y.pos + n ≤ y.text.length then some (.text ((y.text.drop y.pos).take n), { y with pos := y.pos + n })
    else some (.text (y.text.drop y.pos), { y with pos := y.text.length, eof := true, fail := true })
  | .peek =>
    if y.eof ∨ y.fail then some (.char none, { y with fail := true })
    else if y.pos < y.text.length then some (.char y.text[y.pos]?, y) else some (.char none, { y with eof := true })
  | .clear => some (.unit, { y with eof := false, fail := false })
  | .tell => if y.eof ∨ y.fail then some (.pos none, { y with fail := true }) else some (.pos (some y.pos), y)
  | .fail => some (.bool y.fail, y)
  | .good => some (.bool (!y.eof && !y.fail), y)
  | .eof => some (.bool y.eof, y)
  | .open p => if p ≤ y.text.length then some (.unit, { y with pos := p, saved := y.pos :: y.saved }) else none
  | .close => match y.saved with
    | p :: ps => some (.unit, { y with pos := p, eof := false, saved := ps })
    | [] => none

/-- Replies and final state of a history. -/
def run : List Op → State C → Option (List (Reply C) × State C)
  | [], y => some ([], y)
  | op :: ops, y => do
    let (r, y) ← call op y
    let (rs, y) ← run ops y
    some (r :: rs, y)

/-- What the code needs: a redirect is created on a good stream, and when it goes away no read has failed (or the failure was
cleared). -/
def Safe (op : Op) (y : State C) : Prop :=
  match op with
  | .open _ => y.eof = false ∧ y.fail = false
  | .close => y.fail = false
  | _ => True

def SafeRun : List Op → State C → Prop
  | [], _ => True
  | op :: ops, y => Safe op y ∧ ∀ r y', call op y = some (r, y') → SafeRun ops y'

end Spec

/-- one call -/
def exec : Op → Mem C (Reply C)
  | .read n => do let s ← rread n; pure (.text s)
  | .peek => do let c ← peek; pure (.char c)
  | .clear => do clear; pure .unit
  | .tell => do let p ← tellg; pure (.pos p)
  | .fail => do let b ← rfail; pure (.bool b)
  | .good => do let b ← rgood; pure (.bool b)
  | .eof => do let b ← reof; pure (.bool b)
  | .open p => do openRedirect p; pure .unit
  | .close => do closeRedirect; pure .unit

/-- A call; `none` is undefined behaviour. -/
def call (op : Op) (w : World C) : Option (Reply C × World C) :=
  match exec op w with
  | .ok r w => some (r, w)
  | _ => none

def run : List Op → World C → Option (List (Reply C) × World C)
  | [], w => some ([], w)
  | op :: ops, w => do
    let (r, w) ← call op w
    let (rs, w) ← run ops w
    some (r :: rs, w)

/-- the stream at some position -/
def start (text : List C) (pos : Nat) : World C := ⟨text, pos, false, false, []⟩

end Itlib.RStream
