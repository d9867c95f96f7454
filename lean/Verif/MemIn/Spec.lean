import Verif.MemIn.Model

/-! # Specification of `mem_istreambuf`: a text and a position in it -/
namespace Itlib.MemIn
variable {C : Type} [DecidableEq C]

inductive Op (C : Type) where
  | reset (r : Range C)
  | default
  /-- read up to `n` characters -/
  | read (n : Nat)
  /-- look at the next character -/
  | peek
  /-- read the next character -/
  | get
  /-- put a character back -/
  | putback (c : C)
  | seek (off : Int) (way : Way)
  /-- `goff` -/
  | tell
  | size

inductive Reply (C : Type) where
  | unit
  | text (s : List C)
  | char (c : Option C)
  | bool (b : Bool)
  | num (n : Int)
  deriving DecidableEq

namespace Spec

/-- The text and the position. (`addr` is only used by the address-space condition of `Safe`.) -/
structure Text (C : Type) where
  text : List C
  pos : Nat
  addr : Nat

def init : Text C := ⟨[], 0, 0⟩

/-- where a seek goes -/
def Text.target (y : Text C) (off : Int) : Way → Int
  | .beg => off
  | .cur => y.pos + off
  | .end => y.text.length + off

/-- one call; `none`: seek outside of the text -/
def call (op : Op C) (y : Text C) : Option (Reply C × Text C) :=
  match op with
  | .reset r => some (.unit, ⟨r.chars, 0, r.addr⟩)
  | .default => some (.unit, init)
  | .read n => some (.text ((y.text.drop y.pos).take n), { y with pos := min (y.pos + n) y.text.length })
  | .peek => some (.char y.text[y.pos]?, y)
  | .get => some (.char y.text[y.pos]?, { y with pos := min (y.pos + 1) y.text.length })
  | .putback c =>
    if 0 < y.pos ∧ y.text[y.pos - 1]? = some c then some (.bool true, { y with pos := y.pos - 1 }) else some (.bool false, y)
  | .seek off way =>
    let t := y.target off way
    if 0 ≤ t ∧ t ≤ y.text.length then some (.num t, { y with pos := t.toNat }) else none
  | .tell => some (.num y.pos, y)
  | .size => some (.num y.text.length, y)

/-- Replies and final state of a history. -/
def run : List (Op C) → Text C → Option (List (Reply C) × Text C)
  | [], y => some ([], y)
  | op :: ops, y => do
    let (r, y) ← call op y
    let (rs, y) ← run ops y
    some (r :: rs, y)

/-- A read asks for an amount that cannot wrap around the end of the address space, counted from the position. -/
def Safe (sz : Nat) (op : Op C) (y : Text C) : Prop :=
  match op with
  | .read n => y.addr + (y.pos + n) * sz < 18446744073709551616
  | _ => True

/-- The history is safe throughout. -/
def SafeRun (sz : Nat) : List (Op C) → Text C → Prop
  | [], _ => True
  | op :: ops, y => Safe sz op y ∧ ∀ r y', call op y = some (r, y') → SafeRun sz ops y'

end Spec

/-- one call -/
def exec (sz : Nat) : Op C → Mem C (Reply C)
  | .reset r => do reset r; pure .unit
  | .default => do defaultCtor; pure .unit
  | .read n => do let s ← xsgetn sz n; pure (.text s)
  | .peek => do let c ← sgetc; pure (.char c)
  | .get => do let c ← sbumpc; pure (.char c)
  | .putback c => do let b ← sputbackc c; pure (.bool b)
  | .seek off way => do let p ← seekoff off way; pure (.num p)
  | .tell => do let p ← goff; pure (.num p)
  | .size => do let p ← size; pure (.num p)

/-- A call; `none` is undefined behaviour. -/
def call (sz : Nat) (op : Op C) (b : Buf C) : Option (Reply C × Buf C) :=
  match exec sz op b with
  | .ok r b => some (r, b)
  | _ => none

/-- A history of calls. -/
def run (sz : Nat) : List (Op C) → Buf C → Option (List (Reply C) × Buf C)
  | [], b => some ([], b)
  | op :: ops, b => do
    let (r, b) ← call sz op b
    let (rs, b) ← run sz ops b
    some (r :: rs, b)

end Itlib.MemIn
