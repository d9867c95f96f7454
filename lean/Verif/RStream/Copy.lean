import Verif.RStream.Spec
import Mathlib.Logic.Function.Basic

/-!
# Model of copied `redirect_rstream`s that end in any order (include/itlib/rstream.hpp:113-131)

`basic_redirect_rstream` declares a destructor and no copy constructor, so the implicit one copies the reference to the stream and
`m_restore`. (Copy assignment is deleted: `m_in` is a reference.) Here each redirect is an object with a number; the `restore` list of
`World` is not used.
-/
namespace Itlib.RStream
open Itlib
variable {C : Type}

/-- The stream and the redirects (`m_restore` of each). -/
structure CWorld (C : Type) where
  stream : World C
  objs : Nat → Option (Option Nat)

abbrev CMem (C : Type) := M (CWorld C)

/-- what the stream does -/
def onStream {α : Type} (m : Mem C α) : CMem C α := fun w =>
  match m w.stream with
  | .ok a s => .ok a { w with stream := s }
  | .throw e s => .throw e { w with stream := s }
  | .ub => .ub

/-- `basic_redirect_rstream(in, pos)` (rstream.hpp:117-123) -/
def openObj (i : Nat) (p : Nat) : CMem C Unit := do
  let w ← M.get
  if (w.objs i).isSome then .undef else do
    let r ← onStream tellg
    M.modify fun w => { w with objs := Function.update w.objs i (some r) }
    onStream (seekg (some p))

/-- the implicit copy constructor -/
def copyObj (i j : Nat) : CMem C Unit := do
  let w ← M.get
  match w.objs i, w.objs j with
  | none, some r => M.modify fun w => { w with objs := Function.update w.objs i (some r) }
  | _, _ => .undef

/-- `~basic_redirect_rstream` (rstream.hpp:125-128) -/
def closeObj (i : Nat) : CMem C Unit := do
  let w ← M.get
  match w.objs i with
  | none => .undef
  | some r => do
    onStream (seekg r)
    M.modify fun w => { w with objs := Function.update w.objs i none }

/-- the calls of a program -/
inductive COp where
  /-- a use of the stream, by its owner or through any of the redirects -/
  | use (op : Op)
  | open (i p : Nat)
  | copy (i j : Nat)
  | close (i : Nat)

/-- one call; `open` and `close` of `Op` are not for this -/
def cexec : COp → CMem C (Reply C)
  | .use (.open _) => .undef
  | .use .close => .undef
  | .use op => onStream (exec op)
  | .open i p => do openObj i p; pure .unit
  | .copy i j => do copyObj i j; pure .unit
  | .close i => do closeObj i; pure .unit

def ccall (op : COp) (w : CWorld C) : Option (Reply C × CWorld C) :=
  match cexec op w with
  | .ok r w => some (r, w)
  | _ => none

def crun : List COp → CWorld C → Option (List (Reply C) × CWorld C)
  | [], w => some ([], w)
  | op :: ops, w => do
    let (r, w) ← ccall op w
    let (rs, w) ← crun ops w
    some (r :: rs, w)

/-- the stream at some position, no redirect -/
def cstart (text : List C) (pos : Nat) : CWorld C := ⟨start text pos, fun _ => none⟩

end Itlib.RStream
