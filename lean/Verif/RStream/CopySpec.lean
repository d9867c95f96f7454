import Verif.RStream.Copy

/-! # Specification of copied redirects: every redirect knows where the stream was before its first ancestor -/
namespace Itlib.RStream.Spec
open Itlib
variable {C : Type}

/-- The stream (its `saved` is not used), and for each redirect where to go back to. -/
structure CState (C : Type) where
  stream : State C
  back : Nat → Option Nat

def cstart (text : List C) (pos : Nat) : CState C := ⟨start text pos, fun _ => none⟩

/-- One call. A redirect goes to the requested position and remembers the one of before; a copy remembers the same; the end of
either goes back there. -/
def ccall (op : COp) (y : CState C) : Option (Reply C × CState C) :=
  match op with
  | .use (.open _) => none
  | .use .close => none
  | .use op => (call op y.stream).map fun p => (p.1, { y with stream := p.2 })
  | .open i p =>
    if y.back i = none ∧ p ≤ y.stream.text.length then
      some (.unit, ⟨{ y.stream with pos := p }, Function.update y.back i (some y.stream.pos)⟩)
    else none
  | .copy i j =>
    match y.back i, y.back j with
    | none, some p => some (.unit, { y with back := Function.update y.back i (some p) })
    | _, _ => none
  | .close i =>
    match y.back i with
    | some p => some (.unit, ⟨{ y.stream with pos := p, eof := false }, Function.update y.back i none⟩)
    | none => none

def crun : List COp → CState C → Option (List (Reply C) × CState C)
  | [], y => some ([], y)
  | op :: ops, y => do
    let (r, y) ← ccall op y
    let (rs, y) ← crun ops y
    some (r :: rs, y)

/-- as for `Safe`: created on a good stream, ended when no read has failed -/
def CSafe (op : COp) (y : CState C) : Prop :=
  match op with
  | .open _ _ => y.stream.eof = false ∧ y.stream.fail = false
  | .close _ => y.stream.fail = false
  | _ => True

def CSafeRun : List COp → CState C → Prop
  | [], _ => True
  | op :: ops, y => CSafe op y ∧ ∀ r y', ccall op y = some (r, y') → CSafeRun ops y'

end Itlib.RStream.Spec
