import Verif.Core.Outcome
import Verif.RStream.ScopeSpec

/-!
# Model of `rstream` and `redirect_rstream` on streams that may throw (include/itlib/rstream.hpp)

The functions of `std::istream` after the C++11 standard, with the exception mask: `clear(bits)` sets the state and throws if it
meets the mask ([iostate.flags]), `setstate` adds bits by `clear`, the sentry sets failbit on a stream that is not good, `seekg` first
clears eofbit by `clear`. badbit is not modelled. A redirect is a local variable: its destructor runs when the scope is left, by an
exception as well; destructors are `noexcept`, an exception from one ends the program.
-/
namespace Itlib.RStream.Scope
open Itlib
variable {C : Type}

abbrev Mem (C : Type) := M (Stream C)

/-- `std::ios::clear(bits)` -/
def clearTo (e f : Bool) : Mem C Unit := do
  M.modify fun w => { w with eof := e, fail := f }
  let w ← M.get
  if (w.eof && w.throwEof) || (w.fail && w.throwFail) then .raise .element else pure ()

/-- `std::ios::setstate(bits)` -/
def setstate (e f : Bool) : Mem C Unit := do
  let w ← M.get
  clearTo (w.eof || e) (w.fail || f)

/-- the sentry of unformatted input; of formatted input too, the white space it may skip being part of the extraction -/
def sentry : Mem C Bool := do
  let w ← M.get
  if !w.eof && !w.fail then pure true
  else do
    setstate false true
    pure false

/-- `std::istream::read` -/
def read (n : Nat) : Mem C Unit := do
  let ok ← sentry
  if ok then do
    let w ← M.get
    let s := (w.text.drop w.pos).take n
    M.set { w with pos := w.pos + s.length, log := w.log ++ [s] }
    if s.length < n then setstate true true else pure ()
  else pure ()

/-- `std::istream::operator>>` with what an extractor does -/
def extract (f : Extractor C) : Mem C Unit := do
  let ok ← sentry
  if ok then do
    let w ← M.get
    let r := f (w.text.drop w.pos)
    let s := (w.text.drop w.pos).take r.1
    M.set { w with pos := w.pos + s.length, log := w.log ++ [s] }
    setstate r.2.1 r.2.2
  else pure ()

/-- `std::istream::tellg` -/
def tellg : Mem C (Option Nat) := do
  let _ ← sentry
  let w ← M.get
  if w.fail then pure none else pure (some w.pos)

/-- `std::istream::seekg(pos)` -/
def seekg (p : Option Nat) : Mem C Unit := do
  let w ← M.get
  clearTo false w.fail
  let _ ← sentry
  let w ← M.get
  if w.fail then pure ()
  else match p with
    | some n => if n ≤ w.text.length then M.set { w with pos := n } else setstate false true
    | none => setstate false true

/-- `basic_redirect_rstream(in, pos)` (rstream.hpp:117-123): gives `m_restore` -/
def openRedirect (p : Nat) : Mem C (Option Nat) := do
  let r ← tellg
  seekg (some p)
  pure r

/-- `~basic_redirect_rstream` (rstream.hpp:125-128) -/
def closeRedirect (r : Option Nat) : Mem C Unit := seekg r

/-- `basic_rstream::read` (rstream.hpp:87-91) -/
def rread (n : Nat) : Mem C Unit := read n

/-- `operator>>` (rstream.hpp:99-104) -/
def rextract (f : Extractor C) : Mem C Unit := extract f

/-- How a part of a program ends, in the model: also by `std::terminate`, or with undefined behaviour. -/
inductive Out (C : Type) where
  | left (e : End) (w : Stream C)
  | terminated
  | ub

/-- a call in a program -/
def call {α : Type} (m : Mem C α) (w : Stream C) : Out C :=
  match m w with
  | .ok _ w => .left .normal w
  | .throw _ w => .left .exception w
  | .ub => .ub

/-- a destructor at the end of a scope that was left by `e` -/
def atExit (e : End) (m : Mem C Unit) (w : Stream C) : Out C :=
  match m w with
  | .ok _ w => .left e w
  | .throw _ _ => .terminated
  | .ub => .ub

/-- a program -/
def exec : Prog C → Stream C → Out C
  | .skip, w => .left .normal w
  | .read n, w => call (rread n) w
  | .extract f, w => call (rextract f) w
  | .redirect p body, w =>
    match openRedirect p w with
    | .ok r w =>
      match exec body w with
      | .left e w => atExit e (closeRedirect r) w
      | o => o
    | .throw _ w => .left .exception w
    | .ub => .ub
  | .seq a b, w =>
    match exec a w with
    | .left .normal w => exec b w
    | o => o
  | .attempt a b, w =>
    match exec a w with
    | .left .exception w => exec b w
    | o => o
  | .raise, w => .left .exception w
  | .clear, w => call (clearTo false false) w

end Itlib.RStream.Scope
