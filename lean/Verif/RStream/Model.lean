import Verif.Core.Outcome

/-!
# Model of `itlib::rstream` and `itlib::redirect_rstream` (include/itlib/rstream.hpp)

The wrapped stream is a `std::istream` over a seekable text: its contents, its position and its state bits. The functions of
`std::istream` used by the code are modelled after the C++11 standard ([istream.unformatted]); streams with a nonzero
exception mask and `operator>>` (off by default) are in Scope.lean.
-/
namespace Itlib.RStream
open Itlib

/-- The stream, and the positions remembered by the live `redirect_rstream`s, innermost first (`m_restore`, 120). -/
structure World (C : Type) where
  text : List C
  pos : Nat
  eof : Bool
  fail : Bool
  restore : List (Option Nat)

variable {C : Type}

abbrev Mem (C : Type) := M (World C)

/-- `good()` -/
def good (w : World C) : Bool := !w.eof && !w.fail

/-- the sentry of unformatted input: a stream that is not good gets failbit -/
def sentry : Mem C Bool := do
  let w ← M.get
  if good w then pure true else do
    M.set { w with fail := true }
    pure false

/-- `std::istream::read`: short reads set eofbit and failbit -/
def read (n : Nat) : Mem C (List C) := do
  let ok ← sentry
  if ok then do
    let w ← M.get
    let s := (w.text.drop w.pos).take n
    M.set { w with pos := w.pos + s.length, eof := decide (s.length < n), fail := decide (s.length < n) }
    pure s
  else pure []

/-- `std::istream::peek`: eofbit at the end -/
def peek : Mem C (Option C) := do
  let ok ← sentry
  if ok then do
    let w ← M.get
    match w.text[w.pos]? with
    | some c => pure (some c)
    | none => do
      M.set { w with eof := true }
      pure none
  else pure none

/-- `std::istream::tellg`: `none` is the position -1 -/
def tellg : Mem C (Option Nat) := do
  let _ ← sentry
  let w ← M.get
  if w.fail then pure none else pure (some w.pos)

/-- `std::istream::seekg(pos)`: clears eofbit; nothing happens if the stream has failed; a position that does not exist sets
failbit -/
def seekg (p : Option Nat) : Mem C Unit := do
  M.modify fun w => { w with eof := false }
  let _ ← sentry
  let w ← M.get
  if w.fail then pure ()
  else match p with
    | some n => if n ≤ w.text.length then M.set { w with pos := n } else M.set { w with fail := true }
    | none => M.set { w with fail := true }

/-- `std::ios::clear()` -/
def clear : Mem C Unit := M.modify fun w => { w with eof := false, fail := false }

/-- `basic_redirect_rstream(in, pos)` (rstream.hpp:117-123) -/
def openRedirect (p : Nat) : Mem C Unit := do
  let r ← tellg
  M.modify fun w => { w with restore := r :: w.restore }
  seekg (some p)

/-- `~basic_redirect_rstream` (rstream.hpp:125-128) of the innermost redirect -/
def closeRedirect : Mem C Unit := do
  let w ← M.get
  match w.restore with
  | [] => .undef
  | r :: rest => do
    seekg r
    M.modify fun w => { w with restore := rest }

/-- `basic_rstream::read` (rstream.hpp:87-91) -/
def rread (n : Nat) : Mem C (List C) := read n

/-- `basic_rstream::fail` (rstream.hpp:93), `operator bool` (rstream.hpp:94) -/
def rfail : Mem C Bool := do let w ← M.get; pure w.fail
/-- `basic_rstream::good` (rstream.hpp:95) -/
def rgood : Mem C Bool := do let w ← M.get; pure (good w)
/-- `basic_rstream::eof` (rstream.hpp:96) -/
def reof : Mem C Bool := do let w ← M.get; pure w.eof

end Itlib.RStream
