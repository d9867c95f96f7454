import Verif.Core.Outcome
import Mathlib.Logic.Function.Basic

/-!
# Model of `include/itlib/time_t.hpp`

Time stamps are 64-bit signed integers; overflow is undefined behaviour. Durations are counts (of a signed integer type of at
most 64 bits) of `num/den` seconds, `num/den` in lowest terms as `std::ratio` has it; `std::chrono::duration_cast` to seconds
is modelled after the standard: the multiplication and the division it needs, in `int64_t`. `std::strftime` is a function of
its result `text` (determined by format, time and locale): it writes the text and a terminating null if that fits into the
buffer, and returns the length; otherwise it returns 0 and leaves the buffer with unspecified contents (`junk`).
`std::string::resize` throws if the size is greater than `maxSize`.

Not modelled: durations with floating point or unsigned 64-bit counts, `gmtime`, `localtime`, `from_gmtime`,
`from_localtime`, `now` (calls of the C library).
-/
namespace Itlib.TimeT
open Itlib

/-- `std::chrono::duration<Rep, std::ratio<num, den>>` -/
structure Dur where
  num : Nat
  den : Nat
  count : Int

/-- the result of an `int64_t` operation; overflow is undefined behaviour -/
def chk {σ : Type} (x : Int) : M σ Int :=
  if -9223372036854775808 ≤ x ∧ x < 9223372036854775808 then pure x else .undef

/-- `dc` (time_t.hpp 159-163): `duration_cast<duration<int64_t>>(d).count()` -/
def dc {σ : Type} (d : Dur) : M σ Int :=
  if d.num = 1 ∧ d.den = 1 then pure d.count
  else if d.den = 1 then chk (d.count * d.num)
  else if d.num = 1 then pure (Int.tdiv d.count d.den)
  else do
    let x ← chk (d.count * d.num)
    pure (Int.tdiv x d.den)

/-- objects of class `time_t`: `m_t` (time_t.hpp:165) -/
abbrev Vars := Nat → Int

def setVar (k : Nat) (x : Int) : M Vars Unit := M.modify fun w => Function.update w k x

/-- a call -/
inductive Op where
  /-- `time_t(s)`, `from_seconds(s)` (time_t.hpp:80-83, time_t.hpp:91) into object `k` -/
  | fromSeconds (k : Nat) (s : Int)
  | copy (k j : Nat)
  | addAssign (k : Nat) (d : Dur)
  | subAssign (k : Nat) (d : Dur)
  | add (k j : Nat) (d : Dur)
  | sub (k j : Nat) (d : Dur)
  | diff (a b : Nat)
  | seconds (k : Nat)
  | eq (a b : Nat)
  | ne (a b : Nat)
  | lt (a b : Nat)
  | le (a b : Nat)
  | gt (a b : Nat)
  | ge (a b : Nat)

inductive Reply where
  | unit
  | num (x : Int)
  | bool (b : Bool)
  deriving DecidableEq

def exec : Op → M Vars Reply
  | .fromSeconds k s => do setVar k s; pure .unit
  | .copy k j => do let w ← M.get; setVar k (w j); pure .unit
  /- `operator+=` (time_t.hpp:123) -/
  | .addAssign k d => do
    let w ← M.get
    let x ← dc d
    let s ← chk (w k + x)
    setVar k s
    pure .unit
  /- `operator-=` (time_t.hpp:127) -/
  | .subAssign k d => do
    let w ← M.get
    let x ← dc d
    let s ← chk (w k - x)
    setVar k s
    pure .unit
  /- `operator+` (time_t.hpp:125) -/
  | .add k j d => do
    let w ← M.get
    let x ← dc d
    let s ← chk (w j + x)
    setVar k s
    pure .unit
  /- `operator-` (time_t.hpp:129) -/
  | .sub k j d => do
    let w ← M.get
    let x ← dc d
    let s ← chk (w j - x)
    setVar k s
    pure .unit
  /- `operator-` of two times (time_t.hpp:131) -/
  | .diff a b => do
    let w ← M.get
    let s ← chk (w a - w b)
    pure (.num s)
  /- `seconds_since_epoch` (time_t.hpp:89) -/
  | .seconds k => do let w ← M.get; pure (.num (w k))
  /- comparisons (time_t.hpp:114-119) -/
  | .eq a b => do let w ← M.get; pure (.bool (w a == w b))
  | .ne a b => do let w ← M.get; pure (.bool (w a != w b))
  | .lt a b => do let w ← M.get; pure (.bool (w a < w b))
  | .le a b => do let w ← M.get; pure (.bool (w a ≤ w b))
  | .gt a b => do let w ← M.get; pure (.bool (w a > w b))
  | .ge a b => do let w ← M.get; pure (.bool (w a ≥ w b))

/-- A history; `none` is undefined behaviour. -/
def run : List Op → Vars → Option (List Reply × Vars)
  | [], w => some ([], w)
  | op :: ops, w =>
    match exec op w with
    | .ok r w => (run ops w).map fun p => (r :: p.1, p.2)
    | _ => none

/-! ### strftime -/

/-- the C library's `strftime` for a format, time and locale -/
structure Fmt where
  text : List Nat
  /-- contents of a buffer that was too small -/
  junk : Nat → List Nat

/-- a call of `std::strftime` with a buffer of size `n`: the return value and the buffer -/
def Fmt.call (f : Fmt) (buf : List Nat) : Nat × List Nat :=
  if f.text.length < buf.length then (f.text.length, f.text ++ 0 :: buf.drop (f.text.length + 1))
  else (0, (f.junk buf.length).take buf.length ++ buf.drop (f.junk buf.length).length)

/-- `std::string::resize` -/
def resize (maxSize n : Nat) (s : List Nat) : M Unit (List Nat) :=
  if maxSize < n then .raise .badAlloc else pure (s.take n ++ List.replicate (n - s.length) 0)

/-- the loop (time_t.hpp 173) -/
def strftimeLoop (maxSize : Nat) (f : Fmt) : Nat → List Nat → M Unit (List Nat)
  | fuel, ret =>
    let r := f.call ret
    if r.1 = 0 then
      match fuel with
      | 0 => .undef
      | fuel + 1 => do
        let ret ← resize maxSize (2 * r.2.length) r.2
        strftimeLoop maxSize f fuel ret
    else resize maxSize r.1 r.2

/-- `strftime` (time_t.hpp 168-176) -/
def strftime (maxSize : Nat) (f : Fmt) (fuel : Nat) : M Unit (List Nat) := do
  let ret ← resize maxSize 128 []
  strftimeLoop maxSize f fuel ret

end Itlib.TimeT
