import Verif.Core.Outcome

/-!
# Model of `itlib::mem_istreambuf` (include/itlib/mem_streambuf.hpp, lines 204-267)

A range of memory is a machine address and the characters there (`Range`); a character takes `sz` bytes. The get area is
`eback` (the start), `gptr` and `egptr`; `gptr` is kept as an offset in characters. Reading a character outside of the range
and moving the pointer outside of it are undefined behaviour. `xsgetn` compares addresses; the sum `gptr + count` is
computed modulo 2^64 (that forming such a pointer is already undefined behaviour for the standard is not modelled).
-/
namespace Itlib.MemIn
open Itlib

/-- A readable range of memory. The range lies in the address space: `addr + length * sz < 2^64`. -/
structure Range (C : Type) where
  addr : Nat
  chars : List C

/-- `eback` and `egptr` (the range), `gptr` (offset in characters). -/
structure Buf (C : Type) where
  range : Range C
  off : Nat

variable {C : Type} (sz : Nat)

abbrev Mem (C : Type) := M (Buf C)

/-- address of `gptr` -/
def Buf.gptr (b : Buf C) : Nat := b.range.addr + b.off * sz
/-- address of `egptr` -/
def Buf.egptr (b : Buf C) : Nat := b.range.addr + b.range.chars.length * sz

/-- `setg(eback(), p, egptr())` with `p` given as offset; it must stay in the range -/
def setg (o : Int) : Mem C Unit := do
  let b ← M.get
  if 0 ≤ o ∧ o ≤ b.range.chars.length then M.set { b with off := o.toNat } else .undef

/-- `mem_istreambuf()` (mem_streambuf.hpp:216): null pointers -/
def defaultCtor : Mem C Unit := M.set ⟨⟨0, []⟩, 0⟩

/-- `reset` (mem_streambuf.hpp:223-227) and the constructor from a range (mem_streambuf.hpp:218-221) -/
def reset (r : Range C) : Mem C Unit := M.set ⟨r, 0⟩

/-- `goff` (mem_streambuf.hpp:230-233) -/
def goff : Mem C Nat := do
  let b ← M.get
  pure b.off

/-- `size` (mem_streambuf.hpp:235-238) -/
def size : Mem C Nat := do
  let b ← M.get
  pure b.range.chars.length

/-- `seekpos` (mem_streambuf.hpp:241-245) -/
def seekpos (sp : Int) : Mem C Int := do
  setg sp
  pure sp

inductive Way where
  | beg | cur | end
  deriving DecidableEq

/-- `seekoff` (mem_streambuf.hpp:247-253) -/
def seekoff (off : Int) (way : Way) : Mem C Int := do
  match way with
  | .cur => do
    let o ← goff
    seekpos (o + off)
  | .beg => seekpos off
  | .end => do
    let n ← size
    seekpos (n + off)

/-- read one character at an offset -/
def charAt (o : Nat) : Mem C C := do
  let b ← M.get
  match b.range.chars[o]? with
  | some c => pure c
  | none => .undef

/-- `memcpy(s, gptr, count)` -/
def copyFrom (o n : Nat) : Mem C (List C) := do
  let b ← M.get
  if o + n ≤ b.range.chars.length then pure ((b.range.chars.drop o).take n) else .undef

/-- `xsgetn` (mem_streambuf.hpp:255-266); the result is what was copied -/
def xsgetn (count : Nat) : Mem C (List C) := do
  let b ← M.get
  let n := if b.egptr sz < (b.gptr sz + count * sz) % 18446744073709551616 then b.range.chars.length - b.off else count
  let s ← copyFrom b.off n
  setg (b.off + n)
  pure s

/-- `std::basic_streambuf::sgetc`: the character at `gptr`, or `underflow` (the default: end of file) -/
def sgetc : Mem C (Option C) := do
  let b ← M.get
  if b.off < b.range.chars.length then do
    let c ← charAt b.off
    pure (some c)
  else pure none

/-- `std::basic_streambuf::sbumpc`: `sgetc` and advance -/
def sbumpc : Mem C (Option C) := do
  let b ← M.get
  if b.off < b.range.chars.length then do
    let c ← charAt b.off
    setg (b.off + 1)
    pure (some c)
  else pure none

/-- `std::basic_streambuf::sputbackc`: step back if the character before `gptr` is `c`, else `pbackfail` (the default: fail) -/
def sputbackc [DecidableEq C] (c : C) : Mem C Bool := do
  let b ← M.get
  if 0 < b.off then do
    let c' ← charAt (b.off - 1)
    if c = c' then do
      setg ((b.off : Int) - 1)
      pure true
    else pure false
  else pure false

end Itlib.MemIn
