import Verif.Core.Outcome
import Mathlib.Logic.Function.Basic

/-!
# utility.hpp

Memory is a function from 64-bit addresses to bytes. A trivially copyable type is a size together with a partial reading
of byte strings as values (`none`: the bytes are no value of the type, using them would be undefined behaviour). A type
may have several byte strings for one value (padding, for example), and the language lets a copy of a value have any of
them: the bytes of a copy are chosen by the compiler (`pick` below), only the value is kept.

`force_move` and `make_nullptr` (utility.hpp:69-74, utility.hpp:84-85) are casts without a run-time effect and are not modelled.
-/
namespace Itlib.Utility

abbrev Byte := BitVec 8
abbrev Addr := BitVec 64
abbrev Mem := Addr → Byte

/-- a trivially copyable type -/
structure Ty where
  size : Nat
  Val : Type
  dec : List Byte → Option Val

/-- the bytes of `n` addresses from `a` -/
def Mem.bytes (m : Mem) (a : Addr) (n : Nat) : List Byte := (List.range n).map fun i => m (a + BitVec.ofNat 64 i)

/-- one byte is written -/
def poke (a : Addr) (b : Byte) : M Mem Unit := M.modify fun m => Function.update m a b

/-- one byte is read -/
def peek (a : Addr) : M Mem Byte := fun m => .ok (m a) m

/-- `std::memcpy`, byte by byte from the front: the bytes from index `i` on, `n` of them -/
def memcpy (dst src : Addr) : Nat → Nat → M Mem Unit
  | _, 0 => pure ()
  | i, n + 1 => do
    let b ← peek (src + BitVec.ofNat 64 i)
    poke (dst + BitVec.ofNat 64 i) b
    memcpy dst src (i + 1) n

/-- The bytes of a copy of a value with the bytes `bs`, made by the compiler: any function that keeps values. -/
def Copies (T : Ty) (pick : List Byte → List Byte) : Prop :=
  ∀ bs, bs.length = T.size → (pick bs).length = T.size ∧ T.dec (pick bs) = T.dec bs

/-- utility.hpp:87-93, `bit_cast`: `src` is the address of the argument, `tmp` the one of the local variable `dst`. The
bytes of the result are those of a copy of the local variable. The static assertion of line 89 is the hypothesis on the
sizes in the theorems. -/
def bitCast (Src : Ty) (pick : List Byte → List Byte) (Dst : Ty) (tmp src : Addr) : M Mem (List Byte) := do
  memcpy tmp src 0 Src.size
  let m ← M.get
  pure (pick (m.bytes tmp Dst.size))

/-- A pointer to a data member is the offset of the member from the start of its owner (how compilers for the usual
platforms represent it, and what `->*` adds). The owner of a member at `member` was given in the language by an expression
that needs an object; the code uses a null pointer, so that the language does not define what happens: the model has what
compilers make of it. -/
def memberAddr (owner : Addr) (ptr : Addr) : Addr := owner + ptr

/-- utility.hpp:76-82, `owner_from_member` -/
def ownerFromMember (member : Addr) (ptr : Addr) : Addr :=
  let m_p := member
  let null_owner : Addr := 0
  let m_offset := memberAddr null_owner ptr
  m_p - m_offset

end Itlib.Utility
