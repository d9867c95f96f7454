import Verif.Core.Outcome

/-!
# Model of `itlib::mem_ostreambuf` (include/itlib/mem_streambuf.hpp, lines 98-202)

Characters have an arbitrary type `C`. The container is any contiguous container: its capacity when empty, its growth policy,
its maximum size and whether `data()` is null while it has no memory are parameters (`Container`). Each allocation of the
container gets a new number; a pointer into the container is the number of the allocation and an offset, or null. Pointer
arithmetic that leaves the allocation, arithmetic on dangling pointers, differences between unrelated pointers (null and
non-null included) and writes outside of the container's elements are undefined behaviour.

Failure of the allocator: `Failing.lean`. `memcpy` with a null pointer and length 0 counts as doing nothing.
-/
namespace Itlib.MemOut
open Itlib

/-- The container type. -/
structure Container (C : Type) where
  /-- the value `resize` fills with -/
  fill : C
  /-- `data()` is null while the capacity is 0 (std::vector); otherwise it is never null (std::string, small_vector, ...) -/
  nullEmpty : Bool
  /-- capacity of an empty container -/
  cap0 : Nat
  /-- growth: new capacity from the old one and the requested size -/
  grow : Nat → Nat → Nat
  /-- maximum size, for containers that have one (static_vector); `resize` throws beyond it -/
  max : Option Nat
  /-- the stream's `int_type` has 16 bits (char16_t), otherwise 32 (char, wchar_t, char32_t) -/
  int16 : Bool

/-- Some size is within the maximum. -/
def Container.Fits {C : Type} (K : Container C) (n : Nat) : Prop := ∀ m, K.max = some m → n ≤ m

instance {C : Type} (K : Container C) (n : Nat) : Decidable (K.Fits n) :=
  match h : K.max with
  | none => .isTrue (by simp [Container.Fits, h])
  | some m => if hn : n ≤ m then .isTrue (by intro m' hm; simp_all) else .isFalse (by intro hf; exact hn (hf m h))

/-- What every container satisfies: growing makes room, within the maximum; a container whose `data()` is null when empty has
no capacity then. -/
structure Container.Lawful {C : Type} (K : Container C) : Prop where
  grow_ge : ∀ c n, n ≤ K.grow c n
  grow_fits : ∀ c n, K.Fits n → K.Fits (K.grow c n)
  cap0_fits : K.Fits K.cap0
  null_cap0 : K.nullEmpty = true → K.cap0 = 0

inductive Ptr where
  | null
  | at (gen off : Nat)
  deriving DecidableEq

/-- A `mem_ostreambuf`: the container (`elems`, `cap`, number of its allocation `gen`) and the put area (`pptr`, `epptr`).
`fresh` is the next allocation number. -/
structure Buf (C : Type) where
  elems : List C
  cap : Nat
  gen : Nat
  pptr : Ptr
  epptr : Ptr
  fresh : Nat

variable {C : Type} (K : Container C)

abbrev Mem (C : Type) := M (Buf C)

/-- `m_data.data()` -/
def data : Mem C Ptr := do
  let b ← M.get
  if K.nullEmpty && b.cap == 0 then pure .null else pure (.at b.gen 0)

/-- `p + n` -/
def shift (p : Ptr) (n : Int) : Mem C Ptr := do
  let b ← M.get
  match p with
  | .null => if n = 0 then pure .null else .undef
  | .at g o => if g = b.gen ∧ 0 ≤ (o : Int) + n ∧ (o : Int) + n ≤ b.cap then pure (.at g ((o : Int) + n).toNat) else .undef

/-- `p - q` -/
def diff (p q : Ptr) : Mem C Int := do
  let b ← M.get
  match p, q with
  | .null, .null => pure 0
  | .at g o, .at g' o' => if g = b.gen ∧ g' = b.gen then pure ((o : Int) - o') else .undef
  | _, _ => .undef

/-- `m_data.resize(n)` -/
def resize (n : Nat) : Mem C Unit := do
  let b ← M.get
  if n ≤ b.cap then
    M.set { b with elems := b.elems.take n ++ List.replicate (n - b.elems.length) K.fill }
  else if K.Fits n then
    M.set { b with elems := b.elems ++ List.replicate (n - b.elems.length) K.fill, cap := K.grow b.cap n, gen := b.fresh, fresh := b.fresh + 1 }
  else .raise .outOfRange

/-- `memcpy(p, s, ...)` -/
def copyTo (p : Ptr) (s : List C) : Mem C Unit := do
  let b ← M.get
  match p with
  | .null => if s = [] then pure () else .undef
  | .at g o =>
    if g = b.gen ∧ o + s.length ≤ b.elems.length then
      M.set { b with elems := b.elems.take o ++ s ++ b.elems.drop (o + s.length) }
    else .undef

/-- `setp(p, e)` -/
def setp (p e : Ptr) : Mem C Unit := M.modify fun b => { b with pptr := p, epptr := e }

/-- `pbump(n)` -/
def pbump (n : Int) : Mem C Unit := do
  let b ← M.get
  let p ← shift b.pptr n
  M.modify fun b => { b with pptr := p }

/-- conversion to `int` (32 bits) -/
def toInt32 (n : Int) : Int := (n + 2147483648) % 4294967296 - 2147483648

/-- `int(int_type(n))`, the argument of `pbump` (mem_streambuf.hpp:170) -/
def bumpArg (n : Nat) : Int := if K.int16 then (n : Int) % 65536 else toInt32 n

/-- `poff` (mem_streambuf.hpp:118-121); negative differences do not occur without undefined behaviour, so the conversion to `size_t` is omitted -/
def poff : Mem C Int := do
  let b ← M.get
  let d ← data K
  diff b.pptr d

/-- `cap_resize_by` (mem_streambuf.hpp:191-201) -/
def capResizeBy (n : Nat) : Mem C Unit := do
  let off ← poff K
  let b ← M.get
  resize K (b.elems.length + n)
  let b ← M.get
  resize K b.cap
  let d ← data K
  let p ← shift d off
  let e ← shift d b.cap
  setp p e

/-- the constructor (mem_streambuf.hpp:111-115); the default-constructed container gets allocation number 0 -/
def ctor (reserve : Nat) : Mem C Unit := do
  M.set ⟨[], K.cap0, 0, .null, .null, 1⟩
  let d ← data K
  setp d d
  capResizeBy K reserve

/-- `overflow` (mem_streambuf.hpp:146-154) -/
def overflow (ch : C) : Mem C Unit := do
  capResizeBy K 1
  let b ← M.get
  copyTo b.pptr [ch]
  pbump 1

/-- `std::basic_streambuf::sputc`: store in the put area or call `overflow` -/
def sputc (ch : C) : Mem C Unit := do
  let b ← M.get
  let rem ← diff b.epptr b.pptr
  if 0 < rem then do
    copyTo b.pptr [ch]
    pbump 1
  else overflow K ch

/-- `xsputn` (mem_streambuf.hpp:161-173), reached by `sputn` -/
def xsputn (s : List C) : Mem C Unit := do
  let b ← M.get
  -- remaining_buf_size (156-159)
  let rem ← diff b.epptr b.pptr
  if rem < s.length then capResizeBy K (s.length - rem).toNat
  let b ← M.get
  copyTo b.pptr s
  pbump (bumpArg K s.length)

/-- `seekpos` (mem_streambuf.hpp:175-179) -/
def seekpos (sp : Int) : Mem C Int := do
  let b ← M.get
  let d ← data K
  let p ← shift d (toInt32 sp)
  let e ← shift d b.elems.length
  setp p e
  pure sp

inductive Way where
  | beg | cur | end
  deriving DecidableEq

/-- `seekoff` (mem_streambuf.hpp:181-187) -/
def seekoff (off : Int) (way : Way) : Mem C Int := do
  match way with
  | .cur => do
    let o ← poff K
    seekpos K (o + off)
  | .beg => seekpos K off
  | .end => do
    let b ← M.get
    seekpos K (b.elems.length + off)

/-- `get_container` (mem_streambuf.hpp:128-136); the result of `ret.resize(size)`; `m_data` is a new empty container afterwards -/
def getContainer : Mem C (List C) := do
  let size ← poff K
  let b ← M.get
  M.set { b with elems := [], cap := K.cap0, gen := b.fresh, fresh := b.fresh + 1 }
  setp .null .null
  pure (b.elems.take size.toNat ++ List.replicate (size.toNat - b.elems.length) K.fill)

/-- `clear` (mem_streambuf.hpp:138-142) -/
def clear : Mem C Unit := do
  M.modify fun b => { b with elems := [] }
  let d ← data K
  setp d d

/-- `peek_container` (mem_streambuf.hpp:123-126) -/
def peekContainer : Mem C (List C) := do
  let b ← M.get
  pure b.elems

end Itlib.MemOut
