import Verif.View.Exec

/-!
# Model of `itlib::span` (include/itlib/span.hpp)

A span is two 64-bit addresses; `sz` is `sizeof(T)`. Pointer arithmetic and `size_t` arithmetic are modulo 2^64 (that
out-of-bounds pointer arithmetic is already undefined behaviour for the standard is not modelled); the difference of two
pointers is a signed number of bytes divided by `sz`. Dereferencing an address without an object is undefined behaviour
(`View.deref`). The debug assertions of `at` are not modelled. The conversions from containers, arrays and non-const spans
(span.hpp:131-147, 156-166) are the constructor from pointer and size or a copy.
-/
namespace Itlib.Span
open Itlib View

/-- `m_begin`, `m_end` (span.hpp:295-296) -/
structure Span where
  beg : Nat
  fin : Nat

variable (sz : Nat)

/-- `span()` (span.hpp:108) -/
def null : Span := ⟨0, 0⟩

/-- `span(begin, end)` (span.hpp:114-117) -/
def fromRange (b e : Nat) : Span := ⟨b, e⟩

/-- `span(begin, size)` (span.hpp:122-124) -/
def fromSize (b n : Nat) : Span := fromRange b (wadd b (wmul n sz))

/-- `at` (span.hpp:171-175), `operator[]` (span.hpp:177-180): the address -/
def at' (s : Span) (i : Nat) : Nat := wadd s.beg (wmul i sz)

/-- `size` (span.hpp:244-247) -/
def size (s : Span) : Nat := ofInt (Int.tdiv (toSigned (wsub s.fin s.beg)) sz)

/-- `empty` (span.hpp:239-242) -/
def empty (s : Span) : Bool := s.beg == s.fin

/-- `operator bool` (span.hpp:166-169) -/
def bool (s : Span) : Bool := s.beg != 0

/-- `front` (span.hpp:182-185) -/
def front (s : Span) : Nat := at' sz s 0

/-- `back` (span.hpp:187-190) -/
def back (s : Span) : Nat := at' sz s (wsub (size sz s) 1)

/-- `size_bytes` (span.hpp:250-253) -/
def sizeBytes (s : Span) : Nat := wmul (size sz s) sz

/-- `as_bytes` (span.hpp:255-258), `as_writable_bytes` (span.hpp:260-263) -/
def asBytes (s : Span) : Span := fromSize 1 s.beg (sizeBytes sz s)

/-- `subspan` (span.hpp:266-272) -/
def subspan (s : Span) (off : Nat) (cnt : Option Nat) : Span :=
  let count := cnt.getD 18446744073709551615
  if s.fin < wadd s.beg (wmul off sz) then fromSize sz s.fin 0
  else
    let newSize := wsub (size sz s) off
    fromSize sz (wadd s.beg (wmul off sz)) (if newSize < count then newSize else count)

/-- `first` (span.hpp:274-277) -/
def first (s : Span) (n : Nat) : Span := subspan sz s 0 (some n)

/-- `last` (span.hpp:279-282) -/
def last (s : Span) (n : Nat) : Span := subspan sz s (wsub (size sz s) n) (some n)

/-- `remove_prefix` (span.hpp:284-287) -/
def removePrefix (s : Span) (n : Nat) : Span := { s with beg := wadd s.beg (wmul n sz) }

/-- `remove_suffix` (span.hpp:289-292) -/
def removeSuffix (s : Span) (n : Nat) : Span := { s with fin := wsub s.fin (wmul n sz) }

/-- Constructor calls over the array at hand (`make_span` 299-321 calls the same constructors). -/
inductive Ctor where
  /-- pointer to element `off`, and a size -/
  | ptrSize (off len : Nat)
  /-- pointers to elements `off` and `e` -/
  | range (off e : Nat)
  /-- the array or container -/
  | whole

/-- The class, over an array of `n` elements at address `a`. -/
def impl (a n : Nat) : Impl Span Ctor where
  null := null
  ctor
    | .ptrSize off len => fromSize sz (a + off * sz) len
    | .range off e => fromRange (a + off * sz) (a + e * sz)
    | .whole => fromSize sz a n
  sub := subspan sz
  first := some (first sz)
  last := some (last sz)
  removePrefix := removePrefix sz
  removeSuffix := removeSuffix sz
  elem := at' sz
  front := front sz
  back := back sz
  size := size sz
  empty := empty
  bool := bool
  begin s := s.beg
  fin s := s.fin
  step _ := sz
  fn _ := 0

end Itlib.Span
