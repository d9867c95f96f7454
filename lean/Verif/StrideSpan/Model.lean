import Verif.View.Exec

/-!
# Model of `itlib::stride_span` and `itlib::poly_span` (include/itlib/stride_span.hpp, include/itlib/poly_span.hpp)

A stride_span is a 64-bit address, a stride in bytes and a number of elements; a poly_span has an access function besides
(a number here, `View.Spec` says what the functions do). The code of the two classes is the same otherwise.
Arithmetic is modulo 2^64 as for `Span`. The debug assertions of `at` are not modelled;
nor are the arrow operator and `ptr()` of the iterators (the address `p`).
-/
namespace Itlib.StrideSpan
open Itlib View

/-- `m_begin`, `m_stride`, `m_num_elements` (stride_span.hpp:327-329), `m_poly_func` (poly_span.hpp:348-351) -/
structure SSpan where
  beg : Nat
  stride : Nat
  num : Nat
  fn : Nat

/-- default constructor (stride_span.hpp:104, poly_span.hpp:120): the stride is `sizeof(T)` / 1 -/
def null (sz : Nat) : SSpan := ⟨0, sz, 0, 0⟩

/-- constructor (stride_span.hpp:106-110, poly_span.hpp:341-346) -/
def mk' (p stride num fn : Nat) : SSpan := ⟨p, stride, num, fn⟩

/-- `operator bool` (stride_span.hpp:133-136, poly_span.hpp:145-148) -/
def bool (s : SSpan) : Bool := s.beg != 0

/-- `at` (stride_span.hpp:138-148, poly_span.hpp:151-162), `operator[]` (stride_span.hpp:150-158, poly_span.hpp:164-172): the address -/
def at' (s : SSpan) (i : Nat) : Nat := wadd s.beg (wmul s.stride i)

/-- `front` (stride_span.hpp:160-168, poly_span.hpp:174-182) -/
def front (s : SSpan) : Nat := at' s 0

/-- `back` (stride_span.hpp:170-178, poly_span.hpp:184-192) -/
def back (s : SSpan) : Nat := at' s (wsub s.num 1)

/-- `empty` (stride_span.hpp:281-284, poly_span.hpp:295-298) -/
def empty (s : SSpan) : Bool := s.num == 0

/-- `end` (stride_span.hpp:245-258, poly_span.hpp:259-272), the address -/
def fin (s : SSpan) : Nat := wadd s.beg (wmul s.num s.stride)

/-- `subspan` (stride_span.hpp:297-303, poly_span.hpp:311-317) -/
def subspan (s : SSpan) (off : Nat) (cnt : Option Nat) : SSpan :=
  let count := cnt.getD 18446744073709551615
  if s.num < off then mk' (wadd s.beg (wmul s.num s.stride)) s.stride 0 s.fn
  else
    let newSize := wsub s.num off
    mk' (wadd s.beg (wmul off s.stride)) s.stride (if newSize < count then newSize else count) s.fn

/-- `first` (stride_span.hpp:305-308, poly_span.hpp:319-322) -/
def first (s : SSpan) (n : Nat) : SSpan := subspan s 0 (some n)

/-- `last` (stride_span.hpp:310-313, poly_span.hpp:324-327) -/
def last (s : SSpan) (n : Nat) : SSpan := subspan s (wsub s.num n) (some n)

/-- `remove_prefix` (stride_span.hpp:315-319, poly_span.hpp:329-333) -/
def removePrefix (s : SSpan) (n : Nat) : SSpan := { s with beg := wadd s.beg (wmul n s.stride), num := wsub s.num n }

/-- `remove_suffix` (stride_span.hpp:321-324, poly_span.hpp:335-338) -/
def removeSuffix (s : SSpan) (n : Nat) : SSpan := { s with num := wsub s.num n }

/-! ### Iterators (stride_span.hpp:191-223, poly_span.hpp:205-237) -/

/-- `t_iterator` (stride_span.hpp:194-198, poly_span.hpp:209-213) -/
structure Iter where
  p : Nat
  stride : Nat

/-- `begin` (stride_span.hpp:230-243, poly_span.hpp:244-257) -/
def beginIt (s : SSpan) : Iter := ⟨s.beg, s.stride⟩
/-- `end` (stride_span.hpp:245-258, poly_span.hpp:259-272) -/
def endIt (s : SSpan) : Iter := ⟨fin s, s.stride⟩
/-- `operator++` (stride_span.hpp:210, poly_span.hpp:224) -/
def Iter.incr (i : Iter) : Iter := { i with p := wadd i.p i.stride }
/-- `operator--` (stride_span.hpp:211, poly_span.hpp:225) -/
def Iter.decr (i : Iter) : Iter := { i with p := wsub i.p i.stride }
/-- `operator+=` (stride_span.hpp:212, poly_span.hpp:226), `operator+` (stride_span.hpp:214, poly_span.hpp:228); the signed argument is converted for the multiplication with a `size_t` -/
def Iter.add (i : Iter) (d : Int) : Iter := { i with p := wadd i.p (wmul (ofInt d) i.stride) }
/-- `operator-=` (stride_span.hpp:213, poly_span.hpp:227), `operator-` (stride_span.hpp:215, poly_span.hpp:229) -/
def Iter.sub (i : Iter) (d : Int) : Iter := { i with p := wsub i.p (wmul (ofInt d) i.stride) }
/-- `operator-` of two iterators (stride_span.hpp:216, poly_span.hpp:230): the signed difference in bytes is converted to `size_t` for the division by a
`size_t`, the quotient to a signed number; `none` is the division by 0 -/
def Iter.diff (i j : Iter) : Option Int := if i.stride = 0 then none else some (toSigned (wsub i.p j.p / i.stride))
/-- `operator==` (stride_span.hpp:217, poly_span.hpp:231) -/
def Iter.eq (i j : Iter) : Bool := i.p == j.p
/-- `operator<` (stride_span.hpp:219, poly_span.hpp:233); `>`, `<=`, `>=` are of the same form -/
def Iter.lt (i j : Iter) : Bool := i.p < j.p
/-- `operator<=` (stride_span.hpp:221, poly_span.hpp:235) -/
def Iter.le (i j : Iter) : Bool := i.p ≤ j.p

/-! ### The make functions -/

/-- Constructor calls of stride_span over the array at hand; its elements are `pitch` bytes apart (`sizeof(T)`, or
`sizeof(Struct)` for member views and `sizeof(Derived)` for base views, with the address of the first member or base). -/
inductive Ctor where
  /-- `make_stride_span_from_array(ar, n, noffset, nstride)` (stride_span.hpp:348-354) -/
  | array (off step : Nat)
  /-- the constructor, `make_stride_span_from_buf` (stride_span.hpp:332-347): element `off`, the stride of `step` elements, a number of elements -/
  | buf (off step len : Nat)
  /-- `make_stride_span_member_view` (stride_span.hpp:356-368), `make_stride_span_base_view` (stride_span.hpp:370-376) -/
  | members

/-- `(ar_length - noffset + nstride - 1) / nstride` (stride_span.hpp:353) -/
def arrayCount (n off step : Nat) : Nat := wsub (wadd (wsub n off) step) 1 / step

/-- The member functions, given the constructors. -/
def implOf {Mk : Type} (sz : Nat) (ctor : Mk → SSpan) : Impl SSpan Mk where
  null := null sz
  ctor := ctor
  sub := subspan
  first := some first
  last := some last
  removePrefix := removePrefix
  removeSuffix := removeSuffix
  elem := at'
  front := front
  back := back
  size s := s.num
  empty := empty
  bool := bool
  begin s := s.beg
  fin := fin
  step s := s.stride
  fn s := s.fn

/-- stride_span, over an array of `n` elements at address `a`, `pitch` bytes apart; `sizeof(T)` is `sz`. -/
def impl (sz pitch a n : Nat) : Impl SSpan Ctor :=
  implOf sz fun
    | .array off step => mk' (wadd a (wmul off pitch)) (wmul pitch step) (arrayCount n off step) 0
    | .buf off step len => mk' (a + off * pitch) (step * pitch) len 0
    | .members => mk' a pitch n 0

/-- The constructor of poly_span (poly_span.hpp:132-140): pointer to element `off`, a number of elements, an access function. -/
inductive PolyCtor where
  | ptrNum (off len fn : Nat)

/-- poly_span, over an array of `n` elements of `pitch` bytes at address `a`. -/
def polyImpl (pitch a : Nat) : Impl SSpan PolyCtor :=
  implOf 1 fun
    | .ptrNum off len fn => mk' (a + off * pitch) pitch len fn

end Itlib.StrideSpan
