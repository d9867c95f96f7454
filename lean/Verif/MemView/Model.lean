import Verif.View.Exec

/-!
# Model of `itlib::memory_view` and `const_memory_view` (include/itlib/memory_view.hpp)

A view is a 64-bit address and a size; `sz` is `sizeof(T)`. Conventions as for `Span`. The two classes have the same code
(lines of `memory_view` / `const_memory_view` are cited).
-/
namespace Itlib.MemView
open Itlib View

/-- `m_ptr`, `m_size` (memory_view.hpp:334-335 / 494-495) -/
structure MView where
  ptr : Nat
  size : Nat

variable (sz : Nat)

/-- default constructor (memory_view.hpp:157 / 357), `reset()` (memory_view.hpp:170-174 / 376-380) -/
def null : MView := ⟨0, 0⟩

/-- constructor from pointer and size (memory_view.hpp:159-162 / 359-362), `reset(ptr, size)` (memory_view.hpp:170-174 / 376-380) -/
def fromSize (p n : Nat) : MView := ⟨p, n⟩

/-- `reset(size)` (memory_view.hpp:176-179 / 382-385) -/
def resetSize (s : MView) (n : Nat) : MView := { s with size := n }

/-- `operator bool` (memory_view.hpp:181-184 / 387-390) -/
def bool (s : MView) : Bool := s.ptr != 0

/-- `at` (memory_view.hpp:189-199 / 394-398), `operator[]` (memory_view.hpp:201-209 / 400-403): the address -/
def at' (s : MView) (i : Nat) : Nat := wadd s.ptr (wmul i sz)

/-- `front` (memory_view.hpp:211-219 / 405-408) -/
def front (s : MView) : Nat := at' sz s 0

/-- `back` (memory_view.hpp:221-229 / 410-413) -/
def back (s : MView) : Nat := at' sz s (wsub s.size 1)

/-- `end` (memory_view.hpp:257-270 / 432-440) -/
def fin (s : MView) : Nat := wadd s.ptr (wmul s.size sz)

/-- `empty` (memory_view.hpp:303-306 / 463-466) -/
def empty (s : MView) : Bool := s.size == 0

/-- `slice` (memory_view.hpp:314-320 / 474-480) -/
def slice (s : MView) (off : Nat) (cnt : Option Nat) : MView :=
  let count := cnt.getD 18446744073709551615
  if s.size < off then fromSize (wadd s.ptr (wmul s.size sz)) 0
  else
    let newSize := wsub s.size off
    fromSize (wadd s.ptr (wmul off sz)) (if newSize < count then newSize else count)

/-- `remove_prefix` (memory_view.hpp:322-326 / 482-486) -/
def removePrefix (s : MView) (n : Nat) : MView := ⟨wadd s.ptr (wmul n sz), wsub s.size n⟩

/-- `remove_suffix` (memory_view.hpp:328-331 / 488-491) -/
def removeSuffix (s : MView) (n : Nat) : MView := { s with size := wsub s.size n }

/-- Constructor calls over the array at hand. -/
inductive Ctor where
  /-- pointer to element `off`, and a size -/
  | ptrSize (off len : Nat)
  /-- the array (memory_view.hpp:513-516), or a container from an offset (memory_view.hpp:518-528) -/
  | container (offset : Nat)

/-- The class, over an array of `n` elements at address `a`. -/
def impl (a n : Nat) : Impl MView Ctor where
  null := null
  ctor
    | .ptrSize off len => fromSize (a + off * sz) len
    | .container offset => fromSize (wadd a (wmul offset sz)) (wsub n offset)
  sub := slice sz
  first := none
  last := none
  removePrefix := removePrefix sz
  removeSuffix := removeSuffix
  elem := at' sz
  front := front sz
  back := back sz
  size s := s.size
  empty := empty
  bool := bool
  begin s := s.ptr
  fin := fin sz
  step _ := sz
  fn _ := 0

end Itlib.MemView
