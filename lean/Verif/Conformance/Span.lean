import Verif.Span.Model
import Verif.StrideSpan.Model
import Verif.MemView.Model

/-!
# The models of `span`, `stride_span`, `poly_span` and `memory_view` against the unit tests of the library

Tests of the model, not proofs: the calls of `test/t-span-11.cpp`, `test/t-stride_span-11.cpp`,
`test/t-poly_span-11.cpp` and `test/t-memory_view-11.cpp` are run on the models, which must give what the
tests check. The arrays are of 4-byte integers at address 1000; where a test compares iterators, the elements are read from first to last.
Not transcribed: `size_bytes`, `as_bytes`, types, and iterator arithmetic.
-/
namespace Itlib.Conformance.Span
open Itlib Itlib.View

/-- calls on views of `arr`, elements `pitch` bytes apart, with what the test expects of each -/
def passes {S Mk : Type} (I : Impl S Mk) (arr : List Nat) (pitch : Nat) (l : List (Op Nat Mk × Reply Nat)) : Bool :=
  match run I (fun _ x => x) (fun _ _ r => r) (l.map (·.1))
      ⟨fun a => if 1000 ≤ a ∧ (a - 1000) % pitch = 0 then arr[(a - 1000) / pitch]? else none, fun _ => I.null⟩ with
  | some (rs, _) => rs == l.map (·.2)
  | none => false

section
variable {Mk : Type}
/-- a view that is not null, with its elements -/
def has (k : Nat) (l : List Nat) : List (Op Nat Mk × Reply Nat) :=
  [(.bool k, .bool true), (.size k, .num l.length), (.empty k, .bool l.isEmpty), (.toList k, .list l), (.toListRev k, .list l.reverse)]
/-- a null view -/
def isNull (k : Nat) : List (Op Nat Mk × Reply Nat) :=
  [(.bool k, .bool false), (.size k, .num 0), (.empty k, .bool true), (.toList k, .list []), (.toListRev k, .list [])]

/-- `test_slicing` (t-span-11.cpp:172-210, t-stride_span-11.cpp:195-233) of view 0, which shows 6 to 10 -/
def slicing : List (Op Nat Mk × Reply Nat) :=
  [(.sub 1 0 10 none, .unit)] ++ has 1 [] ++ [(.sub 1 0 1 none, .unit)] ++ has 1 [7, 8, 9, 10] ++ [(.sub 1 0 3 (some 1), .unit)] ++ has 1 [9] ++
  [(.first 1 0 3, .unit)] ++ has 1 [6, 7, 8] ++ [(.last 1 0 2, .unit)] ++ has 1 [9, 10] ++
  [(.copy 1 0, .unit), (.removePrefix 1 2, .unit)] ++ has 1 [8, 9, 10] ++ [(.removeSuffix 1 2, .unit)] ++ has 1 [8]
end

/-- "[span] construction", arrays: t-span-11.cpp:17-64 -/
example : passes (Itlib.Span.impl 4 1000 4) [0, 2, 3, 4] 4 ([(.null 0, .unit)] ++ isNull 0 ++ [(.make 1 .whole, .unit)] ++ has 1 [0, 2, 3, 4] ++
    [(.set 1 0 1, .unit), (.front 1, .val 1), (.get 1 0, .val 1), (.make 2 .whole, .unit)] ++ has 2 [1, 2, 3, 4]) = true := by
  decide +kernel

/-- "[span] construction", "make_span", "copy-ctor and assign", vectors: t-span-11.cpp:66-78, 87-110, 150-169 -/
example : passes (Itlib.Span.impl 4 1000 3) [1, 2, 3] 4 ([(.make 0 .whole, .unit)] ++ has 0 [1, 2, 3] ++ [(.make 1 (.ptrSize 0 3), .unit)] ++
    has 1 [1, 2, 3] ++ [(.make 1 (.range 0 3), .unit)] ++ has 1 [1, 2, 3] ++ [(.copy 2 0, .unit)] ++ has 2 [1, 2, 3] ++ [(.null 3, .unit),
    (.copy 3 2, .unit)] ++ has 3 [1, 2, 3] ++ [(.set 0 2 17, .unit), (.back 0, .val 17), (.get 3 2, .val 17)]) = true := by
  decide +kernel

/-- "[span] slicing": t-span-11.cpp:215-217 -/
example : passes (Itlib.Span.impl 4 1000 5) [6, 7, 8, 9, 10] 4 ((.make 0 .whole, .unit) :: slicing) = true := by decide +kernel

/-- "[stride_span] construction and iteration": t-stride_span-11.cpp:17-24, 38-102 -/
example : passes (Itlib.StrideSpan.impl 4 4 1000 8) [1, 11, 2, 22, 3, 33, 4, 44] 4 ([(.null 0, .unit)] ++ isNull 0 ++
    [(.make 1 (.buf 0 2 4), .unit)] ++ has 1 [1, 2, 3, 4] ++ [(.front 1, .val 1), (.back 1, .val 4), (.get 1 0, .val 1), (.set 1 1 5, .unit),
    (.make 2 (.buf 1 2 4), .unit)] ++ has 2 [11, 22, 33, 44] ++ [(.front 2, .val 11), (.back 2, .val 44), (.get 2 0, .val 11),
    (.make 3 (.buf 0 1 8), .unit), (.get 3 2, .val 5)]) = true := by
  decide +kernel

/-- "[stride_span] algorithm": t-stride_span-11.cpp:107-123 -/
example : passes (Itlib.StrideSpan.impl 4 4 1000 9) [1, 2, 3, 4, 5, 6, 7, 8, 9] 4 ([(.make 0 (.buf 0 2 5), .unit), (.front 0, .val 1),
    (.get 0 1, .val 3), (.back 0, .val 9)] ++ has 0 [1, 3, 5, 7, 9]) = true := by
  decide +kernel

/-- "[stride_span] make_stride_span", arrays: t-stride_span-11.cpp:144-159 -/
example : passes (Itlib.StrideSpan.impl 4 4 1000 8) [1, 11, 2, 22, 3, 33, 4, 44] 4 [(.make 0 (.array 0 2), .unit), (.size 0, .num 4),
    (.get 0 0, .val 1), (.back 0, .val 4), (.make 0 (.array 1 2), .unit), (.size 0, .num 4), (.get 0 0, .val 11), (.back 0, .val 44)] = true := by
  decide +kernel

/-- "[stride_span] make_stride_span", stride 3: t-stride_span-11.cpp:162-171 -/
example : passes (Itlib.StrideSpan.impl 4 4 1000 10) [0, 1, 2, 3, 4, 5, 6, 7, 8, 9] 4 [(.make 0 (.array 0 3), .unit), (.size 0, .num 4),
    (.get 0 0, .val 0), (.back 0, .val 9), (.make 0 (.array 1 3), .unit), (.size 0, .num 3), (.get 0 0, .val 1), (.back 0, .val 7)] = true := by
  decide +kernel

/-- "[stride_span] make_stride_span", the member `y` of structures of 12 bytes: t-stride_span-11.cpp:175-181 -/
example : passes (Itlib.StrideSpan.impl 4 12 1000 3) [1, 2, 3] 12 ((.make 0 .members, .unit) :: has 0 [1, 2, 3] ++ [(.get 0 1, .val 2),
    (.back 0, .val 3)]) = true := by
  decide +kernel

/-- "[stride_span] slicing": t-stride_span-11.cpp:238-240 -/
example : passes (Itlib.StrideSpan.impl 4 4 1000 9) [6, 0, 7, 0, 8, 0, 9, 0, 10] 4 ((.make 0 (.array 0 2), .unit) :: slicing) = true := by
  decide +kernel

/-- "[memory_view] test", "[const_memory_view] test", arrays: t-memory_view-11.cpp:13-47, 75-106 (`reset` with a pointer and a size sets both members,
as the constructor does) -/
example : passes (Itlib.MemView.impl 4 1000 4) [0, 2, 3, 4] 4 ([(.null 0, .unit)] ++ isNull 0 ++ [(.make 0 (.ptrSize 0 4), .unit)] ++
    has 0 [0, 2, 3, 4] ++ [(.set 0 0 1, .unit), (.front 0, .val 1), (.make 1 (.ptrSize 0 4), .unit)] ++ has 1 [1, 2, 3, 4] ++
    [(.get 1 0, .val 1), (.copy 2 1, .unit)] ++ has 2 [1, 2, 3, 4]) = true := by
  decide +kernel

/-- "[memory_view] test", "[const_memory_view] test", vectors: t-memory_view-11.cpp:49-72, 108-133 -/
example : passes (Itlib.MemView.impl 4 1000 5) [6, 7, 8, 9, 10] 4 ([(.make 0 (.container 0), .unit)] ++ has 0 [6, 7, 8, 9, 10] ++
    [(.make 1 (.container 1), .unit)] ++ has 1 [7, 8, 9, 10]) = true := by
  decide +kernel

/-- "[memory_view] slicing": t-memory_view-11.cpp:136-174 -/
example : passes (Itlib.MemView.impl 4 1000 5) [6, 7, 8, 9, 10] 4 ([(.make 0 (.container 0), .unit), (.sub 1 0 10 none, .unit)] ++ has 1 [] ++
    [(.sub 1 0 1 none, .unit)] ++ has 1 [7, 8, 9, 10] ++ [(.sub 1 0 3 (some 1), .unit)] ++ has 1 [9] ++
    [(.copy 1 0, .unit), (.removePrefix 1 2, .unit)] ++ has 1 [8, 9, 10] ++ [(.removeSuffix 1 2, .unit)] ++ has 1 [8]) = true := by
  decide +kernel

/-- a `selectable` of t-poly_span-11.cpp:30-35 -/
abbrev Selectable := Nat × Nat × Bool
/-- the access function of the tests: the member that it refers to -/
def sel (x : Selectable) : Nat := if x.2.2 then x.1 else x.2.1
def selPut (x : Selectable) (r : Nat) : Selectable := if x.2.2 then (r, x.2) else (x.1, r, x.2.2)

/-- calls on poly_spans of `selectable`s (12 bytes) at 1000; and the array afterwards -/
def poly (arr : List Selectable) (l : List (Op Nat StrideSpan.PolyCtor × Reply Nat)) (after : List Selectable) : Bool :=
  match run (StrideSpan.polyImpl 12 1000) (fun _ => sel) (fun _ => selPut) (l.map (·.1))
      ⟨fun a => if 1000 ≤ a ∧ (a - 1000) % 12 = 0 then arr[(a - 1000) / 12]? else none, fun _ => (StrideSpan.polyImpl 12 1000).null⟩ with
  | some (rs, w) => rs == l.map (·.2) && (List.range arr.length).map (fun i => w.mem (1000 + 12 * i)) == after.map some
  | none => false

/-- "[poly_span] empty", "[poly_span] field": t-poly_span-11.cpp:13-28, 37-70 -/
example : poly [(1, 2, true), (3, 4, false), (5, 6, false), (7, 8, true)] ([(.null 0, .unit)] ++ isNull 0 ++ [(.make 1 (.ptrNum 0 4 0), .unit)] ++
    has 1 [1, 4, 6, 7] ++ [(.front 1, .val 1), (.back 1, .val 7), (.get 1 0, .val 1), (.get 1 1, .val 4), (.get 1 2, .val 6), (.get 1 3, .val 7),
    (.set 1 0 8, .unit), (.set 1 1 8, .unit), (.set 1 2 8, .unit), (.set 1 3 8, .unit)])
    [(8, 2, true), (3, 8, false), (5, 8, false), (8, 8, true)] = true := by
  decide +kernel

/-- "[poly_span] slicing": t-poly_span-11.cpp:156-202 -/
example : poly [(6, 1, true), (1, 7, false), (1, 8, false), (9, 1, true), (10, 1, true)] ((.make 0 (.ptrNum 0 5 0), .unit) :: slicing)
    [(6, 1, true), (1, 7, false), (1, 8, false), (9, 1, true), (10, 1, true)] = true := by
  decide +kernel

end Itlib.Conformance.Span
