import Verif.TimeT.Model

/-!
# The model of `time_t` against the unit tests of the library

Tests of the model, not proofs: the calls of "[time_t] basic and arithmetic" (`test/t-time_t-11.cpp`:8-41) and the call of `strftime` (line 69) are
run on the model. The conversions to and from `std::tm` belong to the C library and are not in the model.
-/
namespace Itlib.Conformance.TimeT
open Itlib Itlib.TimeT

def passes (l : List (Op × Reply)) : Bool :=
  match run (l.map (·.1)) fun _ => 0 with
  | some (rs, _) => rs == l.map (·.2)
  | none => false

/-- `std::chrono::milliseconds(1800)` -/
def ms1800 : Dur := ⟨1, 1000, 1800⟩

/-- t-time_t-11.cpp:15-40; `t` is 0, `sum` is 1, `tt` is 2, `t2` is 3 -/
example : passes [(.fromSeconds 0 100, .unit), (.add 1 0 ms1800, .unit), (.seconds 1, .num 101), (.gt 1 0, .bool true), (.ge 1 0, .bool true),
    (.sub 1 0 ms1800, .unit), (.seconds 1, .num 99), (.lt 1 0, .bool true), (.le 1 0, .bool true), (.copy 2 1, .unit),
    (.addAssign 1 ms1800, .unit), (.eq 1 0, .bool true), (.le 1 0, .bool true), (.ge 1 0, .bool true),
    (.subAssign 1 ms1800, .unit), (.eq 1 2, .bool true), (.le 1 2, .bool true), (.ge 1 2, .bool true),
    (.fromSeconds 3 200, .unit), (.diff 3 0, .num 100)] = true := by
  decide +kernel

/-- `"Monday 09/10/01 05:33:20"` (t-time_t-11.cpp:69-71): the C library gives the text, `strftime` must return just that -/
def monday : List Nat := "Monday 09/10/01 05:33:20".toList.map Char.toNat

example : (match strftime 1000 ⟨monday, fun _ => []⟩ 0 () with | .ok s _ => s == monday && s.length == 24 | _ => false) = true := by
  decide +kernel

end Itlib.Conformance.TimeT
