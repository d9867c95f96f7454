import Verif.BitIter.Model

/-!
# The model of `dynamic_bitset` against the unit tests of the library

Tests of the model, not proofs: the calls of `test/t-dynamic_bitset-11.cpp` are run on the model with words of 32 bits, which must give what the tests
check, the contents of the buffers included. Not transcribed: `word_index`, `bit_index` (written out in the model), the address `data()`, and the
repetition of the iterator tests for `const` bitsets and for more than 64 bits.
-/
namespace Itlib.Conformance.Bitset
open Itlib Itlib.Bitset

abbrev T := Op 32 × Reply

/-- calls with what the test expects of each, and sizes and buffers at the end -/
def passes (l : List T) (final : List (Nat × Nat × List (BitVec 32)) := []) : Bool :=
  match run (l.map (·.1)) fun _ => none with
  | some (rs, st) => rs == l.map (·.2) && final.all fun (i, n, ws) => match st i with
    | some b => b.size == n && b.words == ws
    | none => false
  | none => false

def go (op : Op 32) : T := (op, .unit)
def test (i k : Nat) (v : Bool) : T := (.test i k, .bool v)
/-- `all`, `any`, `none` -/
def quant (i : Nat) (all any : Bool) : List T := [(.all i, .bool all), (.any i, .bool any), (.none i, .bool !any)]
def size (i n : Nat) : T := (.size i, .num n)

/-- "statics": t-dynamic_bitset-11.cpp:12-15, 24-27 -/
example : [3, 32, 63, 64].map (wordSize 32) = [1, 1, 2, 2] ∧ [3, 32, 63, 64].map (wordMask 32) = [0x8, 1, 0x80000000, 1] := by decide +kernel

/-- "test": t-dynamic_bitset-11.cpp:32-140 -/
example : passes ([go (.new 0 0 0), size 0 0, (.empty 0, .bool true)] ++ quant 0 false false ++
    [go (.new 1 123 0), size 1 123, (.empty 1, .bool false), (.none 1, .bool true), test 1 77 false, go (.set 1 77), test 1 77 true,
    go (.reset 1 77), test 1 77 false, go (.flip 1 77), test 1 77 true, go (.setTo 1 77 false), test 1 77 false, go (.setTo 1 77 true),
    test 1 77 true, go (.clone 2 1), size 2 123, (.empty 2, .bool false), test 2 77 true] ++ quant 2 false true ++
    [go (.move 3 1), (.empty 1, .bool true), size 1 0, size 3 123, test 3 77 true, go (.copyAssign 1 3), size 1 123, (.empty 1, .bool false),
    test 1 77 true, go (.move 2 3), (.empty 3, .bool true), size 3 0, size 2 123, test 2 77 true, (.any 2, .bool true)] ++
    ((List.range 123).map fun k => go (.setTo 2 k true)) ++ [(.all 2, .bool true)] ++
    ((List.range 123).map fun k => go (.flip 2 k)) ++ [(.none 2, .bool true), go (.pushBack 2 true), (.any 2, .bool true),
    go (.pushBack 2 true), go (.pushBack 2 true), go (.pushBack 2 true), go (.pushBack 2 true), size 2 128, (.any 2, .bool true), test 2 0 false,
    test 2 55 false, test 2 124 true, test 2 127 true, go (.pushBack 2 true), size 2 129, (.any 2, .bool true), test 2 0 false, test 2 55 false,
    test 2 124 true, test 2 127 true, test 2 128 true, go (.clone 4 2)] ++
    ((List.range 129).map fun k => test 4 k (decide (123 ≤ k)))) [(4, 129, [0, 0, 0, 0xf8000000, 1])] = true := by
  decide +kernel

/-- `byte_size`, `word_size`: t-dynamic_bitset-11.cpp:34, 42, 43, 110, 119, 120 -/
example : (new 0 (0 : BitVec 32)).words.length = 0 ∧ (new 123 (0 : BitVec 32)).words.length = 4 ∧ byteSize (new 123 (0 : BitVec 32)) = 16 ∧
    byteSize (new 128 (0 : BitVec 32)) = 16 ∧ byteSize (new 129 (0 : BitVec 32)) = 17 ∧ (new 129 (0 : BitVec 32)).words.length = 5 := by
  decide +kernel

/-- "test": t-dynamic_bitset-11.cpp:142-149 -/
example : passes [go (.new 0 74 (BitVec.allOnes 32)), (.all 0, .bool true), go (.resize 0 64), (.all 0, .bool true), go (.resize 0 0),
    (.all 0, .bool false)] = true := by
  decide +kernel

/-- "set/get": t-dynamic_bitset-11.cpp:154-180, after `n` calls of `push_back` -/
def grown (n : Nat) : List T := [go (.new 0 2 0), go (.set 0 0), go (.set 0 1), test 0 0 true, test 0 1 true] ++
  (List.range n).flatMap fun i => [go (.pushBack 0 true), size 0 (i + 3), (.all 0, .bool true)]

example : ((List.range 30).all fun n => passes (grown n) [(0, n + 2, [BitVec.ofNat 32 (2 ^ (n + 2) - 1)])]) = true := by decide +kernel
example : passes (grown 30) [(0, 32, [0xffffffff])] = true ∧ passes (grown 31) [(0, 33, [0xffffffff, 1])] = true := by decide +kernel

/-- "iterators": t-dynamic_bitset-11.cpp:183-214, 226-231 -/
example : ([0, 30, 31, 32, 33, 64].all fun n =>
    let b : Bits 32 := new n 0
    let first := BitIter.begin_ 0
    let last := BitIter.end_ 0 b
    BitIter.eq (n.repeat BitIter.inc first) last && BitIter.eq (n.repeat BitIter.dec last) first) = true := by
  decide +kernel

/-- "iterators": t-dynamic_bitset-11.cpp:243-251 -/
example : (BitIter.run (w := 32) ([.bits (.new 0 150 0), .begin 0 0] ++ List.replicate 130 (.inc 0) ++
    [.write 0 true, .read 0, .bits (.test 0 130), .plus 1 0 20, .end 2 0, .eq 1 2, .diff 2 0]) ⟨fun _ => none, fun _ => none⟩).map
      (fun p => p.1.drop 132) =
    some [.unit, .bool true, .bits (.bool true), .unit, .unit, .bool true, .int 20] := by
  decide +kernel

def partA : List (BitVec 32) := [0xbaadf00d, 0xfeee1234, 0x43210523, 0xfaadbeed]
def partB : List (BitVec 32) := [0x78901234, 0x777cdcdc]

/-- "asign": t-dynamic_bitset-11.cpp:268-272 -/
example : passes [go (.new 0 0 0), go (.assign 0 partA)] [(0, 128, partA)] = true := by decide +kernel

/-- "resize": t-dynamic_bitset-11.cpp:277-288 -/
def resized : List T := [go (.new 0 0 0), go (.assign 0 [0xfaadbeed]), go (.resize 0 31)]
example : passes resized [(0, 31, [0xfaadbeed])] = true ∧ passes (resized ++ [go (.resize 0 16)]) [(0, 16, [0x7aadbeed])] = true ∧
    passes (resized ++ [go (.resize 0 16), go (.pushBack 0 false)]) [(0, 17, [0xbeed])] = true := by
  decide +kernel

/-- "append lucky": t-dynamic_bitset-11.cpp:293-318 -/
def lucky : List T := [go (.new 0 0 0), go (.assign 0 partA), go (.new 1 0 0), go (.append 1 0), go (.new 2 0 0), go (.append 0 2)]
example : passes lucky [(1, 128, partA), (0, 128, partA)] = true ∧
    passes (lucky ++ [go (.assign 2 partB), go (.append 0 2)]) [(0, 192, partA ++ partB)] = true ∧
    passes (lucky ++ [go (.assign 2 partB), go (.append 0 2), go (.resize 2 53), go (.append 0 2)]) [(0, 245, partA ++ partB ++ partB)] = true := by
  decide +kernel

/-- "append actually": t-dynamic_bitset-11.cpp:323-373 -/
def actually : List T := [go (.new 0 0 0), go (.pushBack 0 true), go (.new 1 0 0), go (.pushBack 1 true), go (.append 0 1)]
example : passes actually [(0, 2, [3])] = true ∧ passes (actually ++ [go (.append 0 1)]) [(0, 3, [7])] = true ∧
    passes (actually ++ [go (.append 0 1), go (.assign 0 partA), go (.resize 0 112), go (.assign 1 partB), go (.append 0 1)])
      [(0, 176, [0xbaadf00d, 0xfeee1234, 0x43210523, 0x1234beed, 0xdcdc7890, 0x0000777c])] = true ∧
    passes (actually ++ [go (.assign 1 partB), go (.assign 0 partA), go (.resize 0 120), go (.append 0 1)])
      [(0, 184, [0xbaadf00d, 0xfeee1234, 0x43210523, 0x34adbeed, 0xdc789012, 0x00777cdc])] = true := by
  decide +kernel

/-- "copy": t-dynamic_bitset-11.cpp:378-418 -/
def copied (frm to source : Nat) : List T :=
  [go (.new 0 0 0), go (.assign 0 partA), go (.new 1 0 0), go (.assign 1 partB), go (.copy 0 frm to 1 source)]
example : passes (copied 32 64 0) [(0, 128, [0xbaadf00d, 0x78901234, 0x43210523, 0xfaadbeed])] = true ∧
    passes (copied 24 72 8) [(0, 128, [0x12adf00d, 0xdcdc7890, 0x4321057c, 0xfaadbeed])] = true ∧
    passes (copied 20 72 12) [(0, 128, [0x901df00d, 0x7cdcdc78, 0x43210577, 0xfaadbeed])] = true := by
  decide +kernel

end Itlib.Conformance.Bitset
