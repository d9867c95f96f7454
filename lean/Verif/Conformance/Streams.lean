import Verif.MemIn.Spec
import Verif.MemOut.Spec

/-!
# The models of `mem_istreambuf` and `mem_ostreambuf` against the unit tests of the library

Tests of the models, not proofs: the calls that the streams of `test/t-mem_streambuf-11.cpp` make to their buffers are run on the models, which must
give what the tests check. What `std::istream` and `std::ostream` do is written out by hand: `get` is `sbumpc`, `read` is `sgetn`, `getline` is
`sbumpc` until the end of the line, `<<` of a string is `sputn` and of a character or number is `sputn` of its characters, `endl` is `sputc`
(implementations differ in the choice; `flush` does nothing). Characters are their codes.
-/
namespace Itlib.Conformance.Streams
open Itlib

/-- the text at an address -/
def text (s : String) : MemIn.Range Nat := ⟨4096, s.toList.map Char.toNat⟩
def chars (s : String) : List Nat := s.toList.map Char.toNat

def reads (l : List (MemIn.Op Nat × MemIn.Reply Nat)) : Bool :=
  (MemIn.run 1 (l.map (·.1)) ⟨⟨0, []⟩, 0⟩).map (·.1) == some (l.map (·.2))

def get (c : Char) : MemIn.Op Nat × MemIn.Reply Nat := (.get, .char (some c.toNat))
def eof : MemIn.Op Nat × MemIn.Reply Nat := (.get, .char none)
def line (s : String) : List (MemIn.Op Nat × MemIn.Reply Nat) := s.toList.map get

/-- "in": t-mem_streambuf-11.cpp:24-38 -/
example : reads [(.reset (text "asd"), .unit), get 'a', get 's', get 'd', eof, eof, (.seek (-2) .cur, .num 1), get 's', (.seek (-3) .end, .num 0),
    get 'a', (.seek 2 .beg, .num 2), get 'd', (.seek 0 .beg, .num 0), get 'a'] = true := by
  decide +kernel

/-- "in": t-mem_streambuf-11.cpp:42-49 -/
example : reads ([(.reset (text "l1\nl2\r\nl3"), .unit)] ++ line "l1\n" ++ line "l2\r\n" ++ line "l3" ++ [eof]) = true := by decide +kernel

/-- "in": t-mem_streambuf-11.cpp:53-62 -/
example : reads [(.reset (text "asdf"), .unit), (.read 2, .text (chars "as")), (.seek 0 .cur, .num 2), (.seek 0 .beg, .num 0),
    (.read 90, .text (chars "asdf")), eof] = true := by
  decide +kernel

/-- a vector that doubles, one that grows just as needed, and `static_vector<char, 1024>` -/
def vectors : List (MemOut.Container Nat) :=
  [⟨0, true, 0, fun c n => max n (2 * c), none, false⟩, ⟨0, true, 0, fun _ n => n, none, false⟩]
def static1024 : MemOut.Container Nat := ⟨0, false, 1024, fun _ n => max n 1024, some 1024, false⟩

def writes (K : MemOut.Container Nat) (l : List (MemOut.Op Nat × MemOut.Reply Nat)) : Bool :=
  (MemOut.program K 0 (l.map (·.1))).map (·.1) == some (l.map (·.2))

def put (s : String) : MemOut.Op Nat × MemOut.Reply Nat := (.write (chars s), .unit)
def take (s : String) : MemOut.Op Nat × MemOut.Reply Nat := (.get, .container (chars s))

/-- "out", "out with static_vector": t-mem_streambuf-11.cpp:74-79, 120-128 -/
example : ((static1024 :: vectors).all fun K => writes K [put "hello", put "world", take "helloworld"]) = true := by decide +kernel

/-- "out": t-mem_streambuf-11.cpp:83-97 -/
example : (vectors.all fun K => writes K [put "123", take "123", put "2", put "x", take "2x"]) = true := by decide +kernel

/-- "out": t-mem_streambuf-11.cpp:101-112 -/
example : (vectors.all fun K => writes K [(.clear, .unit), put "x", (.put 10, .unit), (.clear, .unit), put "y", take "y"]) = true := by
  decide +kernel
example : (vectors.all fun K => writes K [(.clear, .unit), put "x", (.put 10, .unit), take "x\n"]) = true := by decide +kernel

end Itlib.Conformance.Streams
