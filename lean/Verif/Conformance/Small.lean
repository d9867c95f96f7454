import Verif.UFunction.Model
import Verif.Sentry.Model
import Verif.ThrowEx.Model
import Verif.SharedFrom.Model
import Verif.MakePtr.Model
import Verif.RStream.Model
import Verif.Pmr.Model
import Verif.Utility.Model

/-!
# The models of small headers against the unit tests of the library

Tests of the models, not proofs: the calls of the tests are run on the models, which must give what the tests check. Not transcribed: checks of
types; comparisons of addresses of the standard library's objects (t-make_ptr-11.cpp:16, 22); the tests of `atomic`, `mutex` and `data_mutex`, which
run threads (the models are of all their interleavings).
-/
namespace Itlib.Conformance.Small
open Itlib

def passes {σ α : Type} [DecidableEq α] (m : M σ α) (s : σ) (r : α) : Bool := match m s with
  | .ok a _ => a = r
  | _ => false

/-! ### ufunction -/
section
open UFunction

/-- function objects: `fnocopy` and lambdas, by what they do; the second component says whether it was moved from -/
inductive Fun where
  | plus5
  | plus
  | times
  | get (n : Nat)
deriving DecidableEq

/-- arguments are pairs; the function `0` is `sum` -/
def lang : Lang (Fun × Bool) (Nat × Nat) Nat where
  pcall _ a := a.1 + a.2
  call v a := if v.2 then none else some (match v.1 with | .plus5 => a.1 + 5 | .plus => a.1 + a.2 | .times => a.1 * a.2 | .get n => n, v)
  mv v := (v.1, true)

/-- libstdc++, libc++ and a library with moved targets inside -/
def libs : List (Lib (Fun × Bool)) :=
  [⟨fun _ _ _ => .heap, false, false⟩, ⟨fun _ c _ => if c then .inlineCopied else .heap, true, true⟩,
    ⟨fun _ _ m => if m then .inlineMoved else .heap, true, false⟩]

def ufun (usr : Nat → Fun × Bool) (l : List (Op (Nat × Nat) × Reply Nat)) : Bool :=
  libs.all fun lib => passes (UFunction.run lang lib (fun _ => false) (l.map (·.1))) (start usr) (l.map (·.2))

/-- "Basic": t-ufunction-11.cpp:33-45 -/
example : ufun (fun _ => (.plus5, false)) [(.create 0 (.byMove 0), .unit), (.call 0 (4, 0), .val 9), (.moveNew 1 0, .unit), (.test 0, .bool false),
    (.call 1 (1, 0), .val 6)] = true := by decide +kernel

/-- its `x.owner == false` (line 39): the function object is moved from -/
example : libs.all (fun lib => match UFunction.run lang lib (fun _ => false) [.create 0 (.byMove 0)] (start fun _ => (.plus5, false)) with
    | .ok _ s => s.usr 0 = (.plus5, true)
    | _ => false) = true := by decide +kernel

/-- "Free func": t-ufunction-11.cpp:49-57 -/
example : ufun (fun _ => (.times, false)) [(.create 0 (.ptr (some 0)), .unit), (.call 0 (1, 2), .val 3), (.assign 0 (.byMove 0), .unit),
    (.call 0 (3, 4), .val 12), (.assign 0 (.ptr (some 0)), .unit), (.call 0 (3, 4), .val 7)] = true := by decide +kernel

/-- "from copy": t-ufunction-11.cpp:59-66 -/
example : ufun (fun _ => (.plus, false)) [(.create 0 (.byCopy 0), .unit), (.create 1 (.byCopy 0), .unit), (.call 0 (1, 2), .val 3),
    (.call 1 (10, 20), .val 30)] = true := by decide +kernel

/-- "from null": t-ufunction-11.cpp:68-82 -/
example : ufun (fun _ => (.plus, false)) [(.default 0, .unit), (.test 0, .bool false), (.destroy 0, .unit), (.create 0 .null, .unit),
    (.test 0, .bool false), (.destroy 0, .unit), (.create 0 (.ptr none), .unit), (.test 0, .bool false)] = true := by decide +kernel

/-- "Basic": t-ufunction-14.cpp:13-30 -/
example : ufun (fun u => (.get (if u = 0 then 53 else 102), false)) [(.create 0 (.byMove 0), .unit), (.call 0 (0, 0), .val 53),
    (.assign 0 (.byMove 1), .unit), (.call 0 (0, 0), .val 102), (.moveNew 1 0, .unit), (.test 0, .bool false), (.call 1 (0, 0), .val 102)]
    = true := by decide +kernel
end

/-! ### sentry -/
section
open Sentry

/-- the functions called before and after the end of the sentry, which is made by `make_sentry` or by its constructor -/
def sentryTest (cpp17 make elided : Bool) (n : Nat) : Bool :=
  passes (do
    if make then makeSentry cpp17 (fun _ => false) 0 n false elided else ctor (.user 0) n false
    let s ← M.get
    dtor cpp17 (.user 0)
    let s' ← M.get
    pure (s.log, s'.log)) ⟨fun _ => none, []⟩ ([], [n])

/-- t-sentry-11.cpp:14-24 (`i` is 0 before and 3 after), t-sentry-17.cpp:14-38 -/
example : sentryTest false true true 3 ∧ sentryTest false true false 3 ∧ sentryTest true false true 3 ∧ sentryTest true true true 5 := by
  decide +kernel
end

/-! ### throw_ex -/
section
open ThrowEx

/-- an operand that prints a text -/
def text (t : String) : Operand String String := ⟨.ok (), fun s => .ok (s ++ t)⟩

/-- t-throw_ex-11.cpp:20-32 -/
example : eval ⟨"", id⟩ (.throwEx [text "hello ", text "42"]) 0 = .threw "hello 42" ∧
    eval ⟨"", id⟩ (.throwEx [text "hello ", text "1:2"]) 0 = .threw "hello 1:2" := by decide +kernel
end

/-! ### shared_from, make_ptr -/
section
open SharedFrom

/-- t-shared_from-11.cpp:30-49; the object is at 1000 and its member `id` at 1008, the pointers are `ptr` (0), `clone()` (1), `idptr` (2), what
`lock` gives (3), the weak pointer is 0 -/
example : [false, true].all (fun cpp17 =>
    (passes (do
      let r1 ← SharedFrom.run cpp17 [.make 0 1000, .sharedFrom 1 1 1000]
      let s1 ← M.get
      let r2 ← SharedFrom.run cpp17 [.reset 1, .sharedFrom 2 1 1008, .useCount 2]
      let s2 ← M.get
      let r3 ← SharedFrom.run cpp17 [.reset 2, .weakFrom 0 1 1008, .useCount 0, .lock 3 0]
      let s3 ← M.get
      let r4 ← SharedFrom.run cpp17 [.reset 3, .reset 0, .finish 1, .lock 3 0]
      let s4 ← M.get
      pure ([r1, r2, r3, r4], s1.sp (.var 0), s1.sp (.var 1), s2.sp (.var 2), s3.sp (.var 3), s4.sp (.var 3))) SharedFrom.start
      ([[.done, .done], [.done, .done, .count 2], [.done, .done, .count 1, .done], [.done, .done, .done, .done]],
        ⟨1000, 1⟩, ⟨1000, 1⟩, ⟨1008, 1⟩, ⟨1008, 1⟩, ⟨0, 0⟩))) = true := by decide +kernel

/-- "[make-ptr:make_aliased]": t-make_ptr-11.cpp:37-56; the member `y` is at 1004, `val` at 2000 -/
example : passes (do
    let r1 ← SharedFrom.run true [.make 0 1000, .aliased 1 0 1004, .useCount 1]
    let s1 ← M.get
    let r2 ← SharedFrom.run true [.aliased 3 2 2000, .useCount 3]
    let s2 ← M.get
    pure (r1, r2, s1.sp (.var 1), s2.sp (.var 3))) SharedFrom.start
    ([.done, .done, .count 2], [.done, .count 0], ⟨1004, 1⟩, ⟨0, 0⟩) = true := by decide +kernel
end

section
open MakePtr

def vecLang : Lang (List Nat) := ⟨fun _ => [], fun _ => []⟩

/-- the values that calls show -/
def seen (l : List (Op (List Nat))) : Option (List (Option (List Nat))) := match MakePtr.run vecLang l (MakePtr.start fun _ => []) with
  | .ok rs _ => some (rs.filterMap fun r => match r with | .value v => some v | _ => none)
  | _ => none

/-- `maker_test`, with make_shared and make_unique: t-make_ptr-11.cpp:11-33 -/
example : seen [.set 0 [1, 2, 3], .makeS 0 0 .lvalue .none, .readS 0, .get 0, .writeS 0 [1, 5, 3], .readS 0, .makeS 1 0 .rvalue .none, .readS 1]
      = some [some [1, 2, 3], some [1, 2, 3], some [1, 5, 3], some [1, 2, 3]] ∧
    seen [.set 0 [1, 2, 3], .makeU 0 0 .lvalue .none, .readU 0, .get 0, .writeU 0 [1, 5, 3], .readU 0, .makeU 1 0 .rvalue .none, .readU 1]
      = some [some [1, 2, 3], some [1, 2, 3], some [1, 5, 3], some [1, 2, 3]] := by decide +kernel
end

/-! ### rstream -/
section
open RStream

def sin : World Char := ⟨"1234567890abcdefghij".toList, 0, false, false, []⟩

/-- "no rebase": t-rstream-11.cpp:14-38 (an `rstream` is a reference to the stream) -/
example : passes (do
    let a ← read 5
    let b ← rread 5
    let c ← read 5
    pure (String.ofList a, String.ofList b, String.ofList c)) sin ("12345", "67890", "abcde") = true := by decide +kernel

/-- "yes rebase": t-rstream-11.cpp:40-59 -/
example : passes (do
    openRedirect 5
    let a ← rread 5
    closeRedirect
    let b ← read 5
    pure (String.ofList a, String.ofList b)) sin ("67890", "12345") = true := by decide +kernel
end

/-! ### pmr_allocator -/
section
open Pmr

/-- `std::byte`, `int`, `lc` -/
def types : Types := ⟨fun t => [1, 4, 4].getD t 0, fun t => [1, 4, 4].getD t 1⟩

/-- "pmr_allocator": t-pmr_allocator-17.cpp:26-71; the resource always has the address 4096 -/
example : passes (do
    let a ← allocateObject types 4096 0 10 false
    deallocateObject types a 0 10
    let b ← allocateObject types 4096 1 42 false
    deallocateObject types b 1 42
    let c ← allocateBytes 4096 32 16 false
    deallocateBytes c 32 16
    let o ← newObject types 4096 2 52 .fine
    let w ← M.get
    deleteObject types o 2
    let o' ← newObject types 4096 2 42 .fine
    let w' ← M.get
    deleteObject types o' 2
    let r ← M.catching (do let _ ← newObject types 4096 2 0 .throws; pure true) fun _ => pure false
    let w'' ← M.get
    pure ((w o).bind (·.obj), (w' o').bind (·.obj), r, (w'' 4096).isNone)) (fun _ => none) (some (2, 52), some (2, 42), false, true) = true := by
  decide +kernel
end

/-! ### utility -/
section
open Utility

/-- "bit_cast": t-utility-11.cpp:48-52; `2.5f` is in memory at 1000 as the bytes 00 00 20 40 -/
example : let uint32 : Ty := ⟨4, Nat, fun bs => some (bs.foldr (fun b n => b.toNat + 256 * n) 0)⟩
    let float : Ty := ⟨4, List (BitVec 8), some⟩
    let m : Mem := fun a => if a = 1002 then 0x20 else if a = 1003 then 0x40 else 0
    passes (do return uint32.dec (← bitCast float id uint32 2000 1000)) m (some (0x40200000 : Nat)) = true := by decide +kernel
end

end Itlib.Conformance.Small
