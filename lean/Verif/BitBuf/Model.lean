import Verif.Core.Outcome
import Verif.Bitset.Spec

/-!
# `itlib::dynamic_bitset` over buffers that fail (include/itlib/dynamic_bitset.hpp)

The functions of `Bitset.Model` that allocate, once more: with sizes modulo 2^64, and with a buffer whose functions may throw.
What the buffer does during a call is an `Env`: how many words it can hold (the capacity of a `static_vector`, or whether the
allocation succeeds), what it throws otherwise, and what the words are that its `resize` adds (zero for `std::vector`,
`static_vector` and `small_vector`; whatever the memory has for `pod_vector`).

A function of the buffer that throws leaves the buffer as it was, as those of `std::vector` do. (Copy assignment of
`small_vector` does not, see C47.) The state at a throw is kept: the caller may go on with the object.
-/
namespace Itlib.BitBuf
open Itlib Bitset

/-- The buffer during a call. -/
structure Env (w : Nat) where
  /-- can it hold that many words? -/
  room : Nat → Bool
  /-- what it throws if not -/
  exc : Exc
  /-- the word with that index, if `resize` makes it -/
  fresh : Nat → BitVec w

variable {w : Nat}

/-- `word_size(size)` (dynamic_bitset.hpp:409-412): the sum is a `size_t` -/
def wordSizeW (w n : Nat) : Nat := (n + w - 1) % 2 ^ 64 / w

/-- `m_buf.resize(k)`, called at dynamic_bitset.hpp:264 -/
def bufResize (env : Env w) (k : Nat) : M (Bits w) Unit := fun b =>
  if b.words.length < k ∧ env.room k = false then .throw env.exc b
  else .ok () { b with words := b.words.take k ++ (List.range' b.words.length (k - b.words.length)).map env.fresh }

/-- `resize(size)` (dynamic_bitset.hpp:256-265) -/
def resize (env : Env w) (n : Nat) : M (Bits w) Unit := do
  let b ← M.get
  let pad := b.size % w
  if pad ≠ 0 then
    M.mem fun b => if b.words = [] then none else putWord b (b.words.length - 1) (· &&& (wordMask w pad - 1#w))
  M.modify fun b => { b with size := n }
  bufResize env (wordSizeW w n)

/-- `push_back(b)` (dynamic_bitset.hpp:266-270) -/
def pushBack (env : Env w) (v : Bool) : M (Bits w) Unit := do
  let b ← M.get
  resize env ((b.size + 1) % 2 ^ 64)
  let b ← M.get
  M.mem fun c => setTo c ((b.size + (2 ^ 64 - 1)) % 2 ^ 64) v

/-- `append(other)` (dynamic_bitset.hpp:278-302); `other = none` means that `other` is `*this` -/
def append (env : Env w) (other : Option (Bits w)) : M (Bits w) Unit := do
  let b ← M.get
  let o := other.getD b
  if Bitset.empty o then pure ()
  else
    let pad := b.size % w
    if pad = 0 then
      match other with
      | none => .undef
      | some o => do
        if env.room (b.words.length + o.words.length) = false then .raise env.exc
        M.modify fun b => { b with words := b.words ++ o.words }
        M.modify fun b => { b with size := (b.size + o.size) % 2 ^ 64 }
    else do
      let back := b.words.length - 1
      resize env ((b.size + o.size) % 2 ^ 64)
      M.mem fun b => (appendLoop (other.map Bits.words) pad (b.words.length + 1) b.words back 0).map fun ws => { b with words := ws }

/-- `assign(buf)` (dynamic_bitset.hpp:272-276) -/
def assign (env : Env w) (ws : List (BitVec w)) : M (Bits w) Unit := do
  if ws ≠ [] ∧ env.room ws.length = false then .raise env.exc
  M.modify fun b => { b with words := ws }
  M.modify fun b => { b with size := b.words.length * w % 2 ^ 64 }

/-- `reserve(size)` (dynamic_bitset.hpp:255) -/
def reserve (env : Env w) (n : Nat) : M (Bits w) Unit := do
  let b ← M.get
  if b.words.length < wordSizeW w n ∧ env.room (wordSizeW w n) = false then .raise env.exc

/-- `dynamic_bitset(size, value)` (dynamic_bitset.hpp:159-161): the new object, or `none` if it throws -/
def new (env : Env w) (n : Nat) (value : BitVec w) : Option (Bits w) :=
  if 0 < wordSizeW w n ∧ env.room (wordSizeW w n) = false then none
  else some ⟨List.replicate (wordSizeW w n) value, n⟩

/-- copy of a bitset (dynamic_bitset.hpp:164-165): that of the buffer, then that of the size; `none` if it throws -/
def clone (env : Env w) (b : Bits w) : Option (Bits w) :=
  if b.words ≠ [] ∧ env.room b.words.length = false then none else some b

/-- Calls in a program with several bitsets. -/
inductive Call (w : Nat) where
  | op (o : Op w)
  | reserve (i n : Nat)

/-- What the caller sees. -/
inductive Out where
  | ret (r : Reply)
  | exc (e : Exc)
  deriving DecidableEq

/-- run a member function on bitset `i`; an exception leaves the object in the state it has at that moment -/
def onM (st : Store w) (i : Nat) (m : M (Bits w) Unit) : Option (Out × Store w) := do
  let b ← st i
  match m b with
  | .ok _ b' => some (.ret .unit, Function.update st i (some b'))
  | .throw e b' => some (.exc e, Function.update st i (some b'))
  | .ub => none

/-- one call, the caller catching exceptions; `none`: undefined behaviour. Calls that do not change the size of a buffer are
those of `Bitset`. -/
def call (env : Env w) (c : Call w) (st : Store w) : Option (Out × Store w) :=
  match c with
  | .reserve i n => onM st i (reserve env n)
  | .op (.new i n value) =>
    match new env n value with
    | some b => some (.ret .unit, Function.update st i (some b))
    | none => some (.exc env.exc, st)
  | .op (.clone i src) | .op (.copyAssign i src) => do
    let b ← st src
    match clone env b with
    | some b => some (.ret .unit, Function.update st i (some b))
    | none => some (.exc env.exc, st)
  | .op (.resize i n) => onM st i (resize env n)
  | .op (.pushBack i v) => onM st i (pushBack env v)
  | .op (.assign i ws) => onM st i (assign env ws)
  | .op (.append i j) => do
    let o ← st j
    onM st i (append env (if i = j then none else some o))
  | .op o => (Bitset.call o st).map fun p => (.ret p.1, p.2)

/-- a history, the buffers behaving in any way; `none`: undefined behaviour -/
def run : List (Env w × Call w) → Store w → Option (List Out × Store w)
  | [], st => some ([], st)
  | (env, c) :: cs, st => do
    let (r, st) ← call env c st
    let (rs, st) ← run cs st
    some (r :: rs, st)

end Itlib.BitBuf
