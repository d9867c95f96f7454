import Mathlib.Logic.Function.Basic

/-!
# Model of `itlib::dynamic_bitset` (include/itlib/dynamic_bitset.hpp)

The words are `BitVec w`, `w = bits_per_word`; the buffer is a sequence of words (any standard-like container).
`none` is undefined behaviour: an access out of the buffer (no function checks its index), or a violated precondition of
the buffer's own functions.

Integer promotion: for `w < 32` the operands of `~`, `<<`, `>>`, `&`, `|`, `-` are promoted to `int` and the result is
truncated to the word when stored; truncation commutes with all of them (for `>>` because the promoted operand is
non-negative), so these are modelled at width `w`. The comparison in `all` (line 202) is *not* preceded by a truncation;
there the promotion is modelled.

`size_t` is taken to be unbounded. Exceptions of the buffer (allocation) are not modelled.
-/
namespace Itlib.Bitset

/-- A `dynamic_bitset` object: `m_buf`, `m_size` (dynamic_bitset.hpp:430-431). -/
structure Bits (w : Nat) where
  words : List (BitVec w)
  size : Nat

variable {w : Nat}

/-- `word_size(size)` (dynamic_bitset.hpp:409-412) -/
def wordSize (w n : Nat) : Nat := (n + w - 1) / w
/-- `word_mask(index)` (dynamic_bitset.hpp:424-427), with `bit_index` (dynamic_bitset.hpp:419-422) -/
def wordMask (w i : Nat) : BitVec w := 1#w <<< (i % w)

/-- `dynamic_bitset(size, value)` (dynamic_bitset.hpp:159-161); default constructor (dynamic_bitset.hpp:158) for size 0 -/
def new (n : Nat) (value : BitVec w) : Bits w := ⟨List.replicate (wordSize w n) value, n⟩

/-- `empty()` (dynamic_bitset.hpp:185) -/
def empty (b : Bits w) : Bool := b.words.isEmpty

/-- `byte_size()` (dynamic_bitset.hpp:186) -/
def byteSize (b : Bits w) : Nat := (b.size + 7) / 8

/-- `test(i)` (dynamic_bitset.hpp:190-193), also `operator[] const` and reading through a `bitref` or iterator
(dynamic_bitset.hpp:308, 317, 324, 336-339, 358-361) -/
def test (b : Bits w) (i : Nat) : Option Bool := do
  let x ← b.words[i / w]?
  some ((x &&& wordMask w i) != 0)

/-- the loop of `all` (dynamic_bitset.hpp:200-203): word by word up to `endit`. The operands of `!=` are promoted to
`int` (32 bits) if they are narrower. -/
def allLoop (ws : List (BitVec w)) (k : Nat) : Nat → Option Bool
  | 0 => some true
  | f+1 => do
    let x ← ws[k]?
    if x.setWidth (max w 32) != ~~~ (0#(max w 32)) then some false else allLoop ws (k+1) f

/-- `all()` (dynamic_bitset.hpp:195-210) -/
def all (b : Bits w) : Option Bool := do
  if empty b then some false
  else do
    let r ← allLoop b.words 0 (b.size / w)
    if !r then some false
    else if b.size / w ≠ b.words.length then do
      let mask := wordMask w (b.size % w) - 1#w
      let x ← b.words.getLast?
      if (x &&& mask) != mask then some false else some true
    else some true

/-- the loop of `any` (dynamic_bitset.hpp:217-220) -/
def anyLoop (ws : List (BitVec w)) (k : Nat) : Nat → Option Bool
  | 0 => some false
  | f+1 => do
    let x ← ws[k]?
    if x != 0 then some true else anyLoop ws (k+1) f

/-- `any()` (dynamic_bitset.hpp:212-227) -/
def any (b : Bits w) : Option Bool := do
  if empty b then some false
  else do
    let r ← anyLoop b.words 0 (b.size / w)
    if r then some true
    else if b.size / w ≠ b.words.length then do
      let mask := wordMask w (b.size % w) - 1#w
      let x ← b.words.getLast?
      if (x &&& mask) != 0 then some true else some false
    else some false

/-- `none()` (dynamic_bitset.hpp:229) -/
def none_ (b : Bits w) : Option Bool := (any b).map (!·)

/-- `m_buf[k] = f(m_buf[k])`, the shape of every write to a word (dynamic_bitset.hpp:235, 240, 251, 261, 388, 392, 403) -/
def putWord (b : Bits w) (k : Nat) (f : BitVec w → BitVec w) : Option (Bits w) := do
  let x ← b.words[k]?
  some { b with words := b.words.set k (f x) }

/-- `set(i)` (dynamic_bitset.hpp:233-236), `bitref::set()` (dynamic_bitset.hpp:309) -/
def set (b : Bits w) (i : Nat) : Option (Bits w) := putWord b (i / w) (· ||| wordMask w i)
/-- `reset(i)` (dynamic_bitset.hpp:238-241), `bitref::reset()` (dynamic_bitset.hpp:310) -/
def reset (b : Bits w) (i : Nat) : Option (Bits w) := putWord b (i / w) (· &&& ~~~ wordMask w i)
/-- `set(i, b)` (dynamic_bitset.hpp:243-247), `bitref::set(b)`, `bitref::operator=` (dynamic_bitset.hpp:312-318) -/
def setTo (b : Bits w) (i : Nat) (v : Bool) : Option (Bits w) := if v then set b i else reset b i
/-- `flip(i)` (dynamic_bitset.hpp:249-252), `bitref::flip()` (dynamic_bitset.hpp:311) -/
def flip (b : Bits w) (i : Nat) : Option (Bits w) := putWord b (i / w) (· ^^^ wordMask w i)

/-- `m_buf.resize(n)` (called at dynamic_bitset.hpp:264), as specified for `std::vector`: new words are zero -/
def resizeWords (ws : List (BitVec w)) (n : Nat) : List (BitVec w) :=
  ws.take n ++ List.replicate (n - ws.length) 0

/-- `resize(size)` (dynamic_bitset.hpp:256-265) -/
def resize (b : Bits w) (n : Nat) : Option (Bits w) := do
  let pad := b.size % w
  let b ← if pad ≠ 0 then
      (if b.words = [] then none else putWord b (b.words.length - 1) (· &&& (wordMask w pad - 1#w)))
    else some b
  some ⟨resizeWords b.words (wordSize w n), n⟩

/-- `push_back(b)` (dynamic_bitset.hpp:266-270) -/
def pushBack (b : Bits w) (v : Bool) : Option (Bits w) := do
  let b ← resize b (b.size + 1)
  setTo b (b.size - 1) v

/-- `assign(buf)` (dynamic_bitset.hpp:272-276) -/
def assign (ws : List (BitVec w)) : Bits w := ⟨ws, ws.length * w⟩

/-- The loop of `append` (dynamic_bitset.hpp:294-301). `src`: the words of `other`, or `none` if `other` is `*this` (so
that they are the current ones). The last argument is fuel, its exhaustion is reported as undefined. -/
def appendLoop (src : Option (List (BitVec w))) (pad : Nat) : Nat → List (BitVec w) → Nat → Nat → Option (List (BitVec w))
  | 0, ws, _, i => if i < (src.getD ws).length then none else some ws
  | f+1, ws, myi, i =>
    if i < (src.getD ws).length then do
      let cur ← (src.getD ws)[i]?
      let x ← ws[myi]?
      let ws := ws.set myi (x ||| (cur <<< pad))
      if myi + 1 = ws.length then some ws
      else do
        let _ ← ws[myi + 1]?
        let ws := ws.set (myi + 1) (cur >>> (w - pad))
        appendLoop src pad f ws (myi + 1) (i + 1)
    else some ws

/-- `append(other)` (dynamic_bitset.hpp:278-302); `other = none` means that `other` is `*this`. The lucky case inserts
the range of `other`'s words into the own buffer, which is undefined if they are the same buffer (C++ sequence container
requirements). -/
def append (b : Bits w) (other : Option (Bits w)) : Option (Bits w) := do
  let o := other.getD b
  if empty o then some b
  else
    let pad := b.size % w
    if pad = 0 then
      match other with
      | some o => some ⟨b.words ++ o.words, b.size + o.size⟩
      | none => none
    else do
      let back := b.words.length - 1
      let b ← resize b (b.size + o.size)
      let ws ← appendLoop (other.map Bits.words) pad (b.words.length + 1) b.words back 0
      some { b with words := ws }

/-- First loop of `copy` (dynamic_bitset.hpp:374-379): bit by bit up to a word boundary of the destination. `src`: the
source, `none` if it is `*this`. Returns the bitset and the two positions, or `inl` if the function returned. -/
def copyBits (src : Option (Bits w)) (to : Nat) : Nat → Bits w → Nat → Nat → Option (Bits w ⊕ (Bits w × Nat × Nat))
  | 0, b, frm, source => if frm % w ≠ 0 then none else some (.inr (b, frm, source))
  | f+1, b, frm, source =>
    if frm % w ≠ 0 then
      if frm = to then some (.inl b)
      else do
        let v ← test (src.getD b) source
        let b ← setTo b frm v
        copyBits src to f b (frm + 1) (source + 1)
    else some (.inr (b, frm, source))

/-- Second loop of `copy` (dynamic_bitset.hpp:386-397): whole words -/
def copyWords (src : Option (Bits w)) (to pad : Nat) : Nat → Bits w → Nat → Nat → Nat → Option (Bits w × Nat × Nat × Nat)
  | 0, b, frm, own, sw => if frm + w ≤ to then none else some (b, frm, own, sw)
  | f+1, b, frm, own, sw =>
    if frm + w ≤ to then do
      let x ← (src.getD b).words[sw]?
      let b ← putWord b own fun _ => x >>> pad
      let b ← if pad ≠ 0 then do
          let y ← (src.getD b).words[sw + 1]?
          putWord b own fun o => o ||| (y <<< (w - pad))
        else some b
      copyWords src to pad f b (frm + w) (own + 1) (sw + 1)
    else some (b, frm, own, sw)

/-- `copy(from, to, source)` (dynamic_bitset.hpp:372-404) -/
def copy (b : Bits w) (frm to : Nat) (src : Option (Bits w)) (source : Nat) : Option (Bits w) := do
  match ← copyBits src to w b frm source with
  | .inl b => some b
  | .inr (b, frm, source) =>
    let pad := source % w
    let (b, frm, own, sw) ← copyWords src to pad (to + 1) b frm (frm / w) (source / w)
    if frm = to then some b
    else
      let rpad := to % w
      let x ← (src.getD b).words[sw]?
      putWord b own fun o => ((x >>> pad) &&& (wordMask w rpad - 1#w)) ||| (o &&& ~~~ (wordMask w rpad - 1#w))

end Itlib.Bitset
