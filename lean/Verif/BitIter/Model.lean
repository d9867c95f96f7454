import Verif.Bitset.Spec

/-!
# Iterators and bit references of `itlib::dynamic_bitset` (include/itlib/dynamic_bitset.hpp)

An iterator is a reference to its bitset and a 64-bit index; `iterator` and `const_iterator` have the same functions, except
that one can write through the former. A program has named bitsets and named iterators.
-/
namespace Itlib.BitIter
open Itlib Bitset

variable {w : Nat}

/-- `iterator`, `const_iterator` (dynamic_bitset.hpp:327-365), `dynamic_bitset_iterator_base` (dynamic_bitset.hpp:133-142):
the bitset it refers to, by its name, and the index -/
structure Iter where
  set : Nat
  index : BitVec 64

/-- `inc()` (dynamic_bitset.hpp:136) -/
def inc (a : Iter) : Iter := { a with index := a.index + 1 }
/-- `dec()` (dynamic_bitset.hpp:137) -/
def dec (a : Iter) : Iter := { a with index := a.index - 1 }
/-- `operator+(iterator, ptrdiff_t)` (dynamic_bitset.hpp:334, 356): the integer is converted to `size_t` -/
def plus (a : Iter) (n : Int) : Iter := { a with index := a.index + BitVec.ofInt 64 n }
/-- `operator-(iterator, ptrdiff_t)` (dynamic_bitset.hpp:335, 357) -/
def minus (a : Iter) (n : Int) : Iter := { a with index := a.index - BitVec.ofInt 64 n }
/-- `operator==` (dynamic_bitset.hpp:138): the bitsets are not compared -/
def eq (a b : Iter) : Bool := a.index == b.index
/-- `operator!=` (dynamic_bitset.hpp:139) -/
def ne (a b : Iter) : Bool := a.index != b.index
/-- `operator-(a, b)` (dynamic_bitset.hpp:140): both are converted to `ptrdiff_t`; `none`: the difference overflows -/
def diff (a b : Iter) : Option Int :=
  let d := a.index.toInt - b.index.toInt
  if -(2 ^ 63) ≤ d ∧ d < 2 ^ 63 then some d else none

/-- `begin()` (dynamic_bitset.hpp:366, 369) -/
def begin_ (i : Nat) : Iter := ⟨i, 0⟩
/-- `end()` (dynamic_bitset.hpp:367, 370) -/
def end_ (i : Nat) (b : Bits w) : Iter := ⟨i, BitVec.ofNat 64 b.size⟩

/-- What one can do with iterators; `x`, `z` are names of iterators. -/
inductive Op (w : Nat) where
  /-- a call of a bitset -/
  | bits (o : Bitset.Op w)
  /-- `auto x = i.begin()` -/
  | begin (x i : Nat)
  | end (x i : Nat)
  /-- `auto z = x` -/
  | copy (z x : Nat)
  /-- `++x` -/
  | inc (x : Nat)
  | dec (x : Nat)
  /-- `auto z = x++` -/
  | postInc (z x : Nat)
  | postDec (z x : Nat)
  /-- `auto z = x + n` -/
  | plus (z x : Nat) (n : Int)
  | minus (z x : Nat) (n : Int)
  | eq (x z : Nat)
  | ne (x z : Nat)
  /-- `x - z` -/
  | diff (x z : Nat)
  /-- `*x` -/
  | read (x : Nat)
  /-- `*x = v` -/
  | write (x : Nat) (v : Bool)
  | set (x : Nat)
  | reset (x : Nat)
  | flip (x : Nat)

inductive Reply where
  | bits (r : Bitset.Reply)
  | unit
  | bool (b : Bool)
  | int (n : Int)
  deriving DecidableEq, Repr

/-- bitsets and iterators of a program -/
structure State (w : Nat) where
  bits : Store w
  its : Nat → Option Iter

/-- define iterator `z` -/
def State.def_ (s : State w) (z : Nat) (a : Iter) : State w := { s with its := Function.update s.its z (some a) }

/-- write through an iterator: `operator*` makes a `bitref` to the word and mask of the bit (dynamic_bitset.hpp:340-343, 325,
304-322) and the function of the bitref changes it -/
def through (s : State w) (a : Iter) (f : Bits w → Nat → Option (Bits w)) : Option (Reply × State w) := do
  let b ← s.bits a.set
  let b ← f b a.index.toNat
  some (.unit, { s with bits := Function.update s.bits a.set (some b) })

/-- one step of a program; `none`: undefined behaviour -/
def call (op : Op w) (s : State w) : Option (Reply × State w) :=
  match op with
  | .bits o => do
    let (r, st) ← Bitset.call o s.bits
    some (.bits r, { s with bits := st })
  | .begin x i => do
    let _ ← s.bits i
    some (.unit, s.def_ x (begin_ i))
  | .end x i => do
    let b ← s.bits i
    some (.unit, s.def_ x (end_ i b))
  | .copy z x => do
    let a ← s.its x
    some (.unit, s.def_ z a)
  | .inc x => do
    let a ← s.its x
    some (.unit, s.def_ x (inc a))
  | .dec x => do
    let a ← s.its x
    some (.unit, s.def_ x (dec a))
  | .postInc z x => do
    let a ← s.its x
    some (.unit, (s.def_ x (inc a)).def_ z a)
  | .postDec z x => do
    let a ← s.its x
    some (.unit, (s.def_ x (dec a)).def_ z a)
  | .plus z x n => do
    let a ← s.its x
    some (.unit, s.def_ z (plus a n))
  | .minus z x n => do
    let a ← s.its x
    some (.unit, s.def_ z (minus a n))
  | .eq x z => do
    let a ← s.its x
    let b ← s.its z
    some (.bool (eq a b), s)
  | .ne x z => do
    let a ← s.its x
    let b ← s.its z
    some (.bool (ne a b), s)
  | .diff x z => do
    let a ← s.its x
    let b ← s.its z
    let d ← diff a b
    some (.int d, s)
  | .read x => do
    let a ← s.its x
    let b ← s.bits a.set
    let v ← test b a.index.toNat
    some (.bool v, s)
  | .write x v => do
    let a ← s.its x
    through s a (setTo · · v)
  | .set x => do
    let a ← s.its x
    through s a Bitset.set
  | .reset x => do
    let a ← s.its x
    through s a Bitset.reset
  | .flip x => do
    let a ← s.its x
    through s a Bitset.flip

/-- a history -/
def run : List (Op w) → State w → Option (List Reply × State w)
  | [], s => some ([], s)
  | op :: ops, s => do
    let (r, s) ← call op s
    let (rs, s) ← run ops s
    some (r :: rs, s)

/-- `for (bool b : bitset) out.push_back(b)`, with the iterators of dynamic_bitset.hpp:366-370: begin and end are taken once. The
last argument counts rounds, `none` if they are used up. -/
def forEach (b : Bits w) : Nat → Iter → Iter → List Bool → Option (List Bool)
  | 0, _, _, _ => none
  | f+1, it, last, out =>
    if ne it last then do
      let v ← test b it.index.toNat
      forEach b f (inc it) last (out ++ [v])
    else some out

/-- the loop backwards: `while (it != begin) { --it; out.push_back(*it); }` -/
def forEachRev (b : Bits w) : Nat → Iter → Iter → List Bool → Option (List Bool)
  | 0, _, _, _ => none
  | f+1, it, first, out =>
    if ne it first then do
      let v ← test b (dec it).index.toNat
      forEachRev b f (dec it) first (out ++ [v])
    else some out

/-- `for (auto it = begin; it != end; ++it) *it = f(*it)` -/
def transform (g : Bool → Bool) : Nat → Bits w → Iter → Iter → Option (Bits w)
  | 0, _, _, _ => none
  | f+1, b, it, last =>
    if ne it last then do
      let v ← test b it.index.toNat
      let b ← setTo b it.index.toNat (g v)
      transform g f b (inc it) last
    else some b

end Itlib.BitIter
