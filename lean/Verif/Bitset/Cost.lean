import Verif.Bitset.Props

/-!
# What growing a `dynamic_bitset` costs

C82. The capacities of the buffers, and the number of words that the buffers make, fill or move in a call. The contents are those of `Model.lean`.

The buffer is a container that keeps its words in memory from an allocator and hands that over when it is moved: `std::vector`, `pod_vector`. (A
`small_vector` moves its words one by one as long as they are in the object.) How it chooses its capacities is a parameter.
-/
namespace Itlib.Bitset

/-- How a buffer chooses its capacity if `n` words do not fit: `s` words now, capacity `c`. -/
structure Growth where
  /-- in `resize` and `insert` -/
  grow : (s c n : Nat) → Nat
  /-- in constructors, assignments and `reserve` -/
  fit : (c n : Nat) → Nat

/-- the words fit afterwards -/
def Growth.Lawful (G : Growth) : Prop := (∀ s c n, s ≤ c → c < n → n ≤ G.grow s c n) ∧ ∀ c n, c < n → n ≤ G.fit c n

/-- `resize` and `insert` grow by half at least -/
def Growth.Geometric (G : Growth) : Prop := ∀ s c n, s ≤ c → c < n → 3 * s ≤ 2 * G.grow s c n

/-- `std::vector` of the usual standard libraries: double, if that is enough, and otherwise what is asked for; exact in `reserve` -/
def stdVector : Growth := ⟨fun s _ n => max (2 * s) n, fun _ n => n⟩

/-- calls: those of `Model.lean` and `reserve` -/
inductive COp (w : Nat) where
  | op (o : Op w)
  | reserve (i n : Nat)

/-- the capacities of the buffers -/
abbrev Caps := Nat → Nat

variable {w : Nat} (G : Growth)

/-- `s` words in a buffer of capacity `c` become `n` by `resize` or `insert` at the end: the new capacity, and the number of words made and moved -/
def refit (s c n : Nat) : Nat × Nat := if n ≤ c then (c, n - s) else (G.grow s c n, s + (n - s))

/-- a buffer of capacity `c` becomes a copy of `n` words -/
def refill (c n : Nat) : Nat × Nat := (if n ≤ c then c else G.fit c n, n)

/-- what `f` does to the capacity of the buffer of `i` -/
def capOn (cap : Caps) (i : Nat) (p : Nat × Nat) : Caps × Nat := (Function.update cap i p.1, p.2)

/-- What a call does to the capacities, and the number of words that the buffers make, fill and move. -/
def buffers (o : Op w) (st : Store w) (cap : Caps) : Caps × Nat :=
  let words i := ((st i).map fun b => b.words.length).getD 0
  let size i := ((st i).map Bits.size).getD 0
  match o with
  /- the buffer is constructed (dynamic_bitset.hpp:160) -/
  | .new i n _ => capOn cap i (refill G 0 (wordSize w n))
  /- dynamic_bitset.hpp:164 -/
  | .clone i src => capOn cap i (refill G 0 (words src))
  /- dynamic_bitset.hpp:165; assigning an object to itself does nothing -/
  | .copyAssign i src => if i = src then (cap, 0) else capOn cap i (refill G (cap i) (words src))
  /- dynamic_bitset.hpp:167-178 -/
  | .move i src => (Function.update (Function.update cap i (cap src)) src 0, 0)
  /- dynamic_bitset.hpp:264 -/
  | .resize i n => capOn cap i (refit G (words i) (cap i) (wordSize w n))
  /- dynamic_bitset.hpp:268 -/
  | .pushBack i _ => capOn cap i (refit G (words i) (cap i) (wordSize w (size i + 1)))
  /- dynamic_bitset.hpp:274 -/
  | .assign i ws => capOn cap i (refill G (cap i) ws.length)
  /- dynamic_bitset.hpp:280, 286, 292 -/
  | .append i j =>
    if words j = 0 then (cap, 0)
    else if size i % w = 0 then capOn cap i (refit G (words i) (cap i) (words i + words j))
    else capOn cap i (refit G (words i) (cap i) (wordSize w (size i + size j)))
  | _ => (cap, 0)

/-- one call: the cost, the objects and the capacities afterwards; `none`: undefined behaviour -/
def callC (o : COp w) (st : Store w) (cap : Caps) : Option (Nat × Store w × Caps) :=
  match o with
  | .op o => do
    let (_, st') ← call o st
    some ((buffers G o st cap).2, st', (buffers G o st cap).1)
  /- `reserve(size)` (dynamic_bitset.hpp:255): the words are moved if there is not enough room -/
  | .reserve i n => do
    let b ← st i
    if wordSize w n ≤ cap i then some (0, st, cap)
    else some (b.words.length, st, Function.update cap i (G.fit (cap i) (wordSize w n)))

/-- the cost of a history -/
def work : List (COp w) → Store w → Caps → Option (Nat × Store w × Caps)
  | [], st, cap => some (0, st, cap)
  | o :: ops, st, cap => do
    let (c, st, cap) ← callC G o st cap
    let (d, st, cap) ← work ops st cap
    some (c + d, st, cap)

/-- the cost of a program -/
def programWork (ops : List (COp w)) : Option Nat := (work G ops Store.init fun _ => 0).map (·.1)

namespace Spec

/-- the number of words that `n` bits need -/
def need (w n : Nat) : Nat := if n % w = 0 then n / w else n / w + 1

/-- the length of bitset `i` -/
def length (y : Sys) (i : Nat) : Nat := ((y i).map List.length).getD 0

/-- one call -/
def stepC (o : COp w) (y : Sys) : Option Sys :=
  match o with
  | .op o => (step o y).map (·.2)
  | .reserve i _ => (y i).map fun _ => y

/-- The words by which a call makes the bitsets of a program longer; copies and assignments make all words of their result. `reserve` may have to
move all words of its bitset. -/
def demand (o : COp w) (y : Sys) : Nat :=
  match o with
  | .op (.new _ n _) => need w n
  | .op (.clone _ src) | .op (.copyAssign _ src) => need w (length y src)
  | .op (.resize i n) => need w n - need w (length y i)
  | .op (.pushBack i _) => need w (length y i + 1) - need w (length y i)
  | .op (.assign _ ws) => ws.length
  | .op (.append i j) => need w (length y i + length y j) - need w (length y i)
  | .reserve i _ => need w (length y i)
  | _ => 0

/-- a history: the words it asks for, and the bitsets afterwards; `none`: some precondition is violated -/
def runC : List (COp w) → Sys → Option (Nat × Sys)
  | [], y => some (0, y)
  | o :: ops, y => do
    let y1 ← stepC o y
    let (d, y2) ← runC ops y1
    some (demand o y + d, y2)

/-- see `Safe` -/
def SafeC : COp w → Sys → Prop
  | .op o, y => Safe o y
  | .reserve _ _, _ => True

/-- the history is safe throughout -/
def SafeRunC : List (COp w) → Sys → Prop
  | [], _ => True
  | o :: ops, y => SafeC o y ∧ ∀ y', stepC o y = some y' → SafeRunC ops y'

end Spec
end Itlib.Bitset
