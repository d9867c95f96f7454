import Verif.Flat.Model
import Mathlib.Logic.Function.Basic

/-!
# Specification: finite maps and sets of order-equivalence classes

The abstract state is a bag of entries in no particular order (`List` up to permutation). All answers are described by
membership and by counting entries, without reference to sortedness or searching.
-/
namespace Itlib.Flat

variable {κ ε : Type}

/-- `comp` is a strict weak order (the requirement Compare of the C++ standard). -/
structure StrictWeak (lt : κ → κ → Bool) : Prop where
  irrefl : ∀ a, lt a a = false
  trans : ∀ a b c, lt a b = true → lt b c = true → lt a c = true
  /-- not being ordered is transitive -/
  incomp_trans : ∀ a b c, lt a b = false → lt b a = false → lt b c = false → lt c b = false →
    lt a c = false ∧ lt c a = false

/-- A probe (of any type) whose comparisons with keys fit the order of the keys. -/
structure Consistent (lt : κ → κ → Bool) (k : Probe κ) : Prop where
  below_down : ∀ a b, lt a b = true → k.below b = true → k.below a = true
  above_up : ∀ a b, lt a b = true → k.above a = true → k.above b = true
  not_both : ∀ a, k.below a = true → k.above a = false

/-- the probe compares like the key `x` -/
def ProbeOf (lt : κ → κ → Bool) (k : Probe κ) (x : κ) : Prop :=
  ∀ a, k.below a = lt a x ∧ k.above a = lt x a

/-- The calls. -/
inductive Op (κ ε : Type) where
  | insert (k : Probe κ) (e : ε)
  | index (k : Probe κ) (e : ε)
  | at_ (k : Probe κ)
  | eraseKey (k : Probe κ)
  | eraseAt (i : Nat)
  | find (k : Probe κ)
  | count (k : Probe κ)
  | lowerBound (k : Probe κ)
  | upperBound (k : Probe κ)
  | equalRange (k : Probe κ)
  | get (i : Nat)
  | update (i : Nat) (f : ε → ε)
  | size
  | clear

/-- What a caller sees. Iterators are seen as positions. -/
inductive Reply (ε : Type) where
  | unit
  | pos (i : Nat)
  | posFlag (i : Nat) (inserted : Bool)
  | range (i j : Nat)
  | num (n : Nat)
  | elem (e : ε)
  | ref (i : Nat) (e : ε)
  | bool (b : Bool)
  | exc (e : Exc)

namespace Spec

/-- neither smaller nor greater -/
def Matches (k : Probe κ) (a : κ) : Bool := !k.below a && !k.above a

variable (key : ε → κ) (cap : Option Nat) (lt : κ → κ → Bool)

/-- number of entries smaller than the probe -/
def rank (k : Probe κ) (s : List ε) : Nat := s.countP fun e => k.below (key e)
/-- is there an entry equivalent to the probe -/
def has (k : Probe κ) (s : List ε) : Bool := s.any fun e => Matches k (key e)
/-- number of entries smaller than entry `e`: its position in iteration order -/
def place (s : List ε) (e : ε) : Nat := s.countP fun x => lt (key x) (key e)
/-- the smallest of the entries equivalent to the probe (there can be several only for probes that are not keys) -/
def IsFirst (k : Probe κ) (s : List ε) (e : ε) : Bool :=
  Matches k (key e) && s.all fun x => !(Matches k (key x) && lt (key x) (key e))

/-- preconditions of the calls -/
def Pre (op : Op κ ε) (s : List ε) : Prop :=
  match op with
  | .insert k e | .index k e => ProbeOf lt k (key e)
  | .at_ k | .eraseKey k | .find k | .count k | .lowerBound k | .upperBound k | .equalRange k => Consistent lt k
  | .eraseAt i | .get i => i < s.length
  | .update i f => i < s.length ∧ ∀ e, key (f e) = key e
  | .size | .clear => True

/-- the effect of the calls -/
def step (op : Op κ ε) (s : List ε) : Reply ε × List ε :=
  match op with
  | .insert k e =>
    if has key k s then (.posFlag (rank key k s) false, s)
    else if cap = some s.length then (.exc .outOfRange, s)
    else (.posFlag (rank key k s) true, e :: s)
  | .index k e =>
    match s.find? fun x => Matches k (key x) with
    | some x => (.ref (rank key k s) x, s)
    | none =>
      if cap = some s.length then (.exc .outOfRange, s)
      else (.ref (rank key k s) e, e :: s)
  | .at_ k =>
    match s.find? fun x => IsFirst key lt k s x with
    | some x => (.ref (rank key k s) x, s)
    | none => (.exc .outOfRange, s)
  | .eraseKey k =>
    if has key k s then (.num 1, s.filter fun e => !IsFirst key lt k s e) else (.num 0, s)
  | .eraseAt i => (.pos i, s.filter fun e => !decide (place key lt s e = i))
  | .find k => (.pos (if has key k s then rank key k s else s.length), s)
  | .count k => (.num (if has key k s then 1 else 0), s)
  | .lowerBound k => (.pos (rank key k s), s)
  | .upperBound k => (.pos (s.countP fun e => !k.above (key e)), s)
  | .equalRange k => (.range (rank key k s) (s.countP fun e => !k.above (key e)), s)
  | .get i =>
    match s.find? fun e => decide (place key lt s e = i) with
    | some e => (.elem e, s)
    | none => (.unit, s)
  | .update i f => (.unit, s.map fun e => if place key lt s e = i then f e else e)
  | .size => (.num s.length, s)
  | .clear => (.unit, [])

/-- inserting the elements of a sequence one after the other, later equivalents being dropped -/
def insertAll (ys : List ε) : List ε :=
  ys.foldl (fun s e => if has key (Probe.ofKey lt (key e)) s then s else e :: s) []

end Spec

/-! ### Several maps, with comparison objects of their own -/

/-- Calls in a program with several containers, named by numbers. -/
inductive MOp (κ ε : Type) where
  /-- empty container with a comparison -/
  | new (i : Nat) (lt : κ → κ → Bool)
  /-- from a container with contents `ys`, which `std::sort` turns into `sorted` -/
  | build (i : Nat) (lt : κ → κ → Bool) (ys sorted : List ε)
  | copy (i src : Nat)
  | assign (i src : Nat)
  /-- move construction; the moved-from container is empty -/
  | move (i src : Nat)
  /-- move assignment; the moved-from container is empty -/
  | moveAssign (i src : Nat)
  | swap (i j : Nat)
  | destroy (i : Nat)
  | eq (i j : Nat)
  | on (i : Nat) (op : Op κ ε)

namespace Spec

/-- an abstract map: its order and its entries -/
structure AMap (κ ε : Type) where
  lt : κ → κ → Bool
  entries : List ε

/-- all maps of a program -/
abbrev Sys (κ ε : Type) := Nat → Option (AMap κ ε)

variable (key : ε → κ) (cap : Option Nat)

/-- `n` elements fit the container -/
def fits : Option Nat → Nat → Bool
  | none, _ => true
  | some c, n => decide (n ≤ c)

/-- a sequence ordered by `lt` : what `std::sort` guarantees -/
def Ordered (lt : κ → κ → Bool) (xs : List ε) : Prop := xs.Pairwise fun a b => lt (key b) (key a) = false

/-- preconditions -/
def MPre (op : MOp κ ε) (y : Sys κ ε) : Prop :=
  match op with
  | .new i lt => y i = none ∧ StrictWeak lt
  | .build i lt ys sorted => y i = none ∧ StrictWeak lt ∧ sorted.Perm ys ∧ Ordered key lt sorted
  | .copy i src | .move i src => y i = none ∧ (y src).isSome
  | .assign i src => (y i).isSome ∧ (y src).isSome
  | .moveAssign i src => (y i).isSome ∧ (y src).isSome ∧ i ≠ src
  | .swap i j => (y i).isSome ∧ (y j).isSome
  | .eq i j => ∃ a b, y i = some a ∧ y j = some b ∧ a.lt = b.lt
  | .destroy i => (y i).isSome
  | .on i op => ∃ a, y i = some a ∧ Pre key a.lt op a.entries

open Classical in
/-- effects -/
noncomputable def mstep (op : MOp κ ε) (y : Sys κ ε) : Reply ε × Sys κ ε :=
  match op with
  | .new i lt => (.unit, Function.update y i (some ⟨lt, []⟩))
  | .build i lt ys sorted =>
    -- the elements have to fit the container before equivalent ones are dropped
    if fits cap ys.length then (.unit, Function.update y i (some ⟨lt, insertAll key lt sorted⟩))
    else (.exc .outOfRange, y)
  | .copy i src | .assign i src => (.unit, Function.update y i (y src))
  | .move i src | .moveAssign i src =>
    (.unit, Function.update (Function.update y i (y src)) src ((y src).map fun a => ⟨a.lt, []⟩))
  | .swap i j => (.unit, Function.update (Function.update y i (y j)) j (y i))
  | .destroy i => (.unit, Function.update y i none)
  | .eq i j =>
    -- the same entries
    (.bool (decide (∀ a b, y i = some a → y j = some b → ∀ e, e ∈ a.entries ↔ e ∈ b.entries)), y)
  | .on i op =>
    match y i with
    | none => (.unit, y)
    | some a =>
      let (r, s) := step key cap a.lt op a.entries
      (r, Function.update y i (some ⟨a.lt, s⟩))

/-- every call of the history meets its precondition -/
def MPreRun : List (MOp κ ε) → Sys κ ε → Prop
  | [], _ => True
  | op :: ops, y => MPre key op y ∧ MPreRun ops (mstep key cap op y).2

/-- replies and final state of a history -/
noncomputable def mrun : List (MOp κ ε) → Sys κ ε → List (Reply ε) × Sys κ ε
  | [], y => ([], y)
  | op :: ops, y =>
    let (r, y') := mstep key cap op y
    let (rs, z) := mrun ops y'
    (r :: rs, z)

end Spec
end Itlib.Flat
