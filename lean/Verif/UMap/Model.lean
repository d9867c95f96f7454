import Verif.Core.Outcome
import Verif.UMap.Spec

/-!
# Model of `transparent_umap` (include/itlib/transparent_umap.hpp)

The base `std::unordered_map` is a hash table with separate chaining: nodes with a key and a value, and buckets, which are
lists of nodes. A node is in the bucket with the index `hash % number of buckets`. When a node is added the table may grow,
as the library sees fit (`Lib.grow`); then all nodes are distributed anew. Keys are found with the transparent hash and
equality of the map (`hashQ`, `eqQ`), applied to the argument itself.

Not modelled: the order of iteration; hash functions and comparisons that throw (see `Throw.lean`); other members of `std::unordered_map` than
`find`, `emplace`, `erase(key)`, `size`.
-/
namespace Itlib.UMap
variable {K V Q A : Type}

/-- The hash and the equality of the map: of keys, and of probes with keys. -/
structure Lib (K Q : Type) where
  hash : K → Nat
  hashQ : Q → Nat
  eq : K → K → Bool
  eqQ : Q → K → Bool
  /-- the new number of buckets when a node is added, if the table grows -/
  grow : (buckets size : Nat) → Option Nat

/-- what the documentation of unordered containers asks of hash and equality, for probes too -/
structure Lib.Lawful (lib : Lib K Q) (L : Lang K V Q A) : Prop where
  equiv : Equivalence L.eqv
  eq : ∀ a b, lib.eq a b = true ↔ L.eqv a b
  eqQ : ∀ q k, lib.eqQ q k = true ↔ L.eqv (L.key q) k
  hash : ∀ a b, L.eqv a b → lib.hash a = lib.hash b
  hashQ : ∀ q, lib.hashQ q = lib.hash (L.key q)
  grow : ∀ b n c, lib.grow b n = some c → 0 < c

/-- The table. `bk i` are the nodes in the bucket `i`, `nd r` is the contents of a node. -/
structure St (K V : Type) where
  n : Nat
  bk : Nat → List Nat
  nd : Nat → Option (K × V)
  size : Nat
  next : Nat
  built : Nat
  allocs : Nat

variable (L : Lang K V Q A) (lib : Lib K Q) (fails : Nat → Bool)

/-- the first node of a list whose key satisfies a predicate -/
def scan (p : K → Bool) : List Nat → M (St K V) (Option Nat)
  | [] => pure none
  | r :: rs => do
    let s ← M.get
    match s.nd r with
    | none => M.undef
    | some (k, _) => if p k then pure (some r) else scan p rs

/-- `std::unordered_map::find` with a probe -/
def findQ (q : Q) : M (St K V) (Option Nat) := do
  let s ← M.get
  scan (lib.eqQ q) (s.bk (lib.hashQ q % s.n))

/-- `std::unordered_map::find` with a key -/
def findK (k : K) : M (St K V) (Option Nat) := do
  let s ← M.get
  scan (fun k' => lib.eq k k') (s.bk (lib.hash k % s.n))

/-- memory is requested -/
def alloc : M (St K V) Unit := fun s =>
  if fails s.allocs then .throw .badAlloc { s with allocs := s.allocs + 1 } else .ok () { s with allocs := s.allocs + 1 }

/-- a node is put to the front of its bucket -/
def link (r : Nat) : M (St K V) Unit := fun s =>
  match s.nd r with
  | none => .ub
  | some (k, _) => .ok () { s with bk := Function.update s.bk (lib.hash k % s.n) (r :: s.bk (lib.hash k % s.n)) }

def linkAll : List Nat → M (St K V) Unit
  | [] => pure ()
  | r :: rs => do link lib r; linkAll rs

/-- rehashing: all nodes are distributed to `c` new buckets -/
def rehash (c : Nat) : M (St K V) Unit := do
  let s ← M.get
  M.modify fun s => { s with n := c, bk := fun _ => [] }
  linkAll lib ((List.range s.n).flatMap s.bk)

/-- `std::unordered_map::emplace(Key, T)`: a node is made, which is dropped again if there is a node with an equivalent
key; the buckets grow before the node is linked. -/
def emplace (k : K) (v : V) : M (St K V) (Nat × Bool) := do
  alloc fails
  let old ← findK lib k
  match old with
  | some r => pure (r, false)
  | none => do
    let s ← M.get
    match lib.grow s.n (s.size + 1) with
    | some c => do
      alloc fails
      rehash lib c
    | none => pure ()
    let s ← M.get
    let r := s.next
    M.modify fun s => { s with nd := Function.update s.nd r (some (k, v)), next := s.next + 1, size := s.size + 1 }
    link lib r
    pure (r, true)

/-- the value is constructed from the arguments -/
def build : Option V → M (St K V) V
  | none => M.raise .element
  | some v => do
    M.modify fun s => { s with built := s.built + 1 }
    pure v

/-- transparent_umap.hpp:102-106, `try_emplace`; the key and the value are made only if nothing was found -/
def tryEmplace (q : Q) (v : Option V) : M (St K V) (Nat × Bool) := do
  let f ← findQ lib q
  match f with
  | some r => pure (r, false)
  | none => do
    let v ← build v
    emplace lib fails (L.key q) v

/-- transparent_umap.hpp:119-121, `operator[]` -/
def index (q : Q) : M (St K V) Nat := do
  let p ← tryEmplace L lib fails q L.dflt
  pure p.1

/-- transparent_umap.hpp:126-130, 133-137, `at` -/
def at_ (q : Q) : M (St K V) Nat := do
  let f ← findQ lib q
  match f with
  | some r => pure r
  | none => M.raise .outOfRange

/-- `std::unordered_map::erase(key)` -/
def erase (k : K) : M (St K V) Nat := do
  let f ← findK lib k
  match f with
  | none => pure 0
  | some r => do
    M.modify fun s => { s with
      bk := Function.update s.bk (lib.hash k % s.n) ((s.bk (lib.hash k % s.n)).erase r)
      nd := Function.update s.nd r none
      size := s.size - 1 }
    pure 1

/-- reading through a reference: undefined if the entry is gone -/
def read (r : Nat) : M (St K V) (K × V) := fun s =>
  match s.nd r with
  | none => .ub
  | some p => .ok p s

/-- writing through a reference -/
def write (r : Nat) (v : V) : M (St K V) Unit := fun s =>
  match s.nd r with
  | none => .ub
  | some (k, _) => .ok () { s with nd := Function.update s.nd r (some (k, v)) }

/-- one call -/
def exec : Op K V Q A → M (St K V) (Reply K V)
  | .tryEmplace q a => do let p ← tryEmplace L lib fails q (L.make a); pure (.emplaced p.1 p.2)
  | .index q => do let r ← index L lib fails q; pure (.ref r)
  | .at q => do let r ← at_ lib q; pure (.ref r)
  | .find q => do let r ← findQ lib q; pure (.found r)
  | .read r => do let p ← read r; pure (.entry p.1 p.2)
  | .write r v => do write r v; pure .unit
  | .erase k => do let n ← erase lib k; pure (.count n)
  | .size => do let s ← M.get; pure (.count s.size)

/-- exceptions reach the caller, who goes on -/
def call (op : Op K V Q A) : M (St K V) (Reply K V) := fun s =>
  match exec L lib fails op s with
  | .throw e s' => .ok (.exc e) s'
  | r => r

def run : List (Op K V Q A) → M (St K V) (List (Reply K V))
  | [] => pure []
  | op :: ops => do
    let r ← call L lib fails op
    let rs ← run ops
    pure (r :: rs)

/-- an empty map with `n` buckets -/
def start (n : Nat) : St K V := ⟨n, fun _ => [], fun _ => none, 0, 0, 0, 0⟩

end Itlib.UMap
