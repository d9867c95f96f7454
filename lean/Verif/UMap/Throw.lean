import Verif.UMap.Model

/-!
# `transparent_umap` with user code that throws

The functions of `Verif/UMap/Model.lean` once more, where every call of user code may throw: hash functions, comparisons of keys, the conversion
of a probe to a key, the move of the value into the node. `left` is the number of such calls that return before one throws (`none`: none throws).
The hash of a key is stored with its node, as libstdc++ does for hash functions that may throw, so user code is not called while the nodes are
distributed to new buckets; the C++ standard alone promises nothing for an insertion in which the hash function throws.
-/
namespace Itlib.UMap.T
variable {K V Q A α : Type}

/-- the table, and the number of calls of user code that still return -/
structure TSt (K V : Type) where
  mem : St K V
  left : Option Nat

/-- a step without user code -/
def act (f : M (St K V) α) : M (TSt K V) α := fun t =>
  match f t.mem with
  | .ok a s => .ok a ⟨s, t.left⟩
  | .throw e s => .throw e ⟨s, t.left⟩
  | .ub => .ub

/-- a call of user code with the result `a` -/
def user (a : α) : M (TSt K V) α := fun t =>
  match t.left with
  | none => .ok a t
  | some 0 => .throw .user t
  | some (n + 1) => .ok a ⟨t.mem, some n⟩

variable (L : Lang K V Q A) (lib : Lib K Q) (fails : Nat → Bool)

/-- the first node of a list whose key satisfies a predicate of the user -/
def scan (p : K → Bool) : List Nat → M (TSt K V) (Option Nat)
  | [] => pure none
  | r :: rs => do
    let t ← M.get
    match t.mem.nd r with
    | none => M.undef
    | some (k, _) => do
      let b ← user (p k)
      if b then pure (some r) else scan p rs

/-- `std::unordered_map::find` with a probe -/
def findQ (q : Q) : M (TSt K V) (Option Nat) := do
  let h ← user (lib.hashQ q)
  let t ← M.get
  scan (lib.eqQ q) (t.mem.bk (h % t.mem.n))

/-- `std::unordered_map::find` with a key -/
def findK (k : K) : M (TSt K V) (Option Nat) := do
  let h ← user (lib.hash k)
  let t ← M.get
  scan (fun k' => lib.eq k k') (t.mem.bk (h % t.mem.n))

/-- a new node is put into the table, which may grow before -/
def attach (k : K) (v : V) : M (St K V) (Nat × Bool) := do
  let s ← M.get
  match lib.grow s.n (s.size + 1) with
  | some c => do
    alloc fails
    rehash lib c
  | none => pure ()
  let s ← M.get
  let r := s.next
  M.modify fun s => { s with nd := Function.update s.nd r (some (k, v)), next := s.next + 1, size := s.size + 1 }
  link lib r
  pure (r, true)

/-- `std::unordered_map::emplace(Key, T)`: the key is made from the probe in the new node, the value is moved to it -/
def emplace (k : K) (v : V) : M (TSt K V) (Nat × Bool) := do
  act (alloc fails)
  let k ← user k
  let v ← user v
  let old ← findK lib k
  match old with
  | some r => pure (r, false)
  | none => act (attach lib fails k v)

/-- transparent_umap.hpp:102-106, `try_emplace` -/
def tryEmplace (q : Q) (v : Option V) : M (TSt K V) (Nat × Bool) := do
  let f ← findQ lib q
  match f with
  | some r => pure (r, false)
  | none => do
    let v ← act (build v)
    emplace lib fails (L.key q) v

/-- transparent_umap.hpp:119-121, `operator[]` -/
def index (q : Q) : M (TSt K V) Nat := do
  let p ← tryEmplace L lib fails q L.dflt
  pure p.1

/-- transparent_umap.hpp:126-130, 133-137, `at` -/
def at_ (q : Q) : M (TSt K V) Nat := do
  let f ← findQ lib q
  match f with
  | some r => pure r
  | none => M.raise .outOfRange

/-- a node is taken out of the table -/
def detach (k : K) (r : Nat) : M (St K V) Nat := do
  M.modify fun s => { s with
    bk := Function.update s.bk (lib.hash k % s.n) ((s.bk (lib.hash k % s.n)).erase r)
    nd := Function.update s.nd r none
    size := s.size - 1 }
  pure 1

/-- `std::unordered_map::erase(key)`; the hash of the node is stored with it -/
def erase (k : K) : M (TSt K V) Nat := do
  let f ← findK lib k
  match f with
  | none => pure 0
  | some r => act (detach lib k r)

/-- one call -/
def exec : Op K V Q A → M (TSt K V) (Reply K V)
  | .tryEmplace q a => do let p ← tryEmplace L lib fails q (L.make a); pure (.emplaced p.1 p.2)
  | .index q => do let r ← index L lib fails q; pure (.ref r)
  | .at q => do let r ← at_ lib q; pure (.ref r)
  | .find q => do let r ← findQ lib q; pure (.found r)
  | .read r => do let p ← act (read r); pure (.entry p.1 p.2)
  | .write r v => do act (write r v); pure .unit
  | .erase k => do let n ← erase lib k; pure (.count n)
  | .size => do let t ← M.get; pure (.count t.mem.size)

/-- one call in which user code throws after `left` calls of it; the exception reaches the caller, who goes on -/
def call (op : Op K V Q A) (left : Option Nat) : M (St K V) (Reply K V) := fun s =>
  match exec L lib fails op ⟨s, left⟩ with
  | .ok r t => .ok r t.mem
  | .throw e t => .ok (.exc e) t.mem
  | .ub => .ub

def run : List (Op K V Q A × Option Nat) → M (St K V) (List (Reply K V))
  | [] => pure []
  | (op, left) :: ops => do
    let r ← call L lib fails op left
    let rs ← run ops
    pure (r :: rs)

end Itlib.UMap.T
