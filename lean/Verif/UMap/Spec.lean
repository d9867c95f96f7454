import Mathlib.Logic.Function.Basic
import Verif.Core.Outcome

/-! # Specification of `transparent_umap`: a map on equivalence classes of keys -/
namespace Itlib.UMap

/-- calls; probes `q : Q` are the arguments of another type than `Key` -/
inductive Op (K V Q A : Type) where
  /-- `m.try_emplace(q, args...)` -/
  | tryEmplace (q : Q) (a : A)
  /-- `m[q]` -/
  | index (q : Q)
  /-- `m.at(q)` -/
  | at (q : Q)
  /-- `m.find(q)` -/
  | find (q : Q)
  /-- reading an entry through a reference -/
  | read (r : Nat)
  /-- writing an entry through a reference -/
  | write (r : Nat) (v : V)
  /-- `m.erase(key)` -/
  | erase (k : K)
  /-- `m.size()` -/
  | size

/-- results; references are numbered in the order in which the entries were made -/
inductive Reply (K V : Type) where
  | unit
  | emplaced (r : Nat) (inserted : Bool)
  | ref (r : Nat)
  | found (r : Option Nat)
  | entry (k : K) (v : V)
  | count (n : Nat)
  | exc (e : Exc)
deriving DecidableEq

variable {K V Q A : Type}

/-- What the types do: equality of keys, the key made from a probe, the value made from arguments (`none`: throws), the
default value. -/
structure Lang (K V Q A : Type) where
  eqv : K → K → Prop
  key : Q → K
  make : A → Option V
  dflt : Option V

namespace Spec

/-- A map. `ref k` is the entry of `k`; `key r` and `val r` are the contents of an entry. `built` counts how many values
were made. -/
structure Sys (K V : Type) where
  ref : K → Option Nat
  key : Nat → Option K
  val : Nat → Option V
  size : Nat
  next : Nat
  built : Nat

open Classical in
/-- a new entry -/
noncomputable def insert (L : Lang K V Q A) (y : Sys K V) (k : K) (v : V) : Sys K V :=
  { ref := fun k' => if L.eqv k k' then some y.next else y.ref k'
    key := Function.update y.key y.next (some k)
    val := Function.update y.val y.next (some v)
    size := y.size + 1
    next := y.next + 1
    built := y.built + 1 }

/-- `try_emplace`; `oom`: memory for a new entry is not available -/
noncomputable def emplace (L : Lang K V Q A) (oom : Bool) (y : Sys K V) (k : K) (v : Option V) :
    Except Exc (Nat × Bool) × Sys K V :=
  match y.ref k with
  | some r => (.ok (r, false), y)
  | none =>
    match v with
    | none => (.error .element, y)
    | some v => if oom then (.error .badAlloc, { y with built := y.built + 1 }) else (.ok (y.next, true), insert L y k v)

open Classical in
/-- a call; `none`: not allowed -/
noncomputable def step (L : Lang K V Q A) (oom : Bool) (y : Sys K V) : Op K V Q A → Option (Reply K V × Sys K V)
  | .tryEmplace q a =>
    match emplace L oom y (L.key q) (L.make a) with
    | (.ok (r, b), y') => some (.emplaced r b, y')
    | (.error e, y') => some (.exc e, y')
  | .index q =>
    match emplace L oom y (L.key q) L.dflt with
    | (.ok (r, _), y') => some (.ref r, y')
    | (.error e, y') => some (.exc e, y')
  | .at q =>
    match y.ref (L.key q) with
    | some r => some (.ref r, y)
    | none => some (.exc .outOfRange, y)
  | .find q => some (.found (y.ref (L.key q)), y)
  | .read r =>
    match y.key r, y.val r with
    | some k, some v => some (.entry k v, y)
    | _, _ => none
  | .write r v =>
    match y.key r with
    | some _ => some (.unit, { y with val := Function.update y.val r (some v) })
    | none => none
  | .erase k =>
    match y.ref k with
    | none => some (.count 0, y)
    | some r => some (.count 1, { y with
        ref := fun k' => if L.eqv k k' then none else y.ref k'
        key := Function.update y.key r none
        val := Function.update y.val r none
        size := y.size - 1 })
  | .size => some (.count y.size, y)

/-- a history, with the calls for which there is no memory -/
noncomputable def run (L : Lang K V Q A) : List (Op K V Q A) → List Bool → Sys K V → Option (List (Reply K V) × Sys K V)
  | [], [], y => some ([], y)
  | op :: ops, f :: fs, y => do
    let (r, y) ← step L f y op
    let (rs, y) ← run L ops fs y
    some (r :: rs, y)
  | _, _, _ => none

def start : Sys K V := ⟨fun _ => none, fun _ => none, fun _ => none, 0, 0, 0⟩

end Spec
end Itlib.UMap
