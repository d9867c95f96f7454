import Verif.Flat.Spec
import Mathlib.Logic.Function.Basic

/-! # Running histories of calls on the model of `flat_map`/`flat_set` -/
namespace Itlib.Flat
open Itlib
variable {κ ε : Type} (key : ε → κ) (cap : Option Nat)

/-- one call -/
def exec (op : Op κ ε) : M (Flat κ ε) (Reply ε) :=
  match op with
  | .insert k e => do let (i, b) ← insert key cap k e; pure (.posFlag i b)
  | .index k e => do let i ← index key cap k e; let x ← deref i; pure (.ref i x)
  | .at_ k => do let i ← at_ key k; let x ← deref i; pure (.ref i x)
  | .eraseKey k => do let n ← eraseKey key k; pure (.num n)
  | .eraseAt i => do let j ← eraseAt i; pure (.pos j)
  | .find k => do let i ← find key k; pure (.pos i)
  | .count k => do let n ← count key k; pure (.num n)
  | .lowerBound k => do let i ← lowerBound key k; pure (.pos i)
  | .upperBound k => do let i ← upperBound key k; pure (.pos i)
  | .equalRange k => do let (i, j) ← equalRange key k; pure (.range i j)
  | .get i => do let e ← deref i; pure (.elem e)
  | .update i f => do update i f; pure .unit
  | .size => do let s ← M.get; pure (.num s.cs.length)
  | .clear => do clear; pure .unit

/-- one call, exceptions being caught by the caller; `none`: undefined behaviour -/
def call (op : Op κ ε) (s : Flat κ ε) : Option (Reply ε × Flat κ ε) :=
  match exec key cap op s with
  | .ok r s' => some (r, s')
  | .throw e s' => some (.exc e, s')
  | .ub => none

/-- all containers of a program -/
abbrev Store (κ ε : Type) := Nat → Option (Flat κ ε)

variable [DecidableEq ε]

/-- one call in a program with several containers. Copying and moving are the defaulted members
(flat_map.hpp:197-201, flat_set.hpp:163-167); `swap` exchanges comparisons and containers (flat_map.hpp:374-378,
flat_set.hpp:306-310). -/
def mcall (op : MOp κ ε) (st : Store κ ε) : Option (Reply ε × Store κ ε) :=
  match op with
  | .new i lt => some (.unit, Function.update st i (some ⟨lt, []⟩))
  | .build i lt ys sorted =>
    -- the container is built first, and throws if the elements do not fit
    if tooMany cap ys.length then some (.exc .outOfRange, st)
    else some (.unit, Function.update st i (some (ofContainer key lt sorted)))
  | .copy i src | .assign i src => do
    let m ← st src
    some (.unit, Function.update st i (some ⟨m.lt, m.cs⟩))
  | .move i src | .moveAssign i src => do
    let m ← st src
    some (.unit, Function.update (Function.update st i (some ⟨m.lt, m.cs⟩)) src (some ⟨m.lt, []⟩))
  | .swap i j => do
    let a ← st i
    let b ← st j
    some (.unit, Function.update (Function.update st i (some ⟨b.lt, b.cs⟩)) j (some ⟨a.lt, a.cs⟩))
  | .destroy i => some (.unit, Function.update st i none)
  | .eq i j => do
    let a ← st i
    let b ← st j
    some (.bool (eq a b), st)
  | .on i op => do
    let a ← st i
    let (r, a') ← call key cap op a
    some (r, Function.update st i (some a'))

/-- a history; `none`: undefined behaviour -/
def mrun : List (MOp κ ε) → Store κ ε → Option (List (Reply ε) × Store κ ε)
  | [], st => some ([], st)
  | op :: ops, st => do
    let (r, st) ← mcall key cap op st
    let (rs, st) ← mrun ops st
    some (r :: rs, st)

end Itlib.Flat
