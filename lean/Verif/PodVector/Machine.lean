import Verif.PodVector.FailExec
import Mathlib.Data.Nat.Find

/-!
# `pod_vector` with the arithmetic of `size_t`

The functions of `Verif/PodVector/Model.lean` that compute sizes, once more, with numbers that wrap around at 2^64 (`lim`). Functions that do not
compute sizes are those of `Model.lean`. Pointers are as there: adding to them does not wrap around.
-/
namespace Itlib.PodVector

/-- `std::numeric_limits<size_t>::max() + 1` -/
abbrev lim : Nat := 2 ^ 64

/-- `e2b` (pod_vector.hpp:894-897) -/
def Params.e2b (P : Params) (n : Nat) : Nat := n * P.sz % lim

namespace W
open Itlib Spec
noncomputable section

/-- the body of the loop of `get_new_capacity` (pod_vector.hpp:668-670) -/
def grow (c : Nat) : Nat := (c * 3 % lim + 1) % lim / 2

/-- `c` after `k` rounds -/
def rounds : Nat → Nat → Nat
  | 0, c => c
  | k+1, c => rounds k (grow c)

open Classical in
/-- `get_new_capacity` (pod_vector.hpp:655-675): the value after the first round that reaches `desired`; a loop that does not end and has no
effects is undefined behaviour -/
def newCapacity (cap desired : Nat) : M St Nat :=
  if cap = 0 then pure desired
  else if h : ∃ k, desired ≤ rounds k cap then pure (rounds (Nat.find h) cap)
  else M.undef

/-- `a_malloc` (pod_vector.hpp:825-837) -/
def aMalloc (P : Params) (n : Nat) : M St Ptr :=
  if P.aligned then malloc P.A (P.e2b n)
  else do
    let p ← malloc P.A ((P.e2b n + P.al) % lim)
    alignPtr P p

/-- `a_realloc_begin` (pod_vector.hpp:839-863) -/
def aReallocBegin (P : Params) (n : Nat) : M St Unit := do
  let s ← M.get
  if P.aligned then
    let p ← realloc P.A s.v.bgn (P.e2b n)
    setBegin p
  else
    let p ← aMalloc P n
    if s.v.bgn = null then pure ()
    else
      let k ← size P
      copyBytes p s.v.bgn (P.e2b k)
      aFreeBegin P
    setBegin p
  setCap n

/-- `a_expand_begin` (pod_vector.hpp:865-879) -/
def aExpandBegin (P : Params) (n : Nat) : M St Bool := do
  let s ← M.get
  let ok ← if P.aligned then expand P.A s.v.bgn (P.e2b n)
    else do
      let p ← realAddr P s.v.bgn
      expand P.A p ((P.e2b n + P.al) % lim)
  if ok then
    setCap n
    pure true
  else pure false

/-- `malloc_copy` in `reserve` (pod_vector.hpp:450-456) -/
def mallocCopy (P : Params) (newCap s : Nat) : M St Unit := do
  let p ← aMalloc P newCap
  let st ← M.get
  if s ≠ 0 then copyBytes p st.v.bgn (P.e2b s) else pure ()
  aFreeBegin P
  setBegin p
  setCap newCap

/-- `reserve` (pod_vector.hpp:441-487) -/
def reserve (P : Params) (n : Nat) : M St Bool := do
  let st ← M.get
  if n ≤ st.v.cap then pure false
  else
    let old := st.v.bgn
    let newCap ← newCapacity st.v.cap n
    let s ← size P
    if P.A.hasExpand then
      if old = null then
        let p ← aMalloc P newCap
        setBegin p
        setCap newCap
      else
        let ok ← aExpandBegin P newCap
        if ok then pure () else mallocCopy P newCap s
    else if P.e2b (st.v.cap - s) > P.A.wasteful then mallocCopy P newCap s
    else aReallocBegin P newCap
    setSize P s
    let st ← M.get
    pure (decide (old.addr ≠ st.v.bgn.addr))

/-- `shrink_to_fit` (pod_vector.hpp:494-530) -/
def shrinkToFit (P : Params) : M St Bool := do
  let s ← size P
  let st ← M.get
  if s = st.v.cap then pure false
  else if s = 0 then
    aFreeBegin P
    setCap 0
    setBegin null
    setSize P 0
    pure true
  else
    let old := st.v.bgn
    if P.A.hasExpand then
      let ok ← aExpandBegin P s
      if ok then pure ()
      else
        let p ← aMalloc P s
        copyBytes p st.v.bgn (P.e2b s)
        aFreeBegin P
        setBegin p
        setCap s
    else aReallocBegin P s
    setSize P s
    let st ← M.get
    pure (decide (old.addr ≠ st.v.bgn.addr))

/-- `resize(n)` (pod_vector.hpp:615-624) -/
def resize (P : Params) (n : Nat) : M St Bool := do
  let ret ← reserve P n
  let s ← size P
  let st ← M.get
  if n > s ∧ P.A.zeroFill then writeAt st.v.endp (List.replicate (P.e2b (n - s)) (some 0)) else pure ()
  setSize P n
  pure ret

/-- `resize(n, val)` (pod_vector.hpp:607-613): fills `n` elements from the old end on -/
def resizeV (P : Params) (n : Nat) (v : Arg (List Byte)) : M St Bool := do
  let r ← bindRef P v
  let ret ← reserve P n
  let st ← M.get
  fill P r st.v.endp n
  setSize P n
  pure ret

/-- `make_gap` in `grow_at` (pod_vector.hpp:691-693) -/
def makeGap (P : Params) (s pos num : Nat) : M St Unit := do
  let st ← M.get
  copyBytes (st.v.bgn.add ((pos + num) * P.sz)) (st.v.bgn.add (pos * P.sz)) (P.e2b (s - pos))

/-- `malloc_copy` in `grow_at` (pod_vector.hpp:699-708) -/
def mallocGap (P : Params) (newCap s pos num : Nat) : M St Unit := do
  let p ← aMalloc P newCap
  let st ← M.get
  if pos ≠ 0 then copyBytes p st.v.bgn (P.e2b pos) else pure ()
  copyBytes (p.add ((pos + num) * P.sz)) (st.v.bgn.add (pos * P.sz)) (P.e2b (s - pos))
  aFreeBegin P
  setBegin p
  setCap newCap

/-- `grow_at` (pod_vector.hpp:680-742); undefined for positions past the end (a negative length is moved) -/
def growAt (P : Params) (pos num : Nat) : M St Ptr := do
  let s ← size P
  if pos > s then M.undef
  else
    if pos = s then
      let _ ← resize P ((s + num) % lim)
    else
      let st ← M.get
      if (s + num) % lim > st.v.cap then
        let newCap ← newCapacity st.v.cap ((s + num) % lim)
        if P.A.hasExpand then
          let ok ← aExpandBegin P newCap
          if ok then makeGap P s pos num else mallocGap P newCap s pos num
        else if P.e2b (st.v.cap - pos) > P.A.wasteful then mallocGap P newCap s pos num
        else
          aReallocBegin P newCap
          makeGap P s pos num
      else makeGap P s pos num
    setSize P (s + num)
    let st ← M.get
    pure (st.v.bgn.add (pos * P.sz))

/-- `shrink_at` (pod_vector.hpp:746-762); undefined past the end -/
def shrinkAt (P : Params) (pos num : Nat) : M St Unit := do
  let s ← size P
  if s = num then clear P
  else if pos + num > s then M.undef
  else
    let st ← M.get
    copyBytes (st.v.bgn.add (pos * P.sz)) (st.v.bgn.add ((pos + num) * P.sz)) (P.e2b (s - pos - num))
    setSize P (s - num)

/-- `insert(position, val)`, `emplace` (pod_vector.hpp:538-543, 567-571) -/
def insert (P : Params) (pos : Nat) (v : Arg (List Byte)) : M St Unit := do
  let r ← bindRef P v
  let p ← growAt P pos 1
  let l ← loadRef P r
  writeAt p l

/-- `insert(position, count, val)` (pod_vector.hpp:545-550) -/
def insertN (P : Params) (pos n : Nat) (v : Arg (List Byte)) : M St Unit := do
  let r ← bindRef P v
  let p ← growAt P pos n
  fill P r p n

/-- `insert(position, first, last)`, `insert(position, ilist)` (pod_vector.hpp:552-565); the range is elsewhere -/
def insertRange (P : Params) (pos : Nat) (ys : List (List Byte)) : M St Unit := do
  let p ← growAt P pos ys.length
  copyIn p (ys.flatten.map some)

/-- `emplace_back()` (pod_vector.hpp:584-589) -/
def emplaceBack (P : Params) : M St Unit := do
  let s ← size P
  let _ ← reserve P ((s + 1) % lim)
  M.modify fun st => { st with v := { st.v with endp := st.v.endp.add P.sz } }

/-- `push_back(val)`, `emplace_back(val)` (pod_vector.hpp:591-600); the argument is read last -/
def pushBack (P : Params) (v : Arg (List Byte)) : M St Unit := do
  let r ← bindRef P v
  emplaceBack P
  let p ← backPtr P
  let l ← loadRef P r
  writeAt p l

/-- `pop_back` (pod_vector.hpp:602-605): `shrink_at(m_end - 1, 1)`; undefined if empty -/
def popBack (P : Params) : M St Unit := do
  let s ← size P
  if s = 0 then M.undef else shrinkAt P (s - 1) 1

/-- `safe_grow` (pod_vector.hpp:765-773) -/
def safeGrow (P : Params) (n : Nat) : M St Unit := do
  let st ← M.get
  if n ≤ st.v.cap then pure ()
  else
    aFreeBegin P
    let newCap ← newCapacity st.v.cap n
    setCap newCap
    let p ← aMalloc P newCap
    M.modify fun s => { s with v := { s.v with bgn := p, endp := p } }

/-- `assign(count, value)` via `assign_fill` (pod_vector.hpp:288-291, 776-781) -/
def assignN (P : Params) (n : Nat) (v : Arg (List Byte)) : M St Unit := do
  let r ← bindRef P v
  safeGrow P n
  let st ← M.get
  fill P r st.v.bgn n
  setSize P n

/-- `assign_copy` (pod_vector.hpp:784-791) of `n` elements that have the bytes `l` -/
def assignCopy (P : Params) (n : Nat) (l : List Cell) : M St Unit := do
  safeGrow P n
  let st ← M.get
  copyIn st.v.bgn l
  setSize P n

/-- `pod_vector(count)` (pod_vector.hpp:182-186) -/
def ctorCount (A : Alloc) (i : Nat) (T : Ty) (n : Nat) : M Mem Unit := do
  construct i T
  let _ ← ctorBody A i (fun P => resize P n)

/-- `pod_vector(count, value)` (pod_vector.hpp:188-192) -/
def ctorVal (A : Alloc) (i : Nat) (T : Ty) (n : Nat) (a : List Byte) : M Mem Unit := do
  construct i T
  ctorBody A i (fun P => assignN P n (.val a))

/-- `pod_vector(first, last)`, `pod_vector(ilist)` (pod_vector.hpp:194-205) -/
def ctorRange (A : Alloc) (i : Nat) (T : Ty) (ys : List (List Byte)) : M Mem Unit := do
  construct i T
  ctorBody A i (fun P => assignCopy P ys.length (ys.flatten.map some))

/-- `pod_vector(const pod_vector&)` (pod_vector.hpp:207-215) -/
def copyCtor (A : Alloc) (i j : Nat) : M Mem Unit := do
  let T ← tyOf j
  let n ← at' A j size
  let l ← at' A j bytes
  construct i T
  ctorBody A i (fun P => assignCopy P n l)

/-- `operator=(const pod_vector&)` (pod_vector.hpp:232-238) -/
def copyAssign (A : Alloc) (i j : Nat) : M Mem Unit :=
  if i = j then at' A i (fun _ => pure ())
  else do
    at' A i clear
    let n ← at' A j size
    let l ← at' A j bytes
    at' A i (fun P => assignCopy P n l)

/-- `i.recast_copy_from(j)` (pod_vector.hpp:257-264); the source is another object -/
def recastCopy (A : Alloc) (i j : Nat) : M Mem Unit := do
  at' A i clear
  let U ← tyOf j
  let n ← at' A j size
  let l ← at' A j bytes
  at' A i (fun P => assignCopy P ((U.params A).e2b n / P.sz) (l.take ((U.params A).e2b n / P.sz * P.sz)))

/-- `i.recast_take_from(std::move(j))` (pod_vector.hpp:266-286); the static assertion is a precondition -/
def recastTake (A : Alloc) (i j : Nat) : M Mem Unit := do
  at' A i aFreeBegin
  let T ← tyOf i
  let U ← tyOf j
  let n ← at' A j size
  if (T.params A).aligned ≠ (U.params A).aligned then M.undef
  else M.mem fun m =>
    match m.vec j with
    | none => none
    | some (_, v) =>
      some { m with vec := Function.update (Function.update m.vec i
        (some (T, ⟨v.bgn, v.bgn.add ((U.params A).e2b n / T.sz * T.sz), U.sz * v.cap % lim / T.sz⟩))) j (some (U, ⟨null, null, 0⟩)) }


/-- one call of a member function -/
def exec (P : Params) : Op → M St Reply
  | .reserve n => do let _ ← reserve P n; pure .done
  | .shrinkToFit => do let _ ← shrinkToFit P; pure .done
  | .clear => do clear P; pure .done
  | .insert pos v => do insert P pos v; pure .done
  | .insertN pos n v => do insertN P pos n v; pure .done
  | .insertRange pos ys => do insertRange P pos ys; pure .done
  | .erase pos => do shrinkAt P pos 1; pure .done
  | .eraseRange f l => do shrinkAt P f (l - f); pure .done
  | .emplaceBack => do emplaceBack P; pure .done
  | .pushBack v => do pushBack P v; pure .done
  | .popBack => do popBack P; pure .done
  | .resize n => do let _ ← resize P n; pure .done
  | .resizeV n v => do let _ ← resizeV P n v; pure .done
  | .assignN n v => do assignN P n v; pure .done
  | .assignRange ys => do assignCopy P ys.length (ys.flatten.map some); pure .done
  | .set i x => do setAt P i x; pure .done
  | .get i => do let x ← at_ P i; pure (.elem x)
  | .getBack => do let x ← back P; pure (.elem x)
  | .size => do let n ← size P; pure (.num n)
  | .capacity => do let s ← M.get; pure (.num s.v.cap)

/-- one call -/
def mexec (A : Alloc) : MOp → M Mem Reply
  | .ctor i sz al => do construct i ⟨sz, al⟩; pure .done
  | .ctorCount i sz al n => do ctorCount A i ⟨sz, al⟩ n; pure .done
  | .ctorVal i sz al n a => do ctorVal A i ⟨sz, al⟩ n a; pure .done
  | .ctorRange i sz al ys => do ctorRange A i ⟨sz, al⟩ ys; pure .done
  | .copyCtor i j => do copyCtor A i j; pure .done
  | .moveCtor i j => do moveCtor i j; pure .done
  | .copyAssign i j => do copyAssign A i j; pure .done
  | .moveAssign i j => do moveAssign A i j; pure .done
  | .swap t i j => do swap A t i j; pure .done
  | .recastCopy i j => do recastCopy A i j; pure .done
  | .recastTake i j => do recastTake A i j; pure .done
  | .dtor i => do destruct A i; pure .done
  | .call i op => at' A i (fun P => exec P op)

/-- a call and its outcome, the exception being caught; `none`: undefined behaviour -/
def tcall (A : Alloc) (op : MOp) (m : Mem) : Option (Out × Mem) :=
  match mexec A op m with
  | .ok r m' => some (.reply r, m')
  | .throw .badAlloc m' => some (.badAlloc, m')
  | .throw _ _ => none
  | .ub => none

end
end W
end Itlib.PodVector
