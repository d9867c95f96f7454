import Verif.SmallVector.ThrowExec
import Mathlib.Data.Nat.Find

/-!
# `small_vector` with the arithmetic of `size_t`

The functions of `Verif/SmallVector/Model.lean` that compute sizes, and those that call them, once more, with numbers that wrap around at
2^64 (`lim`). Functions that do not compute sizes are those of `Model.lean`. Pointers are as there: adding to them does not wrap around.
-/
namespace Itlib.SmallVector

/-- `std::numeric_limits<size_t>::max() + 1` -/
abbrev lim : Nat := 2 ^ 64

namespace W
open Itlib Spec
variable {α : Type}
noncomputable section

/-- the body of the loop of `choose_data` (small_vector.hpp:969-971) -/
def grow (c : Nat) : Nat := (c * 3 % lim + 1) % lim / 2

/-- `ret.cap` after `k` rounds -/
def rounds : Nat → Nat → Nat
  | 0, c => c
  | k+1, c => rounds k (grow c)

open Classical in
/-- the loop of `choose_data` (small_vector.hpp:966-972): the value after the first round that reaches `desired`; a loop that does not end and
has no effects is undefined behaviour -/
def newCap (cap desired : Nat) : M (St α) Nat :=
  if h : ∃ k, desired ≤ rounds k cap then pure (rounds (Nat.find h) cap) else M.undef

/-- `choose_data` (small_vector.hpp:956-998) -/
def chooseData (P : Params) (desired : Nat) : M (St α) (Loc × Nat) := do
  let s ← M.get
  if s.v.isStatic then
    if desired > P.N then
      let l ← allocate desired
      pure (l, desired)
    else pure (s.v.bgn, s.v.cap)
  else if desired > s.v.cap then
    let c ← newCap s.v.cap desired
    let l ← allocate c
    pure (l, c)
  else if desired < P.R then pure (.stat s.v.self, P.N)
  else pure (s.v.bgn, s.v.cap)

/-- `reserve` (small_vector.hpp:472-504) -/
def reserve (P : Params) (E : Elem α) (n : Nat) : M (St α) Unit := do
  let s ← M.get
  if n ≤ s.v.cap then pure ()
  else
    let (l, c) ← chooseData P n
    if l = s.v.bgn ∨ l = .stat s.v.self then M.undef
    else
      let sz ← size
      onLoc2 s.v.bgn l (moveLoop E.mv 0 0 sz)
      onLoc s.v.bgn (·.destroyRange 0 sz)
      freeDyn
      setPtrs l sz c

/-- `grow_at` (small_vector.hpp:759-820) -/
def growAt (P : Params) (E : Elem α) (pos : Int) (num : Nat) : M (St α) (Loc × Nat) := do
  let sz ← size
  if pos < 0 ∨ pos > sz then M.raise .outOfRange
  else
    let pos := pos.toNat
    let (l, c) ← chooseData P ((sz + num) % lim)
    let s ← M.get
    if l = s.v.bgn then
      setEnd s.v.bgn (sz + num)
      onLoc s.v.bgn (Buf.shiftUp E.mv num pos (sz - pos))
      pure (l, pos)
    else
      onLoc2 s.v.bgn l (moveLoop E.mv 0 0 pos)
      onLoc2 s.v.bgn l (moveLoop E.mv pos (pos + num) (sz - pos))
      onLoc s.v.bgn (·.destroyRange 0 sz)
      freeDyn
      setPtrs l (sz + num) c
      pure (l, pos)

/-- `shrink_at` (small_vector.hpp:822-888) -/
def shrinkAt (P : Params) (E : Elem α) (pos : Int) (num : Nat) : M (St α) Nat := do
  let sz ← size
  if pos < 0 ∨ pos > sz ∨ pos + num > sz then M.raise .outOfRange
  else
    let pos := pos.toNat
    if sz - num = 0 then
      clear P
      let s ← M.get
      pure s.v.endo
    else
      let (l, _) ← chooseData P (sz - num)
      let s ← M.get
      if l = s.v.bgn then
        onLoc s.v.bgn (fun b => b.shiftDown E.mv sz (b.cap + 1) pos (pos + num))
        onLoc s.v.bgn (·.destroyRange (sz - num) num)
        setEnd s.v.endp (sz - num)
        pure pos
      else if l ≠ .stat s.v.self then M.undef -- the assertion
      else
        onLoc2 s.v.bgn l (relocLoop E.mv 0 0 pos)
        onLoc s.v.bgn (·.destroyRange pos num)
        onLoc2 s.v.bgn l (relocLoop E.mv (pos + num) pos (sz - num - pos))
        deallocate s.v.bgn s.v.cap
        setPtrs l (sz - num) P.N
        pure pos

/-- `insert(position, const T&)`, `insert(position, T&&)`, `emplace` (small_vector.hpp:583-595, 631-637) -/
def insert (P : Params) (E : Elem α) (pos : Int) (v : Arg α) : M (St α) Nat := do
  let r ← bindRef v
  let (l, p) ← growAt P E pos 1
  let a ← loadRef r
  emplaceAt l p a
  pure p

/-- `insert(position, count, val)` (small_vector.hpp:597-605) -/
def insertN (P : Params) (E : Elem α) (pos : Int) (n : Nat) (v : Arg α) : M (St α) Nat := do
  let r ← bindRef v
  let (l, p) ← growAt P E pos n
  fillAt r l p n
  pure p

/-- `insert(position, first, last)`, `insert(position, initializer_list)` (small_vector.hpp:607-629) -/
def insertRange (P : Params) (E : Elem α) (pos : Int) (xs : List α) : M (St α) Nat := do
  let (l, p) ← growAt P E pos xs.length
  copyAt l p xs
  pure p

/-- `push_back` (small_vector.hpp:650-660) -/
def pushBack (P : Params) (E : Elem α) (v : Arg α) : M (St α) Unit := do
  let r ← bindRef v
  let sz ← size
  let (l, p) ← growAt P E sz 1
  let a ← loadRef r
  emplaceAt l p a

/-- `emplace_back` (small_vector.hpp:662-668) -/
def emplaceBack (P : Params) (E : Elem α) (v : Arg α) : M (St α) Nat := do
  let r ← bindRef v
  let sz ← size
  let (l, p) ← growAt P E sz 1
  let a ← loadRef r
  emplaceAt l p a
  pure p

/-- `pop_back` (small_vector.hpp:670-673) -/
def popBack (P : Params) (E : Elem α) : M (St α) Unit := do
  let sz ← size
  let _ ← shrinkAt P E ((sz : Int) - 1) 1
  pure ()

/-- `erase(position)` (small_vector.hpp:639-642) -/
def erase (P : Params) (E : Elem α) (pos : Int) : M (St α) Nat := shrinkAt P E pos 1

/-- `erase(first, last)` (small_vector.hpp:644-648) -/
def eraseRange (P : Params) (E : Elem α) (first last : Int) : M (St α) Nat :=
  if first > last then M.raise .outOfRange else shrinkAt P E first (last - first).toNat

/-- `resize(n, v)` (small_vector.hpp:675-690), `resize(n)` (692-707) -/
def resizeV (P : Params) (E : Elem α) (n : Nat) (v : Arg α) : M (St α) Unit := do
  let r ← bindRef v
  reserve P E n
  let sz ← size
  popLoop (sz - n)
  pushLoop r (n - sz)

/-- `assign_fill` (small_vector.hpp:890-908) -/
def assignFill (P : Params) (n : Nat) (r : Ref α) : M (St α) Unit := do
  let (l, c) ← chooseData P n
  setEnd l 0
  fillEnd r n
  adopt l c

/-- `assign_copy`, `assign_move` (small_vector.hpp:910-950) -/
def assignCopy (P : Params) (xs : List α) : M (St α) Unit := do
  let (l, c) ← chooseData P xs.length
  setEnd l 0
  copyEnd xs
  adopt l c

/-- `assign(count, value)` (small_vector.hpp:319-323) -/
def assignN (P : Params) (n : Nat) (v : Arg α) : M (St α) Unit := do
  let r ← bindRef v
  destroyAll
  assignFill P n r

/-- `assign(first, last)`, `assign(initializer_list)` (small_vector.hpp:325-336) -/
def assignRange (P : Params) (xs : List α) : M (St α) Unit := do
  destroyAll
  assignCopy P xs

/-- `small_vector(count, alloc)` (small_vector.hpp:231-235) -/
def ctorCount (P : Params) (E : Elem α) (i al n : Nat) : M (Mem α) Unit := do
  construct P i al
  ctorRest i (resizeV P E n (.val E.dflt))

/-- `small_vector(count, value, alloc)` (small_vector.hpp:237-241) -/
def ctorVal (P : Params) (i al n : Nat) (a : α) : M (Mem α) Unit := do
  construct P i al
  ctorRest i (assignFill P n (.val a))

/-- `small_vector(first, last, alloc)`, `small_vector(initializer_list, alloc)` (small_vector.hpp:243-254) -/
def ctorRange (P : Params) (i al : Nat) (xs : List α) : M (Mem α) Unit := do
  construct P i al
  ctorRest i (assignCopy P xs)

/-- `small_vector(const small_vector& v, const Alloc&)`, `small_vector(const small_vector&)` (small_vector.hpp:256-264) -/
def copyCtor (P : Params) (i al j : Nat) : M (Mem α) Unit := do
  let xs ← at' j elems
  construct P i al
  ctorRest i (assignCopy P xs)

/-- `operator=(const small_vector&)` (small_vector.hpp:283-295) -/
def copyAssign (P : Params) (i j : Nat) : M (Mem α) Unit :=
  if i = j then at' i (pure ())
  else do
    let xs ← at' j elems
    at' i (do
      destroyAll
      assignCopy P xs)

/-- One call, dispatched to the model of the C++ function. -/
def exec (P : Params) (E : Elem α) : Op α → M (St α) (Reply α)
  | .pushBack v => do pushBack P E v; pure .done
  | .emplaceBack v => do let i ← emplaceBack P E v; pure (.at i)
  | .popBack => do popBack P E; pure .done
  | .insert pos v => do let i ← insert P E pos v; pure (.at i)
  | .insertN pos n v => do let i ← insertN P E pos n v; pure (.at i)
  | .insertRange pos xs => do let i ← insertRange P E pos xs; pure (.at i)
  | .erase pos => do let i ← erase P E pos; pure (.at i)
  | .eraseRange f l => do let i ← eraseRange P E f l; pure (.at i)
  | .resize n => do resizeV P E n (.val E.dflt); pure .done
  | .resizeV n v => do resizeV P E n v; pure .done
  | .assignN n v => do assignN P n v; pure .done
  | .assignRange xs => do assignRange P xs; pure .done
  | .reserve n => do reserve P E n; pure .done
  -- these do not compute sizes
  | op => SmallVector.exec P E op

/-- One call in a program with several vectors. -/
def mexec (P : Params) (E : Elem α) : MOp α → M (Mem α) (Reply α)
  | .ctorCount i al n => do ctorCount P E i al n; pure .done
  | .ctorVal i al n a => do ctorVal P i al n a; pure .done
  | .ctorRange i al xs => do ctorRange P i al xs; pure .done
  | .copyCtor i al j => do copyCtor P i al j; pure .done
  | .copyAssign i j => do copyAssign P i j; pure .done
  | .call i op => at' i (exec P E op)
  | op => SmallVector.mexec P E op

/-- One call with throw points, as `SmallVector.tcall`. -/
def tcall (P : Params) (E : Elem α) (t : TOp α) (m : Mem α) : Option (Reply α × Mem α) :=
  match mexec P E t.op { m with ctick := t.c, atick := t.a } with
  | .ok r m' => some (r, { m' with ctick := none, atick := none })
  | .throw e m' => some (.exc e, { m' with ctick := none, atick := none })
  | .ub => none

/-- A history of such calls. -/
def mtrun (P : Params) (E : Elem α) : List (TOp α) → Mem α → Option (List (Reply α) × Mem α)
  | [], m => some ([], m)
  | t :: ts, m => do
    let (r, m) ← tcall P E t m
    let (rs, m) ← mtrun P E ts m
    some (r :: rs, m)

end
end W

namespace Spec
variable {α : Type}

/-- how many elements a call asks room for -/
def demand (op : Op α) (xs : List α) : Nat :=
  match op with
  | .pushBack _ | .emplaceBack _ | .insert _ _ => xs.length + 1
  | .insertN _ n _ => xs.length + n
  | .insertRange _ ys => xs.length + ys.length
  | .resize n | .resizeV n _ | .reserve n | .assignN n _ => n
  | .assignRange ys => ys.length
  | _ => 0

/-- Not too much is asked for: less than 2^64 elements as long as the vector is in its static buffer, and not more than a third of that
when it is on the heap. -/
def Home.Modest (h : Home) (d : Nat) : Prop := match h with
  | .stat => d < 2 ^ 64
  | .dyn _ => 3 * d ≤ 2 ^ 64

/-- likewise for all calls -/
def Modest (op : MOp α) (y : Sys α) : Prop :=
  match op with
  | .ctorCount _ _ n | .ctorVal _ _ n _ => n < 2 ^ 64
  | .ctorRange _ _ xs => xs.length < 2 ^ 64
  | .copyAssign i j => ∀ v w, y i = some v → y j = some w → v.home.Modest w.xs.length
  | .call i op => ∀ v, y i = some v → v.home.Modest (demand op v.xs)
  | _ => True

/-- all calls of a history are modest -/
def ModestRun (N R : Nat) (E : Elem α) : List (TOp α) → Sys α → Prop
  | [], _ => True
  | t :: ts, y => Modest t.op y ∧ ∀ r y', mtstep N R E t y = some (r, y') → ModestRun N R E ts y'

end Spec
end Itlib.SmallVector
