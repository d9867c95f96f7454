import Verif.StaticVector.ThrowExec
import Verif.StaticVector.MoveSpec

/-!
# Model of `static_vector` whose elements throw when they are moved

The functions of Model.lean that move elements of vectors, with the moves made one by one, each of which may throw. A
function that throws leaves the memory as it is at that moment.
-/
namespace Itlib.StaticVector
open Itlib Spec
variable {α β : Type}

/-- the vectors, and after how many moves of elements one throws -/
structure MV (α : Type) where
  st : Store α
  m : Option Nat

/-- code that moves no elements -/
def lift (f : M (Store α) β) : M (MV α) β := fun s =>
  match f s.st with
  | .ok b st => .ok b ⟨st, s.m⟩
  | .throw e st => .throw e ⟨st, s.m⟩
  | .ub => .ub

/-- A move of an element: `good` if it succeeds; otherwise `bad` says what it leaves behind. -/
def mayThrow (bad good : M (Store α) Unit) : M (MV α) Unit := fun s =>
  match s.m with
  | none => lift good ⟨s.st, none⟩
  | some 0 => (lift bad >>= fun _ => M.raise .element) ⟨s.st, none⟩
  | some (k+1) => lift good ⟨s.st, some k⟩

/-- element `k` of vector `i` after a construction from `std::move` of it threw -/
def tear (T : Torn α) (i k : Nat) : M (Store α) Unit := do
  let a ← at' i (.load fun s => s.buf.read k)
  at' i (onBuf fun b => b.assign k (T.src a))

/-- the loop of `grow_at` (static_vector.hpp:631-635): `::new (p + by) T(std::move(*p)); p->~T();` -/
def shiftUpT (E : Elem α) (T : Torn α) (i by_ pos : Nat) : Nat → M (MV α) Unit
  | 0 => pure ()
  | k+1 => do
    mayThrow (tear T i (pos + k)) (at' i (onBuf fun b => b.moveConstruct E.mv (pos + k + by_) (pos + k)))
    lift (at' i (onBuf fun b => b.destroy (pos + k)))
    shiftUpT E T i by_ pos k

/-- the loop of `shrink_at` (static_vector.hpp:656-660): `p->~T(); ::new (p) T(std::move(*np));`. Fuel as in
`Buf.shiftDown`. -/
def shiftDownT (E : Elem α) (T : Torn α) (i myend : Nat) : Nat → Nat → Nat → M (MV α) Unit
  | 0, _, _ => .undef
  | f+1, p, np =>
    if np = myend then pure ()
    else do
      lift (at' i (onBuf fun b => b.destroy p))
      mayThrow (tear T i np) (at' i (onBuf fun b => b.moveConstruct E.mv p np))
      shiftDownT E T i myend f (p+1) (np+1)

/-- `grow_at` (static_vector.hpp:624-639) -/
def growAtT (E : Elem α) (T : Torn α) (i cp by_ : Nat) : M (MV α) Nat := do
  let s ← lift (at' i M.get)
  lift (at' i (outOfRangeIf ((s.size + by_) % sizeMod > s.buf.cap)))
  if cp ≤ s.size then
    if by_ = 0 then pure cp
    else do
      shiftUpT E T i by_ cp (s.size - cp)
      lift (at' i (M.modify fun s => { s with size := s.size + by_ }))
      pure cp
  else .undef

/-- `shrink_at` (static_vector.hpp:641-670) -/
def shrinkAtT (E : Elem α) (T : Torn α) (i cp num : Nat) : M (MV α) Nat := do
  let s ← lift (at' i M.get)
  lift (at' i (outOfRangeIf (num > s.size)))
  if cp ≤ s.size then
    if s.size - num = 0 then do
      lift (at' i clear)
      pure 0
    else do
      shiftDownT E T i s.size (s.buf.cap + 1) cp (cp + num)
      lift (at' i (onBuf (Buf.destroyRange (s.size - num) num)))
      lift (at' i (M.modify fun s => { s with size := s.size - num }))
      pure cp
  else .undef

/-- `insert(pos, const T&)`, `insert(pos, T&&)`, `emplace(pos, ...)` (static_vector.hpp:464-476, 512-518) -/
def insertT (E : Elem α) (T : Torn α) (i pos : Nat) (v : Arg α) : M (MV α) Nat := do
  let pos ← growAtT E T i pos 1
  lift (at' i (do let a ← readArg v; emplaceAt pos a))
  pure pos

/-- `insert(pos, count, val)` (static_vector.hpp:478-486) -/
def insertNT (E : Elem α) (T : Torn α) (i pos count : Nat) (v : Arg α) : M (MV α) Nat := do
  let pos ← growAtT E T i pos count
  lift (at' i (fillLoop v pos count))
  pure pos

/-- `insert(pos, first, last)`, `insert(pos, initializer_list)` (static_vector.hpp:488-510) -/
def insertRangeT (E : Elem α) (T : Torn α) (i pos : Nat) (xs : List α) : M (MV α) Nat := do
  let pos ← growAtT E T i pos xs.length
  lift (at' i (copyLoop pos xs))
  pure pos

/-- `pop_back` (static_vector.hpp:424-427) -/
def popBackT (E : Elem α) (T : Torn α) (i : Nat) : M (MV α) Unit := do
  let s ← lift (at' i M.get)
  let _ ← shrinkAtT E T i (s.size - 1) 1
  pure ()

/-- `erase(pos)` (static_vector.hpp:520-523) -/
def eraseT (E : Elem α) (T : Torn α) (i pos : Nat) : M (MV α) Nat := shrinkAtT E T i pos 1

/-- `erase(first, last)` (static_vector.hpp:525-528) -/
def eraseRangeT (E : Elem α) (T : Torn α) (i first last : Nat) : M (MV α) Nat :=
  if first ≤ last then shrinkAtT E T i first (last - first) else .undef

/-- the check of `emplace_back` (static_vector.hpp:457), which comes before the construction -/
def fullCheck (i : Nat) : M (Store α) Unit := at' i do
  let s ← M.get
  outOfRangeIf (s.size ≥ s.buf.cap)

/-- `dst.emplace_back(std::move(src[k]))` with `a` the value of `src[k]` (static_vector.hpp:454-462); the element is
constructed before `m_size` changes -/
def emplaceMoveT (E : Elem α) (T : Torn α) (dst src k : Nat) (a : α) : M (MV α) Unit :=
  mayThrow (do fullCheck dst; tear T src k)
    (do let _ ← at' dst (emplaceBackMove a); at' src (onBuf fun b => b.assign k (E.mv a)))

/-- the loop of the move constructor and of the move assignment (static_vector.hpp:229-232, 261-264) -/
def moveFromLoopT (E : Elem α) (T : Torn α) (dst src k : Nat) : Nat → M (MV α) Unit
  | 0 => do
    let n ← lift (at' src (do let s ← M.get; pure s.size))
    if k = n then pure () else .undef
  | f+1 => do
    let n ← lift (at' src (do let s ← M.get; pure s.size))
    if k = n then pure ()
    else do
      let a ← lift (at' src (at_ k))
      emplaceMoveT E T dst src k a
      moveFromLoopT E T dst src (k+1) f

/-- If an exception leaves the body of a constructor, no destructor of the vector runs. -/
def ctorBodyT (i : Nat) (body : M (MV α) Unit) : M (MV α) Unit := fun s =>
  match body s with
  | .ok () s' => .ok () s'
  | .throw e s' => .throw e ⟨bury i s'.st, s'.m⟩
  | .ub => .ub

/-- move constructor (static_vector.hpp:227-234) -/
def moveCtorT (E : Elem α) (T : Torn α) (i src : Nat) : M (MV α) Unit := do
  let (cap, n) ← lift (at' src (do let s ← M.get; pure (s.buf.cap, s.size)))
  lift (construct i cap none)
  ctorBodyT i do
    moveFromLoopT E T i src 0 n
    lift (at' src clear)

/-- move assignment (static_vector.hpp:258-268) -/
def moveAssignT (E : Elem α) (T : Torn α) (i src : Nat) : M (MV α) Unit := do
  let n ← lift (at' src (do let s ← M.get; pure s.size))
  lift (at' i clear)
  moveFromLoopT E T i src 0 n
  lift (at' src clear)

/-- `std::swap(a.at(k), b.at(k))` for elements of vectors `x` and `y` : `T t = move(p); p = move(q); q = move(t);` -/
def swapElemT (E : Elem α) (T : Torn α) (x y k : Nat) : M (MV α) Unit := do
  let t ← lift (at' x (at_ k))
  mayThrow (tear T x k) (at' x (onBuf fun b => b.assign k (E.mv t)))
  let q ← lift (at' y (at_ k))
  mayThrow
    (do let p ← at' x (at_ k)
        at' x (onBuf fun b => b.assign k (T.adst p q))
        at' y (onBuf fun b => b.assign k (T.asrc p q)))
    (do at' y (onBuf fun b => b.assign k (E.mv q))
        at' x (onBuf fun b => b.assign k q))
  mayThrow
    (do let p ← at' y (at_ k)
        at' y (onBuf fun b => b.assign k (T.adst p t)))
    (at' y (onBuf fun b => b.assign k t))

/-- loop of static_vector.hpp:576-579 -/
def swapLoopT (E : Elem α) (T : Torn α) (x y k : Nat) : Nat → M (MV α) Unit
  | 0 => pure ()
  | f+1 => do
    swapElemT E T x y k
    swapLoopT E T x y (k+1) f

/-- loop of static_vector.hpp:583-587 -/
def swapTailT (E : Elem α) (T : Torn α) (s l k : Nat) : Nat → M (MV α) Unit
  | 0 => pure ()
  | f+1 => do
    let a ← lift (at' l (at_ k))
    emplaceMoveT E T s l k a
    lift (at' l (onBuf fun b => b.destroy k))
    swapTailT E T s l (k+1) f

/-- `swap` (static_vector.hpp:560-590), `x.swap(y)` -/
def swapT (E : Elem α) (T : Torn α) (x y : Nat) : M (MV α) Unit := do
  let sx ← lift (at' x (do let s ← M.get; pure s.size))
  let sy ← lift (at' y (do let s ← M.get; pure s.size))
  let longer := if sy > sx then y else x
  let shorter := if sy > sx then x else y
  let sl := if sy > sx then sy else sx
  let ss := if sy > sx then sx else sy
  swapLoopT E T shorter longer 0 ss
  swapTailT E T shorter longer ss (sl - ss)
  lift (at' longer (M.modify fun s => { s with size := ss }))

/-- One call with throw points. The calls not listed move no elements of vectors: `resize` calls `pop_back`, which moves
none. -/
def vexec (E : Elem α) (T : Torn α) (c : Option Nat) : MOp α → M (MV α) (Reply α)
  | .moveCtor i j => do moveCtorT E T i j; pure .done
  | .moveAssign i j => do moveAssignT E T i j; pure .done
  | .swap i j => do swapT E T i j; pure .done
  | .call i (.insert pos v) => do lift (M.modify (arm i c)); let p ← insertT E T i pos v; pure (.at p)
  | .call i (.insertN pos n v) => do lift (M.modify (arm i c)); let p ← insertNT E T i pos n v; pure (.at p)
  | .call i (.insertRange pos xs) => do lift (M.modify (arm i c)); let p ← insertRangeT E T i pos xs; pure (.at p)
  | .call i (.erase pos) => do lift (M.modify (arm i c)); let p ← eraseT E T i pos; pure (.at p)
  | .call i (.eraseRange f l) => do lift (M.modify (arm i c)); let p ← eraseRangeT E T i f l; pure (.at p)
  | .call i .popBack => do lift (M.modify (arm i c)); popBackT E T i; pure .done
  | op => lift (texec E c op)

/-- How a call ends. -/
inductive VOut (α : Type) where
  /-- by returning or throwing -/
  | ret (r : Reply α) (st : Store α)
  /-- by `std::terminate` -/
  | terminated
  /-- not at all: undefined behaviour -/
  | ub

/-- is the function declared `noexcept`? The move assignment is if that of the elements is (static_vector.hpp:258). The move
constructor is if that of the elements is (line 227): then this does not throw. -/
def sealed (nx : Bool) : MOp α → Bool
  | .moveAssign _ _ => nx
  | _ => false

/-- One call during which elements throw as `t` says, the caller catching exceptions; afterwards there are no more throw
points. -/
def vcall (E : Elem α) (T : Torn α) (nx : Bool) (t : VOp α) (st : Store α) : VOut α :=
  match vexec E T t.c t.op ⟨st, t.m⟩ with
  | .ok r s' => .ret r (disarm s'.st)
  | .throw e s' => if sealed nx t.op then .terminated else .ret (.exc e) (disarm s'.st)
  | .ub => .ub

/-- A history of such calls; `none` if it ends by undefined behaviour or `std::terminate`. -/
def vrun (E : Elem α) (T : Torn α) (nx : Bool) : List (VOp α) → Store α → Option (List (Reply α) × Store α)
  | [], st => some ([], st)
  | t :: ts, st =>
    match vcall E T nx t st with
    | .ret r st => do
      let (rs, st) ← vrun E T nx ts st
      some (r :: rs, st)
    | _ => none

end Itlib.StaticVector
