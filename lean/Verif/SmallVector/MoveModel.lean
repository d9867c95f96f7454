import Verif.SmallVector.ThrowExec
import Verif.SmallVector.MoveSpec

/-!
# Model of `small_vector` whose elements throw when they are moved

The functions of Model.lean that move elements of vectors, with the moves made one by one, each of which may throw. A
function that throws leaves the memory as it is at that moment. Unlike in Model.lean, `shrink_to_fit` stores the new
pointers when the code does.
-/
namespace Itlib.SmallVector
open Itlib Spec
variable {α β σ : Type}

/-- a state, and after how many moves of elements one throws -/
structure Mv (σ : Type) where
  st : σ
  m : Option Nat

/-- code that moves no elements -/
def lift (f : M σ β) : M (Mv σ) β := fun s =>
  match f s.st with
  | .ok b st => .ok b ⟨st, s.m⟩
  | .throw e st => .throw e ⟨st, s.m⟩
  | .ub => .ub

/-- A move of an element: `good` if it succeeds; otherwise `bad` says what it leaves behind. -/
def mayThrow (bad good : M σ Unit) : M (Mv σ) Unit := fun s =>
  match s.m with
  | none => lift good ⟨s.st, none⟩
  | some 0 => (lift bad >>= fun _ => M.raise .element) ⟨s.st, none⟩
  | some (k+1) => lift good ⟨s.st, some k⟩

/-- the element at `l + p` after a construction from `std::move` of it threw -/
def tear (tr : α → α) (l : Loc) (p : Nat) : M (St α) Unit := do
  let a ← loadRef (.slot l p)
  onLoc l (·.assign p (tr a))

/-- `construct(np, std::move(*p))` from one buffer to another -/
def moveOneT (E : Elem α) (tr : α → α) (src dst : Loc) (p np : Nat) : M (Mv (St α)) Unit :=
  mayThrow (tear tr src p) (onLoc2 src dst (moveLoop E.mv p np 1))

/-- `for (; k--; ++p, ++np) construct(np, std::move(*p));` from one buffer to another
(small_vector.hpp:484-487, 791-794, 797-800) -/
def moveLoopT (E : Elem α) (tr : α → α) (src dst : Loc) : Nat → Nat → Nat → M (Mv (St α)) Unit
  | _, _, 0 => pure ()
  | p, np, k+1 => do
    moveOneT E tr src dst p np
    moveLoopT E tr src dst (p+1) (np+1) k

/-- `for (; k--; ++p, ++np) { construct(np, std::move(*p)); destroy(p); }` from one buffer to another
(small_vector.hpp:861-865, 872-876) -/
def relocLoopT (E : Elem α) (tr : α → α) (src dst : Loc) : Nat → Nat → Nat → M (Mv (St α)) Unit
  | _, _, 0 => pure ()
  | p, np, k+1 => do
    moveOneT E tr src dst p np
    lift (onLoc src (·.destroy p))
    relocLoopT E tr src dst (p+1) (np+1) k

/-- the loop of `grow_at` in place (small_vector.hpp:776-780), `k` rounds -/
def shiftUpT (E : Elem α) (tr : α → α) (l : Loc) (num pos : Nat) : Nat → M (Mv (St α)) Unit
  | 0 => pure ()
  | k+1 => do
    mayThrow (tear tr l (pos + k)) (onLoc l (·.moveConstruct E.mv (pos + k + num) (pos + k)))
    lift (onLoc l (·.destroy (pos + k)))
    shiftUpT E tr l num pos k

/-- the loop of `shrink_at` in place (small_vector.hpp:841-845), `k` rounds: the target is destroyed first -/
def shiftDownT (E : Elem α) (tr : α → α) (l : Loc) : Nat → Nat → Nat → M (Mv (St α)) Unit
  | _, _, 0 => pure ()
  | p, np, k+1 => do
    lift (onLoc l (·.destroy p))
    mayThrow (tear tr l np) (onLoc l (·.moveConstruct E.mv p np))
    shiftDownT E tr l (p+1) (np+1) k

/-- `reserve` (small_vector.hpp:472-504) -/
def reserveT (P : Params) (E : Elem α) (tr : α → α) (n : Nat) : M (Mv (St α)) Unit := do
  let s ← lift M.get
  if n ≤ s.v.cap then pure ()
  else do
    let (l, c) ← lift (chooseData P n)
    if l = s.v.bgn ∨ l = .stat s.v.self then lift M.undef
    else do
      let sz ← lift size
      moveLoopT E tr s.v.bgn l 0 0 sz
      lift do
        onLoc s.v.bgn (·.destroyRange 0 sz)
        freeDyn
        setPtrs l sz c

/-- the loop of `shrink_to_fit` (small_vector.hpp:535-540): `construct(m_end, std::move(*p)); ++m_end; destroy(p);` -/
def refitLoopT (E : Elem α) (tr : α → α) (old : Loc) : Nat → Nat → M (Mv (St α)) Unit
  | _, 0 => pure ()
  | p, k+1 => do
    let s ← lift M.get
    moveOneT E tr old s.v.endp p s.v.endo
    lift (setEnd s.v.endp (s.v.endo + 1))
    lift (onLoc old (·.destroy p))
    refitLoopT E tr old (p+1) k

/-- `shrink_to_fit` (small_vector.hpp:511-544) -/
def shrinkToFitT (P : Params) (E : Elem α) (tr : α → α) : M (Mv (St α)) Bool := do
  let sz ← lift size
  let s ← lift M.get
  if sz = s.v.cap then pure false
  else if s.v.isStatic then pure false
  else if sz < P.N then do
    lift (setPtrs (.stat s.v.self) 0 P.N)
    refitLoopT E tr s.v.bgn 0 sz
    lift (deallocate s.v.bgn s.v.cap)
    pure true
  else do
    let l ← lift (allocate sz)
    lift (setPtrs l 0 sz)
    refitLoopT E tr s.v.bgn 0 sz
    lift (deallocate s.v.bgn s.v.cap)
    pure true

/-- `revert_to_static` (small_vector.hpp:549-557) -/
def revertToStaticT (P : Params) (E : Elem α) (tr : α → α) : M (Mv (St α)) Bool := do
  let sz ← lift size
  let s ← lift M.get
  if s.v.isStatic then pure true
  else if sz > P.N then pure false
  else do
    let _ ← shrinkToFitT P E tr
    pure true

/-- `grow_at` (small_vector.hpp:759-820) -/
def growAtT (P : Params) (E : Elem α) (tr : α → α) (pos : Int) (num : Nat) : M (Mv (St α)) (Loc × Nat) := do
  let sz ← lift size
  if pos < 0 ∨ pos > sz then lift (M.raise .outOfRange)
  else do
    let (l, c) ← lift (chooseData P (sz + num))
    let s ← lift M.get
    if l = s.v.bgn then do
      lift (setEnd s.v.bgn (sz + num))
      shiftUpT E tr s.v.bgn num pos.toNat (sz - pos.toNat)
      pure (l, pos.toNat)
    else do
      moveLoopT E tr s.v.bgn l 0 0 pos.toNat
      moveLoopT E tr s.v.bgn l pos.toNat (pos.toNat + num) (sz - pos.toNat)
      lift do
        onLoc s.v.bgn (·.destroyRange 0 sz)
        freeDyn
        setPtrs l (sz + num) c
        pure (l, pos.toNat)

/-- `shrink_at` (small_vector.hpp:822-888) -/
def shrinkAtT (P : Params) (E : Elem α) (tr : α → α) (pos : Int) (num : Nat) : M (Mv (St α)) Nat := do
  let sz ← lift size
  if pos < 0 ∨ pos > sz ∨ pos + num > sz then lift (M.raise .outOfRange)
  else if sz - num = 0 then lift do
    clear P
    let s ← M.get
    pure s.v.endo
  else do
    let (l, _) ← lift (chooseData P (sz - num))
    let s ← lift M.get
    if l = s.v.bgn then do
      shiftDownT E tr s.v.bgn pos.toNat (pos.toNat + num) (sz - (pos.toNat + num))
      lift do
        onLoc s.v.bgn (·.destroyRange (sz - num) num)
        setEnd s.v.endp (sz - num)
        pure pos.toNat
    else if l ≠ .stat s.v.self then lift M.undef
    else do
      relocLoopT E tr s.v.bgn l 0 0 pos.toNat
      lift (onLoc s.v.bgn (·.destroyRange pos.toNat num))
      relocLoopT E tr s.v.bgn l (pos.toNat + num) pos.toNat (sz - num - pos.toNat)
      lift do
        deallocate s.v.bgn s.v.cap
        setPtrs l (sz - num) P.N
        pure pos.toNat

/-- `insert(position, const T&)`, `insert(position, T&&)`, `emplace` (small_vector.hpp:583-595, 631-637) -/
def insertT (P : Params) (E : Elem α) (tr : α → α) (pos : Int) (v : Arg α) : M (Mv (St α)) Nat := do
  let r ← lift (bindRef v)
  let (l, p) ← growAtT P E tr pos 1
  lift do
    let a ← loadRef r
    emplaceAt l p a
    pure p

/-- `insert(position, count, val)` (small_vector.hpp:597-605) -/
def insertNT (P : Params) (E : Elem α) (tr : α → α) (pos : Int) (n : Nat) (v : Arg α) : M (Mv (St α)) Nat := do
  let r ← lift (bindRef v)
  let (l, p) ← growAtT P E tr pos n
  lift do
    fillAt r l p n
    pure p

/-- `insert(position, first, last)`, `insert(position, initializer_list)` (small_vector.hpp:607-629) -/
def insertRangeT (P : Params) (E : Elem α) (tr : α → α) (pos : Int) (xs : List α) : M (Mv (St α)) Nat := do
  let (l, p) ← growAtT P E tr pos xs.length
  lift do
    copyAt l p xs
    pure p

/-- `push_back` (small_vector.hpp:650-660) -/
def pushBackT (P : Params) (E : Elem α) (tr : α → α) (v : Arg α) : M (Mv (St α)) Unit := do
  let r ← lift (bindRef v)
  let sz ← lift size
  let (l, p) ← growAtT P E tr sz 1
  lift do
    let a ← loadRef r
    emplaceAt l p a

/-- `emplace_back` (small_vector.hpp:662-668) -/
def emplaceBackT (P : Params) (E : Elem α) (tr : α → α) (v : Arg α) : M (Mv (St α)) Nat := do
  let r ← lift (bindRef v)
  let sz ← lift size
  let (l, p) ← growAtT P E tr sz 1
  lift do
    let a ← loadRef r
    emplaceAt l p a
    pure p

/-- `pop_back` (small_vector.hpp:670-673) -/
def popBackT (P : Params) (E : Elem α) (tr : α → α) : M (Mv (St α)) Unit := do
  let sz ← lift size
  let _ ← shrinkAtT P E tr ((sz : Int) - 1) 1
  pure ()

/-- `erase(position)` (small_vector.hpp:639-642) -/
def eraseT (P : Params) (E : Elem α) (tr : α → α) (pos : Int) : M (Mv (St α)) Nat := shrinkAtT P E tr pos 1

/-- `erase(first, last)` (small_vector.hpp:644-648) -/
def eraseRangeT (P : Params) (E : Elem α) (tr : α → α) (first last : Int) : M (Mv (St α)) Nat :=
  if first > last then lift (M.raise .outOfRange) else shrinkAtT P E tr first (last - first).toNat

/-- `resize(n, v)`, `resize(n)` (small_vector.hpp:675-707) -/
def resizeVT (P : Params) (E : Elem α) (tr : α → α) (n : Nat) (v : Arg α) : M (Mv (St α)) Unit := do
  let r ← lift (bindRef v)
  reserveT P E tr n
  lift do
    let sz ← size
    popLoop (sz - n)
    pushLoop r (n - sz)

/-- One call of a member function. Those not listed move no elements of vectors. -/
def vop (P : Params) (E : Elem α) (tr : α → α) : Op α → M (Mv (St α)) (Reply α)
  | .pushBack v => do pushBackT P E tr v; pure .done
  | .emplaceBack v => do let i ← emplaceBackT P E tr v; pure (.at i)
  | .popBack => do popBackT P E tr; pure .done
  | .insert pos v => do let i ← insertT P E tr pos v; pure (.at i)
  | .insertN pos n v => do let i ← insertNT P E tr pos n v; pure (.at i)
  | .insertRange pos xs => do let i ← insertRangeT P E tr pos xs; pure (.at i)
  | .erase pos => do let i ← eraseT P E tr pos; pure (.at i)
  | .eraseRange f l => do let i ← eraseRangeT P E tr f l; pure (.at i)
  | .resize n => do resizeVT P E tr n (.val E.dflt); pure .done
  | .resizeV n v => do resizeVT P E tr n v; pure .done
  | .reserve n => do reserveT P E tr n; pure .done
  | .shrinkToFit => do let b ← shrinkToFitT P E tr; pure (.bool b)
  | .revertToStatic => do let b ← revertToStaticT P E tr; pure (.bool b)
  | op => lift (exec P E op)

/-- a member function called on vector `i` -/
def at'T (i : Nat) (f : M (Mv (St α)) β) : M (Mv (Mem α)) β := fun s =>
  match s.st.vec i with
  | none => .ub
  | some v =>
    match f ⟨s.st.view v, s.m⟩ with
    | .ok b t => .ok b ⟨s.st.upd i t.st, t.m⟩
    | .throw e t => .throw e ⟨s.st.upd i t.st, t.m⟩
    | .ub => .ub

/-- the loop of `take_impl` (small_vector.hpp:738-742), `k` rounds: `construct(m_end, std::move(*p)); ++m_end;` from the
static buffer of vector `j` to that of vector `i` -/
def takeLoopT (E : Elem α) (tr : α → α) (i j : Nat) : Nat → Nat → M (Mv (Mem α)) Unit
  | _, 0 => pure ()
  | p, k+1 => do
    mayThrow (at' j (tear tr (.stat j) p)) (M.mem fun m => do
      let vi ← m.vec i
      let vj ← m.vec j
      let (bj, bi) ← moveLoop E.mv p vi.endo 1 vj.stat vi.stat
      let vi := { vi with stat := bi, endo := vi.endo + 1 }
      let vj := { vj with stat := bj }
      some { m with vec := Function.update (Function.update m.vec i (some vi)) j (some vj) })
    takeLoopT E tr i j (p+1) k

/-- `take_impl` (small_vector.hpp:733-754) of vector `i` from vector `j` -/
def takeImplT (P : Params) (E : Elem α) (tr : α → α) (i j : Nat) : M (Mv (Mem α)) Unit := do
  if i = j then lift M.undef
  else do
    let vj ← lift (M.load fun m => m.vec j)
    if vj.isStatic then
      if vj.endp = vj.bgn then do
        lift (at' i (setPtrs' (.stat i)))
        takeLoopT E tr i j 0 vj.endo
        lift (at' j do
          onLoc (.stat j) (·.destroyRange 0 vj.endo)
          setPtrs (.stat j) 0 P.N)
      else lift M.undef
    else lift (takeImpl P E i j)
where
  /-- `m_begin = m_end = static_begin_ptr()` -/
  setPtrs' (l : Loc) : M (St α) Unit := M.modify fun s => { s with v := { s.v with bgn := l, endp := l, endo := 0 } }

/-- `small_vector(small_vector&&)` (small_vector.hpp:266-271) -/
def moveCtorT (P : Params) (E : Elem α) (tr : α → α) (i j : Nat) : M (Mv (Mem α)) Unit := do
  let vj ← lift (M.load fun m => m.vec j)
  lift (construct P i vj.al)
  lift (at' i (M.modify fun s => { s with v := { s.v with cap := vj.cap } }))
  takeImplT P E tr i j

/-- `operator=(small_vector&&)` (small_vector.hpp:297-317) -/
def moveAssignT (P : Params) (E : Elem α) (tr : α → α) (i j : Nat) : M (Mv (Mem α)) Unit :=
  if i = j then lift (at' i (pure ()))
  else do
    let vj ← lift (M.load fun m => m.vec j)
    lift (at' i (do
      destroyAll
      freeDyn
      M.modify fun s => { s with v := { s.v with al := vj.al, cap := vj.cap } }))
    takeImplT P E tr i j

/-- One call. The constructors not listed move no elements of vectors: `small_vector(count)` calls `resize` of an empty
vector. -/
def vexec (P : Params) (E : Elem α) (tr : α → α) : MOp α → M (Mv (Mem α)) (Reply α)
  | .moveCtor i j => do moveCtorT P E tr i j; pure .done
  | .moveAssign i j => do moveAssignT P E tr i j; pure .done
  | .call i op => at'T i (vop P E tr op)
  | op => lift (mexec P E op)

/-- How a call ends. -/
inductive VOut (α : Type) where
  /-- by returning or throwing -/
  | ret (r : Reply α) (m : Mem α)
  /-- by `std::terminate` -/
  | terminated
  /-- not at all: undefined behaviour -/
  | ub

/-- the live objects in a storage, in order -/
def objects (b : Buf α) : List α :=
  (List.range b.cap).filterMap fun i => match b.cells i with
    | .live a => some a
    | .raw => none

/-- is the function declared `noexcept`? (small_vector.hpp:266, 297) -/
def sealed : MOp α → Bool
  | .moveCtor _ _ | .moveAssign _ _ => true
  | _ => false

/-- One call during which elements and allocations throw as `t` says, the caller catching exceptions; afterwards there are
no more throw points. -/
def vcall (P : Params) (E : Elem α) (tr : α → α) (t : VOp α) (m : Mem α) : VOut α :=
  match vexec P E tr t.op ⟨{ m with ctick := t.c, atick := t.a }, t.m⟩ with
  | .ok r s => .ret r { s.st with ctick := none, atick := none }
  | .throw e s => if sealed t.op then .terminated else .ret (.exc e) { s.st with ctick := none, atick := none }
  | .ub => .ub

/-- A history of such calls; `none` if it ends by undefined behaviour or `std::terminate`. -/
def vrun (P : Params) (E : Elem α) (tr : α → α) : List (VOp α) → Mem α → Option (List (Reply α) × Mem α)
  | [], m => some ([], m)
  | t :: ts, m =>
    match vcall P E tr t m with
    | .ret r m => do
      let (rs, m) ← vrun P E tr ts m
      some (r :: rs, m)
    | _ => none

end Itlib.SmallVector
