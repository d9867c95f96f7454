import Verif.Core.Outcome
import Verif.UFunction.Spec

/-!
# Model of `ufunction` (include/itlib/ufunction.hpp)

`ufunction` is a private base `std::function` whose target is a `copy_wrapper` with the function object, or a pointer to a
function. `std::function` is modelled as the implementations have it: the target is on the heap, or inside of the
`std::function`. Which of them, and how a target inside is moved when the `std::function` is moved, is up to the library
(`Lib.place`): with the copy constructor of the target (libc++; only if the type says that it does not throw), or with the
move constructor (only if the type says that it does not throw), or byte by byte (libstdc++, only for trivially copyable
types, which `copy_wrapper` is not).

Function objects have addresses and lifetimes; using one that does not exist is undefined. `copies` counts the calls of
the copy constructor of `copy_wrapper`. `fails n`: the `n`-th allocation fails.

Callables that throw: `R` may be a type of results and exceptions, a call hands out what the callable does.

Callables that use the `ufunction` they are called from are in `Reentrant.lean`. Not modelled: exceptions thrown by moves of function objects (all
moves of the wrapper are `noexcept`).
-/
namespace Itlib.UFunction
variable {S A R : Type}

/-- where a target is, and how it is moved -/
inductive Place where
  | heap
  | inlineCopied
  | inlineMoved
deriving DecidableEq

/-- A standard library. -/
structure Lib (S : Type) where
  /-- the place for a target; the flags say whether its copy and move constructors are declared not to throw -/
  place : (v : S) → (copyNoexcept moveNoexcept : Bool) → Place
  /-- `std::function(F f)` takes its argument by value (C++11), and not by reference (later) -/
  byValue : Bool
  /-- move assignment releases the old target first (libc++) -/
  clearFirst : Bool

/-- what is required of libraries: moving a `std::function` does not throw -/
structure Lib.Lawful (lib : Lib S) : Prop where
  copied : ∀ v m, lib.place v false m ≠ .inlineCopied
  moved : ∀ v c, lib.place v c false ≠ .inlineMoved

/-- what a `std::function` has -/
inductive Tgt where
  | none
  | ptr (p : Nat)
  | obj (pl : Place) (a : Nat)
deriving DecidableEq

/-- places of `std::function`s (variables, temporaries), and of function objects in local variables -/
inductive Loc where
  | var (x : Nat)
  | tmp
  | tmp2
  | param
  | wrap
  | arg
deriving DecidableEq

/-- The memory. `fn l = none`: nothing at this place. -/
structure St (S : Type) where
  fn : Loc → Option Tgt
  obj : Nat → Option S
  next : Nat
  usr : Nat → S
  copies : Nat
  allocs : Nat

variable (L : Lang S A R) (lib : Lib S) (fails : Nat → Bool)

/-- `copy_wrapper`'s copy constructor is not declared `noexcept` (ufunction.hpp:121) -/
def copyNoexcept : Bool := false
/-- `copy_wrapper`'s move constructor is (ufunction.hpp:125) -/
def moveNoexcept : Bool := true

/-- a function object with the state `v` is constructed in `l` -/
def mkObj (l : Loc) (v : S) : M (St S) Unit := fun s =>
  if s.fn l ≠ none then .ub
  else .ok () { s with
    fn := Function.update s.fn l (some (.obj .inlineMoved s.next))
    obj := Function.update s.obj s.next (some v)
    next := s.next + 1 }

/-- A function object is constructed in `d` from the one in `src`, with the move constructor: of `FO` (ufunction.hpp:118),
of the wrapper (ufunction.hpp:125). -/
def moveObj (d src : Loc) (pl : Place) : M (St S) Unit := fun s =>
  match s.fn src with
  | some (.obj _ a) =>
    match s.obj a with
    | some v =>
      if s.fn d ≠ none then .ub
      else .ok () { s with
        fn := Function.update s.fn d (some (.obj pl s.next))
        obj := Function.update (Function.update s.obj a (some (L.mv v))) s.next (some v)
        next := s.next + 1 }
    | none => .ub
  | _ => .ub

/-- The copy constructor of the wrapper (ufunction.hpp:121): the function object is moved, then an exception is thrown (and
the new function object destroyed). -/
def copyObj (src : Loc) : M (St S) Unit := fun s =>
  match s.fn src with
  | some (.obj _ a) =>
    match s.obj a with
    | some v => .throw .user { s with obj := Function.update s.obj a (some (L.mv v)), copies := s.copies + 1 }
    | none => .ub
  | _ => .ub

/-- what is in `l` is destroyed -/
def drop (l : Loc) : M (St S) Unit := fun s =>
  match s.fn l with
  | none => .ub
  | some .none => .ok () { s with fn := Function.update s.fn l none }
  | some (.ptr _) => .ok () { s with fn := Function.update s.fn l none }
  | some (.obj _ a) =>
    if s.obj a = none then .ub
    else .ok () { s with fn := Function.update s.fn l none, obj := Function.update s.obj a none }

/-- a `std::function` with this target is constructed in `l`, which does not construct or move a function object -/
def put (l : Loc) (t : Tgt) : M (St S) Unit := fun s =>
  if s.fn l ≠ none then .ub else .ok () { s with fn := Function.update s.fn l (some t) }

/-- `std::function(std::function&&)`, `d` from `src` -/
def steal (d src : Loc) : M (St S) Unit := fun s =>
  match s.fn src with
  | none => .ub
  | some .none => put d .none s
  | some (.ptr p) => (do put d (.ptr p); drop src; put src .none) s
  | some (.obj .heap a) => if s.fn d ≠ none ∨ d = src then .ub
    else .ok () { s with fn := Function.update (Function.update s.fn d (some (.obj .heap a))) src (some .none) }
  | some (.obj .inlineMoved _) => (do moveObj L d src .inlineMoved; drop src; put src .none) s
  | some (.obj .inlineCopied _) => copyObj L src s

/-- `std::function::swap`, through a temporary -/
def swap (a b : Loc) : M (St S) Unit := do
  steal L .tmp2 a
  drop a
  steal L a b
  drop b
  steal L b .tmp2
  drop .tmp2

/-- memory on the heap is requested -/
def alloc : M (St S) Unit := fun s =>
  if fails s.allocs then .throw .badAlloc { s with allocs := s.allocs + 1 } else .ok () { s with allocs := s.allocs + 1 }

/-- `std::function(copy_wrapper)`, in `d` -/
def fromWrapper (d : Loc) : M (St S) Unit := do
  let src ← (if lib.byValue then (do moveObj L .arg .wrap .inlineMoved; pure Loc.arg) else pure Loc.wrap : M (St S) Loc)
  let s ← M.get
  match s.fn src with
  | some (.obj _ a) =>
    match s.obj a with
    | some v => do
      let pl := lib.place v copyNoexcept moveNoexcept
      if pl = .heap then alloc fails
      moveObj L d src pl
    | none => M.undef
  | _ => M.undef
  if lib.byValue then drop .arg

/-- `noexcept`: an exception ends the program -/
def noexcept_ (m : M (St S) Unit) : M (St S) (Reply R) := fun s =>
  match m s with
  | .ok _ s' => .ok .unit s'
  | .throw _ s' => .ok .terminated s'
  | .ub => .ub

/-- The parameter `f` is initialized by the caller. -/
def passArg : Src → M (St S) Unit
  | .byMove u => do
    let s ← M.get
    mkObj .param (s.usr u)
    M.modify fun s => { s with usr := Function.update s.usr u (L.mv (s.usr u)) }
  | .byCopy u => do
    let s ← M.get
    mkObj .param (s.usr u)
  | _ => pure ()

/-- ufunction.hpp:91-92 (function objects), 82 (`nullptr`), 103 (function pointers): the constructors -/
def construct (d : Loc) : Src → M (St S) Unit
  | .null => put d .none
  | .ptr none => put d .none
  | .ptr (some p) => put d (.ptr p)
  | .byMove _ | .byCopy _ => do
    moveObj L .wrap .param .inlineMoved
    fromWrapper L lib fails d
    drop .wrap
    drop .param

/-- ufunction.hpp:94-99 (function objects), 83 (`nullptr`), 104-108 (function pointers): the assignments. `std::function`
assigns by constructing a temporary and swapping; `nullptr` destroys the target. -/
def assignFrom (x : Loc) : Src → M (St S) Unit
  | .null => do drop x; put x .none
  | .ptr p => do
    put .tmp (match p with | none => .none | some p => .ptr p)
    swap L .tmp x
    drop .tmp
  | .byMove _ | .byCopy _ => do
    moveObj L .wrap .param .inlineMoved
    fromWrapper L lib fails .tmp
    swap L .tmp x
    drop .tmp
    drop .wrap
    drop .param

/-- ufunction.hpp:89, move assignment of the base -/
def moveAssign (d x : Loc) : M (St S) Unit :=
  if lib.clearFirst then do
    drop d
    put d .none
    if d = x then pure ()
    else do
      drop d
      steal L d x
  else do
    steal L .tmp x
    swap L .tmp d
    drop .tmp

/-- ufunction.hpp:111, `operator()` of the base, which calls ufunction.hpp:132-136 -/
def callFn (x : Loc) (a : A) : M (St S) R := fun s =>
  match s.fn x with
  | none => .ub
  | some .none => .throw .badFunctionCall s
  | some (.ptr p) => .ok (L.pcall p a) s
  | some (.obj _ k) =>
    match s.obj k with
    | none => .ub
    | some v =>
      match L.call v a with
      | none => .ub
      | some (r, v') => .ok r { s with obj := Function.update s.obj k (some v') }

/-- ufunction.hpp:110, `operator bool` of the base -/
def test (x : Loc) : M (St S) Bool := fun s =>
  match s.fn x with
  | none => .ub
  | some t => .ok (decide (t ≠ .none)) s

/-- one call -/
def exec : Op A → M (St S) (Reply R)
  | .default x => do put (.var x) .none; pure .unit
  | .create x src => do passArg L src; noexcept_ (construct L lib fails (.var x) src)
  | .assign x src => do
    let s ← M.get
    if s.fn (.var x) = none then M.undef
    passArg L src
    noexcept_ (assignFrom L lib fails (.var x) src)
  | .moveNew d x => noexcept_ (steal L (.var d) (.var x))
  | .moveAssign d x => noexcept_ (moveAssign L lib (.var d) (.var x))
  | .call x a => fun s =>
    match callFn L (.var x) a s with
    | .ok r s' => .ok (.val r) s'
    | .throw .badFunctionCall s' => .ok .badFunctionCall s'
    | .throw e s' => .throw e s'
    | .ub => .ub
  | .test x => do return .bool (← test (.var x))
  | .destroy x => do drop (.var x); pure .unit

/-- a history; it ends where the program is terminated -/
def run : List (Op A) → M (St S) (List (Reply R))
  | [] => pure []
  | op :: ops => do
    let r ← exec L lib fails op
    match r with
    | .terminated => pure [.terminated]
    | r => do
      let rs ← run ops
      pure (r :: rs)

/-- the beginning -/
def start (usr : Nat → S) : St S := ⟨fun _ => none, fun _ => none, 0, usr, 0, 0⟩

end Itlib.UFunction
