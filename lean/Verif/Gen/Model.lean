import Verif.Core.Outcome
import Mathlib.Logic.Function.Basic

/-!
# Model of `itlib::generator` (include/itlib/generator.hpp)

A coroutine body is an arbitrary program with local state `S`: run from a suspension point it yields a value (and is suspended
in a new state), returns, or throws. A body that runs forever between two suspension points corresponds to a call that never
returns and is not represented. Using a handle that is null or whose frame was destroyed, and resuming a coroutine at its
final suspension point, are undefined behaviour (`.ub`).

Exceptions of bodies are values of `E`; a function that rethrows returns `.error e`.
-/
namespace Itlib.Gen
open Itlib

/-- What a coroutine body does when it runs from a suspension point. -/
inductive Act (S V E : Type) where
  | yield (v : V) (s : S)
  | ret
  | throw (e : E)

/-- A coroutine frame: where the body is suspended (`none`: at the final suspension point) and the promise
(generator.hpp:113-115: `m_val`, `m_exception`). -/
structure Frame (S V E : Type) where
  at_ : Option S
  val : Option V
  exc : Option E

/-- Everything in memory: generators (object ↦ handle, `none` inside is the null handle), iterators (handles), frames; frames
get fresh numbers, `destroyed` is the log of frame destructions. -/
structure World (S V E : Type) where
  gen : Nat → Option (Option Nat)
  iter : Nat → Option Nat
  frame : Nat → Option (Frame S V E)
  next : Nat
  destroyed : List Nat

def World.init {S V E : Type} : World S V E := ⟨fun _ => none, fun _ => none, fun _ => none, 0, []⟩

variable {S V E : Type}

abbrev Mem (S V E : Type) := M (World S V E)

/-- access a generator -/
def rd (i : Nat) : Mem S V E (Option Nat) := fun w =>
  match w.gen i with
  | some h => .ok h w
  | none => .ub

/-- `m_handle = h` -/
def wr (i : Nat) (h : Option Nat) : Mem S V E Unit := fun w =>
  match w.gen i with
  | some _ => .ok () { w with gen := Function.update w.gen i (some h) }
  | none => .ub

/-- a generator object begins -/
def begin_ (i : Nat) (h : Option Nat) : Mem S V E Unit := fun w =>
  match w.gen i with
  | none => .ok () { w with gen := Function.update w.gen i (some h) }
  | some _ => .ub

/-- a generator object ends -/
def end_ (i : Nat) : Mem S V E Unit := fun w =>
  match w.gen i with
  | some _ => .ok () { w with gen := Function.update w.gen i none }
  | none => .ub

/-- access a frame -/
def frame (f : Nat) : Mem S V E (Frame S V E) := fun w =>
  match w.frame f with
  | some fr => .ok fr w
  | none => .ub

/-- change a frame -/
def setFrame (f : Nat) (fr : Frame S V E) : Mem S V E Unit := fun w =>
  match w.frame f with
  | some _ => .ok () { w with frame := Function.update w.frame f (some fr) }
  | none => .ub

/-- `h.destroy()` -/
def destroy (f : Nat) : Mem S V E Unit := fun w =>
  match w.frame f with
  | some _ => .ok () { w with frame := Function.update w.frame f none, destroyed := f :: w.destroyed }
  | none => .ub

/-- calling the coroutine function: a frame suspended at its start (`initial_suspend`, 123) and the generator of
`get_return_object` (generator.hpp:120-122, 237-238) -/
def create (i : Nat) (s : S) : Mem S V E Unit := fun w =>
  match w.gen i with
  | none => .ok ()
    { w with
      gen := Function.update w.gen i (some (some w.next))
      frame := Function.update w.frame w.next (some ⟨some s, none, none⟩)
      next := w.next + 1 }
  | some _ => .ub

variable (step : S → Act S V E) (mv : V → V)

/-- `h.resume()`: runs the body; `yield_value` (generator.hpp:125-133) stores the value, `unhandled_exception` (generator.hpp:135-137) the exception;
after `return_void` (generator.hpp:134) or `unhandled_exception` the coroutine is suspended at its final suspension point (generator.hpp:124) -/
def resume (f : Nat) : Mem S V E Unit := do
  let fr ← frame f
  match fr.at_ with
  | none => .undef
  | some s =>
    match step s with
    | .yield v s' => setFrame f { fr with at_ := some s', val := some v }
    | .ret => setFrame f { fr with at_ := none }
    | .throw e => setFrame f { fr with at_ := none, exc := some e }

/-- `h.done()` -/
def handleDone (f : Nat) : Mem S V E Bool := do
  let fr ← frame f
  pure fr.at_.isNone

/-- `safe_resume` (generator.hpp:228-235); the result is the rethrown exception -/
def safeResume (f : Nat) : Mem S V E (Option E) := do
  let fr ← frame f
  setFrame f { fr with val := none }
  resume step f
  let fr ← frame f
  pure fr.exc

/-- `generator(generator&&)` (generator.hpp:152) -/
def moveCtor (i j : Nat) : Mem S V E Unit := do
  let h ← rd j
  wr j none
  begin_ i h

/-- `if (m_handle) m_handle.destroy();` (generator.hpp:155, 161, 165) -/
def destroyHandle (i : Nat) : Mem S V E Unit := do
  let h ← rd i
  match h with
  | some f => destroy f
  | none => pure ()

/-- `operator=(generator&&)` (generator.hpp:154-158) -/
def moveAssign (i j : Nat) : Mem S V E Unit := do
  destroyHandle i
  let h ← rd j
  wr j none
  wr i h

/-- `~generator` (generator.hpp:160-162) -/
def dtor (i : Nat) : Mem S V E Unit := do
  destroyHandle i
  end_ i

/-- `reset` (generator.hpp:164-167) -/
def reset (i : Nat) : Mem S V E Unit := do
  destroyHandle i
  wr i none

/-- `operator bool` (generator.hpp:169-171) -/
def toBool (i : Nat) : Mem S V E Bool := do
  let h ← rd i
  pure h.isSome

/-- the handle of a generator where the code dereferences it -/
def handle (i : Nat) : Mem S V E Nat := do
  let h ← rd i
  match h with
  | some f => pure f
  | none => .undef

/-- `done` (generator.hpp:176-178) -/
def done (i : Nat) : Mem S V E Bool := do
  let f ← handle i
  handleDone f

/-- `next` (generator.hpp:180-184): empty, a value, or a rethrown exception; the value is moved out of the promise -/
def next (i : Nat) : Mem S V E (Except E (Option V)) := do
  let f ← handle i
  let d ← handleDone f
  if d then pure (.ok none)
  else do
    let x ← safeResume step f
    match x with
    | some e => pure (.error e)
    | none => do
      let fr ← frame f
      match fr.val with
      | none => pure (.ok none)
      | some v => do
        setFrame f { fr with val := some (mv v) }
        pure (.ok (some v))

/-- an iterator object begins -/
def beginIter (k f : Nat) : Mem S V E Unit := fun w =>
  .ok () { w with iter := Function.update w.iter k (some f) }

/-- `begin` (generator.hpp:218-221), the result stored in iterator variable `k` -/
def begin (i k : Nat) : Mem S V E (Except E Unit) := do
  let f ← handle i
  let x ← safeResume step f
  match x with
  | some e => pure (.error e)
  | none => do
    beginIter k f
    pure (.ok ())

/-- access an iterator -/
def iter (k : Nat) : Mem S V E Nat := fun w =>
  match w.iter k with
  | some f => .ok f w
  | none => .ub

/-- `pseudo_iterator::operator++` (generator.hpp:204-207) -/
def incr (k : Nat) : Mem S V E (Except E Unit) := do
  let f ← iter k
  let x ← safeResume step f
  match x with
  | some e => pure (.error e)
  | none => pure (.ok ())

/-- `pseudo_iterator::operator*` (generator.hpp:200-202), `val() &` (generator.hpp:139-141): the promise must have a value -/
def deref (k : Nat) : Mem S V E V := do
  let f ← iter k
  let fr ← frame f
  match fr.val with
  | some v => pure v
  | none => .undef

/-- comparison with the end (generator.hpp:212-215) -/
def isEnd (k : Nat) : Mem S V E Bool := do
  let f ← iter k
  handleDone f

end Itlib.Gen
