import Verif.ASptr.Spec

/-!
# Memory orders of `atomic_shared_ptr_storage` (include/itlib/atomic_shared_ptr_storage.hpp:64-96)

Executions recorded as the list of what they do, and the happens-before relation of C++11 on them, from the memory orders
that the code passes: `test_and_set(std::memory_order_acquire)` (line 71) and `clear(std::memory_order_release)` (line 74). The
reference counts are the standard library's: increments relaxed, decrements acquire-release. Slots are synchronised by their users.

A successful `test_and_set` reads the value of a `clear`, or of the flag's initialisation; the successful ones and the `clear`s
alternate, so it is the last one before it. Failing ones, which read other threads' `true`, would only add edges.

Not modelled: executions that no interleaving explains. That race-free programs with locks have none is a theorem about
the memory model of C++, not about this code.
-/
namespace Itlib.ASptr
open Itlib.Conc

/-- the words of `m_ptr` -/
inductive Word where
  | ptr
  | ctl
deriving DecidableEq

/-- what an action does to memory that several threads touch, and calls -/
inductive Lab where
  | lock
  | unlock
  /-- reads or writes a word of `m_ptr` -/
  | word (w : Word) (write : Bool)
  /-- constructs the object of control block `q` -/
  | con (q : Nat)
  /-- uses it -/
  | use (q : Nat)
  /-- increments the count -/
  | inc (q : Nat)
  /-- decrements it; the last owner destroys the object -/
  | dec (q : Nat) (last : Bool)
  | slot (b : Nat)
  | inv (f : Op)
  | ret (f : Op) (y : Out)
  /-- touches only what belongs to the thread -/
  | none

/-- who does it -/
structure Event where
  tid : Nat
  lab : Lab

/-- an action's label, in the state before it -/
def label (t : Nat) : (a : Act) → St → a.Res → Lab
  | .lock, _, _ => .lock
  | .unlock, _, _ => .unlock
  | .rdPtr, _, _ => .word .ptr false
  | .rdCtl, _, _ => .word .ctl false
  | .wrPtr _, _, _ => .word .ptr true
  | .wrCtl _ _ _, _, _ => .word .ctl true
  | .acquire _ _ q, _, _ => if q = 0 then .none else .inc q
  | .make _, _, r => .con (SP.ctl r)
  | .release x, s, _ => if (s.cells t x).ctl = 0 then .none else .dec (s.cells t x).ctl (decide (s.count (s.cells t x).ctl = 1))
  | .deref x, s, _ => .use (s.cells t x).ctl
  | .xchg _ b, _, _ => .slot b
  | _, _, _ => .none

/-- executions and what they do -/
inductive Run (v₀ : SP) : List Event → Config Act Act.Res St Op Out → Prop where
  | start : Run v₀ [] (initial v₀)
  | inv {es c} (h : Run v₀ es c) (t : Nat) (f : Op) (ht : c.threads t = none) :
      Run v₀ (es ++ [⟨t, .inv f⟩]) ⟨c.shared, Function.update c.threads t (some (f, body f))⟩
  | act {es c} (h : Run v₀ es c) (t : Nat) (f : Op) (a : Act) (k : a.Res → P Out) (r : a.Res) (s' : St)
      (ht : c.threads t = some (f, .act a k)) (hd : Does t a c.shared r s') :
      Run v₀ (es ++ [⟨t, label t a c.shared r⟩]) ⟨s', Function.update c.threads t (some (f, k r))⟩
  | ret {es c} (h : Run v₀ es c) (t : Nat) (f : Op) (y : Out) (ht : c.threads t = some (f, .ret y)) :
      Run v₀ (es ++ [⟨t, .ret f y⟩]) ⟨c.shared, Function.update c.threads t none⟩

/-- memory orders of the spin lock -/
structure Orders where
  /-- `test_and_set` acquires -/
  acq : Bool
  /-- `clear` releases -/
  rel : Bool

/-- those of the code: lines 71 and 74 -/
def coded : Orders := ⟨true, true⟩

/-- event `i` is `l` -/
def Is (es : List Event) (i : Nat) (l : Lab) : Prop := ∃ t, es[i]? = some ⟨t, l⟩

/-- event `i` is done by thread `t` -/
def By (es : List Event) (i t : Nat) : Prop := ∃ l, es[i]? = some ⟨t, l⟩

/-- event `i` synchronises with event `j` -/
inductive Sync (o : Orders) (es : List Event) (i j : Nat) : Prop where
  /-- the lock: with the last `clear` before -/
  | lock (h : i < j) (ha : o.acq = true) (hr : o.rel = true) (hi : Is es i .unlock) (hj : Is es j .lock)
      (hn : ∀ k, i < k → k < j → ¬ Is es k .unlock)
  /-- decrements of the count of one object -/
  | count (h : i < j) (q : Nat) (b b' : Bool) (hi : Is es i (.dec q b)) (hj : Is es j (.dec q b'))
      (hn : ∀ k, i < k → k < j → ¬ Is es k (.con q))
  /-- slots -/
  | slot (h : i < j) (b : Nat) (hi : Is es i (.slot b)) (hj : Is es j (.slot b))

/-- event `i` happens before event `j` -/
inductive Hb (o : Orders) (es : List Event) : Nat → Nat → Prop where
  | po {i j : Nat} (h : i < j) (t : Nat) (hi : By es i t) (hj : By es j t) : Hb o es i j
  | sync {i j : Nat} (h : Sync o es i j) : Hb o es i j
  | trans {i j k : Nat} (h : Hb o es i j) (h' : Hb o es j k) : Hb o es i k

/-- Event `i` touches the object of `q`, or its count. -/
def Touches (es : List Event) (i q : Nat) : Prop :=
  Is es i (.con q) ∨ Is es i (.use q) ∨ Is es i (.inc q) ∨ ∃ b, Is es i (.dec q b)

/-- no object of `q` is constructed after event `i`, up to event `j` -/
def SameLife (es : List Event) (q i j : Nat) : Prop := ∀ k, i < k → k ≤ j → ¬ Is es k (.con q)

/-- Two events race: both touch a word of `m_ptr`, one of them writes it, and neither happens before the other. -/
def Race (o : Orders) (es : List Event) (i j : Nat) : Prop :=
  (∃ w b b', Is es i (.word w b) ∧ Is es j (.word w b') ∧ (b = true ∨ b' = true)) ∧ i ≠ j ∧ ¬ Hb o es i j ∧ ¬ Hb o es j i

end Itlib.ASptr
