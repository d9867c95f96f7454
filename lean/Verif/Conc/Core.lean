import Mathlib.Logic.Function.Basic

/-!
# Concurrent programs

The code of a member function is a tree of atomic actions on the shared state (`Prog`). Any number of threads (natural
numbers) call member functions at any time, with any arguments, and in any order; the actions of running calls interleave
arbitrarily. An action may have several outcomes, or none (then the thread waits). This quantifies over all client programs
and all schedules. A trace is the list of calls and returns.
-/
namespace Itlib.Conc

/-- code: actions of type `A` with results `R a`, finally a result -/
inductive Prog (A : Type) (R : A → Type) (α : Type) where
  | ret (x : α)
  | act (a : A) (k : R a → Prog A R α)

namespace Prog
variable {A : Type} {R : A → Type} {α β : Type}

protected def bind : Prog A R α → (α → Prog A R β) → Prog A R β
  | .ret x, f => f x
  | .act a k, f => .act a fun r => (k r).bind f

instance : Monad (Prog A R) where
  pure := .ret
  bind := Prog.bind

/-- one action -/
def perform (a : A) : Prog A R (R a) := .act a .ret

@[simp] theorem pure_eq (x : α) : (pure x : Prog A R α) = .ret x := rfl
@[simp] theorem ret_bind (x : α) (f : α → Prog A R β) : (Prog.ret x >>= f) = f x := rfl
@[simp] theorem act_bind (a : A) (k : R a → Prog A R α) (f : α → Prog A R β) :
    (Prog.act a k >>= f) = .act a fun r => k r >>= f := rfl
@[simp] theorem perform_bind (a : A) (f : R a → Prog A R β) : (perform a >>= f) = .act a f := rfl
theorem bind_assoc {γ : Type} (p : Prog A R α) (f : α → Prog A R β) (g : β → Prog A R γ) : ((p >>= f) >>= g) = p >>= fun x => f x >>= g := by
  induction p with
  | ret x => rfl
  | act a k ih => simp only [act_bind, ih]

end Prog

/-- The shared state and what the actions do: `step t a s r s'` means that action `a` of thread `t` in state `s` can have result
`r` and lead to `s'`; `bad t a s` means that it is undefined behaviour. -/
structure Sys (A : Type) (R : A → Type) (S : Type) where
  step : Nat → (a : A) → S → R a → S → Prop
  bad : Nat → A → S → Prop

/-- events of a trace -/
inductive Ev (C Y : Type) where
  | inv (t : Nat) (c : C)
  | ret (t : Nat) (c : C) (y : Y)

/-- shared state and running calls -/
structure Config (A : Type) (R : A → Type) (S C Y : Type) where
  shared : S
  threads : Nat → Option (C × Prog A R Y)

variable {A : Type} {R : A → Type} {S C Y : Type}

/-- one step of some thread -/
inductive Step (sys : Sys A R S) (body : C → Prog A R Y) : Config A R S C Y → Option (Ev C Y) → Config A R S C Y → Prop where
  /-- an idle thread calls a function -/
  | inv {c : Config A R S C Y} (t : Nat) (f : C) (h : c.threads t = none) :
      Step sys body c (some (.inv t f)) ⟨c.shared, Function.update c.threads t (some (f, body f))⟩
  /-- a running call performs its next action -/
  | act {c : Config A R S C Y} (t : Nat) (f : C) (a : A) (k : R a → Prog A R Y) (r : R a) (s' : S)
      (h : c.threads t = some (f, .act a k)) (hs : sys.step t a c.shared r s') :
      Step sys body c none ⟨s', Function.update c.threads t (some (f, k r))⟩
  /-- a call returns -/
  | ret {c : Config A R S C Y} (t : Nat) (f : C) (y : Y) (h : c.threads t = some (f, .ret y)) :
      Step sys body c (some (.ret t f y)) ⟨c.shared, Function.update c.threads t none⟩

/-- executions with their traces -/
inductive Exec (sys : Sys A R S) (body : C → Prog A R Y) (c₀ : Config A R S C Y) : List (Ev C Y) → Config A R S C Y → Prop where
  | start : Exec sys body c₀ [] c₀
  | step {tr : List (Ev C Y)} {c c' : Config A R S C Y} {e : Option (Ev C Y)} (h : Exec sys body c₀ tr c) (hs : Step sys body c e c') :
      Exec sys body c₀ (tr ++ e.toList) c'

/-- the call of thread `t` goes on by one action -/
theorem Exec.goOn {sys : Sys A R S} {body : C → Prog A R Y} {c₀ : Config A R S C Y} {tr : List (Ev C Y)} {s s' : S}
    {th : Nat → Option (C × Prog A R Y)} {t : Nat} {f : C} {a : A} {k : R a → Prog A R Y} {r : R a}
    (h : Exec sys body c₀ tr ⟨s, Function.update th t (some (f, .act a k))⟩) (hs : sys.step t a s r s') :
    Exec sys body c₀ tr ⟨s', Function.update th t (some (f, k r))⟩ := by
  have := h.step (Step.act t f a k r s' (by simp) hs)
  simpa using this

/-- thread `t` calls `f` -/
theorem Exec.call {sys : Sys A R S} {body : C → Prog A R Y} {c₀ : Config A R S C Y} {tr : List (Ev C Y)} {c : Config A R S C Y} {t : Nat}
    (h : Exec sys body c₀ tr c) (ht : c.threads t = none) (f : C) :
    Exec sys body c₀ (tr ++ [.inv t f]) ⟨c.shared, Function.update c.threads t (some (f, body f))⟩ :=
  h.step (Step.inv t f ht)

/-- the call of thread `t` returns -/
theorem Exec.done {sys : Sys A R S} {body : C → Prog A R Y} {c₀ : Config A R S C Y} {tr : List (Ev C Y)} {s : S}
    {th : Nat → Option (C × Prog A R Y)} {t : Nat} {f : C} {y : Y} (h : Exec sys body c₀ tr ⟨s, Function.update th t (some (f, .ret y))⟩) :
    Exec sys body c₀ (tr ++ [.ret t f y]) ⟨s, Function.update th t none⟩ := by
  have := h.step (Step.ret t f y (by simp))
  simpa using this

/-- no call is running -/
def Config.Idle (c : Config A R S C Y) : Prop := ∀ t, c.threads t = none

/-- some thread is about to do something undefined -/
def Config.Bad (sys : Sys A R S) (c : Config A R S C Y) : Prop :=
  ∃ t f a k, c.threads t = some (f, Prog.act a k) ∧ sys.bad t a c.shared

end Itlib.Conc
