/-!
# Outcomes of C++ code

Shared vocabulary of all models: a piece of C++ code run in a state either returns, or leaves by an exception (the state
at that moment is kept, because the caller may catch it and go on), or has undefined behaviour.
-/
namespace Itlib

/-- Exceptions thrown by the modelled code. `element` stands for an exception thrown by a constructor of the user's
element type. -/
inductive Exc where
  | outOfRange
  | element
  | badCast
  | lockFailure
  | badAlloc
  | badWeakPtr
  | badFunctionCall
  | user
  deriving DecidableEq, Repr

/-- Result of running C++ code. -/
inductive Res (σ : Type) (α : Type) where
  /-- normal return -/
  | ok (a : α) (s : σ)
  /-- exit by exception -/
  | throw (e : Exc) (s : σ)
  /-- undefined behaviour -/
  | ub

/-- C++ code acting on a state of type `σ` and returning an `α`. -/
def M (σ : Type) (α : Type) : Type := σ → Res σ α

namespace M
variable {σ α β : Type}

@[inline] protected def pure (a : α) : M σ α := fun s => .ok a s

@[inline] protected def bind (m : M σ α) (f : α → M σ β) : M σ β := fun s =>
  match m s with
  | .ok a s' => f a s'
  | .throw e s' => .throw e s'
  | .ub => .ub

instance : Monad (M σ) where
  pure := M.pure
  bind := M.bind

/-- `throw` -/
def raise (e : Exc) : M σ α := fun s => .throw e s
/-- undefined behaviour -/
def undef : M σ α := fun _ => .ub
/-- read the state -/
def get : M σ σ := fun s => .ok s s
/-- replace the state -/
def set (s' : σ) : M σ Unit := fun _ => .ok () s'
/-- modify the state -/
def modify (f : σ → σ) : M σ Unit := fun s => .ok () (f s)

/-- A memory operation given as a partial function on states, `none` meaning undefined behaviour. -/
def mem (f : σ → Option σ) : M σ Unit := fun s =>
  match f s with
  | some s' => .ok () s'
  | none => .ub

/-- A memory read given as a partial function on states, `none` meaning undefined behaviour. -/
def load (f : σ → Option α) : M σ α := fun s =>
  match f s with
  | some a => .ok a s
  | none => .ub

@[simp] theorem pure_apply (a : α) (s : σ) : (pure a : M σ α) s = .ok a s := rfl
@[simp] theorem bind_apply (m : M σ α) (f : α → M σ β) (s : σ) :
    (m >>= f) s = match m s with
      | .ok a s' => f a s'
      | .throw e s' => .throw e s'
      | .ub => .ub := rfl
@[simp] theorem map_apply (g : α → β) (m : M σ α) (s : σ) :
    (g <$> m) s = match m s with
      | .ok a s' => .ok (g a) s'
      | .throw e s' => .throw e s'
      | .ub => .ub := rfl
@[simp] theorem raise_apply (e : Exc) (s : σ) : (raise e : M σ α) s = .throw e s := rfl
@[simp] theorem undef_apply (s : σ) : (undef : M σ α) s = .ub := rfl
@[simp] theorem get_apply (s : σ) : (get : M σ σ) s = .ok s s := rfl
@[simp] theorem set_apply (s s' : σ) : (set s' : M σ Unit) s = .ok () s' := rfl
@[simp] theorem modify_apply (f : σ → σ) (s : σ) : (modify f : M σ Unit) s = .ok () (f s) := rfl

end M
end Itlib
