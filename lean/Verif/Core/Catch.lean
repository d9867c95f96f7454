import Verif.Core.Outcome

/-! # `try { m } catch (...) { h }` -/
namespace Itlib.M
variable {σ α : Type}

/-- `try { m } catch (...) { h }` -/
def catching (m : M σ α) (h : Exc → M σ α) : M σ α := fun s =>
  match m s with
  | .ok a s' => .ok a s'
  | .throw e s' => h e s'
  | .ub => .ub

@[simp] theorem catching_apply (m : M σ α) (h : Exc → M σ α) (s : σ) :
    catching m h s = match m s with
      | .ok a s' => .ok a s'
      | .throw e s' => h e s'
      | .ub => .ub := rfl

end Itlib.M
