import Verif.PodVector.Model
import Verif.PodVector.Spec

/-! # Running calls of the `pod_vector` interface on the model -/
namespace Itlib.PodVector
open Itlib Spec

def exec (P : Params) : Op → M St Reply
  | .reserve n => do let _ ← reserve P n; pure .done
  | .shrinkToFit => do let _ ← shrinkToFit P; pure .done
  | .clear => do clear P; pure .done
  | .insert pos v => do insert P pos v; pure .done
  | .insertN pos n v => do insertN P pos n v; pure .done
  | .insertRange pos ys => do insertRange P pos ys; pure .done
  | .erase pos => do shrinkAt P pos 1; pure .done
  | .eraseRange f l => do shrinkAt P f (l - f); pure .done
  | .emplaceBack => do emplaceBack P; pure .done
  | .pushBack v => do pushBack P v; pure .done
  | .popBack => do popBack P; pure .done
  | .resize n => do let _ ← resize P n; pure .done
  | .resizeV n v => do let _ ← resizeV P n v; pure .done
  | .assignN n v => do assignN P n v; pure .done
  | .assignRange ys => do assignCopy P ys.length (ys.flatten.map some); pure .done
  | .set i x => do setAt P i x; pure .done
  | .get i => do let x ← at_ P i; pure (.elem x)
  | .getBack => do let x ← back P; pure (.elem x)
  | .size => do let n ← size P; pure (.num n)
  | .capacity => do let s ← M.get; pure (.num s.v.cap)

/-- a call and its reply; `none`: undefined behaviour (no call of this class throws) -/
def call (P : Params) (op : Op) (s : St) : Option (Reply × St) :=
  match exec P op s with
  | .ok r s' => some (r, s')
  | .throw _ _ => none
  | .ub => none

def run (P : Params) : List Op → St → Option (List Reply × St)
  | [], s => some ([], s)
  | op :: ops, s => do
    let (r, s) ← call P op s
    let (rs, s) ← run P ops s
    some (r :: rs, s)

/-- a new vector in a program whose heap is `h` -/
def new (h : Heap) : St := ⟨⟨null, null, 0⟩, h, 0⟩

def mexec (A : Alloc) : MOp → M Mem Reply
  | .ctor i sz al => do construct i ⟨sz, al⟩; pure .done
  | .ctorCount i sz al n => do ctorCount A i ⟨sz, al⟩ n; pure .done
  | .ctorVal i sz al n a => do ctorVal A i ⟨sz, al⟩ n a; pure .done
  | .ctorRange i sz al ys => do ctorRange A i ⟨sz, al⟩ ys; pure .done
  | .copyCtor i j => do copyCtor A i j; pure .done
  | .moveCtor i j => do moveCtor i j; pure .done
  | .copyAssign i j => do copyAssign A i j; pure .done
  | .moveAssign i j => do moveAssign A i j; pure .done
  | .swap t i j => do swap A t i j; pure .done
  | .recastCopy i j => do recastCopy A i j; pure .done
  | .recastTake i j => do recastTake A i j; pure .done
  | .dtor i => do destruct A i; pure .done
  | .call i op => at' A i (fun P => exec P op)

def mcall (A : Alloc) (op : MOp) (m : Mem) : Option (Reply × Mem) :=
  match mexec A op m with
  | .ok r s' => some (r, s')
  | .throw _ _ => none
  | .ub => none

def mrun (A : Alloc) : List MOp → Mem → Option (List Reply × Mem)
  | [], s => some ([], s)
  | op :: ops, s => do
    let (r, s) ← mcall A op s
    let (rs, s) ← mrun A ops s
    some (r :: rs, s)

def Mem.init : Mem := ⟨fun _ => none, fun _ => none, 0⟩

/-- What every allocator does: give out unused, properly aligned addresses, and not null. -/
def Fair (A : Alloc) : Prop :=
  ∀ (h : Heap) (t n : Nat), (∃ B, ∀ a, B ≤ a → h a = none) → A.pick h t n ≠ 0 ∧ A.align ∣ A.pick h t n ∧ h (A.pick h t n) = none

end Itlib.PodVector
