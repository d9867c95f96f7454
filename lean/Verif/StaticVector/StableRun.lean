import Verif.StaticVector.Stable
import Verif.StaticVector.StepLemmas

/-! # C83: references to elements of a `static_vector`, through histories -/
namespace Itlib.StaticVector
open Itlib
variable {α : Type}

/-- C83, in part. Through a whole history in which no call has to do with element `i`, its object stays the same: with anything else, or nothing,
in its slot the history gives the same replies and the same other elements, and leaves that there. Missing: the calls excluded by `Spec.Safe`
(see C01). -/
theorem C83_history_partial (E : Elem α) {cap : Nat} (hcap : cap < 2 ^ 63) {ops : List (Op α)} {xs ys : List α} {rs : List (Reply α)} {i : Nat}
    (hc : xs.length ≤ cap) (hsafe : Spec.SafeRun cap E ops xs) (hk : Spec.KeepsRun cap E i ops xs) (hs : Spec.run cap E ops xs = some (rs, ys))
    (x : Cell α) : run E ops ((rep cap xs).over i x) = some (rs, (rep cap ys).over i x) := by
  induction ops generalizing xs rs with
  | nil => simp only [Spec.run, Option.some.injEq, Prod.mk.injEq] at hs; obtain ⟨rfl, rfl⟩ := hs; rfl
  | cons op ops ih =>
    simp only [Spec.run, Option.bind_eq_bind, Option.bind_eq_some_iff] at hs
    obtain ⟨⟨r, xs1⟩, h1, ⟨rs1, xs2⟩, h2, h3⟩ := hs
    simp only [Option.some.injEq, Prod.mk.injEq] at h3
    obtain ⟨rfl, rfl⟩ := h3
    simp only [Spec.SafeRun, h1] at hsafe
    simp only [Spec.KeepsRun, h1] at hk
    have e := call_over E (s := rep cap xs) (i := i) hk.1 x
    rw [call_rep E hcap hc hsafe.1 h1] at e
    simp only [run, e, Option.map_some, Option.bind_eq_bind, Option.bind_some, ih (step_length_le hc h1) hsafe.2 hk.2 h2]

/-- a history that has nothing to do with element 1 -/
def keepDemo : List (Op Nat) :=
  [.pushBack (.val 4), .insert 2 (.self 0), .insertRange 3 [7, 8], .erase 4, .set 0 (.val 9), .resize 3, .popBack, .resizeV 6 (.self 0), .eraseRange 2 4,
    .pushBack (.val 1), .size]

/-- C83's hypotheses hold of it -/
example : Spec.KeepsRun 8 ⟨id, 0⟩ 1 keepDemo [1, 2, 3] ∧ Spec.SafeRun 8 ⟨id, 0⟩ keepDemo [1, 2, 3] ∧
    (Spec.run 8 ⟨id, 0⟩ keepDemo [1, 2, 3]).map (·.2) = some [9, 2, 9, 9, 1] := by
  refine ⟨?_, ?_, by decide⟩
  · simp [keepDemo, Spec.KeepsRun, Spec.Keeps, Spec.Apart, Spec.step, Spec.argVal]
  · simp [keepDemo, Spec.SafeRun, Spec.Safe, Spec.Stable, Spec.step, Spec.argVal]

end Itlib.StaticVector
