import Verif.SmallVector.Props
import Verif.SmallVector.ThrowStep

/-!
# C58: programs with `small_vector` in which elements and allocations throw

At every call, the construction of an element may throw at any point, and so may an allocation; the program catches the
exceptions and goes on. Which exceptions a vector survives, and what it holds afterwards, is said by `Spec.mtstep`
(ThrowSpec.lean). The theorems say that this is so, and that the exceptions after which `Spec.mtstep` has no say
are fatal: the vector cannot even be destroyed.
-/
namespace Itlib.SmallVector
open Itlib Spec
variable {α : Type}

/-- **C58 (partial: the calls excluded by `MSafe`, as in C05).** Programs with any number of vectors, with throw points
at every call. As long as no exception is fatal there is no undefined behaviour; the replies (results or exceptions) are
those of the specification; at the end memory is `Clean`, the existing vectors are those of the specification with the
specified elements, and if there are none, nothing is allocated. -/
theorem C58_small_vector_throwing_partial (P : Params) (E : Elem α) (hN : 0 < P.N) (hR : P.R ≤ P.N + 1)
    (ts : List (TOp α)) (rs : List (Reply α)) (y : Sys α)
    (hspec : Spec.mtrun P.N P.R E ts (fun _ => none) = some (rs, y))
    (hsafe : MTSafeRun P.N P.R E ts (fun _ => none)) :
    ∃ m, mtrun P E ts Mem.init = some (rs, m) ∧ Clean m ∧ (∀ i, m.vec i = none ↔ y i = none) ∧
      (∀ i v, y i = some v → ∃ u, m.vec i = some u ∧ u.al = v.al ∧ u.cap = v.home.cap P.N ∧
        u.isStatic = decide (v.home = .stat) ∧ size (m.view u) = .ok v.xs.length (m.view u) ∧
        ∀ k (hk : k < v.xs.length), at_ k (m.view u) = .ok v.xs[k] (m.view u)) ∧
      ((∀ i, y i = none) → ∀ k, m.heap k = none) := by
  obtain ⟨m, blk, h1, hM⟩ := mtrun_mrep E hN hR ts (init_mrep P) hsafe hspec
  refine ⟨m, h1, mrep_clean hM, fun i => by rw [hM.vec i]; simp, fun i v hv => ?_, fun hy k => ?_⟩
  · refine ⟨vecRep P i (blk i) v, by rw [hM.vec i, hv]; rfl, rfl, rfl, ?_, ?_, ?_⟩
    · cases hh : v.home <;> simp [vecRep, Vec.isStatic, hh, loc]
    · rw [view_st hM hv, size_st]
    · intro k hk
      rw [view_st hM hv]
      exact at_st hk (hM.len i v hv)
  · cases hk : m.heap k with
    | none => rfl
    | some b =>
      obtain ⟨i, v, c, h2, _⟩ := hM.owner hk
      rw [hy i] at h2; simp at h2

/-- A program over vectors of static capacity 2 in which allocations fail in constructors, `push_back`, `insert`,
`reserve`, `shrink_to_fit` and `assign`, and elements throw in constructors and `assign`; the vectors are used afterwards. -/
def demoTOps : List (TOp Nat) :=
  [⟨.ctorRange 0 4 [1, 2], some 1, none⟩, ⟨.ctorRange 0 4 [1, 2, 3], none, some 0⟩, ⟨.ctorRange 0 4 [1, 2], some 2, some 0⟩,
   ⟨.call 0 (.pushBack (.val 3)), none, some 0⟩, ⟨.call 0 (.insertN 1 2 (.val 3)), some 0, some 0⟩,
   ⟨.call 0 (.insert (-1) (.val 3)), some 0, some 0⟩, ⟨.call 0 (.pushBack (.val 3)), some 1, some 1⟩,
   ⟨.copyCtor 1 4 0, none, some 0⟩, ⟨.copyCtor 1 4 0, none, none⟩, ⟨.call 0 (.reserve 9), none, some 0⟩,
   ⟨.call 0 (.assignRange [5, 6, 7]), some 2, none⟩, ⟨.call 0 (.pushBack (.val 9)), none, none⟩,
   ⟨.copyAssign 0 1, some 1, none⟩, ⟨.call 0 .shrinkToFit, none, some 0⟩, ⟨.call 0 .clear, some 0, some 0⟩,
   ⟨.call 0 (.assignN 7 (.val 1)), none, some 0⟩, ⟨.moveAssign 0 1, some 0, some 0⟩, ⟨.call 0 .forward, none, none⟩,
   ⟨.dtor 0, some 0, some 0⟩, ⟨.dtor 1, none, none⟩]

example : (Spec.mtrun 2 1 ⟨id, 0⟩ demoTOps (fun _ => none)).isSome = true ∧
    MTSafeRun 2 1 ⟨id, 0⟩ demoTOps (fun _ => none) := by
  refine ⟨by decide +kernel, ?_⟩
  simp [demoTOps, MTSafeRun, MSafe, Safe, Stable, mtstep, tstep, fault, made, allocs, mstep, step, Sys.put, choose, growTo, argVal,
    moves, Home.cap, reserved]

/-- **C58, fatal exceptions of a member function.** If the specification has no say although the preconditions of the
call hold, then the call throws, and the vector it was made on cannot be destroyed without undefined behaviour. -/
theorem C58_fatal_call (P : Params) (E : Elem α) (hN : 0 < P.N) (hR : P.R ≤ P.N + 1)
    (ts : List (TOp α)) (rs : List (Reply α)) (y : Sys α) (m : Mem α)
    (hspec : Spec.mtrun P.N P.R E ts (fun _ => none) = some (rs, y))
    (hsafe : MTSafeRun P.N P.R E ts (fun _ => none)) (hm : mtrun P E ts Mem.init = some (rs, m))
    (t : TOp α) (i : Nat) (hop : (∃ op, t.op = .call i op) ∨ ∃ j, t.op = .copyAssign i j)
    (hs : MSafe P.N P.R t.op y) (hpre : (mstep P.N P.R E t.op y).isSome) (hno : mtstep P.N P.R E t y = none) :
    ∃ e m', tcall P E t m = some (.exc e, m') ∧ destruct i m' = .ub := by
  obtain ⟨m1, blk, h1, hM⟩ := mtrun_mrep E hN hR ts (init_mrep P) hsafe hspec
  rw [hm] at h1
  simp only [Option.some.injEq, Prod.mk.injEq, true_and] at h1
  subst h1
  obtain ⟨r, hr⟩ := Option.isSome_iff_exists.mp hpre
  have := tcall_mrep E hN hR hM hs hr
  rw [hno] at this
  rcases hop with ⟨op, hop⟩ | ⟨j, hop⟩ <;> (rw [hop] at this; exact this)

/-- `small_vector<T, 2> v{1, 2}`; `v.push_back(3)` throws, because of an element (after a copy to the heap) -/
example : (Spec.mtrun 2 1 ⟨id, 0⟩ [⟨.ctorRange 0 4 [1, 2], none, none⟩] (fun _ => none)).isSome = true ∧
    ∀ rs y, Spec.mtrun 2 1 ⟨id, 0⟩ [⟨.ctorRange 0 4 [1, 2], none, none⟩] (fun _ => none) = some (rs, y) →
      (mstep 2 1 ⟨id, 0⟩ (.call 0 (.pushBack (.val 3))) y).isSome = true ∧
      mtstep 2 1 ⟨id, 0⟩ ⟨.call 0 (.pushBack (.val 3)), some 0, none⟩ y = none ∧
      MSafe 2 1 (.call 0 (.pushBack (.val 3))) y := by
  refine ⟨by decide +kernel, fun rs y h => ?_⟩
  simp [Spec.mtrun, mtstep, fault, mstep, choose] at h
  obtain ⟨-, rfl⟩ := h
  simp [mtstep, tstep, fault, made, allocs, mstep, step, argVal, MSafe, Safe, Stable, Sys.put, Home.cap]

/-- **C58, fatal exceptions of a constructor.** Likewise, the constructor itself, which destroys the vector when it
is left by an exception, has undefined behaviour. -/
theorem C58_fatal_ctor (P : Params) (E : Elem α) (hN : 0 < P.N) (hR : P.R ≤ P.N + 1)
    (ts : List (TOp α)) (rs : List (Reply α)) (y : Sys α) (m : Mem α)
    (hspec : Spec.mtrun P.N P.R E ts (fun _ => none) = some (rs, y))
    (hsafe : MTSafeRun P.N P.R E ts (fun _ => none)) (hm : mtrun P E ts Mem.init = some (rs, m))
    (t : TOp α) (h1 : ∀ i op, t.op ≠ .call i op) (h2 : ∀ i j, t.op ≠ .copyAssign i j)
    (hpre : (mstep P.N P.R E t.op y).isSome) (hno : mtstep P.N P.R E t y = none) :
    tcall P E t m = none := by
  obtain ⟨m1, blk, h3, hM⟩ := mtrun_mrep E hN hR ts (init_mrep P) hsafe hspec
  rw [hm] at h3
  simp only [Option.some.injEq, Prod.mk.injEq, true_and] at h3
  subst h3
  obtain ⟨r, hr⟩ := Option.isSome_iff_exists.mp hpre
  have hs : MSafe P.N P.R t.op y := by
    cases h : t.op with
    | call i op => exact absurd h (h1 i op)
    | _ => trivial
  have := tcall_mrep E hN hR hM hs hr
  rw [hno] at this
  cases h : t.op with
  | call i op => exact absurd h (h1 i op)
  | copyAssign i j => exact absurd h (h2 i j)
  | _ => rw [h] at this; exact this

/-- `small_vector<T, 2> v(2)`, whose second element throws; `small_vector<T, 2> v{1, 2, 3}`, likewise -/
example : (mstep 2 1 ⟨id, 0⟩ (.ctorCount 0 4 2) (fun _ => none : Sys Nat)).isSome = true ∧
    mtstep 2 1 ⟨id, 0⟩ ⟨.ctorCount 0 4 2, some 1, none⟩ (fun _ => none : Sys Nat) = none ∧
    (mstep 2 1 ⟨id, 0⟩ (.ctorRange 0 4 [1, 2, 3]) (fun _ => none : Sys Nat)).isSome = true ∧
    mtstep 2 1 ⟨id, 0⟩ ⟨.ctorRange 0 4 [1, 2, 3], some 1, none⟩ (fun _ => none : Sys Nat) = none := by
  simp [mtstep, mstep, fault]

/-- **C58, when is an exception fatal?** A failing allocation is fatal only in `assign` and copy assignment to a vector
that had elements. -/
theorem C58_alloc_failure_survived (N R : Nat) (E : Elem α) (op : Op α) (h : Home) (xs : List α) (a : Option Nat)
    (hpre : (step N R E op h xs).isSome) (hno : tstep N R E none a op h xs = none) :
    xs ≠ [] ∧ ((∃ n v, op = .assignN n v) ∨ ∃ ys, op = .assignRange ys) := by
  obtain ⟨r, hr⟩ := Option.isSome_iff_exists.mp hpre
  simp only [tstep, hr, Option.bind_eq_bind, Option.bind_some] at hno
  rcases fault_cases none a (allocs N op h xs) (made op xs) with h0 | h0 | h0
  · rw [h0] at hno; simp at hno
  · rw [h0] at hno
    simp only at hno
    cases op with
    | assignN n v => simp only [ite_eq_right_iff, reduceCtorEq, imp_false] at hno; exact ⟨hno, Or.inl ⟨n, v, rfl⟩⟩
    | assignRange ys => simp only [ite_eq_right_iff, reduceCtorEq, imp_false] at hno; exact ⟨hno, Or.inr ⟨ys, rfl⟩⟩
    | _ => simp at hno
  · simp only [fault] at h0
    split at h0 <;> simp at h0

/-- such a case: `assign(3, 7)` on `small_vector<int, 2> v{1}` when memory runs out -/
example : (step 2 1 ⟨id, 0⟩ (.assignN 3 (.val 7)) .stat [1]).isSome = true ∧
    tstep 2 1 ⟨id, 0⟩ none (some 0) (.assignN 3 (.val 7)) .stat [1] = none := by
  simp [step, tstep, fault, allocs, Home.cap, argVal]

end Itlib.SmallVector
