import Verif.StaticVector.Props
import Verif.StaticVector.ThrowStep

/-!
# C60: programs with `static_vector` in which elements throw

At every call, the construction of an element may throw at any point; the program catches the exceptions and goes on.
Which exceptions a vector survives, what it holds afterwards, and which elements are then never destroyed is said by
`Spec.mtstep` (ThrowSpec.lean). The theorems say that this is so, and that the exceptions after which `Spec.mtstep` has
no say are fatal: the vector cannot even be destroyed.
-/
namespace Itlib.StaticVector
open Itlib Spec
variable {α : Type}

theorem good_nil : Good (fun _ => none : Sys α) := by intro i cap xs h; simp at h

/-- **C60 (partial: the calls excluded by `MSafe`, as in C04).** Programs with any number of vectors, with throw points
at every call. As long as no exception is fatal there is no undefined behaviour; the replies (results or exceptions) are
those of the specification; at the end the existing vectors are those of the specification with the elements of the
specification; and the objects that will never be destroyed are exactly those the specification says were lost. -/
theorem C60_static_vector_throwing_partial (E : Elem α) (ts : List (TOp α)) (rs : List (Reply α)) (lost : List α) (y : Sys α)
    (hspec : Spec.mtrun E ts (fun _ => none) = some (rs, lost, y)) (hsafe : MTSafeRun E ts (fun _ => none)) :
    ∃ st, mtrun E ts Store.init = some (rs, st) ∧ (∀ i, st.vec i = none ↔ y i = none) ∧
      (∀ i cap xs, y i = some (cap, xs) → ∃ s, st.vec i = some s ∧ s.buf.cap = cap ∧ s.size = xs.length ∧
        ∀ k (h : k < xs.length), at_ k s = .ok xs[k] s) ∧
      st.leaked = lost := by
  have h0 : (Store.init : Store α) = mrep (fun _ => none) [] := rfl
  obtain ⟨g, hg, hy, h⟩ := mtrun_mrep E ts (g := []) good_nil hsafe hspec
  refine ⟨mrep y (g ++ []), by rw [h0]; exact h, fun i => by simp [mrep], fun i cap xs hi => ?_, ?_⟩
  · exact ⟨rep cap xs, mrep_vec hi, rfl, rfl, fun k hk => at_rep hk (hy i cap xs hi).1⟩
  · rw [List.append_nil]
    exact hg

/-- A program in which elements throw in constructors (two elements are lost, then one), `push_back`, `emplace_back`,
`resize`, `assign` and copy assignment; the vectors are used afterwards. -/
def demoTOps : List (TOp Nat) :=
  [⟨.ctorRange 0 4 [1, 2, 3], some 2⟩, ⟨.ctorRange 0 4 [1, 2, 3], some 3⟩, ⟨.call 0 (.pushBack (.self 0)), some 0⟩,
   ⟨.call 0 (.emplaceBack (.val 9)), some 0⟩, ⟨.call 0 (.pushBack (.val 9)), some 1⟩, ⟨.call 0 (.pushBack (.val 9)), some 0⟩,
   ⟨.copyCtor 1 7 0, some 1⟩, ⟨.copyCtor 1 4 0, none⟩, ⟨.call 0 (.assignN 3 (.val 5)), some 2⟩,
   ⟨.call 0 (.resize 4), some 1⟩, ⟨.call 0 .forward, some 0⟩, ⟨.call 0 (.insert 1 (.val 8)), some 1⟩,
   ⟨.copyAssign 0 1, some 2⟩, ⟨.call 0 .forward, some 0⟩]

example : (Spec.mtrun ⟨id, 0⟩ demoTOps (fun _ => none)).map (fun p => (p.1, p.2.1)) =
    some ([.exc .element, .done, .exc .element, .exc .element, .done, .exc .outOfRange, .exc .element, .done,
      .exc .element, .exc .element, .elems [5, 5, 0], .at 1, .exc .element, .elems [1, 2]], [1, 2, 1]) ∧
    MTSafeRun ⟨id, 0⟩ demoTOps (fun _ => none) := by
  refine ⟨by decide +kernel, ?_⟩
  simp [demoTOps, MTSafeRun, MSafe, Safe, Stable, mtstep, tstep, fault, made, mstep, step, Sys.put, argVal]

/-- **C60, fatal exceptions.** If the specification has no say although the preconditions of the call hold, then the call
throws, and the vector it was made on cannot be destroyed without undefined behaviour. -/
theorem C60_fatal_call (E : Elem α) (ts : List (TOp α)) (rs : List (Reply α)) (lost : List α) (y : Sys α) (st : Store α)
    (hspec : Spec.mtrun E ts (fun _ => none) = some (rs, lost, y)) (hsafe : MTSafeRun E ts (fun _ => none))
    (hm : mtrun E ts Store.init = some (rs, st)) (t : TOp α) (hs : MSafe t.op y)
    (hpre : (mstep E t.op y).isSome) (hno : mtstep E t y = none) :
    ∃ i op st', t.op = .call i op ∧ tcall E t st = some (.exc .element, st') ∧ destruct i st' = .ub := by
  have h0 : (Store.init : Store α) = mrep (fun _ => none) [] := rfl
  obtain ⟨g, hg, hy, h⟩ := mtrun_mrep E ts (g := []) good_nil hsafe hspec
  rw [← h0, hm] at h
  simp only [Option.some.injEq, Prod.mk.injEq, true_and] at h
  subst h
  have := tcall_mrep (g := g ++ []) E hy hs hpre
  simp only [Refined, hno] at this
  obtain ⟨i, op, h1, st', h2, h3⟩ := this
  exact ⟨i, op, st', h1, h2, h3⟩

/-- `static_vector<T, 4> v{1, 2}`; `v.insert(v.begin(), 3)` throws -/
example : ∃ rs lost y, Spec.mtrun ⟨id, 0⟩ [⟨.ctorRange 0 4 [1, 2], none⟩] (fun _ => none) = some (rs, lost, y) ∧
    MTSafeRun ⟨id, 0⟩ [⟨.ctorRange 0 4 [1, 2], none⟩] (fun _ => none) ∧
    MSafe (.call 0 (.insert 0 (.val 3))) y ∧ (mstep ⟨id, 0⟩ (.call 0 (.insert 0 (.val 3))) y).isSome ∧
    mtstep ⟨id, 0⟩ ⟨.call 0 (.insert 0 (.val 3)), some 0⟩ y = none := by
  refine ⟨_, _, _, rfl, ?_, ?_, ?_, ?_⟩
  · simp [MTSafeRun, MSafe, mtstep, fault, mstep]
  · simp [MSafe, Safe, Stable]
  · simp [mstep, step, argVal, Sys.put]
  · simp [mtstep, tstep, fault, made, mstep, step, argVal, Sys.put]

/-- **C60, when is an exception fatal?** Exactly when an element throws in an insertion other than `push_back` and
`emplace_back`, at whatever position. -/
theorem C60_fatal_iff_insert (cap : Nat) (E : Elem α) (c : Option Nat) (op : Op α) (xs : List α)
    (hpre : (step cap E op xs).isSome) :
    tstep cap E c op xs = none ↔ (∃ k, c = some k ∧ k < made cap op xs) ∧
      ((∃ pos v, op = .insert pos v) ∨ (∃ pos n v, op = .insertN pos n v) ∨ ∃ pos ys, op = .insertRange pos ys) := by
  obtain ⟨r, hr⟩ := Option.isSome_iff_exists.mp hpre
  simp only [tstep, hr, Option.bind_eq_bind, Option.bind_some]
  rcases fault_cases c (made cap op xs) with ⟨h1, h2⟩ | ⟨k, h1, h2, h3⟩
  · simp only [h1, reduceCtorEq, false_iff, not_and]
    rintro ⟨k, rfl, hk⟩
    simp only [Enough] at h2
    omega
  · simp only [h3]
    have h4 : ∃ k, c = some k ∧ k < made cap op xs := ⟨k, h1, h2⟩
    simp only [h4, true_and]
    cases op <;> first | (simp [made] at h2; done) | simp

/-- such a case, and the same call at the end of the vector by `push_back`, which is survived -/
example : tstep 4 ⟨id, 0⟩ (some 0) (.insert 2 (.val 3)) [1, 2] = none ∧
    tstep 4 ⟨id, 0⟩ (some 0) (.pushBack (.val 3)) [1, 2] = some (.exc .element, [1, 2]) := by
  simp [tstep, step, fault, made, argVal]

/-- **C60, when are elements lost?** Only if a constructor is left by an exception of an element; then those it made before
are. -/
theorem C60_lost_only_by_ctor (E : Elem α) (t : TOp α) (y y' : Sys α) (r : Reply α) (lost : List α)
    (h : mtstep E t y = some (r, lost, y')) (hl : lost ≠ []) :
    r = .exc .element ∧ y' = y ∧
      ((∃ i cap n, t.op = .ctorCount i cap n) ∨ (∃ i cap n a, t.op = .ctorVal i cap n a) ∨
        (∃ i cap xs, t.op = .ctorRange i cap xs) ∨ ∃ i cap j, t.op = .copyCtor i cap j) := by
  obtain ⟨op, c⟩ := t
  simp only [mtstep, Option.bind_eq_bind, Option.bind_eq_some_iff] at h
  obtain ⟨⟨r0, y0⟩, h0, h⟩ := h
  have key : ∀ {cap : Nat} {xs : List α},
      (match fault c (if xs.length ≤ cap then xs.length else 0) with
        | none => some (r0, [], y0)
        | some k => some (.exc .element, xs.take k, y)) = some (r, lost, y') → r = .exc .element ∧ y' = y := by
    intro cap xs h
    cases e : fault c (if xs.length ≤ cap then xs.length else 0) with
    | none =>
      simp only [e, Option.some.injEq, Prod.mk.injEq] at h
      exact absurd h.2.1.symm hl
    | some k =>
      simp only [e, Option.some.injEq, Prod.mk.injEq] at h
      exact ⟨h.1.symm, h.2.2.symm⟩
  cases op with
  | ctorCount i cap n => exact ⟨(key h).1, (key h).2, Or.inl ⟨i, cap, n, rfl⟩⟩
  | ctorVal i cap n a => exact ⟨(key h).1, (key h).2, Or.inr (Or.inl ⟨i, cap, n, a, rfl⟩)⟩
  | ctorRange i cap xs => exact ⟨(key h).1, (key h).2, Or.inr (Or.inr (Or.inl ⟨i, cap, xs, rfl⟩))⟩
  | copyCtor i cap j =>
    simp only [Option.bind_eq_some_iff] at h
    obtain ⟨⟨_, ys⟩, _, h⟩ := h
    exact ⟨(key h).1, (key h).2, Or.inr (Or.inr (Or.inr ⟨i, cap, j, rfl⟩))⟩
  | copyAssign i j =>
    simp only [Option.bind_eq_some_iff] at h
    obtain ⟨⟨_, _⟩, _, ⟨_, _⟩, _, h⟩ := h
    simp only at h
    split at h
    · simp only [Option.some.injEq, Prod.mk.injEq] at h
      exact absurd h.2.1.symm hl
    · simp only [Option.bind_eq_some_iff] at h
      obtain ⟨⟨_, _⟩, _, h⟩ := h
      simp only [Option.some.injEq, Prod.mk.injEq] at h
      exact absurd h.2.1.symm hl
  | call i op =>
    simp only [Option.bind_eq_some_iff] at h
    obtain ⟨⟨_, _⟩, _, ⟨_, _⟩, _, h⟩ := h
    simp only [Option.some.injEq, Prod.mk.injEq] at h
    exact absurd h.2.1.symm hl
  | ctor i cap => simp only [Option.some.injEq, Prod.mk.injEq] at h; exact absurd h.2.1.symm hl
  | moveCtor i j => simp only [Option.some.injEq, Prod.mk.injEq] at h; exact absurd h.2.1.symm hl
  | moveAssign i j => simp only [Option.some.injEq, Prod.mk.injEq] at h; exact absurd h.2.1.symm hl
  | swap i j => simp only [Option.some.injEq, Prod.mk.injEq] at h; exact absurd h.2.1.symm hl
  | dtor i => simp only [Option.some.injEq, Prod.mk.injEq] at h; exact absurd h.2.1.symm hl

/-- `static_vector<T, 3> v(3, 7)` whose third element throws: two are lost -/
example : mtstep ⟨id, 0⟩ ⟨.ctorVal 0 3 3 7, some 2⟩ (fun _ => none) = some (.exc .element, [7, 7], fun _ => none) := by
  simp [mtstep, mstep, fault, List.replicate]

end Itlib.StaticVector
