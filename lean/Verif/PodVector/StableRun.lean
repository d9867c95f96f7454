import Verif.PodVector.Stable
import Verif.PodVector.StepLemmas

/-! # C83: references to elements of a `pod_vector`, through histories -/
namespace Itlib.PodVector
open Itlib
variable {P : Params}

theorem new_rep (h : Heap) : Rep P h (new h) 0 [] := by
  refine ⟨none, 0, ?_, ?_, Nat.le_refl _, ?_⟩
  · simp [new, st, ptrOf, heapOf, null, Ptr.add]
  · simp [Fits]
  · intro j e hj; simp at hj

theorem rep_tidy (hP : Wf P) {h0 : Heap} {s : St} {c : Nat} {xs : List Spec.E} (h : Rep P h0 s c xs) : Tidy P s xs.length ∧ s.v.cap = c := by
  obtain ⟨o, t, rfl, -⟩ := h
  exact ⟨⟨hP.sz, rfl⟩, rfl⟩

theorem run_rep (hP : Wf P) {h0 : Heap} (hb : Bdd h0) (ops : List Spec.Op) {s : St} {c c' : Nat} {xs ys : List Spec.E} {rs : List Spec.Reply}
    (hr : Rep P h0 s c xs) (hsafe : Spec.SafeRun P.sz P.A.zeroFill ops c xs) (hs : Spec.run P.sz P.A.zeroFill ops c xs = some (rs, c', ys)) :
    ∃ s', run P ops s = some (rs, s') ∧ Rep P h0 s' c' ys := by
  induction ops generalizing s c xs rs with
  | nil =>
    simp only [Spec.run, Option.some.injEq, Prod.mk.injEq] at hs
    obtain ⟨rfl, rfl, rfl⟩ := hs
    exact ⟨_, rfl, hr⟩
  | cons op ops ih =>
    simp only [Spec.run, Option.bind_eq_bind, Option.bind_eq_some_iff] at hs
    obtain ⟨⟨r, c1, xs1⟩, e1, ⟨rs1, c2, xs2⟩, e2, e3⟩ := hs
    simp only [Option.some.injEq, Prod.mk.injEq] at e3
    obtain ⟨rfl, rfl, rfl⟩ := e3
    obtain ⟨s1, h1, h2⟩ := call_refines hP hb hr hsafe.1 e1
    obtain ⟨s', h3, h4⟩ := ih h2 (hsafe.2 _ _ _ e1) e2
    exact ⟨s', by simp only [run, h1, h3, Option.bind_eq_bind, Option.bind_some], h4⟩

theorem keeps_run (hP : Wf P) {h0 : Heap} (hb : Bdd h0) {i : Nat} (ops : List Spec.Op) {s : St} {c c' : Nat} {xs ys : List Spec.E}
    {rs : List Spec.Reply} (hr : Rep P h0 s c xs) (hsafe : Spec.SafeRun P.sz P.A.zeroFill ops c xs)
    (hk : Spec.KeepsRun P.sz P.A.zeroFill i ops c xs) (hs : Spec.run P.sz P.A.zeroFill ops c xs = some (rs, c', ys)) :
    ∃ s', run P ops s = some (rs, s') ∧ s'.v.bgn = s.v.bgn ∧
      ∀ x, run P ops (s.over P s.v.bgn i x) = some (rs, s'.over P s.v.bgn i x) := by
  induction ops generalizing s c xs rs with
  | nil =>
    simp only [Spec.run, Option.some.injEq, Prod.mk.injEq] at hs
    obtain ⟨rfl, rfl, rfl⟩ := hs
    exact ⟨_, rfl, rfl, fun _ => rfl⟩
  | cons op ops ih =>
    simp only [Spec.run, Option.bind_eq_bind, Option.bind_eq_some_iff] at hs
    obtain ⟨⟨r, c1, xs1⟩, e1, ⟨rs1, c2, xs2⟩, e2, e3⟩ := hs
    simp only [Option.some.injEq, Prod.mk.injEq] at e3
    obtain ⟨rfl, rfl, rfl⟩ := e3
    obtain ⟨s1, h1, h2⟩ := call_refines hP hb hr hsafe.1 e1
    obtain ⟨s', r1, r2, r3⟩ := ih h2 (hsafe.2 _ _ _ e1) (hk.2 _ _ _ e1) e2
    obtain ⟨ht, hc⟩ := rep_tidy hP hr
    obtain ⟨k1, k2⟩ := C83_pod_vector ht (op := op) (i := i) (by rw [hc]; exact hk.1)
    have hx : exec P op s = .ok r s1 := by
      simp only [call] at h1
      cases he : exec P op s with
      | ok a t => rw [he] at h1; simp only [Option.some.injEq, Prod.mk.injEq] at h1; rw [h1.1, h1.2]
      | throw e t => rw [he] at h1; cases h1
      | ub => rw [he] at h1; cases h1
    rw [hx] at k2
    have k2 : s1.v.bgn = s.v.bgn := k2.1
    refine ⟨s', by simp only [run, h1, r1, Option.bind_eq_bind, Option.bind_some], r2.trans k2, fun x => ?_⟩
    have co := k1 x
    rw [hx] at co
    have r3 := r3 x
    rw [k2] at r3
    simp only [run, call, co, overRes, r3, Option.bind_eq_bind, Option.bind_some]

/-- C83, in part. Through a whole history in which no call has to do with element `i` and none needs more capacity, `data()` and the bytes of that
element stay the same: with any other bytes in its slot the history gives the same replies and the same other elements, and leaves them there.
`s` is what some history (`ops0`) makes of a new vector. Missing: the calls excluded by `Spec.Safe` (see C10); an allocator that fails. -/
theorem C83_pod_vector_history_partial (hP : Wf P) {h : Heap} (hb : Bdd h) {ops0 ops : List Spec.Op} {s : St} {c c' : Nat} {xs ys : List Spec.E}
    {rs0 rs : List Spec.Reply} {i : Nat} (hs0 : Spec.run P.sz P.A.zeroFill ops0 0 [] = some (rs0, c, xs))
    (hsafe0 : Spec.SafeRun P.sz P.A.zeroFill ops0 0 []) (hr : run P ops0 (new h) = some (rs0, s))
    (hs : Spec.run P.sz P.A.zeroFill ops c xs = some (rs, c', ys)) (hsafe : Spec.SafeRun P.sz P.A.zeroFill ops c xs)
    (hk : Spec.KeepsRun P.sz P.A.zeroFill i ops c xs) :
    ∃ s', run P ops s = some (rs, s') ∧ s'.v.bgn = s.v.bgn ∧
      ∀ x, run P ops (s.over P s.v.bgn i x) = some (rs, s'.over P s.v.bgn i x) := by
  obtain ⟨s1, e1, hrep⟩ := run_rep hP hb ops0 (new_rep h) hsafe0 hs0
  rw [hr] at e1
  simp only [Option.some.injEq, Prod.mk.injEq, true_and] at e1
  subst e1
  exact keeps_run hP hb ops hrep hsafe hk hs

/-! ### Examples -/

/-- a history that has nothing to do with element 1 of three one-byte elements in a buffer of eight -/
def keepDemo : List Spec.Op :=
  [.pushBack (.val [4]), .insert 2 (.self 0), .insertRange 3 [[7], [8]], .erase 4, .set 0 [9], .resize 3, .popBack, .reserve 8, .resizeV 6 (.self 0),
    .eraseRange 2 4, .emplaceBack, .size]

/-- C83's hypotheses hold of it -/
example : Spec.KeepsRun 1 true 1 keepDemo 8 [some [1], some [2], some [3]] ∧ Spec.SafeRun 1 true keepDemo 8 [some [1], some [2], some [3]] ∧
    (Spec.run 1 true keepDemo 8 [some [1], some [2], some [3]]).map (·.2) = some (8, [some [9], some [2], some [9], some [9], none]) := by
  refine ⟨?_, ?_, by decide⟩
  · simp [keepDemo, Spec.KeepsRun, Spec.Keeps, Spec.step, Spec.argVal, Spec.newCap]
  · simp [keepDemo, Spec.SafeRun, Spec.Safe, Spec.step, Spec.argVal, Spec.newCap]

/-- and the specification reaches such a vector -/
example : Spec.run 1 true [.reserve 8, .insertRange 0 [[1], [2], [3]]] 0 [] = some ([.done, .done], 8, [some [1], some [2], some [3]]) ∧
    Spec.SafeRun 1 true [.reserve 8, .insertRange 0 [[1], [2], [3]]] 0 [] := by
  refine ⟨by decide, ?_⟩
  simp [Spec.SafeRun, Spec.Safe, Spec.step, Spec.newCap]

/-- `C83_pod_vector_value`: two one-byte elements at address 64, room for three; inserting behind element 0 is defined and leaves it alone -/
example (A : Alloc) : ∃ s : St, Tidy ⟨1, 1, A⟩ s 2 ∧ Spec.Keeps 1 (.insert 1 (.val [7])) s.v.cap 2 0 ∧
    (s.heap s.v.bgn.base).isSome ∧ (after (exec ⟨1, 1, A⟩ (.insert 1 (.val [7])) s)).isSome := by
  refine ⟨⟨⟨⟨64, 0⟩, ⟨64, 2⟩, 3⟩, fun a => if a = 64 then some ⟨3, fun j => some (BitVec.ofNat 8 j)⟩ else none, 0⟩, ⟨Nat.one_pos, rfl⟩,
    by simp [Spec.Keeps], by simp, ?_⟩
  simp [exec, insert, bindRef, growAt, size, makeGap, copyBytes, readAt, M.load, writeAt, M.mem, Ptr.add, Block.sl, Block.wr, setSize, loadRef, after]

end Itlib.PodVector
