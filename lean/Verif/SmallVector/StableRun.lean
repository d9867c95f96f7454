import Verif.SmallVector.Stable
import Verif.SmallVector.Props

/-! # C83: references to elements of a `small_vector`, through histories -/
namespace Itlib.SmallVector
open Itlib
open Spec (Home)
variable {α : Type} {C : Ctx α}

theorem home_st {h : Home} {k nx : Nat} {xs : List α} {g : List (Buf α)} : (st C h k xs nx g).home = h := by
  cases h <;> simp [St.home, st, stB, Vec.isStatic, loc, Spec.Home.cap]

theorem keeps_run (E : Elem α) (hT : NoThrow C) {i : Nat} (ops : List (Op α)) {h h' : Home} {k nx : Nat} {g : List (Buf α)} {xs ys : List α}
    {rs : List (Reply α)} (hG : Good C h k xs nx g) (hsafe : Spec.SafeRun C.P.N C.P.R E ops h xs) (hk : Spec.KeepsRun C.P.N C.P.R E i ops h xs)
    (hs : Spec.run C.P.N C.P.R E ops h xs = some (rs, h', ys)) :
    ∃ s', run C.P E ops (st C h k xs nx g) = some (rs, s') ∧ s'.v.bgn = (st C h k xs nx g).v.bgn ∧
      ∀ x, run C.P E ops ((st C h k xs nx g).over (st C h k xs nx g).v.bgn i x) = some (rs, s'.over (st C h k xs nx g).v.bgn i x) := by
  induction ops generalizing h k xs nx g rs with
  | nil =>
    simp only [Spec.run, Option.some.injEq, Prod.mk.injEq] at hs
    obtain ⟨rfl, rfl, rfl⟩ := hs
    exact ⟨_, rfl, rfl, fun _ => rfl⟩
  | cons op ops ih =>
    simp only [Spec.run, Option.bind_eq_bind, Option.bind_eq_some_iff] at hs
    obtain ⟨⟨r, h1, xs1⟩, e1, ⟨rs1, h2, xs2⟩, e2, e3⟩ := hs
    simp only [Option.some.injEq, Prod.mk.injEq] at e3
    obtain ⟨rfl, rfl, rfl⟩ := e3
    simp only [Spec.SafeRun, e1] at hsafe
    simp only [Spec.KeepsRun, e1] at hk
    obtain ⟨k', nx', g', c1, hG'⟩ := call_st E hG hT hsafe.1 e1
    have hc : (st C h k xs nx g).v.cap = (st C h k xs nx g).home.cap C.P.N := by rw [home_st]; rfl
    have hk' : Spec.Keeps C.P.N C.P.R op (st C h k xs nx g).home (st C h k xs nx g).v.endo i := by rw [home_st]; exact hk.1
    have hb := call_bgn C.P E hc hk' c1
    obtain ⟨s', r1, r2, r3⟩ := ih hG' hsafe.2 hk.2 e2
    refine ⟨s', ?_, r2.trans hb, fun x => ?_⟩
    · simp only [run, c1, r1, Option.bind_eq_bind, Option.bind_some]
    · have co := call_over C.P E hc hk' x
      rw [c1] at co
      have r3 := r3 x
      rw [hb] at r3
      simp only [run, co, r3, Option.map_some, Option.bind_eq_bind, Option.bind_some]

/-- C83, in part. Through a whole history in which no call has to do with element `i` and none needs another buffer, `data()` and the object of that
element stay the same: with anything else, or nothing, in its slot the history gives the same replies and the same other elements, and leaves
that there. Missing: the calls excluded by `Spec.Safe` (see C05). -/
theorem C83_small_vector_history_partial (P : Params) (E : Elem α) (hN : 0 < P.N) (hR : P.R ≤ P.N + 1) {ops : List (Op α)} {h h' : Home}
    {xs ys : List α} {s : St α} {rs : List (Reply α)} {i : Nat} (hr : Reaches P E h xs s) (hsafe : Spec.SafeRun P.N P.R E ops h xs)
    (hk : Spec.KeepsRun P.N P.R E i ops h xs) (hs : Spec.run P.N P.R E ops h xs = some (rs, h', ys)) :
    ∃ s', run P E ops s = some (rs, s') ∧ s'.v.bgn = s.v.bgn ∧
      ∀ x, run P E ops (s.over s.v.bgn i x) = some (rs, s'.over s.v.bgn i x) := by
  obtain ⟨C, k, nx, g, rfl, hT, rfl, hG⟩ := reaches_st hN hR hr
  exact keeps_run E hT ops hG hsafe hk hs

/-! ### Examples -/

/-- a history that has nothing to do with element 1 of a vector of three elements in the static buffer -/
def keepDemo : List (Op Nat) :=
  [.pushBack (.val 4), .insert 2 (.self 0), .reserve 5, .erase 3, .set 0 (.val 9), .shrinkToFit, .resize 3, .popBack, .resizeV 6 (.self 0),
    .eraseRange 2 4, .pushBack (.val 1), .insert 9 (.val 0), .size]

/-- C83's hypotheses hold of it -/
example : Spec.KeepsRun 6 3 ⟨id, 0⟩ 1 keepDemo .stat [1, 2, 3] ∧ Spec.SafeRun 6 3 ⟨id, 0⟩ keepDemo .stat [1, 2, 3] ∧
    (Spec.run 6 3 ⟨id, 0⟩ keepDemo .stat [1, 2, 3]).map (·.2) = some (.stat, [9, 2, 9, 9, 1]) := by
  refine ⟨?_, ?_, by decide⟩
  · simp [keepDemo, Spec.KeepsRun, Spec.Keeps, Spec.moves, Spec.step, Spec.argVal, Spec.choose, Spec.reserved, Spec.Home.cap]
  · simp [keepDemo, Spec.SafeRun, Spec.Safe, Spec.Stable, Spec.moves, Spec.step, Spec.argVal, Spec.choose, Spec.reserved, Spec.Home.cap]

/-- and such a vector exists -/
example : ∃ s, Reaches ⟨6, 3⟩ (⟨id, 0⟩ : Elem Nat) .stat [1, 2, 3] s := by
  obtain ⟨s, h, -⟩ := C05_small_vector_sequence_partial ⟨6, 3⟩ (⟨id, 0⟩ : Elem Nat) (by decide) (by decide) [.assignRange [1, 2, 3]] [.done] .stat
    [1, 2, 3] (by decide) (by simp [Spec.SafeRun, Spec.Safe, Spec.step])
  exact ⟨s, _, _, by decide, by simp [Spec.SafeRun, Spec.Safe, Spec.step], h⟩

/-- on the heap: eight elements, static capacity 2; erasing down to `R` elements keeps element 0, below it moves all -/
example : Spec.KeepsRun 2 3 ⟨id, 0⟩ 0 ([.eraseRange 1 3, .popBack, .pushBack (.val 7)] : List (Op Nat)) (.dyn 8) [1, 2, 3, 4, 5, 6] ∧
    ¬ Spec.Keeps 2 3 (.popBack : Op Nat) (.dyn 8) 3 0 := by
  simp [Spec.KeepsRun, Spec.Keeps, Spec.moves, Spec.step, Spec.argVal, Spec.choose]

/-- an element that a call moves is touched: without element 1 inserting in front of it is undefined -/
example : exec ⟨4, 0⟩ (⟨id, 0⟩ : Elem Nat) (.insert 0 (.val 7)) (st ⟨⟨4, 0⟩, 0, 0, fun _ => none, none, none⟩ .stat 0 [1, 2] 0 []) ≠ .ub ∧
    exec ⟨4, 0⟩ (⟨id, 0⟩ : Elem Nat) (.insert 0 (.val 7)) ((st ⟨⟨4, 0⟩, 0, 0, fun _ => none, none, none⟩ .stat 0 [1, 2] 0 []).over (.stat 0) 1 .raw) =
      .ub := by
  constructor <;>
  simp [exec, insert, bindRef, growAt, size, chooseData, st, stB, loc, putStat, putHeap, Vec.isStatic, Spec.Home.cap, setEnd, onLoc, M.mem, St.buf,
    St.setBuf, St.over, Buf.over, Buf.ofList, Buf.shiftUp, Buf.moveConstruct, Buf.moveOut, Buf.construct, Buf.destroy, loadRef, emplaceAt,
    Function.update]

end Itlib.SmallVector
