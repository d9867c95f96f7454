import Verif.StaticVector.Throwing
import Verif.StaticVector.MoveStep

/-!
# C73: programs with `static_vector` in which moving elements throws

At every call, the move of an element (and, as in C60, any other construction of an element) may throw at any point; the
program catches the exceptions and goes on. What a throwing move leaves in its operands is up to the element type
(`Spec.Torn`). Which exceptions a vector survives and what it holds afterwards is said by `Spec.vstep` (MoveSpec.lean).
-/
namespace Itlib.StaticVector
open Itlib Spec
variable {α : Type}

/-- **C73 (partial: the calls excluded by `VSafe`: those of C04 and a vector swapped with itself).** Programs with any
number of vectors, with throw points for moves and for other constructions at every call. As long as no exception is fatal
there is no undefined behaviour; the replies are those of the specification; at the end the existing vectors are those of
the specification with the elements of the specification; and the objects that will never be destroyed are exactly those
the specification says were lost. -/
theorem C73_static_vector_moves_partial (E : Elem α) (T : Torn α) (nx : Bool) (ts : List (VOp α)) (rs : List (Reply α))
    (lost : List α) (y : Sys α) (hspec : Spec.vrun E T nx ts (fun _ => none) = some (rs, lost, y))
    (hsafe : VSafeRun E T nx ts (fun _ => none)) :
    ∃ st, vrun E T nx ts Store.init = some (rs, st) ∧ (∀ i, st.vec i = none ↔ y i = none) ∧
      (∀ i cap xs, y i = some (cap, xs) → ∃ s, st.vec i = some s ∧ s.buf.cap = cap ∧ s.size = xs.length ∧
        ∀ k (h : k < xs.length), at_ k s = .ok xs[k] s) ∧
      st.leaked = lost := by
  have h0 : (Store.init : Store α) = mrep (fun _ => none) [] := rfl
  obtain ⟨g, hg, hy, h⟩ := vrun_mrep E T nx ts (g := []) good_nil hsafe hspec
  refine ⟨mrep y (g ++ []), by rw [h0]; exact h, fun i => by simp [mrep], fun i cap xs hi => ?_, ?_⟩
  · exact ⟨rep cap xs, mrep_vec hi, rfl, rfl, fun k hk => at_rep hk (hy i cap xs hi).1⟩
  · rw [List.append_nil]
    exact hg

/-- Elements are numbers, moved-from is 0; a move that throws leaves 100 more in the source of a construction, and 200
more and 300 more in the target and the source of an assignment. -/
def demoTorn : Torn Nat := ⟨(· + 100), fun d _ => d + 200, fun _ s => s + 300⟩

/-- Moves throw in the move constructor (one element is lost), in `insert`, in move assignment and at all kinds of points
in `swap`; the vectors are used afterwards. -/
def demoVOps : List (VOp Nat) :=
  [⟨.ctorRange 0 5 [1, 2, 3], none, none⟩, ⟨.moveCtor 1 0, none, some 1⟩, ⟨.call 0 .forward, none, none⟩,
   ⟨.moveCtor 1 0, none, some 3⟩, ⟨.call 0 .size, none, some 0⟩, ⟨.call 1 (.insert 1 (.val 9)), some 4, some 0⟩,
   ⟨.call 1 .forward, none, none⟩, ⟨.call 1 (.insert 1 (.val 9)), some 4, some 2⟩, ⟨.call 1 .forward, none, none⟩,
   ⟨.moveAssign 0 1, none, some 2⟩, ⟨.call 0 .forward, none, none⟩, ⟨.call 1 .forward, none, none⟩,
   ⟨.swap 0 1, none, some 3⟩, ⟨.call 0 .forward, none, none⟩, ⟨.call 1 .forward, none, none⟩,
   ⟨.swap 0 1, none, some 4⟩, ⟨.call 0 .forward, none, none⟩, ⟨.call 1 .forward, none, none⟩,
   ⟨.swap 0 1, none, some 2⟩, ⟨.call 0 .forward, none, none⟩, ⟨.call 1 .forward, none, none⟩,
   ⟨.swap 0 1, none, some 6⟩, ⟨.call 0 .forward, none, none⟩, ⟨.call 1 .forward, none, none⟩]

example : (Spec.vrun ⟨fun _ => 0, 0⟩ demoTorn false demoVOps (fun _ => none)).map (fun p => (p.1, p.2.1)) =
    some ([.done, .exc .element, .elems [0, 102, 3], .done, .num 0, .exc .element, .elems [0, 102, 103], .at 1,
      .elems [0, 9, 102, 103], .exc .element, .elems [0, 9], .elems [0, 0, 202, 103], .exc .element, .elems [0, 109],
      .elems [0, 0, 202, 103], .exc .element, .elems [0, 200], .elems [0, 300, 202, 103], .exc .element,
      .elems [0, 200], .elems [200, 300, 202, 103], .exc .element, .elems [200, 300], .elems [0, 200, 302, 103]], [1]) ∧
    VSafeRun ⟨fun _ => 0, 0⟩ demoTorn false demoVOps (fun _ => none) := by
  refine ⟨by decide +kernel, ?_⟩
  simp [demoVOps, demoTorn, VSafeRun, VSafe, MSafe, Safe, Stable, vstep, mtstep, tstep, fault, made, moves, vmoves, len,
    mstep, step, Sys.put, argVal, torn, tornLast, swapTorn]

/-- **C73, fatal exceptions.** If the specification has no say although the preconditions of the call hold, then either
the call ends the program (`std::terminate`), which happens only in move assignment, or it throws, and one of the vectors
cannot be destroyed without undefined behaviour. -/
theorem C73_fatal_call (E : Elem α) (T : Torn α) (nx : Bool) (ts : List (VOp α)) (rs : List (Reply α)) (lost : List α)
    (y : Sys α) (st : Store α) (hspec : Spec.vrun E T nx ts (fun _ => none) = some (rs, lost, y))
    (hsafe : VSafeRun E T nx ts (fun _ => none)) (hm : vrun E T nx ts Store.init = some (rs, st)) (t : VOp α)
    (hs : VSafe t y) (hpre : (mstep E t.op y).isSome) (hno : vstep E T nx t y = none) :
    (vcall E T nx t st = .terminated ∧ nx = true ∧ ∃ i j, t.op = .moveAssign i j) ∨
    ∃ v st', vcall E T nx t st = .ret (.exc .element) st' ∧ destruct v st' = .ub := by
  have h0 : (Store.init : Store α) = mrep (fun _ => none) [] := rfl
  obtain ⟨g, hg, hy, h⟩ := vrun_mrep E T nx ts (g := []) good_nil hsafe hspec
  rw [← h0, hm] at h
  simp only [Option.some.injEq, Prod.mk.injEq, true_and] at h
  subst h
  have := vcall_mrep (g := g ++ []) E T nx hy hs hpre
  simp only [VRefined, hno] at this
  exact this

/-- `static_vector<T, 4> v{1, 2, 3}`; `v.erase(v.begin())` throws while it moves the second element down -/
example : ∃ rs lost y, Spec.vrun ⟨id, 0⟩ demoTorn false [⟨.ctorRange 0 4 [1, 2, 3], none, none⟩] (fun _ => none) =
      some (rs, lost, y) ∧
    VSafeRun ⟨id, 0⟩ demoTorn false [⟨.ctorRange 0 4 [1, 2, 3], none, none⟩] (fun _ => none) ∧
    VSafe ⟨.call 0 (.erase 0), none, some 0⟩ y ∧ (mstep ⟨id, 0⟩ (.call 0 (.erase 0)) y).isSome ∧
    vstep ⟨id, 0⟩ demoTorn false ⟨.call 0 (.erase 0), none, some 0⟩ y = none := by
  refine ⟨_, _, _, rfl, ?_, ?_, ?_, ?_⟩
  · simp [VSafeRun, VSafe, MSafe, vstep, mtstep, fault, mstep]
  · simp [VSafe, MSafe, Safe]
  · simp [mstep, step, Sys.put]
  · simp [vstep, fault, moves, vmoves, mstep, step, Sys.put]

/-- **C73, when is an exception fatal?** If no move throws: as in C60. Otherwise exactly when
* an insertion had already moved an element (`insert` before the last element or earlier),
* it is an `erase`, however few elements it moves,
* a `swap` had exchanged all pairs and moved at least one of the elements that have no counterpart, or
* it is a move assignment of vectors whose elements declare their move assignment `noexcept`. -/
theorem C73_fatal_iff (E : Elem α) (T : Torn α) (nx : Bool) (t : VOp α) (y : Sys α) (hpre : (mstep E t.op y).isSome) :
    vstep E T nx t y = none ↔
      ((∀ k, t.m = some k → moves t.op y ≤ k) ∧ mtstep E ⟨t.op, t.c⟩ y = none) ∨
      ∃ k, t.m = some k ∧ k < moves t.op y ∧
        ((∃ i op, t.op = .call i op ∧ ((∃ pos, op = .erase pos) ∨ (∃ f l, op = .eraseRange f l) ∨
            (0 < k ∧ ((∃ pos v, op = .insert pos v) ∨ (∃ pos n v, op = .insertN pos n v) ∨
              ∃ pos zs, op = .insertRange pos zs)))) ∨
          (∃ i j, t.op = .swap i j ∧ 3 * min (len y i) (len y j) < k) ∨
          (nx = true ∧ ∃ i j, t.op = .moveAssign i j)) := by
  obtain ⟨op, c, m⟩ := t
  obtain ⟨q0, h0⟩ := Option.isSome_iff_exists.mp hpre
  simp only at hpre h0
  rcases fault_cases m (moves op y) with ⟨h1, h2⟩ | ⟨k, rfl, h4, h5⟩
  · simp only [vstep, h0, h1, Option.bind_eq_bind, Option.bind_some]
    have h3 : ∀ k, m = some k → moves op y ≤ k := by rintro k rfl; exact h2
    constructor
    · exact fun h => Or.inl ⟨h3, h⟩
    · rintro (h | ⟨k, h, h', -⟩)
      · exact h.2
      · have := h3 k h
        omega
  · have hns : ¬ ((∀ k', some k = some k' → moves op y ≤ k') ∧ mtstep E ⟨op, c⟩ y = none) := by
      rintro ⟨h, -⟩
      have := h k rfl
      omega
    simp only [hns, false_or]
    simp only [Option.some.injEq, exists_eq_left', h4, true_and]
    simp only [vstep, h0, h5, Option.bind_eq_bind, Option.bind_some]
    cases op with
    | call i op =>
      cases hi : y i with
      | none => simp [mstep, hi] at h0
      | some p =>
        obtain ⟨cap, xs⟩ := p
        cases op <;> first | (simp [moves, vmoves, hi] at h4; done) | simp [hi, Nat.pos_iff_ne_zero]
    | moveCtor i j =>
      cases hj : y j with
      | none => simp [mstep, hj] at h0
      | some p => obtain ⟨cap, ys⟩ := p; simp [hj]
    | moveAssign i j =>
      cases hj : y j with
      | none => simp [mstep, hj] at h0
      | some p => obtain ⟨cap, ys⟩ := p; cases nx <;> simp [hj]
    | swap i j =>
      cases hi : y i with
      | none => simp [mstep, hi] at h0
      | some p =>
        cases hj : y j with
        | none => simp [mstep, hi, hj] at h0
        | some q =>
          obtain ⟨cap, xs⟩ := p
          obtain ⟨cap', ys⟩ := q
          simp only [moves, len, hi, hj] at h4
          have key : ∀ us vs : List α, us.length ≤ vs.length → k < 3 * us.length + (vs.length - us.length) →
              (swapTorn E T k us vs = none ↔ 3 * us.length < k) := by
            intro us vs hl hk
            simp only [swapTorn]
            by_cases hj : k / 3 < us.length
            · rw [List.getElem?_eq_getElem hj, List.getElem?_eq_getElem (show k / 3 < vs.length by omega)]
              simp only
              split
              · simp; omega
              · split <;> simp <;> omega
            · rw [List.getElem?_eq_none (by omega)]
              by_cases hv : k / 3 < vs.length
              · rw [List.getElem?_eq_getElem hv]
                simp only
                split <;> simp <;> omega
              · rw [List.getElem?_eq_none (by omega)]
                simp
                omega
          simp only [Option.bind_some, len, hi, hj]
          by_cases hlt : xs.length < ys.length
          · rw [if_pos hlt]
            have := key xs ys (by omega) (by omega)
            rw [show min xs.length ys.length = xs.length by omega] at *
            cases e : swapTorn E T k xs ys with
            | none => simp [hi, hj, Nat.min_eq_left (Nat.le_of_lt hlt), this.mp e]
            | some p =>
              rw [e] at this
              simp only [reduceCtorEq, false_iff] at this
              simp [hi, hj, Nat.min_eq_left (Nat.le_of_lt hlt)]
              omega
          · rw [if_neg hlt]
            have := key ys xs (by omega) (by omega)
            rw [show min xs.length ys.length = ys.length by omega] at *
            cases e : swapTorn E T k ys xs with
            | none => simp [hi, hj, Nat.min_eq_right (show ys.length ≤ xs.length by omega), this.mp e]
            | some p =>
              rw [e] at this
              simp only [reduceCtorEq, false_iff] at this
              simp [hi, hj, Nat.min_eq_right (show ys.length ≤ xs.length by omega)]
              omega
    | _ => simp [moves] at h4

/-- all four kinds, for `v{1, 2}` and `w{1, 2, 3, 4}` of capacity 4 and 5 -/
example :
    let y : Sys Nat := fun i => if i = 0 then some (5, [1, 2]) else if i = 1 then some (5, [1, 2, 3, 4]) else none
    vstep ⟨id, 0⟩ demoTorn false ⟨.call 1 (.insert 2 (.val 9)), none, some 1⟩ y = none ∧
    vstep ⟨id, 0⟩ demoTorn false ⟨.call 1 (.erase 2), none, some 0⟩ y = none ∧
    vstep ⟨id, 0⟩ demoTorn false ⟨.swap 0 1, none, some 7⟩ y = none ∧
    vstep ⟨id, 0⟩ demoTorn true ⟨.moveAssign 0 1, none, some 0⟩ y = none ∧
    (vstep ⟨id, 0⟩ demoTorn true ⟨.swap 0 1, none, some 6⟩ y).isSome ∧
    (vstep ⟨id, 0⟩ demoTorn true ⟨.call 1 (.erase 3), none, some 0⟩ y).isSome := by
  simp [vstep, mtstep, tstep, fault, moves, vmoves, len, mstep, step, argVal, swapTorn]

/-- **C73, when are elements lost?** Only if a constructor is left by an exception of an element: as in C60, or the move
constructor, whose argument then keeps its number of elements. -/
theorem C73_lost_only_by_ctor (E : Elem α) (T : Torn α) (nx : Bool) (t : VOp α) (y y' : Sys α) (r : Reply α)
    (lost : List α) (h : vstep E T nx t y = some (r, lost, y')) (hl : lost ≠ []) :
    r = .exc .element ∧ (∀ i, len y' i = len y i) ∧
      ((∃ i cap n, t.op = .ctorCount i cap n) ∨ (∃ i cap n a, t.op = .ctorVal i cap n a) ∨
        (∃ i cap xs, t.op = .ctorRange i cap xs) ∨ (∃ i cap j, t.op = .copyCtor i cap j) ∨
        ∃ i j, t.op = .moveCtor i j) := by
  obtain ⟨op, c, m⟩ := t
  cases h0 : mstep E op y with
  | none => simp [vstep, h0] at h
  | some q0 =>
    simp only [vstep, h0, Option.bind_eq_bind, Option.bind_some] at h
    rcases fault_cases m (moves op y) with ⟨h1, h2⟩ | ⟨k, rfl, h4, h5⟩
    · rw [h1] at h
      obtain ⟨h6, rfl, h8⟩ := C60_lost_only_by_ctor E ⟨op, c⟩ y y' r lost h hl
      refine ⟨h6, fun _ => rfl, ?_⟩
      rcases h8 with h | h | h | h
      · exact Or.inl h
      · exact Or.inr (Or.inl h)
      · exact Or.inr (Or.inr (Or.inl h))
      · exact Or.inr (Or.inr (Or.inr (Or.inl h)))
    · simp only [h5] at h
      cases op with
      | moveCtor i j =>
        cases hj : y j with
        | none => simp [hj] at h
        | some p =>
          obtain ⟨cap, ys⟩ := p
          simp only [hj, Option.bind_some, Option.some.injEq, Prod.mk.injEq] at h
          obtain ⟨rfl, rfl, rfl⟩ := h
          refine ⟨rfl, fun i' => ?_, Or.inr (Or.inr (Or.inr (Or.inr ⟨i, j, rfl⟩)))⟩
          by_cases e : i' = j
          · subst e
            simp [len, Sys.put, hj, length_torn]
          · simp [len, Sys.put, e]
      | call i op =>
        cases hi : y i with
        | none => simp [hi] at h
        | some p =>
          simp only [hi, Option.bind_some] at h
          cases op <;> first
            | (simp only [reduceCtorEq] at h; done)
            | (simp only [Option.ite_none_right_eq_some, Option.some.injEq, Prod.mk.injEq] at h
               exact absurd h.2.2.1.symm hl)
      | moveAssign i j =>
        cases hj : y j with
        | none => simp [hj] at h
        | some p =>
          simp only [hj, Option.bind_some] at h
          split at h
          · simp at h
          · simp only [Option.some.injEq, Prod.mk.injEq] at h
            exact absurd h.2.1.symm hl
      | swap i j =>
        simp only [Option.bind_eq_some_iff] at h
        obtain ⟨⟨_, _⟩, _, ⟨_, _⟩, _, h⟩ := h
        simp only at h
        split at h
        all_goals
          simp only [Option.bind_eq_some_iff] at h
          obtain ⟨⟨_, _⟩, _, h⟩ := h
          simp only [Option.some.injEq, Prod.mk.injEq] at h
          exact absurd h.2.1.symm hl
      | _ => simp [moves] at h4

/-- `static_vector w(std::move(v))` with `v{1, 2, 3}` throws at the third element -/
example : (vstep ⟨fun _ => 0, 0⟩ demoTorn true ⟨.moveCtor 1 0, none, some 2⟩
    (fun i => if i = 0 then some (3, [1, 2, 3]) else none)).map (fun p => (p.1, p.2.1, p.2.2 0)) =
    some (.exc .element, [1, 2], some (3, [0, 0, 103])) := by
  simp [vstep, mstep, fault, moves, len, torn, Sys.put, demoTorn]

/-- **C73 (defect): `operator=(static_vector&&)` is `noexcept` if the elements' move *assignment* is, but it move
*constructs* them.** For all vectors reached by any program: if moving one of the elements throws, the program is ended
although no element type broke its promises. -/
theorem C73_noexcept_defect (E : Elem α) (T : Torn α) (ts : List (VOp α)) (rs : List (Reply α)) (lost : List α)
    (y : Sys α) (st : Store α) (hspec : Spec.vrun E T true ts (fun _ => none) = some (rs, lost, y))
    (hsafe : VSafeRun E T true ts (fun _ => none)) (hm : vrun E T true ts Store.init = some (rs, st)) (i j cap : Nat)
    (xs ys : List α) (hi : y i = some (cap, xs)) (hj : y j = some (cap, ys)) (hne : i ≠ j) (c : Option Nat) (k : Nat)
    (hk : k < ys.length) : vcall E T true ⟨.moveAssign i j, c, some k⟩ st = .terminated := by
  have hpre : (mstep E (.moveAssign i j) y).isSome := by simp [mstep, hi, hj, hne]
  have hmv : moves (.moveAssign i j) y = ys.length := by simp [moves, len, hj]
  have h0 : (Store.init : Store α) = mrep (fun _ => none) [] := rfl
  obtain ⟨g, hg, hy, h⟩ := vrun_mrep E T true ts (g := []) good_nil hsafe hspec
  rw [← h0, hm] at h
  simp only [Option.some.injEq, Prod.mk.injEq, true_and] at h
  subst h
  have hno := (C73_fatal_iff E T true ⟨.moveAssign i j, c, some k⟩ y hpre).mpr
    (Or.inr ⟨k, rfl, by rw [hmv]; exact hk, Or.inr (Or.inr ⟨rfl, i, j, rfl⟩)⟩)
  have := vcall_mrep (g := g ++ []) (t := ⟨.moveAssign i j, c, some k⟩) E T true hy ⟨hne, by simp⟩ hpre
  simp only [VRefined, hno] at this
  rcases this with h | ⟨v, st', h1, h2⟩
  · exact h.1
  · exfalso
    simp only [vcall] at h1
    cases e : vexec E T c (.moveAssign i j) ⟨mrep y (g ++ []), some k⟩ with
    | ok r s =>
      rw [e] at h1
      simp only [VOut.ret.injEq] at h1
      have h3 := h1.1
      simp only [vexec, M.bind_apply] at e
      cases e' : moveAssignT E T i j ⟨mrep y (g ++ []), some k⟩ with
      | ok u s' => rw [e'] at e; simp only [M.pure_apply, Res.ok.injEq] at e; rw [← e.1] at h3; simp at h3
      | throw x s' => rw [e'] at e; simp at e
      | ub => rw [e'] at e; simp at e
    | throw x s => rw [e] at h1; simp [sealed] at h1
    | ub => rw [e] at h1; simp at h1

example : ∃ rs lost y,
    Spec.vrun ⟨id, 0⟩ demoTorn true [⟨.ctor 0 2, none, none⟩, ⟨.ctorRange 1 2 [7], none, none⟩] (fun _ => none) =
      some (rs, lost, y) ∧
    VSafeRun ⟨id, 0⟩ demoTorn true [⟨.ctor 0 2, none, none⟩, ⟨.ctorRange 1 2 [7], none, none⟩] (fun _ => none) ∧
    y 0 = some (2, []) ∧ y 1 = some (2, [7]) := by
  refine ⟨_, _, _, rfl, ?_, rfl, rfl⟩
  simp [VSafeRun, VSafe, MSafe, vstep, mtstep, fault, mstep, Sys.put]

end Itlib.StaticVector
