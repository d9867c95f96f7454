import Verif.Gen.Lemmas

/-!
# Properties of `generator` (C26, C27)

All theorems quantify over every coroutine body (`step`), every effect of moving a value out (`mv`), and every history of
calls on any number of generators and iterators, from the start of the program.
-/
namespace Itlib.Gen
open Itlib
variable {S V E : Type} (step : S → Act S V E) (mv : V → V)

/-- C26. Every history that respects the preconditions gets the replies of the specification: `next` number `n` gets the
`n`-th thing the body does — a value, the (empty) end, or the exception — and after that empty results; iterators see the
same sequence, they are at the end exactly if the body has finished, and dereferencing shows the current value.
Missing: `begin()` on a finished generator and self-move-assignment (see the defect theorems). -/
theorem C26_generator_history_partial (ops : List (Op S)) (rs : List (Reply V E)) (y : Spec.Sys S V)
    (hr : Spec.run step mv ops Spec.init = some (rs, y)) (hs : Spec.SafeRun step mv ops Spec.init) :
    ∃ w, run step mv ops World.init = some (rs, w) := by
  obtain ⟨w, h, _⟩ := run_rel step mv (Rel.init step) hs hr
  exact ⟨w, h⟩

/-- the replies to `n` calls of `next`, from the `k`-th on -/
def nextReplies (s : S) (k n : Nat) : List (Reply V E) :=
  (List.range' k n).map fun m => match event step m s with
    | some (.yield v) => .value v
    | some (.throw e) => .exc e
    | some .ret | none => .empty

/-- C26. Calling the coroutine function and then `next` any number of times delivers exactly the events of the body. -/
theorem C26_next_sequence (s : S) (n : Nat) :
    ∃ w, run step mv (.create 0 s :: List.replicate n (.next 0)) World.init = some (.unit :: nextReplies step s 0 n, w) := by
  have aux : ∀ n m c, ∀ w : World S V E, (∃ y, Rel step y w ∧ y.gen 0 = some (some 0) ∧ y.run 0 = some ⟨s, m, c⟩) →
      ∃ w', run step mv (List.replicate n (.next 0)) w = some (nextReplies step s m n, w') := by
    intro n
    induction n with
    | zero => intro m c w _; exact ⟨w, by simp [run, nextReplies]⟩
    | succ n ih =>
      rintro m c w ⟨y, hrel, hg, hru⟩
      have hfin : event step m s = none → event step (m + 1) s = none := by
        clear ih hru
        intro h0
        induction m generalizing s with
        | zero => simp only [event] at h0; split at h0 <;> simp at h0
        | succ m ihm =>
          simp only [event] at h0 ⊢
          cases hs : step s with
          | yield v s' => simp only [hs] at h0; exact ihm s' h0
          | ret => rfl
          | throw e => rfl
      have hrest : event step m s = none → nextReplies step s (m + 1) n = nextReplies step s m n := by
        intro h0
        have hall : ∀ k, event step (m + k) s = none := by
          intro k
          induction k with
          | zero => exact h0
          | succ k ihk =>
            clear hfin
            have : ∀ (j : Nat) (s : S), event step j s = none → event step (j + 1) s = none := by
              intro j
              induction j with
              | zero => intro s h0; simp only [event] at h0; split at h0 <;> simp at h0
              | succ j ihj =>
                intro s h0
                simp only [event] at h0 ⊢
                cases hs : step s with
                | yield v s' => simp only [hs] at h0; exact ihj s' h0
                | ret => rfl
                | throw e => rfl
            exact this _ _ ihk
        unfold nextReplies
        apply List.ext_getElem
        · simp
        · intro k h1 h2
          simp only [List.getElem_map, List.getElem_range']
          rw [show m + 1 + 1 * k = m + (1 + k) by omega, show m + 1 * k = m + k by omega, hall, hall]
      cases hev : event step m s with
      | none =>
        obtain ⟨w1, e1, hr1⟩ := call_step step mv hrel (op := .next 0) trivial
          (r := .empty) (y' := y) (by simp [Spec.call, hg, Spec.advance, hru, hev])
        obtain ⟨w2, e2⟩ := ih m c w1 ⟨y, hr1, hg, hru⟩
        refine ⟨w2, ?_⟩
        rw [← hrest hev] at e2
        simp only [List.replicate_succ, run, e1, e2, Option.bind_eq_bind, Option.bind_some]
        simp [nextReplies, List.range'_succ, hev]
      | some ev =>
        cases ev with
        | yield v =>
          obtain ⟨w1, e1, hr1⟩ := call_step step mv hrel (op := .next 0) trivial
            (r := .value v) (y' := (y.setRun 0 (some ⟨s, m + 1, some v⟩)).setRun 0 (some ⟨s, m + 1, some (mv v)⟩))
            (by simp [Spec.call, hg, Spec.advance, hru, hev, Spec.Sys.setRun])
          obtain ⟨w2, e2⟩ := ih (m + 1) (some (mv v)) w1 ⟨_, hr1, hg, by simp [Spec.Sys.setRun]⟩
          refine ⟨w2, ?_⟩
          simp only [List.replicate_succ, run, e1, e2, Option.bind_eq_bind, Option.bind_some]
          simp [nextReplies, List.range'_succ, hev]
        | ret =>
          obtain ⟨w1, e1, hr1⟩ := call_step step mv hrel (op := .next 0) trivial
            (r := .empty) (y' := y.setRun 0 (some ⟨s, m + 1, none⟩))
            (by simp [Spec.call, hg, Spec.advance, hru, hev])
          obtain ⟨w2, e2⟩ := ih (m + 1) none w1 ⟨_, hr1, hg, by simp [Spec.Sys.setRun]⟩
          refine ⟨w2, ?_⟩
          simp only [List.replicate_succ, run, e1, e2, Option.bind_eq_bind, Option.bind_some]
          simp [nextReplies, List.range'_succ, hev]
        | throw e =>
          obtain ⟨w1, e1, hr1⟩ := call_step step mv hrel (op := .next 0) trivial
            (r := .exc e) (y' := y.setRun 0 (some ⟨s, m + 1, none⟩))
            (by simp [Spec.call, hg, Spec.advance, hru, hev])
          obtain ⟨w2, e2⟩ := ih (m + 1) none w1 ⟨_, hr1, hg, by simp [Spec.Sys.setRun]⟩
          refine ⟨w2, ?_⟩
          simp only [List.replicate_succ, run, e1, e2, Option.bind_eq_bind, Option.bind_some]
          simp [nextReplies, List.range'_succ, hev]
  obtain ⟨w1, e1, hr1⟩ := call_step step mv (w := (World.init : World S V E)) (Rel.init step) (op := .create 0 s) trivial
    (r := .unit) (y' := ⟨Function.update (fun _ => none) 0 (some (some 0)), fun _ => none, Function.update (fun _ => none) 0 (some ⟨s, 0, none⟩), 1⟩)
    (by simp [Spec.call, Spec.init])
  obtain ⟨w2, e2⟩ := aux n 0 none w1 ⟨_, hr1, by simp, by simp⟩
  exact ⟨w2, by simp [run, e1, e2]⟩

/-- C26, defect. After any history, `begin()` (a range-for) on a generator that holds a finished coroutine resumes that
coroutine, which is undefined behaviour. -/
theorem C26_begin_finished_defect (ops : List (Op S)) (rs : List (Reply V E)) (y : Spec.Sys S V) (i k f : Nat)
    (r : Spec.Run S V) (hr : Spec.run step mv ops Spec.init = some (rs, y)) (hs : Spec.SafeRun step mv ops Spec.init)
    (hg : y.gen i = some (some f)) (hf : y.run f = some r) (he : event step r.n r.start = none) :
    (Spec.call (E := E) step mv (.begin i k) y).isSome ∧ run step mv (ops ++ [.begin i k]) World.init = none := by
  constructor
  · simp [Spec.call, hg, Spec.advance, hf, he]
  · obtain ⟨w, h, hrel⟩ := run_rel step mv (Rel.init step) hs hr
    rw [run_append, h]
    obtain ⟨fr, hfr, hfrel⟩ := hrel.get step hf
    have hn := hfrel.isNone
    rw [he] at hn
    simp only [Option.isNone_none, Option.isNone_iff_eq_none] at hn
    have hg' : w.gen i = some (some f) := by rw [hrel.gen]; exact hg
    simp [run, call, exec, begin, handle, rd, hg', safeResume, frame, hfr, setFrame, resume, hn]

/-- C27. After every history: each frame ever created was destroyed exactly once, or it exists and is held by exactly one
generator; and a generator's frame always exists, so that it can be resumed. (Resuming or destroying a destroyed frame is
undefined behaviour in the model, so such histories have no result.) Missing: self-move-assignment of a non-empty generator. -/
theorem C27_frame_destroyed_once_partial (ops : List (Op S)) (rs : List (Reply V E)) (y : Spec.Sys S V)
    (hr : Spec.run step mv ops Spec.init = some (rs, y)) (hs : Spec.SafeRun step mv ops Spec.init) :
    ∃ w, run step mv ops World.init = some (rs, w) ∧
      (∀ f, f < w.next →
        (w.destroyed.count f = 1 ∧ w.frame f = none ∧ ∀ i, w.gen i ≠ some (some f)) ∨
        (w.destroyed.count f = 0 ∧ w.frame f ≠ none ∧ ∃! i, w.gen i = some (some f))) ∧
      (∀ f, w.next ≤ f → w.destroyed.count f = 0 ∧ w.frame f = none) ∧
      ∀ i f, w.gen i = some (some f) → w.frame f ≠ none := by
  obtain ⟨w, h, hrel⟩ := run_rel step mv (Rel.init step) hs hr
  obtain ⟨h1, h2, h3, h4, h5, h6⟩ := hrel.inv
  refine ⟨w, h, ?_, ?_, h1⟩
  · intro f hf
    by_cases hd : w.frame f = none
    · left
      refine ⟨?_, hd, fun i hi => h1 i f hi hd⟩
      have hmem := (h5 f).2 ⟨hf, hd⟩
      have := List.nodup_iff_count.1 h6 f
      have := List.count_pos_iff.2 hmem
      omega
    · right
      refine ⟨?_, hd, ?_⟩
      · apply List.count_eq_zero.2; rw [h5]; simp [hd]
      · obtain ⟨i, hi⟩ := h3 f hd
        exact ⟨i, hi, fun j hj => h2 j i f hj hi⟩
  · intro f hf
    constructor
    · apply List.count_eq_zero.2; rw [h5]; omega
    · by_contra hc; have := h4 f hc; omega

/-- C27. Once every generator is gone, every frame was destroyed exactly once. -/
theorem C27_all_frames_destroyed_partial (ops : List (Op S)) (rs : List (Reply V E)) (y : Spec.Sys S V)
    (hr : Spec.run step mv ops Spec.init = some (rs, y)) (hs : Spec.SafeRun step mv ops Spec.init)
    (hall : ∀ i, y.gen i = none) :
    ∃ w, run step mv ops World.init = some (rs, w) ∧ w.next = y.count ∧ ∀ f, f < w.next → w.destroyed.count f = 1 := by
  obtain ⟨w, h, hrel⟩ := run_rel step mv (Rel.init step) hs hr
  obtain ⟨h1, h2, h3, h4, h5, h6⟩ := hrel.inv
  refine ⟨w, h, hrel.count, ?_⟩
  intro f hf
  have hd : w.frame f = none := by
    by_contra hc
    obtain ⟨i, hi⟩ := h3 f hc
    rw [hrel.gen, hall] at hi
    simp at hi
  have hmem := (h5 f).2 ⟨hf, hd⟩
  have := List.nodup_iff_count.1 h6 f
  have := List.count_pos_iff.2 hmem
  omega

/-- C27, defect. After any history, move-assigning a non-empty generator to itself destroys its frame but keeps the handle:
the generator then claims to hold a coroutine, and using or destroying it is undefined behaviour. -/
theorem C27_self_move_assign_defect (ops : List (Op S)) (rs : List (Reply V E)) (y : Spec.Sys S V) (i f : Nat)
    (hr : Spec.run step mv ops Spec.init = some (rs, y)) (hs : Spec.SafeRun step mv ops Spec.init)
    (hg : y.gen i = some (some f)) :
    (∃ w, run step mv (ops ++ [.moveAssign i i]) World.init = some (rs ++ [.unit], w) ∧
      w.gen i = some (some f) ∧ w.frame f = none ∧ w.destroyed.count f = 1) ∧
    (∀ op, op = .dtor i ∨ op = .reset i ∨ op = .next i ∨ op = .done i →
      run step mv (ops ++ [.moveAssign i i, op]) World.init = none) := by
  obtain ⟨w, h, hrel⟩ := run_rel step mv (Rel.init step) hs hr
  have hg' : w.gen i = some (some f) := by rw [hrel.gen]; exact hg
  obtain ⟨h1, h2, h3, h4, h5, h6⟩ := hrel.inv
  obtain ⟨fr, hfr⟩ := Option.ne_none_iff_exists'.1 (h1 i f hg')
  have hcount : w.destroyed.count f = 0 := by apply List.count_eq_zero.2; rw [h5]; simp [hfr]
  constructor
  · rw [run_append, h]
    refine ⟨_, by simp [run, call, exec, moveAssign, destroyHandle, rd, hg', destroy, hfr, wr]; rfl, ?_, ?_, ?_⟩
    · simp
    · simp
    · simp [hcount]
  · rintro op (rfl | rfl | rfl | rfl) <;> rw [run_append, h] <;>
      simp [run, call, exec, moveAssign, destroyHandle, rd, hg', destroy, hfr, wr, dtor, reset, next, done, handle,
        handleDone, frame]

/-! ### Concrete cases -/

/-- yields 0, 1, …, n-1 and then returns (even n) or throws n (odd n) -/
def countTo : Nat × Nat → Act (Nat × Nat) Nat Nat := fun (k, n) =>
  if k < n then .yield k (k + 1, n) else if n % 2 = 0 then .ret else .throw n

/-- the hypotheses of C26/C27 hold for: two coroutines, one finishing with an exception, moves, an iteration, destruction -/
def demo : List (Op (Nat × Nat)) :=
  [.create 0 (0, 1), .create 1 (0, 2), .next 0, .moveCtor 2 0, .next 2, .next 2, .toBool 0,
   .begin 1 0, .isEnd 0, .deref 0, .incr 0, .deref 0, .incr 0, .isEnd 0, .done 1,
   .moveAssign 1 2, .done 1, .moveAssign 2 2, .dtor 0, .reset 1, .dtor 1, .dtor 2]

example : ∃ y, Spec.run countTo (fun _ => 7) demo Spec.init = some
      ([.unit, .unit, .value 0, .unit, .exc 1, .empty, .bool false, .unit, .bool false, .value 0, .unit, .value 1, .unit,
        .bool true, .bool true, .unit, .bool true, .unit, .unit, .unit, .unit, .unit], y) ∧
      Spec.SafeRun (E := Nat) countTo (fun _ => 7) demo Spec.init ∧ y.gen 0 = none ∧ y.gen 1 = none ∧ y.gen 2 = none := by
  refine ⟨_, rfl, ?_, rfl, rfl, rfl⟩
  simp [Spec.SafeRun, Spec.Safe, demo, Spec.call, Spec.init, Spec.advance, event, countTo, Spec.Sys.setRun, Spec.Sys.setGen,
    Spec.Sys.drop, Function.update_apply]
  rintro f r rfl h
  simp only [show (1 : Nat) ≠ 0 by decide, if_false, if_true, Option.some.injEq] at h
  subst h
  simp [event, countTo]

/-- a reachable state where the defect theorems apply: a finished coroutine in a generator -/
example : ∃ rs y, Spec.run countTo id [.create 0 (0, 0), .next 0] Spec.init = some (rs, y) ∧
    Spec.SafeRun (E := Nat) countTo id [.create 0 (0, 0), .next 0] Spec.init ∧ y.gen 0 = some (some 0) ∧
    ∃ r, y.run 0 = some r ∧ event countTo r.n r.start = none := by
  refine ⟨_, _, rfl, ?_, rfl, _, rfl, rfl⟩
  simp [Spec.SafeRun, Spec.Safe]

example : nextReplies countTo (0, 3) 0 5 = [.value 0, .value 1, .value 2, .exc 3, .empty] := by decide

end Itlib.Gen
