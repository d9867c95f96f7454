import Verif.UFunction.ReRefine

/-! # C72: `ufunction`s used from inside of the callables that they run -/
namespace Itlib.UFunction
variable {S A R : Type}
open Spec

variable {L : RLang S A R} {lib : Lib S} {fails : Nat → Bool}

theorem run_start (hlib : lib.Lawful) (usr : Nat → S) (main : Body S A R) (n : Nat) :
    Meets fails id 0 (rrun L lib.clearFirst n none main (rstart usr)) (xrun L lib fails n none main (start usr)) :=
  run_meets hlib n id none none main _ _ (rel_start usr) trivial

/-- **C72.** Callables may use any `ufunction`s, also the one that they are called from: call it again, give it another target, empty it, move it, end
its life. A program in which no callable touches its captures after its `ufunction` lost it gives the results of the specification, for every
standard library that does not move targets in a way that may throw. Afterwards the function objects in memory are the targets of the `ufunction`s,
each of one. -/
theorem C72_returns (hlib : lib.Lawful) (hok : ∀ k, fails k = false) (usr : Nat → S) (main : Body S A R) (n : Nat) {r : R} {y : RSys S}
    (h : rrun L lib.clearFirst n none main (rstart usr) = .ret r y) :
    ∃ s, xrun L lib fails n none main (start usr) = .ret r s ∧ s.usr = y.usr ∧ s.copies = 0 ∧
      (∀ x, y.fn x = none ↔ s.fn (.var x) = none) ∧ (∀ x, y.fn x = some none ↔ s.fn (.var x) = some .none) ∧
      (∀ x p, y.fn x = some (some (.ptr p)) → s.fn (.var x) = some (.ptr p)) ∧
      (∀ x i, y.fn x = some (some (.obj i)) → ∃ v pl a, y.st i = .alive v ∧ s.fn (.var x) = some (.obj pl a) ∧ s.obj a = some v) ∧
      (∀ a v, s.obj a = some v → ∃! x, ∃ pl, s.fn (.var x) = some (.obj pl a)) := by
  rcases run_start (L := L) (fails := fails) hlib usr main n with ⟨⟨k, hk⟩, -⟩ | hm
  · rw [hok k] at hk; cases hk
  · rw [h] at hm
    obtain ⟨s, τ, e, g, -, -⟩ := hm
    refine ⟨s, e, g.good.usr, g.good.nocopy, ?_, ?_, ?_, ?_, ?_⟩
    · intro x
      rw [g.good.fn_none, ← RSys.content_none]; rfl
    · intro x
      rw [g.good.fn_empty]
      simp only [lift, RSys.content]
      rcases hx : y.fn x with _ | _ | _ | i
      · simp
      · simp
      · simp
      · obtain ⟨v, hv⟩ := g.wf.alive x i hx
        simp [hv]
    · intro x p hx
      exact g.good.fn_ptr (by simp only [lift, RSys.content, hx])
    · intro x i hx
      obtain ⟨v, hv⟩ := g.wf.alive x i hx
      obtain ⟨pl, hp⟩ := g.adr x i hx
      obtain ⟨_, _, -, -, ho⟩ := g.alive hv
      exact ⟨v, pl, τ i, hv, hp, ho⟩
    · intro a v ha
      obtain ⟨l, pl, hl⟩ := g.good.own a (by rw [ha]; simp)
      cases l with
      | var x =>
        refine ⟨x, ⟨pl, hl⟩, ?_⟩
        rintro z ⟨pl', hz⟩
        have := g.good.inj _ _ _ _ _ hz hl
        simpa using this
      | _ => exact absurd ((g.good.fn_none _).mpr rfl) (by rw [hl]; simp)

/-- **C72.** If allocations may fail, the program does the same, or is terminated. -/
theorem C72_alloc (hlib : lib.Lawful) (usr : Nat → S) (main : Body S A R) (n : Nat) {r : R} {y : RSys S}
    (h : rrun L lib.clearFirst n none main (rstart usr) = .ret r y) :
    (∃ s, xrun L lib fails n none main (start usr) = .ret r s) ∨
      ((∃ k, fails k = true) ∧ xrun L lib fails n none main (start usr) = .terminated) := by
  rcases run_start (L := L) (fails := fails) hlib usr main n with h' | hm
  · exact .inr h'
  · rw [h] at hm
    obtain ⟨s, τ, e, -⟩ := hm
    exact .inl ⟨s, e⟩

/-- **C72, the condition is needed.** Where the specification says that a callable uses captures that are gone, the code does. -/
theorem C72_undefined (hlib : lib.Lawful) (hok : ∀ k, fails k = false) (usr : Nat → S) (main : Body S A R) (n : Nat)
    (h : rrun L lib.clearFirst n none main (rstart usr) = .ub) : xrun L lib fails n none main (start usr) = .ub := by
  rcases run_start (L := L) (fails := fails) hlib usr main n with ⟨⟨k, hk⟩, -⟩ | hm
  · rw [hok k] at hk; cases hk
  · rw [h] at hm; exact hm

/-- **C72.** Callables that call each other without end do so in the code, too: there is no bound that the `ufunction`s would add. -/
theorem C72_unfinished (hlib : lib.Lawful) (hok : ∀ k, fails k = false) (usr : Nat → S) (main : Body S A R)
    (h : ∀ n, rrun L lib.clearFirst n none main (rstart usr) = .fuel) : ∀ n, xrun L lib fails n none main (start usr) = .fuel := by
  intro n
  rcases run_start (L := L) (fails := fails) hlib usr main n with ⟨⟨k, hk⟩, -⟩ | hm
  · rw [hok k] at hk; cases hk
  · rw [h] at hm; exact hm

/-- **C72, where it fails.** A callable that gives the `ufunction` that runs it another target, empties it or ends its life, and reads a capture
afterwards: undefined, in every library, and wherever the program is. -/
theorem C72_own_reset_defect (hlib : lib.Lawful) (hok : ∀ k, fails k = false) (usr : Nat → S) (main : Body S A R) (n : Nat) {r : R} {y y' : RSys S}
    (h : rrun L lib.clearFirst n none main (rstart usr) = .ret r y) {x i : Nat} {v : S} (hx : y.fn x = some (some (.obj i))) (hv : y.st i = .alive v)
    {a : A} {o : Op A} {k : S → Body S A R} (hb : L.body v a = .op o fun _ => .load k) (ho : (o = .destroy x) ∨ ∃ src, o = .assign x src)
    {r' : Reply R} (hstep : rstep L.mv lib.clearFirst y o = some (r', y')) (k' : Reply R → Body S A R) (m : Nat) :
    ∃ s, xrun L lib fails n none main (start usr) = .ret r s ∧ xrun L lib fails (m + 3) none (.op (.call x a) k') s = .ub := by
  rcases run_start (L := L) (fails := fails) hlib usr main n with ⟨⟨k, hk⟩, -⟩ | hm
  · rw [hok k] at hk; cases hk
  · rw [h] at hm
    obtain ⟨s, τ, e, g, -, -⟩ := hm
    refine ⟨s, e, ?_⟩
    have hgone : y'.st i = .gone := by
      rcases ho with rfl | ⟨src, rfl⟩
      · simp only [rstep, hx] at hstep
        simp only [reduceCtorEq, if_false, Option.some.injEq, Prod.mk.injEq] at hstep
        rw [← hstep.2]
        exact RSys.lose_st_self _ _ _ _ hx
      · simp only [rstep, hx] at hstep
        simp only [reduceCtorEq, if_false, Option.some.injEq, Prod.mk.injEq] at hstep
        rw [← hstep.2]
        have hlt := g.wf.lt hx
        have : ((y.give L.mv src).lose x .gone).st i = .gone := RSys.lose_st_self _ _ _ _ (by rw [RSys.give_fn, hx])
        rcases hval : y.value src with _ | _ | w
        · exact this
        · exact this
        · simp only [RSys.hold, RSys.lose_next, RSys.give_next]
          rw [Function.update_of_ne (by omega)]
          exact this
    have hub : rrun L lib.clearFirst (m + 3) none (.op (.call x a) k') y = .ub := by
      simp only [rrun, hx, hv, hb]
      rcases ho with rfl | ⟨src, rfl⟩ <;> simp only [rrun, hstep, hgone, Out.bind]
    rcases run_meets (L := L) (fails := fails) hlib (m + 3) τ none none (.op (.call x a) k') y s g trivial with ⟨⟨k, hk⟩, -⟩ | hm
    · rw [hok k] at hk; cases hk
    · rw [hub] at hm; exact hm

/-- **C72, what depends on the library.** A callable moves the `ufunction` that runs it into a new one, and reads a capture. If the target is on
the heap it is where it was, and the captures are those it had. -/
theorem C72_moved_heap {s : St S} {x d b : Nat} {v : S} (hx : s.fn (.var x) = some (.obj .heap b)) (hv : s.obj b = some v) (hd : s.fn (.var d) = none)
    {a : A} {k : S → Body S A R} (hb : L.body v a = .op (.moveNew d x) fun _ => .load k) (k' : Reply R → Body S A R) (m : Nat) :
    ∃ s', s'.fn (.var d) = some (.obj .heap b) ∧ s'.fn (.var x) = some .none ∧ s'.obj = s.obj ∧
      xrun L lib fails (m + 3) none (.op (.call x a) k') s =
        (xrun L lib fails m (some b) (k v) s').bind fun r s => xrun L lib fails (m + 2) none (k' (.val r)) s := by
  have hdx : d ≠ x := by rintro rfl; rw [hd] at hx; cases hx
  refine ⟨{ s with fn := Function.update (Function.update s.fn (.var d) (some (.obj .heap b))) (.var x) (some .none) }, ?_, ?_, rfl, ?_⟩
  · simp [hdx]
  · simp
  · simp [xrun, hx, hv, hb, exec, noexcept_, steal, hd, hdx]

/-- **C72, what depends on the library.** If the target is inside of the `ufunction`, it is undefined: the function object that runs has been moved
away and destroyed. -/
theorem C72_moved_inline {s : St S} {x d b : Nat} {v : S} (hx : s.fn (.var x) = some (.obj .inlineMoved b)) (hv : s.obj b = some v)
    (hd : s.fn (.var d) = none) (hlt : b < s.next) {a : A} {k : S → Body S A R} (hb : L.body v a = .op (.moveNew d x) fun _ => .load k)
    (k' : Reply R → Body S A R) (m : Nat) : xrun L lib fails (m + 3) none (.op (.call x a) k') s = .ub := by
  have hdx : d ≠ x := by rintro rfl; rw [hd] at hx; cases hx
  have hdx' : Loc.var x ≠ .var d := by simpa using Ne.symm hdx
  have hne : b ≠ s.next := by omega
  simp [xrun, hx, hv, hb, exec, noexcept_, steal, moveObj, drop, put, hd, hdx', hne, ROut.bind]

/-! ### The hypotheses hold in concrete cases -/

section Cases

/-- A callable that counts down by calling the `ufunction` 0, in which it is, and at the end empties it. -/
def countdown : RLang (Option Nat) Unit Nat where
  pbody p _ := .ret p
  body _ _ := .load fun
    | some (n + 1) => .store (some n) (.op (.call 0 ()) fun | .val r => .ret (r + 1) | _ => .ret 1000)
    | _ => .op (.assign 0 .null) fun _ => .ret 0
  mv _ := some 0

/-- It is stored and called; afterwards the `ufunction` is empty. -/
def countdownMain : Body (Option Nat) Unit Nat :=
  .op (.create 0 (.byMove 7)) fun _ => .op (.call 0 ()) fun
    | .val r => .op (.test 0) fun | .bool false => .ret (r + 100) | _ => .ret r
    | _ => .ret 0

example : ∃ y, rrun countdown false 20 none countdownMain (rstart fun _ => some 3) = .ret 103 y ∧ y.fn 0 = some none := by
  simp [rrun, countdownMain, countdown, rstart, rstep, RSys.hold, RSys.give, RSys.lose, RSys.value, RSys.content, Out.bind]

/-- a callable that empties its `ufunction` and then reads a capture -/
def useAfterReset : RLang (Option Nat) Unit Nat where
  pbody p _ := .ret p
  body _ _ := .op (.assign 0 .null) fun _ => .load fun v => .ret (v.getD 0)
  mv _ := some 0

example : rrun useAfterReset false 20 none (.op (.create 0 (.byCopy 7)) fun _ => .op (.call 0 ()) fun _ => .ret 0) (rstart fun _ => some 3) = .ub := by
  simp [rrun, useAfterReset, rstart, rstep, RSys.hold, RSys.give, RSys.lose, RSys.value, Out.bind]

/-- a callable that calls the `ufunction` with the number in its capture -/
def caller : RLang (Option Nat) Unit Nat where
  pbody p _ := .ret p
  body v _ := .op (.call (v.getD 0) ()) fun _ => .ret 0
  mv _ := some 0

/-- a callable that calls itself without end -/
example : ∀ n, rrun caller false n none (.op (.create 0 (.byCopy 7)) fun _ => .op (.call 0 ()) fun _ => .ret 0) (rstart fun _ => some 0) = .fuel := by
  have key : ∀ n (y : RSys (Option Nat)) (me : Option Nat) (k : Reply Nat → Body (Option Nat) Unit Nat),
      y.fn 0 = some (some (.obj 0)) → y.st 0 = .alive (some 0) → rrun caller false n me (.op (.call 0 ()) k) y = .fuel := by
    intro n
    induction n with
    | zero => intro y me k _ _; simp [rrun]
    | succ n ih =>
      intro y me k h1 h2
      simp only [rrun, h1, h2]
      have : caller.body (some 0) () = .op (.call 0 ()) fun _ => .ret 0 := rfl
      rw [this, ih y (some 0) _ h1 h2]
      rfl
  intro n
  cases n with
  | zero => simp [rrun]
  | succ n =>
    simp only [rrun, rstart, rstep, if_true]
    exact key n _ _ _ (by simp [RSys.hold, RSys.give, RSys.value]) (by simp [RSys.hold, RSys.give, RSys.value])

/-- a callable that moves its `ufunction` into a new one and reads a capture -/
def selfMover : RLang (Option Nat) Unit Nat where
  pbody p _ := .ret p
  body _ _ := .op (.moveNew 1 0) fun _ => .load fun v => .ret (v.getD 0)
  mv _ := some 0

/-- fine where targets are on the heap -/
example : ∃ s, xrun selfMover libstdcxx (fun _ => false) 20 none (.op (.create 0 (.byCopy 7)) fun _ => .op (.call 0 ()) fun
    | .val r => .ret r | _ => .ret 0) (start fun _ => some 3) = .ret 3 s := by
  simp [xrun, selfMover, exec, passArg, mkObj, construct, moveObj, fromWrapper, noexcept_, drop, steal, start, libstdcxx, copyNoexcept, moveNoexcept,
    alloc, RLang.base, ROut.bind]

/-- undefined where targets are inside of `std::function`s -/
example : xrun selfMover inlineLib (fun _ => false) 20 none (.op (.create 0 (.byCopy 7)) fun _ => .op (.call 0 ()) fun
    | .val r => .ret r | _ => .ret 0) (start fun _ => some 3) = .ub := by
  simp [xrun, selfMover, exec, passArg, mkObj, construct, moveObj, fromWrapper, noexcept_, drop, put, steal, start, inlineLib, copyNoexcept, moveNoexcept,
    RLang.base, ROut.bind]

end Cases
end Itlib.UFunction
