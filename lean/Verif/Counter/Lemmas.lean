import Verif.Counter.Spec
import Verif.Core.Tac
import Mathlib.Algebra.BigOperators.Group.List.Basic
import Mathlib.Algebra.Order.BigOperators.Group.List

namespace Itlib.Counter
open Itlib.Conc

theorem wrap_inRange (T : IntTy) (v : Int) : T.InRange (T.wrap v) := by
  have h1 := Int.emod_nonneg (v - T.lo) (b := T.size) (by have := T.pos; omega)
  have h2 := Int.emod_lt_of_pos (v - T.lo) T.pos
  unfold IntTy.InRange IntTy.wrap
  omega

theorem wrap_of_inRange {T : IntTy} {v : Int} (h : T.InRange v) : T.wrap v = v := by
  unfold IntTy.InRange at h
  unfold IntTy.wrap
  rw [Int.emod_eq_of_lt (by omega) (by omega)]
  omega

theorem wrap_add (T : IntTy) (v d : Int) : T.wrap (T.wrap v + d) = T.wrap (v + d) := by
  unfold IntTy.wrap
  have : T.lo + (v - T.lo) % T.size + d - T.lo = (v - T.lo) % T.size + d := by omega
  rw [this, Int.emod_add_emod]
  congr 2
  omega

theorem wrap_sub (T : IntTy) (v d : Int) : T.wrap (T.wrap v - d) = T.wrap (v - d) := by
  have := wrap_add T v (-d)
  simpa only [Int.sub_eq_add_neg] using this

theorem wrap_eq_iff {T : IntTy} {a b : Int} (h : T.wrap a = T.wrap b) (ha : 0 ≤ a - b) (hs : a - b < T.size) : a = b := by
  unfold IntTy.wrap at h
  have h1 : (a - T.lo) % T.size = (b - T.lo) % T.size := by omega
  have h2 := Int.emod_emod_of_dvd (a - b) (Int.dvd_refl T.size)
  have h3 : (a - b) % T.size = 0 := by
    have : a - b = (a - T.lo) - (b - T.lo) := by omega
    rw [this]
    exact Int.emod_eq_emod_iff_emod_sub_eq_zero.mp h1
  rw [Int.emod_eq_of_lt ha hs] at h3
  omega

/-! ### The programs -/

/-- the last part of a call: the result is known -/
inductive Final (y : Option Int) : P (Option Int) → Prop where
  | ret : Final y (.ret y)
  | stuck (k : Empty → P (Option Int)) : Final y (.act .undef k)

theorem final_arith (T : IntTy) (v : Int) : Final (some (T.wrap v)) (arith T v >>= fun r => pure (some r)) := by
  unfold arith
  split
  · exact .stuck _
  · exact .ret

/-- how far the call `f` of a thread is -/
inductive Stage (T : IntTy) (z : Spec.Regs) (f : Op) : P (Option Int) → Phase Op (Option Int) → Prop where
  | start : Stage T z f (body T f) (.pending f)
  | mid (x s : Nat) (v : Int) (hf : f = .assign x s) (hv : z.past s v) :
      Stage T z f (.act (.store x v) fun _ => .ret none) (.pending f)
  | fin (y : Option Int) (p : P (Option Int)) (h : Final y p) : Stage T z f p (.done f y)

theorem Stage.mono {T : IntTy} {z z' : Spec.Regs} {f : Op} {p : P (Option Int)} {ph : Phase Op (Option Int)} (h : Stage T z f p ph)
    (hz : ∀ x v, z.past x v → z'.past x v) : Stage T z' f p ph := by
  cases h with
  | start => exact .start
  | mid x s v hf hv => exact .mid x s v hf (hz _ _ hv)
  | fin y p h => exact .fin y p h

/-- simulation relation -/
structure J (T : IntTy) (c : Config Act Act.Res Mem Op (Option Int)) (z : Spec.Regs) (ph : Nat → Phase Op (Option Int)) : Prop where
  val : ∀ x, z.val x = c.shared.last x
  past : ∀ x v, z.past x v ↔ v ∈ c.shared.mo x
  idle : ∀ t, c.threads t = none → ph t = .idle
  run : ∀ t f p, c.threads t = some (f, p) → Stage T z f p (ph t)

/-- the thread made a step that is not its instant -/
theorem J.quiet {T : IntTy} {c : Config Act Act.Res Mem Op (Option Int)} {z : Spec.Regs} {ph : Nat → Phase Op (Option Int)} (h : J T c z ph)
    {t : Nat} {f : Op} {p : P (Option Int)} {m : Mem} (ho : m.old = c.shared.old) (hl : m.last = c.shared.last)
    (hp : Stage T z f p (ph t)) : J T ⟨m, Function.update c.threads t (some (f, p))⟩ z ph := by
  refine ⟨?_, ?_, ?_, ?_⟩
  · intro x; rw [h.val]; simp only [hl]
  · intro x v; rw [h.past]; simp only [Mem.mo, ho, hl]
  · intro t' ht'
    by_cases e : t' = t
    · subst e; simp at ht'
    · simp only [Function.update_of_ne e] at ht'
      exact h.idle t' ht'
  · intro t' f' p' ht'
    by_cases e : t' = t
    · subst e
      simp only [Function.update_self, Option.some.injEq, Prod.mk.injEq] at ht'
      obtain ⟨rfl, rfl⟩ := ht'
      exact hp
    · simp only [Function.update_of_ne e] at ht'
      exact h.run t' f' p' ht'

/-- the thread made the step that is its instant and wrote `v` to `x` -/
theorem J.write {T : IntTy} {c : Config Act Act.Res Mem Op (Option Int)} {z : Spec.Regs} {ph : Nat → Phase Op (Option Int)} (h : J T c z ph)
    {t x : Nat} {v : Int} {f : Op} {p : P (Option Int)} {y : Option Int} (hp : Final y p) :
    J T ⟨c.shared.push t x v, Function.update c.threads t (some (f, p))⟩ (z.write x v) (Function.update ph t (.done f y)) := by
  refine ⟨?_, ?_, ?_, ?_⟩
  · intro x'
    by_cases e : x' = x
    · subst e; simp [Spec.Regs.write, Mem.push]
    · simp [Spec.Regs.write, Mem.push, Function.update_of_ne e, h.val]
  · intro x' v'
    by_cases e : x' = x
    · subst e; simp [Spec.Regs.write, Mem.push, Mem.mo, h.past, or_assoc]
    · simp [Spec.Regs.write, Mem.push, Mem.mo, h.past, e]
  · intro t' ht'
    by_cases e : t' = t
    · subst e; simp at ht'
    · simp only [Function.update_of_ne e] at ht' ⊢
      exact h.idle t' ht'
  · intro t' f' p' ht'
    by_cases e : t' = t
    · subst e
      simp only [Function.update_self, Option.some.injEq, Prod.mk.injEq] at ht' ⊢
      obtain ⟨rfl, rfl⟩ := ht'
      exact .fin _ _ hp
    · simp only [Function.update_of_ne e] at ht' ⊢
      exact (h.run t' f' p' ht').mono fun x v hv => Or.inl hv

/-- the thread made the step that is its instant and read -/
theorem J.read {T : IntTy} {c : Config Act Act.Res Mem Op (Option Int)} {z : Spec.Regs} {ph : Nat → Phase Op (Option Int)} (h : J T c z ph)
    {t : Nat} {f : Op} {p : P (Option Int)} {m : Mem} {y : Option Int} (ho : m.old = c.shared.old) (hl : m.last = c.shared.last)
    (hp : Final y p) : J T ⟨m, Function.update c.threads t (some (f, p))⟩ z (Function.update ph t (.done f y)) := by
  refine ⟨?_, ?_, ?_, ?_⟩
  · intro x; rw [h.val]; simp only [hl]
  · intro x v; rw [h.past]; simp only [Mem.mo, ho, hl]
  · intro t' ht'
    by_cases e : t' = t
    · subst e; simp at ht'
    · simp only [Function.update_of_ne e] at ht' ⊢
      exact h.idle t' ht'
  · intro t' f' p' ht'
    by_cases e : t' = t
    · subst e
      simp only [Function.update_self, Option.some.injEq, Prod.mk.injEq] at ht' ⊢
      obtain ⟨rfl, rfl⟩ := ht'
      exact .fin _ _ hp
    · simp only [Function.update_of_ne e] at ht' ⊢
      exact h.run t' f' p' ht'

theorem sim (T : IntTy) : Sim (sys T) (body T) (Spec.call T) (J T) where
  inv := by
    intro c z ph t f h ht
    refine ⟨h.idle t ht, h.val, h.past, ?_, ?_⟩
    · intro t' ht'
      by_cases e : t' = t
      · subst e; simp at ht'
      · simp only [Function.update_of_ne e] at ht' ⊢
        exact h.idle t' ht'
    · intro t' f' p' ht'
      by_cases e : t' = t
      · subst e
        simp only [Function.update_self, Option.some.injEq, Prod.mk.injEq] at ht' ⊢
        obtain ⟨rfl, rfl⟩ := ht'
        exact .start
      · simp only [Function.update_of_ne e] at ht' ⊢
        exact h.run t' f' p' ht'
  ret := by
    intro c z ph t f y h ht
    have hst := h.run t f _ ht
    refine ⟨?_, h.val, h.past, ?_, ?_⟩
    · generalize hp : (Prog.ret y : P (Option Int)) = p at hst
      generalize ph t = φ at hst ⊢
      cases hst with
      | start => cases f <;> cases hp
      | mid => cases hp
      | fin y' p hfin =>
        cases hfin with
        | ret => cases hp; rfl
        | stuck => cases hp
    · intro t' ht'
      by_cases e : t' = t
      · subst e; simp
      · simp only [Function.update_of_ne e] at ht' ⊢
        exact h.idle t' ht'
    · intro t' f' p' ht'
      by_cases e : t' = t
      · subst e; simp at ht'
      · simp only [Function.update_of_ne e] at ht' ⊢
        exact h.run t' f' p' ht'
  act := by
    intro c z ph t f a k r m h ht hd
    have hst := h.run t f _ ht
    generalize hp : (Prog.act a k : P (Option Int)) = p at hst
    generalize hph : ph t = φ at hst
    have hpast : ∀ (x i : Nat) (v : Int), (c.shared.mo x)[i]? = some v → z.past x v := by
      intro x i v hv
      rw [h.past]
      exact List.mem_of_getElem? hv
    cases hst with
    | fin y p hfin =>
      cases hfin with
      | ret => cases hp
      | stuck => cases hp; cases hd
    | mid x s v hf hv =>
      cases hp
      cases hd
      subst hf
      right
      exact ⟨none, _, rfl, ⟨v, hv, rfl, rfl⟩, h.write .ret⟩
    | start =>
      cases f with
      | load x =>
        cases hp; cases hd with
        | load _ _ i _ hi hv =>
          right
          exact ⟨_, _, rfl, ⟨r, hpast _ _ _ hv, rfl, rfl⟩, h.read rfl rfl .ret⟩
      | store x i =>
        cases hp; cases hd
        right
        exact ⟨_, _, rfl, ⟨rfl, rfl⟩, h.write .ret⟩
      | preInc x =>
        cases hp; cases hd
        right
        refine ⟨_, _, rfl, ⟨rfl, rfl⟩, ?_⟩
        rw [h.val]
        exact h.write (final_arith T _)
      | postInc x =>
        cases hp; cases hd
        right
        refine ⟨_, _, rfl, ⟨rfl, rfl⟩, ?_⟩
        rw [h.val]
        exact h.write .ret
      | add x i =>
        cases hp; cases hd
        right
        refine ⟨_, _, rfl, ⟨rfl, rfl⟩, ?_⟩
        rw [h.val]
        exact h.write (final_arith T _)
      | preDec x =>
        cases hp; cases hd
        right
        refine ⟨_, _, rfl, ⟨rfl, rfl⟩, ?_⟩
        rw [h.val]
        exact h.write (final_arith T _)
      | postDec x =>
        cases hp; cases hd
        right
        refine ⟨_, _, rfl, ⟨rfl, rfl⟩, ?_⟩
        rw [h.val]
        exact h.write .ret
      | sub x i =>
        cases hp; cases hd
        right
        refine ⟨_, _, rfl, ⟨rfl, rfl⟩, ?_⟩
        rw [h.val]
        exact h.write (final_arith T _)
      | setTo x i =>
        cases hp; cases hd
        right
        exact ⟨_, _, rfl, ⟨rfl, rfl⟩, h.write .ret⟩
      | assign x s =>
        cases hp; cases hd with
        | load _ _ i _ hi hv =>
          left
          refine h.quiet rfl rfl ?_
          rw [hph]
          exact .mid x s r rfl (hpast _ _ _ hv)

theorem J_initial (T : IntTy) (init : Nat → Int) : J T (initial init) (Spec.start init) fun _ => .idle :=
  ⟨fun _ => rfl, fun x v => by simp [Spec.start, initial, Mem.mo], fun _ _ => rfl, fun t f p h => by cases h⟩

/-! ### Consequences for sequential histories -/

theorem Legal.val_eq {T : IntTy} {z z' : Spec.Regs} {l : List (Nat × Op × Option Int)} (h : Legal (Spec.call T) z l z') (x : Nat)
    (hr : T.InRange (z.val x)) (hs : ∀ e ∈ l, ¬ Spec.Sets x e.2.1) :
    z'.val x = T.wrap (z.val x + (l.map fun e => Spec.delta x e.2.1).sum) := by
  induction h with
  | nil => simp [wrap_of_inRange hr]
  | @snoc l z1 z2 e h hc ih =>
    have ih := ih fun e he => hs e (by simp [he])
    have hse := hs e (by simp)
    obtain ⟨t, c, y⟩ := e
    simp only [List.map_append, List.map_cons, List.map_nil, List.sum_append, List.sum_cons, List.sum_nil, Int.add_zero, ← Int.add_assoc]
    rw [← wrap_add, ← ih]
    have key : ∀ x' d, z2 = z1.write x' (T.wrap (z1.val x' + d)) → z2.val x = T.wrap (z1.val x + (if x' = x then d else 0)) := by
      intro x' d e
      subst e
      by_cases hx : x' = x
      · subst hx; simp [Spec.Regs.write]
      · have : x ≠ x' := fun e => hx e.symm
        simp only [Spec.Regs.write, Function.update_of_ne this, if_neg hx, Int.add_zero]
        rw [ih, wrap_of_inRange (wrap_inRange T _)]
    have key0 : ∀ x' v, x' ≠ x → z2 = z1.write x' v → z2.val x = T.wrap (z1.val x + 0) := by
      intro x' v hx e
      subst e
      have : x ≠ x' := fun e => hx e.symm
      simp only [Spec.Regs.write, Function.update_of_ne this, Int.add_zero]
      rw [ih, wrap_of_inRange (wrap_inRange T _)]
    cases c with
    | load x' =>
      obtain ⟨v, -, -, rfl⟩ := hc
      simp only [Spec.delta, Int.add_zero]
      rw [ih, wrap_of_inRange (wrap_inRange T _)]
    | store x' i => exact key0 x' _ hse hc.2
    | preInc x' => exact key x' _ hc.2
    | postInc x' => exact key x' _ hc.2
    | add x' i => exact key x' _ hc.2
    | preDec x' => exact key x' _ hc.2
    | postDec x' => exact key x' _ hc.2
    | sub x' i => exact key x' _ hc.2
    | setTo x' i => exact key0 x' _ hse hc.2
    | assign x' s => obtain ⟨v, -, -, hz⟩ := hc; exact key0 x' _ hse hz

end Itlib.Counter
