import Verif.DataMutex.Props
import Verif.Conc.Live

/-!
# Which calls on `data_mutex` always return

Only `unique_lock()`, `shared_lock()` and the like wait. The `try_` functions, moves and destructors of lock objects and accesses
return whatever the other threads have locked.
-/
namespace Itlib.DataMutex
open Itlib.Conc

variable {v₀ : Nat} {tr : List (Ev Op Out)} {c : Config Act Act.Res St Op Out}

/-- waits -/
def Waits (a : Act) : Prop := ∃ e, a = .lock e

theorem able (h : Exec (sys false) body (initial v₀) tr c) (hf : Follows Spec.Allowed tr) {t : Nat} {f : Op} {a : Act} {k : a.Res → P Out}
    (ht : c.threads t = some (f, .act a k)) (ha : ¬ Waits a) : ∃ r s', (sys false).step t a c.shared r s' := by
  have hb : ¬ Bad t a c.shared := fun hb => C42_no_ub_partial h hf ⟨t, f, a, k, ht, hb⟩
  cases a with
  | lock e => exact absurd ⟨e, rfl⟩ ha
  | tryLock e => exact ⟨_, _, .tryFails _ e⟩
  | unlock e => cases e; exacts [⟨_, _, .unlockS _⟩, ⟨_, _, .unlockX _⟩]
  | newObj i kd p => exact ⟨_, _, .newObj _ i kd p⟩
  | rdObj i =>
    cases ho : c.shared.objs t i with
    | none => exact absurd (fun o h => by rw [ho] at h; cases h) hb
    | some o => exact ⟨_, _, .rdObj _ i o ho⟩
  | setPtr i p =>
    cases ho : c.shared.objs t i with
    | none => exact absurd ho hb
    | some o => exact ⟨_, _, .setPtr _ i p o ho⟩
  | delObj i => exact ⟨_, _, .delObj _ i⟩
  | rdData => exact ⟨_, _, .rdData _⟩
  | wrData v => exact ⟨_, _, .wrData _ v⟩
  | undef => exact absurd trivial hb

theorem n_act {a : Act} {α : Type} {k : a.Res → P α} (h : ¬ Waits a) (hk : ∀ r, NoLock Waits (k r)) : NoLock Waits (.act a k) := ⟨h, hk⟩

theorem n_bind {α β : Type} {p : P α} {q : α → P β} (hp : NoLock Waits p) (hq : ∀ x, NoLock Waits (q x)) : NoLock Waits (p >>= q) := by
  induction p with
  | ret x => exact hq x
  | act a k ih => exact ⟨hp.1, fun r => ih r (hp.2 r)⟩

theorem n_perform {a : Act} (h : ¬ Waits a) : NoLock Waits (Prog.perform (R := Act.Res) a) := ⟨h, fun _ => trivial⟩

theorem n_dtor (i : Loc) : NoLock Waits (dtor i) := by
  refine n_bind (n_perform (by rintro ⟨e, h⟩; cases h)) fun o => ?_
  split
  · exact n_bind (n_perform (by rintro ⟨e, h⟩; cases h)) fun _ => n_perform (by rintro ⟨e, h⟩; cases h)
  · exact n_perform (by rintro ⟨e, h⟩; cases h)

theorem n_move (d s : Loc) : NoLock Waits (moveCtor d s) :=
  n_bind (n_perform (by rintro ⟨e, h⟩; cases h)) fun _ => n_bind (n_perform (by rintro ⟨e, h⟩; cases h)) fun _ =>
    n_perform (by rintro ⟨e, h⟩; cases h)

theorem n_tryCtor (i : Loc) (k : Kind) : NoLock Waits (tryCtor i k) := by
  refine n_bind (n_perform (by rintro ⟨e, h⟩; cases h)) fun _ => n_bind (n_perform (by rintro ⟨e, h⟩; cases h)) fun g => ?_
  split
  · exact n_bind (n_dtor i) fun _ => trivial
  · split
    · exact n_bind (n_perform (by rintro ⟨e, h⟩; cases h)) fun _ => trivial
    · exact n_bind (n_perform (by rintro ⟨e, h⟩; cases h)) fun _ => trivial

theorem n_deref (x : Nat) : NoLock Waits (deref x) := by
  refine n_bind (n_perform (by rintro ⟨e, h⟩; cases h)) fun o => ?_
  split
  · exact ⟨(by rintro ⟨e, h⟩; cases h), fun r => nomatch r⟩
  · trivial

/-- Every call but `unique_lock()`, `shared_lock()` and the like returns, under every weakly fair scheduler, whatever the other
threads have locked and for however long. -/
theorem C69_data_mutex_returns (E : Forever (sys false) body (initial v₀)) (hf : ∀ i, Follows Spec.Allowed (E.tr i)) (hw : E.Weak)
    {i t : Nat} {f : Op} (hk : ∀ k e x, f ≠ .make k e x) (ht : (E.at_ i).threads t = some (f, body f)) :
    ∃ j y, i ≤ j ∧ E.Returns t j f y := by
  refine Forever.returns (lck := Waits) (fun i t f a k h ha => able (E.exec i) (hf i) h ha) hw ht ?_
  cases f with
  | make k e x => exact absurd rfl (hk k e x)
  | tryMake k e x =>
    simp only [body, tryMake]
    split
    · exact n_bind (n_tryCtor _ _) fun _ => trivial
    · refine n_bind (n_tryCtor _ _) fun b => ?_
      split
      · trivial
      · exact n_bind (n_move _ _) fun _ => n_bind (n_dtor _) fun _ => trivial
  | move d s => exact n_bind (n_move _ _) fun _ => trivial
  | destroy x => exact n_bind (n_dtor _) fun _ => trivial
  | write x v => exact n_bind (n_deref _) fun _ => n_bind (n_perform (by rintro ⟨e, h⟩; cases h)) fun _ => trivial
  | read x => exact n_bind (n_deref _) fun _ => n_bind (n_perform (by rintro ⟨e, h⟩; cases h)) fun _ => trivial
  | test x => exact n_bind (n_perform (by rintro ⟨e, h⟩; cases h)) fun _ => trivial

/-- `unique_lock()` does not: thread 0 keeps its lock, and thread 1 waits forever, under every scheduler. -/
theorem C69_data_mutex_waits_limit : ∃ E : Forever (sys false) body (initial v₀), E.Strong ∧ (∀ i, Follows Spec.Allowed (E.tr i)) ∧
    ∃ n, ∀ i, n ≤ i → ∃ p, (E.at_ i).threads 1 = some (.make .unique true 0, p) := by
  have e0 := (Exec.start (sys := sys false) (body := body) (c₀ := initial v₀)).call (t := 0) rfl (.make .unique true 0)
  have e1 := ((e0.goOn (.newObj _ _ _ _)).goOn (.lockX _ rfl fun _ => rfl)).done
  have e2 := (e1.call (t := 1) rfl (.make .unique true 0)).goOn (.newObj _ _ _ _)
  obtain ⟨E, h1, h2, n, h3⟩ := Forever.exists_stop e2 (by
    intro t
    by_cases ht1 : t = 1
    · subst ht1
      rintro ⟨c', hg⟩
      cases hg with
      | act f a k r s' ht hd =>
        simp only [Function.update_self, Option.some.injEq, Prod.mk.injEq] at ht
        obtain ⟨rfl, ht⟩ := ht
        cases ht
        cases hd with
        | lockX _ hn _ => cases hn
        | lockThrows _ _ hm => cases hm
      | ret f y ht =>
        simp only [Function.update_self, Option.some.injEq, Prod.mk.injEq] at ht
        cases ht.2
    · rintro ⟨c', hg⟩
      have hn : Function.update (Function.update (initial v₀).threads 0 none) 1 (none : Option (Op × P Out)) t = none := by
        rw [Function.update_of_ne ht1]
        by_cases h0 : t = 0
        · subst h0; simp
        · simp [h0, initial]
      rw [Function.update_of_ne ht1] at hn
      cases hg with
      | act f a k r s' ht hd =>
        simp only [Function.update_of_ne ht1, hn] at ht
        cases ht
      | ret f y ht =>
        simp only [Function.update_of_ne ht1, hn] at ht
        cases ht)
  refine ⟨E, h1, fun i => ?_, n, fun i hi => by rw [h3 i hi]; simp only [Function.update_self]; exact ⟨_, rfl⟩⟩
  obtain ⟨l, hl⟩ := h2 i
  refine Follows.init (tr' := l) ?_
  rw [hl]
  have a0 : Follows Spec.Allowed ([] : List (Ev Op Out)) := Follows.nil
  exact (((a0.inv (t := 0) (f := .make .unique true 0) rfl).ret 0 _ _).inv (t := 1) (f := .make .unique true 0) rfl)

/-! ### The hypotheses are met -/

/-- a strongly fair execution that follows the rules, in which thread 1 tries to lock what thread 0 keeps locked -/
example : ∃ E : Forever (sys false) body (initial v₀), E.Strong ∧ (∀ i, Follows Spec.Allowed (E.tr i)) ∧
    ∃ i, (E.at_ i).threads 1 = some (.tryMake .unique true 0, body (.tryMake .unique true 0)) ∧ (E.at_ i).shared.writer = some 0 := by
  have e0 := (Exec.start (sys := sys false) (body := body) (c₀ := initial v₀)).call (t := 0) rfl (.make .unique true 0)
  have e1 := ((e0.goOn (.newObj _ _ _ _)).goOn (.lockX _ rfl fun _ => rfl)).done
  have e2 := e1.call (t := 1) rfl (.tryMake .unique true 0)
  generalize hc : Config.mk _ _ = c at e2
  have f1 := Exec.start (sys := sys false) (body := body) (c₀ := c)
  rw [← hc] at f1
  have f2 := (((f1.goOn (.newObj _ _ _ _)).goOn (.tryFails _ _)).goOn (.setPtr _ _ _ ⟨.unique, .indet⟩ (by simp [St.setObj]))).done
  rw [hc] at f2
  obtain ⟨E, h1, h2, i, hi⟩ := Forever.exists_strong e2 f2 (fun t => by
    by_cases ht1 : t = 1
    · subst ht1; simp
    · by_cases h0 : t = 0
      · subst h0; simp
      · simp [ht1, initial])
  refine ⟨E, h1, fun i => ?_, i, by rw [hi, ← hc]; simp, by rw [hi, ← hc]⟩
  obtain ⟨l, hl⟩ := h2 i
  refine Follows.init (tr' := l) ?_
  rw [hl]
  have a0 : Follows Spec.Allowed ([] : List (Ev Op Out)) := Follows.nil
  exact (((a0.inv (t := 0) (f := .make .unique true 0) rfl).ret 0 _ _).inv (t := 1) (f := .tryMake .unique true 0) rfl).ret 1 _ _

end Itlib.DataMutex
