import Verif.RecMutex.Lemmas
import Mathlib.Data.List.Induction

namespace Itlib.RecMutex
open Itlib.Conc

variable {max : Nat} {tr : List (Ev Op Bool)} {c : Config Act Act.Res St Op Bool}

theorem J_initial : J [] initial none fun _ => .idle := by
  refine ⟨trivial, fun _ => ⟨rfl, rfl⟩, (by intro t h; cases h), fun t _ => rfl, ?_, (by intro t f p h; cases h)⟩
  intro t
  simp [Spec.Bal, Spec.levels, Spec.locks, Spec.unlocks]

theorem invariant (h : Exec sys (body max) initial tr c) (ha : Follows (Spec.Allowed max) tr) : ∃ z ph, J tr c z ph := by
  obtain ⟨L, ph, z, -, -, -, hj⟩ := (sim (ok_body max)).exec J_initial h ha
  exact ⟨z, ph, hj⟩

/-- Every execution of users that follow the rules is linearizable: calls behave as if executed one at a time. -/
theorem C41_linearizable (h : Exec sys (body max) initial tr c) (ha : Follows (Spec.Allowed max) tr) : Linearizable Spec.call none tr := by
  obtain ⟨L, ph, z, hw, he, hl, -⟩ := (sim (ok_body max)).exec J_initial h ha
  exact ⟨L, ph, z, hw, he, hl⟩

/-- Nothing undefined happens: no data race, no failed assertion, no overflow of the depth, and no thread waits for the internal
mutex while holding it. -/
theorem C41_no_ub (h : Exec sys (body max) initial tr c) (ha : Follows (Spec.Allowed max) tr) : ¬ c.Bad sys := by
  obtain ⟨z, ph, hj⟩ := invariant h ha
  rintro ⟨t, f, a, k, ht, hb⟩
  obtain ⟨K, hr, hpre, -⟩ := hj.run t f _ ht
  exact not_bad hr hpre hb

theorem holds_levels {z : Spec.Z} {ph : Nat → Phase Op Bool} (hj : J tr c z ph) {t : Nat} (h : Spec.Holds tr t) : 0 < Spec.levels z t := by
  have hb := hj.bal t
  simp only [Spec.Holds] at h
  revert hb
  generalize ph t = φ
  intro hb
  rcases φ with _ | f | ⟨f, y⟩
  · simp only [Spec.Bal] at hb; omega
  · cases f <;> simp only [Spec.Bal] at hb <;> omega
  · cases f <;> cases y <;> simp only [Spec.Bal] at hb <;> omega

theorem levels_unique {z : Spec.Z} {t t' : Nat} (h : 0 < Spec.levels z t) (h' : 0 < Spec.levels z t') : t = t' := by
  cases z with
  | none => simp [Spec.levels] at h
  | some p =>
    obtain ⟨o, d⟩ := p
    simp only [Spec.levels] at h h'
    split at h
    · split at h'
      · omega
      · omega
    · omega

/-- At any time at most one thread holds the mutex, that is, has locked it more often than it called `unlock`. -/
theorem C41_exclusive (h : Exec sys (body max) initial tr c) (ha : Follows (Spec.Allowed max) tr) {t t' : Nat} (ht : Spec.Holds tr t)
    (ht' : Spec.Holds tr t') : t = t' := by
  obtain ⟨z, ph, hj⟩ := invariant h ha
  exact levels_unique (holds_levels hj ht) (holds_levels hj ht')

/-- successful `try_lock`s of `t` in a sequential history -/
def locked (t : Nat) (l : List (Nat × Op × Bool)) : Nat := l.countP fun e => decide (e.1 = t) && (match e.2 with | (.tryLock, true) => true | _ => false)

/-- `unlock`s of `t` in a sequential history -/
def unlocked (t : Nat) (l : List (Nat × Op × Bool)) : Nat := l.countP fun e => decide (e.1 = t) && (match e.2.1 with | .unlock => true | _ => false)

theorem Legal.levels {z : Spec.Z} {l : List (Nat × Op × Bool)} (h : Legal Spec.call none l z) :
    Spec.Good z ∧ ∀ t, Spec.levels z t + unlocked t l = locked t l := by
  induction h with
  | nil => exact ⟨trivial, fun t => by simp [Spec.levels, locked, unlocked]⟩
  | @snoc l z z' e h hc ih =>
    obtain ⟨hg, ih⟩ := ih
    refine ⟨Spec.call_good hc hg, fun t => ?_⟩
    obtain ⟨t', f, y⟩ := e
    have ih := ih t
    by_cases e : t = t'
    · subst e
      have := Spec.call_self hc hg
      cases f <;> cases y <;> simp only [Spec.Change] at this <;>
        simp [locked, unlocked, List.countP_append] at ih ⊢ <;> omega
    · rw [Spec.call_other hc e]
      have e' : ¬ t' = t := fun h => e h.symm
      simpa [locked, unlocked, List.countP_append, e'] using ih

/-- `try_lock` never fails spuriously: the calls take effect in some order that agrees with the trace, and in this order a
`try_lock` of `t` fails exactly if another thread then has more successful `try_lock`s than `unlock`s. In particular it succeeds
if nobody or `t` itself owns the mutex, and every `unlock` finds its caller owning it. -/
theorem C41_fails_iff_owned (h : Exec sys (body max) initial tr c) (ha : Follows (Spec.Allowed max) tr) :
    ∃ L ph, Wf L ph ∧ erase L = tr ∧
      (∀ l t y l', lins L = l ++ (t, .tryLock, y) :: l' → (y = false ↔ ∃ t', t' ≠ t ∧ unlocked t' l < locked t' l)) ∧
      (∀ l t y l', lins L = l ++ (t, .unlock, y) :: l' → unlocked t l < locked t l) := by
  obtain ⟨L, ph, z, hw, he, hl, -⟩ := (sim (ok_body max)).exec J_initial h ha
  have split : ∀ (l : List (Nat × Op × Bool)) e l' z, Legal Spec.call none (l ++ e :: l') z → ∃ z1 z2, Legal Spec.call none l z1 ∧ Spec.call z1 e z2 := by
    intro l e l'
    induction l' using List.reverseRecOn with
    | nil =>
      intro z h
      generalize hl : l ++ [e] = l1 at h
      cases h with
      | nil => simp at hl
      | snoc h hs =>
        obtain ⟨rfl, h2⟩ := List.append_inj' hl rfl
        cases h2
        exact ⟨_, _, h, hs⟩
    | append_singleton l' e' ih =>
      intro z h
      generalize hl : l ++ e :: (l' ++ [e']) = l1 at h
      cases h with
      | nil => simp at hl
      | @snoc l2 _ _ e2 h hs =>
        have hl : (l ++ e :: l') ++ [e'] = l2 ++ [e2] := by simpa using hl
        obtain ⟨rfl, -⟩ := List.append_inj' hl rfl
        exact ih _ h
  refine ⟨L, ph, hw, he, ?_, ?_⟩
  · intro l t y l' hsp
    rw [hsp] at hl
    obtain ⟨z1, z2, h1, h2⟩ := split _ _ _ _ hl
    obtain ⟨hg, hlev⟩ := Legal.levels h1
    have key : ∀ t', unlocked t' l < locked t' l ↔ 0 < Spec.levels z1 t' := fun t' => by have := hlev t'; omega
    simp only [key]
    cases z1 with
    | none => obtain ⟨rfl, -⟩ := h2; simp [Spec.levels]
    | some p =>
      obtain ⟨o, d⟩ := p
      simp only [Spec.call] at h2
      simp only [Spec.Good] at hg
      by_cases e : o = t
      · rw [if_pos e] at h2
        obtain ⟨rfl, -⟩ := h2
        simp only [Bool.true_eq_false, false_iff, not_exists, not_and]
        intro t' ht'
        have : ¬ o = t' := fun h => ht' (by rw [← h, e])
        simp [Spec.levels, this]
      · rw [if_neg e] at h2
        obtain ⟨rfl, -⟩ := h2
        simp only [true_iff]
        exact ⟨o, e, by simpa [Spec.levels] using hg⟩
  · intro l t y l' hsp
    rw [hsp] at hl
    obtain ⟨z1, z2, h1, h2⟩ := split _ _ _ _ hl
    obtain ⟨hg, hlev⟩ := Legal.levels h1
    have := hlev t
    cases z1 with
    | none => exact h2.elim
    | some p =>
      obtain ⟨o, d⟩ := p
      obtain ⟨rfl, -⟩ := h2
      simp only [Spec.Good] at hg
      simp only [Spec.levels, if_true] at this
      omega

/-- When no call is running: thread `t` is the owner exactly if it locked the mutex more often than it unlocked it, `m_depth` is
the difference, and the mutex is free exactly if every thread unlocked it as often as it locked it. -/
theorem C41_released (h : Exec sys (body max) initial tr c) (ha : Follows (Spec.Allowed max) tr) (hi : c.Idle) :
    (∀ t, c.shared.owner = some t ↔ Spec.Holds tr t) ∧
      (∀ t, c.shared.owner = some t → c.shared.depth = (Spec.locks t tr : Int) - Spec.unlocks t tr) ∧
      (c.shared.owner = none ↔ ∀ t, Spec.locks t tr = Spec.unlocks t tr) ∧ (c.shared.owner = none → c.shared.depth = 0) := by
  obtain ⟨z, ph, hj⟩ := invariant h ha
  have hn : c.shared.holder = none := by
    by_contra hne
    obtain ⟨t, ht⟩ := Option.ne_none_iff_exists'.mp hne
    exact hj.held t ht (hi t)
  obtain ⟨h1, h2⟩ := hj.free hn
  have hb : ∀ t, Spec.levels z t + Spec.unlocks t tr = Spec.locks t tr := by
    intro t
    have := hj.bal t
    rw [hj.idle t (hi t)] at this
    exact this
  have hg := hj.good
  rw [h1, h2]
  cases z with
  | none =>
    simp only [Spec.owner, Spec.levels, Spec.depth, Spec.Holds] at hb ⊢
    refine ⟨fun t => ?_, (by intro t h; cases h), ?_, fun _ => trivial⟩
    · have := hb t; simp; omega
    · simp only [true_iff]; intro t; have := hb t; omega
  | some p =>
    obtain ⟨o, d⟩ := p
    simp only [Spec.owner, Spec.levels, Spec.depth, Spec.Holds, Spec.Good] at hb hg ⊢
    refine ⟨fun t => ?_, fun t h => ?_, ?_, fun h => by cases h⟩
    · have := hb t
      by_cases e : o = t
      · simp [e] at this ⊢; omega
      · simp [e] at this ⊢; omega
    · cases h
      have := hb o
      simp at this
      omega
    · simp only [reduceCtorEq, false_iff]
      intro h
      have := hb o
      have := h o
      simp at *
      omega

/-- No deadlock: whenever calls are running, some of them can take its next step. -/
theorem C41_no_deadlock (h : Exec sys (body max) initial tr c) (ha : Follows (Spec.Allowed max) tr) (hr : ¬ c.Idle) :
    ∃ t f, (∃ y, c.threads t = some (f, .ret y)) ∨ ∃ a k r s', c.threads t = some (f, .act a k) ∧ Does t a c.shared r s' := by
  obtain ⟨z, ph, hj⟩ := invariant h ha
  have go : ∀ t f p, c.threads t = some (f, p) → (c.shared.holder = none ∨ c.shared.holder = some t) →
      ∃ t f, (∃ y, c.threads t = some (f, .ret y)) ∨ ∃ a k r s', c.threads t = some (f, .act a k) ∧ Does t a c.shared r s' := by
    intro t f p ht hh
    refine ⟨t, f, ?_⟩
    obtain ⟨K, hrel, hok⟩ := hj.run t f p ht
    cases p with
    | ret y => exact Or.inl ⟨y, ht⟩
    | act a k =>
      right
      cases a with
      | lock =>
        have : c.shared.holder ≠ some t := hrel.out hok.1
        exact ⟨.lock, k, _, _, ht, .lock _ (hh.resolve_right this)⟩
      | unlock => exact ⟨_, k, _, _, ht, .unlock _⟩
      | getId => exact ⟨_, k, _, _, ht, .getId _⟩
      | rdOwner => exact ⟨_, k, _, _, ht, .rdOwner _⟩
      | wrOwner o => exact ⟨_, k, _, _, ht, .wrOwner _ _⟩
      | rdDepth => exact ⟨_, k, _, _, ht, .rdDepth _⟩
      | wrDepth d => exact ⟨_, k, _, _, ht, .wrDepth _ _⟩
      | undef => exact hok.1.elim
  cases hh : c.shared.holder with
  | none =>
    simp only [Config.Idle, not_forall] at hr
    obtain ⟨t, ht⟩ := hr
    obtain ⟨⟨f, p⟩, ht⟩ := Option.ne_none_iff_exists'.mp ht
    exact go t f p ht (Or.inl hh)
  | some t =>
    obtain ⟨⟨f, p⟩, ht⟩ := Option.ne_none_iff_exists'.mp (hj.held t hh)
    exact go t f p ht (Or.inr hh)

/-! ### A concrete case -/

/-- the trace: thread 0 locks, thread 1 fails to lock -/
def exampleTrace : List (Ev Op Bool) := [.inv 0 .tryLock, .ret 0 .tryLock true, .inv 1 .tryLock, .ret 1 .tryLock false]

/-- It can happen (with any positive limit of the depth), follows the rules, and thread 0 then holds the mutex. -/
theorem example_exec (hm : 0 < max) : (∃ c, Exec sys (body max) initial exampleTrace c ∧ c.Idle) ∧ Follows (Spec.Allowed max) exampleTrace ∧
    Spec.Holds exampleTrace 0 := by
  refine ⟨?_, ?_, ?_⟩
  · have e0 := (Exec.start (sys := sys) (body := body max) (c₀ := initial)).call (t := 0) rfl .tryLock
    have hm' : (0 : Int) + 1 ≤ max := by omega
    simp only [body, tryLock, initial] at e0
    have e1 := e0.goOn (.lock _ rfl)
    have e2 := (e1.goOn (.getId _)).goOn (.rdOwner _)
    have e3 := e2.goOn (.rdDepth _)
    have e4 := e3.goOn (.wrOwner _ _)
    have e5 := e4.goOn (.rdDepth _)
    replace e5 : Exec sys (body max) initial [.inv 0 .tryLock] ⟨⟨some 0, some 0, 0⟩, Function.update (fun _ => none) 0 (some (.tryLock,
      (do check (decide ((0 : Int) + 1 ≤ max)); wrDepth (0 + 1)) >>= fun _ => unlockM >>= fun _ => pure true))⟩ := e5
    simp only [decide_eq_true hm', check_true, Prog.pure_eq, Prog.ret_bind] at e5
    have e6 := ((e5.goOn (.wrDepth _ _)).goOn (.unlock _)).done
    have f0 := e6.call (t := 1) rfl .tryLock
    simp only [body, tryLock] at f0
    have f1 := f0.goOn (.lock _ rfl)
    have f2 := (f1.goOn (.getId _)).goOn (.rdOwner _)
    have f3 := f2.goOn (.rdOwner _)
    have f4 := (f3.goOn (.unlock _)).done
    refine ⟨_, f4, ?_⟩
    intro t
    by_cases h1 : t = 1
    · subst h1; simp
    · by_cases h0 : t = 0
      · subst h0; simp
      · simp [h1]
  · intro p t f q e
    rcases p with _ | ⟨_, _ | ⟨_, _ | ⟨_, _ | ⟨_, p⟩⟩⟩⟩ <;> simp [exampleTrace] at e
    · obtain ⟨⟨rfl, rfl⟩, -⟩ := e; simp [Spec.Allowed, Spec.locks, Spec.unlocks]; exact hm
    · obtain ⟨rfl, rfl, ⟨rfl, rfl⟩, -⟩ := e; simp [Spec.Allowed, Spec.locks, Spec.unlocks]; exact hm
  · simp [Spec.Holds, exampleTrace, Spec.locks, Spec.unlocks]

end Itlib.RecMutex
