import Verif.Conc.Core

/-!
# Calls that return

Infinite executions, fairness of the scheduler, and what follows for programs whose only waiting is for one lock.
-/
namespace Itlib.Conc

variable {A : Type} {R : A → Type} {S C Y : Type}

/-- the running call of thread `t` goes on: by its next action, or by returning -/
inductive Go (sys : Sys A R S) (t : Nat) : Config A R S C Y → Config A R S C Y → Prop where
  | act {c : Config A R S C Y} (f : C) (a : A) (k : R a → Prog A R Y) (r : R a) (s' : S)
      (h : c.threads t = some (f, .act a k)) (hs : sys.step t a c.shared r s') :
      Go sys t c ⟨s', Function.update c.threads t (some (f, k r))⟩
  | ret {c : Config A R S C Y} (f : C) (y : Y) (h : c.threads t = some (f, .ret y)) :
      Go sys t c ⟨c.shared, Function.update c.threads t none⟩

/-- An infinite execution: at each moment some thread takes a step or begins a call, or nothing happens. `tr i` is the trace
until moment `i`. -/
structure Forever (sys : Sys A R S) (body : C → Prog A R Y) (c₀ : Config A R S C Y) where
  at_ : Nat → Config A R S C Y
  tr : Nat → List (Ev C Y)
  start : at_ 0 = c₀ ∧ tr 0 = []
  next : ∀ i, (∃ e, Step sys body (at_ i) e (at_ (i + 1)) ∧ tr (i + 1) = tr i ++ e.toList) ∨
    (at_ (i + 1) = at_ i ∧ tr (i + 1) = tr i)

variable {sys : Sys A R S} {body : C → Prog A R Y} {c₀ : Config A R S C Y}

theorem Forever.exec (E : Forever sys body c₀) (i : Nat) : Exec sys body c₀ (E.tr i) (E.at_ i) := by
  induction i with
  | zero => rw [E.start.1, E.start.2]; exact .start
  | succ i ih =>
    rcases E.next i with ⟨e, hs, ht⟩ | ⟨h1, h2⟩
    · rw [ht]; exact ih.step hs
    · rw [h1, h2]; exact ih

/-- A call of `t` could go on. -/
def Able (sys : Sys A R S) (t : Nat) (c : Config A R S C Y) : Prop := ∃ c', Go sys t c c'

/-- Weak fairness: a call that could go on from some moment on, at all times, does go on. -/
def Forever.Weak (E : Forever sys body c₀) : Prop :=
  ∀ t i, (∀ j, i ≤ j → Able sys t (E.at_ j)) → ∃ j, i ≤ j ∧ Go sys t (E.at_ j) (E.at_ (j + 1))

/-- Strong fairness: a call that could go on again and again does go on. -/
def Forever.Strong (E : Forever sys body c₀) : Prop :=
  ∀ t i, (∀ j, i ≤ j → ∃ j', j ≤ j' ∧ Able sys t (E.at_ j')) → ∃ j, i ≤ j ∧ Go sys t (E.at_ j) (E.at_ (j + 1))

theorem Forever.Strong.weak {E : Forever sys body c₀} (h : E.Strong) : E.Weak :=
  fun t i ha => h t i fun j hj => ⟨j, Nat.le_refl _, ha j hj⟩

/-- at moment `j` the call `f` of thread `t` returns `y` -/
def Forever.Returns (E : Forever sys body c₀) (t : Nat) (j : Nat) (f : C) (y : Y) : Prop :=
  (E.at_ j).threads t = some (f, .ret y) ∧ (E.at_ (j + 1)).threads t = none ∧ E.tr (j + 1) = E.tr j ++ [.ret t f y]

/-- The waiting of a system: `lck` are the actions that take the lock, `holder` is who has it. The conditions are about
configurations that occur (`Inv`). -/
structure Lock (sys : Sys A R S) (Inv : Config A R S C Y → Prop) (lck : A → Prop) (holder : S → Option Nat) : Prop where
  /-- taking the lock is possible while it is free -/
  free : ∀ c t f a k, Inv c → c.threads t = some (f, .act a k) → lck a → holder c.shared = none → ∃ r s', sys.step t a c.shared r s'
  /-- and only then -/
  busy : ∀ t a s r s', lck a → sys.step t a s r s' → holder s = none
  /-- nothing else waits -/
  able : ∀ c t f a k, Inv c → c.threads t = some (f, .act a k) → ¬ lck a → ∃ r s', sys.step t a c.shared r s'
  /-- who has the lock is in a call, does not take it again and gives it back before it returns -/
  inside : ∀ c t, Inv c → holder c.shared = some t → ∃ f a k, c.threads t = some (f, .act a k) ∧ ¬ lck a
  /-- the lock is not taken from who has it -/
  keeps : ∀ c t t' f a k r s', Inv c → c.threads t' = some (f, .act a k) → sys.step t' a c.shared r s' → holder c.shared = some t →
    t' ≠ t → holder s' = some t
  /-- it gives it to nobody else -/
  gives : ∀ c t f a k r s', Inv c → c.threads t = some (f, .act a k) → sys.step t a c.shared r s' → holder c.shared = some t →
    holder s' = none ∨ holder s' = some t

theorem Prog.act_ne {a : A} {k : R a → Prog A R Y} {r : R a} : k r ≠ .act a k := by
  intro h
  have : ∀ (p : Prog A R Y) (a : A) (k : R a → Prog A R Y) (r : R a), p = .act a k → k r = p → False := by
    intro p
    induction p with
    | ret x => intro a k r h1 _; cases h1
    | act a' k' ih =>
      intro a k r h1 h2
      cases h1
      exact ih r a' k' r h2 rfl
  exact this _ a k r rfl h

variable {E : Forever sys body c₀}

/-- what a moment does to the call of thread `t`: nothing, or it goes on -/
theorem Forever.moment (E : Forever sys body c₀) {t i : Nat} {f : C} {p : Prog A R Y} (h : (E.at_ i).threads t = some (f, p)) :
    (E.at_ (i + 1)).threads t = some (f, p) ∨
    (∃ a k r, p = .act a k ∧ sys.step t a (E.at_ i).shared r (E.at_ (i + 1)).shared ∧
      (E.at_ (i + 1)).threads t = some (f, k r)) ∨
    (∃ y, p = .ret y ∧ E.Returns t i f y) := by
  rcases E.next i with ⟨e, hs, htr⟩ | ⟨h1, -⟩
  · generalize hc : E.at_ i = c at hs h
    generalize hc' : E.at_ (i + 1) = c' at hs
    cases hs with
    | inv t' f' ht' =>
      left
      have : t ≠ t' := by rintro rfl; rw [ht'] at h; cases h
      simpa [Function.update_of_ne this] using h
    | act t' f' a k r s' ht' hd =>
      by_cases e : t = t'
      · subst e
        rw [ht'] at h
        simp only [Option.some.injEq, Prod.mk.injEq] at h
        obtain ⟨rfl, rfl⟩ := h
        exact Or.inr (Or.inl ⟨a, k, r, rfl, hd, by simp⟩)
      · left; simpa [Function.update_of_ne e] using h
    | ret t' f' y ht' =>
      by_cases e : t = t'
      · subst e
        rw [ht'] at h
        simp only [Option.some.injEq, Prod.mk.injEq] at h
        obtain ⟨rfl, rfl⟩ := h
        exact Or.inr (Or.inr ⟨y, rfl, by rw [hc]; exact ht', by rw [hc']; simp, htr⟩)
      · left; simpa [Function.update_of_ne e] using h
  · left; rw [h1]; exact h

/-- if the call of `t` goes on, it is as `moment` says, and not unchanged -/
theorem Forever.goes (E : Forever sys body c₀) {t i : Nat} {f : C} {p : Prog A R Y} (h : (E.at_ i).threads t = some (f, p))
    (hg : Go sys t (E.at_ i) (E.at_ (i + 1))) : (E.at_ (i + 1)).threads t ≠ some (f, p) := by
  generalize E.at_ i = c at hg h
  generalize E.at_ (i + 1) = c' at hg
  cases hg with
  | act f' a k r s' ht hd =>
    rw [ht] at h
    simp only [Option.some.injEq, Prod.mk.injEq] at h
    obtain ⟨rfl, rfl⟩ := h
    simp only [Function.update_self, ne_eq, Option.some.injEq, Prod.mk.injEq, true_and]
    exact Prog.act_ne
  | ret f' y ht => simp

/-- A call whose next action can be done for as long as it is not done, gets further. -/
theorem Forever.further (hw : E.Weak) {t i : Nat} {f : C} {p : Prog A R Y} (h : (E.at_ i).threads t = some (f, p))
    (ha : ∀ j, i ≤ j → (E.at_ j).threads t = some (f, p) → Able sys t (E.at_ j)) :
    ∃ j, i ≤ j ∧ (E.at_ j).threads t = some (f, p) ∧
      ((∃ a k r, p = .act a k ∧ sys.step t a (E.at_ j).shared r (E.at_ (j + 1)).shared ∧
          (E.at_ (j + 1)).threads t = some (f, k r)) ∨
        ∃ y, p = .ret y ∧ E.Returns t j f y) := by
  by_cases hall : ∀ j, i ≤ j → (E.at_ j).threads t = some (f, p)
  · obtain ⟨j, hj, hg⟩ := hw t i fun j hj => ha j hj (hall j hj)
    exact absurd (hall (j + 1) (by omega)) (E.goes (hall j hj) hg)
  · -- the first moment at which it is no longer so
    have hex : ∃ n, (E.at_ (i + n)).threads t ≠ some (f, p) := by
      by_contra hn
      refine hall fun j hj => ?_
      have := (not_exists.1 hn) (j - i)
      rw [show i + (j - i) = j by omega] at this
      exact Classical.not_not.1 this
    have first : ∀ n, (E.at_ (i + n)).threads t ≠ some (f, p) →
        ∃ j, i ≤ j ∧ (E.at_ j).threads t = some (f, p) ∧ (E.at_ (j + 1)).threads t ≠ some (f, p) := by
      intro n
      induction n with
      | zero => intro hn; exact absurd h hn
      | succ n ih =>
        intro hn
        by_cases hq : (E.at_ (i + n)).threads t = some (f, p)
        · exact ⟨i + n, by omega, hq, hn⟩
        · exact ih hq
    obtain ⟨n, hn⟩ := hex
    obtain ⟨j, hj, h1, h2⟩ := first n hn
    refine ⟨j, hj, h1, ?_⟩
    rcases E.moment h1 with h3 | h3 | h3
    · exact absurd h3 h2
    · exact Or.inl h3
    · exact Or.inr h3

theorem able_ret {t : Nat} {c : Config A R S C Y} {f : C} {y : Y} (h : c.threads t = some (f, .ret y)) : Able sys t c :=
  ⟨_, .ret f y h⟩

variable {Inv : Config A R S C Y → Prop} {lck : A → Prop} {holder : S → Option Nat}

theorem Lock.able_act (L : Lock sys Inv lck holder) {t : Nat} {c : Config A R S C Y} {f : C} {a : A} {k : R a → Prog A R Y}
    (hi : Inv c) (h : c.threads t = some (f, .act a k)) (ha : ¬ lck a ∨ holder c.shared = none) : Able sys t c := by
  by_cases hl : lck a
  · obtain ⟨r, s', hs⟩ := L.free c t f a k hi h hl (ha.resolve_left (fun n => n hl))
    exact ⟨_, .act f a k r s' h hs⟩
  · obtain ⟨r, s', hs⟩ := L.able c t f a k hi h hl
    exact ⟨_, .act f a k r s' h hs⟩

/-- who has the lock keeps it until it goes on -/
theorem Lock.stays (L : Lock sys Inv lck holder) (hi : ∀ i, Inv (E.at_ i)) {t i : Nat} (h : holder (E.at_ i).shared = some t) :
    holder (E.at_ (i + 1)).shared = some t ∨ holder (E.at_ (i + 1)).shared = none := by
  rcases E.next i with ⟨e, hs, -⟩ | ⟨h1, -⟩
  · have hI := hi i
    generalize E.at_ i = c at hs h hI
    generalize E.at_ (i + 1) = c' at hs
    cases hs with
    | inv t' f' ht' => exact Or.inl h
    | ret t' f' y ht' => exact Or.inl h
    | act t' f' a k r s' ht' hd =>
      by_cases e : t' = t
      · subst e; exact (L.gives c t' f' a k r s' hI ht' hd h).symm
      · exact Or.inl (L.keeps c t t' f' a k r s' hI ht' hd h e)
  · rw [h1]; exact Or.inl h

/-- the lock becomes free -/
theorem Lock.released (L : Lock sys Inv lck holder) (hi : ∀ i, Inv (E.at_ i)) (hw : E.Weak) (i : Nat) :
    ∃ j, i ≤ j ∧ holder (E.at_ j).shared = none := by
  by_contra hn
  have hn : ∀ j, i ≤ j → holder (E.at_ j).shared ≠ none := fun j hj h => hn ⟨j, hj, h⟩
  cases hh : holder (E.at_ i).shared with
  | none => exact hn i (Nat.le_refl _) hh
  | some t =>
    have hall : ∀ j, i ≤ j → holder (E.at_ j).shared = some t := by
      intro j hj
      obtain ⟨d, rfl⟩ := Nat.exists_eq_add_of_le hj
      induction d with
      | zero => exact hh
      | succ d ih => exact (L.stays hi (ih (by omega))).resolve_right (hn (i + d + 1) (by omega))
    have go : ∀ (p : Prog A R Y) (f : C) j, i ≤ j → (E.at_ j).threads t = some (f, p) → False := by
      intro p
      induction p with
      | ret y =>
        intro f j hj h
        obtain ⟨f', a, k, h', -⟩ := L.inside _ t (hi j) (hall j hj)
        rw [h] at h'; cases h'
      | act a k ih =>
        intro f j hj h
        obtain ⟨j', hj', h1, h2⟩ := Forever.further hw h (fun j' hj' h' => by
          obtain ⟨f2, a2, k2, h2, h3⟩ := L.inside _ t (hi j') (hall j' (by omega))
          exact L.able_act (hi j') h2 (Or.inl h3))
        rcases h2 with ⟨a', k', r, e, -, h3⟩ | ⟨y, e, -⟩
        · cases e; exact ih r f (j' + 1) (by omega) h3
        · cases e
    obtain ⟨f, a, k, h, -⟩ := L.inside _ t (hi i) hh
    exact go _ f i (Nat.le_refl _) h

/-- **Under strong fairness every call returns.** -/
theorem Lock.returns (L : Lock sys Inv lck holder) (hi : ∀ i, Inv (E.at_ i)) (hs : E.Strong) {t i : Nat} {f : C} {p : Prog A R Y}
    (h : (E.at_ i).threads t = some (f, p)) : ∃ j y, i ≤ j ∧ E.Returns t j f y := by
  induction p generalizing i with
  | ret y =>
    obtain ⟨j, hj, -, h1⟩ := Forever.further hs.weak h fun j _ h' => able_ret h'
    rcases h1 with ⟨a, k, r, e, -⟩ | ⟨y', -, h2⟩
    · cases e
    · exact ⟨j, y', hj, h2⟩
  | act a k ih =>
    have step : ∃ j r, i ≤ j ∧ (E.at_ (j + 1)).threads t = some (f, k r) := by
      by_cases hall : ∀ j, i ≤ j → (E.at_ j).threads t = some (f, .act a k)
      · obtain ⟨j, hj, hg⟩ := hs t i fun j hj => by
          obtain ⟨j', hj', hf⟩ := L.released hi hs.weak j
          exact ⟨j', hj', L.able_act (hi j') (hall j' (by omega)) (Or.inr hf)⟩
        exact absurd (hall (j + 1) (by omega)) (E.goes (hall j hj) hg)
      · have hex : ∃ n, (E.at_ (i + n)).threads t ≠ some (f, .act a k) := by
          by_contra hn
          refine hall fun j hj => ?_
          have := (not_exists.1 hn) (j - i)
          rw [show i + (j - i) = j by omega] at this
          exact Classical.not_not.1 this
        have first : ∀ n, (E.at_ (i + n)).threads t ≠ some (f, .act a k) →
            ∃ j, i ≤ j ∧ (E.at_ j).threads t = some (f, .act a k) ∧ (E.at_ (j + 1)).threads t ≠ some (f, .act a k) := by
          intro n
          induction n with
          | zero => intro hn; exact absurd h hn
          | succ n ih =>
            intro hn
            by_cases hq : (E.at_ (i + n)).threads t = some (f, .act a k)
            · exact ⟨i + n, by omega, hq, hn⟩
            · exact ih hq
        obtain ⟨n, hn⟩ := hex
        obtain ⟨j, hj, h1, h2⟩ := first n hn
        rcases E.moment h1 with h3 | ⟨a', k', r, e, -, h3⟩ | ⟨y, e, -⟩
        · exact absurd h3 h2
        · cases e; exact ⟨j, r, hj, h3⟩
        · cases e
    obtain ⟨j, r, hj, h1⟩ := step
    obtain ⟨j', y, hj', h2⟩ := ih r h1
    exact ⟨j', y, by omega, h2⟩

/-- code that does not take the lock -/
def NoLock (lck : A → Prop) : Prog A R Y → Prop
  | .ret _ => True
  | .act a k => ¬ lck a ∧ ∀ r, NoLock lck (k r)

/-- **A call that never waits returns**, under weak fairness. -/
theorem Forever.returns (hable : ∀ i t f a k, (E.at_ i).threads t = some (f, .act a k) → ¬ lck a → ∃ r s', sys.step t a (E.at_ i).shared r s')
    (hw : E.Weak) {t i : Nat} {f : C} {p : Prog A R Y} (h : (E.at_ i).threads t = some (f, p)) (hp : NoLock lck p) :
    ∃ j y, i ≤ j ∧ E.Returns t j f y := by
  induction p generalizing i with
  | ret y =>
    obtain ⟨j, hj, -, h1⟩ := Forever.further hw h fun j _ h' => able_ret h'
    rcases h1 with ⟨a, k, r, e, -⟩ | ⟨y', -, h2⟩
    · cases e
    · exact ⟨j, y', hj, h2⟩
  | act a k ih =>
    obtain ⟨j, hj, -, h1⟩ := Forever.further hw h fun j _ h' => by
      obtain ⟨r, s', hs⟩ := hable j t f a k h' hp.1
      exact ⟨_, .act f a k r s' h' hs⟩
    rcases h1 with ⟨a', k', r, e, -, h2⟩ | ⟨y', e, -⟩
    · cases e
      obtain ⟨j', y, hj', h3⟩ := ih r h2 (hp.2 r)
      exact ⟨j', y, by omega, h3⟩
    · cases e

/-- a call that no longer needs the lock returns -/
theorem Lock.returns_noLock (L : Lock sys Inv lck holder) (hi : ∀ i, Inv (E.at_ i)) (hw : E.Weak) {t i : Nat} {f : C}
    {p : Prog A R Y} (h : (E.at_ i).threads t = some (f, p)) (hp : NoLock lck p) : ∃ j y, i ≤ j ∧ E.Returns t j f y :=
  Forever.returns (fun i t f a k h ha => L.able _ t f a k (hi i) h ha) hw h hp

/-- **Under weak fairness some call returns.** `hheld`: whoever has the lock does not need it again. -/
theorem Lock.some_returns (L : Lock sys Inv lck holder) (hi : ∀ i, Inv (E.at_ i)) (hw : E.Weak)
    (hheld : ∀ i t f p, holder (E.at_ i).shared = some t → (E.at_ i).threads t = some (f, p) → NoLock lck p)
    {t i : Nat} {f : C} {p : Prog A R Y} (h : (E.at_ i).threads t = some (f, p)) :
    ∃ j t' f' y, i ≤ j ∧ E.Returns t' j f' y := by
  have held : ∀ j t', holder (E.at_ j).shared = some t' → ∃ j' f' y, j ≤ j' ∧ E.Returns t' j' f' y := by
    intro j t' hh
    obtain ⟨f', a, k, h', -⟩ := L.inside _ t' (hi j) hh
    obtain ⟨j', y, hj', h2⟩ := L.returns_noLock hi hw h' (hheld j t' f' _ hh h')
    exact ⟨j', f', y, hj', h2⟩
  induction p generalizing i with
  | ret y =>
    obtain ⟨j, y, hj, h1⟩ := L.returns_noLock hi hw h trivial
    exact ⟨j, t, f, y, hj, h1⟩
  | act a k ih =>
    by_cases hn : ∃ j t', i ≤ j ∧ holder (E.at_ j).shared = some t'
    · obtain ⟨j, t', hj, hh⟩ := hn
      obtain ⟨j', f', y, hj', h1⟩ := held j t' hh
      exact ⟨j', t', f', y, by omega, h1⟩
    · have hfree : ∀ j, i ≤ j → holder (E.at_ j).shared = none := by
        intro j hj
        cases hh : holder (E.at_ j).shared with
        | none => rfl
        | some t' => exact absurd ⟨j, t', hj, hh⟩ hn
      obtain ⟨j, hj, -, h1⟩ := Forever.further hw h fun j hj h' => L.able_act (hi j) h' (Or.inr (hfree j hj))
      rcases h1 with ⟨a', k', r, e, -, h2⟩ | ⟨y', e, -⟩
      · cases e
        obtain ⟨j', t', f', y, hj', h3⟩ := ih r h2
        exact ⟨j', t', f', y, by omega, h3⟩
      · cases e

/-! ### Code that brackets one critical section -/

/-- the code in the critical section: it gives the lock back once, and does not take it again -/
def Held (lck unl : A → Prop) : Prog A R Y → Prop
  | .ret _ => False
  | .act a k => ¬ lck a ∧ (unl a → ∀ r, NoLock (fun a => lck a ∨ unl a) (k r)) ∧ (¬ unl a → ∀ r, Held lck unl (k r))

/-- code that takes the lock at most once, and gives it back before it returns -/
def Out (lck unl : A → Prop) : Prog A R Y → Prop
  | .ret _ => True
  | .act a k => ¬ unl a ∧ (lck a → ∀ r, Held lck unl (k r)) ∧ (¬ lck a → ∀ r, Out lck unl (k r))

/-- the actions on the lock -/
structure Acts (sys : Sys A R S) (lck unl : A → Prop) (holder : S → Option Nat) : Prop where
  free : ∀ t a s, lck a → holder s = none → ∃ r s', sys.step t a s r s'
  take : ∀ t a s r s', lck a → sys.step t a s r s' → holder s = none ∧ holder s' = some t
  give : ∀ t a s r s', unl a → sys.step t a s r s' → holder s' = none
  rest : ∀ t a s r s', ¬ lck a → ¬ unl a → sys.step t a s r s' → holder s' = holder s

variable {unl : A → Prop}

theorem NoLock.out {p : Prog A R Y} (h : NoLock (fun a => lck a ∨ unl a) p) : Out lck unl p := by
  induction p with
  | ret y => trivial
  | act a k ih => exact ⟨fun hu => h.1 (Or.inr hu), fun hl => absurd (Or.inl hl) h.1, fun _ r => ih r (h.2 r)⟩

theorem NoLock.mono {lck' : A → Prop} {p : Prog A R Y} (h : NoLock lck' p) (hm : ∀ a, lck a → lck' a) : NoLock lck p := by
  induction p with
  | ret y => trivial
  | act a k ih => exact ⟨fun hl => h.1 (hm a hl), fun r => ih r (h.2 r)⟩

theorem Held.noLock {p : Prog A R Y} (h : Held lck unl p) : NoLock lck p := by
  induction p with
  | ret y => trivial
  | act a k ih =>
    refine ⟨h.1, fun r => ?_⟩
    by_cases hu : unl a
    · exact (h.2.1 hu r).mono fun a ha => Or.inl ha
    · exact ih r (h.2.2 hu r)

/-- who holds the lock is in its critical section, and the others are not -/
structure Bracketed (lck unl : A → Prop) (holder : S → Option Nat) (c : Config A R S C Y) : Prop where
  run : ∀ t f p, c.threads t = some (f, p) → if holder c.shared = some t then Held lck unl p else Out lck unl p
  held : ∀ t, holder c.shared = some t → c.threads t ≠ none

theorem Bracketed.step (ha : Acts sys lck unl holder) (hb : ∀ f, Out lck unl (body f)) {c c' : Config A R S C Y}
    {e : Option (Ev C Y)} (h : Bracketed lck unl holder c) (hs : Step sys body c e c') : Bracketed lck unl holder c' := by
  cases hs with
  | inv t f ht =>
    refine ⟨fun t' f' p hp => ?_, fun t' hh => ?_⟩
    · by_cases e : t' = t
      · subst e
        simp only [Function.update_self, Option.some.injEq, Prod.mk.injEq] at hp
        obtain ⟨rfl, rfl⟩ := hp
        rw [if_neg fun hh => h.held t' hh ht]
        exact hb f
      · simp only [Function.update_of_ne e] at hp
        exact h.run t' f' p hp
    · by_cases e : t' = t
      · subst e; simp
      · simpa [Function.update_of_ne e] using h.held t' hh
  | ret t f y ht =>
    have hn : holder c.shared ≠ some t := by
      intro hh
      have := h.run t f _ ht
      rw [if_pos hh] at this
      exact this
    refine ⟨fun t' f' p hp => ?_, fun t' hh => ?_⟩
    · by_cases e : t' = t
      · subst e; simp at hp
      · simp only [Function.update_of_ne e] at hp
        exact h.run t' f' p hp
    · by_cases e : t' = t
      · subst e; exact absurd hh hn
      · simpa [Function.update_of_ne e] using h.held t' hh
  | act t f a k r s' ht hd =>
    have h0 := h.run t f _ ht
    -- the thread itself
    have h1 : if holder s' = some t then Held lck unl (k r) else Out lck unl (k r) := by
      by_cases hh : holder c.shared = some t
      · rw [if_pos hh] at h0
        by_cases hu : unl a
        · rw [ha.give t a _ r s' hu hd, if_neg (by simp)]
          exact (h0.2.1 hu r).out
        · rw [ha.rest t a _ r s' h0.1 hu hd, if_pos hh]
          exact h0.2.2 hu r
      · rw [if_neg hh] at h0
        by_cases hl : lck a
        · rw [(ha.take t a _ r s' hl hd).2, if_pos rfl]
          exact h0.2.1 hl r
        · rw [ha.rest t a _ r s' hl h0.1 hd, if_neg hh]
          exact h0.2.2 hl r
    -- the others
    have h2 : ∀ t', t' ≠ t → (holder s' = some t' ↔ holder c.shared = some t') := by
      intro t' hne
      by_cases hl : lck a
      · obtain ⟨h3, h4⟩ := ha.take t a _ r s' hl hd
        rw [h3, h4]
        simp only [Option.some.injEq, reduceCtorEq, iff_false]
        exact fun e => hne e.symm
      · by_cases hu : unl a
        · rw [ha.give t a _ r s' hu hd]
          simp only [reduceCtorEq, false_iff]
          intro hh
          rw [if_neg (by rw [hh]; simpa using hne)] at h0
          exact h0.1 hu
        · rw [ha.rest t a _ r s' hl hu hd]
    refine ⟨fun t' f' p hp => ?_, fun t' hh => ?_⟩
    · by_cases e : t' = t
      · subst e
        simp only [Function.update_self, Option.some.injEq, Prod.mk.injEq] at hp
        obtain ⟨rfl, rfl⟩ := hp
        exact h1
      · simp only [Function.update_of_ne e] at hp
        have := h.run t' f' p hp
        by_cases hh : holder c.shared = some t'
        · rw [if_pos hh] at this; rw [if_pos ((h2 t' e).2 hh)]; exact this
        · rw [if_neg hh] at this; rw [if_neg fun h3 => hh ((h2 t' e).1 h3)]; exact this
    · by_cases e : t' = t
      · subst e; simp
      · simpa [Function.update_of_ne e] using h.held t' ((h2 t' e).1 hh)

theorem Bracketed.exec (ha : Acts sys lck unl holder) (hb : ∀ f, Out lck unl (body f)) (h0 : Bracketed lck unl holder c₀)
    {tr : List (Ev C Y)} {c : Config A R S C Y} (h : Exec sys body c₀ tr c) : Bracketed lck unl holder c := by
  induction h with
  | start => exact h0
  | step _ hs ih => exact ih.step ha hb hs

/-- Bracketed code waits for the lock only, and the lock is not kept. -/
theorem Acts.lock (ha : Acts sys lck unl holder)
    (hable : ∀ c t f a k, Inv c → c.threads t = some (f, .act a k) → ¬ lck a → ∃ r s', sys.step t a c.shared r s')
    (hi : ∀ c, Inv c → Bracketed lck unl holder c) : Lock (C := C) (Y := Y) sys Inv lck holder where
  free := fun c t f a k _ _ hl hh => ha.free t a c.shared hl hh
  busy := fun t a s r s' hl hs => (ha.take t a s r s' hl hs).1
  able := hable
  inside := fun c t hI hh => by
    have h := hi c hI
    obtain ⟨⟨f, p⟩, hp⟩ := Option.ne_none_iff_exists'.mp (h.held t hh)
    have h1 := h.run t f p hp
    rw [if_pos hh] at h1
    cases p with
    | ret y => exact absurd h1 (by simp [Held])
    | act a k => exact ⟨f, a, k, hp, h1.1⟩
  keeps := fun c t t' f a k r s' hI ht hs hh hne => by
    have h1 := (hi c hI).run t' f _ ht
    rw [if_neg (by rw [hh]; simpa using fun e => hne e.symm)] at h1
    by_cases hl : lck a
    · have := (ha.take t' a _ r s' hl hs).1
      rw [hh] at this; cases this
    · rw [ha.rest t' a _ r s' hl h1.1 hs]; exact hh
  gives := fun c t f a k r s' hI ht hs hh => by
    have h1 := (hi c hI).run t f _ ht
    rw [if_pos hh] at h1
    by_cases hu : unl a
    · exact Or.inl (ha.give t a _ r s' hu hs)
    · exact Or.inr (by rw [ha.rest t a _ r s' h1.1 hu hs]; exact hh)

/-! ### Executions that come to rest -/

/-- the execution in which nothing happens -/
def Forever.rest (sys : Sys A R S) (body : C → Prog A R Y) (c₀ : Config A R S C Y) : Forever sys body c₀ :=
  ⟨fun _ => c₀, fun _ => [], ⟨rfl, rfl⟩, fun _ => Or.inr ⟨rfl, rfl⟩⟩

theorem Forever.tr_mono (E : Forever sys body c₀) {i j : Nat} (h : i ≤ j) : E.tr i <+: E.tr j := by
  obtain ⟨d, rfl⟩ := Nat.exists_eq_add_of_le h
  induction d with
  | zero => exact List.prefix_refl _
  | succ d ih =>
    refine (ih (by omega)).trans ?_
    rw [show i + (d + 1) = i + d + 1 from rfl]
    rcases E.next (i + d) with ⟨e, -, h⟩ | ⟨-, h⟩
    · rw [h]; exact List.prefix_append ..
    · rw [h]; exact List.prefix_refl _

/-- An execution at rest since moment `n` can go on. -/
theorem Forever.extend (E : Forever sys body c₀) {n : Nat} {c c' : Config A R S C Y} {tr₀ tr : List (Ev C Y)}
    (hn : ∀ i, n ≤ i → E.at_ i = c ∧ E.tr i = tr₀) (h : Exec sys body c tr c') :
    ∃ (E' : Forever sys body c₀) (n' : Nat), n ≤ n' ∧ (∀ i, i ≤ n → E'.at_ i = E.at_ i) ∧
      ∀ i, n' ≤ i → E'.at_ i = c' ∧ E'.tr i = tr₀ ++ tr := by
  induction h with
  | start => exact ⟨E, n, Nat.le_refl _, fun _ _ => rfl, by simpa using hn⟩
  | @step tr c₁ c₂ e h hs ih =>
    obtain ⟨E', n', h0, h1, h2⟩ := ih
    refine ⟨⟨fun i => if i ≤ n' then E'.at_ i else c₂, fun i => if i ≤ n' then E'.tr i else E'.tr n' ++ e.toList, ?_, ?_⟩,
      n' + 1, by omega, fun i hi => ?_, fun i hi => ?_⟩
    · simpa using E'.start
    · intro i
      by_cases h3 : i + 1 ≤ n'
      · simp only [if_pos (show i ≤ n' by omega), if_pos h3]; exact E'.next i
      · by_cases h4 : i = n'
        · subst h4
          simp only [Nat.le_refl, if_true, if_neg h3]
          exact Or.inl ⟨e, by rw [(h2 i (Nat.le_refl _)).1]; exact hs, rfl⟩
        · exact Or.inr (by simp only [if_neg h3, if_neg (show ¬ i ≤ n' by omega)]; exact ⟨trivial, trivial⟩)
    · simp only [if_pos (show i ≤ n' by omega)]; exact h1 i hi
    · simp only [if_neg (show ¬ i ≤ n' by omega), (h2 n' (Nat.le_refl _)).2, List.append_assoc]
      exact ⟨trivial, trivial⟩

theorem Forever.strong_of_rest (E : Forever sys body c₀) {n : Nat} {c : Config A R S C Y} (hn : ∀ i, n ≤ i → E.at_ i = c)
    (hc : ∀ t, ¬ Able sys t c) : E.Strong := by
  intro t i h
  obtain ⟨j, hj, hg⟩ := h (max i n) (Nat.le_max_left ..)
  rw [hn j (by omega)] at hg
  exact absurd hg (hc t)

theorem Config.Idle.not_able {c : Config A R S C Y} (h : c.Idle) (t : Nat) : ¬ Able sys t c := by
  rintro ⟨c', hg⟩
  cases hg with
  | act f a k r s' ht hs => rw [h t] at ht; cases ht
  | ret f y ht => rw [h t] at ht; cases ht

/-- An execution can stop where no call can go on. -/
theorem Forever.exists_stop {c : Config A R S C Y} {tr : List (Ev C Y)} (h : Exec sys body c₀ tr c) (hc : ∀ t, ¬ Able sys t c) :
    ∃ E : Forever sys body c₀, E.Strong ∧ (∀ i, E.tr i <+: tr) ∧ ∃ n, ∀ i, n ≤ i → E.at_ i = c := by
  obtain ⟨E, n, -, -, h2⟩ := (Forever.rest sys body c₀).extend (n := 0) (tr₀ := []) (fun _ _ => ⟨rfl, rfl⟩) h
  rw [List.nil_append] at h2
  refine ⟨E, E.strong_of_rest (fun i hi => (h2 i hi).1) hc, fun i => ?_, n, fun i hi => (h2 i hi).1⟩
  rw [← (h2 (i + n) (by omega)).2]
  exact E.tr_mono (by omega)

/-- A call that is made and finishes is a call in a strongly fair execution. -/
theorem Forever.exists_strong {c c' : Config A R S C Y} {tr tr' : List (Ev C Y)} (h : Exec sys body c₀ tr c) (h' : Exec sys body c tr' c')
    (hc : c'.Idle) : ∃ E : Forever sys body c₀, E.Strong ∧ (∀ i, E.tr i <+: tr ++ tr') ∧ ∃ i, E.at_ i = c := by
  obtain ⟨E, n, -, -, h2⟩ := (Forever.rest sys body c₀).extend (n := 0) (tr₀ := []) (fun _ _ => ⟨rfl, rfl⟩) h
  rw [List.nil_append] at h2
  obtain ⟨E', n', h3, h4, h5⟩ := E.extend h2 h'
  refine ⟨E', E'.strong_of_rest (fun i hi => (h5 i hi).1) hc.not_able, fun i => ?_, n, by rw [h4 n (Nat.le_refl _), (h2 n (Nat.le_refl _)).1]⟩
  rw [← (h5 (i + n') (by omega)).2]
  exact E'.tr_mono (by omega)

end Itlib.Conc
