import Verif.Conc.Core
import Verif.Core.Tac
import Mathlib.Data.List.Perm.Basic
import Mathlib.Data.List.Nodup

/-!
# Linearizability

A trace is linearizable if one can insert, for every call, one instant between call and return at which it takes effect
(`LEv.lin`), so that the sequence of these instants is a legal sequential history.
-/
namespace Itlib.Conc

/-- events of a trace with the instants -/
inductive LEv (C Y : Type) where
  | inv (t : Nat) (c : C)
  | lin (t : Nat) (c : C) (y : Y)
  | ret (t : Nat) (c : C) (y : Y)

variable {A : Type} {R : A → Type} {S C Y Z : Type}

/-- without the instants -/
def erase : List (LEv C Y) → List (Ev C Y)
  | [] => []
  | .inv t c :: l => .inv t c :: erase l
  | .lin _ _ _ :: l => erase l
  | .ret t c y :: l => .ret t c y :: erase l

/-- the instants: who, which call, which result -/
def lins : List (LEv C Y) → List (Nat × C × Y)
  | [] => []
  | .inv _ _ :: l => lins l
  | .lin t c y :: l => (t, c, y) :: lins l
  | .ret _ _ _ :: l => lins l

/-- calls of a trace -/
def invs : List (Ev C Y) → List (Nat × C)
  | [] => []
  | .inv t c :: l => (t, c) :: invs l
  | .ret _ _ _ :: l => invs l

/-- returns of a trace -/
def rets : List (Ev C Y) → List (Nat × C × Y)
  | [] => []
  | .inv _ _ :: l => rets l
  | .ret t c y :: l => (t, c, y) :: rets l

/-- state of a thread -/
inductive Phase (C Y : Type) where
  | idle
  | pending (c : C)
  | done (c : C) (y : Y)

/-- every thread does: call, instant, return with the instant's result, and again -/
inductive Wf : List (LEv C Y) → (Nat → Phase C Y) → Prop where
  | nil : Wf [] fun _ => .idle
  | inv {l : List (LEv C Y)} {ph : Nat → Phase C Y} (t : Nat) (c : C) (h : Wf l ph) (hp : ph t = .idle) :
      Wf (l ++ [.inv t c]) (Function.update ph t (.pending c))
  | lin {l : List (LEv C Y)} {ph : Nat → Phase C Y} (t : Nat) (c : C) (y : Y) (h : Wf l ph) (hp : ph t = .pending c) :
      Wf (l ++ [.lin t c y]) (Function.update ph t (.done c y))
  | ret {l : List (LEv C Y)} {ph : Nat → Phase C Y} (t : Nat) (c : C) (y : Y) (h : Wf l ph) (hp : ph t = .done c y) :
      Wf (l ++ [.ret t c y]) (Function.update ph t .idle)

/-- a legal sequential history: from `z` to `z'` -/
inductive Legal (spec : Z → Nat × C × Y → Z → Prop) (z : Z) : List (Nat × C × Y) → Z → Prop where
  | nil : Legal spec z [] z
  | snoc {l : List (Nat × C × Y)} {z' z'' : Z} {e : Nat × C × Y} (h : Legal spec z l z') (hs : spec z' e z'') : Legal spec z (l ++ [e]) z''

/-- The trace is linearizable: some placement of instants is a legal sequential history. -/
def Linearizable (spec : Z → Nat × C × Y → Z → Prop) (z : Z) (tr : List (Ev C Y)) : Prop :=
  ∃ L ph z', Wf L ph ∧ erase L = tr ∧ Legal spec z (lins L) z'

theorem erase_append (l l' : List (LEv C Y)) : erase (l ++ l') = erase l ++ erase l' := by
  induction l with
  | nil => rfl
  | cons e l ih => cases e <;> simp [erase, ih]

theorem lins_append (l l' : List (LEv C Y)) : lins (l ++ l') = lins l ++ lins l' := by
  induction l with
  | nil => rfl
  | cons e l ih => cases e <;> simp [lins, ih]

theorem invs_append (l l' : List (Ev C Y)) : invs (l ++ l') = invs l ++ invs l' := by
  induction l with
  | nil => rfl
  | cons e l ih => cases e <;> simp [invs, ih]

theorem rets_append (l l' : List (Ev C Y)) : rets (l ++ l') = rets l ++ rets l' := by
  induction l with
  | nil => rfl
  | cons e l ih => cases e <;> simp [rets, ih]

/-- The calls are those that took effect and those that did not yet; each thread has at most one of the latter. -/
theorem Wf.invs_perm {L : List (LEv C Y)} {ph : Nat → Phase C Y} (h : Wf L ph) :
    ∃ pend : List (Nat × C), (invs (erase L)).Perm ((lins L).map (fun e => (e.1, e.2.1)) ++ pend) ∧ (∀ t c, (t, c) ∈ pend ↔ ph t = .pending c) ∧
      pend.Nodup := by
  induction h with
  | nil => exact ⟨[], by simp [erase, invs, lins], by simp, by simp⟩
  | @inv l ph t c h hp ih =>
    obtain ⟨pend, h1, h2, h3⟩ := ih
    refine ⟨pend ++ [(t, c)], ?_, ?_, ?_⟩
    · simp only [erase_append, invs_append, lins_append, erase, invs, lins, List.append_nil, ← List.append_assoc]
      exact h1.append_right _
    · intro t' c'
      by_cases ht : t' = t
      · subst ht
        simp only [List.mem_append, h2, hp, Function.update_self, List.mem_singleton, Prod.mk.injEq, true_and]
        constructor
        · rintro (h | h)
          · cases h
          · rw [h]
        · intro h; right; cases h; rfl
      · simp [h2, ht]
    · refine List.Nodup.append h3 (by simp) ?_
      intro x hx hx'
      simp only [List.mem_singleton] at hx'
      subst hx'
      rw [h2, hp] at hx
      cases hx
  | @lin l ph t c y h hp ih =>
    obtain ⟨pend, h1, h2, h3⟩ := ih
    have hmem : (t, c) ∈ pend := (h2 t c).mpr hp
    obtain ⟨a, b, rfl⟩ := List.append_of_mem hmem
    have hnd : (t, c) ∉ a ++ b := by
      have := (List.perm_middle (a := (t, c)) (l₁ := a) (l₂ := b)).nodup_iff.mp h3
      exact (List.nodup_cons.mp this).1
    refine ⟨a ++ b, ?_, ?_, ?_⟩
    · simp only [erase_append, lins_append, erase, lins, List.append_nil, List.map_append, List.map_cons, List.map_nil]
      refine h1.trans ?_
      refine (List.Perm.append_left _ List.perm_middle).trans ?_
      simp
    · intro t' c'
      by_cases ht : t' = t
      · subst ht
        simp only [Function.update_self]
        constructor
        · intro h
          have hc := (h2 t' c').mp (by simp only [List.mem_append, List.mem_cons] at h ⊢; tauto)
          rw [hp] at hc
          cases hc
          exact absurd h hnd
        · intro h; cases h
      · rw [Function.update_of_ne ht, ← h2]
        simp [ht]
    · exact ((List.perm_middle.nodup_iff.mp h3).of_cons)
  | @ret l ph t c y h hp ih =>
    obtain ⟨pend, h1, h2, h3⟩ := ih
    refine ⟨pend, ?_, ?_, h3⟩
    · simpa only [erase_append, invs_append, lins_append, erase, invs, lins, List.append_nil] using h1
    · intro t' c'
      by_cases ht : t' = t
      · subst ht
        rw [h2, hp, Function.update_self]
        constructor <;> (intro h; cases h)
      · rw [Function.update_of_ne ht, h2]

/-- What was returned is what took effect, with the same result, except for calls that did not return yet. -/
theorem Wf.rets_perm {L : List (LEv C Y)} {ph : Nat → Phase C Y} (h : Wf L ph) :
    ∃ dn : List (Nat × C × Y), (lins L).Perm (rets (erase L) ++ dn) ∧ (∀ t c y, (t, c, y) ∈ dn ↔ ph t = .done c y) ∧ dn.Nodup := by
  induction h with
  | nil => exact ⟨[], by simp [erase, rets, lins], by simp, by simp⟩
  | @inv l ph t c h hp ih =>
    obtain ⟨dn, h1, h2, h3⟩ := ih
    refine ⟨dn, ?_, ?_, h3⟩
    · simpa only [erase_append, rets_append, lins_append, erase, rets, lins, List.append_nil] using h1
    · intro t' c' y'
      by_cases ht : t' = t
      · subst ht
        rw [h2, hp, Function.update_self]
        constructor <;> (intro h; cases h)
      · rw [Function.update_of_ne ht, h2]
  | @lin l ph t c y h hp ih =>
    obtain ⟨dn, h1, h2, h3⟩ := ih
    refine ⟨dn ++ [(t, c, y)], ?_, ?_, ?_⟩
    · simp only [erase_append, lins_append, erase, lins, List.append_nil, ← List.append_assoc]
      exact h1.append_right _
    · intro t' c' y'
      by_cases ht : t' = t
      · subst ht
        simp only [List.mem_append, h2, hp, Function.update_self, List.mem_singleton, Prod.mk.injEq, true_and]
        constructor
        · rintro (h | h)
          · cases h
          · rw [h.1, h.2]
        · intro h; right; cases h; exact ⟨rfl, rfl⟩
      · simp [h2, ht]
    · refine List.Nodup.append h3 (by simp) ?_
      intro x hx hx'
      simp only [List.mem_singleton] at hx'
      subst hx'
      rw [h2, hp] at hx
      cases hx
  | @ret l ph t c y h hp ih =>
    obtain ⟨dn, h1, h2, h3⟩ := ih
    have hmem : (t, c, y) ∈ dn := (h2 t c y).mpr hp
    obtain ⟨a, b, rfl⟩ := List.append_of_mem hmem
    have hnd : (t, c, y) ∉ a ++ b := by
      have := (List.perm_middle (a := (t, c, y)) (l₁ := a) (l₂ := b)).nodup_iff.mp h3
      exact (List.nodup_cons.mp this).1
    refine ⟨a ++ b, ?_, ?_, ?_⟩
    · simp only [erase_append, rets_append, lins_append, erase, rets, lins, List.append_nil]
      refine h1.trans ?_
      refine (List.Perm.append_left _ List.perm_middle).trans ?_
      simp
    · intro t' c' y'
      by_cases ht : t' = t
      · subst ht
        simp only [Function.update_self]
        constructor
        · intro h
          have hc := (h2 t' c' y').mp (by simp only [List.mem_append, List.mem_cons] at h ⊢; tauto)
          rw [hp] at hc
          cases hc
          exact absurd h hnd
        · intro h; cases h
      · rw [Function.update_of_ne ht, ← h2]
        simp [ht]
    · exact ((List.perm_middle.nodup_iff.mp h3).of_cons)

/-! ### Simulation -/

/-- A relation between configurations, states of the sequential specification and phases, kept by all steps. -/
structure Sim (sys : Sys A R S) (body : C → Prog A R Y) (spec : Z → Nat × C × Y → Z → Prop)
    (J : Config A R S C Y → Z → (Nat → Phase C Y) → Prop) : Prop where
  inv : ∀ c z ph t f, J c z ph → c.threads t = none →
    ph t = .idle ∧ J ⟨c.shared, Function.update c.threads t (some (f, body f))⟩ z (Function.update ph t (.pending f))
  act : ∀ c z ph t f a k r s', J c z ph → c.threads t = some (f, .act a k) → sys.step t a c.shared r s' →
    J ⟨s', Function.update c.threads t (some (f, k r))⟩ z ph ∨
    ∃ y z', ph t = .pending f ∧ spec z (t, f, y) z' ∧ J ⟨s', Function.update c.threads t (some (f, k r))⟩ z' (Function.update ph t (.done f y))
  ret : ∀ c z ph t f y, J c z ph → c.threads t = some (f, .ret y) →
    ph t = .done f y ∧ J ⟨c.shared, Function.update c.threads t none⟩ z (Function.update ph t .idle)

theorem Sim.exec {sys : Sys A R S} {body : C → Prog A R Y} {spec : Z → Nat × C × Y → Z → Prop}
    {J : Config A R S C Y → Z → (Nat → Phase C Y) → Prop} (hs : Sim sys body spec J) {c₀ : Config A R S C Y} {z₀ : Z}
    (h₀ : J c₀ z₀ fun _ => .idle) {tr : List (Ev C Y)} {c : Config A R S C Y} (h : Exec sys body c₀ tr c) :
    ∃ L ph z, Wf L ph ∧ erase L = tr ∧ Legal spec z₀ (lins L) z ∧ J c z ph := by
  induction h with
  | start => exact ⟨[], _, z₀, .nil, rfl, .nil, h₀⟩
  | @step tr c c' e _ st ih =>
    obtain ⟨L, ph, z, hw, he, hl, hj⟩ := ih
    cases st with
    | inv t f h =>
      obtain ⟨hp, hj'⟩ := hs.inv _ _ _ t f hj h
      refine ⟨L ++ [.inv t f], _, z, .inv t f hw hp, ?_, ?_, hj'⟩
      · simp [erase_append, he, erase]
      · simpa [lins_append, lins] using hl
    | act t f a k r s' h hst =>
      rcases hs.act _ _ _ t f a k r s' hj h hst with hj' | ⟨y, z', hp, hsp, hj'⟩
      · exact ⟨L, ph, z, hw, by simp [he], hl, hj'⟩
      · refine ⟨L ++ [.lin t f y], _, z', .lin t f y hw hp, ?_, ?_, hj'⟩
        · simp [erase_append, he, erase]
        · simp only [lins_append, lins]
          exact .snoc hl hsp
    | ret t f y h =>
      obtain ⟨hp, hj'⟩ := hs.ret _ _ _ t f y hj h
      refine ⟨L ++ [.ret t f y], _, z, .ret t f y hw hp, ?_, ?_, hj'⟩
      · simp [erase_append, he, erase]
      · simpa [lins_append, lins] using hl

/-! ### Simulation for clients that follow rules -/

/-- Every call in the trace was allowed when it was made. -/
def Follows (allowed : List (Ev C Y) → Nat → C → Prop) (tr : List (Ev C Y)) : Prop :=
  ∀ p t f q, tr = p ++ [.inv t f] ++ q → allowed p t f

theorem Follows.init {allowed : List (Ev C Y) → Nat → C → Prop} {tr tr' : List (Ev C Y)} (h : Follows allowed (tr ++ tr')) : Follows allowed tr := by
  intro p t f q e
  exact h p t f (q ++ tr') (by rw [e]; simp)

theorem Follows.inv {allowed : List (Ev C Y) → Nat → C → Prop} {tr : List (Ev C Y)} (h : Follows allowed tr) {t : Nat} {f : C} (ha : allowed tr t f) :
    Follows allowed (tr ++ [.inv t f]) := by
  intro p t' f' q e
  rcases List.eq_nil_or_concat q with rfl | ⟨q', x, rfl⟩
  · simp at e
    obtain ⟨rfl, rfl, rfl⟩ := e
    exact ha
  · rw [List.concat_eq_append, ← List.append_assoc] at e
    obtain ⟨h1, -⟩ := List.append_inj' e rfl
    exact h p t' f' q' h1

theorem Follows.ret {allowed : List (Ev C Y) → Nat → C → Prop} {tr : List (Ev C Y)} (h : Follows allowed tr) (t : Nat) (f : C) (y : Y) :
    Follows allowed (tr ++ [.ret t f y]) := by
  intro p t' f' q e
  rcases List.eq_nil_or_concat q with rfl | ⟨q', x, rfl⟩
  · simp at e
  · rw [List.concat_eq_append, ← List.append_assoc] at e
    obtain ⟨h1, -⟩ := List.append_inj' e rfl
    exact h p t' f' q' h1

theorem Follows.nil {allowed : List (Ev C Y) → Nat → C → Prop} : Follows allowed [] := by
  intro p t f q e
  simp at e

/-- A relation between traces, configurations, states of the specification and phases, kept by all steps of clients that only make
allowed calls. -/
structure SimT (sys : Sys A R S) (body : C → Prog A R Y) (spec : Z → Nat × C × Y → Z → Prop) (allowed : List (Ev C Y) → Nat → C → Prop)
    (J : List (Ev C Y) → Config A R S C Y → Z → (Nat → Phase C Y) → Prop) : Prop where
  inv : ∀ tr c z ph t f, J tr c z ph → c.threads t = none → allowed tr t f →
    ph t = .idle ∧ J (tr ++ [.inv t f]) ⟨c.shared, Function.update c.threads t (some (f, body f))⟩ z (Function.update ph t (.pending f))
  act : ∀ tr c z ph t f a k r s', J tr c z ph → c.threads t = some (f, .act a k) → sys.step t a c.shared r s' →
    J tr ⟨s', Function.update c.threads t (some (f, k r))⟩ z ph ∨
    ∃ y z', ph t = .pending f ∧ spec z (t, f, y) z' ∧ J tr ⟨s', Function.update c.threads t (some (f, k r))⟩ z' (Function.update ph t (.done f y))
  ret : ∀ tr c z ph t f y, J tr c z ph → c.threads t = some (f, .ret y) →
    ph t = .done f y ∧ J (tr ++ [.ret t f y]) ⟨c.shared, Function.update c.threads t none⟩ z (Function.update ph t .idle)

theorem SimT.exec {sys : Sys A R S} {body : C → Prog A R Y} {spec : Z → Nat × C × Y → Z → Prop} {allowed : List (Ev C Y) → Nat → C → Prop}
    {J : List (Ev C Y) → Config A R S C Y → Z → (Nat → Phase C Y) → Prop} (hs : SimT sys body spec allowed J) {c₀ : Config A R S C Y} {z₀ : Z}
    (h₀ : J [] c₀ z₀ fun _ => .idle) {tr : List (Ev C Y)} {c : Config A R S C Y} (h : Exec sys body c₀ tr c) (ha : Follows allowed tr) :
    ∃ L ph z, Wf L ph ∧ erase L = tr ∧ Legal spec z₀ (lins L) z ∧ J tr c z ph := by
  induction h with
  | start => exact ⟨[], _, z₀, .nil, rfl, .nil, h₀⟩
  | @step tr c c' e _ st ih =>
    obtain ⟨L, ph, z, hw, he, hl, hj⟩ := ih ha.init
    cases st with
    | inv t f h =>
      obtain ⟨hp, hj'⟩ := hs.inv _ _ _ _ t f hj h (ha tr t f [] (by simp))
      refine ⟨L ++ [.inv t f], _, z, .inv t f hw hp, ?_, ?_, hj'⟩
      · simp [erase_append, he, erase]
      · simpa [lins_append, lins] using hl
    | act t f a k r s' h hst =>
      simp only [Option.toList_none, List.append_nil]
      rcases hs.act _ _ _ _ t f a k r s' hj h hst with hj' | ⟨y, z', hp, hsp, hj'⟩
      · exact ⟨L, ph, z, hw, he, hl, hj'⟩
      · refine ⟨L ++ [.lin t f y], _, z', .lin t f y hw hp, ?_, ?_, hj'⟩
        · simp [erase_append, he, erase]
        · simp only [lins_append, lins]
          exact .snoc hl hsp
    | ret t f y h =>
      obtain ⟨hp, hj'⟩ := hs.ret _ _ _ _ t f y hj h
      refine ⟨L ++ [.ret t f y], _, z, .ret t f y hw hp, ?_, ?_, hj'⟩
      · simp [erase_append, he, erase]
      · simpa [lins_append, lins] using hl

end Itlib.Conc
