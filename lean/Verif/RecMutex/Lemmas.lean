import Verif.RecMutex.Spec
import Verif.Core.Tac

namespace Itlib.RecMutex
open Itlib.Conc

/-! ### Traces -/
namespace Spec

theorem locks_append (t : Nat) (l l' : List (Ev Op Bool)) : locks t (l ++ l') = locks t l + locks t l' := by
  induction l with
  | nil => simp [locks]
  | cons e l ih =>
    rcases e with ⟨t', f⟩ | ⟨t', f, y⟩
    · simpa [locks] using ih
    · cases f <;> cases y <;> simp [locks, ih, Nat.add_assoc]

theorem unlocks_append (t : Nat) (l l' : List (Ev Op Bool)) : unlocks t (l ++ l') = unlocks t l + unlocks t l' := by
  induction l with
  | nil => simp [unlocks]
  | cons e l ih =>
    rcases e with ⟨t', f⟩ | ⟨t', f, y⟩
    · cases f <;> simp [unlocks, ih, Nat.add_assoc]
    · simpa [unlocks] using ih

/-- depths are positive -/
def Good : Z → Prop
  | none => True
  | some (_, d) => 0 < d

/-- the members in a free or owned mutex -/
def owner : Z → Option Nat
  | none => none
  | some (o, _) => some o

def depth : Z → Int
  | none => 0
  | some (_, d) => d

theorem call_good {z z' : Z} {e : Nat × Op × Bool} (h : call z e z') (hz : Good z) : Good z' := by
  obtain ⟨t, f, y⟩ := e
  cases f <;> cases z with
  | none => first | exact h.elim | (obtain ⟨-, rfl⟩ := h; exact Nat.one_pos)
  | some p =>
    obtain ⟨o, d⟩ := p
    simp only [call] at h
    first
    | (split at h
       · obtain ⟨-, rfl⟩ := h; exact Nat.succ_pos d
       · obtain ⟨-, rfl⟩ := h; exact hz)
    | (obtain ⟨-, -, rfl⟩ := h
       simp only [Good] at hz
       split
       · trivial
       · simp only [Good]; omega)

theorem call_other {z z' : Z} {t t' : Nat} {f : Op} {y : Bool} (h : call z (t, f, y) z') (ht : t' ≠ t) : levels z' t' = levels z t' := by
  have ht' : t ≠ t' := fun e => ht e.symm
  cases f <;> cases z with
  | none => first | exact h.elim | (obtain ⟨-, rfl⟩ := h; simp [levels, ht'])
  | some p =>
    obtain ⟨o, d⟩ := p
    simp only [call] at h
    first
    | (split at h
       · rename_i e; subst e; obtain ⟨-, rfl⟩ := h; simp [levels, ht']
       · obtain ⟨-, rfl⟩ := h; rfl)
    | (obtain ⟨rfl, -, rfl⟩ := h
       split <;> simp [levels, ht'])

/-- change of the caller's levels from `n` to `n'` -/
def Change : Op → Bool → Nat → Nat → Prop
  | .tryLock, true, n, n' => n' = n + 1
  | .tryLock, false, n, n' => n' = n
  | .unlock, _, n, n' => n' + 1 = n

theorem call_self {z z' : Z} {t : Nat} {f : Op} {y : Bool} (h : call z (t, f, y) z') (hz : Good z) : Change f y (levels z t) (levels z' t) := by
  cases f with
  | tryLock =>
    cases z with
    | none => obtain ⟨rfl, rfl⟩ := h; simp [levels, Change]
    | some p =>
      obtain ⟨o, d⟩ := p
      simp only [call] at h
      by_cases e : o = t
      · rw [if_pos e] at h; obtain ⟨rfl, rfl⟩ := h; simp [levels, e, Change]
      · rw [if_neg e] at h; obtain ⟨rfl, rfl⟩ := h; simp [Change]
  | unlock =>
    cases z with
    | none => exact h.elim
    | some p =>
      obtain ⟨o, d⟩ := p
      obtain ⟨rfl, -, rfl⟩ := h
      simp only [Good] at hz
      by_cases e : d = 1
      · simp [levels, e, Change]
      · simp [levels, e, Change]; omega

/-- how the levels of a thread follow from the trace -/
def Bal (t : Nat) (tr : List (Ev Op Bool)) (n : Nat) : Phase Op Bool → Prop
  | .idle => n + unlocks t tr = locks t tr
  | .pending .tryLock => n + unlocks t tr = locks t tr
  | .pending .unlock => n + unlocks t tr = locks t tr + 1
  | .done .tryLock true => n + unlocks t tr = locks t tr + 1
  | .done _ _ => n + unlocks t tr = locks t tr

theorem Bal.of_eq {t : Nat} {tr tr' : List (Ev Op Bool)} {n : Nat} {φ : Phase Op Bool} (h : Bal t tr n φ) (h1 : locks t tr' = locks t tr)
    (h2 : unlocks t tr' = unlocks t tr) : Bal t tr' n φ := by
  rcases φ with _ | f | ⟨f, y⟩
  · simp only [Bal] at h ⊢; omega
  · cases f <;> simp only [Bal] at h ⊢ <;> omega
  · cases f <;> cases y <;> simp only [Bal] at h ⊢ <;> omega

end Spec

/-! ### What a thread knows -/

/-- Knowledge of a thread: its levels, when it holds the internal mutex the members and the state of the specification, and how
far the call is. -/
structure Know where
  mine : Nat
  cs : Option (Option Nat × Int × Spec.Z)
  ph : Phase Op Bool

/-- the knowledge is true -/
structure Rel (t : Nat) (K : Know) (s : St) (z : Spec.Z) (φ : Phase Op Bool) : Prop where
  mine : Spec.levels z t = K.mine
  ph : φ = K.ph
  out : K.cs = none → s.holder ≠ some t
  held : ∀ o d v, K.cs = some (o, d, v) → s.holder = some t ∧ s.owner = o ∧ s.depth = d ∧ z = v

/-- doing `a` is defined -/
def Pre : Act → Know → Prop
  | .lock, K => K.cs = none
  | .unlock, K => ∃ v, K.cs = some (Spec.owner v, Spec.depth v, v)
  | .getId, _ => True
  | .undef, _ => False
  | _, K => K.cs ≠ none

/-- the knowledge after doing `a` with result `r` -/
def Post (t : Nat) : (a : Act) → Know → a.Res → Know → Prop
  | .lock, K, _, K' => ∃ v, Spec.Good v ∧ Spec.levels v t = K.mine ∧ K' = { K with cs := some (Spec.owner v, Spec.depth v, v) }
  | .unlock, K, _, K' => K' = { K with cs := none }
  | .getId, K, r, K' => K' = K ∧ r = t
  | .rdOwner, K, r, K' => K' = K ∧ ∃ o d v, K.cs = some (o, d, v) ∧ r = o
  | .wrOwner o, K, _, K' => ∃ o' d v, K.cs = some (o', d, v) ∧ K' = { K with cs := some (o, d, v) }
  | .rdDepth, K, r, K' => K' = K ∧ ∃ o d v, K.cs = some (o, d, v) ∧ r = d
  | .wrDepth d, K, _, K' => ∃ o d' v, K.cs = some (o, d', v) ∧ K' = { K with cs := some (o, d, v) }
  | .undef, _, _, _ => False

/-- the call takes effect now -/
def Lin (t : Nat) (f : Op) (K K' : Know) : Prop :=
  ∃ y o d z z', K.ph = .pending f ∧ K.cs = some (o, d, z) ∧ Spec.call z (t, f, y) z' ∧
    K' = { mine := Spec.levels z' t, cs := some (o, d, z'), ph := .done f y }

/-- The rest `p` of a call of `t` is fine with knowledge `K`: nothing undefined, takes effect once. -/
def Ok (t : Nat) (f : Op) : P Bool → Know → Prop
  | .ret y, K => K.cs = none ∧ K.ph = .done f y
  | .act a k, K => Pre a K ∧ ∀ r K', Post t a K r K' → ∃ K'', (K'' = K' ∨ Lin t f K' K'') ∧ Ok t f (k r) K''

/-- simulation relation -/
structure J (tr : List (Ev Op Bool)) (c : Config Act Act.Res St Op Bool) (z : Spec.Z) (ph : Nat → Phase Op Bool) : Prop where
  good : Spec.Good z
  free : c.shared.holder = none → c.shared.owner = Spec.owner z ∧ c.shared.depth = Spec.depth z
  held : ∀ t, c.shared.holder = some t → c.threads t ≠ none
  idle : ∀ t, c.threads t = none → ph t = .idle
  bal : ∀ t, Spec.Bal t tr (Spec.levels z t) (ph t)
  run : ∀ t f p, c.threads t = some (f, p) → ∃ K, Rel t K c.shared z (ph t) ∧ Ok t f p K

/-! ### Steps -/

/-- what a step of thread `t` leaves alone -/
structure Frame (t : Nat) (s s' : St) : Prop where
  holder : ∀ t', t' ≠ t → (s'.holder = some t' ↔ s.holder = some t')
  words : s.holder ≠ some t → s'.owner = s.owner ∧ s'.depth = s.depth

theorem Frame.refl (t : Nat) (s : St) : Frame t s s := ⟨fun _ _ => Iff.rfl, fun _ => ⟨rfl, rfl⟩⟩

theorem step_ok {t : Nat} {K : Know} {s : St} {z : Spec.Z} {φ : Phase Op Bool} {a : Act} {r : a.Res} {s' : St} (hr : Rel t K s z φ)
    (hp : Pre a K) (hz : Spec.Good z) (hfree : s.holder = none → s.owner = Spec.owner z ∧ s.depth = Spec.depth z) (hd : Does t a s r s') :
    (∃ K', Post t a K r K' ∧ Rel t K' s' z φ) ∧ Frame t s s' ∧
      (s'.holder = none → s'.owner = Spec.owner z ∧ s'.depth = Spec.depth z) ∧ ∀ t', s'.holder = some t' → s.holder = some t' ∨ t' = t := by
  cases hd with
  | lock _ h =>
    refine ⟨⟨_, ⟨z, hz, hr.mine, rfl⟩, ?_⟩, ?_, ?_, ?_⟩
    · obtain ⟨h1, h2⟩ := hfree h
      refine ⟨hr.mine, hr.ph, by simp, ?_⟩
      intro o d v hcs
      simp only [Option.some.injEq, Prod.mk.injEq] at hcs
      obtain ⟨rfl, rfl, rfl⟩ := hcs
      exact ⟨rfl, h1, h2, rfl⟩
    · exact ⟨fun t' ht => by simp [h]; exact fun e => ht e.symm, fun _ => ⟨rfl, rfl⟩⟩
    · intro h; cases h
    · intro t' h; right; cases h; rfl
  | unlock _ =>
    obtain ⟨v, hcs⟩ := hp
    obtain ⟨h1, h2, h3, rfl⟩ := hr.held _ _ _ hcs
    refine ⟨⟨_, rfl, ?_⟩, ?_, fun _ => ⟨h2, h3⟩, ?_⟩
    · exact ⟨hr.mine, hr.ph, by simp, by intro _ _ _ h; cases h⟩
    · exact ⟨fun t' ht => by simp [h1]; exact fun e => ht e.symm, fun _ => ⟨rfl, rfl⟩⟩
    · intro t' h; cases h
  | getId _ => exact ⟨⟨K, ⟨rfl, rfl⟩, hr⟩, .refl _ _, hfree, fun _ h => Or.inl h⟩
  | rdOwner _ =>
    obtain ⟨⟨o, d, v⟩, hcs⟩ := Option.ne_none_iff_exists'.mp hp
    obtain ⟨h1, h2, h3, h4⟩ := hr.held _ _ _ hcs
    exact ⟨⟨K, ⟨rfl, o, d, v, hcs, h2⟩, hr⟩, .refl _ _, hfree, fun _ h => Or.inl h⟩
  | rdDepth _ =>
    obtain ⟨⟨o, d, v⟩, hcs⟩ := Option.ne_none_iff_exists'.mp hp
    obtain ⟨h1, h2, h3, h4⟩ := hr.held _ _ _ hcs
    exact ⟨⟨K, ⟨rfl, o, d, v, hcs, h3⟩, hr⟩, .refl _ _, hfree, fun _ h => Or.inl h⟩
  | wrOwner _ o =>
    obtain ⟨⟨o', d, v⟩, hcs⟩ := Option.ne_none_iff_exists'.mp hp
    obtain ⟨h1, h2, h3, h4⟩ := hr.held _ _ _ hcs
    refine ⟨⟨_, ⟨o', d, v, hcs, rfl⟩, ?_⟩, ?_, ?_, fun _ h => Or.inl h⟩
    · refine ⟨hr.mine, hr.ph, by simp, ?_⟩
      intro o1 d1 v1 h
      simp only [Option.some.injEq, Prod.mk.injEq] at h
      obtain ⟨rfl, rfl, rfl⟩ := h
      exact ⟨h1, rfl, h3, h4⟩
    · exact ⟨fun _ _ => Iff.rfl, fun h => absurd h1 h⟩
    · intro h; simp [h1] at h
  | wrDepth _ d =>
    obtain ⟨⟨o, d', v⟩, hcs⟩ := Option.ne_none_iff_exists'.mp hp
    obtain ⟨h1, h2, h3, h4⟩ := hr.held _ _ _ hcs
    refine ⟨⟨_, ⟨o, d', v, hcs, rfl⟩, ?_⟩, ?_, ?_, fun _ h => Or.inl h⟩
    · refine ⟨hr.mine, hr.ph, by simp, ?_⟩
      intro o1 d1 v1 h
      simp only [Option.some.injEq, Prod.mk.injEq] at h
      obtain ⟨rfl, rfl, rfl⟩ := h
      exact ⟨h1, h2, rfl, h4⟩
    · exact ⟨fun _ _ => Iff.rfl, fun h => absurd h1 h⟩
    · intro h; simp [h1] at h

theorem not_bad {t : Nat} {K : Know} {s : St} {z : Spec.Z} {φ : Phase Op Bool} {a : Act} (hr : Rel t K s z φ) (hp : Pre a K) : ¬ Bad t a s := by
  have hold : K.cs ≠ none → s.holder = some t := by
    intro h
    obtain ⟨⟨p, q, v⟩, hcs⟩ := Option.ne_none_iff_exists'.mp h
    exact (hr.held _ _ _ hcs).1
  cases a with
  | lock => exact hr.out hp
  | unlock => obtain ⟨v, hcs⟩ := hp; exact fun h => h (hold (by simp [hcs]))
  | getId => exact fun h => h
  | undef => exact hp.elim
  | rdOwner => exact fun h => h (hold hp)
  | rdDepth => exact fun h => h (hold hp)
  | wrOwner o => exact fun h => h (hold hp)
  | wrDepth d => exact fun h => h (hold hp)

/-- knowledge of other threads survives -/
theorem Rel.other {t t' : Nat} {K : Know} {s s' : St} {z : Spec.Z} {φ : Phase Op Bool} (h : Rel t' K s z φ) (hf : Frame t s s') (ht : t' ≠ t) :
    Rel t' K s' z φ := by
  refine ⟨h.mine, h.ph, ?_, ?_⟩
  · intro hc; rw [Ne, hf.holder t' ht]; exact h.out hc
  · intro o d v hcs
    obtain ⟨h1, h2, h3, h4⟩ := h.held o d v hcs
    obtain ⟨h5, h6⟩ := hf.words (by rw [h1]; intro e; cases e; exact ht rfl)
    exact ⟨(hf.holder t' ht).mpr h1, by rw [h5]; exact h2, by rw [h6]; exact h3, h4⟩

theorem J.step {tr : List (Ev Op Bool)} {c : Config Act Act.Res St Op Bool} {z : Spec.Z} {ph : Nat → Phase Op Bool} (h : J tr c z ph) {t : Nat}
    {f : Op} {a : Act} {k : a.Res → P Bool} {r : a.Res} {s' : St} (ht : c.threads t = some (f, .act a k)) (hd : Does t a c.shared r s') :
    J tr ⟨s', Function.update c.threads t (some (f, k r))⟩ z ph ∨
    ∃ y z', s'.holder = some t ∧ ph t = .pending f ∧ Spec.call z (t, f, y) z' ∧
      J tr ⟨s', Function.update c.threads t (some (f, k r))⟩ z' (Function.update ph t (.done f y)) := by
  obtain ⟨K, hr, hpre, hok⟩ := h.run t f _ ht
  obtain ⟨⟨K', hpost, hr'⟩, hf, hfree, hh⟩ := step_ok hr hpre h.good h.free hd
  obtain ⟨K'', hk, hok'⟩ := hok r K' hpost
  have hheld : ∀ t', s'.holder = some t' → Function.update c.threads t (some (f, k r)) t' ≠ none := by
    intro t' ht'
    by_cases e : t' = t
    · subst e; simp
    · rw [Function.update_of_ne e]
      rcases hh t' ht' with h1 | h1
      · exact h.held t' h1
      · exact absurd h1 e
  rcases hk with rfl | hlin
  · left
    refine ⟨h.good, hfree, hheld, ?_, h.bal, ?_⟩
    · intro t' ht'
      by_cases e : t' = t
      · subst e; simp at ht'
      · simp only [Function.update_of_ne e] at ht'
        exact h.idle t' ht'
    · intro t' f' p' ht'
      by_cases e : t' = t
      · subst e
        simp only [Function.update_self, Option.some.injEq, Prod.mk.injEq] at ht'
        obtain ⟨rfl, rfl⟩ := ht'
        exact ⟨K'', hr', hok'⟩
      · simp only [Function.update_of_ne e] at ht'
        obtain ⟨K1, h1, h2⟩ := h.run t' f' p' ht'
        exact ⟨K1, h1.other hf e, h2⟩
  · right
    obtain ⟨y, o, d, z₁, z', hp, hcs, hcall, rfl⟩ := hlin
    obtain ⟨h1, h2, h3, rfl⟩ := hr'.held _ _ _ hcs
    have hpt : ph t = .pending f := by rw [hr'.ph]; exact hp
    refine ⟨y, z', h1, hpt, hcall, Spec.call_good hcall h.good, ?_, hheld, ?_, ?_, ?_⟩
    · intro hn; simp [h1] at hn
    · intro t' ht'
      by_cases e : t' = t
      · subst e; simp at ht'
      · simp only [Function.update_of_ne e] at ht' ⊢
        exact h.idle t' ht'
    · intro t'
      by_cases e : t' = t
      · subst e
        have hb := h.bal t'
        rw [hpt] at hb
        have hc := Spec.call_self hcall h.good
        simp only [Function.update_self]
        cases f <;> cases y <;> simp only [Spec.Bal, Spec.Change] at hb hc ⊢ <;> omega
      · simp only [Function.update_of_ne e]
        rw [Spec.call_other hcall e]
        exact h.bal t'
    · intro t' f' p' ht'
      by_cases e : t' = t
      · subst e
        simp only [Function.update_self, Option.some.injEq, Prod.mk.injEq] at ht' ⊢
        obtain ⟨rfl, rfl⟩ := ht'
        refine ⟨_, ⟨rfl, rfl, by simp, ?_⟩, hok'⟩
        intro o1 d1 v1 h4
        simp only [Option.some.injEq, Prod.mk.injEq] at h4
        obtain ⟨rfl, rfl, rfl⟩ := h4
        exact ⟨h1, h2, h3, rfl⟩
      · simp only [Function.update_of_ne e] at ht' ⊢
        obtain ⟨K1, h4, h5⟩ := h.run t' f' p' ht'
        have h6 := h4.other hf e
        refine ⟨K1, ⟨by rw [Spec.call_other hcall e]; exact h6.mine, h6.ph, h6.out, ?_⟩, h5⟩
        intro o1 d1 v1 h7
        have := (h6.held o1 d1 v1 h7).1
        rw [h1] at this
        cases this
        exact absurd rfl e

/-- how many levels the caller needs -/
def Enough (max : Nat) : Op → Nat → Prop
  | .tryLock, n => n < max
  | .unlock, n => 0 < n

theorem sim {max : Nat} (hb : ∀ t f n, Enough max f n → Ok t f (body max f) ⟨n, none, .pending f⟩) :
    SimT sys (body max) Spec.call (Spec.Allowed max) J where
  inv := by
    intro tr c z ph t f h ht ha
    have hi := h.idle t ht
    have hbal := h.bal t
    rw [hi] at hbal
    refine ⟨hi, h.good, h.free, ?_, ?_, ?_, ?_⟩
    · intro t' ht'
      by_cases e : t' = t
      · subst e; simp
      · simp only [Function.update_of_ne e]; exact h.held t' ht'
    · intro t' ht'
      by_cases e : t' = t
      · subst e; simp at ht'
      · simp only [Function.update_of_ne e] at ht' ⊢; exact h.idle t' ht'
    · intro t'
      by_cases e : t' = t
      · subst e
        simp only [Function.update_self]
        cases f <;> simp only [Spec.Bal, Spec.locks_append, Spec.unlocks_append, Spec.locks, Spec.unlocks, if_true] at hbal ⊢ <;> omega
      · simp only [Function.update_of_ne e]
        have e' : ¬ t = t' := fun h => e h.symm
        refine (h.bal t').of_eq ?_ ?_
        · simp [Spec.locks_append, Spec.locks]
        · cases f <;> simp [Spec.unlocks_append, Spec.unlocks, e']
    · intro t' f' p' ht'
      by_cases e : t' = t
      · subst e
        simp only [Function.update_self, Option.some.injEq, Prod.mk.injEq] at ht' ⊢
        obtain ⟨rfl, rfl⟩ := ht'
        refine ⟨_, ⟨rfl, rfl, ?_, by intro _ _ _ h; cases h⟩, hb t' f (Spec.levels z t') ?_⟩
        · intro _ hh; exact h.held t' hh ht
        · cases f <;> simp only [Enough, Spec.Allowed, Spec.Bal] at ha hbal ⊢ <;> omega
      · simp only [Function.update_of_ne e] at ht' ⊢
        exact h.run t' f' p' ht'
  act := by
    intro tr c z ph t f a k r s' h ht hst
    exact (h.step ht hst).imp id fun ⟨y, z', _, h'⟩ => ⟨y, z', h'⟩
  ret := by
    intro tr c z ph t f y h ht
    obtain ⟨K, hr, hcs, hph⟩ := h.run t f _ ht
    have hpt : ph t = .done f y := by rw [hr.ph]; exact hph
    have hbal := h.bal t
    rw [hpt] at hbal
    refine ⟨hpt, h.good, h.free, ?_, ?_, ?_, ?_⟩
    · intro t' ht'
      by_cases e : t' = t
      · subst e; exact absurd ht' (hr.out hcs)
      · simp only [Function.update_of_ne e]; exact h.held t' ht'
    · intro t' ht'
      by_cases e : t' = t
      · subst e; simp
      · simp only [Function.update_of_ne e] at ht' ⊢; exact h.idle t' ht'
    · intro t'
      by_cases e : t' = t
      · subst e
        simp only [Function.update_self]
        cases f <;> cases y <;>
          simp only [Spec.Bal, Spec.locks_append, Spec.unlocks_append, Spec.locks, Spec.unlocks, if_true] at hbal ⊢ <;> omega
      · simp only [Function.update_of_ne e]
        have e' : ¬ t = t' := fun h => e h.symm
        refine (h.bal t').of_eq ?_ ?_
        · cases f <;> cases y <;> simp [Spec.locks_append, Spec.locks, e']
        · simp [Spec.unlocks_append, Spec.unlocks]
    · intro t' f' p' ht'
      by_cases e : t' = t
      · subst e; simp at ht'
      · simp only [Function.update_of_ne e] at ht' ⊢
        exact h.run t' f' p' ht'

/-! ### Rules -/
section
variable {t : Nat} {f : Op} {K : Know} {o : Option Nat} {d : Int} {v : Spec.Z} {n : Nat} {φ : Phase Op Bool}

theorem ok_lock {k : Unit → P Bool} (h : ∀ v, Spec.Good v → Spec.levels v t = n → Ok t f (k ()) ⟨n, some (Spec.owner v, Spec.depth v, v), φ⟩) :
    Ok t f (lock >>= k) ⟨n, none, φ⟩ := by
  refine ⟨rfl, ?_⟩
  rintro r K' ⟨v, hv, hl, rfl⟩
  exact ⟨_, Or.inl rfl, h v hv hl⟩

/-- the call takes effect with `lock` -/
theorem ok_unlock {k : Unit → P Bool} (ho : o = Spec.owner v) (hd : d = Spec.depth v) (h : Ok t f (k ()) ⟨n, none, φ⟩) :
    Ok t f (unlockM >>= k) ⟨n, some (o, d, v), φ⟩ := by
  subst ho hd
  refine ⟨⟨v, rfl⟩, ?_⟩
  rintro r K' rfl
  exact ⟨_, Or.inl rfl, h⟩

theorem ok_getId {k : Nat → P Bool} (h : Ok t f (k t) K) : Ok t f (getId >>= k) K := by
  refine ⟨trivial, ?_⟩
  rintro r K' ⟨rfl, rfl⟩
  exact ⟨_, Or.inl rfl, h⟩

/-- the call takes effect when the id is asked for -/
theorem ok_getId_lin {k : Nat → P Bool} {y : Bool} {v' : Spec.Z} (hc : Spec.call v (t, f, y) v')
    (h : Ok t f (k t) ⟨Spec.levels v' t, some (o, d, v'), .done f y⟩) : Ok t f (getId >>= k) ⟨n, some (o, d, v), .pending f⟩ := by
  refine ⟨trivial, ?_⟩
  rintro r K' ⟨rfl, rfl⟩
  exact ⟨_, Or.inr ⟨y, o, d, v, v', rfl, rfl, hc, rfl⟩, h⟩

theorem ok_rdOwner {k : Option Nat → P Bool} (h : Ok t f (k o) ⟨n, some (o, d, v), φ⟩) : Ok t f (rdOwner >>= k) ⟨n, some (o, d, v), φ⟩ := by
  refine ⟨by simp [Pre], ?_⟩
  rintro r K' ⟨rfl, o', d', v', hcs, rfl⟩
  cases hcs
  exact ⟨_, Or.inl rfl, h⟩

theorem ok_rdDepth {k : Int → P Bool} (h : Ok t f (k d) ⟨n, some (o, d, v), φ⟩) : Ok t f (rdDepth >>= k) ⟨n, some (o, d, v), φ⟩ := by
  refine ⟨by simp [Pre], ?_⟩
  rintro r K' ⟨rfl, o', d', v', hcs, rfl⟩
  cases hcs
  exact ⟨_, Or.inl rfl, h⟩

theorem ok_wrOwner {k : Unit → P Bool} {o' : Option Nat} (h : Ok t f (k ()) ⟨n, some (o', d, v), φ⟩) :
    Ok t f (wrOwner o' >>= k) ⟨n, some (o, d, v), φ⟩ := by
  refine ⟨by simp [Pre], ?_⟩
  rintro r K' ⟨o1, d1, v1, hcs, rfl⟩
  cases hcs
  exact ⟨_, Or.inl rfl, h⟩

theorem ok_check {k : Unit → P Bool} {b : Bool} (hb : b = true) (h : Ok t f (k ()) K) : Ok t f (check b >>= k) K := by
  subst hb; exact h

theorem check_true : check true = pure () := rfl

theorem ok_wrDepth {k : Unit → P Bool} {d' : Int} (h : Ok t f (k ()) ⟨n, some (o, d', v), φ⟩) :
    Ok t f (wrDepth d' >>= k) ⟨n, some (o, d, v), φ⟩ := by
  refine ⟨by simp [Pre], ?_⟩
  rintro r K' ⟨o1, d1, v1, hcs, rfl⟩
  cases hcs
  exact ⟨_, Or.inl rfl, h⟩

theorem ok_incDepth {k : Unit → P Bool} {max : Nat} (hm : d + 1 ≤ max) (h : Ok t f (k ()) ⟨n, some (o, d + 1, v), φ⟩) :
    Ok t f (incDepth max >>= k) ⟨n, some (o, d, v), φ⟩ := by
  refine ok_rdDepth (k := fun d => (do check (decide (d + 1 ≤ max)); wrDepth (d + 1)) >>= k) ?_
  simp only [decide_eq_true hm, check_true, Prog.pure_eq, Prog.ret_bind]
  exact ok_wrDepth h

theorem ok_decDepth {k : Unit → P Bool} {max : Nat} (hm : 0 ≤ d) (h : Ok t f (k ()) ⟨n, some (o, d - 1, v), φ⟩) :
    Ok t f (decDepth max >>= k) ⟨n, some (o, d, v), φ⟩ := by
  refine ok_rdDepth (k := fun d => (do check (decide (-max - 1 ≤ d - 1)); wrDepth (d - 1)) >>= k) ?_
  have : -(max : Int) - 1 ≤ d - 1 := by omega
  simp only [decide_eq_true this, check_true, Prog.pure_eq, Prog.ret_bind]
  exact ok_wrDepth h

theorem ok_ret {y : Bool} : Ok t f (pure y) ⟨n, none, .done f y⟩ := ⟨rfl, rfl⟩

end

/-! ### The member functions -/

theorem ok_body (max : Nat) (t : Nat) (f : Op) (n : Nat) (he : Enough max f n) : Ok t f (body max f) ⟨n, none, .pending f⟩ := by
  cases f with
  | tryLock =>
    simp only [Enough] at he
    simp only [body, tryLock]
    refine ok_lock fun v hv hl => ?_
    cases v with
    | none =>
      refine ok_getId_lin (y := true) (v' := some (t, 1)) ⟨rfl, rfl⟩ (ok_rdOwner ?_)
      simp only [Spec.owner, if_true]
      refine ok_rdDepth (ok_check (by simp [Spec.depth]) (ok_wrOwner (ok_incDepth ?_ (ok_unlock rfl ?_ ok_ret))))
      · simp only [Spec.depth]; omega
      · simp [Spec.depth]
    | some p =>
      obtain ⟨o, d⟩ := p
      by_cases ho : o = t
      · subst ho
        simp only [Spec.levels, if_true] at hl
        refine ok_getId_lin (y := true) (v' := some (o, d + 1)) (by simp [Spec.call]) (ok_rdOwner ?_)
        simp only [Spec.owner, reduceCtorEq, if_false]
        refine ok_rdOwner ?_
        simp only [ne_eq, not_true, if_false]
        refine ok_incDepth ?_ (ok_unlock rfl ?_ ok_ret)
        · simp only [Spec.depth]; omega
        · simp [Spec.depth]
      · refine ok_getId_lin (y := false) (v' := some (o, d)) (by simp [Spec.call, ho]) (ok_rdOwner ?_)
        simp only [Spec.owner, reduceCtorEq, if_false]
        refine ok_rdOwner ?_
        have : ¬ some t = some o := by simp; exact fun e => ho e.symm
        simp only [ne_eq, this, not_false_eq_true, if_true]
        exact ok_unlock rfl rfl ok_ret
  | unlock =>
    simp only [Enough] at he
    simp only [body, unlock, Prog.bind_assoc]
    refine ok_lock fun v hv hl => ?_
    cases v with
    | none => simp [Spec.levels] at hl; omega
    | some p =>
      obtain ⟨o, d⟩ := p
      have ho : o = t := by
        by_contra ho
        simp [Spec.levels, ho] at hl
        omega
      subst ho
      simp only [Spec.levels, if_true] at hl
      subst hl
      refine ok_rdOwner (ok_getId_lin (y := true) (v' := if d = 1 then none else some (o, d - 1)) (by simp [Spec.call]) ?_)
      refine ok_check ?_ (ok_rdDepth (ok_check ?_ (ok_decDepth ?_ (ok_rdDepth ?_))))
      · simp [Spec.owner]
      · simpa [Spec.depth] using he
      · simp only [Spec.depth]; omega
      · by_cases hd : d = 1
        · subst hd
          refine ok_wrOwner (ok_unlock rfl rfl ok_ret)
        · have : ¬ (Spec.depth (some (o, d)) - 1 = 0) := by simp only [Spec.depth]; omega
          rw [if_neg this, if_neg hd]
          refine ok_unlock rfl ?_ ok_ret
          simp only [Spec.depth]; omega

end Itlib.RecMutex
