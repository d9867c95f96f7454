import Verif.DataMutex.Spec
import Verif.Core.Tac
import Mathlib.Data.List.Nodup
import Mathlib.Logic.Equiv.Basic

namespace Itlib.DataMutex
open Itlib.Conc Spec

theorem slots_append (t : Nat) (l l' : List (Ev Op Out)) (σ : Nat → Slot) : slots t (l ++ l') σ = slots t l' (slots t l σ) := by
  induction l generalizing σ with
  | nil => rfl
  | cons e l ih => cases e <;> simp [slots, ih]

/-! ### The mutex and the lock objects -/

/-- the mutex is locked exactly by the engaged objects -/
structure Mtx (w : Option Nat) (r : Nat → Nat) (objs : Nat → Nat → Slot) : Prop where
  writer : ∀ t, w = some t ↔ ∃ x k, objs t x = .engaged k ∧ k.excl = true
  one : ∀ t x k t' x' k', objs t x = .engaged k → k.excl = true → objs t' x' = .engaged k' → t = t' ∧ x = x'
  readers : ∀ t, ∃ l : List Nat, l.Nodup ∧ (∀ x, x ∈ l ↔ objs t x = .engaged .shared) ∧ r t = l.length

theorem excl_or (k : Kind) : k.excl = true ∨ k = .shared := by cases k <;> simp [Kind.excl]

theorem Mtx.no_writer {w : Option Nat} {r : Nat → Nat} {objs : Nat → Nat → Slot} (h : Mtx w r objs) (hw : w = none) {t x : Nat} {k : Kind}
    (he : objs t x = .engaged k) : k = .shared := by
  rcases excl_or k with hk | hk
  · have := (h.writer t).mpr ⟨x, k, he, hk⟩
    rw [hw] at this; cases this
  · exact hk

theorem Mtx.no_readers {w : Option Nat} {r : Nat → Nat} {objs : Nat → Nat → Slot} (h : Mtx w r objs) {t : Nat} (hr : r t = 0) {x : Nat} :
    objs t x ≠ .engaged .shared := by
  obtain ⟨l, -, h2, h3⟩ := h.readers t
  rw [hr] at h3
  have := List.length_eq_zero_iff.mp h3.symm
  subst this
  intro he
  exact absurd ((h2 x).mpr he) (by simp)

/-- only the objects of `t` change, not as to being engaged: up to a renaming -/
theorem Mtx.rename {w : Option Nat} {r : Nat → Nat} {objs : Nat → Nat → Slot} (h : Mtx w r objs) {t : Nat} {σ : Nat → Slot} (π : Equiv.Perm Nat)
    (hσ : ∀ x k, σ x = .engaged k ↔ objs t (π x) = .engaged k) : Mtx w r (Function.update objs t σ) := by
  have key : ∀ t' x k, Function.update objs t σ t' x = .engaged k ↔ objs t' (if t' = t then π x else x) = .engaged k := by
    intro t' x k
    by_cases e : t' = t
    · subst e; simp [hσ]
    · simp [e]
  refine ⟨?_, ?_, ?_⟩
  · intro t'
    rw [h.writer]
    by_cases e : t' = t
    · subst e
      constructor
      · rintro ⟨x, k, h1, h2⟩
        exact ⟨π.symm x, k, by rw [key]; simpa using h1, h2⟩
      · rintro ⟨x, k, h1, h2⟩
        rw [key] at h1
        exact ⟨_, k, h1, h2⟩
    · simp [e]
  · intro t1 x1 k1 t2 x2 k2 h1 hk h2
    rw [key] at h1 h2
    obtain ⟨rfl, e⟩ := h.one _ _ _ _ _ _ h1 hk h2
    refine ⟨rfl, ?_⟩
    split at e
    · exact π.injective e
    · exact e
  · intro t'
    by_cases e : t' = t
    · subst e
      obtain ⟨l, h1, h2, h3⟩ := h.readers t'
      refine ⟨l.map π.symm, h1.map π.symm.injective, ?_, by simpa using h3⟩
      intro x
      rw [key, List.mem_map, if_pos rfl, ← h2]
      constructor
      · rintro ⟨y, hy, rfl⟩; simpa using hy
      · intro hx; exact ⟨_, hx, by simp⟩
    · obtain ⟨l, h1, h2, h3⟩ := h.readers t'
      exact ⟨l, h1, by simpa [e] using h2, h3⟩

theorem Mtx.engageX {w : Option Nat} {r : Nat → Nat} {objs : Nat → Nat → Slot} (h : Mtx w r objs) (hw : w = none) (hr : ∀ t, r t = 0) (t x : Nat)
    {k : Kind} (hk : k.excl = true) : Mtx (some t) r (Function.update objs t (Function.update (objs t) x (.engaged k))) := by
  have hne : ∀ t' x' k', objs t' x' ≠ .engaged k' := by
    intro t' x' k' he
    have := h.no_writer hw he
    subst this
    exact h.no_readers (hr t') he
  have key : ∀ t' x' k', Function.update objs t (Function.update (objs t) x (.engaged k)) t' x' = .engaged k' ↔ t' = t ∧ x' = x ∧ k' = k := by
    intro t' x' k'
    by_cases e : t' = t
    · subst e
      by_cases e' : x' = x
      · subst e'; simp [eq_comm]
      · simp [e', hne]
    · simp [e, hne]
  refine ⟨?_, ?_, ?_⟩
  · intro t'
    simp only [key, Option.some.injEq]
    constructor
    · rintro rfl; exact ⟨x, k, ⟨rfl, rfl, rfl⟩, hk⟩
    · rintro ⟨_, _, ⟨rfl, -, -⟩, -⟩; rfl
  · intro t1 x1 k1 t2 x2 k2 h1 _ h2
    rw [key] at h1 h2
    obtain ⟨rfl, rfl, rfl⟩ := h1
    obtain ⟨rfl, rfl, -⟩ := h2
    exact ⟨rfl, rfl⟩
  · intro t'
    refine ⟨[], by simp, ?_, by simp [hr]⟩
    intro x'
    rw [key]
    simp only [List.not_mem_nil, false_iff]
    rintro ⟨-, -, e⟩
    rw [← e] at hk; cases hk

theorem Mtx.engageS {w : Option Nat} {r : Nat → Nat} {objs : Nat → Nat → Slot} (h : Mtx w r objs) (hw : w = none) {t x : Nat}
    (hx : ∀ k, objs t x ≠ .engaged k) : Mtx w (Function.update r t (r t + 1)) (Function.update objs t (Function.update (objs t) x (.engaged .shared))) := by
  have key : ∀ t' x' k', Function.update objs t (Function.update (objs t) x (.engaged .shared)) t' x' = .engaged k' ↔
      (t' = t ∧ x' = x ∧ k' = .shared) ∨ objs t' x' = .engaged k' := by
    intro t' x' k'
    by_cases e : t' = t
    · subst e
      by_cases e' : x' = x
      · subst e'; simp [hx, eq_comm]
      · simp [e']
    · simp [e]
  refine ⟨?_, ?_, ?_⟩
  · intro t'
    simp only [hw, reduceCtorEq, key, false_iff, not_exists]
    rintro x' k' ⟨⟨rfl, rfl, rfl⟩ | h1, h2⟩
    · cases h2
    · have := h.no_writer hw h1
      subst this; cases h2
  · intro t1 x1 k1 t2 x2 k2 h1 hk h2
    rw [key] at h1
    rcases h1 with ⟨-, -, rfl⟩ | h1
    · cases hk
    · have := h.no_writer hw h1
      subst this; cases hk
  · intro t'
    obtain ⟨l, h1, h2, h3⟩ := h.readers t'
    by_cases e : t' = t
    · subst e
      refine ⟨x :: l, List.nodup_cons.mpr ⟨?_, h1⟩, ?_, by simp [h3]⟩
      · rw [h2]; exact hx _
      · intro x'
        rw [key, List.mem_cons, h2]
        simp
    · refine ⟨l, h1, ?_, by simpa [e] using h3⟩
      intro x'
      rw [key, h2]
      simp [e]

theorem Mtx.leaveX {w : Option Nat} {r : Nat → Nat} {objs : Nat → Nat → Slot} (h : Mtx w r objs) {t x : Nat} {k : Kind} (hk : k.excl = true)
    (hx : objs t x = .engaged k) (q : Slot) (hq : ∀ k, q ≠ .engaged k) : Mtx none r (Function.update objs t (Function.update (objs t) x q)) := by
  have only : ∀ t' x' k', objs t' x' = .engaged k' → t' = t ∧ x' = x := by
    intro t' x' k' he
    obtain ⟨rfl, rfl⟩ := h.one _ _ _ _ _ _ hx hk he
    exact ⟨rfl, rfl⟩
  have key : ∀ t' x' k', Function.update objs t (Function.update (objs t) x q) t' x' ≠ .engaged k' := by
    intro t' x' k'
    by_cases e : t' = t
    · subst e
      by_cases e' : x' = x
      · subst e'; simpa using hq k'
      · simp only [Function.update_self, Function.update_of_ne e']
        exact fun he => e' (only _ _ _ he).2
    · simp only [Function.update_of_ne e]
      exact fun he => e (only _ _ _ he).1
  refine ⟨?_, ?_, ?_⟩
  · intro t'; simp [key]
  · intro t1 x1 k1 t2 x2 k2 h1; exact absurd h1 (key _ _ _)
  · intro t'
    obtain ⟨l, h1, h2, h3⟩ := h.readers t'
    have : l = [] := by
      rw [List.eq_nil_iff_forall_not_mem]
      intro y hy
      rw [h2] at hy
      obtain ⟨rfl, rfl⟩ := only _ _ _ hy
      rw [hx] at hy
      cases hy; cases hk
    subst this
    exact ⟨[], by simp, by simp [key], h3⟩

theorem Mtx.leaveS {w : Option Nat} {r : Nat → Nat} {objs : Nat → Nat → Slot} (h : Mtx w r objs) {t x : Nat}
    (hx : objs t x = .engaged .shared) (q : Slot) (hq : ∀ k, q ≠ .engaged k) :
    Mtx w (Function.update r t (r t - 1)) (Function.update objs t (Function.update (objs t) x q)) := by
  have hnx : ∀ t' x' k', objs t' x' = .engaged k' → k' = .shared := by
    intro t' x' k' he
    rcases excl_or k' with hk | hk
    · obtain ⟨rfl, rfl⟩ := h.one _ _ _ _ _ _ he hk hx
      rw [hx] at he; cases he; rfl
    · exact hk
  have key : ∀ t' x' k', Function.update objs t (Function.update (objs t) x q) t' x' = .engaged k' ↔
      ¬ (t' = t ∧ x' = x) ∧ objs t' x' = .engaged k' := by
    intro t' x' k'
    by_cases e : t' = t
    · subst e
      by_cases e' : x' = x
      · subst e'; simpa using hq k'
      · simp [e']
    · simp [e]
  refine ⟨?_, ?_, ?_⟩
  · intro t'
    rw [h.writer]
    constructor
    · rintro ⟨x', k', h1, h2⟩
      have := hnx _ _ _ h1
      subst this; cases h2
    · rintro ⟨x', k', h1, h2⟩
      rw [key] at h1
      exact ⟨x', k', h1.2, h2⟩
  · intro t1 x1 k1 t2 x2 k2 h1 hk h2
    rw [key] at h1 h2
    exact h.one _ _ _ _ _ _ h1.2 hk h2.2
  · intro t'
    obtain ⟨l, h1, h2, h3⟩ := h.readers t'
    by_cases e : t' = t
    · subst e
      have hm : x ∈ l := (h2 x).mpr hx
      refine ⟨l.erase x, h1.erase x, ?_, ?_⟩
      · intro x'
        rw [h1.mem_erase_iff, key, h2]
        simp
      · rw [Function.update_self, List.length_erase_of_mem hm, h3]
    · refine ⟨l, h1, ?_, by simpa [e] using h3⟩
      intro x'
      rw [key, h2]
      simp [e]

/-! ### What a thread knows -/

/-- Knowledge of a thread: its lock objects, its lock objects in the specification, how far the call is. -/
structure Know where
  objs : Loc → Option Obj
  slots : Nat → Slot
  ph : Phase Op Out

/-- a lock object in memory -/
def ofSlot : Slot → Option Obj
  | .absent => none
  | .empty k => some ⟨k, .null⟩
  | .engaged k => some ⟨k, .data⟩

/-- the lock objects in memory when no call is running -/
def ofSlots (σ : Nat → Slot) : Loc → Option Obj
  | .user x => ofSlot (σ x)
  | .tmp => none

/-- `objs[i] = o` -/
def Know.set (K : Know) (i : Loc) (o : Option Obj) : Know := { K with objs := Function.update K.objs i o }

/-- the call `f` takes effect with result `y` -/
def Know.fin (K : Know) (f : Op) (y : Out) : Know := { K with slots := eff f y K.slots, ph := .done f y }

/-- the knowledge is true -/
structure Rel (t : Nat) (K : Know) (s : St) (z : Z) (φ : Phase Op Out) : Prop where
  objs : s.objs t = K.objs
  slots : z.objs t = K.slots
  ph : φ = K.ph

/-- doing `a` is defined, and in place -/
def Pre (f : Op) : Act → Know → Prop
  | .lock e, K => K.ph = .pending f ∧ ∃ k b x, f = .make k b x ∧ k.excl = e ∧ K.slots x = .absent
  | .tryLock e, K => K.ph = .pending f ∧ ∃ k b x, f = .tryMake k b x ∧ k.excl = e ∧ K.slots x = .absent
  | .unlock e, K => K.ph = .pending f ∧ ∃ k x, f = .destroy x ∧ k.excl = e ∧ K.slots x = .engaged k
  | .newObj i _ _, K => K.objs i = none
  | .rdObj i, K => ∃ o, K.objs i = some o ∧ o.ptr ≠ .indet
  | .setPtr i _, K => K.objs i ≠ none
  | .delObj i, K => K.objs i ≠ none
  | .rdData, K => K.ph = .pending f ∧ ∃ x k, f = .read x ∧ K.slots x = .engaged k
  | .wrData v, K => K.ph = .pending f ∧ ∃ x, f = .write x v ∧ K.slots x = .engaged .unique
  | .undef, _ => False

/-- the knowledge after doing `a` with result `r` -/
def Post (f : Op) : (a : Act) → Know → a.Res → Know → Prop
  | .lock _, K, r, K' => r = Got.ok ∧ K' = K.fin f .unit
  | .tryLock _, K, r, K' => r = Got.ok ∧ K' = K.fin f (.flag true) ∨ r = Got.no ∧ K' = K.fin f (.flag false)
  | .unlock _, K, _, K' => K' = K.fin f .unit
  | .newObj i k p, K, _, K' => K' = K.set i (some ⟨k, p⟩)
  | .rdObj i, K, r, K' => K.objs i = some r ∧ K' = K
  | .setPtr i p, K, _, K' => ∃ o, K.objs i = some o ∧ K' = K.set i (some ⟨o.kind, p⟩)
  | .delObj i, K, _, K' => K' = K.set i none
  | .rdData, K, r, K' => K' = K.fin f (.val r)
  | .wrData _, K, _, K' => K' = K.fin f .unit
  | .undef, _, _, _ => False

/-- calls that take effect without using the mutex or the data -/
def Local (σ : Nat → Slot) : Op → Out → Prop
  | .move d s, y => y = .unit ∧ σ d = .absent ∧ σ s ≠ .absent
  | .destroy x, y => y = .unit ∧ ∀ k, σ x ≠ .engaged k
  | .test x, y => y = .flag (σ x).isEngaged
  | _, _ => False

/-- The rest `p` of a call is fine with knowledge `K`: nothing undefined, takes effect once, leaves the objects as specified. -/
def Fine (f : Op) : P Out → Know → Prop
  | .ret y, K => K.ph = .done f y ∧ K.objs = ofSlots K.slots
  | .act a k, K => Pre f a K ∧ ∀ r K', Post f a K r K' →
      Fine f (k r) K' ∨ ∃ y, K'.ph = .pending f ∧ Local K'.slots f y ∧ Fine f (k r) (K'.fin f y)

/-- how the objects of a thread follow from the trace -/
def Bal (t : Nat) (tr : List (Ev Op Out)) (σ : Nat → Slot) : Phase Op Out → Prop
  | .done f y => σ = eff f y (slot tr t)
  | _ => σ = slot tr t

/-- simulation relation -/
structure J (tr : List (Ev Op Out)) (c : Config Act Act.Res St Op Out) (z : Z) (ph : Nat → Phase Op Out) : Prop where
  mtx : Mtx c.shared.writer c.shared.readers z.objs
  data : c.shared.data = z.data
  idle : ∀ t, c.threads t = none → ph t = .idle ∧ c.shared.objs t = ofSlots (z.objs t)
  bal : ∀ t, Bal t tr (z.objs t) (ph t)
  okc : ∀ t f p, c.threads t = some (f, p) → Ok (slot tr t) f ∧ (ph t = .pending f ∨ ∃ y, ph t = .done f y)
  run : ∀ t f p, c.threads t = some (f, p) → ∃ K, Rel t K c.shared z (ph t) ∧ Fine f p K

/-! ### Steps -/

theorem Rel.set {t : Nat} {K : Know} {s : St} {z : Z} {φ : Phase Op Out} (h : Rel t K s z φ) (i : Loc) (o : Option Obj) :
    Rel t (K.set i o) (s.setObj t i o) z φ := by
  refine ⟨?_, h.slots, h.ph⟩
  simp [St.setObj, Know.set, h.objs]

/-- a step that does not touch the mutex or the data -/
structure Quiet (t : Nat) (s s' : St) : Prop where
  writer : s'.writer = s.writer
  readers : s'.readers = s.readers
  data : s'.data = s.data
  objs : ∀ t', t' ≠ t → s'.objs t' = s.objs t'

theorem Quiet.refl (t : Nat) (s : St) : Quiet t s s := ⟨rfl, rfl, rfl, fun _ _ => rfl⟩

theorem Quiet.setObj (t : Nat) (s : St) (i : Loc) (o : Option Obj) : Quiet t s (s.setObj t i o) :=
  ⟨rfl, rfl, rfl, fun t' ht => by simp [St.setObj, ht]⟩

theorem free_of {s : St} {z : Z} (h : Mtx s.writer s.readers z.objs) (hw : s.writer = none) {k : Kind} (hr : k.excl = true → ∀ t, s.readers t = 0) :
    Free z k := by
  intro t x k' he
  have := h.no_writer hw he
  subst this
  refine ⟨?_, rfl⟩
  cases hk : k.excl with
  | false => rfl
  | true => exact absurd he (h.no_readers (hr hk t))

theorem step_ok {f : Op} {t : Nat} {K : Know} {s : St} {z : Z} {φ : Phase Op Out} {a : Act} {r : a.Res} {s' : St} (hr : Rel t K s z φ)
    (hp : Pre f a K) (hm : Mtx s.writer s.readers z.objs) (hdata : s.data = z.data) (hd : Does false t a s r s') :
    (∃ K', Post f a K r K' ∧ Rel t K' s' z φ ∧ Quiet t s s') ∨
    ∃ y v', Post f a K r (K.fin f y) ∧ K.ph = .pending f ∧ Can z t f y v' ∧ s'.objs = s.objs ∧ s'.data = v' ∧
      Mtx s'.writer s'.readers (Function.update z.objs t (eff f y (z.objs t))) := by
  cases hd with
  | lockX _ h h0 =>
    obtain ⟨hph, k, b, x, rfl, hk, -⟩ := hp
    exact Or.inr ⟨.unit, z.data, ⟨rfl, rfl⟩, hph, ⟨rfl, free_of hm h fun _ => h0, rfl⟩, rfl, hdata, hm.engageX h h0 t x hk⟩
  | lockS _ h =>
    obtain ⟨hph, k, b, x, rfl, hk, hx⟩ := hp
    rcases excl_or k with hk' | rfl
    · rw [hk] at hk'; cases hk'
    exact Or.inr ⟨.unit, z.data, ⟨rfl, rfl⟩, hph, ⟨rfl, free_of hm h (fun e => by cases e), rfl⟩, rfl, hdata,
      hm.engageS h (by intro k; rw [hr.slots, hx]; simp)⟩
  | tryX _ h h0 =>
    obtain ⟨hph, k, b, x, rfl, hk, -⟩ := hp
    exact Or.inr ⟨.flag true, z.data, Or.inl ⟨rfl, rfl⟩, hph, ⟨Or.inl ⟨rfl, free_of hm h fun _ => h0⟩, rfl⟩, rfl, hdata, hm.engageX h h0 t x hk⟩
  | tryS _ h =>
    obtain ⟨hph, k, b, x, rfl, hk, hx⟩ := hp
    rcases excl_or k with hk' | rfl
    · rw [hk] at hk'; cases hk'
    exact Or.inr ⟨.flag true, z.data, Or.inl ⟨rfl, rfl⟩, hph, ⟨Or.inl ⟨rfl, free_of hm h (fun e => by cases e)⟩, rfl⟩, rfl, hdata,
      hm.engageS h (by intro k; rw [hr.slots, hx]; simp)⟩
  | tryFails _ e =>
    obtain ⟨hph, k, b, x, rfl, hk, hx⟩ := hp
    refine Or.inr ⟨.flag false, z.data, Or.inr ⟨rfl, rfl⟩, hph, ⟨Or.inr rfl, rfl⟩, rfl, hdata, hm.rename (Equiv.refl _) ?_⟩
    intro x' k'
    by_cases e : x' = x
    · subst e; simp [eff, hr.slots, hx]
    · simp [eff, e]
  | unlockX _ =>
    obtain ⟨hph, k, x, rfl, hk, hx⟩ := hp
    exact Or.inr ⟨.unit, z.data, rfl, hph, ⟨rfl, rfl⟩, rfl, hdata, hm.leaveX hk (by rw [hr.slots]; exact hx) _ (by simp)⟩
  | unlockS _ =>
    obtain ⟨hph, k, x, rfl, hk, hx⟩ := hp
    rcases excl_or k with hk' | rfl
    · rw [hk] at hk'; cases hk'
    exact Or.inr ⟨.unit, z.data, rfl, hph, ⟨rfl, rfl⟩, rfl, hdata, hm.leaveS (by rw [hr.slots]; exact hx) _ (by simp)⟩
  | newObj _ i k p => exact Or.inl ⟨_, rfl, hr.set _ _, .setObj _ _ _ _⟩
  | rdObj _ i o h => exact Or.inl ⟨K, ⟨by rw [← hr.objs]; exact h, rfl⟩, hr, .refl _ _⟩
  | setPtr _ i p o h => exact Or.inl ⟨_, ⟨o, by rw [← hr.objs]; exact h, rfl⟩, hr.set _ _, .setObj _ _ _ _⟩
  | delObj _ i => exact Or.inl ⟨_, rfl, hr.set _ _, .setObj _ _ _ _⟩
  | rdData _ =>
    obtain ⟨hph, x, k, rfl, hx⟩ := hp
    exact Or.inr ⟨.val s.data, z.data, rfl, hph, ⟨by rw [hdata], ⟨k, by rw [hr.slots]; exact hx⟩, rfl⟩, rfl, hdata,
      hm.rename (Equiv.refl _) (by simp [eff])⟩
  | wrData _ v =>
    obtain ⟨hph, x, rfl, hx⟩ := hp
    exact Or.inr ⟨.unit, v, rfl, hph, ⟨rfl, by rw [hr.slots]; exact hx, rfl⟩, rfl, rfl, hm.rename (Equiv.refl _) (by simp [eff])⟩
  | lockThrows _ _ h => cases h
  | tryThrows _ _ h => cases h

theorem not_bad {f : Op} {t : Nat} {K : Know} {s : St} {z : Z} {φ : Phase Op Out} {a : Act} (hr : Rel t K s z φ)
    (hp : Pre f a K) (hm : Mtx s.writer s.readers z.objs) : ¬ Bad t a s := by
  cases a with
  | lock e => exact fun h => h
  | tryLock e => exact fun h => h
  | unlock e =>
    obtain ⟨-, k, x, -, hk, hx⟩ := hp
    rw [← hr.slots] at hx
    cases e with
    | true => exact fun h => h ((hm.writer t).mpr ⟨x, k, hx, hk⟩)
    | false =>
      rcases excl_or k with hk' | rfl
      · rw [hk] at hk'; cases hk'
      · exact fun h => hm.no_readers h hx
  | newObj i k p => exact fun h => h (by rw [hr.objs]; exact hp)
  | rdObj i =>
    obtain ⟨o, h1, h2⟩ := hp
    exact fun h => h2 (h o (by rw [hr.objs]; exact h1))
  | setPtr i p => exact fun h => hp (by rw [← hr.objs]; exact h)
  | delObj i => exact fun h => hp (by rw [← hr.objs]; exact h)
  | rdData => exact fun h => h
  | wrData v => exact fun h => h
  | undef => exact hp.elim

/-- a local call taking effect -/
theorem local_ok {f : Op} {y : Out} {t : Nat} {w : Option Nat} {r : Nat → Nat} {z : Z} (hm : Mtx w r z.objs) (hl : Local (z.objs t) f y) :
    Can z t f y z.data ∧ Mtx w r (Function.update z.objs t (eff f y (z.objs t))) := by
  cases f with
  | move d s =>
    obtain ⟨rfl, h1, h2⟩ := hl
    refine ⟨⟨rfl, rfl⟩, hm.rename (Equiv.swap d s) ?_⟩
    intro x k
    have hsd : s ≠ d := by intro e; rw [e] at h2; exact h2 h1
    have hlv : ∀ q : Slot, q.leave ≠ .engaged k := by intro q; cases q <;> simp [Slot.leave]
    by_cases e : x = d
    · subst e; simp [eff]
    · by_cases e' : x = s
      · subst e'
        simp [eff, hsd, h1, hlv]
      · simp [eff, e, e', Equiv.swap_apply_of_ne_of_ne e e']
  | destroy x =>
    obtain ⟨rfl, h1⟩ := hl
    refine ⟨⟨rfl, rfl⟩, hm.rename (Equiv.refl _) ?_⟩
    intro x' k
    by_cases e : x' = x
    · subst e; simp [eff, h1]
    · simp [eff, e]
  | test x => exact ⟨⟨hl, rfl⟩, hm.rename (Equiv.refl _) (by simp [eff])⟩
  | _ => exact hl.elim

theorem J.update {tr : List (Ev Op Out)} {c : Config Act Act.Res St Op Out} {z : Z} {ph : Nat → Phase Op Out} (h : J tr c z ph) {t : Nat} {f : Op}
    {p p' : P Out} (ht : c.threads t = some (f, p)) {s' : St} {z' : Z} {φ : Phase Op Out} {K : Know} (hr : Rel t K s' z' φ) (hf : Fine f p' K)
    (hm : Mtx s'.writer s'.readers z'.objs) (hd : s'.data = z'.data) (ho : ∀ t', t' ≠ t → s'.objs t' = c.shared.objs t')
    (hz : ∀ t', t' ≠ t → z'.objs t' = z.objs t') (hb : Bal t tr (z'.objs t) φ)
    (hφ : φ = .pending f ∨ ∃ y, φ = .done f y) :
    J tr ⟨s', Function.update c.threads t (some (f, p'))⟩ z' (Function.update ph t φ) := by
  refine ⟨hm, hd, ?_, ?_, ?_, ?_⟩
  · intro t' ht'
    by_cases e : t' = t
    · subst e; simp at ht'
    · simp only [Function.update_of_ne e] at ht' ⊢
      rw [ho t' e, hz t' e]
      exact h.idle t' ht'
  · intro t'
    by_cases e : t' = t
    · subst e; simpa using hb
    · simp only [Function.update_of_ne e]
      rw [hz t' e]
      exact h.bal t'
  · intro t' f' q ht'
    by_cases e : t' = t
    · subst e
      simp only [Function.update_self, Option.some.injEq, Prod.mk.injEq] at ht'
      obtain ⟨rfl, rfl⟩ := ht'
      exact ⟨(h.okc t' f p ht).1, by simpa using hφ⟩
    · simp only [Function.update_of_ne e] at ht' ⊢
      exact h.okc t' f' q ht'
  · intro t' f' q ht'
    by_cases e : t' = t
    · subst e
      simp only [Function.update_self, Option.some.injEq, Prod.mk.injEq] at ht'
      obtain ⟨rfl, rfl⟩ := ht'
      exact ⟨K, by simpa using hr, hf⟩
    · simp only [Function.update_of_ne e] at ht'
      obtain ⟨K1, h1, h2⟩ := h.run t' f' q ht'
      refine ⟨K1, ⟨by rw [ho t' e]; exact h1.objs, by rw [hz t' e]; exact h1.slots, ?_⟩, h2⟩
      simp only [Function.update_of_ne e]
      exact h1.ph

theorem J.step {tr : List (Ev Op Out)} {c : Config Act Act.Res St Op Out} {z : Z} {ph : Nat → Phase Op Out} (h : J tr c z ph) {t : Nat}
    {f : Op} {a : Act} {k : a.Res → P Out} {r : a.Res} {s' : St} (ht : c.threads t = some (f, .act a k)) (hd : Does false t a c.shared r s') :
    J tr ⟨s', Function.update c.threads t (some (f, k r))⟩ z ph ∨
    ∃ y z', ph t = .pending f ∧ Spec.call z (t, f, y) z' ∧
      J tr ⟨s', Function.update c.threads t (some (f, k r))⟩ z' (Function.update ph t (.done f y)) := by
  obtain ⟨K, hr, hpre, hok⟩ := h.run t f _ ht
  rcases step_ok hr hpre h.mtx h.data hd with ⟨K', hpost, hr', hq⟩ | ⟨y, v', hpost, hph, hcan, ho, hdt, hm⟩
  · have hm' : Mtx s'.writer s'.readers z.objs := by rw [hq.writer, hq.readers]; exact h.mtx
    have hd' : s'.data = z.data := by rw [hq.data]; exact h.data
    rcases hok r K' hpost with hf | ⟨y, hph, hloc, hf⟩
    · left
      have := h.update ht hr' hf hm' hd' hq.objs (fun _ _ => rfl) (h.bal t) (h.okc t f _ ht).2
      rwa [Function.update_eq_self] at this
    · right
      rw [← hr'.slots] at hloc
      obtain ⟨h1, h2⟩ := local_ok hm' hloc
      have hpt : ph t = .pending f := by rw [hr'.ph]; exact hph
      refine ⟨y, _, hpt, ⟨z.data, h1, rfl⟩, h.update (K := K'.fin f y) ht ⟨hr'.objs, ?_, rfl⟩ hf h2 hd' hq.objs ?_ ?_ (Or.inr ⟨y, rfl⟩)⟩
      · simp [Know.fin, hr'.slots]
      · intro t' e; simp [e]
      · have := h.bal t
        rw [hpt] at this
        simp only [Bal] at this
        simp [Bal, this]
  · right
    have hpt : ph t = .pending f := by rw [hr.ph]; exact hph
    rcases hok r _ hpost with hf | ⟨y', hph', -⟩
    · refine ⟨y, _, hpt, ⟨v', hcan, rfl⟩, h.update ht ⟨?_, ?_, rfl⟩ hf hm hdt (fun t' _ => by rw [ho]) ?_ ?_ (Or.inr ⟨y, rfl⟩)⟩
      · rw [ho]; exact hr.objs
      · simp [Know.fin, hr.slots]
      · intro t' e; simp [e]
      · have := h.bal t
        rw [hpt] at this
        simp only [Bal] at this
        simp [Bal, this]
    · cases hph'

theorem slot_inv (tr : List (Ev Op Out)) (t : Nat) (f : Op) (t' : Nat) : slot (tr ++ [.inv t f]) t' = slot tr t' := by
  funext x; simp [slot, slots_append, slots]

theorem slot_ret_self (tr : List (Ev Op Out)) (t : Nat) (f : Op) (y : Out) : slot (tr ++ [.ret t f y]) t = eff f y (slot tr t) := by
  funext x
  simp only [slot, slots_append, slots, if_true]
  rfl

theorem slot_ret_other (tr : List (Ev Op Out)) (t : Nat) (f : Op) (y : Out) {t' : Nat} (h : t' ≠ t) : slot (tr ++ [.ret t f y]) t' = slot tr t' := by
  have : ¬ t = t' := fun e => h e.symm
  funext x; simp [slot, slots_append, slots, this]

theorem sim (hb : ∀ f σ, Ok σ f → Fine f (body f) ⟨ofSlots σ, σ, .pending f⟩) :
    SimT (sys false) body Spec.call Allowed J where
  inv := by
    intro tr c z ph t f h ht ha
    obtain ⟨hi, hobj⟩ := h.idle t ht
    have hbal := h.bal t
    rw [hi] at hbal
    simp only [Bal] at hbal
    refine ⟨hi, h.mtx, h.data, ?_, ?_, ?_, ?_⟩
    · intro t' ht'
      by_cases e : t' = t
      · subst e; simp at ht'
      · simp only [Function.update_of_ne e] at ht' ⊢; exact h.idle t' ht'
    · intro t'
      by_cases e : t' = t
      · subst e
        simp only [Function.update_self, Bal, slot_inv]
        exact hbal
      · simp only [Function.update_of_ne e]
        have := h.bal t'
        cases hp : ph t' <;> simp only [hp, Bal, slot_inv] at this ⊢ <;> exact this
    · intro t' f' q ht'
      rw [slot_inv]
      by_cases e : t' = t
      · subst e
        simp only [Function.update_self, Option.some.injEq, Prod.mk.injEq] at ht'
        obtain ⟨rfl, rfl⟩ := ht'
        exact ⟨ha, by simp⟩
      · simp only [Function.update_of_ne e] at ht' ⊢
        exact h.okc t' f' q ht'
    · intro t' f' p' ht'
      by_cases e : t' = t
      · subst e
        simp only [Function.update_self, Option.some.injEq, Prod.mk.injEq] at ht' ⊢
        obtain ⟨rfl, rfl⟩ := ht'
        refine ⟨_, ⟨?_, hbal, rfl⟩, hb f _ ha⟩
        rw [hobj, hbal]
      · simp only [Function.update_of_ne e] at ht' ⊢
        exact h.run t' f' p' ht'
  act := by
    intro tr c z ph t f a k r s' h ht hst
    exact h.step ht hst
  ret := by
    intro tr c z ph t f y h ht
    obtain ⟨K, hr, hph, hobj⟩ := h.run t f _ ht
    have hpt : ph t = .done f y := by rw [hr.ph]; exact hph
    have hbal := h.bal t
    rw [hpt] at hbal
    simp only [Bal] at hbal
    refine ⟨hpt, h.mtx, h.data, ?_, ?_, ?_, ?_⟩
    · intro t' ht'
      by_cases e : t' = t
      · subst e
        refine ⟨by simp, ?_⟩
        rw [hr.objs, hr.slots]; exact hobj
      · simp only [Function.update_of_ne e] at ht' ⊢; exact h.idle t' ht'
    · intro t'
      by_cases e : t' = t
      · subst e
        simp only [Function.update_self, Bal, slot_ret_self]
        exact hbal
      · simp only [Function.update_of_ne e]
        have := h.bal t'
        cases hp : ph t' <;> simp only [hp, Bal, slot_ret_other _ _ _ _ e] at this ⊢ <;> exact this
    · intro t' f' q ht'
      by_cases e : t' = t
      · subst e; simp at ht'
      · simp only [Function.update_of_ne e] at ht' ⊢
        rw [slot_ret_other _ _ _ _ e]
        exact h.okc t' f' q ht'
    · intro t' f' p' ht'
      by_cases e : t' = t
      · subst e; simp at ht'
      · simp only [Function.update_of_ne e] at ht' ⊢
        exact h.run t' f' p' ht'

/-! ### Rules -/
section
variable {f : Op} {K : Know} {o : Loc → Option Obj} {σ : Nat → Slot} {φ : Phase Op Out}

theorem fine_newObj {k : Unit → P Out} {i : Loc} {kd : Kind} {p : Ptr} (h0 : o i = none)
    (h : Fine f (k ()) ⟨Function.update o i (some ⟨kd, p⟩), σ, φ⟩) : Fine f (newObj i kd p >>= k) ⟨o, σ, φ⟩ := by
  refine ⟨h0, ?_⟩
  rintro r K' rfl
  exact Or.inl h

theorem fine_rdObj {k : Obj → P Out} {i : Loc} {b : Obj} (h0 : o i = some b) (hb : b.ptr ≠ .indet) (h : Fine f (k b) ⟨o, σ, φ⟩) :
    Fine f (rdObj i >>= k) ⟨o, σ, φ⟩ := by
  refine ⟨⟨b, h0, hb⟩, ?_⟩
  rintro r K' ⟨h1, rfl⟩
  replace h1 := h0.symm.trans h1
  cases h1
  exact Or.inl h

/-- the call takes effect here -/
theorem fine_rdObj_lin {k : Obj → P Out} {i : Loc} {b : Obj} (h0 : o i = some b) (hb : b.ptr ≠ .indet) {y : Out} (hl : Local σ f y)
    (h : Fine f (k b) ⟨o, eff f y σ, .done f y⟩) : Fine f (rdObj i >>= k) ⟨o, σ, .pending f⟩ := by
  refine ⟨⟨b, h0, hb⟩, ?_⟩
  rintro r K' ⟨h1, rfl⟩
  replace h1 := h0.symm.trans h1
  cases h1
  exact Or.inr ⟨y, rfl, hl, h⟩

theorem fine_setPtr {k : Unit → P Out} {i : Loc} {p : Ptr} {b : Obj} (h0 : o i = some b)
    (h : Fine f (k ()) ⟨Function.update o i (some ⟨b.kind, p⟩), σ, φ⟩) : Fine f (setPtr i p >>= k) ⟨o, σ, φ⟩ := by
  refine ⟨by simp [Pre, h0], ?_⟩
  rintro r K' ⟨b', h1, rfl⟩
  replace h1 := h0.symm.trans h1
  cases h1
  exact Or.inl h

theorem fine_delObj {k : Unit → P Out} {i : Loc} {b : Obj} (h0 : o i = some b) (h : Fine f (k ()) ⟨Function.update o i none, σ, φ⟩) :
    Fine f (delObj i >>= k) ⟨o, σ, φ⟩ := by
  refine ⟨by simp [Pre, h0], ?_⟩
  rintro r K' rfl
  exact Or.inl h

theorem fine_lock {k : Got → P Out} {kd : Kind} {b : Bool} {x : Nat} (hf : f = .make kd b x) (hx : σ x = .absent)
    (h : Fine f (k .ok) ⟨o, eff f .unit σ, .done f .unit⟩) : Fine f (lockM kd.excl >>= k) ⟨o, σ, .pending f⟩ := by
  refine ⟨⟨rfl, kd, b, x, hf, rfl, hx⟩, ?_⟩
  rintro r K' ⟨rfl, rfl⟩
  exact Or.inl h

theorem fine_tryLock {k : Got → P Out} {kd : Kind} {b : Bool} {x : Nat} (hf : f = .tryMake kd b x) (hx : σ x = .absent)
    (h1 : Fine f (k .ok) ⟨o, eff f (.flag true) σ, .done f (.flag true)⟩)
    (h2 : Fine f (k .no) ⟨o, eff f (.flag false) σ, .done f (.flag false)⟩) : Fine f (tryLockM kd.excl >>= k) ⟨o, σ, .pending f⟩ := by
  refine ⟨⟨rfl, kd, b, x, hf, rfl, hx⟩, ?_⟩
  rintro r K' (⟨rfl, rfl⟩ | ⟨rfl, rfl⟩)
  · exact Or.inl h1
  · exact Or.inl h2

theorem fine_unlock {k : Unit → P Out} {kd : Kind} {x : Nat} (hf : f = .destroy x) (hx : σ x = .engaged kd)
    (h : Fine f (k ()) ⟨o, eff f .unit σ, .done f .unit⟩) : Fine f (unlockM kd.excl >>= k) ⟨o, σ, .pending f⟩ := by
  refine ⟨⟨rfl, kd, x, hf, rfl, hx⟩, ?_⟩
  rintro r K' rfl
  exact Or.inl h

theorem fine_rdData {k : Nat → P Out} {kd : Kind} {x : Nat} (hf : f = .read x) (hx : σ x = .engaged kd)
    (h : ∀ v, Fine f (k v) ⟨o, eff f (.val v) σ, .done f (.val v)⟩) : Fine f (rdData >>= k) ⟨o, σ, .pending f⟩ := by
  refine ⟨⟨rfl, x, kd, hf, hx⟩, ?_⟩
  rintro r K' rfl
  exact Or.inl (h r)

theorem fine_wrData {k : Unit → P Out} {x v : Nat} (hf : f = .write x v) (hx : σ x = .engaged .unique)
    (h : Fine f (k ()) ⟨o, eff f .unit σ, .done f .unit⟩) : Fine f (wrData v >>= k) ⟨o, σ, .pending f⟩ := by
  refine ⟨⟨rfl, x, hf, hx⟩, ?_⟩
  rintro r K' rfl
  exact Or.inl h

theorem fine_ret {y : Out} (h : o = ofSlots σ) : Fine f (pure y) ⟨o, σ, .done f y⟩ := ⟨rfl, h⟩

/-- destroying a disengaged object -/
theorem fine_dtor_null {k : Unit → P Out} {i : Loc} {kd : Kind} (h0 : o i = some ⟨kd, .null⟩) (h : Fine f (k ()) ⟨Function.update o i none, σ, φ⟩) :
    Fine f (dtor i >>= k) ⟨o, σ, φ⟩ := by
  simp only [dtor, Prog.bind_assoc]
  exact fine_rdObj h0 (by simp) (fine_delObj h0 h)

/-- moving -/
theorem fine_move {k : Unit → P Out} {d s : Loc} {b : Obj} (h0 : o s = some b) (hb : b.ptr ≠ .indet) (hd : o d = none)
    (h : Fine f (k ()) ⟨Function.update (Function.update o d (some b)) s (some ⟨b.kind, .null⟩), σ, φ⟩) :
    Fine f (moveCtor d s >>= k) ⟨o, σ, φ⟩ := by
  simp only [moveCtor, Prog.bind_assoc]
  have hsd : s ≠ d := by intro e; rw [e, hd] at h0; cases h0
  exact fine_rdObj h0 hb (fine_newObj hd (fine_setPtr (b := b) (by simp [hsd, h0]) h))

end

/-! ### The functions -/

theorem ofSlots_update (σ : Nat → Slot) (x : Nat) (q : Slot) : ofSlots (Function.update σ x q) = Function.update (ofSlots σ) (.user x) (ofSlot q) := by
  funext i
  cases i with
  | tmp => simp [ofSlots]
  | user y =>
    by_cases e : y = x
    · subst e; simp [ofSlots]
    · simp [ofSlots, e]

theorem ok_body (f : Op) (σ : Nat → Slot) (h : Ok σ f) : Fine f (body f) ⟨ofSlots σ, σ, .pending f⟩ := by
  cases f with
  | make k e x =>
    simp only [Ok] at h
    cases e with
    | true =>
      simp only [body, make, ctor, if_true, Prog.bind_assoc]
      refine fine_newObj (by simp [ofSlots, h, ofSlot]) (fine_lock rfl h ?_)
      exact fine_ret (by simp [eff, ofSlots_update, ofSlot])
    | false =>
      simp only [body, make, ctor, Bool.false_eq_true, if_false, Prog.bind_assoc]
      refine fine_newObj (by simp [ofSlots]) (fine_lock rfl h ?_)
      refine fine_move (b := ⟨k, .data⟩) (by simp) (by simp) (by simp [ofSlots, h, ofSlot]) ?_
      refine fine_dtor_null (kd := k) (by simp) (fine_ret ?_)
      funext i
      cases i with
      | tmp => simp [ofSlots]
      | user y => by_cases e : y = x <;> simp [e, eff, ofSlots, ofSlot]
  | tryMake k e x =>
    simp only [Ok] at h
    cases e with
    | true =>
      simp only [body, tryMake, tryCtor, if_true, Prog.bind_assoc]
      refine fine_newObj (by simp [ofSlots, h, ofSlot]) (fine_tryLock rfl h ?_ ?_)
      · refine fine_setPtr (b := ⟨k, .indet⟩) (by simp) (fine_ret ?_)
        simp [eff, ofSlots_update, ofSlot]
      · refine fine_setPtr (b := ⟨k, .indet⟩) (by simp) (fine_ret ?_)
        simp [eff, ofSlots_update, ofSlot]
    | false =>
      simp only [body, tryMake, tryCtor, Bool.false_eq_true, if_false, Prog.bind_assoc]
      refine fine_newObj (by simp [ofSlots]) (fine_tryLock rfl h ?_ ?_)
      · refine fine_setPtr (b := ⟨k, .indet⟩) (by simp) ?_
        refine fine_move (b := ⟨k, .data⟩) (by simp) (by simp) (by simp [ofSlots, h, ofSlot]) ?_
        refine fine_dtor_null (kd := k) (by simp) (fine_ret ?_)
        funext i
        cases i with
        | tmp => simp [ofSlots]
        | user y => by_cases e : y = x <;> simp [e, eff, ofSlots, ofSlot]
      · refine fine_setPtr (b := ⟨k, .indet⟩) (by simp) ?_
        refine fine_move (b := ⟨k, .null⟩) (by simp) (by simp) (by simp [ofSlots, h, ofSlot]) ?_
        refine fine_dtor_null (kd := k) (by simp) (fine_ret ?_)
        funext i
        cases i with
        | tmp => simp [ofSlots]
        | user y => by_cases e : y = x <;> simp [e, eff, ofSlots, ofSlot]
  | move d s =>
    obtain ⟨h1, h2⟩ := h
    have hsd : s ≠ d := by intro e; rw [e] at h2; exact h2 h1
    obtain ⟨b, hb, hbi, hlv⟩ : ∃ b, ofSlot (σ s) = some b ∧ b.ptr ≠ .indet ∧ ofSlot (σ s).leave = some ⟨b.kind, .null⟩ := by
      cases hs : σ s with
      | absent => exact absurd hs h2
      | empty k => exact ⟨_, rfl, by simp, rfl⟩
      | engaged k => exact ⟨_, rfl, by simp, rfl⟩
    simp only [body, moveCtor, Prog.bind_assoc]
    refine fine_rdObj_lin (b := b) hb hbi (y := .unit) ⟨rfl, h1, h2⟩ ?_
    refine fine_newObj (by simp [ofSlots, h1, ofSlot]) (fine_setPtr (b := b) (by simp [hsd, ofSlots, hb]) (fine_ret ?_))
    simp only [eff, ofSlots_update, hb, hlv]
    exact Function.update_comm (by simpa using hsd.symm) _ _ _
  | destroy x =>
    simp only [Ok] at h
    simp only [body, dtor, Prog.bind_assoc]
    cases hs : σ x with
    | absent => exact absurd hs h
    | empty k =>
      refine fine_rdObj_lin (b := ⟨k, .null⟩) (by simp [ofSlots, hs, ofSlot]) (by simp) (y := .unit) ⟨rfl, by simp [hs]⟩ ?_
      refine fine_delObj (b := ⟨k, .null⟩) (by simp [ofSlots, hs, ofSlot]) (fine_ret ?_)
      simp [eff, ofSlots_update, ofSlot]
    | engaged k =>
      refine fine_rdObj (b := ⟨k, .data⟩) (by simp [ofSlots, hs, ofSlot]) (by simp) (fine_unlock rfl hs ?_)
      refine fine_delObj (b := ⟨k, .data⟩) (by simp [ofSlots, hs, ofSlot]) (fine_ret ?_)
      simp [eff, ofSlots_update, ofSlot]
  | write x v =>
    simp only [Ok] at h
    simp only [body, deref, Prog.bind_assoc]
    exact fine_rdObj (b := ⟨.unique, .data⟩) (by simp [ofSlots, h, ofSlot]) (by simp) (fine_wrData rfl h (fine_ret rfl))
  | read x =>
    obtain ⟨k, h⟩ := h
    simp only [body, deref, Prog.bind_assoc]
    exact fine_rdObj (b := ⟨k, .data⟩) (by simp [ofSlots, h, ofSlot]) (by simp) (fine_rdData rfl h fun v => fine_ret rfl)
  | test x =>
    simp only [Ok] at h
    simp only [body]
    cases hs : σ x with
    | absent => exact absurd hs h
    | empty k =>
      exact fine_rdObj_lin (b := ⟨k, .null⟩) (by simp [ofSlots, hs, ofSlot]) (by simp) (y := .flag false) (by simp [Local, hs, Slot.isEngaged])
        (fine_ret rfl)
    | engaged k =>
      exact fine_rdObj_lin (b := ⟨k, .data⟩) (by simp [ofSlots, hs, ofSlot]) (by simp) (y := .flag true) (by simp [Local, hs, Slot.isEngaged])
        (fine_ret rfl)

end Itlib.DataMutex
