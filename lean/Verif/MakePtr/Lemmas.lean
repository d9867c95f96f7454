import Verif.Core.Count
import Verif.MakePtr.Model
import Mathlib.Tactic.SplitIfs

/-! # The invariant of blocks and pointers -/
namespace Itlib.MakePtr
open Itlib
variable {V : Type}

def cntOf : Option (Ctl V) → Nat
  | some c => c.use
  | none => 0

def objS (C : Nat → Option (Ctl V)) (q : Nat) : Option V := (C q).bind Ctl.obj

/-- the blocks of shared pointers: the counts are right, there are no others -/
structure CI (g : Loc → Nat) (C : Nat → Option (Ctl V)) (n : Nat) : Prop where
  cnt : Exact g (fun q => cntOf (C q))
  obj : ∀ q c, C q = some c → q ≠ 0 ∧ q < n ∧ 0 < c.use ∧ c.obj.isSome = true
  pos : n ≠ 0

/-- the blocks of unique pointers: each has one, there are no others -/
structure UI (g : Loc → Nat) (H : Nat → Option (Option V)) (n : Nat) : Prop where
  inj : ∀ l l', g l = g l' → g l ≠ 0 → l = l'
  obj : ∀ l, g l ≠ 0 → ∃ v, H (g l) = some (some v)
  own : ∀ q, H q ≠ none → q ≠ 0 ∧ q < n ∧ ∃ l, g l = q
  pos : n ≠ 0

theorem cnt_update (C : Nat → Option (Ctl V)) (q : Nat) (o : Option (Ctl V)) :
    (fun p => cntOf (Function.update C q o p)) = Function.update (fun p => cntOf (C p)) q (cntOf o) := by
  funext p
  by_cases h : p = q
  · subst h; simp
  · simp [h]

theorem CI.zero {g : Loc → Nat} {C : Nat → Option (Ctl V)} {n : Nat} (h : CI g C n) : C 0 = none := by
  cases hc : C 0 with
  | none => rfl
  | some c => exact absurd rfl (h.obj 0 c hc).1

theorem UI.zero {g : Loc → Nat} {H : Nat → Option (Option V)} {n : Nat} (h : UI g H n) : H 0 = none := by
  by_contra hc
  exact absurd rfl (h.own 0 hc).1

/-- an owned block -/
theorem CI.owned {g : Loc → Nat} {C : Nat → Option (Ctl V)} {n : Nat} (h : CI g C n) {l : Loc} (hl : g l ≠ 0) :
    ∃ v k, C (g l) = some ⟨some v, k + 1⟩ := by
  have hp : 0 < cntOf (C (g l)) := (h.cnt.pos_iff hl).2 ⟨l, rfl⟩
  cases hc : C (g l) with
  | none => rw [hc] at hp; exact absurd hp (by simp [cntOf])
  | some c =>
    obtain ⟨_, _, h3, h4⟩ := h.obj _ _ hc
    obtain ⟨o, k⟩ := c
    cases o with
    | none => simp at h4
    | some v =>
      cases k with
      | zero => simp at h3
      | succ k => exact ⟨v, k, rfl⟩

theorem CI.same {g : Loc → Nat} {C : Nat → Option (Ctl V)} {n : Nat} (h : CI g C n) (a b : Loc) :
    CI (Function.update (Function.update g a (g b)) b (g a)) C n :=
  ⟨h.cnt.swap' a b, h.obj, h.pos⟩

theorem Exact.congr {P : Type} {g : P → Nat} {a b : Nat → Nat} (h : Exact g a) (e : ∀ q, q ≠ 0 → b q = a q) : Exact g b := by
  intro q hq
  obtain ⟨l, h1, h2, h3⟩ := h q hq
  exact ⟨l, h1, h2, by rw [e q hq, h3]⟩

theorem update_zero {g : Loc → Nat} {l : Loc} (h : g l = 0) : Function.update g l 0 = g := by
  funext p
  by_cases hp : p = l
  · subst hp; simp [h]
  · simp [hp]

/-- a shared pointer goes away -/
theorem decS_ok (s : St V) (l : Loc) (n : Nat) (h : CI s.s s.ctls n) : ∃ C',
    decS (s.s l) { s with s := Function.update s.s l 0 } = .ok () { s with s := Function.update s.s l 0, ctls := C' } ∧
    CI (Function.update s.s l 0) C' n ∧ (∀ q, (∃ p, Function.update s.s l 0 p = q) → objS C' q = objS s.ctls q) := by
  by_cases h0 : s.s l = 0
  · refine ⟨s.ctls, by simp [decS, h0], ?_, fun _ _ => rfl⟩
    rw [update_zero h0]; exact h
  · obtain ⟨v, k, hc⟩ := h.owned h0
    have hrem := h.cnt.remove (a := l) rfl h0
    by_cases hk : k = 0
    · subst hk
      refine ⟨Function.update s.ctls (s.s l) none, ?_, ⟨?_, ?_, h.pos⟩, ?_⟩
      · simp [decS, h0, hc, endS, freeS]
      · rw [cnt_update]
        have : cntOf (s.ctls (s.s l)) - 1 = cntOf (none : Option (Ctl V)) := by rw [hc]; rfl
        rw [← this]; exact hrem
      · intro q c hq
        by_cases e : q = s.s l
        · subst e; simp at hq
        · rw [Function.update_of_ne e] at hq; exact h.obj q c hq
      · rintro q ⟨p, hp⟩
        by_cases e : q = s.s l
        · exfalso
          have hz := (hrem.zero_iff h0).1 (by simp [hc, cntOf])
          exact hz p (by rw [hp, e])
        · simp [objS, e]
    · refine ⟨Function.update s.ctls (s.s l) (some ⟨some v, k⟩), ?_, ⟨?_, ?_, h.pos⟩, ?_⟩
      · simp [decS, h0, hc, hk]
      · rw [cnt_update]
        have : cntOf (s.ctls (s.s l)) - 1 = cntOf (some (⟨some v, k⟩ : Ctl V)) := by rw [hc]; rfl
        rw [← this]; exact hrem
      · intro q c hq
        by_cases e : q = s.s l
        · subst e
          simp only [Function.update_self, Option.some.injEq] at hq
          subst hq
          have := h.obj _ _ hc
          exact ⟨this.1, this.2.1, Nat.pos_of_ne_zero hk, rfl⟩
        · rw [Function.update_of_ne e] at hq; exact h.obj q c hq
      · intro q _
        by_cases e : q = s.s l
        · subst e; simp [objS, hc]
        · simp [objS, e]

/-- a shared pointer is copied into an empty place -/
theorem incS_ok (s : St V) (x l : Loc) (n : Nat) (h : CI s.s s.ctls n) (hl : s.s l = 0) : ∃ C',
    incS (s.s x) s = .ok () { s with ctls := C' } ∧ CI (Function.update s.s l (s.s x)) C' n ∧ ∀ q, objS C' q = objS s.ctls q := by
  by_cases h0 : s.s x = 0
  · refine ⟨s.ctls, by simp [incS, h0], ?_, fun _ => rfl⟩
    rw [h0, update_zero hl]; exact h
  · obtain ⟨v, k, hc⟩ := h.owned h0
    refine ⟨Function.update s.ctls (s.s x) (some ⟨some v, k + 1 + 1⟩), by simp [incS, h0, hc], ⟨?_, ?_, h.pos⟩, ?_⟩
    · rw [cnt_update]
      have : cntOf (s.ctls (s.s x)) + 1 = cntOf (some (⟨some v, k + 1 + 1⟩ : Ctl V)) := by rw [hc]; rfl
      rw [← this]; exact h.cnt.add hl h0
    · intro q c hq
      by_cases e : q = s.s x
      · subst e
        simp only [Function.update_self, Option.some.injEq] at hq
        subst hq
        have := h.obj _ _ hc
        exact ⟨this.1, this.2.1, by simp, rfl⟩
      · rw [Function.update_of_ne e] at hq; exact h.obj q c hq
    · intro q
      by_cases e : q = s.s x
      · subst e; simp [objS, hc]
      · simp [objS, e]

/-- `res` is empty: a swap is a move -/
theorem CI.take {g : Loc → Nat} {C : Nat → Option (Ctl V)} {n : Nat} (h : CI g C n) (x : Loc) (hr : g .res = 0) :
    CI (Function.update (Function.update g .res (g x)) x 0) C n := by
  have := h.same .res x
  rwa [hr] at this

/-- the states that a system may have -/
structure Rel (y : Spec.Sys V) (s : St V) : Prop where
  arg : s.arg = y.arg
  up : ∀ x, y.up x = (s.heap (s.u (.var x))).bind id
  sp : ∀ x, y.sp x = objS s.ctls (s.s (.var x))
  same : ∀ a b, y.same a b ↔ s.s (.var a) = s.s (.var b) ∧ s.s (.var a) ≠ 0
  ui : UI s.u s.heap s.nextU
  ci : CI s.s s.ctls s.nextS
  resU : s.u .res = 0
  resS : s.s .res = 0

/-- a state whose shared variables were rebound -/
theorem Rel.rebind {y : Spec.Sys V} {s : St V} (h : Rel y s) (src : Nat → Option Nat) (g : Loc → Nat) (C : Nat → Option (Ctl V))
    (hg : ∀ z, g (.var z) = match src z with | some a => s.s (.var a) | none => 0) (hr : g .res = 0)
    (hc : CI g C s.nextS) (ho : ∀ q, (∃ p, g p = q) → objS C q = objS s.ctls q) :
    Rel (y.rebind src) { s with s := g, ctls := C } := by
  refine ⟨h.arg, h.up, ?_, ?_, h.ui, hc, h.resU, hr⟩
  · intro x
    show (src x).bind y.sp = objS C (g (.var x))
    rw [ho _ ⟨_, rfl⟩, hg]
    cases src x with
    | none => simp [objS, h.ci.zero]
    | some a => simp [h.sp]
  · intro a b
    show (∃ a' b', src a = some a' ∧ src b = some b' ∧ y.same a' b') ↔ g (.var a) = g (.var b) ∧ g (.var a) ≠ 0
    rw [hg, hg]
    constructor
    · rintro ⟨a', b', ha, hb, hs⟩
      rw [ha, hb]
      exact (h.same a' b').1 hs
    · cases ha : src a with
      | none => simp
      | some a' =>
        cases hb : src b with
        | none => simp only; rintro ⟨h1, h2⟩; exact absurd h1 h2
        | some b' => exact fun hs => ⟨a', b', rfl, rfl, (h.same a' b').2 hs⟩

end Itlib.MakePtr
