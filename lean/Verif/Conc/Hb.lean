import Verif.Conc.Core

/-!
# Happens-before

Executions recorded as the list of everything that is done, and the happens-before relation of C++11 on it: the order of
each thread, and what the mutexes of the standard library synchronise.
-/
namespace Itlib.Conc

variable {A : Type} {R : A → Type} {S C Y : Type}

/-- what a thread does -/
inductive What (A : Type) (R : A → Type) (C Y : Type) where
  | inv (f : C)
  | ret (f : C) (y : Y)
  | act (a : A) (r : R a)
  /-- something else, between calls -/
  | own

/-- who does it -/
structure Done (A : Type) (R : A → Type) (C Y : Type) where
  tid : Nat
  what : What A R C Y

/-- executions with all that is done -/
inductive Run (sys : Sys A R S) (body : C → Prog A R Y) (c₀ : Config A R S C Y) : List (Done A R C Y) → Config A R S C Y → Prop where
  | start : Run sys body c₀ [] c₀
  | inv {es : List (Done A R C Y)} {c : Config A R S C Y} (h : Run sys body c₀ es c) (t : Nat) (f : C) (ht : c.threads t = none) :
      Run sys body c₀ (es ++ [⟨t, .inv f⟩]) ⟨c.shared, Function.update c.threads t (some (f, body f))⟩
  | act {es : List (Done A R C Y)} {c : Config A R S C Y} (h : Run sys body c₀ es c) (t : Nat) (f : C) (a : A) (k : R a → Prog A R Y)
      (r : R a) (s' : S) (ht : c.threads t = some (f, .act a k)) (hs : sys.step t a c.shared r s') :
      Run sys body c₀ (es ++ [⟨t, .act a r⟩]) ⟨s', Function.update c.threads t (some (f, k r))⟩
  | ret {es : List (Done A R C Y)} {c : Config A R S C Y} (h : Run sys body c₀ es c) (t : Nat) (f : C) (y : Y)
      (ht : c.threads t = some (f, .ret y)) :
      Run sys body c₀ (es ++ [⟨t, .ret f y⟩]) ⟨c.shared, Function.update c.threads t none⟩
  | own {es : List (Done A R C Y)} {c : Config A R S C Y} (h : Run sys body c₀ es c) (t : Nat) (ht : c.threads t = none) :
      Run sys body c₀ (es ++ [⟨t, .own⟩]) c

/-- the calls and returns -/
def trace : List (Done A R C Y) → List (Ev C Y)
  | [] => []
  | ⟨t, .inv f⟩ :: l => .inv t f :: trace l
  | ⟨t, .ret f y⟩ :: l => .ret t f y :: trace l
  | _ :: l => trace l

theorem trace_append (l l' : List (Done A R C Y)) : trace (l ++ l') = trace l ++ trace l' := by
  induction l with
  | nil => rfl
  | cons e l ih =>
    obtain ⟨t, w⟩ := e
    cases w <;> simp [trace, ih]

theorem Run.exec {sys : Sys A R S} {body : C → Prog A R Y} {c₀ c : Config A R S C Y} {es : List (Done A R C Y)}
    (h : Run sys body c₀ es c) : Exec sys body c₀ (trace es) c := by
  induction h with
  | start => exact .start
  | inv h t f ht ih => rw [trace_append]; exact ih.step (Step.inv t f ht)
  | act h t f a k r s' ht hs ih => rw [trace_append]; exact ih.step (Step.act t f a k r s' ht hs)
  | ret h t f y ht ih => rw [trace_append]; exact ih.step (Step.ret t f y ht)
  | own h t ht ih => rw [trace_append]; simpa [trace] using ih

/-- the call of thread `t` goes on by one action -/
theorem Run.goOn {sys : Sys A R S} {body : C → Prog A R Y} {c₀ : Config A R S C Y} {es : List (Done A R C Y)} {s s' : S}
    {th : Nat → Option (C × Prog A R Y)} {t : Nat} {f : C} {a : A} {k : R a → Prog A R Y} {r : R a}
    (h : Run sys body c₀ es ⟨s, Function.update th t (some (f, .act a k))⟩) (hs : sys.step t a s r s') :
    Run sys body c₀ (es ++ [⟨t, .act a r⟩]) ⟨s', Function.update th t (some (f, k r))⟩ := by
  have := h.act t f a k r s' (by simp) hs
  simpa using this

/-- the call of thread `t` returns -/
theorem Run.done {sys : Sys A R S} {body : C → Prog A R Y} {c₀ : Config A R S C Y} {es : List (Done A R C Y)} {s : S}
    {th : Nat → Option (C × Prog A R Y)} {t : Nat} {f : C} {y : Y} (h : Run sys body c₀ es ⟨s, Function.update th t (some (f, .ret y))⟩) :
    Run sys body c₀ (es ++ [⟨t, .ret f y⟩]) ⟨s, Function.update th t none⟩ := by
  have := h.ret t f y (by simp)
  simpa using this

/-- event `i` is `w` -/
def Is (es : List (Done A R C Y)) (i : Nat) (w : What A R C Y) : Prop := ∃ t, es[i]? = some ⟨t, w⟩

/-- event `i` is done by thread `t` -/
def By (es : List (Done A R C Y)) (i t : Nat) : Prop := ∃ w, es[i]? = some ⟨t, w⟩

/-- Event `i` happens before event `j`: because it is earlier in the same thread, or because it is earlier and the one
synchronises with the other according to `sync`, or by transitivity. -/
inductive Hb (sync : What A R C Y → What A R C Y → Prop) (es : List (Done A R C Y)) : Nat → Nat → Prop where
  | po {i j : Nat} (h : i < j) (t : Nat) (hi : By es i t) (hj : By es j t) : Hb sync es i j
  | sync {i j : Nat} (h : i < j) (w w' : What A R C Y) (hi : Is es i w) (hj : Is es j w') (hs : sync w w') : Hb sync es i j
  | trans {i j k : Nat} (h : Hb sync es i j) (h' : Hb sync es j k) : Hb sync es i k

section
variable {sync : What A R C Y → What A R C Y → Prop} {es es' : List (Done A R C Y)} {e : Done A R C Y} {i j t : Nat} {w : What A R C Y}

theorem Is.lt (h : Is es i w) : i < es.length := by
  obtain ⟨t, h⟩ := h
  exact (List.getElem?_eq_some_iff.mp h).1

theorem By.lt (h : By es i t) : i < es.length := by
  obtain ⟨t, h⟩ := h
  exact (List.getElem?_eq_some_iff.mp h).1

theorem Is.mono (h : Is es i w) : Is (es ++ es') i w := by
  obtain ⟨t, h'⟩ := h
  exact ⟨t, by rw [List.getElem?_append_left (Is.lt ⟨t, h'⟩)]; exact h'⟩

theorem By.mono (h : By es i t) : By (es ++ es') i t := by
  obtain ⟨w, h'⟩ := h
  exact ⟨w, by rw [List.getElem?_append_left (By.lt ⟨w, h'⟩)]; exact h'⟩

theorem Hb.mono (h : Hb sync es i j) : Hb sync (es ++ es') i j := by
  induction h with
  | po h t hi hj => exact .po h t hi.mono hj.mono
  | sync h w w' hi hj hs => exact .sync h w w' hi.mono hj.mono hs
  | trans _ _ ih ih' => exact .trans ih ih'

/-- happens-before goes forward -/
theorem Hb.lt (h : Hb sync es i j) : i < j := by
  induction h with
  | po h => exact h
  | sync h => exact h
  | trans _ _ ih ih' => exact Nat.lt_trans ih ih'

theorem is_new : Is (es ++ [e]) es.length w ↔ e.what = w := by
  simp only [Is, List.getElem?_concat_length, Option.some.injEq]
  constructor
  · rintro ⟨t, rfl⟩; rfl
  · rintro rfl; exact ⟨_, rfl⟩

theorem by_new : By (es ++ [e]) es.length t ↔ e.tid = t := by
  simp only [By, List.getElem?_concat_length, Option.some.injEq]
  constructor
  · rintro ⟨t, rfl⟩; rfl
  · rintro rfl; exact ⟨_, rfl⟩

theorem is_cases (h : Is (es ++ [e]) i w) : Is es i w ∨ (i = es.length ∧ e.what = w) := by
  have h1 := h.lt
  simp only [List.length_append, List.length_singleton] at h1
  by_cases h2 : i < es.length
  · left
    obtain ⟨t, h⟩ := h
    rw [List.getElem?_append_left h2] at h
    exact ⟨t, h⟩
  · have : i = es.length := by omega
    subst this
    exact Or.inr ⟨rfl, is_new.mp h⟩

/-- thread `t` did event `i`, or something that it happens before -/
def Knows (sync : What A R C Y → What A R C Y → Prop) (es : List (Done A R C Y)) (t i : Nat) : Prop :=
  ∃ j, By es j t ∧ (i = j ∨ Hb sync es i j)

/-- event `i` happens before some event `w`, or is it -/
def Upto (sync : What A R C Y → What A R C Y → Prop) (es : List (Done A R C Y)) (w : What A R C Y) (i : Nat) : Prop :=
  ∃ j, Is es j w ∧ (i = j ∨ Hb sync es i j)

theorem Knows.mono (h : Knows sync es t i) : Knows sync (es ++ es') t i := by
  obtain ⟨j, h1, h2⟩ := h
  exact ⟨j, h1.mono, h2.imp id Hb.mono⟩

theorem Upto.mono (h : Upto sync es w i) : Upto sync (es ++ es') w i := by
  obtain ⟨j, h1, h2⟩ := h
  exact ⟨j, h1.mono, h2.imp id Hb.mono⟩

theorem knows_new : Knows sync (es ++ [⟨t, w⟩]) t es.length := ⟨_, by_new.mpr rfl, Or.inl rfl⟩

/-- what a thread knows happens before what it does next -/
theorem Knows.next (h : Knows sync es t i) : Hb sync (es ++ [⟨t, w⟩]) i es.length := by
  obtain ⟨j, h1, h2⟩ := h
  have hp : Hb sync (es ++ [⟨t, w⟩]) j es.length := .po h1.lt t h1.mono (by_new.mpr rfl)
  rcases h2 with rfl | h2
  · exact hp
  · exact .trans h2.mono hp

theorem Knows.upto (h : Knows sync es t i) : Upto sync (es ++ [⟨t, w⟩]) w i := ⟨_, is_new.mpr rfl, Or.inr h.next⟩

/-- a thread learns by synchronising -/
theorem Upto.learn {w' : What A R C Y} (h : Upto sync es w i) (hs : sync w w') : Knows sync (es ++ [⟨t, w'⟩]) t i := by
  obtain ⟨j, h1, h2⟩ := h
  have hp : Hb sync (es ++ [⟨t, w'⟩]) j es.length := .sync h1.lt w w' h1.mono (is_new.mpr rfl) hs
  refine ⟨_, by_new.mpr rfl, Or.inr ?_⟩
  rcases h2 with rfl | h2
  · exact hp
  · exact .trans h2.mono hp

end

end Itlib.Conc
