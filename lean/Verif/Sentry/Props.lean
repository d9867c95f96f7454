import Verif.Sentry.Model
import Verif.Sentry.Spec
import Verif.Core.Tac
import Mathlib.Data.List.Nodup

/-! # Property C43: sentry -/
namespace Itlib.Sentry
open Itlib
variable (cpp17 : Bool) (keeps : Nat → Bool)

def exec : Op → Mem Unit
  | .create x n throws elided => makeSentry cpp17 keeps x n throws elided
  | .move d s => if cpp17 then .undef else moveCtor keeps (.user d) (.user s)
  | .destroy x => dtor cpp17 (.user x)

/-- A call, the caller catching exceptions; `none` is undefined behaviour. -/
def callOp (op : Op) (s : St) : Option (Reply × St) :=
  match exec cpp17 keeps op s with
  | .ok _ s => some (.done, s)
  | .throw _ s => some (.exc, s)
  | .ub => none

def run : List Op → St → Option (List Reply × St)
  | [], s => some ([], s)
  | op :: ops, s => do
    let (r, s) ← callOp cpp17 keeps op s
    let (rs, s) ← run ops s
    some (r :: rs, s)

def initial : St := ⟨fun _ => none, []⟩

/-- the object with this duty -/
def Has (cpp17 : Bool) : Option (Option Nat) → Option Obj → Prop
  | none, o => o = none
  | some (some n), o => o = some ⟨some n, true⟩
  | some none, o => cpp17 = false ∧ ∃ f, o = some ⟨f, false⟩

structure Rel (y : Spec.Sys) (s : St) : Prop where
  user : ∀ x, Has cpp17 (y.duty x) (s.objs (.user x))
  tmp : s.objs .tmp = none
  log : s.log = y.log

variable {cpp17 keeps}

theorem Rel.update {y : Spec.Sys} {s : St} (h : Rel cpp17 y s) {x : Nat} {q : Option (Option Nat)} {o : Option Obj} (ho : Has cpp17 q o) :
    Rel cpp17 { y with duty := Function.update y.duty x q } { s with objs := Function.update s.objs (.user x) o } := by
  refine ⟨?_, by simpa using h.tmp, h.log⟩
  intro x'
  by_cases e : x' = x
  · subst e; simpa using ho
  · simpa [e] using h.user x'

theorem step_refines {op : Op} {y y' : Spec.Sys} {r : Reply} {s : St} (h : Rel cpp17 y s) (hs : Spec.step cpp17 op y = some (r, y')) :
    ∃ s', callOp cpp17 keeps op s = some (r, s') ∧ Rel cpp17 y' s' := by
  cases op with
  | create x n throws elided =>
    simp only [Spec.step] at hs
    split at hs
    · cases hs
    rename_i hx
    have hx : y.duty x = none := by simpa using hx
    have hu := h.user x
    rw [hx] at hu
    cases throws with
    | true =>
      simp only [if_true, Option.some.injEq, Prod.mk.injEq] at hs
      obtain ⟨rfl, rfl⟩ := hs
      refine ⟨s, ?_, h⟩
      cases hc : (cpp17 || elided) <;> simp [callOp, exec, makeSentry, ctor, hc]
    | false =>
      simp only [Bool.false_eq_true, if_false, Option.some.injEq, Prod.mk.injEq] at hs
      obtain ⟨rfl, rfl⟩ := hs
      refine ⟨{ s with objs := Function.update s.objs (.user x) (some ⟨some n, true⟩) }, ?_, h.update rfl⟩
      cases hc : (cpp17 || elided) with
      | true => simp [callOp, exec, makeSentry, ctor, hc, put]
      | false =>
        obtain ⟨rfl, rfl⟩ : cpp17 = false ∧ elided = false := by simpa using hc
        simp [callOp, exec, makeSentry, ctor, put, moveCtor, rd, dtor, M.load]
        funext i
        cases i with
        | tmp => simp [h.tmp]
        | user x' => by_cases e : x' = x <;> simp [e]
  | move d s₀ =>
    simp only [Spec.step] at hs
    split at hs
    · cases hs
    rename_i hc
    simp only [not_or, ne_eq, Decidable.not_not, Bool.not_eq_true] at hc
    obtain ⟨rfl, hd, hs0⟩ := hc
    simp only [Option.some.injEq, Prod.mk.injEq] at hs
    obtain ⟨rfl, rfl⟩ := hs
    have hsd : s₀ ≠ d := by rintro rfl; exact hs0 hd
    obtain ⟨q, hq⟩ := Option.ne_none_iff_exists'.mp hs0
    obtain ⟨o, ho, hob⟩ : ∃ o, s.objs (.user s₀) = some o ∧ Has false (some q) (some ⟨o.func, o.has⟩) := by
      have := h.user s₀
      rw [hq] at this
      cases q with
      | none => obtain ⟨-, f, hf⟩ := this; exact ⟨_, hf, rfl, f, rfl⟩
      | some n => exact ⟨_, this, rfl⟩
    rw [hq]
    obtain ⟨rest, hrest⟩ : ∃ rest, leftover keeps o.func = rest := ⟨_, rfl⟩
    refine ⟨{ s with objs := Function.update (Function.update s.objs (.user s₀) (some ⟨rest, false⟩)) (.user d) (some ⟨o.func, o.has⟩) }, ?_, ?_⟩
    · simp only [callOp, exec, moveCtor, rd, M.load, M.bind_apply, M.modify_apply, put, Function.update_self, Bool.false_eq_true,
        if_false, ho, hrest]
      congr 3
      funext i
      by_cases e : i = .user d
      · subst e; simp [hsd.symm]
      · by_cases e' : i = .user s₀
        · subst e'; simp [e]
        · simp [e, e']
    · exact (h.update (x := s₀) (q := some none) (o := some ⟨rest, false⟩) ⟨rfl, rest, rfl⟩).update hob
  | destroy x =>
    simp only [Spec.step] at hs
    have hu := h.user x
    cases hx : y.duty x with
    | none => simp [hx] at hs
    | some q =>
      simp only [hx, Option.some.injEq, Prod.mk.injEq] at hs
      rw [hx] at hu
      obtain ⟨rfl, rfl⟩ := hs
      cases q with
      | none =>
        obtain ⟨rfl, f, hf⟩ := hu
        refine ⟨{ s with objs := Function.update s.objs (.user x) none }, ?_, ?_⟩
        · simp [callOp, exec, dtor, rd, M.load, hf, put]
        · simpa using h.update (x := x) (q := none) (o := none) rfl
      | some n =>
        have hu' : s.objs (.user x) = some ⟨some n, true⟩ := hu
        clear hu
        refine ⟨⟨Function.update s.objs (.user x) none, s.log ++ [n]⟩, ?_, ?_⟩
        · cases cpp17 <;> simp [callOp, exec, dtor, rd, M.load, hu', put, call]
        · have := h.update (x := x) (q := none) (o := none) rfl
          exact ⟨this.user, this.tmp, by simp [h.log]⟩

theorem run_refines {ops : List Op} {y y' : Spec.Sys} {rs : List Reply} {s : St} (h : Rel cpp17 y s) (hs : Spec.run cpp17 ops y = some (rs, y')) :
    ∃ s', run cpp17 keeps ops s = some (rs, s') ∧ Rel cpp17 y' s' := by
  induction ops generalizing y s rs with
  | nil => simp [Spec.run] at hs; obtain ⟨rfl, rfl⟩ := hs; exact ⟨s, rfl, h⟩
  | cons op ops ih =>
    cases h1 : Spec.step cpp17 op y with
    | none => simp [Spec.run, h1] at hs
    | some p =>
      obtain ⟨r, y1⟩ := p
      cases h2 : Spec.run cpp17 ops y1 with
      | none => simp [Spec.run, h1, h2] at hs
      | some q =>
        obtain ⟨rs1, y2⟩ := q
        simp only [Spec.run, h1, h2, Option.bind_eq_bind, Option.bind_some, Option.some.injEq, Prod.mk.injEq] at hs
        obtain ⟨rfl, rfl⟩ := hs
        obtain ⟨s1, e1, r1⟩ := step_refines (keeps := keeps) h h1
        obtain ⟨s2, e2, r2⟩ := ih r1 h2
        exact ⟨s2, by simp [run, e1, e2], r2⟩

theorem rel_initial : Rel cpp17 Spec.start initial := ⟨fun _ => rfl, rfl, rfl⟩

/-- **C43.** In every history of creations, moves and destructions, in either language version: nothing undefined happens, the
functions are called exactly when, and in the order in which, the sentries with the duties are destroyed. -/
theorem C43_sentry_history (ops : List Op) (rs : List Reply) (y : Spec.Sys) (hs : Spec.run cpp17 ops Spec.start = some (rs, y)) :
    ∃ s, run cpp17 keeps ops initial = some (rs, s) ∧ s.log = y.log ∧ ∀ x, (s.objs (.user x) = none ↔ y.duty x = none) := by
  obtain ⟨s, e, r⟩ := run_refines (keeps := keeps) rel_initial hs
  refine ⟨s, e, r.log, fun x => ?_⟩
  have := r.user x
  rcases hd : y.duty x with _ | _ | n <;> rw [hd] at this
  · have this : s.objs (.user x) = none := this
    simp [this]
  · obtain ⟨-, f, hf⟩ := this; simp [hf]
  · have this : s.objs (.user x) = _ := this
    simp [this]

/-- one duty per created sentry, less those done -/
def Bal (y : Spec.Sys) (c : Nat → Nat) : Prop :=
  ∀ n, ∃ l : List Nat, l.Nodup ∧ (∀ x, x ∈ l ↔ y.duty x = some (some n)) ∧ y.log.count n + l.length = c n

theorem Bal.step {op : Op} {y y' : Spec.Sys} {r : Reply} {c : Nat → Nat} (h : Bal y c) (hs : Spec.step cpp17 op y = some (r, y')) :
    Bal y' fun n => c n + Spec.created n [op] := by
  intro n
  obtain ⟨l, h1, h2, h3⟩ := h n
  cases op with
  | create x m throws elided =>
    simp only [Spec.step] at hs
    split at hs
    · cases hs
    rename_i hx
    have hx : y.duty x = none := by simpa using hx
    cases throws with
    | true =>
      simp only [if_true, Option.some.injEq, Prod.mk.injEq] at hs
      obtain ⟨rfl, rfl⟩ := hs
      exact ⟨l, h1, h2, by simpa [Spec.created] using h3⟩
    | false =>
      simp only [Bool.false_eq_true, if_false, Option.some.injEq, Prod.mk.injEq] at hs
      obtain ⟨rfl, rfl⟩ := hs
      have hxl : x ∉ l := by rw [h2, hx]; simp
      by_cases e : m = n
      · subst e
        refine ⟨x :: l, List.nodup_cons.mpr ⟨hxl, h1⟩, ?_, by simp [Spec.created]; omega⟩
        intro x'
        by_cases e : x' = x
        · subst e; simp
        · simp [e, h2]
      · refine ⟨l, h1, ?_, by simp [Spec.created, e]; omega⟩
        intro x'
        by_cases e' : x' = x
        · subst e'; simp [hxl, e]
        · simp [e', h2]
  | move d s =>
    simp only [Spec.step] at hs
    split at hs
    · cases hs
    rename_i hc
    simp only [not_or, ne_eq, Decidable.not_not, Bool.not_eq_true] at hc
    obtain ⟨rfl, hd, hs0⟩ := hc
    simp only [Option.some.injEq, Prod.mk.injEq] at hs
    obtain ⟨rfl, rfl⟩ := hs
    have hsd : s ≠ d := by rintro rfl; exact hs0 hd
    have hdl : d ∉ l := by rw [h2, hd]; simp
    by_cases e : y.duty s = some (some n)
    · have hsl : s ∈ l := (h2 s).mpr e
      refine ⟨d :: l.erase s, List.nodup_cons.mpr ⟨fun h => hdl (List.mem_of_mem_erase h), h1.erase s⟩, ?_, ?_⟩
      · intro x'
        rw [List.mem_cons, h1.mem_erase_iff, h2]
        by_cases e1 : x' = d
        · subst e1; simp [e]
        · by_cases e2 : x' = s
          · subst e2; simp [e1]
          · simp [e1, e2]
      · have := List.length_pos_of_mem hsl
        simp only [List.length_cons, List.length_erase_of_mem hsl, Spec.created]
        omega
    · have hsl : s ∉ l := by rw [h2]; exact e
      refine ⟨l, h1, ?_, by simpa [Spec.created] using h3⟩
      intro x'
      rw [h2]
      by_cases e1 : x' = d
      · subst e1; simp [e, hd]
      · by_cases e2 : x' = s
        · subst e2; simp [e1, e]
        · simp [e1, e2]
  | destroy x =>
    simp only [Spec.step] at hs
    cases hx : y.duty x with
    | none => simp [hx] at hs
    | some q =>
      simp only [hx, Option.some.injEq, Prod.mk.injEq] at hs
      obtain ⟨rfl, rfl⟩ := hs
      by_cases e : q = some n
      · subst e
        have hxl : x ∈ l := (h2 x).mpr hx
        refine ⟨l.erase x, h1.erase x, ?_, ?_⟩
        · intro x'
          rw [h1.mem_erase_iff, h2]
          by_cases e1 : x' = x
          · subst e1; simp
          · simp [e1]
        · have := List.length_pos_of_mem hxl
          simp [List.length_erase_of_mem hxl, Spec.created, List.count_append]
          omega
      · have hxl : x ∉ l := by rw [h2, hx]; simpa using e
        refine ⟨l, h1, ?_, ?_⟩
        · intro x'
          by_cases e1 : x' = x
          · subst e1; simp [hxl]
          · simp [e1, h2]
        · have : q.toList.count n = 0 := by
            cases q with
            | none => rfl
            | some m => simpa [List.count_singleton] using e
          simp [Spec.created, List.count_append, this, h3]

theorem created_cons (n : Nat) (op : Op) (ops : List Op) : Spec.created n (op :: ops) = Spec.created n [op] + Spec.created n ops := by
  rcases op with ⟨x, m, t, e⟩ | ⟨d, s⟩ | x
  · cases t <;> simp [Spec.created]
  · simp [Spec.created]
  · simp [Spec.created]

theorem Bal.run {ops : List Op} {y y' : Spec.Sys} {rs : List Reply} {c : Nat → Nat} (h : Bal y c) (hs : Spec.run cpp17 ops y = some (rs, y')) :
    Bal y' fun n => c n + Spec.created n ops := by
  induction ops generalizing y rs c with
  | nil => simp [Spec.run] at hs; obtain ⟨rfl, rfl⟩ := hs; simpa [Spec.created] using h
  | cons op ops ih =>
    cases h1 : Spec.step cpp17 op y with
    | none => simp [Spec.run, h1] at hs
    | some p =>
      obtain ⟨r, y1⟩ := p
      cases h2 : Spec.run cpp17 ops y1 with
      | none => simp [Spec.run, h1, h2] at hs
      | some q =>
        obtain ⟨rs1, y2⟩ := q
        simp only [Spec.run, h1, h2, Option.bind_eq_bind, Option.bind_some, Option.some.injEq, Prod.mk.injEq] at hs
        obtain ⟨rfl, rfl⟩ := hs
        have := ih (h.step h1) h2
        intro n
        simp only [created_cons n op ops, ← Nat.add_assoc]
        exact this n

/-- **C43.** Under any chain of moves, no function is called more often than sentries were created for it, and when all sentries
are gone, every function was called exactly once for every sentry created for it. -/
theorem C43_sentry_exactly_once (ops : List Op) (rs : List Reply) (y : Spec.Sys) (hs : Spec.run cpp17 ops Spec.start = some (rs, y)) :
    ∃ s, run cpp17 keeps ops initial = some (rs, s) ∧ (∀ n, s.log.count n ≤ Spec.created n ops) ∧
      ((∀ x, s.objs (.user x) = none) → ∀ n, s.log.count n = Spec.created n ops) := by
  obtain ⟨s, e, hl, hd⟩ := C43_sentry_history (keeps := keeps) ops rs y hs
  have hb : Bal Spec.start fun _ => 0 := fun n => ⟨[], by simp, by simp [Spec.start], by simp [Spec.start]⟩
  have hb := hb.run hs
  refine ⟨s, e, fun n => ?_, fun hx n => ?_⟩
  · obtain ⟨l, -, -, h3⟩ := hb n
    simp only [Nat.zero_add] at h3
    rw [hl]; omega
  · obtain ⟨l, -, h2, h3⟩ := hb n
    have : l = [] := by
      rw [List.eq_nil_iff_forall_not_mem]
      intro x hxl
      rw [h2, (hd x).mp (hx x)] at hxl
      cases hxl
    subst this
    rw [hl]
    simpa using h3

/-- a concrete history: two sentries, moves, a failed creation -/
example : ∃ rs y, Spec.run false [.create 0 7 false false, .create 1 8 false true, .create 2 9 true false, .move 2 0, .move 3 2, .destroy 2,
    .destroy 1, .destroy 0, .destroy 3] Spec.start = some (rs, y) ∧ y.log = [8, 7] ∧ rs.count .exc = 1 :=
  ⟨_, _, rfl, rfl, rfl⟩

example : ∃ rs y, Spec.run true [.create 0 7 false false, .create 1 8 false true, .destroy 1, .destroy 0] Spec.start = some (rs, y) ∧
    y.log = [8, 7] := ⟨_, _, rfl, rfl⟩

end Itlib.Sentry
