import Verif.RStream.Spec
import Verif.Core.Tac

/-! # Properties of `redirect_rstream` (C31) -/
namespace Itlib.RStream
open Itlib M
variable {C : Type}

structure Rel (y : Spec.State C) (w : World C) : Prop where
  text : w.text = y.text
  pos : w.pos = y.pos
  eof : w.eof = y.eof
  fail : w.fail = y.fail
  saved : w.restore = y.saved.map some
  le : y.pos ≤ y.text.length
  sle : ∀ p ∈ y.saved, p ≤ y.text.length

theorem call_step {op : Op} {y y' : Spec.State C} {w : World C} {r} (h : Rel y w)
    (hs : Spec.Safe op y) (hc : Spec.call op y = some (r, y')) :
    ∃ w', call op w = some (r, w') ∧ Rel y' w' := by
  obtain ⟨t, p, e, f, sv⟩ := y
  obtain ⟨t', p', e', f', sv'⟩ := w
  obtain ⟨h1, h2, h3, h4, h5, h6, h7⟩ := h
  simp only at h1 h2 h3 h4 h5 h6 h7
  subst h1 h2 h3 h4 h5
  cases op with
  | read n =>
    simp only [Spec.call] at hc
    cases e' <;> cases f' <;> simp at hc <;> try
      (obtain ⟨rfl, rfl⟩ := hc
       exact ⟨_, by simp [call, exec, rread, read, sentry, good]; rfl, rfl, rfl, rfl, rfl, rfl, h6, h7⟩)
    split at hc
    · rename_i hle
      simp only [Option.some.injEq, Prod.mk.injEq] at hc
      obtain ⟨rfl, rfl⟩ := hc
      have hl : ((t'.drop p').take n).length = n := by simp; omega
      have hl' : min n (t'.length - p') = n := by omega
      refine ⟨⟨t', p' + n, false, false, sv.map some⟩, ?_, rfl, rfl, rfl, rfl, rfl, hle, h7⟩
      simp [call, exec, rread, read, sentry, good, hl']
    · rename_i hle
      simp only [Option.some.injEq, Prod.mk.injEq] at hc
      obtain ⟨rfl, rfl⟩ := hc
      have hl' : min n (t'.length - p') = t'.length - p' := by omega
      have hn : t'.length - p' < n := by omega
      refine ⟨⟨t', t'.length, true, true, sv.map some⟩, ?_, rfl, rfl, rfl, rfl, rfl, Nat.le_refl _, h7⟩
      have ht : List.take n (List.drop p' t') = List.drop p' t' := List.take_of_length_le (by simp; omega)
      simp [call, exec, rread, read, sentry, good, hl', hn, ht]
      omega
  | peek =>
    simp only [Spec.call] at hc
    cases e' <;> cases f' <;> simp at hc <;> try
      (obtain ⟨rfl, rfl⟩ := hc
       exact ⟨_, by simp [call, exec, peek, sentry, good]; rfl, rfl, rfl, rfl, rfl, rfl, h6, h7⟩)
    split at hc
    · rename_i hlt
      simp only [Option.some.injEq, Prod.mk.injEq] at hc
      obtain ⟨rfl, rfl⟩ := hc
      refine ⟨⟨t', p', false, false, sv.map some⟩, ?_, rfl, rfl, rfl, rfl, rfl, h6, h7⟩
      simp [call, exec, peek, sentry, good, List.getElem?_eq_getElem hlt]
    · rename_i hlt
      simp only [Option.some.injEq, Prod.mk.injEq] at hc
      obtain ⟨rfl, rfl⟩ := hc
      refine ⟨⟨t', p', true, false, sv.map some⟩, ?_, rfl, rfl, rfl, rfl, rfl, h6, h7⟩
      have hnone : t'[p']? = none := List.getElem?_eq_none (by omega)
      simp [call, exec, peek, sentry, good, hnone]
  | clear =>
    simp only [Spec.call, Option.some.injEq, Prod.mk.injEq] at hc
    obtain ⟨rfl, rfl⟩ := hc
    exact ⟨_, by simp [call, exec, clear]; rfl, rfl, rfl, rfl, rfl, rfl, h6, h7⟩
  | tell =>
    simp only [Spec.call] at hc
    cases e' <;> cases f' <;> simp at hc <;> obtain ⟨rfl, rfl⟩ := hc <;>
      exact ⟨_, by simp [call, exec, tellg, sentry, good]; rfl, rfl, rfl, rfl, rfl, rfl, h6, h7⟩
  | fail =>
    simp only [Spec.call, Option.some.injEq, Prod.mk.injEq] at hc
    obtain ⟨rfl, rfl⟩ := hc
    exact ⟨_, by simp [call, exec, rfail]; rfl, rfl, rfl, rfl, rfl, rfl, h6, h7⟩
  | good =>
    simp only [Spec.call, Option.some.injEq, Prod.mk.injEq] at hc
    obtain ⟨rfl, rfl⟩ := hc
    exact ⟨_, by simp [call, exec, rgood, RStream.good]; rfl, rfl, rfl, rfl, rfl, rfl, h6, h7⟩
  | eof =>
    simp only [Spec.call, Option.some.injEq, Prod.mk.injEq] at hc
    obtain ⟨rfl, rfl⟩ := hc
    exact ⟨_, by simp [call, exec, reof]; rfl, rfl, rfl, rfl, rfl, rfl, h6, h7⟩
  | «open» q =>
    simp only [Spec.call] at hc
    split at hc
    · rename_i hle
      simp only [Option.some.injEq, Prod.mk.injEq] at hc
      obtain ⟨rfl, rfl⟩ := hc
      obtain ⟨he, hf⟩ := hs
      simp only at he hf
      subst he hf
      refine ⟨⟨t', q, false, false, some p' :: sv.map some⟩, ?_, rfl, rfl, rfl, rfl, rfl, hle, ?_⟩
      · simp [call, exec, openRedirect, tellg, seekg, sentry, RStream.good, hle]
      · intro x hx; simp at hx; rcases hx with rfl | hx <;> [exact h6; exact h7 x hx]
    · simp at hc
  | close =>
    simp only [Spec.call] at hc
    cases sv with
    | nil => simp at hc
    | cons q qs =>
      simp only [Option.some.injEq, Prod.mk.injEq] at hc
      obtain ⟨rfl, rfl⟩ := hc
      simp only [Spec.Safe] at hs
      subst hs
      have hq : q ≤ t'.length := h7 q (by simp)
      refine ⟨⟨t', q, false, false, qs.map some⟩, ?_, rfl, rfl, rfl, rfl, rfl, hq, fun x hx => h7 x (by simp [hx])⟩
      simp [call, exec, closeRedirect, seekg, sentry, RStream.good, hq]

theorem run_rel {ops : List Op} {y y' : Spec.State C} {w : World C} {rs} (h : Rel y w)
    (hs : Spec.SafeRun ops y) (hc : Spec.run ops y = some (rs, y')) :
    ∃ w', run ops w = some (rs, w') ∧ Rel y' w' := by
  induction ops generalizing y w rs with
  | nil =>
    simp only [Spec.run, Option.some.injEq, Prod.mk.injEq] at hc
    obtain ⟨rfl, rfl⟩ := hc
    exact ⟨w, rfl, h⟩
  | cons op ops ih =>
    simp only [Spec.run, Option.bind_eq_bind, Option.bind_eq_some_iff, Option.some.injEq] at hc
    obtain ⟨⟨r, y1⟩, h1, ⟨rs', y2⟩, h2, h3⟩ := hc
    simp only [Prod.mk.injEq] at h3
    obtain ⟨rfl, rfl⟩ := h3
    obtain ⟨w1, e1, hr1⟩ := call_step h hs.1 h1
    obtain ⟨w2, e2, hr2⟩ := ih hr1 (hs.2 _ _ h1) h2
    exact ⟨w2, by simp [run, e1, e2], hr2⟩

theorem run_append (a c : List Op) (w : World C) :
    run (a ++ c) w = (run a w).bind fun p => (run c p.2).map fun q => (p.1 ++ q.1, q.2) := by
  induction a generalizing w with
  | nil => simp [run]
  | cons op a ih =>
    simp only [List.cons_append, run, Option.bind_eq_bind]
    cases call op w with
    | none => simp
    | some p =>
      simp only [Option.bind_some, ih]
      cases run a p.2 with
      | none => simp
      | some q =>
        simp only [Option.bind_some]
        cases run c q.2 <;> simp

theorem start_rel (text : List C) (pos : Nat) (h : pos ≤ text.length) : Rel (Spec.start text pos) (start text pos) :=
  ⟨rfl, rfl, rfl, rfl, rfl, h, by simp [Spec.start]⟩

/-- C31. Every history of reads, nested redirects and their destruction, state queries and `clear()`s, on every text, gets
what the specification says: reading starts at the requested position, and the end of a redirect brings the position of
before. Missing: a redirect destroyed while the stream is in the failed state, and one created on a stream that is not
good (see the defect theorems). -/
theorem C31_redirect_history_partial (text : List C) (pos : Nat) (hp : pos ≤ text.length) (ops : List Op)
    (rs : List (Reply C)) (y : Spec.State C) (hr : Spec.run ops (Spec.start text pos) = some (rs, y))
    (hs : Spec.SafeRun ops (Spec.start text pos)) :
    ∃ w, run ops (start text pos) = some (rs, w) ∧ w.pos = y.pos := by
  obtain ⟨w, h, hrel⟩ := run_rel (start_rel text pos hp) hs hr
  exact ⟨w, h, hrel.pos⟩

/-- C31. The simple case spelled out: redirect to `p`, read amounts that are there, end the redirect: the reads give the
consecutive slices from `p`, and the stream is back where it was. -/
theorem C31_redirect_reads_and_restores (text : List C) (pos p : Nat) (hp : pos ≤ text.length) (ns : List Nat)
    (hn : p + ns.sum ≤ text.length) :
    ∃ w texts, run (.open p :: ns.map .read ++ [.close]) (start text pos) =
        some (.unit :: texts.map .text ++ [.unit], w) ∧
      (texts : List (List C)).flatten = (text.drop p).take ns.sum ∧ texts.length = ns.length ∧ w = start text pos := by
  have key : ∀ (ns : List Nat) (p : Nat) (sv : List (Option Nat)), p + ns.sum ≤ text.length →
      ∃ texts : List (List C), run (ns.map .read) ⟨text, p, false, false, sv⟩ = some (texts.map .text, ⟨text, p + ns.sum, false, false, sv⟩) ∧
        texts.flatten = (text.drop p).take ns.sum ∧ texts.length = ns.length := by
    intro ns
    induction ns with
    | nil => intro p sv _; exact ⟨[], by simp [run], by simp, rfl⟩
    | cons n ns ih =>
      intro p sv h
      simp only [List.sum_cons] at h
      obtain ⟨texts, e, hf, hl⟩ := ih (p + n) sv (by omega)
      refine ⟨(text.drop p).take n :: texts, ?_, ?_, by simp [hl]⟩
      · have hmin : min n (text.length - p) = n := by omega
        have hle : n ≤ text.length - p := by omega
        have : call (.read n) (⟨text, p, false, false, sv⟩ : World C) =
            some (.text ((text.drop p).take n), ⟨text, p + n, false, false, sv⟩) := by
          simp [call, exec, rread, read, sentry, good, hmin]
        simp only [List.map_cons, run, this, Option.bind_eq_bind, Option.bind_some, e]
        simp [Nat.add_assoc]
      · simp only [List.flatten_cons, hf, List.sum_cons]
        rw [List.take_add, List.drop_drop]
  obtain ⟨texts, e, hf, hl⟩ := key ns p [some pos] hn
  refine ⟨start text pos, texts, ?_, hf, hl, rfl⟩
  have h1 : call (.open p) (start text pos) = some (Reply.unit, ⟨text, p, false, false, [some pos]⟩) := by
    have : p ≤ text.length := by omega
    simp [call, exec, openRedirect, tellg, seekg, sentry, good, start, this]
  have h2 : call .close (⟨text, p + ns.sum, false, false, [some pos]⟩ : World C) = some (Reply.unit, start text pos) := by
    simp [call, exec, closeRedirect, seekg, sentry, good, start, hp]
  simp only [List.cons_append, run, h1, Option.bind_eq_bind, Option.bind_some]
  rw [run_append, e]
  simp [run, h2]

/-- C31, defect. After any (safe) history, when a redirect ends while the stream is in the failed state — as after a read
that asked for more than there is — the position is not restored: clearing the state shows where the reads left it. -/
theorem C31_not_restored_after_failed_read_defect (text : List C) (pos : Nat) (hp : pos ≤ text.length) (ops : List Op)
    (rs : List (Reply C)) (y : Spec.State C) (hr : Spec.run ops (Spec.start text pos) = some (rs, y))
    (hs : Spec.SafeRun ops (Spec.start text pos)) (q : Nat) (qs : List Nat) (hq : y.saved = q :: qs) (hf : y.fail = true) :
    ∃ w, run (ops ++ [.close, .clear, .tell]) (start text pos) = some (rs ++ [.unit, .unit, .pos (some y.pos)], w) := by
  obtain ⟨w, h, h1, h2, h3, h4, h5, h6, h7⟩ := run_rel (start_rel text pos hp) hs hr
  refine ⟨⟨w.text, w.pos, false, false, qs.map some⟩, ?_⟩
  rw [run_append, h]
  obtain ⟨t', p', e', f', sv'⟩ := w
  simp only at h1 h2 h3 h4 h5
  subst h1 h2 h3 h4
  rw [hq] at h5
  simp only [List.map_cons] at h5
  subst h5
  simp [run, call, exec, closeRedirect, seekg, sentry, good, hf, clear, tellg]

/-- C31, defect. After any (safe) history, a redirect created on a stream at the end of file (eofbit set) does not go to the
requested position: nothing can be read from it. -/
theorem C31_redirect_at_eof_defect (text : List C) (pos : Nat) (hp : pos ≤ text.length) (ops : List Op)
    (rs : List (Reply C)) (y : Spec.State C) (hr : Spec.run ops (Spec.start text pos) = some (rs, y))
    (hs : Spec.SafeRun ops (Spec.start text pos)) (he : y.eof = true) (q n : Nat) :
    ∃ w, run (ops ++ [.open q, .read n]) (start text pos) = some (rs ++ [.unit, .text []], w) ∧ w.pos = y.pos := by
  obtain ⟨w, h, h1, h2, h3, h4, h5, h6, h7⟩ := run_rel (start_rel text pos hp) hs hr
  rw [run_append, h]
  obtain ⟨t', p', e', f', sv'⟩ := w
  simp only at h1 h2 h3 h4 h5
  subst h1 h2 h3 h4 h5
  refine ⟨⟨y.text, y.pos, false, true, none :: y.saved.map some⟩, ?_, rfl⟩
  simp [run, call, exec, openRedirect, seekg, sentry, good, he, tellg, rread, read]

/-! ### Concrete cases -/

def demo : List Op :=
  [.read 2, .open 5, .read 2, .open 0, .read 1, .tell, .close, .read 2, .good, .close, .tell, .open 7, .read 9, .fail, .eof,
   .clear, .close, .tell, .read 1]

example : ∃ y, Spec.run demo (Spec.start [0, 1, 2, 3, 4, 5, 6, 7, 8, 9] 0) = some ([.text [0, 1], .unit, .text [5, 6], .unit, .text [0],
      .pos (some 1), .unit, .text [7, 8], .bool true, .unit, .pos (some 2), .unit, .text [7, 8, 9], .bool true, .bool true, .unit,
      .unit, .pos (some 2), .text [2]], y) ∧ Spec.SafeRun demo (Spec.start [0, 1, 2, 3, 4, 5, 6, 7, 8, 9] 0) := by
  refine ⟨_, rfl, ?_⟩
  simp [Spec.SafeRun, Spec.Safe, demo, Spec.call, Spec.start]

/-- the state of the first defect: a failed read inside a redirect that started elsewhere -/
example : ∃ rs y, Spec.run [.open 1, .read 5] (Spec.start [0, 1, 2] 0) = some (rs, y) ∧
    Spec.SafeRun [.open 1, .read 5] (Spec.start [0, 1, 2] 0) ∧ y.saved = [0] ∧ y.fail = true ∧ y.pos = 3 := by
  refine ⟨_, _, rfl, ?_, rfl, rfl, rfl⟩
  simp [Spec.SafeRun, Spec.Safe, Spec.start]

/-- the state of the second defect: the owner has seen the end of the file -/
example : ∃ rs y, Spec.run [.read 3, .peek] (Spec.start [0, 1, 2] 0) = some (rs, y) ∧
    Spec.SafeRun [.read 3, .peek] (Spec.start [0, 1, 2] 0) ∧ y.eof = true ∧ y.fail = false := by
  refine ⟨_, _, rfl, ?_, rfl, rfl⟩
  simp [Spec.SafeRun, Spec.Safe]

end Itlib.RStream
