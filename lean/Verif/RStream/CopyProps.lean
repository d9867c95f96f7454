import Verif.RStream.CopySpec
import Verif.RStream.Props

/-! # Properties of copied redirects that end in any order (C65) -/
namespace Itlib.RStream
open Itlib M
variable {C : Type}

structure CRel (y : Spec.CState C) (w : CWorld C) : Prop where
  stream : Rel y.stream w.stream
  none_saved : y.stream.saved = []
  objs : ∀ i, w.objs i = (y.back i).map some
  le : ∀ i p, y.back i = some p → p ≤ y.stream.text.length

/-- a use of the stream keeps the text -/
theorem call_keeps {op : Op} {y y' : Spec.State C} {r} (hc : Spec.call op y = some (r, y')) (h1 : ∀ p, op ≠ .open p) (h2 : op ≠ .close) :
    y'.text = y.text ∧ y'.saved = y.saved := by
  cases op with
  | «open» p => exact absurd rfl (h1 p)
  | close => exact absurd rfl h2
  | read n =>
    simp only [Spec.call] at hc
    split at hc
    · simp at hc; obtain ⟨_, rfl⟩ := hc; exact ⟨rfl, rfl⟩
    · split at hc <;> simp at hc <;> obtain ⟨_, rfl⟩ := hc <;> exact ⟨rfl, rfl⟩
  | peek =>
    simp only [Spec.call] at hc
    split at hc
    · simp at hc; obtain ⟨_, rfl⟩ := hc; exact ⟨rfl, rfl⟩
    · split at hc <;> simp at hc <;> obtain ⟨_, rfl⟩ := hc <;> exact ⟨rfl, rfl⟩
  | tell =>
    simp only [Spec.call] at hc
    split at hc <;> simp at hc <;> obtain ⟨_, rfl⟩ := hc <;> exact ⟨rfl, rfl⟩
  | clear => simp [Spec.call] at hc; obtain ⟨_, rfl⟩ := hc; exact ⟨rfl, rfl⟩
  | fail => simp [Spec.call] at hc; obtain ⟨_, rfl⟩ := hc; exact ⟨rfl, rfl⟩
  | good => simp [Spec.call] at hc; obtain ⟨_, rfl⟩ := hc; exact ⟨rfl, rfl⟩
  | eof => simp [Spec.call] at hc; obtain ⟨_, rfl⟩ := hc; exact ⟨rfl, rfl⟩

theorem use_step {op : Op} {y y' : Spec.CState C} {w : CWorld C} {r} (h : CRel y w) (h1 : ∀ p, op ≠ .open p) (h2 : op ≠ .close)
    (hc : (Spec.call op y.stream).map (fun p => (p.1, { y with stream := p.2 })) = some (r, y')) :
    ∃ s, exec op w.stream = .ok r s ∧ CRel y' { w with stream := s } := by
  simp only [Option.map_eq_some_iff] at hc
  obtain ⟨⟨r', y1⟩, e1, e2⟩ := hc
  simp only [Prod.mk.injEq] at e2
  obtain ⟨rfl, rfl⟩ := e2
  have hs : Spec.Safe op y.stream := by cases op <;> first | trivial | exact absurd rfl h2 | exact absurd rfl (h1 _)
  obtain ⟨s, e3, hr⟩ := call_step h.stream hs e1
  obtain ⟨k1, k2⟩ := call_keeps e1 h1 h2
  refine ⟨s, ?_, hr, k2.trans h.none_saved, h.objs, fun i p hp => by simp only [k1]; exact h.le i p hp⟩
  simp only [call] at e3
  cases he : exec op w.stream with
  | ok a s' => simp only [he, Option.some.injEq, Prod.mk.injEq] at e3; rw [e3.1, e3.2]
  | throw => simp [he] at e3
  | ub => simp [he] at e3

theorem ccall_step {op : COp} {y y' : Spec.CState C} {w : CWorld C} {r} (h : CRel y w)
    (hs : Spec.CSafe op y) (hc : Spec.ccall op y = some (r, y')) :
    ∃ w', ccall op w = some (r, w') ∧ CRel y' w' := by
  cases op with
  | use op =>
    cases op with
    | «open» => simp [Spec.ccall] at hc
    | close => simp [Spec.ccall] at hc
    | _ =>
      simp only [Spec.ccall] at hc
      obtain ⟨s, e, hr⟩ := use_step h (by simp) (by simp) hc
      exact ⟨_, by simp only [ccall, cexec, onStream, e], hr⟩
  | «open» i p =>
    simp only [Spec.ccall] at hc
    split at hc
    · rename_i hb
      simp only [Option.some.injEq, Prod.mk.injEq] at hc
      obtain ⟨rfl, rfl⟩ := hc
      obtain ⟨he, hf⟩ := hs
      obtain ⟨h1, h2, h3, h4, h5, h6, h7⟩ := h.stream
      have hi : w.objs i = none := by rw [h.objs, hb.1]; rfl
      refine ⟨⟨{ w.stream with pos := p }, Function.update w.objs i (some (some y.stream.pos))⟩, ?_, ⟨⟨h1, rfl, h3, h4, h5, hb.2, h7⟩, h.none_saved, ?_, ?_⟩⟩
      · obtain ⟨⟨t', p', e', f', sv'⟩, objs⟩ := w
        simp only at h1 h2 h3 h4 h5 hi
        subst h1 h2 h3 h4
        simp [ccall, cexec, openObj, hi, onStream, tellg, seekg, sentry, good, he, hf, hb.2]
      · intro j
        by_cases hj : j = i
        · subst hj; simp
        · simp [hj, h.objs]
      · intro j q hq
        by_cases hj : j = i
        · subst hj; simp at hq; subst hq; exact h6
        · simp [hj] at hq; exact h.le j q hq
    · simp at hc
  | copy i j =>
    simp only [Spec.ccall] at hc
    split at hc
    · rename_i p hi hj
      simp only [Option.some.injEq, Prod.mk.injEq] at hc
      obtain ⟨rfl, rfl⟩ := hc
      have hi' : w.objs i = none := by rw [h.objs, hi]; rfl
      have hj' : w.objs j = some (some p) := by rw [h.objs, hj]; rfl
      refine ⟨{ w with objs := Function.update w.objs i (some (some p)) }, by simp [ccall, cexec, copyObj, hi', hj'], h.stream, h.none_saved, ?_, ?_⟩
      · intro k
        by_cases hk : k = i
        · subst hk; simp
        · simp [hk, h.objs]
      · intro k q hq
        by_cases hk : k = i
        · subst hk; simp at hq; subst hq; exact h.le j p hj
        · simp [hk] at hq; exact h.le k q hq
    · simp at hc
  | close i =>
    simp only [Spec.ccall] at hc
    split at hc
    · rename_i p hi
      simp only [Option.some.injEq, Prod.mk.injEq] at hc
      obtain ⟨rfl, rfl⟩ := hc
      have hi' : w.objs i = some (some p) := by rw [h.objs, hi]; rfl
      simp only [Spec.CSafe] at hs
      obtain ⟨h1, h2, h3, h4, h5, h6, h7⟩ := h.stream
      have hp := h.le i p hi
      refine ⟨⟨{ w.stream with pos := p, eof := false }, Function.update w.objs i none⟩, ?_, ⟨⟨h1, rfl, rfl, h4, h5, hp, h7⟩, h.none_saved, ?_, ?_⟩⟩
      · obtain ⟨⟨t', p', e', f', sv'⟩, objs⟩ := w
        simp only at h1 h2 h3 h4 h5 hi'
        subst h1 h2 h3 h4
        simp [ccall, cexec, closeObj, hi', onStream, seekg, sentry, good, hs, hp]
      · intro k
        by_cases hk : k = i
        · subst hk; simp
        · simp [hk, h.objs]
      · intro k q hq
        by_cases hk : k = i
        · subst hk; simp at hq
        · simp [hk] at hq; exact h.le k q hq
    · simp at hc

theorem crun_rel {ops : List COp} {y y' : Spec.CState C} {w : CWorld C} {rs} (h : CRel y w)
    (hs : Spec.CSafeRun ops y) (hc : Spec.crun ops y = some (rs, y')) :
    ∃ w', crun ops w = some (rs, w') ∧ CRel y' w' := by
  induction ops generalizing y w rs with
  | nil =>
    simp only [Spec.crun, Option.some.injEq, Prod.mk.injEq] at hc
    obtain ⟨rfl, rfl⟩ := hc
    exact ⟨w, rfl, h⟩
  | cons op ops ih =>
    simp only [Spec.crun, Option.bind_eq_bind, Option.bind_eq_some_iff, Option.some.injEq] at hc
    obtain ⟨⟨r, y1⟩, h1, ⟨rs', y2⟩, h2, h3⟩ := hc
    simp only [Prod.mk.injEq] at h3
    obtain ⟨rfl, rfl⟩ := h3
    obtain ⟨w1, e1, hr1⟩ := ccall_step h hs.1 h1
    obtain ⟨w2, e2, hr2⟩ := ih hr1 (hs.2 _ _ h1) h2
    exact ⟨w2, by simp [crun, e1, e2], hr2⟩

theorem crun_append (a c : List COp) (w : CWorld C) :
    crun (a ++ c) w = (crun a w).bind fun p => (crun c p.2).map fun q => (p.1 ++ q.1, q.2) := by
  induction a generalizing w with
  | nil => simp [crun]
  | cons op a ih =>
    simp only [List.cons_append, crun, Option.bind_eq_bind]
    cases ccall op w with
    | none => simp
    | some p =>
      simp only [Option.bind_some, ih]
      cases crun a p.2 with
      | none => simp
      | some q =>
        simp only [Option.bind_some]
        cases crun c q.2 <;> simp

theorem cstart_rel (text : List C) (pos : Nat) (h : pos ≤ text.length) : CRel (Spec.cstart text pos) (cstart text pos) :=
  ⟨start_rel text pos h, rfl, fun _ => rfl, by simp [Spec.cstart]⟩

/-- C65. Every history of any number of redirects and copies of redirects that end in any order, with reads, state queries and
`clear()`s between: a redirect starts at the requested position; the end of a redirect or of a copy of it goes back to where the stream was
before the redirect. Missing: streams that are not good, as in C31. -/
theorem C65_redirects_any_order_partial (text : List C) (pos : Nat) (hp : pos ≤ text.length) (ops : List COp)
    (rs : List (Reply C)) (y : Spec.CState C) (hr : Spec.crun ops (Spec.cstart text pos) = some (rs, y))
    (hs : Spec.CSafeRun ops (Spec.cstart text pos)) :
    ∃ w, crun ops (cstart text pos) = some (rs, w) ∧ w.stream.pos = y.stream.pos := by
  obtain ⟨w, h, hrel⟩ := crun_rel (cstart_rel text pos hp) hs hr
  exact ⟨w, h, hrel.stream.pos⟩

/-- C65, defect. After any safe history that leaves the stream good: copying a redirect and ending the copy, without reading anything, takes
the stream away from where the redirect was reading, to where it was before the redirect. -/
theorem C65_copy_moves_original_defect (text : List C) (pos : Nat) (hp : pos ≤ text.length) (ops : List COp)
    (rs : List (Reply C)) (y : Spec.CState C) (hr : Spec.crun ops (Spec.cstart text pos) = some (rs, y))
    (hs : Spec.CSafeRun ops (Spec.cstart text pos)) (i j q : Nat) (hi : y.back i = none) (hj : y.back j = some q)
    (he : y.stream.eof = false) (hf : y.stream.fail = false) :
    ∃ w, crun (ops ++ [.use .tell, .copy i j, .close i, .use .tell]) (cstart text pos) =
      some (rs ++ [.pos (some y.stream.pos), .unit, .unit, .pos (some q)], w) := by
  obtain ⟨w, h, hrel⟩ := crun_rel (cstart_rel text pos hp) hs hr
  have hc : Spec.crun [.use .tell, .copy i j, .close i, .use .tell] y =
      some ([.pos (some y.stream.pos), .unit, .unit, .pos (some q)],
        ⟨{ y.stream with pos := q, eof := false }, Function.update (Function.update y.back i (some q)) i none⟩) := by
    simp [Spec.crun, Spec.ccall, Spec.call, he, hf, hi, hj]
  have hsafe : Spec.CSafeRun [.use .tell, .copy i j, .close i, .use .tell] y := by
    simp [Spec.CSafeRun, Spec.CSafe, Spec.ccall, Spec.call, he, hf, hi, hj]
  obtain ⟨w', h', -⟩ := crun_rel hrel hsafe hc
  exact ⟨w', by rw [crun_append, h]; simp [h']⟩

/-! ### Concrete cases -/

/-- two redirects that end in the order of their creation, one of them copied -/
def cdemo : List COp :=
  [.use (.read 2), .open 0 5, .use (.read 2), .open 1 0, .use (.read 1), .close 0, .use .tell, .copy 2 1, .close 1, .use (.read 1), .close 2, .use .tell]

example : (Spec.crun cdemo (Spec.cstart [0, 1, 2, 3, 4, 5, 6, 7, 8, 9] 0)).map (·.1) = some [.text [0, 1], .unit, .text [5, 6], .unit, .text [0],
      .unit, .pos (some 2), .unit, .unit, .text [7], .unit, .pos (some 7)] ∧ Spec.CSafeRun cdemo (Spec.cstart [0, 1, 2, 3, 4, 5, 6, 7, 8, 9] 0) := by
  refine ⟨rfl, ?_⟩
  simp [Spec.CSafeRun, Spec.CSafe, cdemo, Spec.ccall, Spec.call, Spec.cstart, Spec.start]

/-- the state of the defect, with a position that changes -/
example : ∃ rs y, Spec.crun [.open 0 1, .use (.read 2)] (Spec.cstart [0, 1, 2, 3] 0) = some (rs, y) ∧
    Spec.CSafeRun [.open 0 1, .use (.read 2)] (Spec.cstart [0, 1, 2, 3] 0) ∧ y.back 1 = none ∧ y.back 0 = some 0 ∧
    y.stream.eof = false ∧ y.stream.fail = false ∧ y.stream.pos = 3 := by
  refine ⟨_, _, rfl, ?_, rfl, rfl, rfl, rfl, rfl⟩
  simp [Spec.CSafeRun, Spec.CSafe, Spec.cstart, Spec.start]

end Itlib.RStream
