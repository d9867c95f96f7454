import Verif.RStream.Scope
import Mathlib.Tactic.SplitIfs

/-! # C77: redirects in scopes that are left by exceptions -/
namespace Itlib.RStream.Scope
open Itlib
variable {C : Type}

theorem clearTo_eq (e f : Bool) (w : Stream C) : clearTo e f w =
    if (e && w.throwEof) || (f && w.throwFail) then .throw .element { w with eof := e, fail := f }
    else .ok () { w with eof := e, fail := f } := by
  simp only [clearTo, M.bind_apply, M.modify_apply, M.get_apply]
  split_ifs <;> rfl

theorem call_input (w : Stream C) (n : Nat) (e f : Bool) (m : Mem C Unit)
    (h : (w.eof || w.fail) = false → m w = (setstate e f) { w with
      pos := w.pos + ((w.text.drop w.pos).take n).length, log := w.log ++ [(w.text.drop w.pos).take n] })
    (h' : (w.eof || w.fail) = true → m w = (setstate false true) w) :
    call m w = .left (input w n e f).1 (input w n e f).2 := by
  by_cases hg : (w.eof || w.fail) = true
  · rw [call, h' hg]
    simp only [setstate, M.bind_apply, M.get_apply, clearTo_eq, input, hg, if_true, settle, Stream.angry, Bool.or_false, Bool.or_true]
    cases w.eof <;> cases w.throwEof <;> cases w.throwFail <;> rfl
  · have hg' : (w.eof || w.fail) = false := by simpa using hg
    rw [call, h hg']
    simp only [Bool.or_eq_false_iff] at hg'
    simp only [setstate, M.bind_apply, M.get_apply, clearTo_eq, input, hg'.1, hg'.2, Bool.or_self, Bool.false_eq_true, if_false,
      settle, Stream.angry, Bool.false_or]
    by_cases hc : (e && w.throwEof || f && w.throwFail) = true <;> simp [hc]

theorem sentry_good (w : Stream C) (h : (w.eof || w.fail) = false) : sentry w = .ok true w := by
  simp only [Bool.or_eq_false_iff] at h
  simp [sentry, h.1, h.2]

theorem sentry_bad (w : Stream C) (h : (w.eof || w.fail) = true) : sentry w =
    if (w.eof && w.throwEof) || w.throwFail then .throw .element { w with fail := true } else .ok false { w with fail := true } := by
  have h' : (!w.eof && !w.fail) = false := by
    cases h1 : w.eof <;> cases h2 : w.fail <;> simp_all
  simp only [sentry, M.bind_apply, M.get_apply, h', setstate, clearTo_eq, Bool.or_false, Bool.or_true, Bool.true_and, Bool.false_eq_true,
    if_false]
  split_ifs <;> rfl

theorem call_read (n : Nat) (w : Stream C) :
    call (rread n) w = .left (input w n (decide ((w.text.drop w.pos).length < n)) (decide ((w.text.drop w.pos).length < n))).1
      (input w n (decide ((w.text.drop w.pos).length < n)) (decide ((w.text.drop w.pos).length < n))).2 := by
  apply call_input
  · intro hg
    simp only [rread, read, M.bind_apply, sentry_good w hg, if_true, M.get_apply, M.set_apply]
    have hl : (((w.text.drop w.pos).take n).length < n) ↔ ((w.text.drop w.pos).length < n) := by
      rw [List.length_take]; omega
    simp only [Bool.or_eq_false_iff] at hg
    by_cases hs : (w.text.drop w.pos).length < n
    · rw [if_pos (hl.2 hs)]
      simp only [hs, decide_true]
    · rw [if_neg (fun h => hs (hl.1 h))]
      simp only [hs, decide_false, setstate, M.bind_apply, M.get_apply, clearTo_eq, hg.1, hg.2, Bool.or_self, Bool.false_and,
        Bool.false_eq_true, if_false, M.pure_apply]
  · intro hg
    simp only [rread, read, M.bind_apply, sentry_bad w hg, setstate, M.get_apply, clearTo_eq, Bool.or_false, Bool.or_true, Bool.true_and]
    by_cases hc : (w.eof && w.throwEof || w.throwFail) = true
    · simp [hc]
    · simp [hc]

theorem call_extract (f : Extractor C) (w : Stream C) :
    call (rextract f) w = .left (input w (f (w.text.drop w.pos)).1 (f (w.text.drop w.pos)).2.1 (f (w.text.drop w.pos)).2.2).1
      (input w (f (w.text.drop w.pos)).1 (f (w.text.drop w.pos)).2.1 (f (w.text.drop w.pos)).2.2).2 := by
  apply call_input
  · intro hg
    simp only [rextract, extract, M.bind_apply, sentry_good w hg, if_true, M.get_apply, M.set_apply]
  · intro hg
    simp only [rextract, extract, M.bind_apply, sentry_bad w hg, setstate, M.get_apply, clearTo_eq, Bool.or_false, Bool.or_true,
      Bool.true_and]
    by_cases hc : (w.eof && w.throwEof || w.throwFail) = true
    · simp [hc]
    · simp [hc]

theorem open_good (p : Nat) (w : Stream C) (h : (w.eof || w.fail) = false) (hp : p ≤ w.text.length) :
    openRedirect p w = .ok (some w.pos) { w with pos := p } := by
  have h' := h
  simp only [Bool.or_eq_false_iff] at h'
  simp only [openRedirect, tellg, seekg, M.bind_apply, sentry_good w h, M.get_apply, h'.2, Bool.false_eq_true, if_false, M.pure_apply,
    clearTo_eq, Bool.false_and, Bool.or_self]
  rw [sentry_good _ (by simp)]
  simp only [Bool.false_eq_true, if_false, if_pos hp, M.set_apply]
  cases w; simp_all

theorem close_eq (q : Nat) (w : Stream C) (hq : q ≤ w.text.length) : closeRedirect (some q) w =
    if w.fail then (if w.throwFail then .throw .element { w with eof := false } else .ok () { w with eof := false })
    else .ok () { w with pos := q, eof := false } := by
  cases hf : w.fail
  · simp only [closeRedirect, seekg, M.bind_apply, M.get_apply, hf, clearTo_eq, Bool.false_and, Bool.or_self, Bool.false_eq_true,
      if_false]
    rw [sentry_good _ (by simp)]
    simp only [Bool.false_eq_true, if_false, if_pos hq, M.set_apply]
  · simp only [closeRedirect, seekg, M.bind_apply, M.get_apply, hf, clearTo_eq, Bool.false_and, Bool.false_or, Bool.true_and, if_true]
    cases ht : w.throwFail
    · simp only [Bool.false_eq_true, if_false]
      rw [sentry_bad _ (by simp)]
      simp only [Bool.false_and, Bool.or_self, Bool.false_eq_true, if_false, M.pure_apply, if_true]
    · simp only [if_true]

theorem close_none (w : Stream C) : closeRedirect none w =
    if w.throwFail then .throw .element { w with eof := false, fail := true } else .ok () { w with eof := false, fail := true } := by
  cases hf : w.fail
  · simp only [closeRedirect, seekg, M.bind_apply, M.get_apply, hf, clearTo_eq, Bool.false_and, Bool.or_self, Bool.false_eq_true,
      if_false]
    rw [sentry_good _ (by simp)]
    simp only [Bool.false_eq_true, if_false, setstate, M.bind_apply, M.get_apply, clearTo_eq, Bool.or_self, Bool.false_and,
      Bool.or_true, Bool.true_and, Bool.false_or]
  · simp only [closeRedirect, seekg, M.bind_apply, M.get_apply, hf, clearTo_eq, Bool.false_and, Bool.false_or, Bool.true_and]
    cases ht : w.throwFail
    · simp only [Bool.false_eq_true, if_false]
      rw [sentry_bad _ (by simp)]
      simp only [Bool.false_and, Bool.or_self, Bool.false_eq_true, if_false, M.pure_apply, if_true]
    · simp only [if_true]

theorem open_bad (p : Nat) (w : Stream C) (h : (w.eof || w.fail) = true) : openRedirect p w =
    if (w.eof && w.throwEof) || w.throwFail then .throw .element { w with fail := true }
    else .ok none { w with eof := false, fail := true } := by
  simp only [openRedirect, tellg, seekg, M.bind_apply, sentry_bad w h]
  by_cases hc : (w.eof && w.throwEof || w.throwFail) = true
  · simp only [hc, if_true]
  · have ht : w.throwFail = false := by
      cases h2 : w.throwFail <;> simp_all
    rw [if_neg hc, if_neg hc]
    simp only [M.get_apply, if_true, M.pure_apply, clearTo_eq, Bool.false_and, Bool.true_and, Bool.false_or, ht, Bool.false_eq_true,
      if_false]
    rw [sentry_bad _ (by simp)]
    simp only [Bool.false_and, Bool.or_self, Bool.false_eq_true, if_false, M.pure_apply, if_true]

theorem open_beyond (p : Nat) (w : Stream C) (h : (w.eof || w.fail) = false) (hp : w.text.length < p) : openRedirect p w =
    if w.throwFail then .throw .element { w with fail := true } else .ok (some w.pos) { w with fail := true } := by
  have h' := h
  simp only [Bool.or_eq_false_iff] at h'
  have hp' : ¬ p ≤ w.text.length := by omega
  simp only [openRedirect, tellg, seekg, M.bind_apply, sentry_good w h, M.get_apply, h'.2, Bool.false_eq_true, if_false, M.pure_apply,
    clearTo_eq, Bool.false_and, Bool.or_self]
  rw [sentry_good _ (by simp)]
  simp only [Bool.false_eq_true, if_false, if_neg hp', setstate, M.bind_apply, M.get_apply, clearTo_eq, Bool.or_self, Bool.false_and,
      Bool.or_true, Bool.true_and, Bool.false_or]
  cases ht : w.throwFail
  · cases w; simp_all
  · cases w; simp_all

/-- What no program changes. -/
structure Same (w w' : Stream C) : Prop where
  text : w'.text = w.text
  throwEof : w'.throwEof = w.throwEof
  throwFail : w'.throwFail = w.throwFail
  inside : w.pos ≤ w.text.length → w'.pos ≤ w'.text.length

theorem Same.trans {a b c : Stream C} (h : Same a b) (h' : Same b c) : Same a c :=
  ⟨h'.text.trans h.text, h'.throwEof.trans h.throwEof, h'.throwFail.trans h.throwFail, fun i => h'.inside (h.inside i)⟩

theorem Same.refl (a : Stream C) : Same a a := ⟨rfl, rfl, rfl, id⟩

theorem input_same (w : Stream C) (k : Nat) (e f : Bool) : Same w (input w k e f).2 := by
  unfold input
  split
  · exact ⟨rfl, rfl, rfl, id⟩
  · refine ⟨rfl, rfl, rfl, fun h => ?_⟩
    simp only [settle, List.length_take, List.length_drop]
    omega

theorem open_ok (p : Nat) (w w1 : Stream C) (r : Option Nat) (h : openRedirect p w = .ok r w1) :
    Same w w1 ∧ (w.pos ≤ w.text.length → ∀ q, r = some q → q ≤ w.text.length) := by
  by_cases hg : (w.eof || w.fail) = true
  · rw [open_bad p w hg] at h
    split at h
    · exact absurd h (by simp)
    · simp only [Res.ok.injEq] at h
      obtain ⟨rfl, rfl⟩ := h
      exact ⟨⟨rfl, rfl, rfl, id⟩, fun _ q hq => by simp at hq⟩
  · have hg' : (w.eof || w.fail) = false := by simpa using hg
    by_cases hp : p ≤ w.text.length
    · rw [open_good p w hg' hp] at h
      simp only [Res.ok.injEq] at h
      obtain ⟨rfl, rfl⟩ := h
      exact ⟨⟨rfl, rfl, rfl, fun _ => hp⟩, fun h q hq => by simp only [Option.some.injEq] at hq; omega⟩
    · rw [open_beyond p w hg' (by omega)] at h
      split at h
      · exact absurd h (by simp)
      · simp only [Res.ok.injEq] at h
        obtain ⟨rfl, rfl⟩ := h
        exact ⟨⟨rfl, rfl, rfl, id⟩, fun h q hq => by simp only [Option.some.injEq] at hq; omega⟩

theorem open_throw (p : Nat) (w w1 : Stream C) (x : Exc) (h : openRedirect p w = .throw x w1) : w1 = { w with fail := true } := by
  by_cases hg : (w.eof || w.fail) = true
  · rw [open_bad p w hg] at h
    split at h
    · simp only [Res.throw.injEq] at h; exact h.2.symm
    · exact absurd h (by simp)
  · have hg' : (w.eof || w.fail) = false := by simpa using hg
    by_cases hp : p ≤ w.text.length
    · rw [open_good p w hg' hp] at h
      exact absurd h (by simp)
    · rw [open_beyond p w hg' (by omega)] at h
      split at h
      · simp only [Res.throw.injEq] at h; exact h.2.symm
      · exact absurd h (by simp)

theorem open_not_ub (p : Nat) (w : Stream C) : openRedirect p w ≠ .ub := by
  by_cases hg : (w.eof || w.fail) = true
  · rw [open_bad p w hg]
    split <;> simp
  · have hg' : (w.eof || w.fail) = false := by simpa using hg
    by_cases hp : p ≤ w.text.length
    · rw [open_good p w hg' hp]; simp
    · rw [open_beyond p w hg' (by omega)]
      split <;> simp

/-- the destructor, whatever is to be restored -/
theorem atExit_cases (e : End) (r : Option Nat) (w : Stream C) (hr : ∀ q, r = some q → q ≤ w.text.length) :
    (∃ w', atExit e (closeRedirect r) w = .left e w' ∧ Same w w') ∨
      (w.throwFail = true ∧ atExit e (closeRedirect r) w = .terminated) := by
  cases r with
  | none =>
    cases ht : w.throwFail
    · exact .inl ⟨{ w with eof := false, fail := true }, by simp [atExit, close_none, ht], ⟨rfl, rfl, rfl, id⟩⟩
    · exact .inr ⟨rfl, by simp [atExit, close_none, ht]⟩
  | some q =>
    have hq := hr q rfl
    cases hf : w.fail
    · exact .inl ⟨{ w with pos := q, eof := false }, by simp [atExit, close_eq q w hq, hf], ⟨rfl, rfl, rfl, fun _ => hq⟩⟩
    · cases ht : w.throwFail
      · exact .inl ⟨{ w with eof := false }, by simp [atExit, close_eq q w hq, hf, ht], ⟨rfl, rfl, rfl, id⟩⟩
      · exact .inr ⟨rfl, by simp [atExit, close_eq q w hq, hf, ht]⟩

/-- Every program is left in some way, or ends in `std::terminate` on a stream that throws on failbit. -/
theorem exec_total (prog : Prog C) : ∀ w : Stream C, w.pos ≤ w.text.length →
    (∃ e w', exec prog w = .left e w' ∧ Same w w') ∨ (w.throwFail = true ∧ exec prog w = .terminated) := by
  induction prog with
  | skip => exact fun w _ => .inl ⟨_, _, rfl, Same.refl w⟩
  | read n => exact fun w _ => .inl ⟨_, _, call_read n w, input_same _ _ _ _⟩
  | extract f => exact fun w _ => .inl ⟨_, _, call_extract f w, input_same _ _ _ _⟩
  | raise => exact fun w _ => .inl ⟨_, _, rfl, Same.refl w⟩
  | clear =>
    exact fun w _ => .inl ⟨.normal, { w with eof := false, fail := false }, by simp [exec, call, clearTo_eq], ⟨rfl, rfl, rfl, id⟩⟩
  | redirect p body ih =>
    intro w hw
    simp only [exec]
    cases ho : openRedirect p w with
    | ub => exact absurd ho (open_not_ub p w)
    | throw x w1 =>
      obtain rfl := open_throw p w w1 x ho
      exact .inl ⟨_, _, rfl, ⟨rfl, rfl, rfl, id⟩⟩
    | ok r w1 =>
      obtain ⟨hs, hr⟩ := open_ok p w w1 r ho
      rcases ih w1 (hs.inside hw) with ⟨e, w2, h2, s2⟩ | ⟨ht, h2⟩
      · simp only [h2]
        rcases atExit_cases e r w2 (by rw [s2.text, hs.text]; exact hr hw) with ⟨w3, h3, s3⟩ | ⟨ht, h3⟩
        · exact .inl ⟨e, w3, h3, (hs.trans s2).trans s3⟩
        · exact .inr ⟨by rw [← ht, s2.throwFail, hs.throwFail], h3⟩
      · simp only [h2]
        exact .inr ⟨by rw [← ht, hs.throwFail], trivial⟩
  | seq a b iha ihb =>
    intro w hw
    simp only [exec]
    rcases iha w hw with ⟨e, w2, h2, s2⟩ | ⟨ht, h2⟩
    · simp only [h2]
      cases e with
      | exception => exact .inl ⟨_, _, rfl, s2⟩
      | normal =>
        rcases ihb w2 (s2.inside hw) with ⟨e, w3, h3, s3⟩ | ⟨ht, h3⟩
        · exact .inl ⟨e, w3, h3, s2.trans s3⟩
        · exact .inr ⟨by rw [← ht, s2.throwFail], h3⟩
    · simp only [h2]
      exact .inr ⟨ht, trivial⟩
  | attempt a b iha ihb =>
    intro w hw
    simp only [exec]
    rcases iha w hw with ⟨e, w2, h2, s2⟩ | ⟨ht, h2⟩
    · simp only [h2]
      cases e with
      | normal => exact .inl ⟨_, _, rfl, s2⟩
      | exception =>
        rcases ihb w2 (s2.inside hw) with ⟨e, w3, h3, s3⟩ | ⟨ht, h3⟩
        · exact .inl ⟨e, w3, h3, s2.trans s3⟩
        · exact .inr ⟨by rw [← ht, s2.throwFail], h3⟩
    · simp only [h2]
      exact .inr ⟨ht, trivial⟩

/-- the redirect on a good stream -/
theorem exec_redirect (p : Nat) (body : Prog C) (w : Stream C) (hw : w.pos ≤ w.text.length) (hg : (w.eof || w.fail) = false)
    (hp : p ≤ w.text.length) : exec (.redirect p body) w =
      match exec body { w with pos := p } with
      | .left e w1 =>
        if w1.fail then (if w.throwFail then .terminated else .left e { w1 with eof := false })
        else .left e { w1 with pos := w.pos, eof := false }
      | o => o := by
  simp only [exec, open_good p w hg hp]
  rcases exec_total body { w with pos := p } hp with ⟨e, w1, h1, s1⟩ | ⟨_, h1⟩
  · simp only [h1, atExit]
    have ht : w1.throwFail = w.throwFail := s1.throwFail
    rw [close_eq w.pos w1 (by rw [s1.text]; exact hw), ← ht]
    cases w1.fail <;> cases w1.throwFail <;> rfl
  · simp only [h1]

/-- **C77**: redirects in scopes, on streams that throw or not, with bodies that throw or not: if the specification promises
something, it is what happens. -/
theorem C77_scopes_partial (prog : Prog C) : ∀ (w : Stream C), w.pos ≤ w.text.length → ∀ (e : End) (w' : Stream C),
    run prog w = some (e, w') → exec prog w = .left e w' := by
  induction prog with
  | skip => intro w _ e w' h; simp only [run, Option.some.injEq, Prod.mk.injEq] at h; obtain ⟨rfl, rfl⟩ := h; rfl
  | raise => intro w _ e w' h; simp only [run, Option.some.injEq, Prod.mk.injEq] at h; obtain ⟨rfl, rfl⟩ := h; rfl
  | clear =>
    intro w _ e w' h
    simp only [run, Option.some.injEq, Prod.mk.injEq] at h
    obtain ⟨rfl, rfl⟩ := h
    simp [exec, call, clearTo_eq]
  | read n =>
    intro w _ e w' h
    simp only [run, Option.some.injEq] at h
    simp only [exec, call_read, h]
  | extract f =>
    intro w _ e w' h
    simp only [run, Option.some.injEq] at h
    simp only [exec, call_extract, h]
  | redirect p body ih =>
    intro w hw e w' h
    by_cases hc : (w.eof || w.fail || decide (w.text.length < p)) = true
    · simp only [run, hc, if_true] at h
      exact absurd h (by simp)
    · simp only [Bool.or_eq_true, decide_eq_true_eq, not_or] at hc
      have hg : (w.eof || w.fail) = false := by simp [hc.1.1, hc.1.2]
      have hp : p ≤ w.text.length := by omega
      have hd : decide (w.text.length < p) = false := by simp [hp]
      simp only [run, hg, hd, Bool.or_self, Bool.false_eq_true, if_false] at h
      rw [exec_redirect p body w hw hg hp]
      cases hb : run body { w with pos := p } with
      | none => simp only [hb] at h; exact absurd h (by simp)
      | some x =>
        obtain ⟨e1, w1⟩ := x
        simp only [hb] at h
        rw [ih { w with pos := p } hp e1 w1 hb]
        cases hf : w1.fail
        · simp only [hf, Bool.false_eq_true, if_false, Option.some.injEq, Prod.mk.injEq] at h
          obtain ⟨rfl, rfl⟩ := h
          simp only [hf, Bool.false_eq_true, if_false]
        · simp only [hf, if_true] at h
          exact absurd h (by simp)
  | seq a b iha ihb =>
    intro w hw e w' h
    cases ha : run a w with
    | none => simp only [run, ha] at h; exact absurd h (by simp)
    | some x =>
      obtain ⟨e1, w1⟩ := x
      have h1 := iha w hw e1 w1 ha
      simp only [run, ha] at h
      simp only [exec, h1]
      cases e1 with
      | normal =>
        have s : Same w w1 := by
          rcases exec_total a w hw with ⟨e2, w2, h2, s2⟩ | ⟨_, h2⟩
          · rw [h1] at h2; simp only [Out.left.injEq] at h2; obtain ⟨_, rfl⟩ := h2; exact s2
          · rw [h1] at h2; exact absurd h2 (by simp)
        exact ihb w1 (s.inside hw) e w' h
      | exception => simp only [Option.some.injEq, Prod.mk.injEq] at h; obtain ⟨rfl, rfl⟩ := h; rfl
  | attempt a b iha ihb =>
    intro w hw e w' h
    cases ha : run a w with
    | none => simp only [run, ha] at h; exact absurd h (by simp)
    | some x =>
      obtain ⟨e1, w1⟩ := x
      have h1 := iha w hw e1 w1 ha
      simp only [run, ha] at h
      simp only [exec, h1]
      cases e1 with
      | exception =>
        have s : Same w w1 := by
          rcases exec_total a w hw with ⟨e2, w2, h2, s2⟩ | ⟨_, h2⟩
          · rw [h1] at h2; simp only [Out.left.injEq] at h2; obtain ⟨_, rfl⟩ := h2; exact s2
          · rw [h1] at h2; exact absurd h2 (by simp)
        exact ihb w1 (s.inside hw) e w' h
      | normal => simp only [Option.some.injEq, Prod.mk.injEq] at h; obtain ⟨rfl, rfl⟩ := h; rfl

/-- **C77**: exactly when the position is put back. On a good stream, and a position that exists: if the body is left with the stream
not failed, the stream is back where it was, eofbit is cleared, and whatever made the body end goes on. If the body is left with failbit
set, the position stays where the body left it; and if the stream throws on failbit, the program ends. -/
theorem C77_redirect_exact (p : Nat) (body : Prog C) (w : Stream C) (hw : w.pos ≤ w.text.length) (he : w.eof = false)
    (hf : w.fail = false) (hp : p ≤ w.text.length) (e : End) (w1 : Stream C) (hb : exec body { w with pos := p } = .left e w1) :
    (w1.fail = false → exec (.redirect p body) w = .left e { w1 with pos := w.pos, eof := false }) ∧
    (w1.fail = true → w.throwFail = false → exec (.redirect p body) w = .left e { w1 with eof := false }) ∧
    (w1.fail = true → w.throwFail = true → exec (.redirect p body) w = .terminated) := by
  rw [exec_redirect p body w hw (by simp [he, hf]) hp, hb]
  refine ⟨fun h => by simp [h], fun h h' => by simp [h, h'], fun h h' => by simp [h, h']⟩

/-- **C77**: no program has undefined behaviour, and only streams that throw on failbit can end it; the text and the exception mask are
never changed. -/
theorem C77_terminates_only (prog : Prog C) (w : Stream C) (hw : w.pos ≤ w.text.length) :
    exec prog w ≠ .ub ∧ (w.throwFail = false → ∃ e w', exec prog w = .left e w' ∧ w'.text = w.text ∧ w'.throwEof = w.throwEof ∧
      w'.throwFail = w.throwFail ∧ w'.pos ≤ w'.text.length) := by
  rcases exec_total prog w hw with ⟨e, w', h, s⟩ | ⟨ht, h⟩
  · exact ⟨by rw [h]; simp, fun _ => ⟨e, w', h, s.text, s.throwEof, s.throwFail, s.inside hw⟩⟩
  · exact ⟨by rw [h]; simp, fun h' => by rw [h'] at ht; exact absurd ht (by simp)⟩

/-- **C77**: a redirect that cannot be opened. If the stream is not good, or the position is beyond the end, the constructor sets failbit
and moves nothing; it throws if the stream's mask says so, and then no destructor runs. -/
theorem C77_open_failed (p : Nat) (body : Prog C) (w : Stream C) (h : w.eof = true ∨ w.fail = true ∨ w.text.length < p)
    (hm : w.throwFail = true) : exec (.redirect p body) w = .left .exception { w with fail := true } := by
  by_cases hg : (w.eof || w.fail) = true
  · simp [exec, open_bad p w hg, hm]
  · have hg' : (w.eof || w.fail) = false := by simpa using hg
    have hp : w.text.length < p := by
      simp only [Bool.or_eq_false_iff] at hg'
      rcases h with h | h | h
      · rw [hg'.1] at h; exact absurd h (by simp)
      · rw [hg'.2] at h; exact absurd h (by simp)
      · exact h
    simp [exec, open_beyond p w hg' hp, hm]

/-- **C77** (defect): on a stream that throws on failbit, a redirect ends the program when a read in it goes beyond the end of the stream:
the read throws, and on the way out the destructor's `seekg` throws again. No `catch` helps. -/
theorem C77_masked_read_defect (p n : Nat) (w : Stream C) (handler : Prog C) (hw : w.pos ≤ w.text.length) (he : w.eof = false)
    (hf : w.fail = false) (hp : p ≤ w.text.length) (hm : w.throwFail = true) (hn : w.text.length < p + n) :
    exec (.attempt (.redirect p (.read n)) handler) w = .terminated ∧
      ∃ w', exec (.attempt (.read (w.text.length + 1)) .skip) w = .left .normal w' := by
  have hd : decide ((w.text.drop p).length < n) = true := by simp only [List.length_drop, decide_eq_true_eq]; omega
  constructor
  · simp only [exec]
    have := exec_redirect p (.read n) w hw (by simp [he, hf]) hp
    simp only [exec] at this
    rw [this]
    simp only [call_read, hd, input, he, hf, Bool.or_self, Bool.false_eq_true, if_false, settle, if_true, hm]
  · have hd' : decide ((w.text.drop w.pos).length < w.text.length + 1) = true := by
      simp only [List.length_drop, decide_eq_true_eq]; omega
    simp only [exec, call_read, hd', input, he, hf, Bool.or_self, Bool.false_eq_true, if_false, settle, Stream.angry, hm, Bool.true_and,
      Bool.or_true, if_true]
    exact ⟨_, rfl⟩

/-! ## Examples -/

/-- "abcdef", at 1, throwing on failbit -/
def sample : Stream Char := ⟨['a', 'b', 'c', 'd', 'e', 'f'], 1, false, false, false, true, []⟩

/-- `try { redirect r(in, 3); read(2); { redirect q(in, 0); read(1); throw 1; } } catch (...) { read(1); }` -/
def sampleProg : Prog Char :=
  .attempt (.redirect 3 (.seq (.read 2) (.redirect 0 (.seq (.read 1) .raise)))) (.read 1)

example : run sampleProg sample = some (.normal, { sample with pos := 2, log := [['d', 'e'], ['a'], ['b']] }) := rfl

example : exec sampleProg sample = .left .normal { sample with pos := 2, log := [['d', 'e'], ['a'], ['b']] } :=
  C77_scopes_partial sampleProg sample (by decide) _ _ rfl

example : exec (.redirect 4 (.seq (.read 2) .raise)) sample = .left .exception { sample with log := [['e', 'f']] } :=
  (C77_redirect_exact 4 (.seq (.read 2) .raise) sample (by decide) rfl rfl (by decide) .exception
    { sample with pos := 6, log := [['e', 'f']] } (by rfl)).1 rfl

example : exec (.attempt (.redirect 4 (.read 3)) .skip) sample = .terminated :=
  (C77_masked_read_defect 4 3 sample .skip (by decide) rfl rfl (by decide) rfl (by decide)).1

example : exec (.redirect 9 .skip) sample = .left .exception { sample with fail := true } :=
  C77_open_failed 9 .skip sample (by decide) rfl

example : ∃ e w', exec (.attempt (.redirect 4 (.read 3)) .skip) { sample with throwFail := false } = .left e w' := by
  obtain ⟨e, w', h, _⟩ := (C77_terminates_only (.attempt (.redirect 4 (.read 3)) .skip) { sample with throwFail := false } (by decide)).2 rfl
  exact ⟨e, w', h⟩

end Itlib.RStream.Scope
