import Verif.Gen.Exec
import Batteries.Tactic.SeqFocus

/-! # Step lemmas for `generator` -/
namespace Itlib.Gen
open Itlib M
variable {S V E : Type} (step : S → Act S V E) (mv : V → V)

/-- Ownership: the frames that exist are held by exactly one generator each, the others created before are destroyed, once. -/
structure Inv (g : Nat → Option (Option Nat)) (fr : Nat → Option (Frame S V E)) (nx : Nat) (ds : List Nat) : Prop where
  held : ∀ i f, g i = some (some f) → fr f ≠ none
  uniq : ∀ i j f, g i = some (some f) → g j = some (some f) → i = j
  owner : ∀ f, fr f ≠ none → ∃ i, g i = some (some f)
  fresh : ∀ f, fr f ≠ none → f < nx
  dead : ∀ f, f ∈ ds ↔ f < nx ∧ fr f = none
  once : ds.Nodup

/-- the frame is where the specification says it is -/
def FrameRel (r : Spec.Run S V) (fr : Frame S V E) : Prop :=
  fr.val = r.cur ∧
  match fr.at_ with
  | some s => fr.exc = none ∧ ∀ k, event step k s = event step (r.n + k) r.start
  | none => ∀ k, event step (r.n + k) r.start = none

structure Rel (y : Spec.Sys S V) (w : World S V E) : Prop where
  gen : w.gen = y.gen
  iter : w.iter = y.iter
  count : w.next = y.count
  dead : ∀ f, y.run f = none ↔ w.frame f = none
  live : ∀ f r fr, y.run f = some r → w.frame f = some fr → FrameRel step r fr
  inv : Inv w.gen w.frame w.next w.destroyed

theorem Rel.init : Rel step (Spec.init : Spec.Sys S V) World.init := by
  refine ⟨rfl, rfl, rfl, ?_, ?_, ?_, ?_, ?_, ?_, ?_, ?_⟩ <;> simp [Spec.init, World.init]

theorem Rel.get {y : Spec.Sys S V} {w : World S V E} (h : Rel step y w) {f r} (hr : y.run f = some r) :
    ∃ fr, w.frame f = some fr ∧ FrameRel step r fr := by
  cases hf : w.frame f with
  | none => simp [(h.dead f).2 hf] at hr
  | some fr => exact ⟨fr, rfl, h.live f r fr hr hf⟩

/-- done exactly if there is no further event -/
theorem FrameRel.isNone {r : Spec.Run S V} {fr : Frame S V E} (h : FrameRel step r fr) :
    fr.at_.isNone = (event step r.n r.start).isNone := by
  obtain ⟨_, h⟩ := h
  cases ha : fr.at_ with
  | none =>
    simp only [ha] at h
    have := h 0
    simp only [Nat.add_zero] at this
    simp [this]
  | some s =>
    simp only [ha] at h
    have := h.2 0
    simp only [Nat.add_zero] at this
    rw [← this]
    simp only [event]
    cases step s <;> rfl

theorem Inv.setFrame {g fr nx ds} (h : Inv (S := S) (V := V) (E := E) g fr nx ds) {f} (hf : fr f ≠ none) (x : Frame S V E) :
    Inv g (Function.update fr f (some x)) nx ds := by
  obtain ⟨h1, h2, h3, h4, h5, h6⟩ := h
  refine ⟨?_, h2, ?_, ?_, ?_, h6⟩
  · intro i f' hg; simp only [Function.update_apply]; split <;> [simp; exact h1 i f' hg]
  · intro f' hn; simp only [Function.update_apply] at hn; split at hn <;> [(subst f'; exact h3 f hf); exact h3 f' hn]
  · intro f' hn; simp only [Function.update_apply] at hn; split at hn <;> [(subst f'; exact h4 f hf); exact h4 f' hn]
  · intro f'; rw [h5]; simp only [Function.update_apply]; split <;> simp_all

theorem Rel.setFrame {y : Spec.Sys S V} {w : World S V E} (h : Rel step y w) {f} (hf : w.frame f ≠ none)
    {r : Spec.Run S V} {fr : Frame S V E} (hr : FrameRel step r fr) :
    Rel step (y.setRun f (some r)) { w with frame := Function.update w.frame f (some fr) } := by
  refine ⟨h.gen, h.iter, h.count, ?_, ?_, h.inv.setFrame hf fr⟩
  · intro f'; simp only [Spec.Sys.setRun, Function.update_apply]; split <;> [simp; exact h.dead f']
  · intro f' r' fr' h1 h2
    simp only [Spec.Sys.setRun, Function.update_apply] at h1 h2
    split at h1
    · simp_all
    · rename_i hne; simp only [hne, if_false] at h2; exact h.live f' r' fr' h1 h2

/-- `safe_resume` advances the run -/
theorem safeResume_spec {y y' : Spec.Sys S V} {w : World S V E} (h : Rel step y w) {f ev}
    (ha : Spec.advance step y f = some (ev, y')) :
    ∃ w' fr, safeResume step f w = .ok (match ev with | .throw e => some e | _ => none) w' ∧ Rel step y' w' ∧
      w'.gen = w.gen ∧ w'.frame f = some fr ∧ fr.val = (match ev with | .yield v => some v | _ => none) ∧
      (∃ r', y'.run f = some r') := by
  unfold Spec.advance at ha
  cases hr : y.run f with
  | none => simp [hr] at ha
  | some r =>
    simp only [hr] at ha
    obtain ⟨fr, hf, hv, hrel⟩ := h.get step hr
    cases hat : fr.at_ with
    | none =>
      simp only [hat] at hrel
      have := hrel 0
      simp only [Nat.add_zero] at this
      simp [this] at ha
    | some s =>
      simp only [hat] at hrel
      obtain ⟨hx, hk⟩ := hrel
      have h0 := hk 0
      simp only [Nat.add_zero] at h0
      rw [← h0] at ha
      have hne : w.frame f ≠ none := by simp [hf]
      simp only [event] at ha
      cases hs : step s with
      | yield v s' =>
        simp only [hs, Option.some.injEq, Prod.mk.injEq] at ha
        obtain ⟨rfl, rfl⟩ := ha
        have hrel' : FrameRel step (⟨r.start, r.n + 1, some v⟩ : Spec.Run S V) ⟨some s', some v, fr.exc⟩ := by
          refine ⟨rfl, hx, ?_⟩
          intro k
          have := hk (k + 1)
          rw [show r.n + (k + 1) = r.n + 1 + k by omega] at this
          rw [← this, event, hs]
        refine ⟨_, _, ?_, h.setFrame step hne hrel', rfl, by simp; rfl, rfl, by simp [Spec.Sys.setRun]⟩
        simp [safeResume, frame, hf, Gen.setFrame, resume, hat, hs, hx]
      | ret =>
        simp only [hs, Option.some.injEq, Prod.mk.injEq] at ha
        obtain ⟨rfl, rfl⟩ := ha
        have hrel' : FrameRel (E := E) step (⟨r.start, r.n + 1, none⟩ : Spec.Run S V) ⟨none, none, fr.exc⟩ := by
          refine ⟨rfl, ?_⟩
          intro k
          have := hk (k + 1)
          rw [show r.n + (k + 1) = r.n + 1 + k by omega] at this
          rw [← this, event, hs]
        refine ⟨_, _, ?_, h.setFrame step hne hrel', rfl, by simp; rfl, rfl, by simp [Spec.Sys.setRun]⟩
        simp [safeResume, frame, hf, Gen.setFrame, resume, hat, hs, hx]
      | throw e =>
        simp only [hs, Option.some.injEq, Prod.mk.injEq] at ha
        obtain ⟨rfl, rfl⟩ := ha
        have hrel' : FrameRel (E := E) step (⟨r.start, r.n + 1, none⟩ : Spec.Run S V) ⟨none, none, some e⟩ := by
          refine ⟨rfl, ?_⟩
          intro k
          have := hk (k + 1)
          rw [show r.n + (k + 1) = r.n + 1 + k by omega] at this
          rw [← this, event, hs]
        refine ⟨_, _, ?_, h.setFrame step hne hrel', rfl, by simp; rfl, rfl, by simp [Spec.Sys.setRun]⟩
        simp [safeResume, frame, hf, Gen.setFrame, resume, hat, hs]

/-- destroying what generator `i` holds; afterwards `i` may be anything that holds nothing -/
theorem destroyHandle_spec {y : Spec.Sys S V} {w : World S V E} (h : Rel step y w) {i o}
    (hg : y.gen i = some o) :
    ∃ w', destroyHandle i w = .ok () w' ∧ w'.gen = w.gen ∧ w'.iter = w.iter ∧ w'.next = w.next ∧
      (∀ f, (y.drop o).run f = none ↔ w'.frame f = none) ∧
      (∀ f r fr, (y.drop o).run f = some r → w'.frame f = some fr → FrameRel step r fr) ∧
      (∀ x, x = none ∨ x = some none → Inv (Function.update w.gen i x) w'.frame w'.next w'.destroyed) := by
  have hg' : w.gen i = some o := by rw [h.gen]; exact hg
  obtain ⟨h1, h2, h3, h4, h5, h6⟩ := h.inv
  cases o with
  | none =>
    refine ⟨w, by simp [destroyHandle, rd, hg'], rfl, rfl, rfl, h.dead, h.live, ?_⟩
    intro x hx
    have key : ∀ j f, Function.update w.gen i x j = some (some f) ↔ w.gen j = some (some f) := by
      intro j f
      simp only [Function.update_apply]
      split
      · subst j; rcases hx with rfl | rfl <;> simp [hg']
      · rfl
    refine ⟨?_, ?_, ?_, h4, h5, h6⟩
    · intro j f hj; exact h1 j f ((key j f).1 hj)
    · intro j k f hj hk; exact h2 j k f ((key j f).1 hj) ((key k f).1 hk)
    · intro f hf; obtain ⟨j, hj⟩ := h3 f hf; exact ⟨j, (key j f).2 hj⟩
  | some f0 =>
    have hf0 : w.frame f0 ≠ none := h1 i f0 hg'
    obtain ⟨fr0, hfr0⟩ := Option.ne_none_iff_exists'.1 hf0
    refine ⟨{ w with frame := Function.update w.frame f0 none, destroyed := f0 :: w.destroyed },
      by simp [destroyHandle, rd, hg', destroy, hfr0], rfl, rfl, rfl, ?_, ?_, ?_⟩
    · intro f; simp only [Spec.Sys.drop, Spec.Sys.setRun, Function.update_apply]; split <;> [simp; exact h.dead f]
    · intro f r fr ha hb
      simp only [Spec.Sys.drop, Spec.Sys.setRun, Function.update_apply] at ha hb
      split at ha
      · simp at ha
      · rename_i hne; simp only [hne, if_false] at hb; exact h.live f r fr ha hb
    · intro x hx
      have key : ∀ j f, Function.update w.gen i x j = some (some f) ↔ w.gen j = some (some f) ∧ f ≠ f0 := by
        intro j f
        simp only [Function.update_apply]
        split
        · subst j; rcases hx with rfl | rfl <;> (simp [hg']; try (intro h; exact h.symm))
        · rename_i hne
          constructor
          · intro hj
            refine ⟨hj, ?_⟩
            rintro rfl
            exact hne (h2 _ _ _ hj hg')
          · exact fun hj => hj.1
      refine ⟨?_, ?_, ?_, ?_, ?_, ?_⟩
      · intro j f hj
        obtain ⟨hj, hne⟩ := (key j f).1 hj
        simp only [Function.update_apply, hne, if_false]
        exact h1 j f hj
      · intro j k f hj hk; exact h2 j k f ((key j f).1 hj).1 ((key k f).1 hk).1
      · intro f hf
        simp only [Function.update_apply] at hf
        split at hf
        · simp at hf
        · rename_i hne
          obtain ⟨j, hj⟩ := h3 f hf; exact ⟨j, (key j f).2 ⟨hj, hne⟩⟩
      · intro f hf
        simp only [Function.update_apply] at hf
        split at hf
        · simp at hf
        · exact h4 f hf
      · intro f
        simp only [List.mem_cons, h5, Function.update_apply]
        split
        · subst f; simp [h4 f0 hf0]
        · rename_i hne; simp [hne]
      · simp only [List.nodup_cons]
        exact ⟨by rw [h5]; simp [hf0], h6⟩

/-- moving a handle from one generator to another that holds nothing -/
theorem Inv.move {g fr nx ds} {i j : Nat} {o : Option Nat} (hi : ∀ f, g i ≠ some (some f)) (hj : g j = some o) (hij : i ≠ j)
    (h : Inv (S := S) (V := V) (E := E) g fr nx ds) :
    Inv (Function.update (Function.update g j (some none)) i (some o)) fr nx ds := by
  obtain ⟨h1, h2, h3, h4, h5, h6⟩ := h
  refine ⟨?_, ?_, ?_, h4, h5, h6⟩
  · intro k f hk
    simp only [Function.update_apply] at hk
    split at hk
    · simp only [Option.some.injEq] at hk; subst hk; exact h1 j f hj
    · split at hk <;> [simp at hk; exact h1 k f hk]
  · intro k l f hk hl
    simp only [Function.update_apply] at hk hl
    grind
  · intro f hf
    obtain ⟨k, hk⟩ := h3 f hf
    by_cases hkj : k = j
    · subst k
      refine ⟨i, ?_⟩
      simp only [Function.update_apply, if_true]
      rw [← hk, hj]
    · refine ⟨k, ?_⟩
      have hki : k ≠ i := by rintro rfl; exact hi f hk
      simp only [Function.update_apply, hkj, hki, if_false]
      exact hk

/-- One call. -/
theorem call_step {op : Op S} {y y' : Spec.Sys S V} {w : World S V E} {r} (h : Rel step y w)
    (hs : Spec.Safe step op y) (hc : Spec.call step mv op y = some (r, y')) :
    ∃ w', call step mv op w = some (r, w') ∧ Rel step y' w' := by
  cases op with
  | create i s =>
    simp only [Spec.call] at hc
    cases hg : y.gen i with
    | some _ => simp [hg] at hc
    | none =>
      simp only [hg, Option.some.injEq, Prod.mk.injEq] at hc
      obtain ⟨rfl, rfl⟩ := hc
      have hg' : w.gen i = none := by rw [h.gen]; exact hg
      refine ⟨_, by simp [call, exec, create, hg']; rfl, ?_⟩
      obtain ⟨h1, h2, h3, h4, h5, h6⟩ := h.inv
      have hnf : w.frame w.next = none := by
        by_contra hc; exact absurd (h4 _ hc) (by omega)
      have hfl : ∀ i f, w.gen i = some (some f) → f ≠ w.next := by
        intro i f hf he; subst he; exact h1 _ _ hf hnf
      refine ⟨by simp [h.gen, h.count], h.iter, by simp [h.count], ?_, ?_, ?_, ?_, ?_, ?_, ?_, h6⟩
      · intro f; simp only [← h.count, Function.update_apply]; split <;> [simp; exact h.dead f]
      · intro f r fr ha hb
        simp only [← h.count, Function.update_apply] at ha hb
        split at ha
        · rename_i he
          simp only [he, if_true, Option.some.injEq] at hb
          simp only [Option.some.injEq] at ha
          subst ha hb
          exact ⟨rfl, rfl, by intro k; simp⟩
        · rename_i hne; simp only [hne, if_false] at hb; exact h.live f r fr ha hb
      · intro j f hj
        simp only [Function.update_apply] at hj ⊢
        split at hj
        · simp only [Option.some.injEq] at hj; subst hj; simp
        · simp only [hfl j f hj, if_false]; exact h1 j f hj
      · intro j k f hj hk
        simp only [Function.update_apply] at hj hk
        grind
      · intro f hf
        simp only [Function.update_apply] at hf ⊢
        split at hf
        · subst f; exact ⟨i, by simp⟩
        · obtain ⟨j, hj⟩ := h3 f hf
          refine ⟨j, ?_⟩
          have : j ≠ i := by rintro rfl; simp [hg'] at hj
          simp [this, hj]
      · intro f hf
        simp only [Function.update_apply] at hf
        split at hf
        · subst f; simp
        · have := h4 f hf; simp; omega
      · intro f
        simp only [h5, Function.update_apply]
        split
        · subst f; simp
        · rename_i hne
          constructor
          · rintro ⟨ha, hb⟩; exact ⟨by omega, hb⟩
          · rintro ⟨ha, hb⟩; exact ⟨by omega, hb⟩
  | moveCtor i j =>
    simp only [Spec.call] at hc
    cases hi : y.gen i with
    | some _ => simp [hi] at hc
    | none =>
    cases hj : y.gen j with
    | none => simp [hi, hj] at hc
    | some o =>
      simp only [hi, hj, Option.some.injEq, Prod.mk.injEq] at hc
      obtain ⟨rfl, rfl⟩ := hc
      have hi' : w.gen i = none := by rw [h.gen]; exact hi
      have hj' : w.gen j = some o := by rw [h.gen]; exact hj
      have hij : i ≠ j := by rintro rfl; simp [hi] at hj
      refine ⟨_, by simp [call, exec, moveCtor, rd, wr, begin_, hj', hi', Function.update_apply, hij]; rfl, ?_⟩
      exact ⟨by simp only [h.gen, Spec.Sys.setGen], h.iter, h.count, h.dead, h.live,
        h.inv.move (by simp [hi']) hj' hij⟩
  | moveAssign i j =>
    simp only [Spec.call] at hc
    cases hi : y.gen i with
    | none => simp [hi] at hc
    | some o =>
    cases hj : y.gen j with
    | none => simp [hi, hj] at hc
    | some o' =>
      simp only [hi, hj] at hc
      have hj' : w.gen j = some o' := by rw [h.gen]; exact hj
      by_cases hij : i = j
      · subst hij
        simp only [if_true, Option.some.injEq, Prod.mk.injEq] at hc
        obtain ⟨rfl, rfl⟩ := hc
        have hn := hs rfl
        have hn' : w.gen i = some none := by rw [h.gen]; exact hn
        have he : Function.update w.gen i (some none) = w.gen := by rw [← hn']; simp
        refine ⟨w, ?_, h⟩
        simp [call, exec, moveAssign, destroyHandle, rd, wr, hn', he]
      · simp only [hij, if_false, Option.some.injEq, Prod.mk.injEq] at hc
        obtain ⟨rfl, rfl⟩ := hc
        obtain ⟨w', hd, e1, e2, e3, e4, e5, e6⟩ := destroyHandle_spec step h hi
        have hj'' : w'.gen j = some o' := by rw [e1]; exact hj'
        have hi'' : w'.gen i = some o := by rw [e1, h.gen]; exact hi
        refine ⟨{ w' with gen := Function.update (Function.update w'.gen j (some none)) i (some o') }, ?_, ?_⟩
        · simp [call, exec, moveAssign, hd, rd, wr, hj'', hi'', Function.update_apply, hij]
        · have hgen : (y.drop o).gen = y.gen := by cases o <;> rfl
          have hit : (y.drop o).iter = y.iter := by cases o <;> rfl
          have hct : (y.drop o).count = y.count := by cases o <;> rfl
          refine ⟨by simp [Spec.Sys.setGen, e1, h.gen, hgen], by simp [Spec.Sys.setGen, hit, e2, h.iter],
            by simp [Spec.Sys.setGen, hct, e3, h.count], e4, e5, ?_⟩
          have := (e6 (some none) (Or.inr rfl)).move (i := i) (j := j) (o := o') (by simp)
            (by simp only [Function.update_apply, Ne.symm hij, if_false]; exact hj') hij
          have heq : Function.update (Function.update (Function.update w.gen i (some none)) j (some none)) i (some o') =
              Function.update (Function.update w'.gen j (some none)) i (some o') := by
            funext k; simp only [Function.update_apply, e1]; grind
          rw [heq] at this
          exact this
  | dtor i =>
    simp only [Spec.call] at hc
    cases hi : y.gen i with
    | none => simp [hi] at hc
    | some o =>
      simp only [hi, Option.some.injEq, Prod.mk.injEq] at hc
      obtain ⟨rfl, rfl⟩ := hc
      obtain ⟨w', hd, e1, e2, e3, e4, e5, e6⟩ := destroyHandle_spec step h hi
      have hi'' : w'.gen i = some o := by rw [e1, h.gen]; exact hi
      refine ⟨{ w' with gen := Function.update w'.gen i none }, by simp [call, exec, dtor, hd, end_, hi''], ?_⟩
      have hgen : (y.drop o).gen = y.gen := by cases o <;> rfl
      have hit : (y.drop o).iter = y.iter := by cases o <;> rfl
      have hct : (y.drop o).count = y.count := by cases o <;> rfl
      refine ⟨by simp [Spec.Sys.setGen, e1, h.gen, hgen], by simp [Spec.Sys.setGen, hit, e2, h.iter],
            by simp [Spec.Sys.setGen, hct, e3, h.count], e4, e5, ?_⟩
      have := e6 none (Or.inl rfl)
      rw [← e1] at this
      exact this
  | reset i =>
    simp only [Spec.call] at hc
    cases hi : y.gen i with
    | none => simp [hi] at hc
    | some o =>
      simp only [hi, Option.some.injEq, Prod.mk.injEq] at hc
      obtain ⟨rfl, rfl⟩ := hc
      obtain ⟨w', hd, e1, e2, e3, e4, e5, e6⟩ := destroyHandle_spec step h hi
      have hi'' : w'.gen i = some o := by rw [e1, h.gen]; exact hi
      refine ⟨{ w' with gen := Function.update w'.gen i (some none) }, by simp [call, exec, reset, hd, wr, hi''], ?_⟩
      have hgen : (y.drop o).gen = y.gen := by cases o <;> rfl
      have hit : (y.drop o).iter = y.iter := by cases o <;> rfl
      have hct : (y.drop o).count = y.count := by cases o <;> rfl
      refine ⟨by simp [Spec.Sys.setGen, e1, h.gen, hgen], by simp [Spec.Sys.setGen, hit, e2, h.iter],
            by simp [Spec.Sys.setGen, hct, e3, h.count], e4, e5, ?_⟩
      have := e6 (some none) (Or.inr rfl)
      rw [← e1] at this
      exact this
  | toBool i =>
    simp only [Spec.call] at hc
    cases hi : y.gen i with
    | none => simp [hi] at hc
    | some o =>
      simp only [hi, Option.some.injEq, Prod.mk.injEq] at hc
      obtain ⟨rfl, rfl⟩ := hc
      have hi' : w.gen i = some o := by rw [h.gen]; exact hi
      exact ⟨w, by simp [call, exec, toBool, rd, hi'], h⟩
  | done i =>
    simp only [Spec.call] at hc
    split at hc
    · rename_i f hi
      split at hc
      · rename_i r' hr
        simp only [Option.some.injEq, Prod.mk.injEq] at hc
        obtain ⟨rfl, rfl⟩ := hc
        have hi' : w.gen i = some (some f) := by rw [h.gen]; exact hi
        obtain ⟨fr, hf, hrel⟩ := h.get step hr
        exact ⟨w, by simp [call, exec, done, handle, handleDone, frame, rd, hi', hf, hrel.isNone], h⟩
      · simp at hc
    · simp at hc
  | next i =>
    simp only [Spec.call] at hc
    split at hc
    · rename_i f hi
      have hi' : w.gen i = some (some f) := by rw [h.gen]; exact hi
      cases ha : Spec.advance step y f with
      | none =>
        simp only [ha] at hc
        cases hr : y.run f with
        | none => simp [hr] at hc
        | some r' =>
          simp only [hr, Option.some.injEq, Prod.mk.injEq] at hc
          obtain ⟨rfl, rfl⟩ := hc
          obtain ⟨fr, hf, hrel⟩ := h.get step hr
          have hev : event step r'.n r'.start = none := by
            simp only [Spec.advance, hr] at ha
            split at ha <;> simp_all
          have := hrel.isNone
          rw [hev] at this
          exact ⟨w, by simp [call, exec, next, handle, handleDone, frame, rd, hi', hf, this], h⟩
      | some p =>
        obtain ⟨ev, y1⟩ := p
        obtain ⟨w1, fr1, hsr, hrel1, hg1, hf1, hv1, r1, hr1⟩ := safeResume_spec step h ha
        have hr : ∃ r, y.run f = some r ∧ event step r.n r.start ≠ none := by
          simp only [Spec.advance] at ha
          cases hr : y.run f with
          | none => simp [hr] at ha
          | some r =>
            refine ⟨r, rfl, ?_⟩
            intro he; simp [hr, he] at ha
        obtain ⟨r0, hr0, hev0⟩ := hr
        obtain ⟨fr0, hf0, hrel0⟩ := h.get step hr0
        have hd : fr0.at_.isNone = false := by
          rw [hrel0.isNone]; cases he : event step r0.n r0.start <;> simp_all
        cases ev with
        | yield v =>
          simp only [ha, hr1, Option.some.injEq, Prod.mk.injEq] at hc
          obtain ⟨rfl, rfl⟩ := hc
          have hfr := hrel1.live f r1 fr1 hr1 hf1
          have hfr' : FrameRel step { r1 with cur := some (mv v) } { fr1 with val := some (mv v) } := ⟨rfl, hfr.2⟩
          refine ⟨_, ?_, hrel1.setFrame step (f := f) (by simp [hf1]) hfr'⟩
          simp only at hv1 hsr
          simp [call, exec, next, handle, handleDone, frame, rd, hi', hf0, hd, hsr, hf1, hv1, setFrame]
        | ret =>
          simp only [ha, Option.some.injEq, Prod.mk.injEq] at hc
          obtain ⟨rfl, rfl⟩ := hc
          refine ⟨w1, ?_, hrel1⟩
          simp only at hv1 hsr
          simp [call, exec, next, handle, handleDone, frame, rd, hi', hf0, hd, hsr, hf1, hv1]
        | throw e =>
          simp only [ha, Option.some.injEq, Prod.mk.injEq] at hc
          obtain ⟨rfl, rfl⟩ := hc
          refine ⟨w1, ?_, hrel1⟩
          simp only at hv1 hsr
          simp [call, exec, next, handle, handleDone, frame, rd, hi', hf0, hd, hsr]
    · simp at hc
  | begin i k =>
    simp only [Spec.call] at hc
    split at hc
    · rename_i f hi
      have hi' : w.gen i = some (some f) := by rw [h.gen]; exact hi
      cases ha : Spec.advance step y f with
      | none =>
        simp only [ha] at hc
        cases hr : y.run f with
        | none => simp [hr] at hc
        | some r' =>
          exfalso
          apply hs f r' hi hr
          simp only [Spec.advance, hr] at ha
          split at ha <;> simp_all
      | some p =>
        obtain ⟨ev, y1⟩ := p
        obtain ⟨w1, fr1, hsr, hrel1, hg1, hf1, hv1, r1, hr1⟩ := safeResume_spec step h ha
        cases ev with
        | throw e =>
          simp only [ha, Option.some.injEq, Prod.mk.injEq] at hc
          obtain ⟨rfl, rfl⟩ := hc
          refine ⟨w1, ?_, hrel1⟩
          simp only at hsr
          simp [call, exec, begin, handle, rd, hi', hsr]
        | _ =>
          simp only [ha, Option.some.injEq, Prod.mk.injEq] at hc
          obtain ⟨rfl, rfl⟩ := hc
          refine ⟨{ w1 with iter := Function.update w1.iter k (some f) }, ?_, ?_⟩
          · simp only at hsr
            simp [call, exec, begin, handle, rd, hi', hsr, beginIter]
          · exact ⟨hrel1.gen, by simp [hrel1.iter], hrel1.count, hrel1.dead, hrel1.live, hrel1.inv⟩
    · simp at hc
  | incr k =>
    simp only [Spec.call] at hc
    cases hi : y.iter k with
    | none => simp [hi] at hc
    | some f =>
      simp only [hi] at hc
      have hi' : w.iter k = some f := by rw [h.iter]; exact hi
      cases ha : Spec.advance step y f with
      | none => simp [ha] at hc
      | some p =>
        obtain ⟨ev, y1⟩ := p
        obtain ⟨w1, fr1, hsr, hrel1, _⟩ := safeResume_spec step h ha
        cases ev <;>
        · simp only [ha, Option.some.injEq, Prod.mk.injEq] at hc
          obtain ⟨rfl, rfl⟩ := hc
          refine ⟨w1, ?_, hrel1⟩
          simp only at hsr
          simp [call, exec, incr, iter, hi', hsr]
  | deref k =>
    simp only [Spec.call] at hc
    split at hc
    · rename_i f hi
      split at hc
      · rename_i r' hr
        have hi' : w.iter k = some f := by rw [h.iter]; exact hi
        obtain ⟨fr, hf, hv, -⟩ := h.get step hr
        cases hcur : r'.cur with
        | none => simp [hcur] at hc
        | some v =>
          simp only [hcur, Option.map_some, Option.some.injEq, Prod.mk.injEq] at hc
          obtain ⟨rfl, rfl⟩ := hc
          rw [hcur] at hv
          exact ⟨w, by simp [call, exec, deref, iter, hi', frame, hf, hv], h⟩
      · simp at hc
    · simp at hc
  | isEnd k =>
    simp only [Spec.call] at hc
    split at hc
    · rename_i f hi
      split at hc
      · rename_i r' hr
        simp only [Option.some.injEq, Prod.mk.injEq] at hc
        obtain ⟨rfl, rfl⟩ := hc
        have hi' : w.iter k = some f := by rw [h.iter]; exact hi
        obtain ⟨fr, hf, hrel⟩ := h.get step hr
        exact ⟨w, by simp [call, exec, isEnd, iter, handleDone, frame, hi', hf, hrel.isNone], h⟩
      · simp at hc
    · simp at hc

/-- Histories. -/
theorem run_rel {ops : List (Op S)} {y y' : Spec.Sys S V} {w : World S V E} {rs} (h : Rel step y w)
    (hs : Spec.SafeRun step mv ops y) (hc : Spec.run step mv ops y = some (rs, y')) :
    ∃ w', run step mv ops w = some (rs, w') ∧ Rel step y' w' := by
  induction ops generalizing y w rs with
  | nil =>
    simp only [Spec.run, Option.some.injEq, Prod.mk.injEq] at hc
    obtain ⟨rfl, rfl⟩ := hc
    exact ⟨w, rfl, h⟩
  | cons op ops ih =>
    simp only [Spec.run, Option.bind_eq_bind, Option.bind_eq_some_iff, Option.some.injEq] at hc
    obtain ⟨⟨r, y1⟩, h1, ⟨rs', y2⟩, h2, h3⟩ := hc
    simp only [Prod.mk.injEq] at h3
    obtain ⟨rfl, rfl⟩ := h3
    obtain ⟨w1, e1, hr1⟩ := call_step step mv h hs.1 h1
    obtain ⟨w2, e2, hr2⟩ := ih hr1 (hs.2 _ _ h1) h2
    exact ⟨w2, by simp [run, e1, e2], hr2⟩

theorem run_append (a b : List (Op S)) (w : World S V E) :
    run step mv (a ++ b) w = (run step mv a w).bind fun p =>
      (run step mv b p.2).map fun q => (p.1 ++ q.1, q.2) := by
  induction a generalizing w with
  | nil => simp [run]
  | cons op a ih =>
    simp only [List.cons_append, run, Option.bind_eq_bind]
    cases call step mv op w with
    | none => simp
    | some p =>
      simp only [Option.bind_some, ih]
      cases run step mv a p.2 with
      | none => simp
      | some q =>
        simp only [Option.bind_some]
        cases run step mv b q.2 <;> simp

end Itlib.Gen
