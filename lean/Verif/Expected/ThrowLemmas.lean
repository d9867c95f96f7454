import Verif.Expected.Lemmas
import Verif.Expected.ThrowModel

/-! # Proof engineering for `expected` with throwing values and errors (no property statements here) -/
namespace Itlib.Expected
open Itlib

set_option linter.unusedSimpArgs false
set_option linter.unusedTactic false

/-- what is left of a program represents what the specification says -/
def Left {O V E : Type} (rep : V ⊕ E → O) (dead : O → Prop) : Spec.After V E → Option (Store O) → Prop
  | none, none => True
  | some y, some s => ∃ g, (∀ o ∈ g, dead o) ∧ s = mrep rep y g
  | _, _ => False

theorem runTOf_refines {O V E : Type} {rep : V ⊕ E → O} {k : Kind} {tv : Ty V} {te : Ty E} {nv : Torn V} {ne : Torn E}
    {dead : O → Prop} {exec : TOp V E → Store O → Option (Reply V E × Option (Store O))}
    (hstep : ∀ (op : TOp V E) (y : Spec.Sys V E) (a : Spec.After V E) (r : Reply V E) (g : List O), (∀ o ∈ g, dead o) →
      Spec.SafeT k op y → Spec.stepT tv te nv ne k op y = some (r, a) →
      ∃ s, exec op (mrep rep y g) = some (r, s) ∧ Left rep dead a s) :
    ∀ (ops : List (TOp V E)) (y : Spec.Sys V E) (a : Spec.After V E) (rs : List (Reply V E)) (g : List O),
      (∀ o ∈ g, dead o) → Spec.SafeRunT tv te nv ne k ops y → Spec.runT tv te nv ne k ops y = some (rs, a) →
      ∃ s, runTOf exec ops (mrep rep y g) = some (rs, s) ∧ Left rep dead a s := by
  intro ops
  induction ops with
  | nil =>
    intro y a rs g hg _ hs
    simp only [Spec.runT, Option.some.injEq, Prod.mk.injEq] at hs
    obtain ⟨rfl, rfl⟩ := hs
    exact ⟨_, rfl, g, hg, rfl⟩
  | cons op ops ih =>
    intro y a rs g hg hsafe hs
    cases h1 : Spec.stepT tv te nv ne k op y with
    | none => simp [Spec.runT, h1] at hs
    | some p =>
      obtain ⟨r, a1⟩ := p
      obtain ⟨s1, e1, hl⟩ := hstep op y a1 r g hg hsafe.1 h1
      cases a1 with
      | none =>
        cases s1 with
        | some _ => exact hl.elim
        | none =>
          simp [Spec.runT, h1] at hs
          obtain ⟨rfl, rfl⟩ := hs
          exact ⟨none, by simp [runTOf, e1], trivial⟩
      | some y1 =>
        cases s1 with
        | none => exact hl.elim
        | some s1 =>
          obtain ⟨g1, hg1, rfl⟩ := hl
          cases h2 : Spec.runT tv te nv ne k ops y1 with
          | none => simp [Spec.runT, h1, h2] at hs
          | some q =>
            obtain ⟨rs1, a2⟩ := q
            simp [Spec.runT, h1, h2] at hs
            obtain ⟨rfl, rfl⟩ := hs
            obtain ⟨s2, e2, hl2⟩ := ih y1 a2 rs1 g1 hg1 (hsafe.2 r y1 h1) h2
            exact ⟨s2, by simp [runTOf, e1, e2], hl2⟩

theorem plain_left {O V E : Type} {rep : V ⊕ E → O} {dead : O → Prop} {m : M (Store O) (Reply V E)} {y y' : Spec.Sys V E}
    {r : Reply V E} {g : List O}
    (h : ∃ g', (∀ o ∈ g', dead o) ∧ caught m (mrep rep y g) = some (r, mrep rep y' g')) :
    ∃ s, plainCall m (mrep rep y g) = some (r, s) ∧ Left rep dead (some y') s := by
  obtain ⟨g', hg', e⟩ := h
  exact ⟨some (mrep rep y' g'), by rw [plainCall, e]; rfl, g', hg', rfl⟩

theorem TE.stepT_refines {V E : Type} (tv : Ty V) (te : Ty E) (nv : Torn V) (ne : Torn E) (op : TOp V E) (y : Spec.Sys V E) (a : Spec.After V E) (r : Reply V E)
    (g : List (TE.Obj V E)) (hg : ∀ o ∈ g, o.u = TE.Slot.raw) (hsafe : Spec.SafeT .te op y)
    (hs : Spec.stepT tv te nv ne .te op y = some (r, a)) :
    ∃ s, TE.execT tv te nv ne op (mrep TE.rep y g) = some (r, s) ∧ Left TE.rep (fun o => o.u = TE.Slot.raw) a s := by
  cases op with
  | quiet op =>
    have h : ∃ y', Spec.step tv te .te op y = some (r, y') ∧ a = some y' := by
      by_cases ho : Spec.offers .te op = true
      · simp only [Spec.stepT, Spec.offersT, Spec.effectT, ho, if_true] at hs
        obtain ⟨p, hp, h1⟩ := Option.map_eq_some_iff.1 hs
        have h2 : p.1 = r ∧ some p.2 = a := by simpa using h1
        exact ⟨p.2, by rw [Spec.step, if_pos ho, hp, ← h2.1], h2.2.symm⟩
      · simp [Spec.stepT, Spec.offersT, ho] at hs
    obtain ⟨y', h, rfl⟩ := h
    exact plain_left (TE.step_refines tv te op y y' r g hg hsafe h)
  | ctorVal i =>
    rcases hi : y i with _ | s | s <;> simp [Spec.stepT, Spec.offersT, Spec.effectT, Spec.effect, Spec.inside, Spec.SafeT, Spec.Safe, Ty.plain, Spec.moved, Spec.selfMoved, hi] at hs <;>
    obtain ⟨rfl, rfl⟩ := hs <;>
    refine ⟨some (mrep rep y (⟨.raw, true⟩ :: g)), ?_, ⟨.raw, true⟩ :: g, by simpa using hg, rfl⟩ <;>
    simp [execT, open_, sealed, Out.reply, moveOutT, assignT, assignMoveT, copyOutT, construct, destroy, Expected.read, assign, begin_, end_, abandon, hasValue, hasError, mval, merr, setHas, value, error, ctorValT, ctorErrT, moveCtorT, moveAssignT, setValueT, takeValueT, valueOrT, takeValueOrT, setErrorT, takeErrorT, rd, wr, mrep, rep, map_update, Ty.plain, hi] <;> upd
  | ctorErr i =>
    rcases hi : y i with _ | s | s <;> simp [Spec.stepT, Spec.offersT, Spec.effectT, Spec.effect, Spec.inside, Spec.SafeT, Spec.Safe, Ty.plain, Spec.moved, Spec.selfMoved, hi] at hs <;>
    obtain ⟨rfl, rfl⟩ := hs <;>
    refine ⟨some (mrep rep y (⟨.raw, false⟩ :: g)), ?_, ⟨.raw, false⟩ :: g, by simpa using hg, rfl⟩ <;>
    simp [execT, open_, sealed, Out.reply, moveOutT, assignT, assignMoveT, copyOutT, construct, destroy, Expected.read, assign, begin_, end_, abandon, hasValue, hasError, mval, merr, setHas, value, error, ctorValT, ctorErrT, moveCtorT, moveAssignT, setValueT, takeValueT, valueOrT, takeValueOrT, setErrorT, takeErrorT, rd, wr, mrep, rep, map_update, Ty.plain, hi] <;> upd
  | moveCtor i j =>
    by_cases hij : i = j
    · subst hij
      rcases hi : y i with _ | s | s <;> simp [Spec.stepT, Spec.offersT, Spec.effectT, Spec.effect, Spec.inside, Spec.SafeT, Spec.Safe, Ty.plain, Spec.moved, Spec.selfMoved, hi] at hs hsafe <;>
      obtain ⟨rfl, rfl⟩ := hs <;>
      first
      | exact ⟨none, by simp [execT, open_, sealed, Out.reply, moveOutT, assignT, assignMoveT, copyOutT, construct, destroy, Expected.read, assign, begin_, end_, abandon, hasValue, hasError, mval, merr, setHas, value, error, ctorValT, ctorErrT, moveCtorT, moveAssignT, setValueT, takeValueT, valueOrT, takeValueOrT, setErrorT, takeErrorT, rd, wr, mrep, rep, map_update, Ty.plain, hi], trivial⟩
      | refine ⟨some (mrep rep _ g), ?_, g, hg, rfl⟩
        simp [execT, open_, sealed, Out.reply, moveOutT, assignT, assignMoveT, copyOutT, construct, destroy, Expected.read, assign, begin_, end_, abandon, hasValue, hasError, mval, merr, setHas, value, error, ctorValT, ctorErrT, moveCtorT, moveAssignT, setValueT, takeValueT, valueOrT, takeValueOrT, setErrorT, takeErrorT, rd, wr, mrep, rep, map_update, Ty.plain, hi] <;> upd
    · have hji : j ≠ i := fun h => hij h.symm
      rcases hi : y i with _ | s | s <;> rcases hj : y j with _ | t | t <;>
      simp [Spec.stepT, Spec.offersT, Spec.effectT, Spec.effect, Spec.inside, Spec.SafeT, Spec.Safe, Ty.plain, Spec.moved, Spec.selfMoved, hi, hj, hij] at hs hsafe <;>
      obtain ⟨rfl, rfl⟩ := hs <;>
      first
      | exact ⟨none, by simp [execT, open_, sealed, Out.reply, moveOutT, assignT, assignMoveT, copyOutT, construct, destroy, Expected.read, assign, begin_, end_, abandon, hasValue, hasError, mval, merr, setHas, value, error, ctorValT, ctorErrT, moveCtorT, moveAssignT, setValueT, takeValueT, valueOrT, takeValueOrT, setErrorT, takeErrorT, rd, wr, mrep, rep, map_update, Ty.plain, hi, hj, hij, hji, Function.update_of_ne], trivial⟩
      | refine ⟨some (mrep rep _ g), ?_, g, hg, rfl⟩
        simp [execT, open_, sealed, Out.reply, moveOutT, assignT, assignMoveT, copyOutT, construct, destroy, Expected.read, assign, begin_, end_, abandon, hasValue, hasError, mval, merr, setHas, value, error, ctorValT, ctorErrT, moveCtorT, moveAssignT, setValueT, takeValueT, valueOrT, takeValueOrT, setErrorT, takeErrorT, rd, wr, mrep, rep, map_update, Ty.plain, hi, hj, hij, hji, Function.update_of_ne] <;> upd
  | moveAssign i j =>
    by_cases hij : i = j
    · subst hij
      rcases hi : y i with _ | s | s <;> simp [Spec.stepT, Spec.offersT, Spec.effectT, Spec.effect, Spec.inside, Spec.SafeT, Spec.Safe, Ty.plain, Spec.moved, Spec.selfMoved, hi] at hs hsafe <;>
      obtain ⟨rfl, rfl⟩ := hs <;>
      first
      | exact ⟨none, by simp [execT, open_, sealed, Out.reply, moveOutT, assignT, assignMoveT, copyOutT, construct, destroy, Expected.read, assign, begin_, end_, abandon, hasValue, hasError, mval, merr, setHas, value, error, ctorValT, ctorErrT, moveCtorT, moveAssignT, setValueT, takeValueT, valueOrT, takeValueOrT, setErrorT, takeErrorT, rd, wr, mrep, rep, map_update, Ty.plain, hi], trivial⟩
      | refine ⟨some (mrep rep _ g), ?_, g, hg, rfl⟩
        simp [execT, open_, sealed, Out.reply, moveOutT, assignT, assignMoveT, copyOutT, construct, destroy, Expected.read, assign, begin_, end_, abandon, hasValue, hasError, mval, merr, setHas, value, error, ctorValT, ctorErrT, moveCtorT, moveAssignT, setValueT, takeValueT, valueOrT, takeValueOrT, setErrorT, takeErrorT, rd, wr, mrep, rep, map_update, Ty.plain, hi] <;> upd
    · have hji : j ≠ i := fun h => hij h.symm
      rcases hi : y i with _ | s | s <;> rcases hj : y j with _ | t | t <;>
      simp [Spec.stepT, Spec.offersT, Spec.effectT, Spec.effect, Spec.inside, Spec.SafeT, Spec.Safe, Ty.plain, Spec.moved, Spec.selfMoved, hi, hj, hij] at hs hsafe <;>
      obtain ⟨rfl, rfl⟩ := hs <;>
      first
      | exact ⟨none, by simp [execT, open_, sealed, Out.reply, moveOutT, assignT, assignMoveT, copyOutT, construct, destroy, Expected.read, assign, begin_, end_, abandon, hasValue, hasError, mval, merr, setHas, value, error, ctorValT, ctorErrT, moveCtorT, moveAssignT, setValueT, takeValueT, valueOrT, takeValueOrT, setErrorT, takeErrorT, rd, wr, mrep, rep, map_update, Ty.plain, hi, hj, hij, hji, Function.update_of_ne], trivial⟩
      | refine ⟨some (mrep rep _ g), ?_, g, hg, rfl⟩
        simp [execT, open_, sealed, Out.reply, moveOutT, assignT, assignMoveT, copyOutT, construct, destroy, Expected.read, assign, begin_, end_, abandon, hasValue, hasError, mval, merr, setHas, value, error, ctorValT, ctorErrT, moveCtorT, moveAssignT, setValueT, takeValueT, valueOrT, takeValueOrT, setErrorT, takeErrorT, rd, wr, mrep, rep, map_update, Ty.plain, hi, hj, hij, hji, Function.update_of_ne] <;> upd
  | setValue i =>
    rcases hi : y i with _ | s | s <;> simp [Spec.stepT, Spec.offersT, Spec.effectT, Spec.effect, Spec.inside, Spec.SafeT, Spec.Safe, Ty.plain, Spec.moved, Spec.selfMoved, hi] at hs <;>
    obtain ⟨rfl, rfl⟩ := hs <;>
    refine ⟨some (mrep rep _ g), ?_, g, hg, rfl⟩ <;>
    simp [execT, open_, sealed, Out.reply, moveOutT, assignT, assignMoveT, copyOutT, construct, destroy, Expected.read, assign, begin_, end_, abandon, hasValue, hasError, mval, merr, setHas, value, error, ctorValT, ctorErrT, moveCtorT, moveAssignT, setValueT, takeValueT, valueOrT, takeValueOrT, setErrorT, takeErrorT, rd, wr, mrep, rep, map_update, Ty.plain, hi] <;> upd
  | takeValue i =>
    rcases hi : y i with _ | s | s <;> simp [Spec.stepT, Spec.offersT, Spec.effectT, Spec.effect, Spec.inside, Spec.SafeT, Spec.Safe, Ty.plain, Spec.moved, Spec.selfMoved, hi] at hs <;>
    obtain ⟨rfl, rfl⟩ := hs <;>
    refine ⟨some (mrep rep _ g), ?_, g, hg, rfl⟩ <;>
    simp [execT, open_, sealed, Out.reply, moveOutT, assignT, assignMoveT, copyOutT, construct, destroy, Expected.read, assign, begin_, end_, abandon, hasValue, hasError, mval, merr, setHas, value, error, ctorValT, ctorErrT, moveCtorT, moveAssignT, setValueT, takeValueT, valueOrT, takeValueOrT, setErrorT, takeErrorT, rd, wr, mrep, rep, map_update, Ty.plain, hi] <;> upd
  | valueOr i =>
    rcases hi : y i with _ | s | s <;> simp [Spec.stepT, Spec.offersT, Spec.effectT, Spec.effect, Spec.inside, Spec.SafeT, Spec.Safe, Ty.plain, Spec.moved, Spec.selfMoved, hi] at hs <;>
    obtain ⟨rfl, rfl⟩ := hs <;>
    refine ⟨some (mrep rep _ g), ?_, g, hg, rfl⟩ <;>
    simp [execT, open_, sealed, Out.reply, moveOutT, assignT, assignMoveT, copyOutT, construct, destroy, Expected.read, assign, begin_, end_, abandon, hasValue, hasError, mval, merr, setHas, value, error, ctorValT, ctorErrT, moveCtorT, moveAssignT, setValueT, takeValueT, valueOrT, takeValueOrT, setErrorT, takeErrorT, rd, wr, mrep, rep, map_update, Ty.plain, hi] <;> upd
  | takeValueOr i =>
    rcases hi : y i with _ | s | s <;> simp [Spec.stepT, Spec.offersT, Spec.effectT, Spec.effect, Spec.inside, Spec.SafeT, Spec.Safe, Ty.plain, Spec.moved, Spec.selfMoved, hi] at hs <;>
    obtain ⟨rfl, rfl⟩ := hs <;>
    refine ⟨some (mrep rep _ g), ?_, g, hg, rfl⟩ <;>
    simp [execT, open_, sealed, Out.reply, moveOutT, assignT, assignMoveT, copyOutT, construct, destroy, Expected.read, assign, begin_, end_, abandon, hasValue, hasError, mval, merr, setHas, value, error, ctorValT, ctorErrT, moveCtorT, moveAssignT, setValueT, takeValueT, valueOrT, takeValueOrT, setErrorT, takeErrorT, rd, wr, mrep, rep, map_update, Ty.plain, hi] <;> upd
  | setError i =>
    rcases hi : y i with _ | s | s <;> simp [Spec.stepT, Spec.offersT, Spec.effectT, Spec.effect, Spec.inside, Spec.SafeT, Spec.Safe, Ty.plain, Spec.moved, Spec.selfMoved, hi] at hs <;>
    obtain ⟨rfl, rfl⟩ := hs <;>
    refine ⟨some (mrep rep _ g), ?_, g, hg, rfl⟩ <;>
    simp [execT, open_, sealed, Out.reply, moveOutT, assignT, assignMoveT, copyOutT, construct, destroy, Expected.read, assign, begin_, end_, abandon, hasValue, hasError, mval, merr, setHas, value, error, ctorValT, ctorErrT, moveCtorT, moveAssignT, setValueT, takeValueT, valueOrT, takeValueOrT, setErrorT, takeErrorT, rd, wr, mrep, rep, map_update, Ty.plain, hi] <;> upd
  | takeError i =>
    rcases hi : y i with _ | s | s <;> simp [Spec.stepT, Spec.offersT, Spec.effectT, Spec.effect, Spec.inside, Spec.SafeT, Spec.Safe, Ty.plain, Spec.moved, Spec.selfMoved, hi] at hs <;>
    obtain ⟨rfl, rfl⟩ := hs <;>
    refine ⟨some (mrep rep _ g), ?_, g, hg, rfl⟩ <;>
    simp [execT, open_, sealed, Out.reply, moveOutT, assignT, assignMoveT, copyOutT, construct, destroy, Expected.read, assign, begin_, end_, abandon, hasValue, hasError, mval, merr, setHas, value, error, ctorValT, ctorErrT, moveCtorT, moveAssignT, setValueT, takeValueT, valueOrT, takeValueOrT, setErrorT, takeErrorT, rd, wr, mrep, rep, map_update, Ty.plain, hi] <;> upd

theorem RE.stepT_refines {E : Type} (te : Ty E) (nv : Torn Nat) (ne : Torn E) (op : TOp Nat E) (y : Spec.Sys Nat E) (a : Spec.After Nat E) (r : Reply Nat E)
    (g : List (RE.Obj E)) (hg : ∀ o ∈ g, o.u = none) (hsafe : Spec.SafeT .re op y)
    (hs : Spec.stepT (Ty.plain 0) te nv ne .re op y = some (r, a)) :
    ∃ s, RE.execT te ne op (mrep RE.rep y g) = some (r, s) ∧ Left RE.rep (fun o => o.u = none) a s := by
  cases op with
  | quiet op =>
    have h : ∃ y', Spec.step (Ty.plain 0) te .re op y = some (r, y') ∧ a = some y' := by
      by_cases ho : Spec.offers .re op = true
      · simp only [Spec.stepT, Spec.offersT, Spec.effectT, ho, if_true] at hs
        obtain ⟨p, hp, h1⟩ := Option.map_eq_some_iff.1 hs
        have h2 : p.1 = r ∧ some p.2 = a := by simpa using h1
        exact ⟨p.2, by rw [Spec.step, if_pos ho, hp, ← h2.1], h2.2.symm⟩
      · simp [Spec.stepT, Spec.offersT, ho] at hs
    obtain ⟨y', h, rfl⟩ := h
    exact plain_left (RE.step_refines te op y y' r g hg hsafe h)
  | ctorVal i =>
    simp [Spec.stepT, Spec.offersT] at hs
  | ctorErr i =>
    rcases hi : y i with _ | s | s <;> simp [Spec.stepT, Spec.offersT, Spec.effectT, Spec.effect, Spec.inside, Spec.SafeT, Spec.Safe, Ty.plain, Spec.moved, Spec.selfMoved, hi] at hs <;>
    obtain ⟨rfl, rfl⟩ := hs <;>
    refine ⟨some (mrep rep y (⟨none, none⟩ :: g)), ?_, ⟨none, none⟩ :: g, by simpa using hg, rfl⟩ <;>
    simp [execT, open_, sealed, Out.reply, moveOutT, assignT, assignMoveT, copyOutT, construct, destroy, Expected.read, assign, begin_, end_, abandon, hasValue, hasError, merr, setPtr, ptr, error, ctorErrT, moveCtorT, moveAssignT, setErrorT, takeErrorT, rd, wr, mrep, rep, map_update, Ty.plain, hi] <;> upd
  | moveCtor i j =>
    by_cases hij : i = j
    · subst hij
      rcases hi : y i with _ | s | s <;> simp [Spec.stepT, Spec.offersT, Spec.effectT, Spec.effect, Spec.inside, Spec.SafeT, Spec.Safe, Ty.plain, Spec.moved, Spec.selfMoved, hi] at hs hsafe <;>
      obtain ⟨rfl, rfl⟩ := hs <;>
      first
      | exact ⟨none, by simp [execT, open_, sealed, Out.reply, moveOutT, assignT, assignMoveT, copyOutT, construct, destroy, Expected.read, assign, begin_, end_, abandon, hasValue, hasError, merr, setPtr, ptr, error, ctorErrT, moveCtorT, moveAssignT, setErrorT, takeErrorT, rd, wr, mrep, rep, map_update, Ty.plain, hi], trivial⟩
      | refine ⟨some (mrep rep _ g), ?_, g, hg, rfl⟩
        simp [execT, open_, sealed, Out.reply, moveOutT, assignT, assignMoveT, copyOutT, construct, destroy, Expected.read, assign, begin_, end_, abandon, hasValue, hasError, merr, setPtr, ptr, error, ctorErrT, moveCtorT, moveAssignT, setErrorT, takeErrorT, rd, wr, mrep, rep, map_update, Ty.plain, hi] <;> upd
    · have hji : j ≠ i := fun h => hij h.symm
      rcases hi : y i with _ | s | s <;> rcases hj : y j with _ | t | t <;>
      simp [Spec.stepT, Spec.offersT, Spec.effectT, Spec.effect, Spec.inside, Spec.SafeT, Spec.Safe, Ty.plain, Spec.moved, Spec.selfMoved, hi, hj, hij] at hs hsafe <;>
      obtain ⟨rfl, rfl⟩ := hs <;>
      first
      | exact ⟨none, by simp [execT, open_, sealed, Out.reply, moveOutT, assignT, assignMoveT, copyOutT, construct, destroy, Expected.read, assign, begin_, end_, abandon, hasValue, hasError, merr, setPtr, ptr, error, ctorErrT, moveCtorT, moveAssignT, setErrorT, takeErrorT, rd, wr, mrep, rep, map_update, Ty.plain, hi, hj, hij, hji, Function.update_of_ne], trivial⟩
      | refine ⟨some (mrep rep _ g), ?_, g, hg, rfl⟩
        simp [execT, open_, sealed, Out.reply, moveOutT, assignT, assignMoveT, copyOutT, construct, destroy, Expected.read, assign, begin_, end_, abandon, hasValue, hasError, merr, setPtr, ptr, error, ctorErrT, moveCtorT, moveAssignT, setErrorT, takeErrorT, rd, wr, mrep, rep, map_update, Ty.plain, hi, hj, hij, hji, Function.update_of_ne] <;> upd
  | moveAssign i j =>
    by_cases hij : i = j
    · subst hij
      rcases hi : y i with _ | s | s <;> simp [Spec.stepT, Spec.offersT, Spec.effectT, Spec.effect, Spec.inside, Spec.SafeT, Spec.Safe, Ty.plain, Spec.moved, Spec.selfMoved, hi] at hs hsafe <;>
      obtain ⟨rfl, rfl⟩ := hs <;>
      first
      | exact ⟨none, by simp [execT, open_, sealed, Out.reply, moveOutT, assignT, assignMoveT, copyOutT, construct, destroy, Expected.read, assign, begin_, end_, abandon, hasValue, hasError, merr, setPtr, ptr, error, ctorErrT, moveCtorT, moveAssignT, setErrorT, takeErrorT, rd, wr, mrep, rep, map_update, Ty.plain, hi], trivial⟩
      | refine ⟨some (mrep rep _ g), ?_, g, hg, rfl⟩
        simp [execT, open_, sealed, Out.reply, moveOutT, assignT, assignMoveT, copyOutT, construct, destroy, Expected.read, assign, begin_, end_, abandon, hasValue, hasError, merr, setPtr, ptr, error, ctorErrT, moveCtorT, moveAssignT, setErrorT, takeErrorT, rd, wr, mrep, rep, map_update, Ty.plain, hi] <;> upd
    · have hji : j ≠ i := fun h => hij h.symm
      rcases hi : y i with _ | s | s <;> rcases hj : y j with _ | t | t <;>
      simp [Spec.stepT, Spec.offersT, Spec.effectT, Spec.effect, Spec.inside, Spec.SafeT, Spec.Safe, Ty.plain, Spec.moved, Spec.selfMoved, hi, hj, hij] at hs hsafe <;>
      obtain ⟨rfl, rfl⟩ := hs <;>
      first
      | exact ⟨none, by simp [execT, open_, sealed, Out.reply, moveOutT, assignT, assignMoveT, copyOutT, construct, destroy, Expected.read, assign, begin_, end_, abandon, hasValue, hasError, merr, setPtr, ptr, error, ctorErrT, moveCtorT, moveAssignT, setErrorT, takeErrorT, rd, wr, mrep, rep, map_update, Ty.plain, hi, hj, hij, hji, Function.update_of_ne], trivial⟩
      | refine ⟨some (mrep rep _ g), ?_, g, hg, rfl⟩
        simp [execT, open_, sealed, Out.reply, moveOutT, assignT, assignMoveT, copyOutT, construct, destroy, Expected.read, assign, begin_, end_, abandon, hasValue, hasError, merr, setPtr, ptr, error, ctorErrT, moveCtorT, moveAssignT, setErrorT, takeErrorT, rd, wr, mrep, rep, map_update, Ty.plain, hi, hj, hij, hji, Function.update_of_ne] <;> upd
  | setValue i =>
    simp [Spec.stepT, Spec.offersT] at hs
  | takeValue i =>
    simp [Spec.stepT, Spec.offersT] at hs
  | valueOr i =>
    simp [Spec.stepT, Spec.offersT] at hs
  | takeValueOr i =>
    simp [Spec.stepT, Spec.offersT] at hs
  | setError i =>
    rcases hi : y i with _ | s | s <;> simp [Spec.stepT, Spec.offersT, Spec.effectT, Spec.effect, Spec.inside, Spec.SafeT, Spec.Safe, Ty.plain, Spec.moved, Spec.selfMoved, hi] at hs <;>
    obtain ⟨rfl, rfl⟩ := hs <;>
    refine ⟨some (mrep rep _ g), ?_, g, hg, rfl⟩ <;>
    simp [execT, open_, sealed, Out.reply, moveOutT, assignT, assignMoveT, copyOutT, construct, destroy, Expected.read, assign, begin_, end_, abandon, hasValue, hasError, merr, setPtr, ptr, error, ctorErrT, moveCtorT, moveAssignT, setErrorT, takeErrorT, rd, wr, mrep, rep, map_update, Ty.plain, hi] <;> upd
  | takeError i =>
    rcases hi : y i with _ | s | s <;> simp [Spec.stepT, Spec.offersT, Spec.effectT, Spec.effect, Spec.inside, Spec.SafeT, Spec.Safe, Ty.plain, Spec.moved, Spec.selfMoved, hi] at hs <;>
    obtain ⟨rfl, rfl⟩ := hs <;>
    refine ⟨some (mrep rep _ g), ?_, g, hg, rfl⟩ <;>
    simp [execT, open_, sealed, Out.reply, moveOutT, assignT, assignMoveT, copyOutT, construct, destroy, Expected.read, assign, begin_, end_, abandon, hasValue, hasError, merr, setPtr, ptr, error, ctorErrT, moveCtorT, moveAssignT, setErrorT, takeErrorT, rd, wr, mrep, rep, map_update, Ty.plain, hi] <;> upd

theorem VE.stepT_refines {E : Type} (te : Ty E) (nv : Torn Unit) (ne : Torn E) (op : TOp Unit E) (y : Spec.Sys Unit E) (a : Spec.After Unit E) (r : Reply Unit E)
    (g : List (VE.Obj E)) (hg : ∀ o ∈ g, o.u = none) (hsafe : Spec.SafeT .ve op y)
    (hs : Spec.stepT (Ty.plain ()) te nv ne .ve op y = some (r, a)) :
    ∃ s, VE.execT te ne op (mrep VE.rep y g) = some (r, s) ∧ Left VE.rep (fun o => o.u = none) a s := by
  cases op with
  | quiet op =>
    have h : ∃ y', Spec.step (Ty.plain ()) te .ve op y = some (r, y') ∧ a = some y' := by
      by_cases ho : Spec.offers .ve op = true
      · simp only [Spec.stepT, Spec.offersT, Spec.effectT, ho, if_true] at hs
        obtain ⟨p, hp, h1⟩ := Option.map_eq_some_iff.1 hs
        have h2 : p.1 = r ∧ some p.2 = a := by simpa using h1
        exact ⟨p.2, by rw [Spec.step, if_pos ho, hp, ← h2.1], h2.2.symm⟩
      · simp [Spec.stepT, Spec.offersT, ho] at hs
    obtain ⟨y', h, rfl⟩ := h
    exact plain_left (VE.step_refines te op y y' r g hg hsafe h)
  | ctorVal i =>
    simp [Spec.stepT, Spec.offersT] at hs
  | ctorErr i =>
    rcases hi : y i with _ | s | s <;> simp [Spec.stepT, Spec.offersT, Spec.effectT, Spec.effect, Spec.inside, Spec.SafeT, Spec.Safe, Ty.plain, Spec.moved, Spec.selfMoved, hi] at hs <;>
    obtain ⟨rfl, rfl⟩ := hs <;>
    refine ⟨some (mrep rep y (⟨none, false⟩ :: g)), ?_, ⟨none, false⟩ :: g, by simpa using hg, rfl⟩ <;>
    simp [execT, open_, sealed, Out.reply, moveOutT, assignT, assignMoveT, copyOutT, construct, destroy, Expected.read, assign, begin_, end_, abandon, hasValue, hasError, merr, setHas, error, ctorErrT, moveCtorT, moveAssignT, setErrorT, takeErrorT, rd, wr, mrep, rep, map_update, Ty.plain, hi] <;> upd
  | moveCtor i j =>
    by_cases hij : i = j
    · subst hij
      rcases hi : y i with _ | s | s <;> simp [Spec.stepT, Spec.offersT, Spec.effectT, Spec.effect, Spec.inside, Spec.SafeT, Spec.Safe, Ty.plain, Spec.moved, Spec.selfMoved, hi] at hs hsafe <;>
      obtain ⟨rfl, rfl⟩ := hs <;>
      first
      | exact ⟨none, by simp [execT, open_, sealed, Out.reply, moveOutT, assignT, assignMoveT, copyOutT, construct, destroy, Expected.read, assign, begin_, end_, abandon, hasValue, hasError, merr, setHas, error, ctorErrT, moveCtorT, moveAssignT, setErrorT, takeErrorT, rd, wr, mrep, rep, map_update, Ty.plain, hi], trivial⟩
      | refine ⟨some (mrep rep _ g), ?_, g, hg, rfl⟩
        simp [execT, open_, sealed, Out.reply, moveOutT, assignT, assignMoveT, copyOutT, construct, destroy, Expected.read, assign, begin_, end_, abandon, hasValue, hasError, merr, setHas, error, ctorErrT, moveCtorT, moveAssignT, setErrorT, takeErrorT, rd, wr, mrep, rep, map_update, Ty.plain, hi] <;> upd
    · have hji : j ≠ i := fun h => hij h.symm
      rcases hi : y i with _ | s | s <;> rcases hj : y j with _ | t | t <;>
      simp [Spec.stepT, Spec.offersT, Spec.effectT, Spec.effect, Spec.inside, Spec.SafeT, Spec.Safe, Ty.plain, Spec.moved, Spec.selfMoved, hi, hj, hij] at hs hsafe <;>
      obtain ⟨rfl, rfl⟩ := hs <;>
      first
      | exact ⟨none, by simp [execT, open_, sealed, Out.reply, moveOutT, assignT, assignMoveT, copyOutT, construct, destroy, Expected.read, assign, begin_, end_, abandon, hasValue, hasError, merr, setHas, error, ctorErrT, moveCtorT, moveAssignT, setErrorT, takeErrorT, rd, wr, mrep, rep, map_update, Ty.plain, hi, hj, hij, hji, Function.update_of_ne], trivial⟩
      | refine ⟨some (mrep rep _ g), ?_, g, hg, rfl⟩
        simp [execT, open_, sealed, Out.reply, moveOutT, assignT, assignMoveT, copyOutT, construct, destroy, Expected.read, assign, begin_, end_, abandon, hasValue, hasError, merr, setHas, error, ctorErrT, moveCtorT, moveAssignT, setErrorT, takeErrorT, rd, wr, mrep, rep, map_update, Ty.plain, hi, hj, hij, hji, Function.update_of_ne] <;> upd
  | moveAssign i j =>
    by_cases hij : i = j
    · subst hij
      rcases hi : y i with _ | s | s <;> simp [Spec.stepT, Spec.offersT, Spec.effectT, Spec.effect, Spec.inside, Spec.SafeT, Spec.Safe, Ty.plain, Spec.moved, Spec.selfMoved, hi] at hs hsafe <;>
      obtain ⟨rfl, rfl⟩ := hs <;>
      first
      | exact ⟨none, by simp [execT, open_, sealed, Out.reply, moveOutT, assignT, assignMoveT, copyOutT, construct, destroy, Expected.read, assign, begin_, end_, abandon, hasValue, hasError, merr, setHas, error, ctorErrT, moveCtorT, moveAssignT, setErrorT, takeErrorT, rd, wr, mrep, rep, map_update, Ty.plain, hi], trivial⟩
      | refine ⟨some (mrep rep _ g), ?_, g, hg, rfl⟩
        simp [execT, open_, sealed, Out.reply, moveOutT, assignT, assignMoveT, copyOutT, construct, destroy, Expected.read, assign, begin_, end_, abandon, hasValue, hasError, merr, setHas, error, ctorErrT, moveCtorT, moveAssignT, setErrorT, takeErrorT, rd, wr, mrep, rep, map_update, Ty.plain, hi] <;> upd
    · have hji : j ≠ i := fun h => hij h.symm
      rcases hi : y i with _ | s | s <;> rcases hj : y j with _ | t | t <;>
      simp [Spec.stepT, Spec.offersT, Spec.effectT, Spec.effect, Spec.inside, Spec.SafeT, Spec.Safe, Ty.plain, Spec.moved, Spec.selfMoved, hi, hj, hij] at hs hsafe <;>
      obtain ⟨rfl, rfl⟩ := hs <;>
      first
      | exact ⟨none, by simp [execT, open_, sealed, Out.reply, moveOutT, assignT, assignMoveT, copyOutT, construct, destroy, Expected.read, assign, begin_, end_, abandon, hasValue, hasError, merr, setHas, error, ctorErrT, moveCtorT, moveAssignT, setErrorT, takeErrorT, rd, wr, mrep, rep, map_update, Ty.plain, hi, hj, hij, hji, Function.update_of_ne], trivial⟩
      | refine ⟨some (mrep rep _ g), ?_, g, hg, rfl⟩
        simp [execT, open_, sealed, Out.reply, moveOutT, assignT, assignMoveT, copyOutT, construct, destroy, Expected.read, assign, begin_, end_, abandon, hasValue, hasError, merr, setHas, error, ctorErrT, moveCtorT, moveAssignT, setErrorT, takeErrorT, rd, wr, mrep, rep, map_update, Ty.plain, hi, hj, hij, hji, Function.update_of_ne] <;> upd
  | setValue i =>
    simp [Spec.stepT, Spec.offersT] at hs
  | takeValue i =>
    simp [Spec.stepT, Spec.offersT] at hs
  | valueOr i =>
    simp [Spec.stepT, Spec.offersT] at hs
  | takeValueOr i =>
    simp [Spec.stepT, Spec.offersT] at hs
  | setError i =>
    rcases hi : y i with _ | s | s <;> simp [Spec.stepT, Spec.offersT, Spec.effectT, Spec.effect, Spec.inside, Spec.SafeT, Spec.Safe, Ty.plain, Spec.moved, Spec.selfMoved, hi] at hs <;>
    obtain ⟨rfl, rfl⟩ := hs <;>
    refine ⟨some (mrep rep _ g), ?_, g, hg, rfl⟩ <;>
    simp [execT, open_, sealed, Out.reply, moveOutT, assignT, assignMoveT, copyOutT, construct, destroy, Expected.read, assign, begin_, end_, abandon, hasValue, hasError, merr, setHas, error, ctorErrT, moveCtorT, moveAssignT, setErrorT, takeErrorT, rd, wr, mrep, rep, map_update, Ty.plain, hi] <;> upd
  | takeError i =>
    rcases hi : y i with _ | s | s <;> simp [Spec.stepT, Spec.offersT, Spec.effectT, Spec.effect, Spec.inside, Spec.SafeT, Spec.Safe, Ty.plain, Spec.moved, Spec.selfMoved, hi] at hs <;>
    obtain ⟨rfl, rfl⟩ := hs <;>
    refine ⟨some (mrep rep _ g), ?_, g, hg, rfl⟩ <;>
    simp [execT, open_, sealed, Out.reply, moveOutT, assignT, assignMoveT, copyOutT, construct, destroy, Expected.read, assign, begin_, end_, abandon, hasValue, hasError, merr, setHas, error, ctorErrT, moveCtorT, moveAssignT, setErrorT, takeErrorT, rd, wr, mrep, rep, map_update, Ty.plain, hi] <;> upd

theorem TV.stepT_refines {V : Type} (tv : Ty V) (nv : Torn V) (ne : Torn Unit) (op : TOp V Unit) (y : Spec.Sys V Unit) (a : Spec.After V Unit) (r : Reply V Unit)
    (g : List (TV.Obj V)) (hg : ∀ o ∈ g, o.u = none) (hsafe : Spec.SafeT .tv op y)
    (hs : Spec.stepT tv (Ty.plain ()) nv ne .tv op y = some (r, a)) :
    ∃ s, TV.execT tv nv op (mrep TV.rep y g) = some (r, s) ∧ Left TV.rep (fun o => o.u = none) a s := by
  cases op with
  | quiet op =>
    have h : ∃ y', Spec.step tv (Ty.plain ()) .tv op y = some (r, y') ∧ a = some y' := by
      by_cases ho : Spec.offers .tv op = true
      · simp only [Spec.stepT, Spec.offersT, Spec.effectT, ho, if_true] at hs
        obtain ⟨p, hp, h1⟩ := Option.map_eq_some_iff.1 hs
        have h2 : p.1 = r ∧ some p.2 = a := by simpa using h1
        exact ⟨p.2, by rw [Spec.step, if_pos ho, hp, ← h2.1], h2.2.symm⟩
      · simp [Spec.stepT, Spec.offersT, ho] at hs
    obtain ⟨y', h, rfl⟩ := h
    exact plain_left (TV.step_refines tv op y y' r g hg hsafe h)
  | ctorVal i =>
    rcases hi : y i with _ | s | s <;> simp [Spec.stepT, Spec.offersT, Spec.effectT, Spec.effect, Spec.inside, Spec.SafeT, Spec.Safe, Ty.plain, Spec.moved, Spec.selfMoved, hi] at hs <;>
    obtain ⟨rfl, rfl⟩ := hs <;>
    refine ⟨some (mrep rep y (⟨none, true⟩ :: g)), ?_, ⟨none, true⟩ :: g, by simpa using hg, rfl⟩ <;>
    simp [execT, open_, sealed, Out.reply, moveOutT, assignT, assignMoveT, copyOutT, construct, destroy, Expected.read, assign, begin_, end_, abandon, hasValue, hasError, mval, setHas, value, ctorValT, moveCtorT, moveAssignT, setValueT, takeValueT, valueOrT, takeValueOrT, rd, wr, mrep, rep, map_update, Ty.plain, hi] <;> upd
  | ctorErr i =>
    simp [Spec.stepT, Spec.offersT] at hs
  | moveCtor i j =>
    by_cases hij : i = j
    · subst hij
      rcases hi : y i with _ | s | s <;> simp [Spec.stepT, Spec.offersT, Spec.effectT, Spec.effect, Spec.inside, Spec.SafeT, Spec.Safe, Ty.plain, Spec.moved, Spec.selfMoved, hi] at hs hsafe <;>
      obtain ⟨rfl, rfl⟩ := hs <;>
      first
      | exact ⟨none, by simp [execT, open_, sealed, Out.reply, moveOutT, assignT, assignMoveT, copyOutT, construct, destroy, Expected.read, assign, begin_, end_, abandon, hasValue, hasError, mval, setHas, value, ctorValT, moveCtorT, moveAssignT, setValueT, takeValueT, valueOrT, takeValueOrT, rd, wr, mrep, rep, map_update, Ty.plain, hi], trivial⟩
      | refine ⟨some (mrep rep _ g), ?_, g, hg, rfl⟩
        simp [execT, open_, sealed, Out.reply, moveOutT, assignT, assignMoveT, copyOutT, construct, destroy, Expected.read, assign, begin_, end_, abandon, hasValue, hasError, mval, setHas, value, ctorValT, moveCtorT, moveAssignT, setValueT, takeValueT, valueOrT, takeValueOrT, rd, wr, mrep, rep, map_update, Ty.plain, hi] <;> upd
    · have hji : j ≠ i := fun h => hij h.symm
      rcases hi : y i with _ | s | s <;> rcases hj : y j with _ | t | t <;>
      simp [Spec.stepT, Spec.offersT, Spec.effectT, Spec.effect, Spec.inside, Spec.SafeT, Spec.Safe, Ty.plain, Spec.moved, Spec.selfMoved, hi, hj, hij] at hs hsafe <;>
      obtain ⟨rfl, rfl⟩ := hs <;>
      first
      | exact ⟨none, by simp [execT, open_, sealed, Out.reply, moveOutT, assignT, assignMoveT, copyOutT, construct, destroy, Expected.read, assign, begin_, end_, abandon, hasValue, hasError, mval, setHas, value, ctorValT, moveCtorT, moveAssignT, setValueT, takeValueT, valueOrT, takeValueOrT, rd, wr, mrep, rep, map_update, Ty.plain, hi, hj, hij, hji, Function.update_of_ne], trivial⟩
      | refine ⟨some (mrep rep _ g), ?_, g, hg, rfl⟩
        simp [execT, open_, sealed, Out.reply, moveOutT, assignT, assignMoveT, copyOutT, construct, destroy, Expected.read, assign, begin_, end_, abandon, hasValue, hasError, mval, setHas, value, ctorValT, moveCtorT, moveAssignT, setValueT, takeValueT, valueOrT, takeValueOrT, rd, wr, mrep, rep, map_update, Ty.plain, hi, hj, hij, hji, Function.update_of_ne] <;> upd
  | moveAssign i j =>
    by_cases hij : i = j
    · subst hij
      rcases hi : y i with _ | s | s <;> simp [Spec.stepT, Spec.offersT, Spec.effectT, Spec.effect, Spec.inside, Spec.SafeT, Spec.Safe, Ty.plain, Spec.moved, Spec.selfMoved, hi] at hs hsafe <;>
      obtain ⟨rfl, rfl⟩ := hs <;>
      first
      | exact ⟨none, by simp [execT, open_, sealed, Out.reply, moveOutT, assignT, assignMoveT, copyOutT, construct, destroy, Expected.read, assign, begin_, end_, abandon, hasValue, hasError, mval, setHas, value, ctorValT, moveCtorT, moveAssignT, setValueT, takeValueT, valueOrT, takeValueOrT, rd, wr, mrep, rep, map_update, Ty.plain, hi], trivial⟩
      | refine ⟨some (mrep rep _ g), ?_, g, hg, rfl⟩
        simp [execT, open_, sealed, Out.reply, moveOutT, assignT, assignMoveT, copyOutT, construct, destroy, Expected.read, assign, begin_, end_, abandon, hasValue, hasError, mval, setHas, value, ctorValT, moveCtorT, moveAssignT, setValueT, takeValueT, valueOrT, takeValueOrT, rd, wr, mrep, rep, map_update, Ty.plain, hi] <;> upd
    · have hji : j ≠ i := fun h => hij h.symm
      rcases hi : y i with _ | s | s <;> rcases hj : y j with _ | t | t <;>
      simp [Spec.stepT, Spec.offersT, Spec.effectT, Spec.effect, Spec.inside, Spec.SafeT, Spec.Safe, Ty.plain, Spec.moved, Spec.selfMoved, hi, hj, hij] at hs hsafe <;>
      obtain ⟨rfl, rfl⟩ := hs <;>
      first
      | exact ⟨none, by simp [execT, open_, sealed, Out.reply, moveOutT, assignT, assignMoveT, copyOutT, construct, destroy, Expected.read, assign, begin_, end_, abandon, hasValue, hasError, mval, setHas, value, ctorValT, moveCtorT, moveAssignT, setValueT, takeValueT, valueOrT, takeValueOrT, rd, wr, mrep, rep, map_update, Ty.plain, hi, hj, hij, hji, Function.update_of_ne], trivial⟩
      | refine ⟨some (mrep rep _ g), ?_, g, hg, rfl⟩
        simp [execT, open_, sealed, Out.reply, moveOutT, assignT, assignMoveT, copyOutT, construct, destroy, Expected.read, assign, begin_, end_, abandon, hasValue, hasError, mval, setHas, value, ctorValT, moveCtorT, moveAssignT, setValueT, takeValueT, valueOrT, takeValueOrT, rd, wr, mrep, rep, map_update, Ty.plain, hi, hj, hij, hji, Function.update_of_ne] <;> upd
  | setValue i =>
    rcases hi : y i with _ | s | s <;> simp [Spec.stepT, Spec.offersT, Spec.effectT, Spec.effect, Spec.inside, Spec.SafeT, Spec.Safe, Ty.plain, Spec.moved, Spec.selfMoved, hi] at hs <;>
    obtain ⟨rfl, rfl⟩ := hs <;>
    refine ⟨some (mrep rep _ g), ?_, g, hg, rfl⟩ <;>
    simp [execT, open_, sealed, Out.reply, moveOutT, assignT, assignMoveT, copyOutT, construct, destroy, Expected.read, assign, begin_, end_, abandon, hasValue, hasError, mval, setHas, value, ctorValT, moveCtorT, moveAssignT, setValueT, takeValueT, valueOrT, takeValueOrT, rd, wr, mrep, rep, map_update, Ty.plain, hi] <;> upd
  | takeValue i =>
    rcases hi : y i with _ | s | s <;> simp [Spec.stepT, Spec.offersT, Spec.effectT, Spec.effect, Spec.inside, Spec.SafeT, Spec.Safe, Ty.plain, Spec.moved, Spec.selfMoved, hi] at hs <;>
    obtain ⟨rfl, rfl⟩ := hs <;>
    refine ⟨some (mrep rep _ g), ?_, g, hg, rfl⟩ <;>
    simp [execT, open_, sealed, Out.reply, moveOutT, assignT, assignMoveT, copyOutT, construct, destroy, Expected.read, assign, begin_, end_, abandon, hasValue, hasError, mval, setHas, value, ctorValT, moveCtorT, moveAssignT, setValueT, takeValueT, valueOrT, takeValueOrT, rd, wr, mrep, rep, map_update, Ty.plain, hi] <;> upd
  | valueOr i =>
    rcases hi : y i with _ | s | s <;> simp [Spec.stepT, Spec.offersT, Spec.effectT, Spec.effect, Spec.inside, Spec.SafeT, Spec.Safe, Ty.plain, Spec.moved, Spec.selfMoved, hi] at hs <;>
    obtain ⟨rfl, rfl⟩ := hs <;>
    refine ⟨some (mrep rep _ g), ?_, g, hg, rfl⟩ <;>
    simp [execT, open_, sealed, Out.reply, moveOutT, assignT, assignMoveT, copyOutT, construct, destroy, Expected.read, assign, begin_, end_, abandon, hasValue, hasError, mval, setHas, value, ctorValT, moveCtorT, moveAssignT, setValueT, takeValueT, valueOrT, takeValueOrT, rd, wr, mrep, rep, map_update, Ty.plain, hi] <;> upd
  | takeValueOr i =>
    rcases hi : y i with _ | s | s <;> simp [Spec.stepT, Spec.offersT, Spec.effectT, Spec.effect, Spec.inside, Spec.SafeT, Spec.Safe, Ty.plain, Spec.moved, Spec.selfMoved, hi] at hs <;>
    obtain ⟨rfl, rfl⟩ := hs <;>
    refine ⟨some (mrep rep _ g), ?_, g, hg, rfl⟩ <;>
    simp [execT, open_, sealed, Out.reply, moveOutT, assignT, assignMoveT, copyOutT, construct, destroy, Expected.read, assign, begin_, end_, abandon, hasValue, hasError, mval, setHas, value, ctorValT, moveCtorT, moveAssignT, setValueT, takeValueT, valueOrT, takeValueOrT, rd, wr, mrep, rep, map_update, Ty.plain, hi] <;> upd
  | setError i =>
    simp [Spec.stepT, Spec.offersT] at hs
  | takeError i =>
    simp [Spec.stepT, Spec.offersT] at hs

end Itlib.Expected
