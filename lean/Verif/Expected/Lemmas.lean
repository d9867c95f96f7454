import Verif.Expected.Exec
import Mathlib.Tactic.SplitIfs

/-! # Proof engineering for `expected` (no property statements here) -/
namespace Itlib.Expected
open Itlib

/-- the store in which the objects represent `y` -/
def mrep {O V E : Type} (rep : V ⊕ E → O) (y : Spec.Sys V E) (g : List O) : Store O :=
  ⟨fun i => (y i).map rep, g⟩

section
variable {O V E : Type} {rep : V ⊕ E → O}

theorem map_update (y : Spec.Sys V E) (i : Nat) (s : Option (V ⊕ E)) :
    (fun k => (Function.update y i s k).map rep) = Function.update (fun k => (y k).map rep) i (s.map rep) := by
  funext k
  by_cases h : k = i
  · subst h; simp
  · simp [Function.update_of_ne h]

theorem update_same {β : Type} (f : Nat → β) (i : Nat) (b : β) (h : f i = b) : Function.update f i b = f := by
  subst h; exact Function.update_eq_self i f

theorem runOf_refines {k : Kind} {tv : Ty V} {te : Ty E} {dead : O → Prop} {exec : Op V E → M (Store O) (Reply V E)}
    (hstep : ∀ (op : Op V E) (y y' : Spec.Sys V E) (r : Reply V E) (g : List O), (∀ o ∈ g, dead o) → Spec.Safe k op y →
      Spec.step tv te k op y = some (r, y') →
      ∃ g', (∀ o ∈ g', dead o) ∧ caught (exec op) (mrep rep y g) = some (r, mrep rep y' g')) :
    ∀ (ops : List (Op V E)) (y y' : Spec.Sys V E) (rs : List (Reply V E)) (g : List O), (∀ o ∈ g, dead o) →
      Spec.SafeRun tv te k ops y → Spec.run tv te k ops y = some (rs, y') →
      ∃ g', (∀ o ∈ g', dead o) ∧ runOf exec ops (mrep rep y g) = some (rs, mrep rep y' g') := by
  intro ops
  induction ops with
  | nil =>
    intro y y' rs g hg _ hs
    simp only [Spec.run, Option.some.injEq, Prod.mk.injEq] at hs
    obtain ⟨rfl, rfl⟩ := hs
    exact ⟨g, hg, rfl⟩
  | cons op ops ih =>
    intro y y' rs g hg hsafe hs
    cases h1 : Spec.step tv te k op y with
    | none => simp [Spec.run, h1] at hs
    | some p =>
      obtain ⟨r, y1⟩ := p
      cases h2 : Spec.run tv te k ops y1 with
      | none => simp [Spec.run, h1, h2] at hs
      | some q =>
        obtain ⟨rs1, y2⟩ := q
        simp only [Spec.run, h1, h2, Option.bind_eq_bind, Option.bind_some, Option.some.injEq, Prod.mk.injEq] at hs
        obtain ⟨rfl, rfl⟩ := hs
        obtain ⟨g1, hg1, e1⟩ := hstep op y y1 r g hg hsafe.1 h1
        obtain ⟨g2, hg2, e2⟩ := ih y1 y2 rs1 g1 hg1 (hsafe.2 r y1 h1) h2
        exact ⟨g2, hg2, by simp [runOf, e1, e2]⟩

end

/-- representation of `expected<T, E>` -/
def TE.rep {V E : Type} : V ⊕ E → TE.Obj V E
  | .inl v => ⟨.val v, true⟩
  | .inr e => ⟨.err e, false⟩

/-- representation of `expected<T&, E>` -/
def RE.rep {E : Type} : Nat ⊕ E → RE.Obj E
  | .inl v => ⟨some v, none⟩
  | .inr e => ⟨none, some e⟩

/-- representation of `expected<void, E>` -/
def VE.rep {E : Type} : Unit ⊕ E → VE.Obj E
  | .inl _ => ⟨none, true⟩
  | .inr e => ⟨some e, false⟩

/-- representation of `expected<T, void>` -/
def TV.rep {V : Type} : V ⊕ Unit → TV.Obj V
  | .inl v => ⟨some v, true⟩
  | .inr _ => ⟨none, false⟩

/-- representation of `expected<T&, void>` -/
def RV.rep : Nat ⊕ Unit → RV.Obj
  | .inl v => ⟨some v⟩
  | .inr _ => ⟨none⟩

/-- representation of `expected<void, void>` -/
def VV.rep : Unit ⊕ Unit → VV.Obj
  | .inl _ => ⟨true⟩
  | .inr _ => ⟨false⟩

set_option linter.unusedSimpArgs false
set_option linter.unusedTactic false


macro "upd" : tactic => `(tactic| (first | done | rfl | (funext k; simp only [Function.update_apply]; grind) |
  (funext k; simp only [Function.update_apply]; split_ifs <;> simp_all [TV.rep, RV.rep, VV.rep])))

theorem TE.step_refines {V E : Type} (tv : Ty V) (te : Ty E) (op : Op V E) (y y' : Spec.Sys V E) (r : Reply V E)
    (g : List (TE.Obj V E)) (hg : ∀ o ∈ g, o.u = TE.Slot.raw) (hsafe : Spec.Safe .te op y)
    (hs : Spec.step tv te .te op y = some (r, y')) :
    ∃ g', (∀ o ∈ g', o.u = TE.Slot.raw) ∧
      caught (TE.exec tv te op) (mrep TE.rep y g) = some (r, mrep TE.rep y' g') := by
  cases op with
  | ctorDefault i =>
    rcases hi : y i with _ | s | s <;> simp [Spec.step, Spec.offers, Spec.effect, Spec.Safe, hi, Ty.plain] at hs hsafe <;>
    (first | (obtain ⟨rfl, rfl⟩ := hs) | (obtain ⟨hx, rfl, rfl⟩ := hs; subst hx)) <;>
    refine ⟨g, hg, ?_⟩ <;>
    simp [caught, exec, construct, destroy, Expected.read, assign, moveOut, assignMove, assignCopy, begin_, end_, abandon, hasValue, hasError, dtor, mval, merr, setHas, ctorVal, ctorErr, moveCtor, moveAssign, value, setValue, takeValue, valueOr, takeValueOr, error, setError, takeError, rd, wr, mrep, hi, rep, map_update, Ty.plain] <;> upd
  | ctorVal i v =>
    rcases hi : y i with _ | s | s <;> simp [Spec.step, Spec.offers, Spec.effect, Spec.Safe, hi, Ty.plain] at hs hsafe <;>
    (first | (obtain ⟨rfl, rfl⟩ := hs) | (obtain ⟨hx, rfl, rfl⟩ := hs; subst hx)) <;>
    refine ⟨g, hg, ?_⟩ <;>
    simp [caught, exec, construct, destroy, Expected.read, assign, moveOut, assignMove, assignCopy, begin_, end_, abandon, hasValue, hasError, dtor, mval, merr, setHas, ctorVal, ctorErr, moveCtor, moveAssign, value, setValue, takeValue, valueOr, takeValueOr, error, setError, takeError, rd, wr, mrep, hi, rep, map_update, Ty.plain] <;> upd
  | ctorErr i e =>
    rcases hi : y i with _ | s | s <;> simp [Spec.step, Spec.offers, Spec.effect, Spec.Safe, hi, Ty.plain] at hs hsafe <;>
    (first | (obtain ⟨rfl, rfl⟩ := hs) | (obtain ⟨hx, rfl, rfl⟩ := hs; subst hx)) <;>
    refine ⟨g, hg, ?_⟩ <;>
    simp [caught, exec, construct, destroy, Expected.read, assign, moveOut, assignMove, assignCopy, begin_, end_, abandon, hasValue, hasError, dtor, mval, merr, setHas, ctorVal, ctorErr, moveCtor, moveAssign, value, setValue, takeValue, valueOr, takeValueOr, error, setError, takeError, rd, wr, mrep, hi, rep, map_update, Ty.plain] <;> upd
  | ctorErrDefault i =>
    rcases hi : y i with _ | s | s <;> simp [Spec.step, Spec.offers, Spec.effect, Spec.Safe, hi, Ty.plain] at hs hsafe <;>
    (first | (obtain ⟨rfl, rfl⟩ := hs) | (obtain ⟨hx, rfl, rfl⟩ := hs; subst hx)) <;>
    refine ⟨g, hg, ?_⟩ <;>
    simp [caught, exec, construct, destroy, Expected.read, assign, moveOut, assignMove, assignCopy, begin_, end_, abandon, hasValue, hasError, dtor, mval, merr, setHas, ctorVal, ctorErr, moveCtor, moveAssign, value, setValue, takeValue, valueOr, takeValueOr, error, setError, takeError, rd, wr, mrep, hi, rep, map_update, Ty.plain] <;> upd
  | clear i =>
    rcases hi : y i with _ | s | s <;> simp [Spec.step, Spec.offers, Spec.effect, Spec.Safe, hi, Ty.plain] at hs hsafe <;>
    (first | (obtain ⟨rfl, rfl⟩ := hs) | (obtain ⟨hx, rfl, rfl⟩ := hs; subst hx)) <;>
    refine ⟨g, hg, ?_⟩ <;>
    simp [caught, exec, construct, destroy, Expected.read, assign, moveOut, assignMove, assignCopy, begin_, end_, abandon, hasValue, hasError, dtor, mval, merr, setHas, ctorVal, ctorErr, moveCtor, moveAssign, value, setValue, takeValue, valueOr, takeValueOr, error, setError, takeError, rd, wr, mrep, hi, rep, map_update, Ty.plain] <;> upd
  | emplace i v throws =>
    cases throws <;> rcases hi : y i with _ | s | s <;> simp [Spec.step, Spec.offers, Spec.effect, Spec.Safe, hi, Ty.plain] at hs hsafe <;>
    (first | (obtain ⟨rfl, rfl⟩ := hs) | (obtain ⟨hx, rfl, rfl⟩ := hs; subst hx)) <;>
    refine ⟨g, hg, ?_⟩ <;>
    simp [caught, exec, construct, destroy, Expected.read, assign, moveOut, assignMove, assignCopy, begin_, end_, abandon, hasValue, hasError, dtor, mval, merr, setHas, ctorVal, ctorErr, moveCtor, moveAssign, value, setValue, takeValue, valueOr, takeValueOr, error, setError, takeError, rd, wr, mrep, hi, rep, map_update, Ty.plain] <;> upd
  | emplaceSelf i =>
    rcases hi : y i with _ | s | s <;> simp [Spec.step, Spec.offers, Spec.effect, Spec.Safe, hi, Ty.plain] at hs hsafe <;>
    (first | (obtain ⟨rfl, rfl⟩ := hs) | (obtain ⟨hx, rfl, rfl⟩ := hs; subst hx)) <;>
    refine ⟨g, hg, ?_⟩ <;>
    simp [caught, exec, construct, destroy, Expected.read, assign, moveOut, assignMove, assignCopy, begin_, end_, abandon, hasValue, hasError, dtor, mval, merr, setHas, ctorVal, ctorErr, moveCtor, moveAssign, value, setValue, takeValue, valueOr, takeValueOr, error, setError, takeError, rd, wr, mrep, hi, rep, map_update, Ty.plain] <;> upd
  | hasValue i =>
    rcases hi : y i with _ | s | s <;> simp [Spec.step, Spec.offers, Spec.effect, Spec.Safe, hi, Ty.plain] at hs hsafe <;>
    (first | (obtain ⟨rfl, rfl⟩ := hs) | (obtain ⟨hx, rfl, rfl⟩ := hs; subst hx)) <;>
    refine ⟨g, hg, ?_⟩ <;>
    simp [caught, exec, construct, destroy, Expected.read, assign, moveOut, assignMove, assignCopy, begin_, end_, abandon, hasValue, hasError, dtor, mval, merr, setHas, ctorVal, ctorErr, moveCtor, moveAssign, value, setValue, takeValue, valueOr, takeValueOr, error, setError, takeError, rd, wr, mrep, hi, rep, map_update, Ty.plain] <;> upd
  | hasError i =>
    rcases hi : y i with _ | s | s <;> simp [Spec.step, Spec.offers, Spec.effect, Spec.Safe, hi, Ty.plain] at hs hsafe <;>
    (first | (obtain ⟨rfl, rfl⟩ := hs) | (obtain ⟨hx, rfl, rfl⟩ := hs; subst hx)) <;>
    refine ⟨g, hg, ?_⟩ <;>
    simp [caught, exec, construct, destroy, Expected.read, assign, moveOut, assignMove, assignCopy, begin_, end_, abandon, hasValue, hasError, dtor, mval, merr, setHas, ctorVal, ctorErr, moveCtor, moveAssign, value, setValue, takeValue, valueOr, takeValueOr, error, setError, takeError, rd, wr, mrep, hi, rep, map_update, Ty.plain] <;> upd
  | value i =>
    rcases hi : y i with _ | s | s <;> simp [Spec.step, Spec.offers, Spec.effect, Spec.Safe, hi, Ty.plain] at hs hsafe <;>
    (first | (obtain ⟨rfl, rfl⟩ := hs) | (obtain ⟨hx, rfl, rfl⟩ := hs; subst hx)) <;>
    refine ⟨g, hg, ?_⟩ <;>
    simp [caught, exec, construct, destroy, Expected.read, assign, moveOut, assignMove, assignCopy, begin_, end_, abandon, hasValue, hasError, dtor, mval, merr, setHas, ctorVal, ctorErr, moveCtor, moveAssign, value, setValue, takeValue, valueOr, takeValueOr, error, setError, takeError, rd, wr, mrep, hi, rep, map_update, Ty.plain] <;> upd
  | setValue i v =>
    rcases hi : y i with _ | s | s <;> simp [Spec.step, Spec.offers, Spec.effect, Spec.Safe, hi, Ty.plain] at hs hsafe <;>
    (first | (obtain ⟨rfl, rfl⟩ := hs) | (obtain ⟨hx, rfl, rfl⟩ := hs; subst hx)) <;>
    refine ⟨g, hg, ?_⟩ <;>
    simp [caught, exec, construct, destroy, Expected.read, assign, moveOut, assignMove, assignCopy, begin_, end_, abandon, hasValue, hasError, dtor, mval, merr, setHas, ctorVal, ctorErr, moveCtor, moveAssign, value, setValue, takeValue, valueOr, takeValueOr, error, setError, takeError, rd, wr, mrep, hi, rep, map_update, Ty.plain] <;> upd
  | takeValue i =>
    rcases hi : y i with _ | s | s <;> simp [Spec.step, Spec.offers, Spec.effect, Spec.Safe, hi, Ty.plain] at hs hsafe <;>
    (first | (obtain ⟨rfl, rfl⟩ := hs) | (obtain ⟨hx, rfl, rfl⟩ := hs; subst hx)) <;>
    refine ⟨g, hg, ?_⟩ <;>
    simp [caught, exec, construct, destroy, Expected.read, assign, moveOut, assignMove, assignCopy, begin_, end_, abandon, hasValue, hasError, dtor, mval, merr, setHas, ctorVal, ctorErr, moveCtor, moveAssign, value, setValue, takeValue, valueOr, takeValueOr, error, setError, takeError, rd, wr, mrep, hi, rep, map_update, Ty.plain] <;> upd
  | valueOr i v =>
    rcases hi : y i with _ | s | s <;> simp [Spec.step, Spec.offers, Spec.effect, Spec.Safe, hi, Ty.plain] at hs hsafe <;>
    (first | (obtain ⟨rfl, rfl⟩ := hs) | (obtain ⟨hx, rfl, rfl⟩ := hs; subst hx)) <;>
    refine ⟨g, hg, ?_⟩ <;>
    simp [caught, exec, construct, destroy, Expected.read, assign, moveOut, assignMove, assignCopy, begin_, end_, abandon, hasValue, hasError, dtor, mval, merr, setHas, ctorVal, ctorErr, moveCtor, moveAssign, value, setValue, takeValue, valueOr, takeValueOr, error, setError, takeError, rd, wr, mrep, hi, rep, map_update, Ty.plain] <;> upd
  | takeValueOr i v =>
    rcases hi : y i with _ | s | s <;> simp [Spec.step, Spec.offers, Spec.effect, Spec.Safe, hi, Ty.plain] at hs hsafe <;>
    (first | (obtain ⟨rfl, rfl⟩ := hs) | (obtain ⟨hx, rfl, rfl⟩ := hs; subst hx)) <;>
    refine ⟨g, hg, ?_⟩ <;>
    simp [caught, exec, construct, destroy, Expected.read, assign, moveOut, assignMove, assignCopy, begin_, end_, abandon, hasValue, hasError, dtor, mval, merr, setHas, ctorVal, ctorErr, moveCtor, moveAssign, value, setValue, takeValue, valueOr, takeValueOr, error, setError, takeError, rd, wr, mrep, hi, rep, map_update, Ty.plain] <;> upd
  | error i =>
    rcases hi : y i with _ | s | s <;> simp [Spec.step, Spec.offers, Spec.effect, Spec.Safe, hi, Ty.plain] at hs hsafe <;>
    (first | (obtain ⟨rfl, rfl⟩ := hs) | (obtain ⟨hx, rfl, rfl⟩ := hs; subst hx)) <;>
    refine ⟨g, hg, ?_⟩ <;>
    simp [caught, exec, construct, destroy, Expected.read, assign, moveOut, assignMove, assignCopy, begin_, end_, abandon, hasValue, hasError, dtor, mval, merr, setHas, ctorVal, ctorErr, moveCtor, moveAssign, value, setValue, takeValue, valueOr, takeValueOr, error, setError, takeError, rd, wr, mrep, hi, rep, map_update, Ty.plain] <;> upd
  | setError i e =>
    rcases hi : y i with _ | s | s <;> simp [Spec.step, Spec.offers, Spec.effect, Spec.Safe, hi, Ty.plain] at hs hsafe <;>
    (first | (obtain ⟨rfl, rfl⟩ := hs) | (obtain ⟨hx, rfl, rfl⟩ := hs; subst hx)) <;>
    refine ⟨g, hg, ?_⟩ <;>
    simp [caught, exec, construct, destroy, Expected.read, assign, moveOut, assignMove, assignCopy, begin_, end_, abandon, hasValue, hasError, dtor, mval, merr, setHas, ctorVal, ctorErr, moveCtor, moveAssign, value, setValue, takeValue, valueOr, takeValueOr, error, setError, takeError, rd, wr, mrep, hi, rep, map_update, Ty.plain] <;> upd
  | takeError i =>
    rcases hi : y i with _ | s | s <;> simp [Spec.step, Spec.offers, Spec.effect, Spec.Safe, hi, Ty.plain] at hs hsafe <;>
    (first | (obtain ⟨rfl, rfl⟩ := hs) | (obtain ⟨hx, rfl, rfl⟩ := hs; subst hx)) <;>
    refine ⟨g, hg, ?_⟩ <;>
    simp [caught, exec, construct, destroy, Expected.read, assign, moveOut, assignMove, assignCopy, begin_, end_, abandon, hasValue, hasError, dtor, mval, merr, setHas, ctorVal, ctorErr, moveCtor, moveAssign, value, setValue, takeValue, valueOr, takeValueOr, error, setError, takeError, rd, wr, mrep, hi, rep, map_update, Ty.plain] <;> upd
  | dtor i =>
    rcases hi : y i with _ | s | s <;> simp [Spec.step, Spec.offers, Spec.effect, Spec.Safe, hi] at hs hsafe <;>
    obtain ⟨rfl, rfl⟩ := hs <;>
    refine ⟨_, ?_, by simp [caught, exec, construct, destroy, Expected.read, assign, moveOut, assignMove, assignCopy, begin_, end_, abandon, hasValue, hasError, dtor, mval, merr, setHas, ctorVal, ctorErr, moveCtor, moveAssign, value, setValue, takeValue, valueOr, takeValueOr, error, setError, takeError, rd, wr, mrep, hi, rep, map_update, Ty.plain]; rfl⟩ <;> simp <;> exact hg
  | moveCtor i j =>
    by_cases hij : i = j
    · subst hij
      rcases hi : y i with _ | s | s <;> simp [Spec.step, Spec.offers, Spec.effect, Spec.Safe, hi, Ty.plain, Spec.selfMoved] at hs hsafe <;>
      (first | (obtain ⟨rfl, rfl⟩ := hs) | (obtain ⟨hx, rfl, rfl⟩ := hs; subst hx)) <;>
      refine ⟨g, hg, ?_⟩ <;>
      simp [caught, exec, construct, destroy, Expected.read, assign, moveOut, assignMove, assignCopy, begin_, end_, abandon, hasValue, hasError, dtor, mval, merr, setHas, ctorVal, ctorErr, moveCtor, moveAssign, value, setValue, takeValue, valueOr, takeValueOr, error, setError, takeError, rd, wr, mrep, hi, rep, map_update, Ty.plain] <;> upd
    · have hji : j ≠ i := fun h => hij h.symm
      rcases hi : y i with _ | s | s <;> rcases hj : y j with _ | t | t <;>
      simp [Spec.step, Spec.offers, Spec.effect, Spec.Safe, hi, hj, hij, Ty.plain, Spec.moved] at hs hsafe <;>
      (first | (obtain ⟨rfl, rfl⟩ := hs) | (obtain ⟨hx, rfl, rfl⟩ := hs; subst hx)) <;>
      first
      | refine ⟨g, hg, ?_⟩
        simp [caught, exec, construct, destroy, Expected.read, assign, moveOut, assignMove, assignCopy, begin_, end_, abandon, hasValue, hasError, dtor, mval, merr, setHas, ctorVal, ctorErr, moveCtor, moveAssign, value, setValue, takeValue, valueOr, takeValueOr, error, setError, takeError, rd, wr, mrep, hi, rep, map_update, Ty.plain, hj, hij, hji, Function.update_of_ne] <;> upd
      | refine ⟨⟨none, true⟩ :: g, by simpa using hg, ?_⟩
        simp [caught, exec, construct, destroy, Expected.read, assign, moveOut, assignMove, assignCopy, begin_, end_, abandon, hasValue, hasError, dtor, mval, merr, setHas, ctorVal, ctorErr, moveCtor, moveAssign, value, setValue, takeValue, valueOr, takeValueOr, error, setError, takeError, rd, wr, mrep, hi, rep, map_update, Ty.plain, hj, hij, hji, Function.update_of_ne] <;> upd
  | moveAssign i j =>
    by_cases hij : i = j
    · subst hij
      rcases hi : y i with _ | s | s <;> simp [Spec.step, Spec.offers, Spec.effect, Spec.Safe, hi, Ty.plain, Spec.selfMoved] at hs hsafe <;>
      (first | (obtain ⟨rfl, rfl⟩ := hs) | (obtain ⟨hx, rfl, rfl⟩ := hs; subst hx)) <;>
      refine ⟨g, hg, ?_⟩ <;>
      simp [caught, exec, construct, destroy, Expected.read, assign, moveOut, assignMove, assignCopy, begin_, end_, abandon, hasValue, hasError, dtor, mval, merr, setHas, ctorVal, ctorErr, moveCtor, moveAssign, value, setValue, takeValue, valueOr, takeValueOr, error, setError, takeError, rd, wr, mrep, hi, rep, map_update, Ty.plain] <;> upd
    · have hji : j ≠ i := fun h => hij h.symm
      rcases hi : y i with _ | s | s <;> rcases hj : y j with _ | t | t <;>
      simp [Spec.step, Spec.offers, Spec.effect, Spec.Safe, hi, hj, hij, Ty.plain, Spec.moved] at hs hsafe <;>
      (first | (obtain ⟨rfl, rfl⟩ := hs) | (obtain ⟨hx, rfl, rfl⟩ := hs; subst hx)) <;>
      first
      | refine ⟨g, hg, ?_⟩
        simp [caught, exec, construct, destroy, Expected.read, assign, moveOut, assignMove, assignCopy, begin_, end_, abandon, hasValue, hasError, dtor, mval, merr, setHas, ctorVal, ctorErr, moveCtor, moveAssign, value, setValue, takeValue, valueOr, takeValueOr, error, setError, takeError, rd, wr, mrep, hi, rep, map_update, Ty.plain, hj, hij, hji, Function.update_of_ne] <;> upd
      | refine ⟨⟨none, true⟩ :: g, by simpa using hg, ?_⟩
        simp [caught, exec, construct, destroy, Expected.read, assign, moveOut, assignMove, assignCopy, begin_, end_, abandon, hasValue, hasError, dtor, mval, merr, setHas, ctorVal, ctorErr, moveCtor, moveAssign, value, setValue, takeValue, valueOr, takeValueOr, error, setError, takeError, rd, wr, mrep, hi, rep, map_update, Ty.plain, hj, hij, hji, Function.update_of_ne] <;> upd
  | copyCtor i j throws =>
    by_cases hij : i = j
    · subst hij
      cases throws <;> rcases hi : y i with _ | s | s <;> simp [Spec.step, Spec.offers, Spec.effect, Spec.Safe, hi, Ty.plain, Spec.selfMoved] at hs hsafe <;>
      (first | (obtain ⟨rfl, rfl⟩ := hs) | (obtain ⟨hx, rfl, rfl⟩ := hs; subst hx)) <;>
      refine ⟨g, hg, ?_⟩ <;>
      simp [caught, exec, construct, destroy, Expected.read, assign, moveOut, assignMove, assignCopy, begin_, end_, abandon, hasValue, hasError, dtor, mval, merr, setHas, ctorVal, ctorErr, moveCtor, moveAssign, value, setValue, takeValue, valueOr, takeValueOr, error, setError, takeError, rd, wr, mrep, hi, rep, map_update, Ty.plain] <;> upd
    · have hji : j ≠ i := fun h => hij h.symm
      cases throws <;> rcases hi : y i with _ | s | s <;> rcases hj : y j with _ | t | t <;>
      simp [Spec.step, Spec.offers, Spec.effect, Spec.Safe, hi, hj, hij, Ty.plain, Spec.moved] at hs hsafe <;>
      (first | (obtain ⟨rfl, rfl⟩ := hs) | (obtain ⟨hx, rfl, rfl⟩ := hs; subst hx)) <;>
      first
      | refine ⟨g, hg, ?_⟩
        simp [caught, exec, construct, destroy, Expected.read, assign, moveOut, assignMove, assignCopy, begin_, end_, abandon, hasValue, hasError, dtor, mval, merr, setHas, ctorVal, ctorErr, moveCtor, moveAssign, value, setValue, takeValue, valueOr, takeValueOr, error, setError, takeError, rd, wr, mrep, hi, rep, map_update, Ty.plain, hj, hij, hji, Function.update_of_ne] <;> upd
      | refine ⟨⟨none, true⟩ :: g, by simpa using hg, ?_⟩
        simp [caught, exec, construct, destroy, Expected.read, assign, moveOut, assignMove, assignCopy, begin_, end_, abandon, hasValue, hasError, dtor, mval, merr, setHas, ctorVal, ctorErr, moveCtor, moveAssign, value, setValue, takeValue, valueOr, takeValueOr, error, setError, takeError, rd, wr, mrep, hi, rep, map_update, Ty.plain, hj, hij, hji, Function.update_of_ne] <;> upd
  | copyAssign i j throws =>
    by_cases hij : i = j
    · subst hij
      cases throws <;> rcases hi : y i with _ | s | s <;> simp [Spec.step, Spec.offers, Spec.effect, Spec.Safe, hi, Ty.plain, Spec.selfMoved] at hs hsafe <;>
      (first | (obtain ⟨rfl, rfl⟩ := hs) | (obtain ⟨hx, rfl, rfl⟩ := hs; subst hx)) <;>
      refine ⟨g, hg, ?_⟩ <;>
      simp [caught, exec, construct, destroy, Expected.read, assign, moveOut, assignMove, assignCopy, begin_, end_, abandon, hasValue, hasError, dtor, mval, merr, setHas, ctorVal, ctorErr, moveCtor, moveAssign, value, setValue, takeValue, valueOr, takeValueOr, error, setError, takeError, rd, wr, mrep, hi, rep, map_update, Ty.plain] <;> upd
    · have hji : j ≠ i := fun h => hij h.symm
      cases throws <;> rcases hi : y i with _ | s | s <;> rcases hj : y j with _ | t | t <;>
      simp [Spec.step, Spec.offers, Spec.effect, Spec.Safe, hi, hj, hij, Ty.plain, Spec.moved] at hs hsafe <;>
      (first | (obtain ⟨rfl, rfl⟩ := hs) | (obtain ⟨hx, rfl, rfl⟩ := hs; subst hx)) <;>
      first
      | refine ⟨g, hg, ?_⟩
        simp [caught, exec, construct, destroy, Expected.read, assign, moveOut, assignMove, assignCopy, begin_, end_, abandon, hasValue, hasError, dtor, mval, merr, setHas, ctorVal, ctorErr, moveCtor, moveAssign, value, setValue, takeValue, valueOr, takeValueOr, error, setError, takeError, rd, wr, mrep, hi, rep, map_update, Ty.plain, hj, hij, hji, Function.update_of_ne] <;> upd
      | refine ⟨⟨none, true⟩ :: g, by simpa using hg, ?_⟩
        simp [caught, exec, construct, destroy, Expected.read, assign, moveOut, assignMove, assignCopy, begin_, end_, abandon, hasValue, hasError, dtor, mval, merr, setHas, ctorVal, ctorErr, moveCtor, moveAssign, value, setValue, takeValue, valueOr, takeValueOr, error, setError, takeError, rd, wr, mrep, hi, rep, map_update, Ty.plain, hj, hij, hji, Function.update_of_ne] <;> upd

theorem RE.step_refines {E : Type} (te : Ty E) (op : Op Nat E) (y y' : Spec.Sys Nat E) (r : Reply Nat E)
    (g : List (RE.Obj E)) (hg : ∀ o ∈ g, o.u = none) (hsafe : Spec.Safe .re op y)
    (hs : Spec.step (Ty.plain 0) te .re op y = some (r, y')) :
    ∃ g', (∀ o ∈ g', o.u = none) ∧
      caught (RE.exec te op) (mrep RE.rep y g) = some (r, mrep RE.rep y' g') := by
  cases op with
  | ctorDefault i =>
    rcases hi : y i with _ | s | s <;> simp [Spec.step, Spec.offers, Spec.effect, Spec.Safe, hi, Ty.plain] at hs hsafe <;>
    (first | (obtain ⟨rfl, rfl⟩ := hs) | (obtain ⟨hx, rfl, rfl⟩ := hs; subst hx)) <;>
    refine ⟨g, hg, ?_⟩ <;>
    simp [caught, exec, construct, destroy, Expected.read, assign, moveOut, assignMove, assignCopy, begin_, end_, abandon, hasValue, hasError, dtor, merr, setPtr, ptr, ctorVal, ctorErr, moveCtor, moveAssign, value, valueOr, error, setError, takeError, rd, wr, mrep, hi, rep, map_update, Ty.plain] <;> upd
  | ctorVal i v =>
    rcases hi : y i with _ | s | s <;> simp [Spec.step, Spec.offers, Spec.effect, Spec.Safe, hi, Ty.plain] at hs hsafe <;>
    (first | (obtain ⟨rfl, rfl⟩ := hs) | (obtain ⟨hx, rfl, rfl⟩ := hs; subst hx)) <;>
    refine ⟨g, hg, ?_⟩ <;>
    simp [caught, exec, construct, destroy, Expected.read, assign, moveOut, assignMove, assignCopy, begin_, end_, abandon, hasValue, hasError, dtor, merr, setPtr, ptr, ctorVal, ctorErr, moveCtor, moveAssign, value, valueOr, error, setError, takeError, rd, wr, mrep, hi, rep, map_update, Ty.plain] <;> upd
  | ctorErr i e =>
    rcases hi : y i with _ | s | s <;> simp [Spec.step, Spec.offers, Spec.effect, Spec.Safe, hi, Ty.plain] at hs hsafe <;>
    (first | (obtain ⟨rfl, rfl⟩ := hs) | (obtain ⟨hx, rfl, rfl⟩ := hs; subst hx)) <;>
    refine ⟨g, hg, ?_⟩ <;>
    simp [caught, exec, construct, destroy, Expected.read, assign, moveOut, assignMove, assignCopy, begin_, end_, abandon, hasValue, hasError, dtor, merr, setPtr, ptr, ctorVal, ctorErr, moveCtor, moveAssign, value, valueOr, error, setError, takeError, rd, wr, mrep, hi, rep, map_update, Ty.plain] <;> upd
  | ctorErrDefault i =>
    rcases hi : y i with _ | s | s <;> simp [Spec.step, Spec.offers, Spec.effect, Spec.Safe, hi, Ty.plain] at hs hsafe <;>
    (first | (obtain ⟨rfl, rfl⟩ := hs) | (obtain ⟨hx, rfl, rfl⟩ := hs; subst hx)) <;>
    refine ⟨g, hg, ?_⟩ <;>
    simp [caught, exec, construct, destroy, Expected.read, assign, moveOut, assignMove, assignCopy, begin_, end_, abandon, hasValue, hasError, dtor, merr, setPtr, ptr, ctorVal, ctorErr, moveCtor, moveAssign, value, valueOr, error, setError, takeError, rd, wr, mrep, hi, rep, map_update, Ty.plain] <;> upd
  | clear i =>
    rcases hi : y i with _ | s | s <;> simp [Spec.step, Spec.offers, Spec.effect, Spec.Safe, hi, Ty.plain] at hs hsafe <;>
    (first | (obtain ⟨rfl, rfl⟩ := hs) | (obtain ⟨hx, rfl, rfl⟩ := hs; subst hx)) <;>
    refine ⟨g, hg, ?_⟩ <;>
    simp [caught, exec, construct, destroy, Expected.read, assign, moveOut, assignMove, assignCopy, begin_, end_, abandon, hasValue, hasError, dtor, merr, setPtr, ptr, ctorVal, ctorErr, moveCtor, moveAssign, value, valueOr, error, setError, takeError, rd, wr, mrep, hi, rep, map_update, Ty.plain] <;> upd
  | emplace i v throws =>
    cases throws <;> rcases hi : y i with _ | s | s <;> simp [Spec.step, Spec.offers, Spec.effect, Spec.Safe, hi, Ty.plain] at hs hsafe <;>
    (first | (obtain ⟨rfl, rfl⟩ := hs) | (obtain ⟨hx, rfl, rfl⟩ := hs; subst hx)) <;>
    refine ⟨g, hg, ?_⟩ <;>
    simp [caught, exec, construct, destroy, Expected.read, assign, moveOut, assignMove, assignCopy, begin_, end_, abandon, hasValue, hasError, dtor, merr, setPtr, ptr, ctorVal, ctorErr, moveCtor, moveAssign, value, valueOr, error, setError, takeError, rd, wr, mrep, hi, rep, map_update, Ty.plain] <;> upd
  | emplaceSelf i =>
    rcases hi : y i with _ | s | s <;> simp [Spec.step, Spec.offers, Spec.effect, Spec.Safe, hi, Ty.plain] at hs hsafe <;>
    (first | (obtain ⟨rfl, rfl⟩ := hs) | (obtain ⟨hx, rfl, rfl⟩ := hs; subst hx)) <;>
    refine ⟨g, hg, ?_⟩ <;>
    simp [caught, exec, construct, destroy, Expected.read, assign, moveOut, assignMove, assignCopy, begin_, end_, abandon, hasValue, hasError, dtor, merr, setPtr, ptr, ctorVal, ctorErr, moveCtor, moveAssign, value, valueOr, error, setError, takeError, rd, wr, mrep, hi, rep, map_update, Ty.plain] <;> upd
  | hasValue i =>
    rcases hi : y i with _ | s | s <;> simp [Spec.step, Spec.offers, Spec.effect, Spec.Safe, hi, Ty.plain] at hs hsafe <;>
    (first | (obtain ⟨rfl, rfl⟩ := hs) | (obtain ⟨hx, rfl, rfl⟩ := hs; subst hx)) <;>
    refine ⟨g, hg, ?_⟩ <;>
    simp [caught, exec, construct, destroy, Expected.read, assign, moveOut, assignMove, assignCopy, begin_, end_, abandon, hasValue, hasError, dtor, merr, setPtr, ptr, ctorVal, ctorErr, moveCtor, moveAssign, value, valueOr, error, setError, takeError, rd, wr, mrep, hi, rep, map_update, Ty.plain] <;> upd
  | hasError i =>
    rcases hi : y i with _ | s | s <;> simp [Spec.step, Spec.offers, Spec.effect, Spec.Safe, hi, Ty.plain] at hs hsafe <;>
    (first | (obtain ⟨rfl, rfl⟩ := hs) | (obtain ⟨hx, rfl, rfl⟩ := hs; subst hx)) <;>
    refine ⟨g, hg, ?_⟩ <;>
    simp [caught, exec, construct, destroy, Expected.read, assign, moveOut, assignMove, assignCopy, begin_, end_, abandon, hasValue, hasError, dtor, merr, setPtr, ptr, ctorVal, ctorErr, moveCtor, moveAssign, value, valueOr, error, setError, takeError, rd, wr, mrep, hi, rep, map_update, Ty.plain] <;> upd
  | value i =>
    rcases hi : y i with _ | s | s <;> simp [Spec.step, Spec.offers, Spec.effect, Spec.Safe, hi, Ty.plain] at hs hsafe <;>
    (first | (obtain ⟨rfl, rfl⟩ := hs) | (obtain ⟨hx, rfl, rfl⟩ := hs; subst hx)) <;>
    refine ⟨g, hg, ?_⟩ <;>
    simp [caught, exec, construct, destroy, Expected.read, assign, moveOut, assignMove, assignCopy, begin_, end_, abandon, hasValue, hasError, dtor, merr, setPtr, ptr, ctorVal, ctorErr, moveCtor, moveAssign, value, valueOr, error, setError, takeError, rd, wr, mrep, hi, rep, map_update, Ty.plain] <;> upd
  | setValue i v =>
    rcases hi : y i with _ | s | s <;> simp [Spec.step, Spec.offers, Spec.effect, Spec.Safe, hi, Ty.plain] at hs hsafe <;>
    (first | (obtain ⟨rfl, rfl⟩ := hs) | (obtain ⟨hx, rfl, rfl⟩ := hs; subst hx)) <;>
    refine ⟨g, hg, ?_⟩ <;>
    simp [caught, exec, construct, destroy, Expected.read, assign, moveOut, assignMove, assignCopy, begin_, end_, abandon, hasValue, hasError, dtor, merr, setPtr, ptr, ctorVal, ctorErr, moveCtor, moveAssign, value, valueOr, error, setError, takeError, rd, wr, mrep, hi, rep, map_update, Ty.plain] <;> upd
  | takeValue i =>
    rcases hi : y i with _ | s | s <;> simp [Spec.step, Spec.offers, Spec.effect, Spec.Safe, hi, Ty.plain] at hs hsafe <;>
    (first | (obtain ⟨rfl, rfl⟩ := hs) | (obtain ⟨hx, rfl, rfl⟩ := hs; subst hx)) <;>
    refine ⟨g, hg, ?_⟩ <;>
    simp [caught, exec, construct, destroy, Expected.read, assign, moveOut, assignMove, assignCopy, begin_, end_, abandon, hasValue, hasError, dtor, merr, setPtr, ptr, ctorVal, ctorErr, moveCtor, moveAssign, value, valueOr, error, setError, takeError, rd, wr, mrep, hi, rep, map_update, Ty.plain] <;> upd
  | valueOr i v =>
    rcases hi : y i with _ | s | s <;> simp [Spec.step, Spec.offers, Spec.effect, Spec.Safe, hi, Ty.plain] at hs hsafe <;>
    (first | (obtain ⟨rfl, rfl⟩ := hs) | (obtain ⟨hx, rfl, rfl⟩ := hs; subst hx)) <;>
    refine ⟨g, hg, ?_⟩ <;>
    simp [caught, exec, construct, destroy, Expected.read, assign, moveOut, assignMove, assignCopy, begin_, end_, abandon, hasValue, hasError, dtor, merr, setPtr, ptr, ctorVal, ctorErr, moveCtor, moveAssign, value, valueOr, error, setError, takeError, rd, wr, mrep, hi, rep, map_update, Ty.plain] <;> upd
  | takeValueOr i v =>
    rcases hi : y i with _ | s | s <;> simp [Spec.step, Spec.offers, Spec.effect, Spec.Safe, hi, Ty.plain] at hs hsafe <;>
    (first | (obtain ⟨rfl, rfl⟩ := hs) | (obtain ⟨hx, rfl, rfl⟩ := hs; subst hx)) <;>
    refine ⟨g, hg, ?_⟩ <;>
    simp [caught, exec, construct, destroy, Expected.read, assign, moveOut, assignMove, assignCopy, begin_, end_, abandon, hasValue, hasError, dtor, merr, setPtr, ptr, ctorVal, ctorErr, moveCtor, moveAssign, value, valueOr, error, setError, takeError, rd, wr, mrep, hi, rep, map_update, Ty.plain] <;> upd
  | error i =>
    rcases hi : y i with _ | s | s <;> simp [Spec.step, Spec.offers, Spec.effect, Spec.Safe, hi, Ty.plain] at hs hsafe <;>
    (first | (obtain ⟨rfl, rfl⟩ := hs) | (obtain ⟨hx, rfl, rfl⟩ := hs; subst hx)) <;>
    refine ⟨g, hg, ?_⟩ <;>
    simp [caught, exec, construct, destroy, Expected.read, assign, moveOut, assignMove, assignCopy, begin_, end_, abandon, hasValue, hasError, dtor, merr, setPtr, ptr, ctorVal, ctorErr, moveCtor, moveAssign, value, valueOr, error, setError, takeError, rd, wr, mrep, hi, rep, map_update, Ty.plain] <;> upd
  | setError i e =>
    rcases hi : y i with _ | s | s <;> simp [Spec.step, Spec.offers, Spec.effect, Spec.Safe, hi, Ty.plain] at hs hsafe <;>
    (first | (obtain ⟨rfl, rfl⟩ := hs) | (obtain ⟨hx, rfl, rfl⟩ := hs; subst hx)) <;>
    refine ⟨g, hg, ?_⟩ <;>
    simp [caught, exec, construct, destroy, Expected.read, assign, moveOut, assignMove, assignCopy, begin_, end_, abandon, hasValue, hasError, dtor, merr, setPtr, ptr, ctorVal, ctorErr, moveCtor, moveAssign, value, valueOr, error, setError, takeError, rd, wr, mrep, hi, rep, map_update, Ty.plain] <;> upd
  | takeError i =>
    rcases hi : y i with _ | s | s <;> simp [Spec.step, Spec.offers, Spec.effect, Spec.Safe, hi, Ty.plain] at hs hsafe <;>
    (first | (obtain ⟨rfl, rfl⟩ := hs) | (obtain ⟨hx, rfl, rfl⟩ := hs; subst hx)) <;>
    refine ⟨g, hg, ?_⟩ <;>
    simp [caught, exec, construct, destroy, Expected.read, assign, moveOut, assignMove, assignCopy, begin_, end_, abandon, hasValue, hasError, dtor, merr, setPtr, ptr, ctorVal, ctorErr, moveCtor, moveAssign, value, valueOr, error, setError, takeError, rd, wr, mrep, hi, rep, map_update, Ty.plain] <;> upd
  | dtor i =>
    rcases hi : y i with _ | s | s <;> simp [Spec.step, Spec.offers, Spec.effect, Spec.Safe, hi] at hs hsafe <;>
    obtain ⟨rfl, rfl⟩ := hs <;>
    refine ⟨_, ?_, by simp [caught, exec, construct, destroy, Expected.read, assign, moveOut, assignMove, assignCopy, begin_, end_, abandon, hasValue, hasError, dtor, merr, setPtr, ptr, ctorVal, ctorErr, moveCtor, moveAssign, value, valueOr, error, setError, takeError, rd, wr, mrep, hi, rep, map_update, Ty.plain]; rfl⟩ <;> simp <;> exact hg
  | moveCtor i j =>
    by_cases hij : i = j
    · subst hij
      rcases hi : y i with _ | s | s <;> simp [Spec.step, Spec.offers, Spec.effect, Spec.Safe, hi, Ty.plain, Spec.selfMoved] at hs hsafe <;>
      (first | (obtain ⟨rfl, rfl⟩ := hs) | (obtain ⟨hx, rfl, rfl⟩ := hs; subst hx)) <;>
      refine ⟨g, hg, ?_⟩ <;>
      simp [caught, exec, construct, destroy, Expected.read, assign, moveOut, assignMove, assignCopy, begin_, end_, abandon, hasValue, hasError, dtor, merr, setPtr, ptr, ctorVal, ctorErr, moveCtor, moveAssign, value, valueOr, error, setError, takeError, rd, wr, mrep, hi, rep, map_update, Ty.plain] <;> upd
    · have hji : j ≠ i := fun h => hij h.symm
      rcases hi : y i with _ | s | s <;> rcases hj : y j with _ | t | t <;>
      simp [Spec.step, Spec.offers, Spec.effect, Spec.Safe, hi, hj, hij, Ty.plain, Spec.moved] at hs hsafe <;>
      (first | (obtain ⟨rfl, rfl⟩ := hs) | (obtain ⟨hx, rfl, rfl⟩ := hs; subst hx)) <;>
      first
      | refine ⟨g, hg, ?_⟩
        simp [caught, exec, construct, destroy, Expected.read, assign, moveOut, assignMove, assignCopy, begin_, end_, abandon, hasValue, hasError, dtor, merr, setPtr, ptr, ctorVal, ctorErr, moveCtor, moveAssign, value, valueOr, error, setError, takeError, rd, wr, mrep, hi, rep, map_update, Ty.plain, hj, hij, hji, Function.update_of_ne] <;> upd
      | refine ⟨⟨none, true⟩ :: g, by simpa using hg, ?_⟩
        simp [caught, exec, construct, destroy, Expected.read, assign, moveOut, assignMove, assignCopy, begin_, end_, abandon, hasValue, hasError, dtor, merr, setPtr, ptr, ctorVal, ctorErr, moveCtor, moveAssign, value, valueOr, error, setError, takeError, rd, wr, mrep, hi, rep, map_update, Ty.plain, hj, hij, hji, Function.update_of_ne] <;> upd
  | moveAssign i j =>
    by_cases hij : i = j
    · subst hij
      rcases hi : y i with _ | s | s <;> simp [Spec.step, Spec.offers, Spec.effect, Spec.Safe, hi, Ty.plain, Spec.selfMoved] at hs hsafe <;>
      (first | (obtain ⟨rfl, rfl⟩ := hs) | (obtain ⟨hx, rfl, rfl⟩ := hs; subst hx)) <;>
      refine ⟨g, hg, ?_⟩ <;>
      simp [caught, exec, construct, destroy, Expected.read, assign, moveOut, assignMove, assignCopy, begin_, end_, abandon, hasValue, hasError, dtor, merr, setPtr, ptr, ctorVal, ctorErr, moveCtor, moveAssign, value, valueOr, error, setError, takeError, rd, wr, mrep, hi, rep, map_update, Ty.plain] <;> upd
    · have hji : j ≠ i := fun h => hij h.symm
      rcases hi : y i with _ | s | s <;> rcases hj : y j with _ | t | t <;>
      simp [Spec.step, Spec.offers, Spec.effect, Spec.Safe, hi, hj, hij, Ty.plain, Spec.moved] at hs hsafe <;>
      (first | (obtain ⟨rfl, rfl⟩ := hs) | (obtain ⟨hx, rfl, rfl⟩ := hs; subst hx)) <;>
      first
      | refine ⟨g, hg, ?_⟩
        simp [caught, exec, construct, destroy, Expected.read, assign, moveOut, assignMove, assignCopy, begin_, end_, abandon, hasValue, hasError, dtor, merr, setPtr, ptr, ctorVal, ctorErr, moveCtor, moveAssign, value, valueOr, error, setError, takeError, rd, wr, mrep, hi, rep, map_update, Ty.plain, hj, hij, hji, Function.update_of_ne] <;> upd
      | refine ⟨⟨none, true⟩ :: g, by simpa using hg, ?_⟩
        simp [caught, exec, construct, destroy, Expected.read, assign, moveOut, assignMove, assignCopy, begin_, end_, abandon, hasValue, hasError, dtor, merr, setPtr, ptr, ctorVal, ctorErr, moveCtor, moveAssign, value, valueOr, error, setError, takeError, rd, wr, mrep, hi, rep, map_update, Ty.plain, hj, hij, hji, Function.update_of_ne] <;> upd
  | copyCtor i j throws =>
    by_cases hij : i = j
    · subst hij
      cases throws <;> rcases hi : y i with _ | s | s <;> simp [Spec.step, Spec.offers, Spec.effect, Spec.Safe, hi, Ty.plain, Spec.selfMoved] at hs hsafe <;>
      (first | (obtain ⟨rfl, rfl⟩ := hs) | (obtain ⟨hx, rfl, rfl⟩ := hs; subst hx)) <;>
      refine ⟨g, hg, ?_⟩ <;>
      simp [caught, exec, construct, destroy, Expected.read, assign, moveOut, assignMove, assignCopy, begin_, end_, abandon, hasValue, hasError, dtor, merr, setPtr, ptr, ctorVal, ctorErr, moveCtor, moveAssign, value, valueOr, error, setError, takeError, rd, wr, mrep, hi, rep, map_update, Ty.plain] <;> upd
    · have hji : j ≠ i := fun h => hij h.symm
      cases throws <;> rcases hi : y i with _ | s | s <;> rcases hj : y j with _ | t | t <;>
      simp [Spec.step, Spec.offers, Spec.effect, Spec.Safe, hi, hj, hij, Ty.plain, Spec.moved] at hs hsafe <;>
      (first | (obtain ⟨rfl, rfl⟩ := hs) | (obtain ⟨hx, rfl, rfl⟩ := hs; subst hx)) <;>
      first
      | refine ⟨g, hg, ?_⟩
        simp [caught, exec, construct, destroy, Expected.read, assign, moveOut, assignMove, assignCopy, begin_, end_, abandon, hasValue, hasError, dtor, merr, setPtr, ptr, ctorVal, ctorErr, moveCtor, moveAssign, value, valueOr, error, setError, takeError, rd, wr, mrep, hi, rep, map_update, Ty.plain, hj, hij, hji, Function.update_of_ne] <;> upd
      | refine ⟨⟨none, true⟩ :: g, by simpa using hg, ?_⟩
        simp [caught, exec, construct, destroy, Expected.read, assign, moveOut, assignMove, assignCopy, begin_, end_, abandon, hasValue, hasError, dtor, merr, setPtr, ptr, ctorVal, ctorErr, moveCtor, moveAssign, value, valueOr, error, setError, takeError, rd, wr, mrep, hi, rep, map_update, Ty.plain, hj, hij, hji, Function.update_of_ne] <;> upd
  | copyAssign i j throws =>
    by_cases hij : i = j
    · subst hij
      cases throws <;> rcases hi : y i with _ | s | s <;> simp [Spec.step, Spec.offers, Spec.effect, Spec.Safe, hi, Ty.plain, Spec.selfMoved] at hs hsafe <;>
      (first | (obtain ⟨rfl, rfl⟩ := hs) | (obtain ⟨hx, rfl, rfl⟩ := hs; subst hx)) <;>
      refine ⟨g, hg, ?_⟩ <;>
      simp [caught, exec, construct, destroy, Expected.read, assign, moveOut, assignMove, assignCopy, begin_, end_, abandon, hasValue, hasError, dtor, merr, setPtr, ptr, ctorVal, ctorErr, moveCtor, moveAssign, value, valueOr, error, setError, takeError, rd, wr, mrep, hi, rep, map_update, Ty.plain] <;> upd
    · have hji : j ≠ i := fun h => hij h.symm
      cases throws <;> rcases hi : y i with _ | s | s <;> rcases hj : y j with _ | t | t <;>
      simp [Spec.step, Spec.offers, Spec.effect, Spec.Safe, hi, hj, hij, Ty.plain, Spec.moved] at hs hsafe <;>
      (first | (obtain ⟨rfl, rfl⟩ := hs) | (obtain ⟨hx, rfl, rfl⟩ := hs; subst hx)) <;>
      first
      | refine ⟨g, hg, ?_⟩
        simp [caught, exec, construct, destroy, Expected.read, assign, moveOut, assignMove, assignCopy, begin_, end_, abandon, hasValue, hasError, dtor, merr, setPtr, ptr, ctorVal, ctorErr, moveCtor, moveAssign, value, valueOr, error, setError, takeError, rd, wr, mrep, hi, rep, map_update, Ty.plain, hj, hij, hji, Function.update_of_ne] <;> upd
      | refine ⟨⟨none, true⟩ :: g, by simpa using hg, ?_⟩
        simp [caught, exec, construct, destroy, Expected.read, assign, moveOut, assignMove, assignCopy, begin_, end_, abandon, hasValue, hasError, dtor, merr, setPtr, ptr, ctorVal, ctorErr, moveCtor, moveAssign, value, valueOr, error, setError, takeError, rd, wr, mrep, hi, rep, map_update, Ty.plain, hj, hij, hji, Function.update_of_ne] <;> upd

theorem VE.step_refines {E : Type} (te : Ty E) (op : Op Unit E) (y y' : Spec.Sys Unit E) (r : Reply Unit E)
    (g : List (VE.Obj E)) (hg : ∀ o ∈ g, o.u = none) (hsafe : Spec.Safe .ve op y)
    (hs : Spec.step (Ty.plain ()) te .ve op y = some (r, y')) :
    ∃ g', (∀ o ∈ g', o.u = none) ∧
      caught (VE.exec te op) (mrep VE.rep y g) = some (r, mrep VE.rep y' g') := by
  cases op with
  | ctorDefault i =>
    rcases hi : y i with _ | s | s <;> simp [Spec.step, Spec.offers, Spec.effect, Spec.Safe, hi, Ty.plain] at hs hsafe <;>
    (first | (obtain ⟨rfl, rfl⟩ := hs) | (obtain ⟨hx, rfl, rfl⟩ := hs; subst hx)) <;>
    refine ⟨g, hg, ?_⟩ <;>
    simp [caught, exec, construct, destroy, Expected.read, assign, moveOut, assignMove, assignCopy, begin_, end_, abandon, hasValue, hasError, dtor, merr, setHas, ctorDefault, ctorErr, moveCtor, moveAssign, error, setError, takeError, rd, wr, mrep, hi, rep, map_update, Ty.plain] <;> upd
  | ctorVal i v =>
    rcases hi : y i with _ | s | s <;> simp [Spec.step, Spec.offers, Spec.effect, Spec.Safe, hi, Ty.plain] at hs hsafe <;>
    (first | (obtain ⟨rfl, rfl⟩ := hs) | (obtain ⟨hx, rfl, rfl⟩ := hs; subst hx)) <;>
    refine ⟨g, hg, ?_⟩ <;>
    simp [caught, exec, construct, destroy, Expected.read, assign, moveOut, assignMove, assignCopy, begin_, end_, abandon, hasValue, hasError, dtor, merr, setHas, ctorDefault, ctorErr, moveCtor, moveAssign, error, setError, takeError, rd, wr, mrep, hi, rep, map_update, Ty.plain] <;> upd
  | ctorErr i e =>
    rcases hi : y i with _ | s | s <;> simp [Spec.step, Spec.offers, Spec.effect, Spec.Safe, hi, Ty.plain] at hs hsafe <;>
    (first | (obtain ⟨rfl, rfl⟩ := hs) | (obtain ⟨hx, rfl, rfl⟩ := hs; subst hx)) <;>
    refine ⟨g, hg, ?_⟩ <;>
    simp [caught, exec, construct, destroy, Expected.read, assign, moveOut, assignMove, assignCopy, begin_, end_, abandon, hasValue, hasError, dtor, merr, setHas, ctorDefault, ctorErr, moveCtor, moveAssign, error, setError, takeError, rd, wr, mrep, hi, rep, map_update, Ty.plain] <;> upd
  | ctorErrDefault i =>
    rcases hi : y i with _ | s | s <;> simp [Spec.step, Spec.offers, Spec.effect, Spec.Safe, hi, Ty.plain] at hs hsafe <;>
    (first | (obtain ⟨rfl, rfl⟩ := hs) | (obtain ⟨hx, rfl, rfl⟩ := hs; subst hx)) <;>
    refine ⟨g, hg, ?_⟩ <;>
    simp [caught, exec, construct, destroy, Expected.read, assign, moveOut, assignMove, assignCopy, begin_, end_, abandon, hasValue, hasError, dtor, merr, setHas, ctorDefault, ctorErr, moveCtor, moveAssign, error, setError, takeError, rd, wr, mrep, hi, rep, map_update, Ty.plain] <;> upd
  | clear i =>
    rcases hi : y i with _ | s | s <;> simp [Spec.step, Spec.offers, Spec.effect, Spec.Safe, hi, Ty.plain] at hs hsafe <;>
    (first | (obtain ⟨rfl, rfl⟩ := hs) | (obtain ⟨hx, rfl, rfl⟩ := hs; subst hx)) <;>
    refine ⟨g, hg, ?_⟩ <;>
    simp [caught, exec, construct, destroy, Expected.read, assign, moveOut, assignMove, assignCopy, begin_, end_, abandon, hasValue, hasError, dtor, merr, setHas, ctorDefault, ctorErr, moveCtor, moveAssign, error, setError, takeError, rd, wr, mrep, hi, rep, map_update, Ty.plain] <;> upd
  | emplace i v throws =>
    cases throws <;> rcases hi : y i with _ | s | s <;> simp [Spec.step, Spec.offers, Spec.effect, Spec.Safe, hi, Ty.plain] at hs hsafe <;>
    (first | (obtain ⟨rfl, rfl⟩ := hs) | (obtain ⟨hx, rfl, rfl⟩ := hs; subst hx)) <;>
    refine ⟨g, hg, ?_⟩ <;>
    simp [caught, exec, construct, destroy, Expected.read, assign, moveOut, assignMove, assignCopy, begin_, end_, abandon, hasValue, hasError, dtor, merr, setHas, ctorDefault, ctorErr, moveCtor, moveAssign, error, setError, takeError, rd, wr, mrep, hi, rep, map_update, Ty.plain] <;> upd
  | emplaceSelf i =>
    rcases hi : y i with _ | s | s <;> simp [Spec.step, Spec.offers, Spec.effect, Spec.Safe, hi, Ty.plain] at hs hsafe <;>
    (first | (obtain ⟨rfl, rfl⟩ := hs) | (obtain ⟨hx, rfl, rfl⟩ := hs; subst hx)) <;>
    refine ⟨g, hg, ?_⟩ <;>
    simp [caught, exec, construct, destroy, Expected.read, assign, moveOut, assignMove, assignCopy, begin_, end_, abandon, hasValue, hasError, dtor, merr, setHas, ctorDefault, ctorErr, moveCtor, moveAssign, error, setError, takeError, rd, wr, mrep, hi, rep, map_update, Ty.plain] <;> upd
  | hasValue i =>
    rcases hi : y i with _ | s | s <;> simp [Spec.step, Spec.offers, Spec.effect, Spec.Safe, hi, Ty.plain] at hs hsafe <;>
    (first | (obtain ⟨rfl, rfl⟩ := hs) | (obtain ⟨hx, rfl, rfl⟩ := hs; subst hx)) <;>
    refine ⟨g, hg, ?_⟩ <;>
    simp [caught, exec, construct, destroy, Expected.read, assign, moveOut, assignMove, assignCopy, begin_, end_, abandon, hasValue, hasError, dtor, merr, setHas, ctorDefault, ctorErr, moveCtor, moveAssign, error, setError, takeError, rd, wr, mrep, hi, rep, map_update, Ty.plain] <;> upd
  | hasError i =>
    rcases hi : y i with _ | s | s <;> simp [Spec.step, Spec.offers, Spec.effect, Spec.Safe, hi, Ty.plain] at hs hsafe <;>
    (first | (obtain ⟨rfl, rfl⟩ := hs) | (obtain ⟨hx, rfl, rfl⟩ := hs; subst hx)) <;>
    refine ⟨g, hg, ?_⟩ <;>
    simp [caught, exec, construct, destroy, Expected.read, assign, moveOut, assignMove, assignCopy, begin_, end_, abandon, hasValue, hasError, dtor, merr, setHas, ctorDefault, ctorErr, moveCtor, moveAssign, error, setError, takeError, rd, wr, mrep, hi, rep, map_update, Ty.plain] <;> upd
  | value i =>
    rcases hi : y i with _ | s | s <;> simp [Spec.step, Spec.offers, Spec.effect, Spec.Safe, hi, Ty.plain] at hs hsafe <;>
    (first | (obtain ⟨rfl, rfl⟩ := hs) | (obtain ⟨hx, rfl, rfl⟩ := hs; subst hx)) <;>
    refine ⟨g, hg, ?_⟩ <;>
    simp [caught, exec, construct, destroy, Expected.read, assign, moveOut, assignMove, assignCopy, begin_, end_, abandon, hasValue, hasError, dtor, merr, setHas, ctorDefault, ctorErr, moveCtor, moveAssign, error, setError, takeError, rd, wr, mrep, hi, rep, map_update, Ty.plain] <;> upd
  | setValue i v =>
    rcases hi : y i with _ | s | s <;> simp [Spec.step, Spec.offers, Spec.effect, Spec.Safe, hi, Ty.plain] at hs hsafe <;>
    (first | (obtain ⟨rfl, rfl⟩ := hs) | (obtain ⟨hx, rfl, rfl⟩ := hs; subst hx)) <;>
    refine ⟨g, hg, ?_⟩ <;>
    simp [caught, exec, construct, destroy, Expected.read, assign, moveOut, assignMove, assignCopy, begin_, end_, abandon, hasValue, hasError, dtor, merr, setHas, ctorDefault, ctorErr, moveCtor, moveAssign, error, setError, takeError, rd, wr, mrep, hi, rep, map_update, Ty.plain] <;> upd
  | takeValue i =>
    rcases hi : y i with _ | s | s <;> simp [Spec.step, Spec.offers, Spec.effect, Spec.Safe, hi, Ty.plain] at hs hsafe <;>
    (first | (obtain ⟨rfl, rfl⟩ := hs) | (obtain ⟨hx, rfl, rfl⟩ := hs; subst hx)) <;>
    refine ⟨g, hg, ?_⟩ <;>
    simp [caught, exec, construct, destroy, Expected.read, assign, moveOut, assignMove, assignCopy, begin_, end_, abandon, hasValue, hasError, dtor, merr, setHas, ctorDefault, ctorErr, moveCtor, moveAssign, error, setError, takeError, rd, wr, mrep, hi, rep, map_update, Ty.plain] <;> upd
  | valueOr i v =>
    rcases hi : y i with _ | s | s <;> simp [Spec.step, Spec.offers, Spec.effect, Spec.Safe, hi, Ty.plain] at hs hsafe <;>
    (first | (obtain ⟨rfl, rfl⟩ := hs) | (obtain ⟨hx, rfl, rfl⟩ := hs; subst hx)) <;>
    refine ⟨g, hg, ?_⟩ <;>
    simp [caught, exec, construct, destroy, Expected.read, assign, moveOut, assignMove, assignCopy, begin_, end_, abandon, hasValue, hasError, dtor, merr, setHas, ctorDefault, ctorErr, moveCtor, moveAssign, error, setError, takeError, rd, wr, mrep, hi, rep, map_update, Ty.plain] <;> upd
  | takeValueOr i v =>
    rcases hi : y i with _ | s | s <;> simp [Spec.step, Spec.offers, Spec.effect, Spec.Safe, hi, Ty.plain] at hs hsafe <;>
    (first | (obtain ⟨rfl, rfl⟩ := hs) | (obtain ⟨hx, rfl, rfl⟩ := hs; subst hx)) <;>
    refine ⟨g, hg, ?_⟩ <;>
    simp [caught, exec, construct, destroy, Expected.read, assign, moveOut, assignMove, assignCopy, begin_, end_, abandon, hasValue, hasError, dtor, merr, setHas, ctorDefault, ctorErr, moveCtor, moveAssign, error, setError, takeError, rd, wr, mrep, hi, rep, map_update, Ty.plain] <;> upd
  | error i =>
    rcases hi : y i with _ | s | s <;> simp [Spec.step, Spec.offers, Spec.effect, Spec.Safe, hi, Ty.plain] at hs hsafe <;>
    (first | (obtain ⟨rfl, rfl⟩ := hs) | (obtain ⟨hx, rfl, rfl⟩ := hs; subst hx)) <;>
    refine ⟨g, hg, ?_⟩ <;>
    simp [caught, exec, construct, destroy, Expected.read, assign, moveOut, assignMove, assignCopy, begin_, end_, abandon, hasValue, hasError, dtor, merr, setHas, ctorDefault, ctorErr, moveCtor, moveAssign, error, setError, takeError, rd, wr, mrep, hi, rep, map_update, Ty.plain] <;> upd
  | setError i e =>
    rcases hi : y i with _ | s | s <;> simp [Spec.step, Spec.offers, Spec.effect, Spec.Safe, hi, Ty.plain] at hs hsafe <;>
    (first | (obtain ⟨rfl, rfl⟩ := hs) | (obtain ⟨hx, rfl, rfl⟩ := hs; subst hx)) <;>
    refine ⟨g, hg, ?_⟩ <;>
    simp [caught, exec, construct, destroy, Expected.read, assign, moveOut, assignMove, assignCopy, begin_, end_, abandon, hasValue, hasError, dtor, merr, setHas, ctorDefault, ctorErr, moveCtor, moveAssign, error, setError, takeError, rd, wr, mrep, hi, rep, map_update, Ty.plain] <;> upd
  | takeError i =>
    rcases hi : y i with _ | s | s <;> simp [Spec.step, Spec.offers, Spec.effect, Spec.Safe, hi, Ty.plain] at hs hsafe <;>
    (first | (obtain ⟨rfl, rfl⟩ := hs) | (obtain ⟨hx, rfl, rfl⟩ := hs; subst hx)) <;>
    refine ⟨g, hg, ?_⟩ <;>
    simp [caught, exec, construct, destroy, Expected.read, assign, moveOut, assignMove, assignCopy, begin_, end_, abandon, hasValue, hasError, dtor, merr, setHas, ctorDefault, ctorErr, moveCtor, moveAssign, error, setError, takeError, rd, wr, mrep, hi, rep, map_update, Ty.plain] <;> upd
  | dtor i =>
    rcases hi : y i with _ | s | s <;> simp [Spec.step, Spec.offers, Spec.effect, Spec.Safe, hi] at hs hsafe <;>
    obtain ⟨rfl, rfl⟩ := hs <;>
    refine ⟨_, ?_, by simp [caught, exec, construct, destroy, Expected.read, assign, moveOut, assignMove, assignCopy, begin_, end_, abandon, hasValue, hasError, dtor, merr, setHas, ctorDefault, ctorErr, moveCtor, moveAssign, error, setError, takeError, rd, wr, mrep, hi, rep, map_update, Ty.plain]; rfl⟩ <;> simp <;> exact hg
  | moveCtor i j =>
    by_cases hij : i = j
    · subst hij
      rcases hi : y i with _ | s | s <;> simp [Spec.step, Spec.offers, Spec.effect, Spec.Safe, hi, Ty.plain, Spec.selfMoved] at hs hsafe <;>
      (first | (obtain ⟨rfl, rfl⟩ := hs) | (obtain ⟨hx, rfl, rfl⟩ := hs; subst hx)) <;>
      refine ⟨g, hg, ?_⟩ <;>
      simp [caught, exec, construct, destroy, Expected.read, assign, moveOut, assignMove, assignCopy, begin_, end_, abandon, hasValue, hasError, dtor, merr, setHas, ctorDefault, ctorErr, moveCtor, moveAssign, error, setError, takeError, rd, wr, mrep, hi, rep, map_update, Ty.plain] <;> upd
    · have hji : j ≠ i := fun h => hij h.symm
      rcases hi : y i with _ | s | s <;> rcases hj : y j with _ | t | t <;>
      simp [Spec.step, Spec.offers, Spec.effect, Spec.Safe, hi, hj, hij, Ty.plain, Spec.moved] at hs hsafe <;>
      (first | (obtain ⟨rfl, rfl⟩ := hs) | (obtain ⟨hx, rfl, rfl⟩ := hs; subst hx)) <;>
      first
      | refine ⟨g, hg, ?_⟩
        simp [caught, exec, construct, destroy, Expected.read, assign, moveOut, assignMove, assignCopy, begin_, end_, abandon, hasValue, hasError, dtor, merr, setHas, ctorDefault, ctorErr, moveCtor, moveAssign, error, setError, takeError, rd, wr, mrep, hi, rep, map_update, Ty.plain, hj, hij, hji, Function.update_of_ne] <;> upd
      | refine ⟨⟨none, true⟩ :: g, by simpa using hg, ?_⟩
        simp [caught, exec, construct, destroy, Expected.read, assign, moveOut, assignMove, assignCopy, begin_, end_, abandon, hasValue, hasError, dtor, merr, setHas, ctorDefault, ctorErr, moveCtor, moveAssign, error, setError, takeError, rd, wr, mrep, hi, rep, map_update, Ty.plain, hj, hij, hji, Function.update_of_ne] <;> upd
  | moveAssign i j =>
    by_cases hij : i = j
    · subst hij
      rcases hi : y i with _ | s | s <;> simp [Spec.step, Spec.offers, Spec.effect, Spec.Safe, hi, Ty.plain, Spec.selfMoved] at hs hsafe <;>
      (first | (obtain ⟨rfl, rfl⟩ := hs) | (obtain ⟨hx, rfl, rfl⟩ := hs; subst hx)) <;>
      refine ⟨g, hg, ?_⟩ <;>
      simp [caught, exec, construct, destroy, Expected.read, assign, moveOut, assignMove, assignCopy, begin_, end_, abandon, hasValue, hasError, dtor, merr, setHas, ctorDefault, ctorErr, moveCtor, moveAssign, error, setError, takeError, rd, wr, mrep, hi, rep, map_update, Ty.plain] <;> upd
    · have hji : j ≠ i := fun h => hij h.symm
      rcases hi : y i with _ | s | s <;> rcases hj : y j with _ | t | t <;>
      simp [Spec.step, Spec.offers, Spec.effect, Spec.Safe, hi, hj, hij, Ty.plain, Spec.moved] at hs hsafe <;>
      (first | (obtain ⟨rfl, rfl⟩ := hs) | (obtain ⟨hx, rfl, rfl⟩ := hs; subst hx)) <;>
      first
      | refine ⟨g, hg, ?_⟩
        simp [caught, exec, construct, destroy, Expected.read, assign, moveOut, assignMove, assignCopy, begin_, end_, abandon, hasValue, hasError, dtor, merr, setHas, ctorDefault, ctorErr, moveCtor, moveAssign, error, setError, takeError, rd, wr, mrep, hi, rep, map_update, Ty.plain, hj, hij, hji, Function.update_of_ne] <;> upd
      | refine ⟨⟨none, true⟩ :: g, by simpa using hg, ?_⟩
        simp [caught, exec, construct, destroy, Expected.read, assign, moveOut, assignMove, assignCopy, begin_, end_, abandon, hasValue, hasError, dtor, merr, setHas, ctorDefault, ctorErr, moveCtor, moveAssign, error, setError, takeError, rd, wr, mrep, hi, rep, map_update, Ty.plain, hj, hij, hji, Function.update_of_ne] <;> upd
  | copyCtor i j throws =>
    by_cases hij : i = j
    · subst hij
      cases throws <;> rcases hi : y i with _ | s | s <;> simp [Spec.step, Spec.offers, Spec.effect, Spec.Safe, hi, Ty.plain, Spec.selfMoved] at hs hsafe <;>
      (first | (obtain ⟨rfl, rfl⟩ := hs) | (obtain ⟨hx, rfl, rfl⟩ := hs; subst hx)) <;>
      refine ⟨g, hg, ?_⟩ <;>
      simp [caught, exec, construct, destroy, Expected.read, assign, moveOut, assignMove, assignCopy, begin_, end_, abandon, hasValue, hasError, dtor, merr, setHas, ctorDefault, ctorErr, moveCtor, moveAssign, error, setError, takeError, rd, wr, mrep, hi, rep, map_update, Ty.plain] <;> upd
    · have hji : j ≠ i := fun h => hij h.symm
      cases throws <;> rcases hi : y i with _ | s | s <;> rcases hj : y j with _ | t | t <;>
      simp [Spec.step, Spec.offers, Spec.effect, Spec.Safe, hi, hj, hij, Ty.plain, Spec.moved] at hs hsafe <;>
      (first | (obtain ⟨rfl, rfl⟩ := hs) | (obtain ⟨hx, rfl, rfl⟩ := hs; subst hx)) <;>
      first
      | refine ⟨g, hg, ?_⟩
        simp [caught, exec, construct, destroy, Expected.read, assign, moveOut, assignMove, assignCopy, begin_, end_, abandon, hasValue, hasError, dtor, merr, setHas, ctorDefault, ctorErr, moveCtor, moveAssign, error, setError, takeError, rd, wr, mrep, hi, rep, map_update, Ty.plain, hj, hij, hji, Function.update_of_ne] <;> upd
      | refine ⟨⟨none, true⟩ :: g, by simpa using hg, ?_⟩
        simp [caught, exec, construct, destroy, Expected.read, assign, moveOut, assignMove, assignCopy, begin_, end_, abandon, hasValue, hasError, dtor, merr, setHas, ctorDefault, ctorErr, moveCtor, moveAssign, error, setError, takeError, rd, wr, mrep, hi, rep, map_update, Ty.plain, hj, hij, hji, Function.update_of_ne] <;> upd
  | copyAssign i j throws =>
    by_cases hij : i = j
    · subst hij
      cases throws <;> rcases hi : y i with _ | s | s <;> simp [Spec.step, Spec.offers, Spec.effect, Spec.Safe, hi, Ty.plain, Spec.selfMoved] at hs hsafe <;>
      (first | (obtain ⟨rfl, rfl⟩ := hs) | (obtain ⟨hx, rfl, rfl⟩ := hs; subst hx)) <;>
      refine ⟨g, hg, ?_⟩ <;>
      simp [caught, exec, construct, destroy, Expected.read, assign, moveOut, assignMove, assignCopy, begin_, end_, abandon, hasValue, hasError, dtor, merr, setHas, ctorDefault, ctorErr, moveCtor, moveAssign, error, setError, takeError, rd, wr, mrep, hi, rep, map_update, Ty.plain] <;> upd
    · have hji : j ≠ i := fun h => hij h.symm
      cases throws <;> rcases hi : y i with _ | s | s <;> rcases hj : y j with _ | t | t <;>
      simp [Spec.step, Spec.offers, Spec.effect, Spec.Safe, hi, hj, hij, Ty.plain, Spec.moved] at hs hsafe <;>
      (first | (obtain ⟨rfl, rfl⟩ := hs) | (obtain ⟨hx, rfl, rfl⟩ := hs; subst hx)) <;>
      first
      | refine ⟨g, hg, ?_⟩
        simp [caught, exec, construct, destroy, Expected.read, assign, moveOut, assignMove, assignCopy, begin_, end_, abandon, hasValue, hasError, dtor, merr, setHas, ctorDefault, ctorErr, moveCtor, moveAssign, error, setError, takeError, rd, wr, mrep, hi, rep, map_update, Ty.plain, hj, hij, hji, Function.update_of_ne] <;> upd
      | refine ⟨⟨none, true⟩ :: g, by simpa using hg, ?_⟩
        simp [caught, exec, construct, destroy, Expected.read, assign, moveOut, assignMove, assignCopy, begin_, end_, abandon, hasValue, hasError, dtor, merr, setHas, ctorDefault, ctorErr, moveCtor, moveAssign, error, setError, takeError, rd, wr, mrep, hi, rep, map_update, Ty.plain, hj, hij, hji, Function.update_of_ne] <;> upd

theorem TV.step_refines {V : Type} (tv : Ty V) (op : Op V Unit) (y y' : Spec.Sys V Unit) (r : Reply V Unit)
    (g : List (TV.Obj V)) (hg : ∀ o ∈ g, o.u = none) (hsafe : Spec.Safe .tv op y)
    (hs : Spec.step tv (Ty.plain ()) .tv op y = some (r, y')) :
    ∃ g', (∀ o ∈ g', o.u = none) ∧
      caught (TV.exec tv op) (mrep TV.rep y g) = some (r, mrep TV.rep y' g') := by
  cases op with
  | ctorDefault i =>
    rcases hi : y i with _ | s | s <;> simp [Spec.step, Spec.offers, Spec.effect, Spec.Safe, hi, Ty.plain] at hs hsafe <;>
    (first | (obtain ⟨rfl, rfl⟩ := hs) | (obtain ⟨hx, rfl, rfl⟩ := hs; subst hx)) <;>
    refine ⟨g, hg, ?_⟩ <;>
    simp [caught, exec, construct, destroy, Expected.read, assign, moveOut, assignMove, assignCopy, begin_, end_, abandon, hasValue, hasError, dtor, mval, setHas, ctorVal, ctorErr, copyCtor, copyAssign, moveCtor, moveAssign, clear, emplace, emplaceSelf, value, setValue, takeValue, valueOr, takeValueOr, rd, wr, mrep, hi, rep, map_update, Ty.plain] <;> upd
  | ctorVal i v =>
    rcases hi : y i with _ | s | s <;> simp [Spec.step, Spec.offers, Spec.effect, Spec.Safe, hi, Ty.plain] at hs hsafe <;>
    (first | (obtain ⟨rfl, rfl⟩ := hs) | (obtain ⟨hx, rfl, rfl⟩ := hs; subst hx)) <;>
    refine ⟨g, hg, ?_⟩ <;>
    simp [caught, exec, construct, destroy, Expected.read, assign, moveOut, assignMove, assignCopy, begin_, end_, abandon, hasValue, hasError, dtor, mval, setHas, ctorVal, ctorErr, copyCtor, copyAssign, moveCtor, moveAssign, clear, emplace, emplaceSelf, value, setValue, takeValue, valueOr, takeValueOr, rd, wr, mrep, hi, rep, map_update, Ty.plain] <;> upd
  | ctorErr i e =>
    rcases hi : y i with _ | s | s <;> simp [Spec.step, Spec.offers, Spec.effect, Spec.Safe, hi, Ty.plain] at hs hsafe <;>
    (first | (obtain ⟨rfl, rfl⟩ := hs) | (obtain ⟨hx, rfl, rfl⟩ := hs; subst hx)) <;>
    refine ⟨g, hg, ?_⟩ <;>
    simp [caught, exec, construct, destroy, Expected.read, assign, moveOut, assignMove, assignCopy, begin_, end_, abandon, hasValue, hasError, dtor, mval, setHas, ctorVal, ctorErr, copyCtor, copyAssign, moveCtor, moveAssign, clear, emplace, emplaceSelf, value, setValue, takeValue, valueOr, takeValueOr, rd, wr, mrep, hi, rep, map_update, Ty.plain] <;> upd
  | ctorErrDefault i =>
    rcases hi : y i with _ | s | s <;> simp [Spec.step, Spec.offers, Spec.effect, Spec.Safe, hi, Ty.plain] at hs hsafe <;>
    (first | (obtain ⟨rfl, rfl⟩ := hs) | (obtain ⟨hx, rfl, rfl⟩ := hs; subst hx)) <;>
    refine ⟨g, hg, ?_⟩ <;>
    simp [caught, exec, construct, destroy, Expected.read, assign, moveOut, assignMove, assignCopy, begin_, end_, abandon, hasValue, hasError, dtor, mval, setHas, ctorVal, ctorErr, copyCtor, copyAssign, moveCtor, moveAssign, clear, emplace, emplaceSelf, value, setValue, takeValue, valueOr, takeValueOr, rd, wr, mrep, hi, rep, map_update, Ty.plain] <;> upd
  | clear i =>
    rcases hi : y i with _ | s | s <;> simp [Spec.step, Spec.offers, Spec.effect, Spec.Safe, hi, Ty.plain] at hs hsafe <;>
    (first | (obtain ⟨rfl, rfl⟩ := hs) | (obtain ⟨hx, rfl, rfl⟩ := hs; subst hx)) <;>
    refine ⟨g, hg, ?_⟩ <;>
    simp [caught, exec, construct, destroy, Expected.read, assign, moveOut, assignMove, assignCopy, begin_, end_, abandon, hasValue, hasError, dtor, mval, setHas, ctorVal, ctorErr, copyCtor, copyAssign, moveCtor, moveAssign, clear, emplace, emplaceSelf, value, setValue, takeValue, valueOr, takeValueOr, rd, wr, mrep, hi, rep, map_update, Ty.plain] <;> upd
  | emplace i v throws =>
    cases throws <;> rcases hi : y i with _ | s | s <;> simp [Spec.step, Spec.offers, Spec.effect, Spec.Safe, hi, Ty.plain] at hs hsafe <;>
    (first | (obtain ⟨rfl, rfl⟩ := hs) | (obtain ⟨hx, rfl, rfl⟩ := hs; subst hx)) <;>
    refine ⟨g, hg, ?_⟩ <;>
    simp [caught, exec, construct, destroy, Expected.read, assign, moveOut, assignMove, assignCopy, begin_, end_, abandon, hasValue, hasError, dtor, mval, setHas, ctorVal, ctorErr, copyCtor, copyAssign, moveCtor, moveAssign, clear, emplace, emplaceSelf, value, setValue, takeValue, valueOr, takeValueOr, rd, wr, mrep, hi, rep, map_update, Ty.plain] <;> upd
  | emplaceSelf i =>
    rcases hi : y i with _ | s | s <;> simp [Spec.step, Spec.offers, Spec.effect, Spec.Safe, hi, Ty.plain] at hs hsafe <;>
    (first | (obtain ⟨rfl, rfl⟩ := hs) | (obtain ⟨hx, rfl, rfl⟩ := hs; subst hx)) <;>
    refine ⟨g, hg, ?_⟩ <;>
    simp [caught, exec, construct, destroy, Expected.read, assign, moveOut, assignMove, assignCopy, begin_, end_, abandon, hasValue, hasError, dtor, mval, setHas, ctorVal, ctorErr, copyCtor, copyAssign, moveCtor, moveAssign, clear, emplace, emplaceSelf, value, setValue, takeValue, valueOr, takeValueOr, rd, wr, mrep, hi, rep, map_update, Ty.plain] <;> upd
  | hasValue i =>
    rcases hi : y i with _ | s | s <;> simp [Spec.step, Spec.offers, Spec.effect, Spec.Safe, hi, Ty.plain] at hs hsafe <;>
    (first | (obtain ⟨rfl, rfl⟩ := hs) | (obtain ⟨hx, rfl, rfl⟩ := hs; subst hx)) <;>
    refine ⟨g, hg, ?_⟩ <;>
    simp [caught, exec, construct, destroy, Expected.read, assign, moveOut, assignMove, assignCopy, begin_, end_, abandon, hasValue, hasError, dtor, mval, setHas, ctorVal, ctorErr, copyCtor, copyAssign, moveCtor, moveAssign, clear, emplace, emplaceSelf, value, setValue, takeValue, valueOr, takeValueOr, rd, wr, mrep, hi, rep, map_update, Ty.plain] <;> upd
  | hasError i =>
    rcases hi : y i with _ | s | s <;> simp [Spec.step, Spec.offers, Spec.effect, Spec.Safe, hi, Ty.plain] at hs hsafe <;>
    (first | (obtain ⟨rfl, rfl⟩ := hs) | (obtain ⟨hx, rfl, rfl⟩ := hs; subst hx)) <;>
    refine ⟨g, hg, ?_⟩ <;>
    simp [caught, exec, construct, destroy, Expected.read, assign, moveOut, assignMove, assignCopy, begin_, end_, abandon, hasValue, hasError, dtor, mval, setHas, ctorVal, ctorErr, copyCtor, copyAssign, moveCtor, moveAssign, clear, emplace, emplaceSelf, value, setValue, takeValue, valueOr, takeValueOr, rd, wr, mrep, hi, rep, map_update, Ty.plain] <;> upd
  | value i =>
    rcases hi : y i with _ | s | s <;> simp [Spec.step, Spec.offers, Spec.effect, Spec.Safe, hi, Ty.plain] at hs hsafe <;>
    (first | (obtain ⟨rfl, rfl⟩ := hs) | (obtain ⟨hx, rfl, rfl⟩ := hs; subst hx)) <;>
    refine ⟨g, hg, ?_⟩ <;>
    simp [caught, exec, construct, destroy, Expected.read, assign, moveOut, assignMove, assignCopy, begin_, end_, abandon, hasValue, hasError, dtor, mval, setHas, ctorVal, ctorErr, copyCtor, copyAssign, moveCtor, moveAssign, clear, emplace, emplaceSelf, value, setValue, takeValue, valueOr, takeValueOr, rd, wr, mrep, hi, rep, map_update, Ty.plain] <;> upd
  | setValue i v =>
    rcases hi : y i with _ | s | s <;> simp [Spec.step, Spec.offers, Spec.effect, Spec.Safe, hi, Ty.plain] at hs hsafe <;>
    (first | (obtain ⟨rfl, rfl⟩ := hs) | (obtain ⟨hx, rfl, rfl⟩ := hs; subst hx)) <;>
    refine ⟨g, hg, ?_⟩ <;>
    simp [caught, exec, construct, destroy, Expected.read, assign, moveOut, assignMove, assignCopy, begin_, end_, abandon, hasValue, hasError, dtor, mval, setHas, ctorVal, ctorErr, copyCtor, copyAssign, moveCtor, moveAssign, clear, emplace, emplaceSelf, value, setValue, takeValue, valueOr, takeValueOr, rd, wr, mrep, hi, rep, map_update, Ty.plain] <;> upd
  | takeValue i =>
    rcases hi : y i with _ | s | s <;> simp [Spec.step, Spec.offers, Spec.effect, Spec.Safe, hi, Ty.plain] at hs hsafe <;>
    (first | (obtain ⟨rfl, rfl⟩ := hs) | (obtain ⟨hx, rfl, rfl⟩ := hs; subst hx)) <;>
    refine ⟨g, hg, ?_⟩ <;>
    simp [caught, exec, construct, destroy, Expected.read, assign, moveOut, assignMove, assignCopy, begin_, end_, abandon, hasValue, hasError, dtor, mval, setHas, ctorVal, ctorErr, copyCtor, copyAssign, moveCtor, moveAssign, clear, emplace, emplaceSelf, value, setValue, takeValue, valueOr, takeValueOr, rd, wr, mrep, hi, rep, map_update, Ty.plain] <;> upd
  | valueOr i v =>
    rcases hi : y i with _ | s | s <;> simp [Spec.step, Spec.offers, Spec.effect, Spec.Safe, hi, Ty.plain] at hs hsafe <;>
    (first | (obtain ⟨rfl, rfl⟩ := hs) | (obtain ⟨hx, rfl, rfl⟩ := hs; subst hx)) <;>
    refine ⟨g, hg, ?_⟩ <;>
    simp [caught, exec, construct, destroy, Expected.read, assign, moveOut, assignMove, assignCopy, begin_, end_, abandon, hasValue, hasError, dtor, mval, setHas, ctorVal, ctorErr, copyCtor, copyAssign, moveCtor, moveAssign, clear, emplace, emplaceSelf, value, setValue, takeValue, valueOr, takeValueOr, rd, wr, mrep, hi, rep, map_update, Ty.plain] <;> upd
  | takeValueOr i v =>
    rcases hi : y i with _ | s | s <;> simp [Spec.step, Spec.offers, Spec.effect, Spec.Safe, hi, Ty.plain] at hs hsafe <;>
    (first | (obtain ⟨rfl, rfl⟩ := hs) | (obtain ⟨hx, rfl, rfl⟩ := hs; subst hx)) <;>
    refine ⟨g, hg, ?_⟩ <;>
    simp [caught, exec, construct, destroy, Expected.read, assign, moveOut, assignMove, assignCopy, begin_, end_, abandon, hasValue, hasError, dtor, mval, setHas, ctorVal, ctorErr, copyCtor, copyAssign, moveCtor, moveAssign, clear, emplace, emplaceSelf, value, setValue, takeValue, valueOr, takeValueOr, rd, wr, mrep, hi, rep, map_update, Ty.plain] <;> upd
  | error i =>
    rcases hi : y i with _ | s | s <;> simp [Spec.step, Spec.offers, Spec.effect, Spec.Safe, hi, Ty.plain] at hs hsafe <;>
    (first | (obtain ⟨rfl, rfl⟩ := hs) | (obtain ⟨hx, rfl, rfl⟩ := hs; subst hx)) <;>
    refine ⟨g, hg, ?_⟩ <;>
    simp [caught, exec, construct, destroy, Expected.read, assign, moveOut, assignMove, assignCopy, begin_, end_, abandon, hasValue, hasError, dtor, mval, setHas, ctorVal, ctorErr, copyCtor, copyAssign, moveCtor, moveAssign, clear, emplace, emplaceSelf, value, setValue, takeValue, valueOr, takeValueOr, rd, wr, mrep, hi, rep, map_update, Ty.plain] <;> upd
  | setError i e =>
    rcases hi : y i with _ | s | s <;> simp [Spec.step, Spec.offers, Spec.effect, Spec.Safe, hi, Ty.plain] at hs hsafe <;>
    (first | (obtain ⟨rfl, rfl⟩ := hs) | (obtain ⟨hx, rfl, rfl⟩ := hs; subst hx)) <;>
    refine ⟨g, hg, ?_⟩ <;>
    simp [caught, exec, construct, destroy, Expected.read, assign, moveOut, assignMove, assignCopy, begin_, end_, abandon, hasValue, hasError, dtor, mval, setHas, ctorVal, ctorErr, copyCtor, copyAssign, moveCtor, moveAssign, clear, emplace, emplaceSelf, value, setValue, takeValue, valueOr, takeValueOr, rd, wr, mrep, hi, rep, map_update, Ty.plain] <;> upd
  | takeError i =>
    rcases hi : y i with _ | s | s <;> simp [Spec.step, Spec.offers, Spec.effect, Spec.Safe, hi, Ty.plain] at hs hsafe <;>
    (first | (obtain ⟨rfl, rfl⟩ := hs) | (obtain ⟨hx, rfl, rfl⟩ := hs; subst hx)) <;>
    refine ⟨g, hg, ?_⟩ <;>
    simp [caught, exec, construct, destroy, Expected.read, assign, moveOut, assignMove, assignCopy, begin_, end_, abandon, hasValue, hasError, dtor, mval, setHas, ctorVal, ctorErr, copyCtor, copyAssign, moveCtor, moveAssign, clear, emplace, emplaceSelf, value, setValue, takeValue, valueOr, takeValueOr, rd, wr, mrep, hi, rep, map_update, Ty.plain] <;> upd
  | dtor i =>
    rcases hi : y i with _ | s | s <;> simp [Spec.step, Spec.offers, Spec.effect, Spec.Safe, hi] at hs hsafe <;>
    obtain ⟨rfl, rfl⟩ := hs <;>
    refine ⟨_, ?_, by simp [caught, exec, construct, destroy, Expected.read, assign, moveOut, assignMove, assignCopy, begin_, end_, abandon, hasValue, hasError, dtor, mval, setHas, ctorVal, ctorErr, copyCtor, copyAssign, moveCtor, moveAssign, clear, emplace, emplaceSelf, value, setValue, takeValue, valueOr, takeValueOr, rd, wr, mrep, hi, rep, map_update, Ty.plain]; rfl⟩ <;> simp <;> exact hg
  | moveCtor i j =>
    by_cases hij : i = j
    · subst hij
      rcases hi : y i with _ | s | s <;> simp [Spec.step, Spec.offers, Spec.effect, Spec.Safe, hi, Ty.plain, Spec.selfMoved] at hs hsafe <;>
      (first | (obtain ⟨rfl, rfl⟩ := hs) | (obtain ⟨hx, rfl, rfl⟩ := hs; subst hx)) <;>
      refine ⟨g, hg, ?_⟩ <;>
      simp [caught, exec, construct, destroy, Expected.read, assign, moveOut, assignMove, assignCopy, begin_, end_, abandon, hasValue, hasError, dtor, mval, setHas, ctorVal, ctorErr, copyCtor, copyAssign, moveCtor, moveAssign, clear, emplace, emplaceSelf, value, setValue, takeValue, valueOr, takeValueOr, rd, wr, mrep, hi, rep, map_update, Ty.plain] <;> upd
    · have hji : j ≠ i := fun h => hij h.symm
      rcases hi : y i with _ | s | s <;> rcases hj : y j with _ | t | t <;>
      simp [Spec.step, Spec.offers, Spec.effect, Spec.Safe, hi, hj, hij, Ty.plain, Spec.moved] at hs hsafe <;>
      (first | (obtain ⟨rfl, rfl⟩ := hs) | (obtain ⟨hx, rfl, rfl⟩ := hs; subst hx)) <;>
      first
      | refine ⟨g, hg, ?_⟩
        simp [caught, exec, construct, destroy, Expected.read, assign, moveOut, assignMove, assignCopy, begin_, end_, abandon, hasValue, hasError, dtor, mval, setHas, ctorVal, ctorErr, copyCtor, copyAssign, moveCtor, moveAssign, clear, emplace, emplaceSelf, value, setValue, takeValue, valueOr, takeValueOr, rd, wr, mrep, hi, rep, map_update, Ty.plain, hj, hij, hji, Function.update_of_ne] <;> upd
      | refine ⟨⟨none, true⟩ :: g, by simpa using hg, ?_⟩
        simp [caught, exec, construct, destroy, Expected.read, assign, moveOut, assignMove, assignCopy, begin_, end_, abandon, hasValue, hasError, dtor, mval, setHas, ctorVal, ctorErr, copyCtor, copyAssign, moveCtor, moveAssign, clear, emplace, emplaceSelf, value, setValue, takeValue, valueOr, takeValueOr, rd, wr, mrep, hi, rep, map_update, Ty.plain, hj, hij, hji, Function.update_of_ne] <;> upd
  | moveAssign i j =>
    by_cases hij : i = j
    · subst hij
      rcases hi : y i with _ | s | s <;> simp [Spec.step, Spec.offers, Spec.effect, Spec.Safe, hi, Ty.plain, Spec.selfMoved] at hs hsafe <;>
      (first | (obtain ⟨rfl, rfl⟩ := hs) | (obtain ⟨hx, rfl, rfl⟩ := hs; subst hx)) <;>
      refine ⟨g, hg, ?_⟩ <;>
      simp [caught, exec, construct, destroy, Expected.read, assign, moveOut, assignMove, assignCopy, begin_, end_, abandon, hasValue, hasError, dtor, mval, setHas, ctorVal, ctorErr, copyCtor, copyAssign, moveCtor, moveAssign, clear, emplace, emplaceSelf, value, setValue, takeValue, valueOr, takeValueOr, rd, wr, mrep, hi, rep, map_update, Ty.plain] <;> upd
    · have hji : j ≠ i := fun h => hij h.symm
      rcases hi : y i with _ | s | s <;> rcases hj : y j with _ | t | t <;>
      simp [Spec.step, Spec.offers, Spec.effect, Spec.Safe, hi, hj, hij, Ty.plain, Spec.moved] at hs hsafe <;>
      (first | (obtain ⟨rfl, rfl⟩ := hs) | (obtain ⟨hx, rfl, rfl⟩ := hs; subst hx)) <;>
      first
      | refine ⟨g, hg, ?_⟩
        simp [caught, exec, construct, destroy, Expected.read, assign, moveOut, assignMove, assignCopy, begin_, end_, abandon, hasValue, hasError, dtor, mval, setHas, ctorVal, ctorErr, copyCtor, copyAssign, moveCtor, moveAssign, clear, emplace, emplaceSelf, value, setValue, takeValue, valueOr, takeValueOr, rd, wr, mrep, hi, rep, map_update, Ty.plain, hj, hij, hji, Function.update_of_ne] <;> upd
      | refine ⟨⟨none, true⟩ :: g, by simpa using hg, ?_⟩
        simp [caught, exec, construct, destroy, Expected.read, assign, moveOut, assignMove, assignCopy, begin_, end_, abandon, hasValue, hasError, dtor, mval, setHas, ctorVal, ctorErr, copyCtor, copyAssign, moveCtor, moveAssign, clear, emplace, emplaceSelf, value, setValue, takeValue, valueOr, takeValueOr, rd, wr, mrep, hi, rep, map_update, Ty.plain, hj, hij, hji, Function.update_of_ne] <;> upd
  | copyCtor i j throws =>
    by_cases hij : i = j
    · subst hij
      cases throws <;> rcases hi : y i with _ | s | s <;> simp [Spec.step, Spec.offers, Spec.effect, Spec.Safe, hi, Ty.plain, Spec.selfMoved] at hs hsafe <;>
      (first | (obtain ⟨rfl, rfl⟩ := hs) | (obtain ⟨hx, rfl, rfl⟩ := hs; subst hx)) <;>
      refine ⟨g, hg, ?_⟩ <;>
      simp [caught, exec, construct, destroy, Expected.read, assign, moveOut, assignMove, assignCopy, begin_, end_, abandon, hasValue, hasError, dtor, mval, setHas, ctorVal, ctorErr, copyCtor, copyAssign, moveCtor, moveAssign, clear, emplace, emplaceSelf, value, setValue, takeValue, valueOr, takeValueOr, rd, wr, mrep, hi, rep, map_update, Ty.plain] <;> upd
    · have hji : j ≠ i := fun h => hij h.symm
      cases throws <;> rcases hi : y i with _ | s | s <;> rcases hj : y j with _ | t | t <;>
      simp [Spec.step, Spec.offers, Spec.effect, Spec.Safe, hi, hj, hij, Ty.plain, Spec.moved] at hs hsafe <;>
      (first | (obtain ⟨rfl, rfl⟩ := hs) | (obtain ⟨hx, rfl, rfl⟩ := hs; subst hx)) <;>
      first
      | refine ⟨g, hg, ?_⟩
        simp [caught, exec, construct, destroy, Expected.read, assign, moveOut, assignMove, assignCopy, begin_, end_, abandon, hasValue, hasError, dtor, mval, setHas, ctorVal, ctorErr, copyCtor, copyAssign, moveCtor, moveAssign, clear, emplace, emplaceSelf, value, setValue, takeValue, valueOr, takeValueOr, rd, wr, mrep, hi, rep, map_update, Ty.plain, hj, hij, hji, Function.update_of_ne] <;> upd
      | refine ⟨⟨none, true⟩ :: g, by simpa using hg, ?_⟩
        simp [caught, exec, construct, destroy, Expected.read, assign, moveOut, assignMove, assignCopy, begin_, end_, abandon, hasValue, hasError, dtor, mval, setHas, ctorVal, ctorErr, copyCtor, copyAssign, moveCtor, moveAssign, clear, emplace, emplaceSelf, value, setValue, takeValue, valueOr, takeValueOr, rd, wr, mrep, hi, rep, map_update, Ty.plain, hj, hij, hji, Function.update_of_ne] <;> upd
  | copyAssign i j throws =>
    by_cases hij : i = j
    · subst hij
      cases throws <;> rcases hi : y i with _ | s | s <;> simp [Spec.step, Spec.offers, Spec.effect, Spec.Safe, hi, Ty.plain, Spec.selfMoved] at hs hsafe <;>
      (first | (obtain ⟨rfl, rfl⟩ := hs) | (obtain ⟨hx, rfl, rfl⟩ := hs; subst hx)) <;>
      refine ⟨g, hg, ?_⟩ <;>
      simp [caught, exec, construct, destroy, Expected.read, assign, moveOut, assignMove, assignCopy, begin_, end_, abandon, hasValue, hasError, dtor, mval, setHas, ctorVal, ctorErr, copyCtor, copyAssign, moveCtor, moveAssign, clear, emplace, emplaceSelf, value, setValue, takeValue, valueOr, takeValueOr, rd, wr, mrep, hi, rep, map_update, Ty.plain] <;> upd
    · have hji : j ≠ i := fun h => hij h.symm
      cases throws <;> rcases hi : y i with _ | s | s <;> rcases hj : y j with _ | t | t <;>
      simp [Spec.step, Spec.offers, Spec.effect, Spec.Safe, hi, hj, hij, Ty.plain, Spec.moved] at hs hsafe <;>
      (first | (obtain ⟨rfl, rfl⟩ := hs) | (obtain ⟨hx, rfl, rfl⟩ := hs; subst hx)) <;>
      first
      | refine ⟨g, hg, ?_⟩
        simp [caught, exec, construct, destroy, Expected.read, assign, moveOut, assignMove, assignCopy, begin_, end_, abandon, hasValue, hasError, dtor, mval, setHas, ctorVal, ctorErr, copyCtor, copyAssign, moveCtor, moveAssign, clear, emplace, emplaceSelf, value, setValue, takeValue, valueOr, takeValueOr, rd, wr, mrep, hi, rep, map_update, Ty.plain, hj, hij, hji, Function.update_of_ne] <;> upd
      | refine ⟨⟨none, true⟩ :: g, by simpa using hg, ?_⟩
        simp [caught, exec, construct, destroy, Expected.read, assign, moveOut, assignMove, assignCopy, begin_, end_, abandon, hasValue, hasError, dtor, mval, setHas, ctorVal, ctorErr, copyCtor, copyAssign, moveCtor, moveAssign, clear, emplace, emplaceSelf, value, setValue, takeValue, valueOr, takeValueOr, rd, wr, mrep, hi, rep, map_update, Ty.plain, hj, hij, hji, Function.update_of_ne] <;> upd

theorem RV.step_refines (op : Op Nat Unit) (y y' : Spec.Sys Nat Unit) (r : Reply Nat Unit)
    (g : List RV.Obj) (hg : ∀ o ∈ g, True) (hsafe : Spec.Safe .rv op y)
    (hs : Spec.step (Ty.plain 0) (Ty.plain ()) .rv op y = some (r, y')) :
    ∃ g', (∀ o ∈ g', True) ∧
      caught (RV.exec op) (mrep RV.rep y g) = some (r, mrep RV.rep y' g') := by
  cases op with
  | ctorDefault i =>
    rcases hi : y i with _ | s | s <;> simp [Spec.step, Spec.offers, Spec.effect, Spec.Safe, hi, Ty.plain] at hs hsafe <;>
    (first | (obtain ⟨rfl, rfl⟩ := hs) | (obtain ⟨hx, rfl, rfl⟩ := hs; subst hx)) <;>
    refine ⟨g, hg, ?_⟩ <;>
    simp [caught, exec, construct, destroy, Expected.read, assign, moveOut, assignMove, assignCopy, begin_, end_, abandon, hasValue, hasError, dtor, ctorVal, ctorErr, copyCtor, copyAssign, clear, emplace, value, valueOr, rd, wr, mrep, hi, rep, map_update, Ty.plain] <;> upd
  | ctorVal i v =>
    rcases hi : y i with _ | s | s <;> simp [Spec.step, Spec.offers, Spec.effect, Spec.Safe, hi, Ty.plain] at hs hsafe <;>
    (first | (obtain ⟨rfl, rfl⟩ := hs) | (obtain ⟨hx, rfl, rfl⟩ := hs; subst hx)) <;>
    refine ⟨g, hg, ?_⟩ <;>
    simp [caught, exec, construct, destroy, Expected.read, assign, moveOut, assignMove, assignCopy, begin_, end_, abandon, hasValue, hasError, dtor, ctorVal, ctorErr, copyCtor, copyAssign, clear, emplace, value, valueOr, rd, wr, mrep, hi, rep, map_update, Ty.plain] <;> upd
  | ctorErr i e =>
    rcases hi : y i with _ | s | s <;> simp [Spec.step, Spec.offers, Spec.effect, Spec.Safe, hi, Ty.plain] at hs hsafe <;>
    (first | (obtain ⟨rfl, rfl⟩ := hs) | (obtain ⟨hx, rfl, rfl⟩ := hs; subst hx)) <;>
    refine ⟨g, hg, ?_⟩ <;>
    simp [caught, exec, construct, destroy, Expected.read, assign, moveOut, assignMove, assignCopy, begin_, end_, abandon, hasValue, hasError, dtor, ctorVal, ctorErr, copyCtor, copyAssign, clear, emplace, value, valueOr, rd, wr, mrep, hi, rep, map_update, Ty.plain] <;> upd
  | ctorErrDefault i =>
    rcases hi : y i with _ | s | s <;> simp [Spec.step, Spec.offers, Spec.effect, Spec.Safe, hi, Ty.plain] at hs hsafe <;>
    (first | (obtain ⟨rfl, rfl⟩ := hs) | (obtain ⟨hx, rfl, rfl⟩ := hs; subst hx)) <;>
    refine ⟨g, hg, ?_⟩ <;>
    simp [caught, exec, construct, destroy, Expected.read, assign, moveOut, assignMove, assignCopy, begin_, end_, abandon, hasValue, hasError, dtor, ctorVal, ctorErr, copyCtor, copyAssign, clear, emplace, value, valueOr, rd, wr, mrep, hi, rep, map_update, Ty.plain] <;> upd
  | clear i =>
    rcases hi : y i with _ | s | s <;> simp [Spec.step, Spec.offers, Spec.effect, Spec.Safe, hi, Ty.plain] at hs hsafe <;>
    (first | (obtain ⟨rfl, rfl⟩ := hs) | (obtain ⟨hx, rfl, rfl⟩ := hs; subst hx)) <;>
    refine ⟨g, hg, ?_⟩ <;>
    simp [caught, exec, construct, destroy, Expected.read, assign, moveOut, assignMove, assignCopy, begin_, end_, abandon, hasValue, hasError, dtor, ctorVal, ctorErr, copyCtor, copyAssign, clear, emplace, value, valueOr, rd, wr, mrep, hi, rep, map_update, Ty.plain] <;> upd
  | emplace i v throws =>
    cases throws <;> rcases hi : y i with _ | s | s <;> simp [Spec.step, Spec.offers, Spec.effect, Spec.Safe, hi, Ty.plain] at hs hsafe <;>
    (first | (obtain ⟨rfl, rfl⟩ := hs) | (obtain ⟨hx, rfl, rfl⟩ := hs; subst hx)) <;>
    refine ⟨g, hg, ?_⟩ <;>
    simp [caught, exec, construct, destroy, Expected.read, assign, moveOut, assignMove, assignCopy, begin_, end_, abandon, hasValue, hasError, dtor, ctorVal, ctorErr, copyCtor, copyAssign, clear, emplace, value, valueOr, rd, wr, mrep, hi, rep, map_update, Ty.plain] <;> upd
  | emplaceSelf i =>
    rcases hi : y i with _ | s | s <;> simp [Spec.step, Spec.offers, Spec.effect, Spec.Safe, hi, Ty.plain] at hs hsafe <;>
    (first | (obtain ⟨rfl, rfl⟩ := hs) | (obtain ⟨hx, rfl, rfl⟩ := hs; subst hx)) <;>
    refine ⟨g, hg, ?_⟩ <;>
    simp [caught, exec, construct, destroy, Expected.read, assign, moveOut, assignMove, assignCopy, begin_, end_, abandon, hasValue, hasError, dtor, ctorVal, ctorErr, copyCtor, copyAssign, clear, emplace, value, valueOr, rd, wr, mrep, hi, rep, map_update, Ty.plain] <;> upd
  | hasValue i =>
    rcases hi : y i with _ | s | s <;> simp [Spec.step, Spec.offers, Spec.effect, Spec.Safe, hi, Ty.plain] at hs hsafe <;>
    (first | (obtain ⟨rfl, rfl⟩ := hs) | (obtain ⟨hx, rfl, rfl⟩ := hs; subst hx)) <;>
    refine ⟨g, hg, ?_⟩ <;>
    simp [caught, exec, construct, destroy, Expected.read, assign, moveOut, assignMove, assignCopy, begin_, end_, abandon, hasValue, hasError, dtor, ctorVal, ctorErr, copyCtor, copyAssign, clear, emplace, value, valueOr, rd, wr, mrep, hi, rep, map_update, Ty.plain] <;> upd
  | hasError i =>
    rcases hi : y i with _ | s | s <;> simp [Spec.step, Spec.offers, Spec.effect, Spec.Safe, hi, Ty.plain] at hs hsafe <;>
    (first | (obtain ⟨rfl, rfl⟩ := hs) | (obtain ⟨hx, rfl, rfl⟩ := hs; subst hx)) <;>
    refine ⟨g, hg, ?_⟩ <;>
    simp [caught, exec, construct, destroy, Expected.read, assign, moveOut, assignMove, assignCopy, begin_, end_, abandon, hasValue, hasError, dtor, ctorVal, ctorErr, copyCtor, copyAssign, clear, emplace, value, valueOr, rd, wr, mrep, hi, rep, map_update, Ty.plain] <;> upd
  | value i =>
    rcases hi : y i with _ | s | s <;> simp [Spec.step, Spec.offers, Spec.effect, Spec.Safe, hi, Ty.plain] at hs hsafe <;>
    (first | (obtain ⟨rfl, rfl⟩ := hs) | (obtain ⟨hx, rfl, rfl⟩ := hs; subst hx)) <;>
    refine ⟨g, hg, ?_⟩ <;>
    simp [caught, exec, construct, destroy, Expected.read, assign, moveOut, assignMove, assignCopy, begin_, end_, abandon, hasValue, hasError, dtor, ctorVal, ctorErr, copyCtor, copyAssign, clear, emplace, value, valueOr, rd, wr, mrep, hi, rep, map_update, Ty.plain] <;> upd
  | setValue i v =>
    rcases hi : y i with _ | s | s <;> simp [Spec.step, Spec.offers, Spec.effect, Spec.Safe, hi, Ty.plain] at hs hsafe <;>
    (first | (obtain ⟨rfl, rfl⟩ := hs) | (obtain ⟨hx, rfl, rfl⟩ := hs; subst hx)) <;>
    refine ⟨g, hg, ?_⟩ <;>
    simp [caught, exec, construct, destroy, Expected.read, assign, moveOut, assignMove, assignCopy, begin_, end_, abandon, hasValue, hasError, dtor, ctorVal, ctorErr, copyCtor, copyAssign, clear, emplace, value, valueOr, rd, wr, mrep, hi, rep, map_update, Ty.plain] <;> upd
  | takeValue i =>
    rcases hi : y i with _ | s | s <;> simp [Spec.step, Spec.offers, Spec.effect, Spec.Safe, hi, Ty.plain] at hs hsafe <;>
    (first | (obtain ⟨rfl, rfl⟩ := hs) | (obtain ⟨hx, rfl, rfl⟩ := hs; subst hx)) <;>
    refine ⟨g, hg, ?_⟩ <;>
    simp [caught, exec, construct, destroy, Expected.read, assign, moveOut, assignMove, assignCopy, begin_, end_, abandon, hasValue, hasError, dtor, ctorVal, ctorErr, copyCtor, copyAssign, clear, emplace, value, valueOr, rd, wr, mrep, hi, rep, map_update, Ty.plain] <;> upd
  | valueOr i v =>
    rcases hi : y i with _ | s | s <;> simp [Spec.step, Spec.offers, Spec.effect, Spec.Safe, hi, Ty.plain] at hs hsafe <;>
    (first | (obtain ⟨rfl, rfl⟩ := hs) | (obtain ⟨hx, rfl, rfl⟩ := hs; subst hx)) <;>
    refine ⟨g, hg, ?_⟩ <;>
    simp [caught, exec, construct, destroy, Expected.read, assign, moveOut, assignMove, assignCopy, begin_, end_, abandon, hasValue, hasError, dtor, ctorVal, ctorErr, copyCtor, copyAssign, clear, emplace, value, valueOr, rd, wr, mrep, hi, rep, map_update, Ty.plain] <;> upd
  | takeValueOr i v =>
    rcases hi : y i with _ | s | s <;> simp [Spec.step, Spec.offers, Spec.effect, Spec.Safe, hi, Ty.plain] at hs hsafe <;>
    (first | (obtain ⟨rfl, rfl⟩ := hs) | (obtain ⟨hx, rfl, rfl⟩ := hs; subst hx)) <;>
    refine ⟨g, hg, ?_⟩ <;>
    simp [caught, exec, construct, destroy, Expected.read, assign, moveOut, assignMove, assignCopy, begin_, end_, abandon, hasValue, hasError, dtor, ctorVal, ctorErr, copyCtor, copyAssign, clear, emplace, value, valueOr, rd, wr, mrep, hi, rep, map_update, Ty.plain] <;> upd
  | error i =>
    rcases hi : y i with _ | s | s <;> simp [Spec.step, Spec.offers, Spec.effect, Spec.Safe, hi, Ty.plain] at hs hsafe <;>
    (first | (obtain ⟨rfl, rfl⟩ := hs) | (obtain ⟨hx, rfl, rfl⟩ := hs; subst hx)) <;>
    refine ⟨g, hg, ?_⟩ <;>
    simp [caught, exec, construct, destroy, Expected.read, assign, moveOut, assignMove, assignCopy, begin_, end_, abandon, hasValue, hasError, dtor, ctorVal, ctorErr, copyCtor, copyAssign, clear, emplace, value, valueOr, rd, wr, mrep, hi, rep, map_update, Ty.plain] <;> upd
  | setError i e =>
    rcases hi : y i with _ | s | s <;> simp [Spec.step, Spec.offers, Spec.effect, Spec.Safe, hi, Ty.plain] at hs hsafe <;>
    (first | (obtain ⟨rfl, rfl⟩ := hs) | (obtain ⟨hx, rfl, rfl⟩ := hs; subst hx)) <;>
    refine ⟨g, hg, ?_⟩ <;>
    simp [caught, exec, construct, destroy, Expected.read, assign, moveOut, assignMove, assignCopy, begin_, end_, abandon, hasValue, hasError, dtor, ctorVal, ctorErr, copyCtor, copyAssign, clear, emplace, value, valueOr, rd, wr, mrep, hi, rep, map_update, Ty.plain] <;> upd
  | takeError i =>
    rcases hi : y i with _ | s | s <;> simp [Spec.step, Spec.offers, Spec.effect, Spec.Safe, hi, Ty.plain] at hs hsafe <;>
    (first | (obtain ⟨rfl, rfl⟩ := hs) | (obtain ⟨hx, rfl, rfl⟩ := hs; subst hx)) <;>
    refine ⟨g, hg, ?_⟩ <;>
    simp [caught, exec, construct, destroy, Expected.read, assign, moveOut, assignMove, assignCopy, begin_, end_, abandon, hasValue, hasError, dtor, ctorVal, ctorErr, copyCtor, copyAssign, clear, emplace, value, valueOr, rd, wr, mrep, hi, rep, map_update, Ty.plain] <;> upd
  | dtor i =>
    rcases hi : y i with _ | s | s <;> simp [Spec.step, Spec.offers, Spec.effect, Spec.Safe, hi] at hs hsafe <;>
    obtain ⟨rfl, rfl⟩ := hs <;>
    refine ⟨_, ?_, by simp [caught, exec, construct, destroy, Expected.read, assign, moveOut, assignMove, assignCopy, begin_, end_, abandon, hasValue, hasError, dtor, ctorVal, ctorErr, copyCtor, copyAssign, clear, emplace, value, valueOr, rd, wr, mrep, hi, rep, map_update, Ty.plain]; rfl⟩ <;> simp <;> exact hg
  | moveCtor i j =>
    by_cases hij : i = j
    · subst hij
      rcases hi : y i with _ | s | s <;> simp [Spec.step, Spec.offers, Spec.effect, Spec.Safe, hi, Ty.plain, Spec.selfMoved] at hs hsafe <;>
      (first | (obtain ⟨rfl, rfl⟩ := hs) | (obtain ⟨hx, rfl, rfl⟩ := hs; subst hx)) <;>
      refine ⟨g, hg, ?_⟩ <;>
      simp [caught, exec, construct, destroy, Expected.read, assign, moveOut, assignMove, assignCopy, begin_, end_, abandon, hasValue, hasError, dtor, ctorVal, ctorErr, copyCtor, copyAssign, clear, emplace, value, valueOr, rd, wr, mrep, hi, rep, map_update, Ty.plain] <;> upd
    · have hji : j ≠ i := fun h => hij h.symm
      rcases hi : y i with _ | s | s <;> rcases hj : y j with _ | t | t <;>
      simp [Spec.step, Spec.offers, Spec.effect, Spec.Safe, hi, hj, hij, Ty.plain, Spec.moved] at hs hsafe <;>
      (first | (obtain ⟨rfl, rfl⟩ := hs) | (obtain ⟨hx, rfl, rfl⟩ := hs; subst hx)) <;>
      first
      | refine ⟨g, hg, ?_⟩
        simp [caught, exec, construct, destroy, Expected.read, assign, moveOut, assignMove, assignCopy, begin_, end_, abandon, hasValue, hasError, dtor, ctorVal, ctorErr, copyCtor, copyAssign, clear, emplace, value, valueOr, rd, wr, mrep, hi, rep, map_update, Ty.plain, hj, hij, hji, Function.update_of_ne] <;> upd
      | refine ⟨⟨none, true⟩ :: g, by simpa using hg, ?_⟩
        simp [caught, exec, construct, destroy, Expected.read, assign, moveOut, assignMove, assignCopy, begin_, end_, abandon, hasValue, hasError, dtor, ctorVal, ctorErr, copyCtor, copyAssign, clear, emplace, value, valueOr, rd, wr, mrep, hi, rep, map_update, Ty.plain, hj, hij, hji, Function.update_of_ne] <;> upd
  | moveAssign i j =>
    by_cases hij : i = j
    · subst hij
      rcases hi : y i with _ | s | s <;> simp [Spec.step, Spec.offers, Spec.effect, Spec.Safe, hi, Ty.plain, Spec.selfMoved] at hs hsafe <;>
      (first | (obtain ⟨rfl, rfl⟩ := hs) | (obtain ⟨hx, rfl, rfl⟩ := hs; subst hx)) <;>
      refine ⟨g, hg, ?_⟩ <;>
      simp [caught, exec, construct, destroy, Expected.read, assign, moveOut, assignMove, assignCopy, begin_, end_, abandon, hasValue, hasError, dtor, ctorVal, ctorErr, copyCtor, copyAssign, clear, emplace, value, valueOr, rd, wr, mrep, hi, rep, map_update, Ty.plain] <;> upd
    · have hji : j ≠ i := fun h => hij h.symm
      rcases hi : y i with _ | s | s <;> rcases hj : y j with _ | t | t <;>
      simp [Spec.step, Spec.offers, Spec.effect, Spec.Safe, hi, hj, hij, Ty.plain, Spec.moved] at hs hsafe <;>
      (first | (obtain ⟨rfl, rfl⟩ := hs) | (obtain ⟨hx, rfl, rfl⟩ := hs; subst hx)) <;>
      first
      | refine ⟨g, hg, ?_⟩
        simp [caught, exec, construct, destroy, Expected.read, assign, moveOut, assignMove, assignCopy, begin_, end_, abandon, hasValue, hasError, dtor, ctorVal, ctorErr, copyCtor, copyAssign, clear, emplace, value, valueOr, rd, wr, mrep, hi, rep, map_update, Ty.plain, hj, hij, hji, Function.update_of_ne] <;> upd
      | refine ⟨⟨none, true⟩ :: g, by simpa using hg, ?_⟩
        simp [caught, exec, construct, destroy, Expected.read, assign, moveOut, assignMove, assignCopy, begin_, end_, abandon, hasValue, hasError, dtor, ctorVal, ctorErr, copyCtor, copyAssign, clear, emplace, value, valueOr, rd, wr, mrep, hi, rep, map_update, Ty.plain, hj, hij, hji, Function.update_of_ne] <;> upd
  | copyCtor i j throws =>
    by_cases hij : i = j
    · subst hij
      cases throws <;> rcases hi : y i with _ | s | s <;> simp [Spec.step, Spec.offers, Spec.effect, Spec.Safe, hi, Ty.plain, Spec.selfMoved] at hs hsafe <;>
      (first | (obtain ⟨rfl, rfl⟩ := hs) | (obtain ⟨hx, rfl, rfl⟩ := hs; subst hx)) <;>
      refine ⟨g, hg, ?_⟩ <;>
      simp [caught, exec, construct, destroy, Expected.read, assign, moveOut, assignMove, assignCopy, begin_, end_, abandon, hasValue, hasError, dtor, ctorVal, ctorErr, copyCtor, copyAssign, clear, emplace, value, valueOr, rd, wr, mrep, hi, rep, map_update, Ty.plain] <;> upd
    · have hji : j ≠ i := fun h => hij h.symm
      cases throws <;> rcases hi : y i with _ | s | s <;> rcases hj : y j with _ | t | t <;>
      simp [Spec.step, Spec.offers, Spec.effect, Spec.Safe, hi, hj, hij, Ty.plain, Spec.moved] at hs hsafe <;>
      (first | (obtain ⟨rfl, rfl⟩ := hs) | (obtain ⟨hx, rfl, rfl⟩ := hs; subst hx)) <;>
      first
      | refine ⟨g, hg, ?_⟩
        simp [caught, exec, construct, destroy, Expected.read, assign, moveOut, assignMove, assignCopy, begin_, end_, abandon, hasValue, hasError, dtor, ctorVal, ctorErr, copyCtor, copyAssign, clear, emplace, value, valueOr, rd, wr, mrep, hi, rep, map_update, Ty.plain, hj, hij, hji, Function.update_of_ne] <;> upd
      | refine ⟨⟨none, true⟩ :: g, by simpa using hg, ?_⟩
        simp [caught, exec, construct, destroy, Expected.read, assign, moveOut, assignMove, assignCopy, begin_, end_, abandon, hasValue, hasError, dtor, ctorVal, ctorErr, copyCtor, copyAssign, clear, emplace, value, valueOr, rd, wr, mrep, hi, rep, map_update, Ty.plain, hj, hij, hji, Function.update_of_ne] <;> upd
  | copyAssign i j throws =>
    by_cases hij : i = j
    · subst hij
      cases throws <;> rcases hi : y i with _ | s | s <;> simp [Spec.step, Spec.offers, Spec.effect, Spec.Safe, hi, Ty.plain, Spec.selfMoved] at hs hsafe <;>
      (first | (obtain ⟨rfl, rfl⟩ := hs) | (obtain ⟨hx, rfl, rfl⟩ := hs; subst hx)) <;>
      refine ⟨g, hg, ?_⟩ <;>
      simp [caught, exec, construct, destroy, Expected.read, assign, moveOut, assignMove, assignCopy, begin_, end_, abandon, hasValue, hasError, dtor, ctorVal, ctorErr, copyCtor, copyAssign, clear, emplace, value, valueOr, rd, wr, mrep, hi, rep, map_update, Ty.plain] <;> upd
    · have hji : j ≠ i := fun h => hij h.symm
      cases throws <;> rcases hi : y i with _ | s | s <;> rcases hj : y j with _ | t | t <;>
      simp [Spec.step, Spec.offers, Spec.effect, Spec.Safe, hi, hj, hij, Ty.plain, Spec.moved] at hs hsafe <;>
      (first | (obtain ⟨rfl, rfl⟩ := hs) | (obtain ⟨hx, rfl, rfl⟩ := hs; subst hx)) <;>
      first
      | refine ⟨g, hg, ?_⟩
        simp [caught, exec, construct, destroy, Expected.read, assign, moveOut, assignMove, assignCopy, begin_, end_, abandon, hasValue, hasError, dtor, ctorVal, ctorErr, copyCtor, copyAssign, clear, emplace, value, valueOr, rd, wr, mrep, hi, rep, map_update, Ty.plain, hj, hij, hji, Function.update_of_ne] <;> upd
      | refine ⟨⟨none, true⟩ :: g, by simpa using hg, ?_⟩
        simp [caught, exec, construct, destroy, Expected.read, assign, moveOut, assignMove, assignCopy, begin_, end_, abandon, hasValue, hasError, dtor, ctorVal, ctorErr, copyCtor, copyAssign, clear, emplace, value, valueOr, rd, wr, mrep, hi, rep, map_update, Ty.plain, hj, hij, hji, Function.update_of_ne] <;> upd

theorem VV.step_refines (op : Op Unit Unit) (y y' : Spec.Sys Unit Unit) (r : Reply Unit Unit)
    (g : List VV.Obj) (hg : ∀ o ∈ g, True) (hsafe : Spec.Safe .vv op y)
    (hs : Spec.step (Ty.plain ()) (Ty.plain ()) .vv op y = some (r, y')) :
    ∃ g', (∀ o ∈ g', True) ∧
      caught (VV.exec op) (mrep VV.rep y g) = some (r, mrep VV.rep y' g') := by
  cases op with
  | ctorDefault i =>
    rcases hi : y i with _ | s | s <;> simp [Spec.step, Spec.offers, Spec.effect, Spec.Safe, hi, Ty.plain] at hs hsafe <;>
    (first | (obtain ⟨rfl, rfl⟩ := hs) | (obtain ⟨hx, rfl, rfl⟩ := hs; subst hx)) <;>
    refine ⟨g, hg, ?_⟩ <;>
    simp [caught, exec, construct, destroy, Expected.read, assign, moveOut, assignMove, assignCopy, begin_, end_, abandon, hasValue, hasError, dtor, ctorDefault, ctorErr, copyCtor, copyAssign, clear, emplace, rd, wr, mrep, hi, rep, map_update, Ty.plain] <;> upd
  | ctorVal i v =>
    rcases hi : y i with _ | s | s <;> simp [Spec.step, Spec.offers, Spec.effect, Spec.Safe, hi, Ty.plain] at hs hsafe <;>
    (first | (obtain ⟨rfl, rfl⟩ := hs) | (obtain ⟨hx, rfl, rfl⟩ := hs; subst hx)) <;>
    refine ⟨g, hg, ?_⟩ <;>
    simp [caught, exec, construct, destroy, Expected.read, assign, moveOut, assignMove, assignCopy, begin_, end_, abandon, hasValue, hasError, dtor, ctorDefault, ctorErr, copyCtor, copyAssign, clear, emplace, rd, wr, mrep, hi, rep, map_update, Ty.plain] <;> upd
  | ctorErr i e =>
    rcases hi : y i with _ | s | s <;> simp [Spec.step, Spec.offers, Spec.effect, Spec.Safe, hi, Ty.plain] at hs hsafe <;>
    (first | (obtain ⟨rfl, rfl⟩ := hs) | (obtain ⟨hx, rfl, rfl⟩ := hs; subst hx)) <;>
    refine ⟨g, hg, ?_⟩ <;>
    simp [caught, exec, construct, destroy, Expected.read, assign, moveOut, assignMove, assignCopy, begin_, end_, abandon, hasValue, hasError, dtor, ctorDefault, ctorErr, copyCtor, copyAssign, clear, emplace, rd, wr, mrep, hi, rep, map_update, Ty.plain] <;> upd
  | ctorErrDefault i =>
    rcases hi : y i with _ | s | s <;> simp [Spec.step, Spec.offers, Spec.effect, Spec.Safe, hi, Ty.plain] at hs hsafe <;>
    (first | (obtain ⟨rfl, rfl⟩ := hs) | (obtain ⟨hx, rfl, rfl⟩ := hs; subst hx)) <;>
    refine ⟨g, hg, ?_⟩ <;>
    simp [caught, exec, construct, destroy, Expected.read, assign, moveOut, assignMove, assignCopy, begin_, end_, abandon, hasValue, hasError, dtor, ctorDefault, ctorErr, copyCtor, copyAssign, clear, emplace, rd, wr, mrep, hi, rep, map_update, Ty.plain] <;> upd
  | clear i =>
    rcases hi : y i with _ | s | s <;> simp [Spec.step, Spec.offers, Spec.effect, Spec.Safe, hi, Ty.plain] at hs hsafe <;>
    (first | (obtain ⟨rfl, rfl⟩ := hs) | (obtain ⟨hx, rfl, rfl⟩ := hs; subst hx)) <;>
    refine ⟨g, hg, ?_⟩ <;>
    simp [caught, exec, construct, destroy, Expected.read, assign, moveOut, assignMove, assignCopy, begin_, end_, abandon, hasValue, hasError, dtor, ctorDefault, ctorErr, copyCtor, copyAssign, clear, emplace, rd, wr, mrep, hi, rep, map_update, Ty.plain] <;> upd
  | emplace i v throws =>
    cases throws <;> rcases hi : y i with _ | s | s <;> simp [Spec.step, Spec.offers, Spec.effect, Spec.Safe, hi, Ty.plain] at hs hsafe <;>
    (first | (obtain ⟨rfl, rfl⟩ := hs) | (obtain ⟨hx, rfl, rfl⟩ := hs; subst hx)) <;>
    refine ⟨g, hg, ?_⟩ <;>
    simp [caught, exec, construct, destroy, Expected.read, assign, moveOut, assignMove, assignCopy, begin_, end_, abandon, hasValue, hasError, dtor, ctorDefault, ctorErr, copyCtor, copyAssign, clear, emplace, rd, wr, mrep, hi, rep, map_update, Ty.plain] <;> upd
  | emplaceSelf i =>
    rcases hi : y i with _ | s | s <;> simp [Spec.step, Spec.offers, Spec.effect, Spec.Safe, hi, Ty.plain] at hs hsafe <;>
    (first | (obtain ⟨rfl, rfl⟩ := hs) | (obtain ⟨hx, rfl, rfl⟩ := hs; subst hx)) <;>
    refine ⟨g, hg, ?_⟩ <;>
    simp [caught, exec, construct, destroy, Expected.read, assign, moveOut, assignMove, assignCopy, begin_, end_, abandon, hasValue, hasError, dtor, ctorDefault, ctorErr, copyCtor, copyAssign, clear, emplace, rd, wr, mrep, hi, rep, map_update, Ty.plain] <;> upd
  | hasValue i =>
    rcases hi : y i with _ | s | s <;> simp [Spec.step, Spec.offers, Spec.effect, Spec.Safe, hi, Ty.plain] at hs hsafe <;>
    (first | (obtain ⟨rfl, rfl⟩ := hs) | (obtain ⟨hx, rfl, rfl⟩ := hs; subst hx)) <;>
    refine ⟨g, hg, ?_⟩ <;>
    simp [caught, exec, construct, destroy, Expected.read, assign, moveOut, assignMove, assignCopy, begin_, end_, abandon, hasValue, hasError, dtor, ctorDefault, ctorErr, copyCtor, copyAssign, clear, emplace, rd, wr, mrep, hi, rep, map_update, Ty.plain] <;> upd
  | hasError i =>
    rcases hi : y i with _ | s | s <;> simp [Spec.step, Spec.offers, Spec.effect, Spec.Safe, hi, Ty.plain] at hs hsafe <;>
    (first | (obtain ⟨rfl, rfl⟩ := hs) | (obtain ⟨hx, rfl, rfl⟩ := hs; subst hx)) <;>
    refine ⟨g, hg, ?_⟩ <;>
    simp [caught, exec, construct, destroy, Expected.read, assign, moveOut, assignMove, assignCopy, begin_, end_, abandon, hasValue, hasError, dtor, ctorDefault, ctorErr, copyCtor, copyAssign, clear, emplace, rd, wr, mrep, hi, rep, map_update, Ty.plain] <;> upd
  | value i =>
    rcases hi : y i with _ | s | s <;> simp [Spec.step, Spec.offers, Spec.effect, Spec.Safe, hi, Ty.plain] at hs hsafe <;>
    (first | (obtain ⟨rfl, rfl⟩ := hs) | (obtain ⟨hx, rfl, rfl⟩ := hs; subst hx)) <;>
    refine ⟨g, hg, ?_⟩ <;>
    simp [caught, exec, construct, destroy, Expected.read, assign, moveOut, assignMove, assignCopy, begin_, end_, abandon, hasValue, hasError, dtor, ctorDefault, ctorErr, copyCtor, copyAssign, clear, emplace, rd, wr, mrep, hi, rep, map_update, Ty.plain] <;> upd
  | setValue i v =>
    rcases hi : y i with _ | s | s <;> simp [Spec.step, Spec.offers, Spec.effect, Spec.Safe, hi, Ty.plain] at hs hsafe <;>
    (first | (obtain ⟨rfl, rfl⟩ := hs) | (obtain ⟨hx, rfl, rfl⟩ := hs; subst hx)) <;>
    refine ⟨g, hg, ?_⟩ <;>
    simp [caught, exec, construct, destroy, Expected.read, assign, moveOut, assignMove, assignCopy, begin_, end_, abandon, hasValue, hasError, dtor, ctorDefault, ctorErr, copyCtor, copyAssign, clear, emplace, rd, wr, mrep, hi, rep, map_update, Ty.plain] <;> upd
  | takeValue i =>
    rcases hi : y i with _ | s | s <;> simp [Spec.step, Spec.offers, Spec.effect, Spec.Safe, hi, Ty.plain] at hs hsafe <;>
    (first | (obtain ⟨rfl, rfl⟩ := hs) | (obtain ⟨hx, rfl, rfl⟩ := hs; subst hx)) <;>
    refine ⟨g, hg, ?_⟩ <;>
    simp [caught, exec, construct, destroy, Expected.read, assign, moveOut, assignMove, assignCopy, begin_, end_, abandon, hasValue, hasError, dtor, ctorDefault, ctorErr, copyCtor, copyAssign, clear, emplace, rd, wr, mrep, hi, rep, map_update, Ty.plain] <;> upd
  | valueOr i v =>
    rcases hi : y i with _ | s | s <;> simp [Spec.step, Spec.offers, Spec.effect, Spec.Safe, hi, Ty.plain] at hs hsafe <;>
    (first | (obtain ⟨rfl, rfl⟩ := hs) | (obtain ⟨hx, rfl, rfl⟩ := hs; subst hx)) <;>
    refine ⟨g, hg, ?_⟩ <;>
    simp [caught, exec, construct, destroy, Expected.read, assign, moveOut, assignMove, assignCopy, begin_, end_, abandon, hasValue, hasError, dtor, ctorDefault, ctorErr, copyCtor, copyAssign, clear, emplace, rd, wr, mrep, hi, rep, map_update, Ty.plain] <;> upd
  | takeValueOr i v =>
    rcases hi : y i with _ | s | s <;> simp [Spec.step, Spec.offers, Spec.effect, Spec.Safe, hi, Ty.plain] at hs hsafe <;>
    (first | (obtain ⟨rfl, rfl⟩ := hs) | (obtain ⟨hx, rfl, rfl⟩ := hs; subst hx)) <;>
    refine ⟨g, hg, ?_⟩ <;>
    simp [caught, exec, construct, destroy, Expected.read, assign, moveOut, assignMove, assignCopy, begin_, end_, abandon, hasValue, hasError, dtor, ctorDefault, ctorErr, copyCtor, copyAssign, clear, emplace, rd, wr, mrep, hi, rep, map_update, Ty.plain] <;> upd
  | error i =>
    rcases hi : y i with _ | s | s <;> simp [Spec.step, Spec.offers, Spec.effect, Spec.Safe, hi, Ty.plain] at hs hsafe <;>
    (first | (obtain ⟨rfl, rfl⟩ := hs) | (obtain ⟨hx, rfl, rfl⟩ := hs; subst hx)) <;>
    refine ⟨g, hg, ?_⟩ <;>
    simp [caught, exec, construct, destroy, Expected.read, assign, moveOut, assignMove, assignCopy, begin_, end_, abandon, hasValue, hasError, dtor, ctorDefault, ctorErr, copyCtor, copyAssign, clear, emplace, rd, wr, mrep, hi, rep, map_update, Ty.plain] <;> upd
  | setError i e =>
    rcases hi : y i with _ | s | s <;> simp [Spec.step, Spec.offers, Spec.effect, Spec.Safe, hi, Ty.plain] at hs hsafe <;>
    (first | (obtain ⟨rfl, rfl⟩ := hs) | (obtain ⟨hx, rfl, rfl⟩ := hs; subst hx)) <;>
    refine ⟨g, hg, ?_⟩ <;>
    simp [caught, exec, construct, destroy, Expected.read, assign, moveOut, assignMove, assignCopy, begin_, end_, abandon, hasValue, hasError, dtor, ctorDefault, ctorErr, copyCtor, copyAssign, clear, emplace, rd, wr, mrep, hi, rep, map_update, Ty.plain] <;> upd
  | takeError i =>
    rcases hi : y i with _ | s | s <;> simp [Spec.step, Spec.offers, Spec.effect, Spec.Safe, hi, Ty.plain] at hs hsafe <;>
    (first | (obtain ⟨rfl, rfl⟩ := hs) | (obtain ⟨hx, rfl, rfl⟩ := hs; subst hx)) <;>
    refine ⟨g, hg, ?_⟩ <;>
    simp [caught, exec, construct, destroy, Expected.read, assign, moveOut, assignMove, assignCopy, begin_, end_, abandon, hasValue, hasError, dtor, ctorDefault, ctorErr, copyCtor, copyAssign, clear, emplace, rd, wr, mrep, hi, rep, map_update, Ty.plain] <;> upd
  | dtor i =>
    rcases hi : y i with _ | s | s <;> simp [Spec.step, Spec.offers, Spec.effect, Spec.Safe, hi] at hs hsafe <;>
    obtain ⟨rfl, rfl⟩ := hs <;>
    refine ⟨_, ?_, by simp [caught, exec, construct, destroy, Expected.read, assign, moveOut, assignMove, assignCopy, begin_, end_, abandon, hasValue, hasError, dtor, ctorDefault, ctorErr, copyCtor, copyAssign, clear, emplace, rd, wr, mrep, hi, rep, map_update, Ty.plain]; rfl⟩ <;> simp <;> exact hg
  | moveCtor i j =>
    by_cases hij : i = j
    · subst hij
      rcases hi : y i with _ | s | s <;> simp [Spec.step, Spec.offers, Spec.effect, Spec.Safe, hi, Ty.plain, Spec.selfMoved] at hs hsafe <;>
      (first | (obtain ⟨rfl, rfl⟩ := hs) | (obtain ⟨hx, rfl, rfl⟩ := hs; subst hx)) <;>
      refine ⟨g, hg, ?_⟩ <;>
      simp [caught, exec, construct, destroy, Expected.read, assign, moveOut, assignMove, assignCopy, begin_, end_, abandon, hasValue, hasError, dtor, ctorDefault, ctorErr, copyCtor, copyAssign, clear, emplace, rd, wr, mrep, hi, rep, map_update, Ty.plain] <;> upd
    · have hji : j ≠ i := fun h => hij h.symm
      rcases hi : y i with _ | s | s <;> rcases hj : y j with _ | t | t <;>
      simp [Spec.step, Spec.offers, Spec.effect, Spec.Safe, hi, hj, hij, Ty.plain, Spec.moved] at hs hsafe <;>
      (first | (obtain ⟨rfl, rfl⟩ := hs) | (obtain ⟨hx, rfl, rfl⟩ := hs; subst hx)) <;>
      first
      | refine ⟨g, hg, ?_⟩
        simp [caught, exec, construct, destroy, Expected.read, assign, moveOut, assignMove, assignCopy, begin_, end_, abandon, hasValue, hasError, dtor, ctorDefault, ctorErr, copyCtor, copyAssign, clear, emplace, rd, wr, mrep, hi, rep, map_update, Ty.plain, hj, hij, hji, Function.update_of_ne] <;> upd
      | refine ⟨⟨none, true⟩ :: g, by simpa using hg, ?_⟩
        simp [caught, exec, construct, destroy, Expected.read, assign, moveOut, assignMove, assignCopy, begin_, end_, abandon, hasValue, hasError, dtor, ctorDefault, ctorErr, copyCtor, copyAssign, clear, emplace, rd, wr, mrep, hi, rep, map_update, Ty.plain, hj, hij, hji, Function.update_of_ne] <;> upd
  | moveAssign i j =>
    by_cases hij : i = j
    · subst hij
      rcases hi : y i with _ | s | s <;> simp [Spec.step, Spec.offers, Spec.effect, Spec.Safe, hi, Ty.plain, Spec.selfMoved] at hs hsafe <;>
      (first | (obtain ⟨rfl, rfl⟩ := hs) | (obtain ⟨hx, rfl, rfl⟩ := hs; subst hx)) <;>
      refine ⟨g, hg, ?_⟩ <;>
      simp [caught, exec, construct, destroy, Expected.read, assign, moveOut, assignMove, assignCopy, begin_, end_, abandon, hasValue, hasError, dtor, ctorDefault, ctorErr, copyCtor, copyAssign, clear, emplace, rd, wr, mrep, hi, rep, map_update, Ty.plain] <;> upd
    · have hji : j ≠ i := fun h => hij h.symm
      rcases hi : y i with _ | s | s <;> rcases hj : y j with _ | t | t <;>
      simp [Spec.step, Spec.offers, Spec.effect, Spec.Safe, hi, hj, hij, Ty.plain, Spec.moved] at hs hsafe <;>
      (first | (obtain ⟨rfl, rfl⟩ := hs) | (obtain ⟨hx, rfl, rfl⟩ := hs; subst hx)) <;>
      first
      | refine ⟨g, hg, ?_⟩
        simp [caught, exec, construct, destroy, Expected.read, assign, moveOut, assignMove, assignCopy, begin_, end_, abandon, hasValue, hasError, dtor, ctorDefault, ctorErr, copyCtor, copyAssign, clear, emplace, rd, wr, mrep, hi, rep, map_update, Ty.plain, hj, hij, hji, Function.update_of_ne] <;> upd
      | refine ⟨⟨none, true⟩ :: g, by simpa using hg, ?_⟩
        simp [caught, exec, construct, destroy, Expected.read, assign, moveOut, assignMove, assignCopy, begin_, end_, abandon, hasValue, hasError, dtor, ctorDefault, ctorErr, copyCtor, copyAssign, clear, emplace, rd, wr, mrep, hi, rep, map_update, Ty.plain, hj, hij, hji, Function.update_of_ne] <;> upd
  | copyCtor i j throws =>
    by_cases hij : i = j
    · subst hij
      cases throws <;> rcases hi : y i with _ | s | s <;> simp [Spec.step, Spec.offers, Spec.effect, Spec.Safe, hi, Ty.plain, Spec.selfMoved] at hs hsafe <;>
      (first | (obtain ⟨rfl, rfl⟩ := hs) | (obtain ⟨hx, rfl, rfl⟩ := hs; subst hx)) <;>
      refine ⟨g, hg, ?_⟩ <;>
      simp [caught, exec, construct, destroy, Expected.read, assign, moveOut, assignMove, assignCopy, begin_, end_, abandon, hasValue, hasError, dtor, ctorDefault, ctorErr, copyCtor, copyAssign, clear, emplace, rd, wr, mrep, hi, rep, map_update, Ty.plain] <;> upd
    · have hji : j ≠ i := fun h => hij h.symm
      cases throws <;> rcases hi : y i with _ | s | s <;> rcases hj : y j with _ | t | t <;>
      simp [Spec.step, Spec.offers, Spec.effect, Spec.Safe, hi, hj, hij, Ty.plain, Spec.moved] at hs hsafe <;>
      (first | (obtain ⟨rfl, rfl⟩ := hs) | (obtain ⟨hx, rfl, rfl⟩ := hs; subst hx)) <;>
      first
      | refine ⟨g, hg, ?_⟩
        simp [caught, exec, construct, destroy, Expected.read, assign, moveOut, assignMove, assignCopy, begin_, end_, abandon, hasValue, hasError, dtor, ctorDefault, ctorErr, copyCtor, copyAssign, clear, emplace, rd, wr, mrep, hi, rep, map_update, Ty.plain, hj, hij, hji, Function.update_of_ne] <;> upd
      | refine ⟨⟨none, true⟩ :: g, by simpa using hg, ?_⟩
        simp [caught, exec, construct, destroy, Expected.read, assign, moveOut, assignMove, assignCopy, begin_, end_, abandon, hasValue, hasError, dtor, ctorDefault, ctorErr, copyCtor, copyAssign, clear, emplace, rd, wr, mrep, hi, rep, map_update, Ty.plain, hj, hij, hji, Function.update_of_ne] <;> upd
  | copyAssign i j throws =>
    by_cases hij : i = j
    · subst hij
      cases throws <;> rcases hi : y i with _ | s | s <;> simp [Spec.step, Spec.offers, Spec.effect, Spec.Safe, hi, Ty.plain, Spec.selfMoved] at hs hsafe <;>
      (first | (obtain ⟨rfl, rfl⟩ := hs) | (obtain ⟨hx, rfl, rfl⟩ := hs; subst hx)) <;>
      refine ⟨g, hg, ?_⟩ <;>
      simp [caught, exec, construct, destroy, Expected.read, assign, moveOut, assignMove, assignCopy, begin_, end_, abandon, hasValue, hasError, dtor, ctorDefault, ctorErr, copyCtor, copyAssign, clear, emplace, rd, wr, mrep, hi, rep, map_update, Ty.plain] <;> upd
    · have hji : j ≠ i := fun h => hij h.symm
      cases throws <;> rcases hi : y i with _ | s | s <;> rcases hj : y j with _ | t | t <;>
      simp [Spec.step, Spec.offers, Spec.effect, Spec.Safe, hi, hj, hij, Ty.plain, Spec.moved] at hs hsafe <;>
      (first | (obtain ⟨rfl, rfl⟩ := hs) | (obtain ⟨hx, rfl, rfl⟩ := hs; subst hx)) <;>
      first
      | refine ⟨g, hg, ?_⟩
        simp [caught, exec, construct, destroy, Expected.read, assign, moveOut, assignMove, assignCopy, begin_, end_, abandon, hasValue, hasError, dtor, ctorDefault, ctorErr, copyCtor, copyAssign, clear, emplace, rd, wr, mrep, hi, rep, map_update, Ty.plain, hj, hij, hji, Function.update_of_ne] <;> upd
      | refine ⟨⟨none, true⟩ :: g, by simpa using hg, ?_⟩
        simp [caught, exec, construct, destroy, Expected.read, assign, moveOut, assignMove, assignCopy, begin_, end_, abandon, hasValue, hasError, dtor, ctorDefault, ctorErr, copyCtor, copyAssign, clear, emplace, rd, wr, mrep, hi, rep, map_update, Ty.plain, hj, hij, hji, Function.update_of_ne] <;> upd

end Itlib.Expected
