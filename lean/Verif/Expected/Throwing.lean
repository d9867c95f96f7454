import Verif.Expected.Props
import Verif.Expected.ThrowLemmas

/-!
# Property C76: expected with values and errors whose operations throw

A program may have any number of objects, and operations of values and errors may throw in any call. The specification
(`ThrowSpec.lean`) says that a constructor that throws makes no object, that assigning to and moving out of contents keeps
the alternative, and that moving an `expected` whose content throws ends the program. The code must give the specified
replies, never reach undefined behaviour, leave in every object the content specified, and nothing alive where objects were
destroyed or could not be made.
-/
namespace Itlib.Expected
open Itlib

/-- The end of the program, or a store that holds what is specified and nothing else. -/
def Holds {O V E : Type} (alive : O → Option (V ⊕ E)) (dead : O → Prop) : Spec.After V E → Option (Store O) → Prop
  | none, none => True
  | some y, some s => (∀ i, (s.obj i).map alive = (y i).map some) ∧ ∀ o ∈ s.graves, dead o
  | _, _ => False

theorem Left.holds {O V E : Type} {rep : V ⊕ E → O} {alive : O → Option (V ⊕ E)} {dead : O → Prop}
    (hr : ∀ (y : Spec.Sys V E) (g : List O) (i : Nat), ((mrep rep y g).obj i).map alive = (y i).map some)
    {a : Spec.After V E} {s : Option (Store O)} (h : Left rep dead a s) : Holds alive dead a s := by
  cases a <;> cases s <;> simp only [Left] at h <;> simp only [Holds]
  obtain ⟨g, hg, rfl⟩ := h
  exact ⟨hr _ g, hg⟩

/-- Classes without excluded calls. -/
theorem SafeRunT_all {V E : Type} {tv : Ty V} {te : Ty E} {nv : Torn V} {ne : Torn E} {k : Kind} (hk : k = .te ∨ k = .re) :
    ∀ (ops : List (TOp V E)) (y : Spec.Sys V E) (a : Spec.After V E) (rs : List (Reply V E)),
      Spec.runT tv te nv ne k ops y = some (rs, a) → Spec.SafeRunT tv te nv ne k ops y := by
  intro ops
  induction ops with
  | nil => intros; trivial
  | cons op ops ih =>
    intro y a rs h
    cases h1 : Spec.stepT tv te nv ne k op y with
    | none => simp [Spec.runT, h1] at h
    | some p =>
      obtain ⟨r, a1⟩ := p
      refine ⟨?_, ?_⟩
      · have ho : Spec.offersT k op = true := by
          by_contra hc
          simp [Spec.stepT, hc] at h1
        cases op with
        | quiet op => rcases hk with rfl | rfl <;> cases op <;> simp_all [Spec.SafeT, Spec.Safe, Spec.offersT, Spec.offers]
        | moveAssign i j => rcases hk with rfl | rfl <;> simp [Spec.SafeT, Spec.Safe]
        | _ => trivial
      · intro r' y1' e
        rw [h1] at e
        cases e
        cases h2 : Spec.runT tv te nv ne k ops y1' with
        | none => simp [Spec.runT, h1, h2] at h
        | some q => exact ih _ _ _ h2

/-- **C76.** `expected<T, E>`: for all types of values and errors, all histories, and all patterns of exceptions. -/
theorem C76_value_error {V E : Type} (tv : Ty V) (te : Ty E) (nv : Torn V) (ne : Torn E) (ops : List (TOp V E))
    (rs : List (Reply V E)) (a : Spec.After V E) (hrun : Spec.runT tv te nv ne .te ops (fun _ => none) = some (rs, a)) :
    ∃ s, runTOf (TE.execT tv te nv ne) ops Store.init = some (rs, s) ∧ Holds TE.Obj.alive (fun o => o.u = .raw) a s := by
  obtain ⟨s, e, hl⟩ := runTOf_refines (TE.stepT_refines tv te nv ne) ops (fun _ => none) a rs [] (by simp)
    (SafeRunT_all (.inl rfl) ops _ _ _ hrun) hrun
  exact ⟨s, e, hl.holds TE.alive_rep⟩

/-- **C76.** `expected<T&, E>` -/
theorem C76_ref_error {E : Type} (te : Ty E) (nv : Torn Nat) (ne : Torn E) (ops : List (TOp Nat E))
    (rs : List (Reply Nat E)) (a : Spec.After Nat E)
    (hrun : Spec.runT (Ty.plain 0) te nv ne .re ops (fun _ => none) = some (rs, a)) :
    ∃ s, runTOf (RE.execT te ne) ops Store.init = some (rs, s) ∧ Holds RE.Obj.alive (fun o => o.u = none) a s := by
  obtain ⟨s, e, hl⟩ := runTOf_refines (RE.stepT_refines te nv ne) ops (fun _ => none) a rs [] (by simp)
    (SafeRunT_all (.inr rfl) ops _ _ _ hrun) hrun
  exact ⟨s, e, hl.holds RE.alive_rep⟩

/-- **C76, in part.** `expected<void, E>`; missing: move assignment between two values, which is undefined behaviour
(`C23_expected_void_move_assign_defect`). -/
theorem C76_void_error_partial {E : Type} (te : Ty E) (nv : Torn Unit) (ne : Torn E) (ops : List (TOp Unit E))
    (rs : List (Reply Unit E)) (a : Spec.After Unit E) (hsafe : Spec.SafeRunT (Ty.plain ()) te nv ne .ve ops fun _ => none)
    (hrun : Spec.runT (Ty.plain ()) te nv ne .ve ops (fun _ => none) = some (rs, a)) :
    ∃ s, runTOf (VE.execT te ne) ops Store.init = some (rs, s) ∧ Holds VE.Obj.alive (fun o => o.u = none) a s := by
  obtain ⟨s, e, hl⟩ := runTOf_refines (VE.stepT_refines te nv ne) ops (fun _ => none) a rs [] (by simp) hsafe hrun
  exact ⟨s, e, hl.holds VE.alive_rep⟩

/-- **C76, in part.** `expected<T, void>`; missing: a throwing copy assignment to an object without value, and
`x.emplace(*x)` (`C23_expected_copy_assign_defect`, `C23_expected_emplace_self_defect`). -/
theorem C76_value_void_partial {V : Type} (tv : Ty V) (nv : Torn V) (ne : Torn Unit) (ops : List (TOp V Unit))
    (rs : List (Reply V Unit)) (a : Spec.After V Unit) (hsafe : Spec.SafeRunT tv (Ty.plain ()) nv ne .tv ops fun _ => none)
    (hrun : Spec.runT tv (Ty.plain ()) nv ne .tv ops (fun _ => none) = some (rs, a)) :
    ∃ s, runTOf (TV.execT tv nv) ops Store.init = some (rs, s) ∧ Holds TV.Obj.alive (fun o => o.u = none) a s := by
  obtain ⟨s, e, hl⟩ := runTOf_refines (TV.stepT_refines tv nv ne) ops (fun _ => none) a rs [] (by simp) hsafe hrun
  exact ⟨s, e, hl.holds TV.alive_rep⟩

/-- **C76.** What the specification amounts to: after a call in which something throws and that does not end the program,
every object exists that existed before, and no other, each with the alternative that it had. -/
theorem C76_alternatives {V E : Type} (tv : Ty V) (te : Ty E) (nv : Torn V) (ne : Torn E) (k : Kind) (op : TOp V E)
    (y y' : Spec.Sys V E) (hq : ∀ o, op ≠ .quiet o) (h : Spec.stepT tv te nv ne k op y = some (.exc, some y')) (i : Nat) :
    (y' i).map Sum.isLeft = (y i).map Sum.isLeft := by
  by_cases ho : Spec.offersT k op = true
  · simp only [Spec.stepT, ho, if_true] at h
    cases op with
    | quiet o => exact absurd rfl (hq o)
    | moveCtor a b =>
      exfalso
      rcases ha : y a with _ | s <;> rcases hb : y b with _ | t <;> simp only [Spec.effectT, ha, hb, reduceCtorEq] at h
      by_cases hin : Spec.inside k t = true <;> simp [Spec.effect, ha, hb, hin] at h
    | moveAssign a b =>
      exfalso
      rcases ha : y a with _ | s <;> rcases hb : y b with _ | t <;> simp only [Spec.effectT, ha, hb, reduceCtorEq] at h
      by_cases hin : Spec.inside k t = true <;> by_cases hab : a = b <;> simp [Spec.effect, ha, hb, hin, hab] at h
    | _ a =>
      rcases ha : y a with _ | s | s <;> simp [Spec.effectT, ha] at h <;> subst h <;>
      first
      | rfl
      | (by_cases hia : i = a
         · subst hia; simp [ha]
         · rw [Function.update_of_ne hia])
  · simp [Spec.stepT, ho] at h

/-- **C76.** Only moving an `expected` ends the program, and it does if and only if there is an object inside to be moved. -/
theorem C76_ended_iff {V E : Type} (tv : Ty V) (te : Ty E) (nv : Torn V) (ne : Torn E) (k : Kind) (op : TOp V E)
    (y : Spec.Sys V E) (a : Spec.After V E) (r : Reply V E) (h : Spec.stepT tv te nv ne k op y = some (r, a)) :
    a = none ↔ ∃ i j s, (op = .moveCtor i j ∨ op = .moveAssign i j) ∧ y j = some s ∧ Spec.inside k s = true := by
  by_cases ho : Spec.offersT k op = true
  · simp only [Spec.stepT, ho, if_true] at h
    cases op with
    | quiet o =>
      simp only [Spec.effectT, Option.map_eq_some_iff, Prod.mk.injEq] at h
      obtain ⟨p, _, _, rfl⟩ := h
      simp
    | moveCtor i j =>
      rcases hi : y i with _ | s <;> rcases hj : y j with _ | t <;> simp only [Spec.effectT, hi, hj, reduceCtorEq] at h
      by_cases hin : Spec.inside k t = true
      · simp only [hin, if_true, Option.some.injEq, Prod.mk.injEq] at h
        exact ⟨fun _ => ⟨i, j, t, .inl rfl, hj, hin⟩, fun _ => h.2.symm⟩
      · simp only [hin] at h
        obtain ⟨p, _, e⟩ := Option.map_eq_some_iff.1 h
        cases e
        constructor
        · intro e; cases e
        · rintro ⟨i', j', s', e | e, hs, hi'⟩ <;> cases e
          rw [hj] at hs; cases hs; exact absurd hi' hin
    | moveAssign i j =>
      rcases hi : y i with _ | s <;> rcases hj : y j with _ | t <;> simp only [Spec.effectT, hi, hj, reduceCtorEq] at h
      by_cases hin : Spec.inside k t = true
      · simp only [hin, if_true, Option.some.injEq, Prod.mk.injEq] at h
        exact ⟨fun _ => ⟨i, j, t, .inr rfl, hj, hin⟩, fun _ => h.2.symm⟩
      · simp only [hin] at h
        obtain ⟨p, _, e⟩ := Option.map_eq_some_iff.1 h
        cases e
        constructor
        · intro e; cases e
        · rintro ⟨i', j', s', e | e, hs, hi'⟩ <;> cases e
          rw [hj] at hs; cases hs; exact absurd hi' hin
    | _ i =>
      rcases hi : y i with _ | s | s <;> simp [Spec.effectT, hi] at h <;> obtain ⟨_, rfl⟩ := h <;> simp
  · simp [Spec.stepT, ho] at h

theorem runT_append {V E : Type} {tv : Ty V} {te : Ty E} {nv : Torn V} {ne : Torn E} {k : Kind} {bs : List (TOp V E)} :
    ∀ {as : List (TOp V E)} {y y1 : Spec.Sys V E} {a : Spec.After V E} {rs rs' : List (Reply V E)},
      Spec.runT tv te nv ne k as y = some (rs, some y1) → Spec.runT tv te nv ne k bs y1 = some (rs', a) →
      Spec.runT tv te nv ne k (as ++ bs) y = some (rs ++ rs', a) := by
  intro as
  induction as with
  | nil =>
    intro y y1 a rs rs' h1 h2
    simp only [Spec.runT, Option.some.injEq, Prod.mk.injEq] at h1
    obtain ⟨rfl, rfl⟩ := h1
    exact h2
  | cons op as ih =>
    intro y y1 a rs rs' h1 h2
    cases hs : Spec.stepT tv te nv ne k op y with
    | none => simp [Spec.runT, hs] at h1
    | some p =>
      obtain ⟨r, a1⟩ := p
      cases a1 with
      | none => simp [Spec.runT, hs] at h1
      | some y2 =>
        cases hr : Spec.runT tv te nv ne k as y2 with
        | none => simp [Spec.runT, hs, hr] at h1
        | some q =>
          obtain ⟨rs1, a2⟩ := q
          simp [Spec.runT, hs, hr] at h1
          obtain ⟨rfl, rfl⟩ := h1
          simp [Spec.runT, hs, ih hr h2]

/-- **C76, what a user would not expect.** In every state that a program can reach, moving an `expected<T, E>` whose value or
error throws when it is moved ends the program: no caller gets to handle the exception. -/
theorem C76_noexcept_defect {V E : Type} (tv : Ty V) (te : Ty E) (nv : Torn V) (ne : Torn E) (ops : List (TOp V E))
    (rs : List (Reply V E)) (y : Spec.Sys V E) (hrun : Spec.runT tv te nv ne .te ops (fun _ => none) = some (rs, some y))
    (i j : Nat) (s : V ⊕ E) (hj : y j = some s) :
    (y i = none → runTOf (TE.execT tv te nv ne) (ops ++ [.moveCtor i j]) Store.init = some (rs ++ [.exc], none)) ∧
    (y i ≠ none → runTOf (TE.execT tv te nv ne) (ops ++ [.moveAssign i j]) Store.init = some (rs ++ [.exc], none)) := by
  have hin : Spec.inside .te s = true := by cases s <;> simp [Spec.inside]
  constructor
  · intro hi
    have h2 : Spec.runT tv te nv ne .te [.moveCtor i j] y = some ([.exc], none) := by
      simp [Spec.runT, Spec.stepT, Spec.offersT, Spec.effectT, hi, hj, hin]
    obtain ⟨s', e, hl⟩ := C76_value_error tv te nv ne _ _ _ (runT_append hrun h2)
    cases s' with
    | none => exact e
    | some _ => exact hl.elim
  · intro hi
    obtain ⟨t, hi⟩ := Option.ne_none_iff_exists'.1 hi
    have h2 : Spec.runT tv te nv ne .te [.moveAssign i j] y = some ([.exc], none) := by
      simp [Spec.runT, Spec.stepT, Spec.offersT, Spec.effectT, hi, hj, hin]
    obtain ⟨s', e, hl⟩ := C76_value_error tv te nv ne _ _ _ (runT_append hrun h2)
    cases s' with
    | none => exact e
    | some _ => exact hl.elim

/-! ### Concrete programs -/

def demoTy : Ty Nat := ⟨fun _ => 0, id, id, 7⟩
def demoTorn : Torn Nat := ⟨fun n => n + 100, fun n => n + 200⟩

/-- exceptions are survived until an object is moved -/
example : ∃ a, Spec.runT demoTy demoTy demoTorn demoTorn .te
    [.ctorVal 0, .quiet (.ctorVal 0 5), .ctorErr 1, .quiet (.ctorErr 1 6), .setValue 0, .quiet (.value 0), .takeError 1,
      .quiet (.error 1), .valueOr 1, .takeValueOr 0, .quiet (.moveAssign 1 0), .quiet (.value 1), .moveAssign 0 1, .setValue 0]
    (fun _ => none) = some ([.exc, .done, .exc, .done, .exc, .val 205, .exc, .err 106, .exc, .exc, .done, .val 305, .exc], a) ∧
    a = none := ⟨_, rfl, rfl⟩

example : ∃ y, Spec.runT demoTy demoTy demoTorn demoTorn .te [.ctorVal 0, .quiet (.ctorVal 0 5), .setValue 0] (fun _ => none) =
    some ([.exc, .done, .exc], some y) ∧ y 0 = some (.inl 205) ∧ y 1 = none := ⟨_, rfl, rfl, rfl⟩

/-- moving a reference does not throw -/
example : ∃ a, Spec.runT (Ty.plain 0) demoTy demoTorn demoTorn .re
    [.quiet (.ctorVal 0 5), .quiet (.ctorErr 1 6), .moveCtor 2 0, .moveAssign 1 2, .quiet (.value 1), .ctorErr 3, .quiet (.ctorErr 3 8),
      .setError 3, .moveAssign 1 3] (fun _ => none) =
    some ([.done, .done, .done, .done, .val 5, .exc, .done, .exc, .exc], a) ∧ a = none := ⟨_, rfl, rfl⟩

example : ∃ a, Spec.SafeRunT (Ty.plain ()) demoTy ⟨id, id⟩ demoTorn .ve
    [.quiet (.ctorDefault 0), .ctorErr 1, .quiet (.ctorErr 1 6), .takeError 1, .moveAssign 1 0, .moveCtor 2 0] (fun _ => none) ∧
    Spec.runT (Ty.plain ()) demoTy ⟨id, id⟩ demoTorn .ve
    [.quiet (.ctorDefault 0), .ctorErr 1, .quiet (.ctorErr 1 6), .takeError 1, .moveAssign 1 0, .moveCtor 2 0] (fun _ => none) =
    some ([.done, .exc, .done, .exc, .done, .done], a) := by
  refine ⟨_, ?_, rfl⟩
  simp [Spec.SafeRunT, Spec.SafeT, Spec.Safe, Spec.stepT, Spec.offersT, Spec.offers, Spec.effectT, Spec.effect, Spec.inside]

example : ∃ a, Spec.SafeRunT demoTy (Ty.plain ()) demoTorn ⟨id, id⟩ .tv
    [.ctorVal 0, .quiet (.ctorVal 0 5), .quiet (.emplace 0 6 true), .valueOr 0, .quiet (.emplace 0 6 false), .takeValueOr 0,
      .quiet (.ctorErrDefault 1), .moveAssign 0 1] (fun _ => none) ∧
    Spec.runT demoTy (Ty.plain ()) demoTorn ⟨id, id⟩ .tv
    [.ctorVal 0, .quiet (.ctorVal 0 5), .quiet (.emplace 0 6 true), .valueOr 0, .quiet (.emplace 0 6 false), .takeValueOr 0,
      .quiet (.ctorErrDefault 1), .moveAssign 0 1] (fun _ => none) =
    some ([.exc, .done, .exc, .exc, .done, .exc, .done, .done], a) := by
  refine ⟨_, ?_, rfl⟩
  simp [Spec.SafeRunT, Spec.SafeT, Spec.Safe, Spec.stepT, Spec.offersT, Spec.offers, Spec.effectT, Spec.effect, Spec.inside]

end Itlib.Expected
