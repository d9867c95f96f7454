import Verif.Expected.Lemmas

/-!
# Property C23: expected

The specification is in `Spec.lean`: a program has any number of objects, each absent, holding a value, or holding an
error. A history of calls that violates no precondition must give the specified replies, never reach undefined behaviour
(in particular never construct over, use, assign to or destroy a contained object at the wrong time), and leave in the
storage of every object exactly the content specified. `graves` is the storage of all objects that were destroyed: nothing
may be alive there.
-/
namespace Itlib.Expected
open Itlib

/-- the object alive in the union -/
def TE.Obj.alive {V E : Type} (o : TE.Obj V E) : Option (V ⊕ E) :=
  match o.u with
  | .raw => none
  | .val v => some (.inl v)
  | .err e => some (.inr e)

/-- the object alive in the union, or the one referred to -/
def RE.Obj.alive {E : Type} (o : RE.Obj E) : Option (Nat ⊕ E) :=
  match o.ptr, o.u with
  | some p, none => some (.inl p)
  | none, some e => some (.inr e)
  | _, _ => none

/-- what the object holds -/
def VE.Obj.alive {E : Type} (o : VE.Obj E) : Option (Unit ⊕ E) :=
  match o.has, o.u with
  | true, none => some (.inl ())
  | false, some e => some (.inr e)
  | _, _ => none

/-- what the object holds -/
def TV.Obj.alive {V : Type} (o : TV.Obj V) : Option (V ⊕ Unit) :=
  match o.has, o.u with
  | true, some v => some (.inl v)
  | false, none => some (.inr ())
  | _, _ => none

/-- what the object holds -/
def RV.Obj.alive (o : RV.Obj) : Option (Nat ⊕ Unit) :=
  match o.ptr with
  | some p => some (.inl p)
  | none => some (.inr ())

/-- what the object holds -/
def VV.Obj.alive (o : VV.Obj) : Option (Unit ⊕ Unit) :=
  if o.has then some (.inl ()) else some (.inr ())

/-- Classes without excluded calls. -/
theorem SafeRun_all {V E : Type} {tv : Ty V} {te : Ty E} {k : Kind} (hk : k ≠ .ve) (hk' : k ≠ .tv) :
    ∀ (ops : List (Op V E)) (y y' : Spec.Sys V E) (rs : List (Reply V E)),
      Spec.run tv te k ops y = some (rs, y') → Spec.SafeRun tv te k ops y := by
  intro ops
  induction ops with
  | nil => intros; trivial
  | cons op ops ih =>
    intro y y' rs h
    cases h1 : Spec.step tv te k op y with
    | none => simp [Spec.run, h1] at h
    | some p =>
      obtain ⟨r, y1⟩ := p
      cases h2 : Spec.run tv te k ops y1 with
      | none => simp [Spec.run, h1, h2] at h
      | some q =>
        refine ⟨?_, ?_⟩
        · have ho : Spec.offers k op = true := by
            by_contra hc
            simp [Spec.step, hc] at h1
          cases op <;> cases k <;> simp_all [Spec.Safe, Spec.offers]
        · intro r' y1' e
          obtain ⟨rfl, rfl⟩ : r = r' ∧ y1 = y1' := by simpa [h1] using e
          exact ih _ _ _ h2

theorem TE.alive_rep {V E : Type} (y : Spec.Sys V E) (g : List (TE.Obj V E)) (i : Nat) :
    ((mrep TE.rep y g).obj i).map TE.Obj.alive = (y i).map some := by
  rcases h : y i with _ | s | s <;> simp [mrep, h, TE.rep, TE.Obj.alive]

/-- `expected<T, E>`: for all types of values and errors. -/
theorem C23_expected_value_error {V E : Type} (tv : Ty V) (te : Ty E) (ops : List (Op V E)) (rs : List (Reply V E)) (y : Spec.Sys V E)
    (hrun : Spec.run tv te .te ops (fun _ => none) = some (rs, y)) :
    ∃ s, runOf (TE.exec tv te) ops Store.init = some (rs, s) ∧
      (∀ i, (s.obj i).map TE.Obj.alive = (y i).map some) ∧
      (∀ o ∈ s.graves, o.u = .raw) := by
  have hsafe : Spec.SafeRun tv te .te ops fun _ => none := SafeRun_all (by simp) (by simp) ops _ _ _ hrun
  obtain ⟨g, hg, e⟩ := runOf_refines (rep := TE.rep) (dead := fun o => o.u = .raw) (TE.step_refines tv te) ops (fun _ => none) y rs []
    (by simp) hsafe hrun
  exact ⟨_, e, TE.alive_rep y g, hg⟩

example : ∃ ops rs y, Spec.run (⟨fun _ => 0, id, id, 7⟩ : Ty Nat) (⟨fun _ => 0, id, id, 7⟩ : Ty Nat) .te ops (fun _ => none) = some (rs, y) ∧
    rs = [.done, .done, .done, .done, .val 5, .done, .val 0, .done, .bool true] := by
  refine ⟨[.ctorVal 0 5, .ctorErr 1 6, .moveCtor 2 0, .moveAssign 1 2, .value 1, .moveAssign 2 2, .valueOr 2 8, .dtor 0, .hasValue 1], _, _, rfl, rfl⟩

theorem RE.alive_rep {E : Type} (y : Spec.Sys Nat E) (g : List (RE.Obj E)) (i : Nat) :
    ((mrep RE.rep y g).obj i).map RE.Obj.alive = (y i).map some := by
  rcases h : y i with _ | s | s <;> simp [mrep, h, RE.rep, RE.Obj.alive]

/-- `expected<T&, E>` -/
theorem C23_expected_ref_error {E : Type} (te : Ty E) (ops : List (Op Nat E)) (rs : List (Reply Nat E)) (y : Spec.Sys Nat E)
    (hrun : Spec.run (Ty.plain 0) te .re ops (fun _ => none) = some (rs, y)) :
    ∃ s, runOf (RE.exec te) ops Store.init = some (rs, s) ∧
      (∀ i, (s.obj i).map RE.Obj.alive = (y i).map some) ∧
      (∀ o ∈ s.graves, o.u = none) := by
  have hsafe : Spec.SafeRun (Ty.plain 0) te .re ops fun _ => none := SafeRun_all (by simp) (by simp) ops _ _ _ hrun
  obtain ⟨g, hg, e⟩ := runOf_refines (rep := RE.rep) (dead := fun o => o.u = none) (RE.step_refines te) ops (fun _ => none) y rs []
    (by simp) hsafe hrun
  exact ⟨_, e, RE.alive_rep y g, hg⟩

example : ∃ ops rs y, Spec.run (Ty.plain 0) (⟨fun _ => 0, id, id, 7⟩ : Ty Nat) .re ops (fun _ => none) = some (rs, y) ∧
    rs = [.done, .done, .done, .done, .val 5, .err 6, .err 0, .bool true, .done] := by
  refine ⟨[.ctorVal 0 5, .ctorErr 1 6, .moveCtor 2 0, .moveAssign 0 1, .value 2, .error 0, .error 1, .hasError 0, .dtor 0], _, _, rfl, rfl⟩

theorem VE.alive_rep {E : Type} (y : Spec.Sys Unit E) (g : List (VE.Obj E)) (i : Nat) :
    ((mrep VE.rep y g).obj i).map VE.Obj.alive = (y i).map some := by
  rcases h : y i with _ | s | s <;> simp [mrep, h, VE.rep, VE.Obj.alive]

/-- `expected<void, E>`; missing: move assignment between two objects that both hold a value, which is undefined
behaviour (`C23_expected_void_move_assign_defect`). With `Spec.SafeRun` dropped this would be the full property. -/
theorem C23_expected_void_error_partial {E : Type} (te : Ty E) (ops : List (Op Unit E)) (rs : List (Reply Unit E)) (y : Spec.Sys Unit E)
    (hsafe : Spec.SafeRun (Ty.plain ()) te .ve ops fun _ => none)
    (hrun : Spec.run (Ty.plain ()) te .ve ops (fun _ => none) = some (rs, y)) :
    ∃ s, runOf (VE.exec te) ops Store.init = some (rs, s) ∧
      (∀ i, (s.obj i).map VE.Obj.alive = (y i).map some) ∧
      (∀ o ∈ s.graves, o.u = none) := by
  obtain ⟨g, hg, e⟩ := runOf_refines (rep := VE.rep) (dead := fun o => o.u = none) (VE.step_refines te) ops (fun _ => none) y rs []
    (by simp) hsafe hrun
  exact ⟨_, e, VE.alive_rep y g, hg⟩

example : ∃ ops rs y, Spec.SafeRun (Ty.plain ()) (⟨fun _ => 0, id, id, 7⟩ : Ty Nat) .ve ops (fun _ => none) ∧ Spec.run (Ty.plain ()) (⟨fun _ => 0, id, id, 7⟩ : Ty Nat) .ve ops (fun _ => none) = some (rs, y) ∧
    rs = [.done, .done, .done, .done, .err 0, .err 6, .done, .done] := by
  refine ⟨[.ctorDefault 0, .ctorErr 1 6, .moveCtor 2 1, .moveAssign 0 1, .error 0, .error 2, .moveAssign 2 2, .dtor 2], _, _, ?_, rfl, rfl⟩
  simp [Spec.SafeRun, Spec.Safe, Spec.step, Spec.offers, Spec.effect, Spec.moved, Spec.selfMoved, Ty.plain]

theorem TV.alive_rep {V : Type} (y : Spec.Sys V Unit) (g : List (TV.Obj V)) (i : Nat) :
    ((mrep TV.rep y g).obj i).map TV.Obj.alive = (y i).map some := by
  rcases h : y i with _ | s | s <;> simp [mrep, h, TV.rep, TV.Obj.alive]

/-- `expected<T, void>`; missing: a copy assignment whose copy construction throws, and `x.emplace(*x)`
(`C23_expected_copy_assign_defect`, `C23_expected_emplace_self_defect`). With `Spec.SafeRun` dropped this would be the full property. -/
theorem C23_expected_value_void_partial {V : Type} (tv : Ty V) (ops : List (Op V Unit)) (rs : List (Reply V Unit)) (y : Spec.Sys V Unit)
    (hsafe : Spec.SafeRun tv (Ty.plain ()) .tv ops fun _ => none)
    (hrun : Spec.run tv (Ty.plain ()) .tv ops (fun _ => none) = some (rs, y)) :
    ∃ s, runOf (TV.exec tv) ops Store.init = some (rs, s) ∧
      (∀ i, (s.obj i).map TV.Obj.alive = (y i).map some) ∧
      (∀ o ∈ s.graves, o.u = none) := by
  obtain ⟨g, hg, e⟩ := runOf_refines (rep := TV.rep) (dead := fun o => o.u = none) (TV.step_refines tv) ops (fun _ => none) y rs []
    (by simp) hsafe hrun
  exact ⟨_, e, TV.alive_rep y g, hg⟩

example : ∃ ops rs y, Spec.SafeRun (⟨fun _ => 0, id, id, 7⟩ : Ty Nat) (Ty.plain ()) .tv ops (fun _ => none) ∧ Spec.run (⟨fun _ => 0, id, id, 7⟩ : Ty Nat) (Ty.plain ()) .tv ops (fun _ => none) = some (rs, y) ∧
    rs = [.done, .done, .exc, .done, .done, .exc, .bool false, .val 5, .done, .done] := by
  refine ⟨[.ctorVal 0 5, .ctorErrDefault 1, .copyCtor 2 0 true, .copyCtor 2 0 false, .copyAssign 1 2 false, .emplace 0 9 true, .hasValue 0, .value 1, .clear 1, .dtor 1], _, _, ?_, rfl, rfl⟩
  simp [Spec.SafeRun, Spec.Safe, Spec.step, Spec.offers, Spec.effect, Spec.moved, Spec.selfMoved, Ty.plain]

theorem RV.alive_rep  (y : Spec.Sys Nat Unit) (g : List (RV.Obj)) (i : Nat) :
    ((mrep RV.rep y g).obj i).map RV.Obj.alive = (y i).map some := by
  rcases h : y i with _ | s | s <;> simp [mrep, h, RV.rep, RV.Obj.alive]

/-- `expected<T&, void>` -/
theorem C23_expected_ref_void (ops : List (Op Nat Unit)) (rs : List (Reply Nat Unit)) (y : Spec.Sys Nat Unit)
    (hrun : Spec.run (Ty.plain 0) (Ty.plain ()) .rv ops (fun _ => none) = some (rs, y)) :
    ∃ s, runOf (RV.exec) ops Store.init = some (rs, s) ∧
      (∀ i, (s.obj i).map RV.Obj.alive = (y i).map some) := by
  have hsafe : Spec.SafeRun (Ty.plain 0) (Ty.plain ()) .rv ops fun _ => none := SafeRun_all (by simp) (by simp) ops _ _ _ hrun
  obtain ⟨g, hg, e⟩ := runOf_refines (rep := RV.rep) (dead := fun o => True) (RV.step_refines) ops (fun _ => none) y rs []
    (by simp) hsafe hrun
  exact ⟨_, e, RV.alive_rep y g⟩

example : ∃ ops rs y, Spec.run (Ty.plain 0) (Ty.plain ()) .rv ops (fun _ => none) = some (rs, y) ∧
    rs = [.done, .done, .done, .val 5, .val 5, .done, .done, .val 4] := by
  refine ⟨[.ctorVal 0 5, .ctorErrDefault 1, .moveAssign 1 0, .value 0, .value 1, .emplace 0 6 false, .clear 1, .valueOr 1 4], _, _, rfl, rfl⟩

theorem VV.alive_rep  (y : Spec.Sys Unit Unit) (g : List (VV.Obj)) (i : Nat) :
    ((mrep VV.rep y g).obj i).map VV.Obj.alive = (y i).map some := by
  rcases h : y i with _ | s | s <;> simp [mrep, h, VV.rep, VV.Obj.alive]

/-- `expected<void, void>` -/
theorem C23_expected_void_void (ops : List (Op Unit Unit)) (rs : List (Reply Unit Unit)) (y : Spec.Sys Unit Unit)
    (hrun : Spec.run (Ty.plain ()) (Ty.plain ()) .vv ops (fun _ => none) = some (rs, y)) :
    ∃ s, runOf (VV.exec) ops Store.init = some (rs, s) ∧
      (∀ i, (s.obj i).map VV.Obj.alive = (y i).map some) := by
  have hsafe : Spec.SafeRun (Ty.plain ()) (Ty.plain ()) .vv ops fun _ => none := SafeRun_all (by simp) (by simp) ops _ _ _ hrun
  obtain ⟨g, hg, e⟩ := runOf_refines (rep := VV.rep) (dead := fun o => True) (VV.step_refines) ops (fun _ => none) y rs []
    (by simp) hsafe hrun
  exact ⟨_, e, VV.alive_rep y g⟩

example : ∃ ops rs y, Spec.run (Ty.plain ()) (Ty.plain ()) .vv ops (fun _ => none) = some (rs, y) ∧
    rs = [.done, .done, .done, .done, .bool false, .bool false] := by
  refine ⟨[.ctorDefault 0, .ctorErrDefault 1, .copyAssign 1 0 false, .clear 0, .hasValue 0, .hasError 1], _, _, rfl, rfl⟩

/-! ## Defects -/

theorem runOf_append {O V E : Type} (exec : Op V E → M (Store O) (Reply V E)) (as bs : List (Op V E)) (s : Store O) :
    runOf exec (as ++ bs) s = (runOf exec as s).bind fun p => (runOf exec bs p.2).map fun q => (p.1 ++ q.1, q.2) := by
  induction as generalizing s with
  | nil => cases h : runOf exec bs s <;> simp [runOf, h]
  | cons a as ih =>
    cases h : caught (exec a) s with
    | none => simp [runOf, h]
    | some p =>
      simp only [List.cons_append, runOf, h, ih, Option.bind_eq_bind, Option.bind_some]
      cases h2 : runOf exec as p.2 with
      | none => simp
      | some q => cases h3 : runOf exec bs q.2 <;> simp [h3]

/-- Whenever two objects of `expected<void, E>` hold a value, move-assigning one to the other (or to itself) is undefined
behaviour: the code assigns the error of one to the error of the other, and neither exists. -/
theorem C23_expected_void_move_assign_defect {E : Type} (te : Ty E) (ops : List (Op Unit E)) (rs : List (Reply Unit E))
    (y : Spec.Sys Unit E) (hsafe : Spec.SafeRun (Ty.plain ()) te .ve ops fun _ => none)
    (hrun : Spec.run (Ty.plain ()) te .ve ops (fun _ => none) = some (rs, y)) (i j : Nat)
    (hi : y i = some (.inl ())) (hj : y j = some (.inl ())) :
    runOf (VE.exec te) (ops ++ [.moveAssign i j]) Store.init = none := by
  obtain ⟨g, hg, e⟩ := runOf_refines (rep := VE.rep) (dead := fun o => o.u = none) (VE.step_refines te) ops
    (fun _ => none) y rs [] (by simp) hsafe hrun
  have e' : runOf (VE.exec te) ops Store.init = some (rs, mrep VE.rep y g) := e
  rw [runOf_append, e']
  by_cases h : i = j
  · subst h
    simp [runOf, caught, VE.exec, VE.moveAssign, VE.hasValue, rd, mrep, hi, VE.rep, assignMove, Expected.read, VE.merr]
  · simp [runOf, caught, VE.exec, VE.moveAssign, VE.hasValue, rd, mrep, hi, hj, VE.rep, assignMove, moveOut, Expected.read,
      VE.merr, h]

example : ∃ rs y, Spec.SafeRun (Ty.plain ()) (⟨fun _ => 0, id, id, 7⟩ : Ty Nat) .ve [.ctorDefault 0, .ctorDefault 1] (fun _ => none) ∧
    Spec.run (Ty.plain ()) (⟨fun _ => 0, id, id, 7⟩ : Ty Nat) .ve [.ctorDefault 0, .ctorDefault 1] (fun _ => none) = some (rs, y) ∧
    y 0 = some (.inl ()) ∧ y 1 = some (.inl ()) := by
  refine ⟨_, _, ?_, rfl, rfl, rfl⟩
  simp [Spec.SafeRun, Spec.Safe]

/-- If copy assignment to an `expected<T, void>` without value throws while copying the value, the object claims to have a
value (it should still be empty) and destroying it is undefined behaviour. -/
theorem C23_expected_copy_assign_defect {V : Type} (tv : Ty V) (ops : List (Op V Unit)) (rs : List (Reply V Unit))
    (y : Spec.Sys V Unit) (hsafe : Spec.SafeRun tv (Ty.plain ()) .tv ops fun _ => none)
    (hrun : Spec.run tv (Ty.plain ()) .tv ops (fun _ => none) = some (rs, y)) (i j : Nat) (v : V)
    (hi : y i = some (.inr ())) (hj : y j = some (.inl v)) :
    (runOf (TV.exec tv) (ops ++ [.copyAssign i j true, .hasValue i]) Store.init).map Prod.fst =
      some (rs ++ [.exc, .bool true]) ∧
    runOf (TV.exec tv) (ops ++ [.copyAssign i j true, .dtor i]) Store.init = none := by
  obtain ⟨g, hg, e⟩ := runOf_refines (rep := TV.rep) (dead := fun o => o.u = none) (TV.step_refines tv) ops
    (fun _ => none) y rs [] (by simp) hsafe hrun
  have e' : runOf (TV.exec tv) ops Store.init = some (rs, mrep TV.rep y g) := e
  have hij : j ≠ i := by rintro rfl; rw [hi] at hj; cases hj
  constructor <;> rw [runOf_append, e'] <;>
    simp [runOf, caught, TV.exec, TV.copyAssign, TV.hasValue, TV.setHas, TV.dtor, destroy, rd, wr, mrep, hi, hj, hij, TV.rep,
      Expected.read, TV.mval, Function.update_of_ne]

example : ∃ rs y, Spec.SafeRun (⟨fun _ => 0, id, id, 7⟩ : Ty Nat) (Ty.plain ()) .tv [.ctorErrDefault 0, .ctorVal 1 5] (fun _ => none) ∧
    Spec.run (⟨fun _ => 0, id, id, 7⟩ : Ty Nat) (Ty.plain ()) .tv [.ctorErrDefault 0, .ctorVal 1 5] (fun _ => none) = some (rs, y) ∧
    y 0 = some (.inr ()) ∧ y 1 = some (.inl 5) := by
  refine ⟨_, _, ?_, rfl, rfl, rfl⟩
  simp [Spec.SafeRun, Spec.Safe]

/-- `x.emplace(*x)` is undefined behaviour whenever `x` holds a value: the value is destroyed before it is used. -/
theorem C23_expected_emplace_self_defect {V : Type} (tv : Ty V) (ops : List (Op V Unit)) (rs : List (Reply V Unit))
    (y : Spec.Sys V Unit) (hsafe : Spec.SafeRun tv (Ty.plain ()) .tv ops fun _ => none)
    (hrun : Spec.run tv (Ty.plain ()) .tv ops (fun _ => none) = some (rs, y)) (i : Nat) (v : V)
    (hi : y i = some (.inl v)) :
    runOf (TV.exec tv) (ops ++ [.emplaceSelf i]) Store.init = none := by
  obtain ⟨g, hg, e⟩ := runOf_refines (rep := TV.rep) (dead := fun o => o.u = none) (TV.step_refines tv) ops
    (fun _ => none) y rs [] (by simp) hsafe hrun
  have e' : runOf (TV.exec tv) ops Store.init = some (rs, mrep TV.rep y g) := e
  rw [runOf_append, e']
  simp [runOf, caught, TV.exec, TV.emplaceSelf, TV.clear, TV.hasValue, TV.setHas, destroy, rd, wr, mrep, hi, TV.rep,
    Expected.read, TV.mval]

example : ∃ rs y, Spec.SafeRun (⟨fun _ => 0, id, id, 7⟩ : Ty Nat) (Ty.plain ()) .tv [.ctorVal 1 5] (fun _ => none) ∧
    Spec.run (⟨fun _ => 0, id, id, 7⟩ : Ty Nat) (Ty.plain ()) .tv [.ctorVal 1 5] (fun _ => none) = some (rs, y) ∧
    y 1 = some (.inl 5) := by
  refine ⟨_, _, ?_, rfl, rfl⟩
  simp [Spec.SafeRun, Spec.Safe]

end Itlib.Expected
