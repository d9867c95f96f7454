import Verif.MemOut.Copy

/-! # Specification of copied, moved and assigned `mem_ostreambuf`s: files that do not share anything -/
namespace Itlib.MemOut.Spec
open Itlib
variable {C : Type}

/-- An object of the program. `file` is `none` after the object was moved from. `borrowed`: it was made by copying (or by moving
elements one by one) and neither cleared nor positioned since; only the guard `WSafe` uses it. -/
structure Slot (C : Type) where
  file : Option (File C)
  borrowed : Bool

abbrev Files (C : Type) := Nat → Option (Slot C)

def Files.none : Files C := fun _ => Option.none

variable (K : Container C)

/-- moving a container always takes its allocation -/
def TakesOver (T : Transfer C) : Prop := ∀ c, T.steals c = true

open Classical in
/-- One call; `none`: it breaks a precondition (no such object, already such an object, copying or writing to something moved from,
assigning by moving to itself, seek outside of the data). -/
noncomputable def wcall (T : Transfer C) (op : WOp C) (s : Files C) : Option (Reply C × Files C) :=
  match op with
  | .new i n =>
    if (s i).isSome then none
    else if K.Fits n then some (.unit, Function.update s i (some ⟨some init, false⟩)) else some (.exc, s)
  | .on i op =>
    match s i with
    | some ⟨some y, _⟩ =>
      match call K op y with
      | some (r, y) => some (r, Function.update s i (some ⟨some y, false⟩))
      | none => none
    -- what was moved from can be cleared
    | some ⟨none, _⟩ =>
      match op with
      | .clear => some (.unit, Function.update s i (some ⟨some init, false⟩))
      | _ => none
    | none => none
  | .copy i j =>
    match s i, s j with
    | none, some ⟨some y, _⟩ => some (.unit, Function.update s i (some ⟨some y, true⟩))
    | _, _ => none
  | .move i j =>
    match s i, s j with
    | none, some ⟨some y, b⟩ =>
      some (.unit, Function.update (Function.update s i (some ⟨some y, b || !decide (TakesOver T)⟩)) j (some ⟨none, true⟩))
    | _, _ => none
  | .assign i j =>
    match s i, s j with
    | some _, some ⟨some y, _⟩ => some (.unit, if i = j then s else Function.update s i (some ⟨some y, true⟩))
    | _, _ => none
  | .moveAssign i j =>
    match s i, s j with
    | some _, some ⟨some y, b⟩ =>
      if i = j then none
      else some (.unit, Function.update (Function.update s i (some ⟨some y, b || !decide (TakesOver T)⟩)) j (some ⟨none, true⟩))
    | _, _ => none
  | .destroy i => if (s i).isSome then some (.unit, Function.update s i none) else none

/-- Replies and final state of a history. -/
noncomputable def wrun (T : Transfer C) : List (WOp C) → Files C → Option (List (Reply C) × Files C)
  | [], s => some ([], s)
  | op :: ops, s => do
    let (r, s) ← wcall K T op s
    let (rs, s) ← wrun T ops s
    some (r :: rs, s)

/-- The calls for which the code does what it should: those of `Safe`, and a copy is first cleared or positioned from the
beginning; see the `defect` theorems for the others. -/
def WSafe (op : WOp C) (s : Files C) : Prop :=
  match op with
  | .on i o =>
    match s i with
    | some ⟨some y, b⟩ => Safe K o y ∧ (b = true → o = .clear ∨ ∃ off, o = .seek off .beg)
    | _ => True
  | _ => True

/-- The history is safe throughout. -/
def WSafeRun (T : Transfer C) : List (WOp C) → Files C → Prop
  | [], _ => True
  | op :: ops, s => WSafe K op s ∧ ∀ r s', wcall K T op s = some (r, s') → WSafeRun T ops s'

end Itlib.MemOut.Spec
