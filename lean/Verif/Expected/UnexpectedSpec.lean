import Verif.Expected.Unexpected

/-!
# Specification of `unexpected`

`unexpected(e)` makes a package with the error `e` has at that time; what `e` is (a temporary, a variable, a constant) makes no
difference, except that `std::move(x)` leaves `x` moved from. The package is used once: moving it into an `expected` or into
another package spends it. Variables that were not given with `std::move` keep their values.
-/
namespace Itlib.Expected
namespace Spec
variable {V E F : Type}

/-- A package that is not spent. `lent`: it was made of a variable without `std::move`, and whether that was const; this has no
effect on anything, only `USafe` looks at it. -/
structure Full (F : Type) where
  err : F
  lent : Option (Nat × Bool)

/-- Variables, packages (`some none`: spent), objects. -/
structure USys (V E F : Type) where
  vars : Nat → Option F
  pkgs : Nat → Option (Option (Full F))
  objs : Sys V E

/-- the program start -/
def USys.init : USys V E F := ⟨fun _ => none, fun _ => none, fun _ => none⟩

variable (tv : Ty V) (te : Ty E) (src : Src F E) (k : Kind)

/-- a package is made of a variable, which stays as it is -/
def lend (p x : Nat) (const : Bool) (y : USys V E F) : Option (UReply V E F × USys V E F) :=
  match y.vars x, y.pkgs p with
  | some f, none => some (.done, { y with pkgs := Function.update y.pkgs p (some (some ⟨f, some (x, const)⟩)) })
  | _, _ => none

/-- one call; `none`: a precondition is violated -/
def ustep : UOp V E F → USys V E F → Option (UReply V E F × USys V E F)
  | .newVar x f, y => match y.vars x with
    | none => some (.done, { y with vars := Function.update y.vars x (some f) })
    | some _ => none
  | .setVar x f, y => match y.vars x with
    | some _ => some (.done, { y with vars := Function.update y.vars x (some f) })
    | none => none
  | .getVar x, y => match y.vars x with
    | some f => some (.var f, y)
    | none => none
  | .endVar x, y => match y.vars x with
    | some _ => some (.done, { y with vars := Function.update y.vars x none })
    | none => none
  | .wrapRvalue p x, y => match y.vars x, y.pkgs p with
    | some f, none => some (.done, { y with
        vars := Function.update y.vars x (some (src.mv f))
        pkgs := Function.update y.pkgs p (some (some ⟨f, none⟩)) })
    | _, _ => none
  | .wrapLvalue p x, y => lend p x false y
  | .wrapConst p x, y => lend p x true y
  | .copyPkg p q, y => match y.pkgs p, y.pkgs q with
    | none, some (some a) => some (.done, { y with pkgs := Function.update y.pkgs p (some (some a)) })
    | _, _ => none
  | .movePkg p q, y => match y.pkgs p, y.pkgs q with
    | none, some (some a) =>
      some (.done, { y with pkgs := Function.update (Function.update y.pkgs q (some none)) p (some (some a)) })
    | _, _ => none
  | .endPkg p, y => match y.pkgs p with
    | some _ => some (.done, { y with pkgs := Function.update y.pkgs p none })
    | none => none
  | .take i p, y => match y.pkgs p with
    | some (some a) => match step tv te k (.ctorErr i (src.conv a.err)) y.objs with
      | some (r, objs) => some (.of r, { y with pkgs := Function.update y.pkgs p (some none), objs := objs })
      | none => none
    | _ => none
  | .call op, y => match step tv te k op y.objs with
    | some (r, objs) => some (.of r, { y with objs := objs })
    | none => none

/-- Replies and final state of a history; `none`: some precondition is violated. -/
def urun : List (UOp V E F) → USys V E F → Option (List (UReply V E F) × USys V E F)
  | [], y => some ([], y)
  | op :: ops, y => do
    let (r, y) ← ustep tv te src k op y
    let (rs, y) ← urun ops y
    some (r :: rs, y)

/-- There is a package made of `x` that is not spent. -/
def Lent (y : USys V E F) (x : Nat) : Prop := ∃ p a c, y.pkgs p = some (some a) ∧ a.lent = some (x, c)

/-- The calls for which the code does what it should; see the `defect` theorems for the others. -/
def USafe (op : UOp V E F) (y : USys V E F) : Prop :=
  match op with
  -- variables of which there are packages are left alone
  | .setVar x _ | .endVar x | .wrapRvalue _ x => ¬ Lent y x
  -- moving from the variable would change nothing
  | .take _ p => ∀ a x, y.pkgs p = some (some a) → a.lent = some (x, false) → src.mvTo a.err = a.err
  | .call op => Safe k op y.objs
  | _ => True

/-- The history is safe throughout. -/
def USafeRun : List (UOp V E F) → USys V E F → Prop
  | [], _ => True
  | op :: ops, y => USafe src k op y ∧ ∀ r y', ustep tv te src k op y = some (r, y') → USafeRun ops y'

end Spec
end Itlib.Expected
