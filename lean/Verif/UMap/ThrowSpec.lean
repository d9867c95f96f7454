import Verif.UMap.Spec

/-! # Specification of `transparent_umap` with user code that throws -/
namespace Itlib.UMap.Spec
variable {K V Q A : Type}

/-- how a call ends: as it should, for lack of memory, or because user code threw -/
inductive Ending where
  | fine
  | oom
  | thrown
deriving DecidableEq

/-- values made by a call that user code left: at most the one for the new entry, and none if there is an entry already -/
def wasted (L : Lang K V Q A) (y : Sys K V) : Op K V Q A → Nat
  | .tryEmplace q a => if (y.ref (L.key q)).isNone && (L.make a).isSome then 1 else 0
  | .index q => if (y.ref (L.key q)).isNone && L.dflt.isSome then 1 else 0
  | _ => 0

/-- the calls that use user code at all -/
def asks : Op K V Q A → Prop
  | .tryEmplace .. | .index _ | .at _ | .find _ | .erase _ => True
  | _ => False

/-- a call with its ending: one that user code left by an exception did nothing to the map, at most a value was made in vain -/
def Step (L : Lang K V Q A) (y : Sys K V) (op : Op K V Q A) (r : Reply K V) (y' : Sys K V) : Ending → Prop
  | .fine => step L false y op = some (r, y')
  | .oom => step L true y op = some (r, y')
  | .thrown => asks op ∧ r = .exc .user ∧ ∃ n, n ≤ wasted L y op ∧ y' = { y with built := y.built + n }

/-- a history with the endings of its calls -/
inductive Run (L : Lang K V Q A) : List (Op K V Q A) → List Ending → Sys K V → List (Reply K V) → Sys K V → Prop
  | nil (y : Sys K V) : Run L [] [] y [] y
  | cons {op : Op K V Q A} {ops : List (Op K V Q A)} {e : Ending} {es : List Ending} {y y1 y2 : Sys K V} {r : Reply K V}
      {rs : List (Reply K V)} : Step L y op r y1 e → Run L ops es y1 rs y2 → Run L (op :: ops) (e :: es) y (r :: rs) y2

/-- a call that is allowed: a reference that is read or written refers to an entry -/
def allowed (y : Sys K V) : Op K V Q A → Prop
  | .read r | .write r _ => y.key r ≠ none ∧ y.val r ≠ none
  | _ => True

end Itlib.UMap.Spec
