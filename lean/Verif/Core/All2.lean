import Mathlib.Data.List.Forall2

/-! # Elementwise equality of sequences, by any `operator==` of the elements -/
namespace Itlib
variable {α : Type}

/-- elementwise equal -/
def all2 (eqv : α → α → Bool) : List α → List α → Bool
  | [], [] => true
  | x :: xs, y :: ys => eqv x y && all2 eqv xs ys
  | _, _ => false

theorem all2_iff {eqv : α → α → Bool} : ∀ {xs ys : List α}, all2 eqv xs ys = true ↔ List.Forall₂ (fun x y => eqv x y = true) xs ys
  | [], [] => by simp [all2]
  | [], _ :: _ => by simp [all2]
  | _ :: _, [] => by simp [all2]
  | x :: xs, y :: ys => by simp [all2, all2_iff (xs := xs) (ys := ys)]

theorem all2_length {eqv : α → α → Bool} {xs ys : List α} (h : xs.length ≠ ys.length) : all2 eqv xs ys = false := by
  by_contra hc
  rw [Bool.not_eq_false, all2_iff] at hc
  exact h hc.length_eq

theorem all2_eq [DecidableEq α] : ∀ {xs ys : List α}, all2 (fun x y => decide (x = y)) xs ys = true ↔ xs = ys
  | [], [] => by simp [all2]
  | [], _ :: _ => by simp [all2]
  | _ :: _, [] => by simp [all2]
  | x :: xs, y :: ys => by simp [all2, all2_eq (xs := xs) (ys := ys)]

end Itlib
