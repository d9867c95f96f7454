import Verif.Flat.Props

/-!
# Insertion of arguments that convert to keys (C15, C16)

`insert(P&&)`, `flat_set::insert(P&&)` and `operator[](K&&)` (flat_map.hpp:285-295, 338-350, flat_set.hpp:253-263) search with the argument as
it is, and make the key from it afterwards. C15 and C16 ask that the argument compares like the key (`ProbeOf`). Here it need not, as with
`flat_map<int, T>::insert(std::make_pair(2.5, t))`.
-/
namespace Itlib.Flat
open Itlib
variable {κ ε : Type}

/-- C15, C16, defect. An argument that is not equivalent to any key but becomes one that is there already is inserted all the same (by
`insert` and by `operator[]`): then two entries have equivalent keys. -/
theorem C15_converting_insert_defect (key : ε → κ) (lt : κ → κ → Bool) (hw : StrictWeak lt) (xs : List ε)
    (h : xs.Pairwise fun a b => lt (key a) (key b) = true) (k : Probe κ) (hk : Consistent lt k) (hno : ∀ a ∈ xs, k.below (key a) = true ∨ k.above (key a) = true)
    (e x : ε) (hx : x ∈ xs) (h1 : lt (key x) (key e) = false) (h2 : lt (key e) (key x) = false) :
    ∃ i ys, insert key none k e ⟨lt, xs⟩ = .ok (i, true) ⟨lt, ys⟩ ∧ index key none k e ⟨lt, xs⟩ = .ok i ⟨lt, ys⟩ ∧ ys.Perm (e :: xs) ∧
      ¬ ys.Pairwise fun a b => lt (key a) (key b) = true := by
  have hh : Spec.has key k xs = false := by
    rw [Bool.eq_false_iff]
    simp only [ne_eq, Spec.has, List.any_eq_true, not_exists, not_and]
    intro a ha hm
    rcases hno a ha with h3 | h3 <;> simp [Spec.Matches, h3] at hm
  refine ⟨Spec.rank key k xs, _, ?_, ?_, perm_insert xs (Spec.rank key k xs) e, ?_⟩
  · rw [insert_run_any (cap := none) (e := e) h hk]; simp [hh]
  · rw [index_run_any (cap := none) (e := e) h hk]; simp [hh]
  · intro hp
    rw [List.pairwise_append, List.pairwise_cons] at hp
    obtain ⟨_, ⟨h4, _⟩, h5⟩ := hp
    rw [← List.take_append_drop (Spec.rank key k xs) xs, List.mem_append] at hx
    rcases hx with hx | hx
    · have := h5 x hx e (by simp)
      rw [h1] at this; simp at this
    · have := h4 x hx
      rw [h2] at this; simp at this

/-- 2.5 among whole numbers -/
def twoAndHalf : Probe Nat := ⟨fun a => decide (a ≤ 2), fun a => decide (3 ≤ a)⟩

example : Consistent (fun a b : Nat => decide (a < b)) twoAndHalf ∧ (∀ a ∈ [1, 2, 4], twoAndHalf.below a = true ∨ twoAndHalf.above a = true) ∧
    2 ∈ [1, 2, 4] := by
  refine ⟨⟨?_, ?_, ?_⟩, by decide, by decide⟩ <;> simp only [twoAndHalf, decide_eq_true_eq, decide_eq_false_iff_not] <;> intros <;> omega

/-- then `erase(2)` leaves a 2 -/
example : (match (do
      let _ ← insert id none twoAndHalf 2
      let _ ← eraseKey id (Probe.ofKey (fun a b => decide (a < b)) 2)
      let n ← count id (Probe.ofKey (fun a b => decide (a < b)) 2)
      pure n : M (Flat Nat Nat) Nat) ⟨fun a b => decide (a < b), [1, 2, 4]⟩ with
    | .ok n s => some (n, s.cs)
    | _ => none) = some (1, [1, 2, 4]) := by decide +kernel

end Itlib.Flat
