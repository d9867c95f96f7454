import Mathlib.Logic.Equiv.Basic
import Mathlib.Data.List.Nodup
import Verif.Core.Tac

/-!
# Counting owners

`Exact g n`: for every block `q ≠ 0`, `n q` is the number of places `p` with `g p = q`.
-/
namespace Itlib

/-- every count is the number of owners -/
def Exact {P : Type} (g : P → Nat) (n : Nat → Nat) : Prop :=
  ∀ q, q ≠ 0 → ∃ l : List P, l.Nodup ∧ (∀ p, p ∈ l ↔ g p = q) ∧ n q = l.length

namespace Exact
variable {P : Type} [DecidableEq P] {g : P → Nat} {n : Nat → Nat}

theorem swap (h : Exact g n) (a b : P) : Exact (fun p => g (Equiv.swap a b p)) n := by
  intro q hq
  obtain ⟨l, h1, h2, h3⟩ := h q hq
  refine ⟨l.map (Equiv.swap a b), h1.map (Equiv.swap a b).injective, ?_, by simpa using h3⟩
  intro p
  rw [← h2, List.mem_map]
  constructor
  · rintro ⟨p', hp, rfl⟩; simpa using hp
  · intro hp; exact ⟨_, hp, by simp⟩

theorem swap' (h : Exact g n) (a b : P) : Exact (Function.update (Function.update g a (g b)) b (g a)) n := by
  have : Function.update (Function.update g a (g b)) b (g a) = fun p => g (Equiv.swap a b p) := by
    funext p
    by_cases h2 : p = b
    · subst h2; simp
    · by_cases h1 : p = a
      · subst h1; simp [h2]
      · simp [h1, h2, Equiv.swap_apply_of_ne_of_ne h1 h2]
  rw [this]
  exact h.swap a b

theorem add (h : Exact g n) {a : P} (ha : g a = 0) {q : Nat} (hq : q ≠ 0) : Exact (Function.update g a q) (Function.update n q (n q + 1)) := by
  intro q' hq'
  obtain ⟨l, h1, h2, h3⟩ := h q' hq'
  have hal : a ∉ l := by rw [h2, ha]; exact fun e => hq' e.symm
  by_cases e : q' = q
  · subst e
    refine ⟨a :: l, List.nodup_cons.mpr ⟨hal, h1⟩, ?_, by simp [h3]⟩
    intro p
    by_cases hp : p = a
    · subst hp; simp
    · simp [hp, h2]
  · refine ⟨l, h1, ?_, by simpa [e] using h3⟩
    intro p
    by_cases hp : p = a
    · subst hp
      simp only [Function.update_self]
      exact ⟨fun h => absurd h hal, fun h => absurd h.symm e⟩
    · simp [hp, h2]

theorem remove (h : Exact g n) {a : P} {q : Nat} (ha : g a = q) (hq : q ≠ 0) :
    Exact (Function.update g a 0) (Function.update n q (n q - 1)) := by
  intro q' hq'
  obtain ⟨l, h1, h2, h3⟩ := h q' hq'
  by_cases e : q' = q
  · subst e
    have hal : a ∈ l := by rw [h2, ha]
    refine ⟨l.erase a, h1.erase a, ?_, ?_⟩
    · intro p
      rw [h1.mem_erase_iff, h2]
      by_cases hp : p = a
      · subst hp; simp; exact fun e => hq' e.symm
      · simp [hp]
    · rw [Function.update_self, List.length_erase_of_mem hal, h3]
  · refine ⟨l, h1, ?_, by simpa [e] using h3⟩
    intro p
    by_cases hp : p = a
    · subst hp
      simp only [Function.update_self, h2, ha]
      exact ⟨fun h => absurd h.symm e, fun h => absurd h.symm hq'⟩
    · simp [hp, h2]

omit [DecidableEq P] in
theorem pos_iff (h : Exact g n) {q : Nat} (hq : q ≠ 0) : 0 < n q ↔ ∃ p, g p = q := by
  obtain ⟨l, -, h2, h3⟩ := h q hq
  rw [h3, List.length_pos_iff_exists_mem]
  exact exists_congr fun p => h2 p

omit [DecidableEq P] in
theorem zero_iff (h : Exact g n) {q : Nat} (hq : q ≠ 0) : n q = 0 ↔ ∀ p, g p ≠ q := by
  have := h.pos_iff hq
  constructor
  · intro h0 p hp
    have := this.mpr ⟨p, hp⟩
    omega
  · intro h0
    by_contra hne
    obtain ⟨p, hp⟩ := this.mp (Nat.pos_of_ne_zero hne)
    exact h0 p hp

end Exact
end Itlib
