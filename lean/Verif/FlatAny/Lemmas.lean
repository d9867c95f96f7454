import Verif.FlatAny.Spec

/-! # Step lemmas -/
namespace Itlib.FlatAny
open Itlib
variable {κ ε : Type} {W : World κ ε}

theorem get_apply {s : St ε} {p : Nat} (h : p < s.xs.length) : get p s = .ok s.xs[p] s := by
  simp [get, h]

theorem ask_apply (f : Nat → Option Bool) (s : St ε) :
    ask f s = match f s.asked with
      | some b => .ok b { s with asked := s.asked + 1 }
      | none => .throw .user { s with asked := s.asked + 1 } := by
  simp only [ask, M.bind_apply, M.get_apply, M.set_apply]
  cases f s.asked <;> rfl

/-- one more halving -/
theorem half_lt {len m L : Nat} (hl : len < 2 ^ L) (h0 : len ≠ 0) (hm : m ≤ len / 2) : ∃ L', L = L' + 1 ∧ m < 2 ^ L' := by
  cases L with
  | zero => simp at hl; omega
  | succ L => exact ⟨L, rfl, by rw [Nat.pow_succ] at hl; omega⟩

/-- the result of a search: an exception of a comparison, or a position in the range, at its end or at an element that `f` rejected -/
def Found (W : World κ ε) (f : Nat → ε → Option Bool) (a : Bool) (first len : Nat) (s : St ε) (r : Res (St ε) Nat) (q : Nat) : Prop :=
  Spec.Throws W ∧ r = .throw .user { s with asked := q } ∨
  ∃ j, r = .ok j { s with asked := q } ∧ first ≤ j ∧ j ≤ first + len ∧
    (j = first + len ∨ ∃ e n, s.xs[j]? = some e ∧ f n e = some a)

theorem lowerLoop_spec (k : κ) (first len : Nat) (s : St ε) (h : first + len ≤ s.xs.length) :
    ∃ q, (∀ L, len < 2 ^ L → q ≤ s.asked + L) ∧ Found W (fun n e => W.below n e k) false first len s (lowerLoop W k first len s) q := by
  induction len using Nat.strongRecOn generalizing first s with
  | ind len ih =>
    rw [lowerLoop]
    by_cases h0 : len = 0
    · rw [if_pos h0]
      exact ⟨s.asked, fun L _ => by omega, .inr ⟨first, rfl, by omega, by omega, .inl (by omega)⟩⟩
    · rw [if_neg h0]
      have hp : first + len / 2 < s.xs.length := by omega
      simp only [M.bind_apply, get_apply hp, ask_apply]
      cases hb : W.below s.asked s.xs[first + len / 2] k with
      | none =>
        refine ⟨s.asked + 1, fun L hL => ?_, .inl ⟨⟨_, _, _, .inl hb⟩, rfl⟩⟩
        obtain ⟨L', rfl, -⟩ := half_lt hL h0 (Nat.le_refl _)
        omega
      | some b =>
        cases b with
        | true =>
          simp only [if_true]
          obtain ⟨q, hq, hf⟩ := ih (len - len / 2 - 1) (by omega) (first + len / 2 + 1) { s with asked := s.asked + 1 } (by simp only; omega)
          refine ⟨q, fun L hL => ?_, ?_⟩
          · obtain ⟨L', rfl, hL'⟩ := half_lt hL h0 (m := len - len / 2 - 1) (by omega)
            have := hq L' hL'
            simp only at this; omega
          · rcases hf with hf | ⟨j, e, h1, h2, h3⟩
            · exact .inl hf
            · refine .inr ⟨j, e, by omega, by omega, ?_⟩
              rcases h3 with h3 | h3
              · exact .inl (by omega)
              · exact .inr h3
        | false =>
          simp only [Bool.false_eq_true, if_false]
          obtain ⟨q, hq, hf⟩ := ih (len / 2) (by omega) first { s with asked := s.asked + 1 } (by simp only; omega)
          refine ⟨q, fun L hL => ?_, ?_⟩
          · obtain ⟨L', rfl, hL'⟩ := half_lt hL h0 (Nat.le_refl _)
            have := hq L' hL'
            simp only at this; omega
          · rcases hf with hf | ⟨j, e, h1, h2, h3⟩
            · exact .inl hf
            · refine .inr ⟨j, e, by omega, by omega, .inr ?_⟩
              rcases h3 with h3 | h3
              · exact ⟨s.xs[first + len / 2], s.asked, by rw [h3]; simp [hp], hb⟩
              · exact h3

theorem upperLoop_spec (k : κ) (first len : Nat) (s : St ε) (h : first + len ≤ s.xs.length) :
    ∃ q, (∀ L, len < 2 ^ L → q ≤ s.asked + L) ∧ Found W (fun n e => W.above n e k) true first len s (upperLoop W k first len s) q := by
  induction len using Nat.strongRecOn generalizing first s with
  | ind len ih =>
    rw [upperLoop]
    by_cases h0 : len = 0
    · rw [if_pos h0]
      exact ⟨s.asked, fun L _ => by omega, .inr ⟨first, rfl, by omega, by omega, .inl (by omega)⟩⟩
    · rw [if_neg h0]
      have hp : first + len / 2 < s.xs.length := by omega
      simp only [M.bind_apply, get_apply hp, ask_apply]
      cases hb : W.above s.asked s.xs[first + len / 2] k with
      | none =>
        refine ⟨s.asked + 1, fun L hL => ?_, .inl ⟨⟨_, _, _, .inr hb⟩, rfl⟩⟩
        obtain ⟨L', rfl, -⟩ := half_lt hL h0 (Nat.le_refl _)
        omega
      | some b =>
        cases b with
        | false =>
          simp only [Bool.false_eq_true, if_false]
          obtain ⟨q, hq, hf⟩ := ih (len - len / 2 - 1) (by omega) (first + len / 2 + 1) { s with asked := s.asked + 1 } (by simp only; omega)
          refine ⟨q, fun L hL => ?_, ?_⟩
          · obtain ⟨L', rfl, hL'⟩ := half_lt hL h0 (m := len - len / 2 - 1) (by omega)
            have := hq L' hL'
            simp only at this; omega
          · rcases hf with hf | ⟨j, e, h1, h2, h3⟩
            · exact .inl hf
            · refine .inr ⟨j, e, by omega, by omega, ?_⟩
              rcases h3 with h3 | h3
              · exact .inl (by omega)
              · exact .inr h3
        | true =>
          simp only [if_true]
          obtain ⟨q, hq, hf⟩ := ih (len / 2) (by omega) first { s with asked := s.asked + 1 } (by simp only; omega)
          refine ⟨q, fun L hL => ?_, ?_⟩
          · obtain ⟨L', rfl, hL'⟩ := half_lt hL h0 (Nat.le_refl _)
            have := hq L' hL'
            simp only at this; omega
          · rcases hf with hf | ⟨j, e, h1, h2, h3⟩
            · exact .inl hf
            · refine .inr ⟨j, e, by omega, by omega, .inr ?_⟩
              rcases h3 with h3 | h3
              · exact ⟨s.xs[first + len / 2], s.asked, by rw [h3]; simp [hp], hb⟩
              · exact h3

theorem equalLoop_spec (k : κ) (first len : Nat) (s : St ε) (h : first + len ≤ s.xs.length) :
    ∃ q, (∀ L, len < 2 ^ L → q ≤ s.asked + 2 * L) ∧
      (Spec.Throws W ∧ equalLoop W k first len s = .throw .user { s with asked := q } ∨
       ∃ l r, equalLoop W k first len s = .ok (l, r) { s with asked := q } ∧ first ≤ l ∧ l ≤ r ∧ r ≤ first + len) := by
  induction len using Nat.strongRecOn generalizing first s with
  | ind len ih =>
    rw [equalLoop]
    by_cases h0 : len = 0
    · rw [if_pos h0]
      exact ⟨s.asked, fun L _ => by omega, .inr ⟨first, first, rfl, by omega, by omega, by omega⟩⟩
    · rw [if_neg h0]
      have hp : first + len / 2 < s.xs.length := by omega
      simp only [M.bind_apply, get_apply hp, ask_apply]
      cases hb : W.below s.asked s.xs[first + len / 2] k with
      | none =>
        refine ⟨s.asked + 1, fun L hL => ?_, .inl ⟨⟨_, _, _, .inl hb⟩, rfl⟩⟩
        obtain ⟨L', rfl, -⟩ := half_lt hL h0 (Nat.le_refl _)
        omega
      | some b =>
        cases b with
        | true =>
          simp only [if_true]
          obtain ⟨q, hq, hf⟩ := ih (len - len / 2 - 1) (by omega) (first + len / 2 + 1) { s with asked := s.asked + 1 } (by simp only; omega)
          refine ⟨q, fun L hL => ?_, ?_⟩
          · obtain ⟨L', rfl, hL'⟩ := half_lt hL h0 (m := len - len / 2 - 1) (by omega)
            have := hq L' hL'
            simp only at this; omega
          · rcases hf with hf | ⟨l, r, e, h1, h2, h3⟩
            · exact .inl hf
            · exact .inr ⟨l, r, e, by omega, h2, by omega⟩
        | false =>
          simp only [Bool.false_eq_true, if_false, M.bind_apply, ask_apply]
          cases ha : W.above (s.asked + 1) s.xs[first + len / 2] k with
          | none =>
            refine ⟨s.asked + 2, fun L hL => ?_, .inl ⟨⟨_, _, _, .inr ha⟩, rfl⟩⟩
            obtain ⟨L', rfl, -⟩ := half_lt hL h0 (Nat.le_refl _)
            omega
          | some a =>
            cases a with
            | true =>
              simp only [if_true]
              obtain ⟨q, hq, hf⟩ := ih (len / 2) (by omega) first { s with asked := s.asked + 1 + 1 } (by simp only; omega)
              refine ⟨q, fun L hL => ?_, ?_⟩
              · obtain ⟨L', rfl, hL'⟩ := half_lt hL h0 (Nat.le_refl _)
                have := hq L' hL'
                simp only at this; omega
              · rcases hf with hf | ⟨l, r, e, h1, h2, h3⟩
                · exact .inl hf
                · exact .inr ⟨l, r, e, by omega, h2, by omega⟩
            | false =>
              simp only [Bool.false_eq_true, if_false, M.bind_apply]
              obtain ⟨q, hq, hf⟩ := lowerLoop_spec (W := W) k first (len / 2) { s with asked := s.asked + 1 + 1 } (by simp only; omega)
              rcases hf with hf | ⟨l, e, l1, l2, -⟩
              · rw [hf.2]
                refine ⟨q, fun L hL => ?_, .inl ⟨hf.1, rfl⟩⟩
                obtain ⟨L', rfl, hL'⟩ := half_lt hL h0 (Nat.le_refl _)
                have := hq L' hL'
                simp only at this; omega
              · rw [e]
                simp only
                obtain ⟨q', hq', hf'⟩ := upperLoop_spec (W := W) k (first + len / 2 + 1) (len - len / 2 - 1) { s with asked := q } (by simp only; omega)
                have hcnt : ∀ L, len < 2 ^ L → q' ≤ s.asked + 2 * L := by
                  intro L hL
                  obtain ⟨L', rfl, hL'⟩ := half_lt hL h0 (Nat.le_refl _)
                  have h1 := hq L' hL'
                  have h2 := hq' L' (by omega)
                  simp only at h1 h2; omega
                rcases hf' with hf' | ⟨r, e', r1, r2, -⟩
                · rw [hf'.2]
                  exact ⟨q', hcnt, .inl ⟨hf'.1, rfl⟩⟩
                · rw [e']
                  exact ⟨q', hcnt, .inr ⟨l, r, rfl, by omega, by omega, by omega⟩⟩

theorem lowerBound_spec (k : κ) (s : St ε) :
    ∃ q, (∀ L, s.xs.length < 2 ^ L → q ≤ s.asked + L) ∧
      (Spec.Throws W ∧ lowerBound W k s = .throw .user { s with asked := q } ∨
       ∃ j, lowerBound W k s = .ok j { s with asked := q } ∧ j ≤ s.xs.length ∧
         (j = s.xs.length ∨ ∃ e n, s.xs[j]? = some e ∧ W.below n e k = some false)) := by
  obtain ⟨q, hq, hf⟩ := lowerLoop_spec (W := W) k 0 s.xs.length s (by omega)
  refine ⟨q, hq, ?_⟩
  simp only [lowerBound, size, M.bind_apply, M.get_apply, M.pure_apply]
  rcases hf with hf | ⟨j, e, -, h2, h3⟩
  · exact .inl hf
  · simp only [Nat.zero_add] at h2 h3
    exact .inr ⟨j, e, h2, h3⟩

/-- the search and the test that follows it -/
theorem search_spec (k : κ) (s : St ε) {β : Type} (g : Nat → Bool → Mem ε β) :
    ∃ q, (∀ L, s.xs.length < 2 ^ L → q ≤ s.asked + (L + 1)) ∧
      (Spec.Throws W ∧ (do let j ← lowerBound W k; let b ← isAt W k j; g j b) s = .throw .user { s with asked := q } ∨
       ∃ j b, (do let j ← lowerBound W k; let b ← isAt W k j; g j b) s = g j b { s with asked := q } ∧ j ≤ s.xs.length ∧
         (b = true → Spec.Hit W k s.xs j)) := by
  obtain ⟨q, hq, hf⟩ := lowerBound_spec (W := W) k s
  simp only [M.bind_apply]
  rcases hf with hf | ⟨j, e, h2, h3⟩
  · rw [hf.2]
    exact ⟨q, fun L hL => by have := hq L hL; omega, .inl ⟨hf.1, rfl⟩⟩
  · rw [e]
    simp only [isAt, size, M.bind_apply, M.get_apply, M.pure_apply]
    by_cases hj : j = s.xs.length
    · refine ⟨q, fun L hL => by have := hq L hL; omega, .inr ⟨j, false, ?_, h2, by simp⟩⟩
      simp [hj]
    · rw [if_pos hj]
      have hp : j < s.xs.length := by omega
      simp only [M.bind_apply, get_apply (s := { s with asked := q }) hp, ask_apply]
      have hq' : ∀ L, s.xs.length < 2 ^ L → q + 1 ≤ s.asked + (L + 1) := fun L hL => by have := hq L hL; omega
      cases ha : W.above q s.xs[j] k with
      | none => exact ⟨q + 1, hq', .inl ⟨⟨_, _, _, .inr ha⟩, rfl⟩⟩
      | some a =>
        refine ⟨q + 1, hq', .inr ⟨j, !a, rfl, h2, fun hb => ?_⟩⟩
        obtain ⟨e', n, he, hn⟩ := h3.resolve_left hj
        have : e' = s.xs[j] := by simpa [hp] using he.symm
        subst this
        exact ⟨s.xs[j], he, ⟨n, hn⟩, q, by rw [ha]; simpa using hb⟩

theorem take_drop_insertIdx (xs : List ε) (p : Nat) (e : ε) (h : p ≤ xs.length) :
    xs.take p ++ e :: xs.drop p = xs.insertIdx p e := by
  induction xs generalizing p with
  | nil => simp at h; subst h; rfl
  | cons x xs ih =>
    cases p with
    | zero => rfl
    | succ p => simp at h; simp [ih p h]

theorem take_drop_eraseIdx (xs : List ε) (p : Nat) : xs.take p ++ xs.drop (p + 1) = xs.eraseIdx p :=
  (List.eraseIdx_eq_take_drop_succ xs p).symm

theorem change_spec (s : St ε) (ys : List ε) :
    change W ys s = match W.fails s.changed s.xs with
      | none => .ok () { s with xs := ys, changed := s.changed + 1 }
      | some zs => .throw .element { s with xs := zs, changed := s.changed + 1 } := by
  simp only [change, M.bind_apply, M.get_apply]
  cases W.fails s.changed s.xs <;> rfl

/-- with comparisons that are consistent and elements that are partitioned, the search ends where the parts meet -/
theorem lowerLoop_exact {k : κ} {f : ε → Bool} (hb : ∀ n e, W.below n e k = some (f e)) (t first len : Nat) (s : St ε)
    (h : first + len ≤ s.xs.length) (h1 : first ≤ t) (h2 : t ≤ first + len)
    (hl : ∀ i e, i < t → s.xs[i]? = some e → f e = true) (hr : ∀ i e, t ≤ i → s.xs[i]? = some e → f e = false) :
    ∃ q, lowerLoop W k first len s = .ok t { s with asked := q } := by
  induction len using Nat.strongRecOn generalizing first s with
  | ind len ih =>
    rw [lowerLoop]
    by_cases h0 : len = 0
    · rw [if_pos h0]
      exact ⟨s.asked, by rw [show t = first by omega]; rfl⟩
    · rw [if_neg h0]
      have hp : first + len / 2 < s.xs.length := by omega
      have he : s.xs[first + len / 2]? = some s.xs[first + len / 2] := by simp [hp]
      simp only [M.bind_apply, get_apply hp, ask_apply, hb]
      by_cases ht : first + len / 2 < t
      · rw [hl _ _ ht he]
        obtain ⟨q, hq⟩ := ih (len - len / 2 - 1) (by omega) (first + len / 2 + 1) { s with asked := s.asked + 1 } (by simp only; omega)
          (by omega) (by omega) hl hr
        exact ⟨q, hq⟩
      · rw [hr _ _ (by omega) he]
        obtain ⟨q, hq⟩ := ih (len / 2) (by omega) first { s with asked := s.asked + 1 } (by simp only; omega) (by omega) (by omega) hl hr
        exact ⟨q, hq⟩

end Itlib.FlatAny
