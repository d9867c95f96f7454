import Verif.FlatAny.Lemmas

/-!
# C80: flat_map and flat_set are safe, and find nothing wrong, whatever their contents and comparisons are
-/
namespace Itlib.FlatAny
open Itlib
variable {κ ε : Type} {W : World κ ε}

/-- the state after a call and its reply -/
def Result (W : World κ ε) (op : Op κ ε) (s : St ε) (r : Reply ε) (s' : St ε) : Prop :=
  (Spec.Allowed W op s.xs r s'.xs ∨ Spec.changes op = true ∧ r = .exc .element ∧ W.fails s.changed s.xs = some s'.xs) ∧
  ∀ L, s.xs.length < 2 ^ L → s'.asked ≤ s.asked + Spec.limit L op

theorem call_lowerBound (k : κ) (s : St ε) :
    ∃ r s', call W (.lowerBound k) s = some (r, s') ∧ Result W (.lowerBound k) s r s' := by
  obtain ⟨q, hq, hf⟩ := lowerBound_spec (W := W) k s
  simp only [call, exec, M.bind_apply]
  rcases hf with hf | ⟨j, e, h, -⟩
  · rw [hf.2]; exact ⟨_, _, rfl, .inl ⟨hf.1, rfl⟩, hq⟩
  · rw [e]; exact ⟨_, _, rfl, .inl ⟨h, rfl⟩, hq⟩

theorem call_upperBound (k : κ) (s : St ε) :
    ∃ r s', call W (.upperBound k) s = some (r, s') ∧ Result W (.upperBound k) s r s' := by
  obtain ⟨q, hq, hf⟩ := upperLoop_spec (W := W) k 0 s.xs.length s (by omega)
  simp only [call, exec, upperBound, size, M.bind_apply, M.get_apply, M.pure_apply]
  rcases hf with hf | ⟨j, e, -, h, -⟩
  · rw [hf.2]; exact ⟨_, _, rfl, .inl ⟨hf.1, rfl⟩, hq⟩
  · rw [e]; exact ⟨_, _, rfl, .inl ⟨by omega, rfl⟩, hq⟩

theorem call_equalRange (k : κ) (s : St ε) :
    ∃ r s', call W (.equalRange k) s = some (r, s') ∧ Result W (.equalRange k) s r s' := by
  obtain ⟨q, hq, hf⟩ := equalLoop_spec (W := W) k 0 s.xs.length s (by omega)
  simp only [call, exec, equalRange, size, M.bind_apply, M.get_apply, M.pure_apply]
  rcases hf with hf | ⟨l, r, e, -, h1, h2⟩
  · rw [hf.2]; exact ⟨_, _, rfl, .inl ⟨hf.1, rfl⟩, hq⟩
  · rw [e]; exact ⟨_, _, rfl, .inl ⟨h1, by omega, rfl⟩, hq⟩

theorem find_spec (k : κ) (s : St ε) :
    ∃ q, (∀ L, s.xs.length < 2 ^ L → q ≤ s.asked + (L + 1)) ∧
      (Spec.Throws W ∧ find W k s = .throw .user { s with asked := q } ∨
       ∃ j, find W k s = .ok j { s with asked := q } ∧ (j = s.xs.length ∨ Spec.Hit W k s.xs j)) := by
  obtain ⟨q, hq, hf⟩ := search_spec (W := W) k s fun j b => if b then pure j else size
  refine ⟨q, hq, ?_⟩
  rcases hf with hf | ⟨j, b, e, h, hb⟩
  · exact .inl hf
  · cases b with
    | true => exact .inr ⟨j, e, .inr (hb rfl)⟩
    | false => exact .inr ⟨s.xs.length, e, .inl rfl⟩

theorem hit_lt {k : κ} {xs : List ε} {j : Nat} (h : Spec.Hit W k xs j) : j < xs.length := by
  obtain ⟨e, he, -⟩ := h
  exact (List.getElem?_eq_some_iff.mp he).1

theorem call_find (k : κ) (s : St ε) : ∃ r s', call W (.find k) s = some (r, s') ∧ Result W (.find k) s r s' := by
  obtain ⟨q, hq, hf⟩ := find_spec (W := W) k s
  simp only [call, exec, M.bind_apply]
  rcases hf with hf | ⟨j, e, h⟩
  · rw [hf.2]; exact ⟨_, _, rfl, .inl ⟨hf.1, rfl⟩, hq⟩
  · rw [e]; exact ⟨_, _, rfl, .inl ⟨h, rfl⟩, hq⟩

theorem call_count (k : κ) (s : St ε) : ∃ r s', call W (.count k) s = some (r, s') ∧ Result W (.count k) s r s' := by
  obtain ⟨q, hq, hf⟩ := find_spec (W := W) k s
  simp only [call, exec, count, size, M.bind_apply]
  rcases hf with hf | ⟨j, e, h⟩
  · rw [hf.2]; exact ⟨_, _, rfl, .inl ⟨hf.1, rfl⟩, hq⟩
  · rw [e]
    refine ⟨_, _, rfl, .inl ⟨?_, rfl⟩, hq⟩
    rcases h with h | h
    · left; simp [h]
    · right
      have := hit_lt h
      exact ⟨if_neg (show j ≠ s.xs.length by omega), j, h⟩

theorem call_insert (k : κ) (e : ε) (s : St ε) :
    ∃ r s', call W (.insert k e) s = some (r, s') ∧ Result W (.insert k e) s r s' := by
  obtain ⟨q, hq, hf⟩ := search_spec (W := W) k s fun j b =>
    if b then pure (j, false) else do let j ← emplaceAt W j e; pure (j, true)
  simp only [call, exec, M.bind_apply]
  rcases hf with hf | ⟨j, b, he, h, hb⟩
  · rw [show insert W k e s = _ from hf.2]; exact ⟨_, _, rfl, .inl ⟨hf.1, rfl⟩, hq⟩
  · rw [show insert W k e s = _ from he]
    cases b with
    | true => exact ⟨_, _, rfl, .inl ⟨hb rfl, rfl⟩, hq⟩
    | false =>
      simp only [Bool.false_eq_true, if_false, M.bind_apply, emplaceAt, M.get_apply, h, if_true, change_spec]
      cases hw : W.fails s.changed s.xs with
      | none => exact ⟨_, _, rfl, .inl ⟨h, take_drop_insertIdx _ _ _ h⟩, hq⟩
      | some zs => exact ⟨_, _, rfl, .inr ⟨rfl, rfl, hw⟩, hq⟩

theorem call_index (k : κ) (e : ε) (s : St ε) :
    ∃ r s', call W (.index k e) s = some (r, s') ∧ Result W (.index k e) s r s' := by
  obtain ⟨q, hq, hf⟩ := search_spec (W := W) k s fun j b =>
    if b then do let x ← get j; pure (j, x) else do let j ← emplaceAt W j e; let x ← get j; pure (j, x)
  simp only [call, exec, M.bind_apply]
  rcases hf with hf | ⟨j, b, he, h, hb⟩
  · rw [show index W k e s = _ from hf.2]; exact ⟨_, _, rfl, .inl ⟨hf.1, rfl⟩, hq⟩
  · rw [show index W k e s = _ from he]
    cases b with
    | true =>
      have hl := hit_lt (hb rfl)
      simp only [if_true, M.bind_apply, get_apply (s := { s with asked := q }) hl]
      exact ⟨_, _, rfl, .inl ⟨by simp [hl], .inl ⟨hb rfl, rfl⟩⟩, hq⟩
    | false =>
      simp only [Bool.false_eq_true, if_false, M.bind_apply, emplaceAt, M.get_apply, h, if_true, change_spec]
      cases hw : W.fails s.changed s.xs with
      | none =>
        have hl : j < (s.xs.take j ++ e :: s.xs.drop j).length := by simp; omega
        simp only [M.pure_apply, get_apply (s := { xs := s.xs.take j ++ e :: s.xs.drop j, asked := q, changed := s.changed + 1 }) hl]
        exact ⟨_, _, rfl, .inl ⟨by simp, .inr ⟨h, take_drop_insertIdx _ _ _ h⟩⟩, hq⟩
      | some zs => exact ⟨_, _, rfl, .inr ⟨rfl, rfl, hw⟩, hq⟩

theorem call_at (k : κ) (s : St ε) : ∃ r s', call W (.at_ k) s = some (r, s') ∧ Result W (.at_ k) s r s' := by
  obtain ⟨q, hq, hf⟩ := lowerBound_spec (W := W) k s
  simp only [call, exec, at_, M.bind_apply]
  rcases hf with hf | ⟨j, e, h2, h3⟩
  · rw [hf.2]; exact ⟨_, _, rfl, .inl ⟨hf.1, rfl⟩, fun L hL => by have := hq L hL; simp only [Spec.limit]; omega⟩
  · rw [e]
    simp only [size, M.bind_apply, M.get_apply, M.pure_apply]
    by_cases hj : j = s.xs.length
    · rw [if_pos hj]
      exact ⟨_, _, rfl, .inl rfl, fun L hL => by have := hq L hL; simp only [Spec.limit]; omega⟩
    · rw [if_neg hj]
      have hp : j < s.xs.length := by omega
      simp only [M.bind_apply, get_apply (s := { s with asked := q }) hp, ask_apply]
      have hq' : ∀ L, s.xs.length < 2 ^ L → q + 1 ≤ s.asked + (L + 1) := fun L hL => by have := hq L hL; omega
      cases ha : W.above q s.xs[j] k with
      | none => exact ⟨_, _, rfl, .inl ⟨⟨_, _, _, .inr ha⟩, rfl⟩, hq'⟩
      | some a =>
        cases a with
        | true => exact ⟨_, _, rfl, .inl rfl, hq'⟩
        | false =>
          simp only [Bool.false_eq_true, if_false, M.bind_apply, get_apply (s := { s with asked := q + 1 }) hp]
          obtain ⟨e', n, he, hn⟩ := h3.resolve_left hj
          have : e' = s.xs[j] := by simpa [hp] using he.symm
          subst this
          exact ⟨_, _, rfl, .inl ⟨he, ⟨_, he, ⟨n, hn⟩, q, ha⟩, rfl⟩, hq'⟩

theorem call_eraseKey (k : κ) (s : St ε) : ∃ r s', call W (.eraseKey k) s = some (r, s') ∧ Result W (.eraseKey k) s r s' := by
  obtain ⟨q, hq, hf⟩ := find_spec (W := W) k s
  simp only [call, exec, eraseKey, size, M.bind_apply]
  rcases hf with hf | ⟨j, e, h⟩
  · rw [hf.2]; exact ⟨_, _, rfl, .inl ⟨hf.1, rfl⟩, hq⟩
  · rw [e]
    simp only [M.get_apply, M.pure_apply]
    rcases h with h | h
    · rw [if_pos h]
      exact ⟨_, _, rfl, .inl (.inl ⟨rfl, rfl⟩), hq⟩
    · have hl := hit_lt h
      rw [if_neg (by omega)]
      simp only [M.bind_apply, eraseAt, M.get_apply, hl, if_true, change_spec]
      cases hw : W.fails s.changed s.xs with
      | none => exact ⟨_, _, rfl, .inl (.inr ⟨rfl, j, h, take_drop_eraseIdx _ _⟩), hq⟩
      | some zs => exact ⟨_, _, rfl, .inr ⟨rfl, rfl, hw⟩, hq⟩

theorem call_eraseAt (p : Nat) (s : St ε) (h : p < s.xs.length) :
    ∃ r s', call W (.eraseAt p) s = some (r, s') ∧ Result W (.eraseAt p) s r s' := by
  simp only [call, exec, eraseAt, M.bind_apply, M.get_apply, h, if_true, change_spec]
  cases hw : W.fails s.changed s.xs with
  | none => exact ⟨_, _, rfl, .inl ⟨rfl, take_drop_eraseIdx _ _⟩, fun _ _ => Nat.le_refl _⟩
  | some zs => exact ⟨_, _, rfl, .inr ⟨rfl, rfl, hw⟩, fun _ _ => Nat.le_refl _⟩

/-- C80. Whatever the contents are, whatever the comparisons answer and whether or not they and the container throw: no call
reads or changes anything outside of the container; positions are in range; at most one element is added, or one removed that
comparisons found equivalent to the key; a call whose comparison throws has no effect; and the number of comparisons is
logarithmic. -/
theorem C80_safe (op : Op κ ε) (s : St ε) (hp : Spec.Pre op s.xs) :
    ∃ r s', call W op s = some (r, s') ∧
      (Spec.Allowed W op s.xs r s'.xs ∨ Spec.changes op = true ∧ r = .exc .element ∧ W.fails s.changed s.xs = some s'.xs) ∧
      ∀ L, s.xs.length < 2 ^ L → s'.asked ≤ s.asked + Spec.limit L op := by
  cases op with
  | lowerBound k => exact call_lowerBound k s
  | upperBound k => exact call_upperBound k s
  | equalRange k => exact call_equalRange k s
  | find k => exact call_find k s
  | count k => exact call_count k s
  | insert k e => exact call_insert k e s
  | eraseKey k => exact call_eraseKey k s
  | index k e => exact call_index k e s
  | at_ k => exact call_at k s
  | eraseAt p => exact call_eraseAt p s hp
  | get p =>
    have hp : p < s.xs.length := hp
    refine ⟨.ref p s.xs[p], s, ?_, .inl ⟨rfl, by simp [hp], rfl⟩, fun _ _ => Nat.le_refl _⟩
    simp only [call, exec, M.bind_apply, get_apply hp, M.pure_apply]
  | modify ys => exact ⟨_, _, rfl, .inl rfl, fun _ _ => Nat.le_refl _⟩

/-- comparisons that always say the same, and do not throw -/
structure Consistent (W : World κ ε) (key : ε → κ) (lt : κ → κ → Bool) : Prop where
  below : ∀ n e k, W.below n e k = some (lt (key e) k)
  above : ∀ n e k, W.above n e k = some (lt k (key e))

theorem Consistent.no_throw {key : ε → κ} {lt : κ → κ → Bool} (h : Consistent W key lt) : ¬ Spec.Throws W := by
  rintro ⟨n, e, k, hw | hw⟩
  · rw [h.below] at hw; cases hw
  · rw [h.above] at hw; cases hw

/-- C80. If the comparisons say the same about the same keys whenever they are asked, only elements that are equivalent to the
key are found, returned, kept from being inserted again, or erased (`Allowed` speaks of hits), however broken the order of
the elements is. -/
theorem C80_finds_no_other {key : ε → κ} {lt : κ → κ → Bool} (hW : Consistent W key lt) {xs : List ε} {p : Nat} {k : κ} :
    Spec.Hit W k xs p ↔ ∃ e, xs[p]? = some e ∧ lt (key e) k = false ∧ lt k (key e) = false := by
  constructor
  · rintro ⟨e, he, ⟨n, hn⟩, m, hm⟩
    rw [hW.below] at hn
    rw [hW.above] at hm
    exact ⟨e, he, by simpa using hn, by simpa using hm⟩
  · rintro ⟨e, he, h1, h2⟩
    exact ⟨e, he, ⟨0, by rw [hW.below, h1]⟩, 0, by rw [hW.above, h2]⟩

/-- C80. A key that no element has is not found, in whatever order the elements are. -/
theorem C80_absent {key : ε → κ} {lt : κ → κ → Bool} (hW : Consistent W key lt) (s : St ε) (k : κ)
    (hk : ∀ e ∈ s.xs, lt (key e) k = true ∨ lt k (key e) = true) :
    ∃ s', call W (.find k) s = some (.pos s.xs.length, s') ∧ s'.xs = s.xs := by
  obtain ⟨r, s', e, h, -⟩ := C80_safe (W := W) (.find k) s trivial
  rcases h with h | ⟨h, -⟩
  · cases r <;> simp only [Spec.Allowed] at h
    · obtain ⟨h, hx⟩ := h
      rcases h with rfl | h
      · exact ⟨s', e, hx⟩
      · obtain ⟨x, hx, h1, h2⟩ := (C80_finds_no_other hW).mp h
        have := hk x (List.mem_of_getElem? hx)
        simp [h1, h2] at this
    · rename_i ex
      cases ex <;> simp only at h
      exact absurd h.1 hW.no_throw
  · cases h

/-- the elements are in strictly increasing order -/
def InOrder (key : ε → κ) (lt : κ → κ → Bool) (xs : List ε) : Prop := xs.Pairwise fun a b => lt (key a) (key b) = true

theorem lowerBound_exact {key : ε → κ} {lt : κ → κ → Bool} (hW : Consistent W key lt) {s : St ε} {k : κ} (t : Nat)
    (ht : t ≤ s.xs.length) (hl : ∀ i e, i < t → s.xs[i]? = some e → lt (key e) k = true)
    (hr : ∀ i e, t ≤ i → s.xs[i]? = some e → lt (key e) k = false) :
    ∃ q, lowerBound W k s = .ok t { s with asked := q } := by
  obtain ⟨q, h⟩ := lowerLoop_exact (W := W) (k := k) (f := fun e => lt (key e) k) (fun n e => hW.below n e k) t 0 s.xs.length s
    (by omega) (by omega) (by omega) hl hr
  exact ⟨q, by simpa [lowerBound, size] using h⟩

/-- where the elements less than the key are in front, a key is found where it is first -/
theorem find_exact {key : ε → κ} {lt : κ → κ → Bool} (hW : Consistent W key lt) {s : St ε} {x : ε} (t : Nat)
    (hx : s.xs[t]? = some x) (hxx : lt (key x) (key x) = false) (hl : ∀ i e, i < t → s.xs[i]? = some e → lt (key e) (key x) = true)
    (hr : ∀ i e, t ≤ i → s.xs[i]? = some e → lt (key e) (key x) = false) :
    ∃ q, find W (key x) s = .ok t { s with asked := q } := by
  obtain ⟨ht, hxt⟩ := List.getElem?_eq_some_iff.mp hx
  obtain ⟨q, h⟩ := lowerBound_exact hW t (by omega) hl hr
  refine ⟨q + 1, ?_⟩
  simp only [find, M.bind_apply, h, isAt, size, M.get_apply, M.pure_apply]
  rw [if_pos (show t ≠ s.xs.length by omega)]
  simp only [M.bind_apply, get_apply (s := { s with asked := q }) ht, ask_apply, hW.above, hxt, hxx]
  rfl

/-- C80. Where the elements are in order (again), every key that is there is found. -/
theorem C80_in_order {key : ε → κ} {lt : κ → κ → Bool} (hW : Consistent W key lt) (hirr : ∀ k, lt k k = false)
    (htr : ∀ a b c, lt a b = true → lt b c = true → lt a c = true) {s : St ε} (hs : InOrder key lt s.xs) {x : ε} {t : Nat}
    (hx : s.xs[t]? = some x) : ∃ s', call W (.find (key x)) s = some (.pos t, s') ∧ s'.xs = s.xs := by
  obtain ⟨ht, hxt⟩ := List.getElem?_eq_some_iff.mp hx
  have hp := List.pairwise_iff_getElem.mp hs
  obtain ⟨q, h⟩ := find_exact hW t hx (hirr _)
    (by
      intro i e hi he
      obtain ⟨hi', rfl⟩ := List.getElem?_eq_some_iff.mp he
      rw [← hxt]
      exact hp i t hi' ht hi)
    (by
      intro i e hi he
      obtain ⟨hi', rfl⟩ := List.getElem?_eq_some_iff.mp he
      by_cases h : i = t
      · subst h; rw [hxt]; exact hirr _
      · have h1 := hp t i ht hi' (by omega)
        rw [hxt] at h1
        cases h2 : lt (key s.xs[i]) (key x)
        · rfl
        · have := htr _ _ _ h1 h2
          rw [hirr] at this; cases this)
  exact ⟨{ s with asked := q }, by simp only [call, exec, M.bind_apply, h]; rfl, rfl⟩

/-- what `std::vector` (of elements that are copied) leaves when the assignment that would overwrite element `m + 1` in an
insertion before it throws: element `m` is there twice -/
def twice (xs : List ε) (m : Nat) : List ε := xs.take (m + 1) ++ xs.drop m

theorem twice_getElem? (xs : List ε) (m i : Nat) (hm : m < xs.length) :
    (twice xs m)[i]? = if i ≤ m then xs[i]? else xs[i - 1]? := by
  simp only [twice, List.getElem?_append, List.length_take, List.getElem?_take, List.getElem?_drop]
  by_cases h : i ≤ m
  · rw [if_pos (by omega), if_pos (by omega), if_pos h]
  · rw [if_neg (by omega), if_neg h]
    congr 1; omega

theorem twice_eraseIdx (xs : List ε) (m : Nat) (hm : m < xs.length) : (twice xs m).eraseIdx m = xs := by
  apply List.ext_getElem?
  intro i
  rw [List.getElem?_eraseIdx, twice_getElem? xs m i hm, twice_getElem? xs m (i + 1) hm]
  by_cases h : i < m
  · rw [if_pos h, if_pos (by omega)]
  · rw [if_neg h, if_neg (by omega)]
    rfl

/-- C80, defect. An insertion into a map in order that fails inside of the container may leave a key twice: it is erased, the
map says that it erased one, and the key is still there. -/
theorem C80_failed_insert_defect {key : ε → κ} {lt : κ → κ → Bool} (hW : Consistent W key lt) (hirr : ∀ k, lt k k = false)
    (htr : ∀ a b c, lt a b = true → lt b c = true → lt a c = true) {s : St ε} (hs : InOrder key lt s.xs) {e x : ε} {p m : Nat}
    (hp : p ≤ m) (hx : s.xs[m]? = some x)
    -- `e` is a new key that belongs to position `p`
    (hl : ∀ i y, i < p → s.xs[i]? = some y → lt (key y) (key e) = true)
    (hr : ∀ i y, p ≤ i → s.xs[i]? = some y → lt (key e) (key y) = true)
    (hf : W.fails s.changed s.xs = some (twice s.xs m)) (hf' : W.fails (s.changed + 1) (twice s.xs m) = none) :
    ∃ s1 s2 s3, call W (.insert (key e) e) s = some (.exc .element, s1) ∧ s1.xs.length = s.xs.length + 1 ∧
      call W (.eraseKey (key x)) s1 = some (.num 1, s2) ∧ call W (.count (key x)) s2 = some (.num 1, s3) := by
  obtain ⟨hm, hxm⟩ := List.getElem?_eq_some_iff.mp hx
  have hpw := List.pairwise_iff_getElem.mp hs
  have hasym : ∀ a b, lt a b = true → lt b a = false := by
    intro a b h
    cases h' : lt b a
    · rfl
    · have := htr _ _ _ h h'
      rw [hirr] at this; cases this
  have hlow : ∀ i y, i < m → s.xs[i]? = some y → lt (key y) (key x) = true := by
    intro i y hi hy
    obtain ⟨hi', rfl⟩ := List.getElem?_eq_some_iff.mp hy
    rw [← hxm]; exact hpw i m hi' hm hi
  have hhigh : ∀ i y, m ≤ i → s.xs[i]? = some y → lt (key y) (key x) = false := by
    intro i y hi hy
    obtain ⟨hi', rfl⟩ := List.getElem?_eq_some_iff.mp hy
    by_cases h : i = m
    · subst h; rw [hxm]; exact hirr _
    · have h1 := hpw m i hm hi' (by omega)
      rw [hxm] at h1
      exact hasym _ _ h1
  -- the insertion
  obtain ⟨q, h1⟩ := lowerBound_exact hW (k := key e) p (by omega) hl (fun i y hi hy => hasym _ _ (hr i y hi hy))
  have hpl : p < s.xs.length := by omega
  have e1 : call W (.insert (key e) e) s = some (.exc .element, ⟨twice s.xs m, q + 1, s.changed + 1⟩) := by
    simp only [call, exec, insert, M.bind_apply, h1, isAt, size, M.get_apply, M.pure_apply]
    rw [if_pos (show p ≠ s.xs.length by omega)]
    simp only [M.bind_apply, get_apply (s := { s with asked := q }) hpl, ask_apply, hW.above,
      hr p s.xs[p] (Nat.le_refl _) (by simp [hpl]), M.pure_apply, Bool.not_true, Bool.false_eq_true, if_false, emplaceAt, M.get_apply]
    rw [if_pos (show p ≤ s.xs.length by omega)]
    simp only [M.bind_apply, change_spec, hf]
  -- the erasure
  obtain ⟨q2, h2⟩ := find_exact (s := ⟨twice s.xs m, q + 1, s.changed + 1⟩) (x := x) hW m
    (by simp only [twice_getElem? _ _ _ hm, Nat.le_refl, if_true]; exact hx) (hirr _)
    (by
      intro i y hi hy
      simp only [twice_getElem? _ _ _ hm, show i ≤ m by omega, if_true] at hy
      exact hlow i y hi hy)
    (by
      intro i y hi hy
      simp only [twice_getElem? _ _ _ hm] at hy
      split at hy
      · exact hhigh i y hi hy
      · exact hhigh (i - 1) y (by omega) hy)
  have hlen : (twice s.xs m).length = s.xs.length + 1 := by simp [twice]; omega
  have e2 : call W (.eraseKey (key x)) ⟨twice s.xs m, q + 1, s.changed + 1⟩ = some (.num 1, ⟨s.xs, q2, s.changed + 1 + 1⟩) := by
    simp only [call, exec, eraseKey, M.bind_apply, h2, size, M.get_apply, M.pure_apply]
    rw [if_neg (by omega)]
    simp only [M.bind_apply, eraseAt, M.get_apply]
    rw [if_pos (by omega)]
    simp only [M.bind_apply, change_spec, hf', M.pure_apply, take_drop_eraseIdx, twice_eraseIdx _ _ hm]
  -- the count
  obtain ⟨q3, h3⟩ := find_exact (s := ⟨s.xs, q2, s.changed + 1 + 1⟩) (x := x) hW m hx (hirr _) hlow hhigh
  refine ⟨_, _, ⟨s.xs, q3, s.changed + 1 + 1⟩, e1, hlen, e2, ?_⟩
  simp only [call, exec, count, M.bind_apply, h3, size, M.get_apply, M.pure_apply]
  rw [if_neg (by omega)]

/-! ### Concrete cases -/

/-- the usual order of numbers, being elements and keys; the first change of the container leaves element 1 twice -/
def usual : World Nat Nat :=
  ⟨fun _ e k => some (decide (e < k)), fun _ e k => some (decide (k < e)), fun n xs => if n = 0 then some (twice xs 1) else none⟩

theorem usual_consistent : Consistent usual id fun a b => decide (a < b) := ⟨fun _ _ _ => rfl, fun _ _ _ => rfl⟩

/-- the hypotheses of the defect: 2 into {1, 3, 5}, which becomes 1, 3, 3, 5 -/
example : InOrder id (fun a b => decide (a < b)) [1, 3, 5] ∧ [1, 3, 5][1]? = some 3 ∧
    usual.fails 0 [1, 3, 5] = some [1, 3, 3, 5] ∧ usual.fails 1 [1, 3, 3, 5] = none ∧
    (∀ i y, i < 1 → [1, 3, 5][i]? = some y → y < 2) ∧ ∀ i y, 1 ≤ i → [1, 3, 5][i]? = some y → 2 < y := by
  refine ⟨by simp [InOrder], rfl, rfl, rfl, ?_, ?_⟩
  · intro i y hi hy
    have : i = 0 := by omega
    subst this; simp at hy; omega
  · intro i y hi hy
    match i, hi with
    | 1, _ => simp at hy; omega
    | 2, _ => simp at hy; omega
    | i + 3, _ => simp at hy

/-- comparisons that answer in turns -/
def mad : World Nat Nat :=
  ⟨fun n _ _ => if n = 7 then none else some (n % 2 == 0), fun n _ _ => some (n % 3 == 0), fun _ _ => none⟩

/-- elements out of order, and comparisons that make no sense: keys are not found, inserted twice, others are found -/
example : (call usual (.find 1) ⟨[5, 3, 1], 0, 0⟩).map Prod.fst = some (.pos 3) ∧
    (call usual (.insert 1 1) ⟨[5, 3, 1], 0, 1⟩).map (fun r => r.2.xs) = some [1, 5, 3, 1] ∧
    (call mad (.eraseKey 4) ⟨[1, 2, 3], 0, 0⟩).map (fun r => r.2.xs) = some [1, 2] ∧
    (call mad (.find 4) ⟨[1, 2, 3], 7, 0⟩).map Prod.fst = some (.exc .user) := by decide +kernel

end Itlib.FlatAny
