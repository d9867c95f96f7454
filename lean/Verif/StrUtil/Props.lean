import Verif.StrUtil.Model
import Verif.Core.Tac
import Mathlib.Data.List.Infix

/-! # Properties of the string utilities (C35) -/
namespace Itlib.StrUtil
open Itlib M

/-! ### Specification -/

/-- The view denotes the characters `s`. -/
def Denotes (m : Mem) (v : SV) (s : List Nat) : Prop := v.len = s.length ∧ ∀ i (_ : i < s.length), m (v.ptr + i) = some s[i]

/-- `n` copies of a string -/
def times (n : Nat) (s : List Nat) : List Nat := (List.replicate n s).flatten

/-! ### Lemmas -/

theorem Denotes.drop {m : Mem} {v : SV} {s : List Nat} (h : Denotes m v s) (n : Nat) (hn : n ≤ v.len) :
    Denotes m ⟨v.ptr + n, v.len - n⟩ (s.drop n) := by
  refine ⟨by simp [h.1], fun i hi => ?_⟩
  simp at hi
  have := h.2 (n + i) (by omega)
  simp only [List.getElem_drop, Nat.add_assoc, this]

theorem Denotes.take {m : Mem} {v : SV} {s : List Nat} (h : Denotes m v s) (n : Nat) (hn : n ≤ v.len) :
    Denotes m ⟨v.ptr, n⟩ (s.take n) := by
  have := h.1
  refine ⟨by simp; omega, fun i hi => ?_⟩
  simp at hi
  have := h.2 i (by omega)
  simp only [List.getElem_take, this]

/-- comparing equally long texts -/
theorem traitsCompare_eq {m : Mem} (s t : List Nat) (hl : s.length = t.length) (p q : Nat) (hs : Denotes m ⟨p, s.length⟩ s)
    (ht : Denotes m ⟨q, t.length⟩ t) : ∃ c, traitsCompare s.length p q m = .ok c m ∧ (c = 0 ↔ s = t) := by
  induction s generalizing t p q with
  | nil =>
    cases t with
    | nil => exact ⟨0, rfl, by simp⟩
    | cons b t => simp at hl
  | cons a s ih =>
    cases t with
    | nil => simp at hl
    | cons b t =>
      simp only [List.length_cons, Nat.add_right_cancel_iff] at hl
      have h1 : m p = some a := hs.2 0 (by simp)
      have h2 : m q = some b := ht.2 0 (by simp)
      have hs' : Denotes m ⟨p + 1, s.length⟩ s := by simpa using hs.drop 1 (by simp)
      have ht' : Denotes m ⟨q + 1, t.length⟩ t := by simpa using ht.drop 1 (by simp)
      obtain ⟨c, hc, hc'⟩ := ih t hl (p + 1) (q + 1) hs' ht'
      simp only [List.length_cons, traitsCompare, rd, bind_apply, load, h1, h2]
      split
      · refine ⟨-1, rfl, ?_⟩
        simp; omega
      · split
        · refine ⟨1, rfl, ?_⟩
          simp; omega
        · have : a = b := by omega
          subst this
          exact ⟨c, hc, by simp [hc']⟩

theorem compareSub_eq {m : Mem} {str v : SV} {s t : List Nat} (hs : Denotes m str s) (ht : Denotes m v t) (pos : Nat)
    (h : pos + t.length ≤ s.length) :
    ∃ c, compareSub str pos v.len v m = .ok c m ∧ (c = 0 ↔ (s.drop pos).take t.length = t) := by
  have h1 := hs.1
  have h2 := ht.1
  have e : min v.len (str.len - pos) = v.len := by omega
  have d := (hs.drop pos (by omega)).take t.length (by simp; omega)
  have hlen : ((s.drop pos).take t.length).length = t.length := by simp; omega
  obtain ⟨c, hc, hc'⟩ := traitsCompare_eq ((s.drop pos).take t.length) t hlen (str.ptr + pos) v.ptr (by rw [hlen]; exact d) (by rw [← h2]; exact ht)
  rw [hlen, ← h2] at hc
  refine ⟨c, ?_, by rw [hc']⟩
  simp only [compareSub, substr, compare, bind_apply, if_neg (show ¬ str.len < pos by omega), M.pure_apply, e, Nat.min_self, hc]
  by_cases h0 : c = 0
  · simp [h0]
  · simp [h0]

/-! ### Theorems -/

/-- C35. `starts_with` decides whether the prefix is a prefix, reading only the characters of the two views. -/
theorem C35_starts_with (m : Mem) (str pre : SV) (s p : List Nat) (hs : Denotes m str s) (hp : Denotes m pre p) :
    startsWith str pre m = .ok (decide (p <+: s)) m := by
  have h1 := hs.1
  have h2 := hp.1
  unfold startsWith
  split
  · have : ¬ p <+: s := fun h => by have := h.length_le; omega
    simp [this]
  · obtain ⟨c, hc, hc'⟩ := compareSub_eq hs hp 0 (by omega)
    simp only [bind_apply, hc, M.pure_apply]
    congr 1
    rw [beq_eq_decide, decide_eq_decide, eq_comm, hc', List.drop_zero, List.prefix_iff_eq_take, eq_comm]

/-- C35. `ends_with` decides whether the suffix is a suffix. -/
theorem C35_ends_with (m : Mem) (str suf : SV) (s p : List Nat) (hs : Denotes m str s) (hp : Denotes m suf p) :
    endsWith str suf m = .ok (decide (p <:+ s)) m := by
  have h1 := hs.1
  have h2 := hp.1
  unfold endsWith
  split
  · have : ¬ p <:+ s := fun h => by have := h.length_le; omega
    simp [this]
  · obtain ⟨c, hc, hc'⟩ := compareSub_eq hs hp (s.length - p.length) (by omega)
    rw [← h1, ← h2] at hc
    simp only [bind_apply, hc, M.pure_apply]
    congr 1
    have e : (s.drop (s.length - p.length)).take p.length = s.drop (s.length - p.length) := List.take_of_length_le (by simp; omega)
    rw [beq_eq_decide, decide_eq_decide, eq_comm, hc', e, List.suffix_iff_eq_drop, eq_comm]

theorem times_succ (n : Nat) (s : List Nat) : times (n + 1) s = s ++ times n s := by simp [times, List.replicate_succ]
theorem times_succ' (n : Nat) (s : List Nat) : times (n + 1) s = times n s ++ s := by
  simp [times, List.replicate_succ', List.flatten_append]

theorem prefixLoop_spec (m : Mem) (pre : SV) (p : List Nat) (hp : Denotes m pre p) (hne : p ≠ []) (fuel : Nat) :
    ∀ (str : SV) (s : List Nat), Denotes m str s → s.length ≤ fuel →
    ∃ n rest, s = times n p ++ rest ∧ ¬ p <+: rest ∧
      prefixLoop pre fuel str m = .ok ⟨str.ptr + n * p.length, rest.length⟩ m := by
  have hl : 0 < p.length := List.length_pos_of_ne_nil hne
  induction fuel with
  | zero =>
    intro str s hs hf
    have : s = [] := List.eq_nil_of_length_eq_zero (by omega)
    subst this
    have hn : ¬ p <+: [] := by simpa using hne
    refine ⟨0, [], by simp [times], hn, ?_⟩
    have h1 := hs.1
    simp only [prefixLoop, bind_apply, C35_starts_with m str pre _ _ hs hp, decide_eq_false hn, Nat.zero_mul, Nat.add_zero]
    cases str; simp_all
  | succ fuel ih =>
    intro str s hs hf
    have h1 := hs.1
    have h2 := hp.1
    by_cases h : p <+: s
    · obtain ⟨s', rfl⟩ := h
      simp only [List.length_append] at h1 hf
      have hd := hs.drop pre.len (by omega)
      rw [h2, List.drop_left] at hd
      obtain ⟨n, rest, he, hr, hres⟩ := ih _ _ hd (by omega)
      refine ⟨n + 1, rest, by rw [times_succ, List.append_assoc, ← he], hr, ?_⟩
      simp only [prefixLoop, bind_apply, C35_starts_with m str pre _ _ hs hp, decide_eq_true (List.prefix_append p s'), if_true,
        removePrefix, h2, if_neg (show ¬ str.len < p.length by omega), M.pure_apply, hres]
      congr 2
      rw [Nat.add_mul, Nat.one_mul]; omega
    · refine ⟨0, s, by simp [times], h, ?_⟩
      simp only [prefixLoop, bind_apply, C35_starts_with m str pre _ _ hs hp, decide_eq_false h, Nat.zero_mul, Nat.add_zero]
      cases str; simp_all

theorem suffixLoop_spec (m : Mem) (suf : SV) (p : List Nat) (hp : Denotes m suf p) (hne : p ≠ []) (fuel : Nat) :
    ∀ (str : SV) (s : List Nat), Denotes m str s → s.length ≤ fuel →
    ∃ n rest, s = rest ++ times n p ∧ ¬ p <:+ rest ∧ suffixLoop suf fuel str m = .ok ⟨str.ptr, rest.length⟩ m := by
  have hl : 0 < p.length := List.length_pos_of_ne_nil hne
  induction fuel with
  | zero =>
    intro str s hs hf
    have : s = [] := List.eq_nil_of_length_eq_zero (by omega)
    subst this
    have hn : ¬ p <:+ [] := by simpa using hne
    refine ⟨0, [], by simp [times], hn, ?_⟩
    have h1 := hs.1
    simp only [suffixLoop, bind_apply, C35_ends_with m str suf _ _ hs hp, decide_eq_false hn]
    cases str; simp_all
  | succ fuel ih =>
    intro str s hs hf
    have h1 := hs.1
    have h2 := hp.1
    by_cases h : p <:+ s
    · obtain ⟨s', rfl⟩ := h
      simp only [List.length_append] at h1 hf
      have hd := hs.take (str.len - suf.len) (by omega)
      rw [show str.len - suf.len = s'.length by omega, List.take_left] at hd
      obtain ⟨n, rest, he, hr, hres⟩ := ih _ _ hd (by omega)
      refine ⟨n + 1, rest, by rw [times_succ', ← List.append_assoc, ← he], hr, ?_⟩
      simp only [suffixLoop, bind_apply, C35_ends_with m str suf _ _ hs hp, decide_eq_true (List.suffix_append s' p), if_true,
        removeSuffix, if_neg (show ¬ str.len < suf.len by omega), M.pure_apply, show str.len - suf.len = s'.length by omega, hres]
    · refine ⟨0, s, by simp [times], h, ?_⟩
      simp only [suffixLoop, bind_apply, C35_ends_with m str suf _ _ hs hp, decide_eq_false h]
      cases str; simp_all

/-- C35. `remove_prefix_all` ends (after at most as many rounds as the string has characters) and strips copies of the
prefix until the rest no longer starts with it; what it returns is the rest, in place. -/
theorem C35_remove_prefix_all (m : Mem) (str pre : SV) (s p : List Nat) (hs : Denotes m str s) (hp : Denotes m pre p) (hne : p ≠ [])
    (fuel : Nat) (hf : s.length ≤ fuel) :
    ∃ n rest v, s = times n p ++ rest ∧ ¬ p <+: rest ∧ removePrefixAll fuel str pre m = .ok v m ∧
      Denotes m v rest ∧ v.ptr = str.ptr + n * p.length := by
  obtain ⟨n, rest, h1, h2, h3⟩ := prefixLoop_spec m pre p hp hne fuel str s hs hf
  have hl : 0 < pre.len := by rw [hp.1]; exact List.length_pos_of_ne_nil hne
  refine ⟨n, rest, _, h1, h2, by rw [removePrefixAll, if_neg (by omega), h3], ?_, rfl⟩
  have ht : (times n p).length = n * p.length := by simp [times]
  have := hs.drop (n * p.length) (by rw [hs.1, h1, List.length_append, ht]; omega)
  rw [h1, ← ht, List.drop_left] at this
  refine ⟨rfl, fun i hi => ?_⟩
  rw [← ht]
  exact this.2 i hi

/-- C35. `remove_suffix_all`, likewise. -/
theorem C35_remove_suffix_all (m : Mem) (str suf : SV) (s p : List Nat) (hs : Denotes m str s) (hp : Denotes m suf p) (hne : p ≠ [])
    (fuel : Nat) (hf : s.length ≤ fuel) :
    ∃ n rest v, s = rest ++ times n p ∧ ¬ p <:+ rest ∧ removeSuffixAll fuel str suf m = .ok v m ∧
      Denotes m v rest ∧ v.ptr = str.ptr := by
  obtain ⟨n, rest, h1, h2, h3⟩ := suffixLoop_spec m suf p hp hne fuel str s hs hf
  have hl : 0 < suf.len := by rw [hp.1]; exact List.length_pos_of_ne_nil hne
  refine ⟨n, rest, ⟨str.ptr, rest.length⟩, h1, h2, by rw [removeSuffixAll, if_neg (by omega), h3], ?_, rfl⟩
  have := hs.take rest.length (by rw [hs.1, h1, List.length_append]; omega)
  rw [h1, List.take_left] at this
  exact this

/-- C35. The number of copies stripped is the greatest possible: no string can be written with more of them. -/
theorem C35_maximal (s p rest : List Nat) (n : Nat) :
    (s = times n p ++ rest → ¬ p <+: rest → ∀ k r, s = times k p ++ r → k ≤ n) ∧
    (s = rest ++ times n p → ¬ p <:+ rest → ∀ k r, s = r ++ times k p → k ≤ n) := by
  constructor
  · rintro h hn k r hk
    by_contra hlt
    obtain ⟨d, rfl⟩ : ∃ d, k = n + 1 + d := ⟨k - (n + 1), by omega⟩
    apply hn
    have e : times (n + 1 + d) p = times n p ++ (p ++ times d p) := by
      simp [times, ← List.replicate_append_replicate, List.flatten_append, List.replicate_succ']
    rw [e, h, List.append_assoc, List.append_cancel_left_eq, List.append_assoc] at hk
    exact ⟨_, hk.symm⟩
  · rintro h hn k r hk
    by_contra hlt
    obtain ⟨d, rfl⟩ : ∃ d, k = d + 1 + n := ⟨k - (n + 1), by omega⟩
    apply hn
    have e : times (d + 1 + n) p = (times d p ++ p) ++ times n p := by
      simp [times, ← List.replicate_append_replicate, List.flatten_append, List.replicate_succ']
    rw [e, h, ← List.append_assoc, List.append_cancel_right_eq, ← List.append_assoc] at hk
    exact ⟨_, hk.symm⟩

/-- C35. With an empty affix the string comes back as it is. -/
theorem C35_empty_affix (m : Mem) (str affix : SV) (h : Denotes m affix []) (fuel : Nat) :
    removePrefixAll fuel str affix m = .ok str m ∧ removeSuffixAll fuel str affix m = .ok str m := by
  have : affix.len = 0 := h.1
  simp [removePrefixAll, removeSuffixAll, this]

/-- C35. `make_string_view` of a range denotes the characters of the range, also if there is nothing at its begin. -/
theorem C35_make_string_view (m : Mem) (b e : Nat) (s : List Nat) (h : Denotes m ⟨b, e - b⟩ s) (hle : b ≤ e) :
    (∃ v, makeStringView b e m = .ok v m ∧ Denotes m v s ∧ (b ≠ e → v.ptr = b)) ∧
    (∃ v, makeStringViewPtr b e m = .ok v m ∧ Denotes m v s ∧ v.ptr = b) := by
  have hl := h.1
  simp only at hl
  constructor
  · unfold makeStringView
    split
    · rename_i hbe
      have : s = [] := List.eq_nil_of_length_eq_zero (by omega)
      subst this
      exact ⟨_, rfl, ⟨rfl, fun i hi => by simp at hi⟩, fun hne => absurd hbe hne⟩
    · have h0 := h.2 0 (by omega)
      simp only [Nat.add_zero] at h0
      exact ⟨_, by simp only [rd, bind_apply, load, h0, M.pure_apply], h, fun _ => rfl⟩
  · exact ⟨_, rfl, h, rfl⟩

/-! ### Concrete cases -/

/-- "ababac" at 100, "ab" at 200 -/
def demoMem : Mem := fun p => if 100 ≤ p ∧ p < 106 then [97, 98, 97, 98, 97, 99][p - 100]? else if 200 ≤ p ∧ p < 202 then [97, 98][p - 200]? else none

example : Denotes demoMem ⟨100, 6⟩ [97, 98, 97, 98, 97, 99] ∧ Denotes demoMem ⟨200, 2⟩ [97, 98] := by
  refine ⟨⟨rfl, fun i hi => ?_⟩, ⟨rfl, fun i hi => ?_⟩⟩
  · match i, hi with
    | 0, _ => rfl
    | 1, _ => rfl
    | 2, _ => rfl
    | 3, _ => rfl
    | 4, _ => rfl
    | 5, _ => rfl
  · match i, hi with
    | 0, _ => rfl
    | 1, _ => rfl

example : removePrefixAll 6 ⟨100, 6⟩ ⟨200, 2⟩ demoMem = .ok ⟨104, 2⟩ demoMem := rfl
example : removeSuffixAll 4 ⟨100, 4⟩ ⟨200, 2⟩ demoMem = .ok ⟨100, 0⟩ demoMem := rfl

end Itlib.StrUtil
