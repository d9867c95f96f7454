import Verif.Flat.Exec
import Mathlib.Data.List.Basic

/-! # Proof engineering for `flat_map`/`flat_set` (no property statements here) -/
namespace Itlib.Flat
open Itlib
variable {κ ε : Type}

theorem countP_split {p : ε → Bool} {xs : List ε} {n : Nat} (hn : n ≤ xs.length)
    (h1 : ∀ i (h : i < xs.length), i < n → p xs[i] = true) (h2 : ∀ i (h : i < xs.length), n ≤ i → p xs[i] = false) :
    xs.countP p = n := by
  have h3 : (xs.take n).countP p = n := by
    have : (xs.take n).countP p = (xs.take n).length := by
      rw [List.countP_eq_length]
      intro a ha
      obtain ⟨i, hi, rfl⟩ := List.getElem_of_mem ha
      simp at hi
      simp only [List.getElem_take]
      exact h1 i (by omega) (by omega)
    rw [this]; simp; omega
  have h4 : (xs.drop n).countP p = 0 := by
    rw [List.countP_eq_zero]
    intro a ha
    obtain ⟨i, hi, rfl⟩ := List.getElem_of_mem ha
    simp at hi
    simp only [List.getElem_drop]
    rw [h2 (n + i) (by omega) (by omega)]
    simp
  have h5 : ((xs.take n) ++ (xs.drop n)).countP p = n + 0 := by rw [List.countP_append, h3, h4]
  rwa [List.take_append_drop] at h5

/-- `p` holds on an initial segment of `xs` only -/
def Part (p : ε → Bool) (xs : List ε) : Prop :=
  ∀ i j (hi : i < xs.length) (hj : j < xs.length), i < j → p xs[j] = true → p xs[i] = true

theorem boundLoop_eq {p : ε → Bool} {xs : List ε} (hp : Part p xs) : ∀ (len first cmps : Nat),
    first + len ≤ xs.length →
    (∀ i (h : i < xs.length), i < first → p xs[i] = true) →
    (∀ i (h : i < xs.length), first + len ≤ i → p xs[i] = false) →
    ∃ c, boundLoop p xs first len cmps = some (xs.countP p, c) ∧ ∀ k, len < 2 ^ k → c ≤ cmps + k := by
  intro len
  induction len using Nat.strongRecOn with
  | _ len ih =>
    intro first cmps hl h1 h2
    unfold boundLoop
    by_cases h0 : len = 0
    · subst h0
      rw [if_pos rfl]
      refine ⟨cmps, ?_, by omega⟩
      rw [countP_split (n := first) (by omega) h1 (by simpa using h2)]
    · rw [if_neg h0]
      have hm : first + len / 2 < xs.length := by omega
      rw [List.getElem?_eq_getElem hm]
      simp only
      have hk : ∀ k, len < 2 ^ k → ∃ k', k = k' + 1 ∧ len / 2 < 2 ^ k' ∧ len - len / 2 - 1 < 2 ^ k' := by
        intro k hk
        cases k with
        | zero => simp at hk; omega
        | succ k => rw [Nat.pow_succ] at hk; exact ⟨k, rfl, by omega, by omega⟩
      by_cases hpe : p xs[first + len / 2] = true
      · rw [if_pos hpe]
        obtain ⟨c, hc1, hc2⟩ := ih (len - len / 2 - 1) (by omega) (first + len / 2 + 1) (cmps + 1) (by omega)
          (by
            intro i hi hlt
            by_cases h3 : i = first + len / 2
            · subst h3; exact hpe
            · exact hp i _ hi hm (by omega) hpe)
          (by intro i hi hge; exact h2 i hi (by omega))
        refine ⟨c, hc1, ?_⟩
        intro k hk1
        obtain ⟨k', rfl, _, hk3⟩ := hk k hk1
        have := hc2 k' hk3
        omega
      · rw [if_neg hpe]
        obtain ⟨c, hc1, hc2⟩ := ih (len / 2) (by omega) first (cmps + 1) (by omega) h1
          (by
            intro i hi hge
            by_cases h3 : i = first + len / 2
            · subst h3; simpa using hpe
            · by_contra hcon
              exact hpe (hp _ i hm hi (by omega) (by simpa using hcon)))
        refine ⟨c, hc1, ?_⟩
        intro k hk1
        obtain ⟨k', rfl, hk2, _⟩ := hk k hk1
        have := hc2 k' hk2
        omega

theorem boundLoop_all {p : ε → Bool} {xs : List ε} (hp : Part p xs) :
    ∃ c, boundLoop p xs 0 xs.length 0 = some (xs.countP p, c) ∧ c ≤ xs.length.log2 + 1 := by
  obtain ⟨c, h1, h2⟩ := boundLoop_eq hp xs.length 0 0 (by omega) (by omega) (by intro i h; omega)
  refine ⟨c, h1, ?_⟩
  have := h2 (xs.length.log2 + 1) Nat.lt_log2_self
  omega

/-- strictly increasing keys -/
def Sorted (key : ε → κ) (lt : κ → κ → Bool) (xs : List ε) : Prop :=
  xs.Pairwise fun a b => lt (key a) (key b) = true

variable {key : ε → κ} {lt : κ → κ → Bool} {cap : Option Nat}

theorem Sorted.get {xs : List ε} (h : Sorted key lt xs) {i j : Nat} (hi : i < xs.length) (hj : j < xs.length)
    (hij : i < j) : lt (key xs[i]) (key xs[j]) = true :=
  List.pairwise_iff_getElem.mp h i j hi hj hij

theorem part_below {xs : List ε} {k : Probe κ} (h : Sorted key lt xs) (hk : Consistent lt k) :
    Part (fun e => k.below (key e)) xs := by
  intro i j hi hj hij hb
  exact hk.below_down _ _ (h.get hi hj hij) hb

theorem part_above {xs : List ε} {k : Probe κ} (h : Sorted key lt xs) (hk : Consistent lt k) :
    Part (fun e => !k.above (key e)) xs := by
  intro i j hi hj hij hb
  simp only [Bool.not_eq_true'] at hb ⊢
  by_contra hcon
  have := hk.above_up _ _ (h.get hi hj hij) (by simpa using hcon)
  simp [this] at hb

theorem lowerBoundC_eq {xs : List ε} {k : Probe κ} (h : Sorted key lt xs) (hk : Consistent lt k) :
    ∃ c, lowerBoundC key k xs = some (Spec.rank key k xs, c) ∧ c ≤ xs.length.log2 + 1 :=
  boundLoop_all (part_below h hk)

theorem upperBoundC_eq {xs : List ε} {k : Probe κ} (h : Sorted key lt xs) (hk : Consistent lt k) :
    ∃ c, upperBoundC key k xs = some (xs.countP (fun e => !k.above (key e)), c) ∧ c ≤ xs.length.log2 + 1 :=
  boundLoop_all (part_above h hk)

theorem part_countP_lt {p : ε → Bool} {xs : List ε} (hp : Part p xs) :
    xs.countP p ≤ xs.length ∧ (∀ i (h : i < xs.length), i < xs.countP p → p xs[i] = true) ∧
      ∀ i (h : i < xs.length), xs.countP p ≤ i → p xs[i] = false := by
  refine ⟨List.countP_le_length, ?_⟩
  -- the partition point exists
  have : ∃ n, n ≤ xs.length ∧ (∀ i (h : i < xs.length), i < n → p xs[i] = true) ∧
      ∀ i (h : i < xs.length), n ≤ i → p xs[i] = false := by
    induction xs with
    | nil => exact ⟨0, by simp⟩
    | cons x xs ih =>
      obtain ⟨n, h1, h2, h3⟩ := ih (by
        intro i j hi hj hij hpj
        have := hp (i+1) (j+1) (by simp; omega) (by simp; omega) (by omega) (by simpa using hpj)
        simpa using this)
      by_cases hx : p x = true
      · refine ⟨n+1, by simp; omega, ?_, ?_⟩
        · intro i hi hin
          cases i with
          | zero => simpa using hx
          | succ i => simpa using h2 i (by simp at hi; omega) (by omega)
        · intro i hi hin
          cases i with
          | zero => omega
          | succ i => simpa using h3 i (by simp at hi; omega) (by omega)
      · refine ⟨0, by omega, by omega, ?_⟩
        intro i hi _
        cases i with
        | zero => simpa using hx
        | succ i =>
          by_contra hcon
          have := hp 0 (i+1) (by simp) hi (by omega) (by simpa using hcon)
          exact hx (by simpa using this)
  obtain ⟨n, h1, h2, h3⟩ := this
  have := countP_split h1 h2 h3
  rw [this]
  exact ⟨h2, h3⟩

/-- what the partition point of `below` means -/
theorem rank_spec {xs : List ε} {k : Probe κ} (h : Sorted key lt xs) (hk : Consistent lt k) :
    Spec.rank key k xs ≤ xs.length ∧
    (∀ i (h : i < xs.length), i < Spec.rank key k xs → k.below (key xs[i]) = true) ∧
    (∀ i (h : i < xs.length), Spec.rank key k xs ≤ i → k.below (key xs[i]) = false) :=
  part_countP_lt (part_below h hk)

/-- an equivalent entry exists iff the first entry that is not smaller is equivalent -/
theorem has_iff {xs : List ε} {k : Probe κ} (h : Sorted key lt xs) (hk : Consistent lt k) :
    Spec.has key k xs = true ↔
      ∃ hr : Spec.rank key k xs < xs.length, k.above (key (xs[Spec.rank key k xs])) = false := by
  obtain ⟨h1, h2, h3⟩ := rank_spec h hk
  constructor
  · intro hh
    simp only [Spec.has, List.any_eq_true, Spec.Matches, Bool.and_eq_true, Bool.not_eq_true'] at hh
    obtain ⟨e, he, hb, ha⟩ := hh
    obtain ⟨i, hi, rfl⟩ := List.getElem_of_mem he
    have hri : Spec.rank key k xs ≤ i := by
      by_contra hcon
      have := h2 i hi (by omega)
      simp [this] at hb
    refine ⟨by omega, ?_⟩
    rcases Nat.lt_or_eq_of_le hri with hlt | heq
    · by_contra hcon
      have := hk.above_up _ _ (h.get (by omega) hi hlt) (by simpa using hcon)
      simp [this] at ha
    · simp only [heq]; exact ha
  · rintro ⟨hr, ha⟩
    simp only [Spec.has, List.any_eq_true, Spec.Matches, Bool.and_eq_true, Bool.not_eq_true']
    exact ⟨_, List.getElem_mem hr, h3 _ hr (Nat.le_refl _), ha⟩

theorem findC_eq {xs : List ε} {k : Probe κ} (h : Sorted key lt xs) (hk : Consistent lt k) :
    ∃ c, findC key k xs = some (if Spec.has key k xs then Spec.rank key k xs else xs.length, c) ∧
      c ≤ xs.length.log2 + 2 := by
  obtain ⟨c, h1, h2⟩ := lowerBoundC_eq h hk
  have hh := has_iff h hk
  obtain ⟨hr1, -, -⟩ := rank_spec h hk
  simp only [findC, h1, Option.bind_eq_bind, Option.bind_some]
  by_cases hr : Spec.rank key k xs = xs.length
  · have : ¬ (Spec.has key k xs = true) := by rw [hh]; rintro ⟨hlt, _⟩; omega
    simp only [hr, ne_eq, not_true_eq_false, if_false, this, Bool.false_eq_true]
    exact ⟨c, rfl, by omega⟩
  · have hlt : Spec.rank key k xs < xs.length := by omega
    simp only [ne_eq, hr, not_false_eq_true, if_true, List.getElem?_eq_getElem hlt, Option.bind_some]
    by_cases ha : k.above (key xs[Spec.rank key k xs]) = true
    · have : ¬ (Spec.has key k xs = true) := by
        rw [hh]; rintro ⟨_, h3⟩; simp [h3] at ha
      simp only [ha, Bool.not_true, Bool.false_eq_true, if_false, this]
      exact ⟨_, rfl, by omega⟩
    · have : Spec.has key k xs = true := by rw [hh]; exact ⟨hlt, by simpa using ha⟩
      simp only [ha, Bool.not_false, if_true, this]
      exact ⟨_, rfl, by omega⟩

theorem equalLoop_eq {xs : List ε} {k : Probe κ} (h : Sorted key lt xs) (hk : Consistent lt k) :
    ∀ (len first cmps : Nat), first + len ≤ xs.length →
    (∀ i (h : i < xs.length), i < first → k.below (key xs[i]) = true) →
    (∀ i (h : i < xs.length), first + len ≤ i → k.above (key xs[i]) = true) →
    ∃ c, equalLoop key k xs first len cmps =
      some ((Spec.rank key k xs, xs.countP (fun e => !k.above (key e))), c) ∧
      ∀ n, len < 2 ^ n → c ≤ cmps + 2 * n := by
  have hnb : ∀ a, k.above a = true → k.below a = false := by
    intro a ha
    by_contra hcon
    have := hk.not_both a (by simpa using hcon)
    simp [this] at ha
  intro len
  induction len using Nat.strongRecOn with
  | _ len ih =>
    intro first cmps hl h1 h2
    unfold equalLoop
    by_cases h0 : len = 0
    · subst h0
      rw [if_pos rfl]
      refine ⟨cmps, ?_, by omega⟩
      rw [show Spec.rank key k xs = first from countP_split (by omega) h1
        (fun i hi hge => hnb _ (h2 i hi (by omega)))]
      rw [countP_split (p := fun e => !k.above (key e)) (n := first) (by omega)
        (fun i hi hlt => by simp [hk.not_both _ (h1 i hi hlt)]) (fun i hi hge => by simp [h2 i hi (by omega)])]
    · rw [if_neg h0]
      have hm : first + len / 2 < xs.length := by omega
      rw [List.getElem?_eq_getElem hm]
      simp only
      have hkk : ∀ n, len < 2 ^ n → ∃ k', n = k' + 1 ∧ len / 2 < 2 ^ k' ∧ len - len / 2 - 1 < 2 ^ k' := by
        intro n hn
        cases n with
        | zero => simp at hn; omega
        | succ n => rw [Nat.pow_succ] at hn; exact ⟨n, rfl, by omega, by omega⟩
      by_cases hb : k.below (key xs[first + len / 2]) = true
      · rw [if_pos hb]
        obtain ⟨c, hc1, hc2⟩ := ih (len - len / 2 - 1) (by omega) (first + len / 2 + 1) (cmps + 1) (by omega)
          (by
            intro i hi hlt
            by_cases h3 : i = first + len / 2
            · subst h3; exact hb
            · exact hk.below_down _ _ (h.get hi hm (by omega)) hb)
          (by intro i hi hge; exact h2 i hi (by omega))
        refine ⟨c, hc1, ?_⟩
        intro n hn
        obtain ⟨n', rfl, _, hn3⟩ := hkk n hn
        have := hc2 n' hn3
        omega
      · rw [if_neg hb]
        by_cases ha : k.above (key xs[first + len / 2]) = true
        · rw [if_pos ha]
          obtain ⟨c, hc1, hc2⟩ := ih (len / 2) (by omega) first (cmps + 2) (by omega) h1
            (by
              intro i hi hge
              by_cases h3 : i = first + len / 2
              · subst h3; exact ha
              · exact hk.above_up _ _ (h.get hm hi (by omega)) ha)
          refine ⟨c, hc1, ?_⟩
          intro n hn
          obtain ⟨n', rfl, hn2, _⟩ := hkk n hn
          have := hc2 n' hn2
          omega
        · rw [if_neg ha]
          obtain ⟨c1, hc1, hd1⟩ := boundLoop_eq (part_below h hk) (len / 2) first (cmps + 2) (by omega) h1
            (by
              intro i hi hge
              by_cases h3 : i = first + len / 2
              · subst h3; simpa using hb
              · by_contra hcon
                exact hb (hk.below_down _ _ (h.get hm hi (by omega)) (by simpa using hcon)))
          obtain ⟨c2, hc2, hd2⟩ := boundLoop_eq (part_above h hk) (len - len / 2 - 1) (first + len / 2 + 1) c1 (by omega)
            (by
              intro i hi hlt
              by_cases h3 : i = first + len / 2
              · subst h3; simpa using ha
              · by_contra hcon
                exact ha (hk.above_up _ _ (h.get hi hm (by omega)) (by simpa using hcon)))
            (by intro i hi hge; simp [h2 i hi (by omega)])
          rw [hc1]
          simp only [Option.bind_eq_bind, Option.bind_some]
          rw [hc2]
          refine ⟨c2, rfl, ?_⟩
          intro n hn
          obtain ⟨n', rfl, hn2, hn3⟩ := hkk n hn
          have e1 := hd1 n' hn2
          have e2 := hd2 n' hn3
          omega

theorem equalRangeC_eq {xs : List ε} {k : Probe κ} (h : Sorted key lt xs) (hk : Consistent lt k) :
    ∃ c, equalRangeC key k xs = some ((Spec.rank key k xs, xs.countP (fun e => !k.above (key e))), c) ∧
      c ≤ 2 * (xs.length.log2 + 1) := by
  obtain ⟨c, h1, h2⟩ := equalLoop_eq h hk xs.length 0 0 (by omega) (by omega) (by intro i hi; omega)
  refine ⟨c, h1, ?_⟩
  have := h2 (xs.length.log2 + 1) Nat.lt_log2_self
  omega

theorem StrictWeak.asymm (hw : StrictWeak lt) {a b : κ} (h : lt a b = true) : lt b a = false := by
  by_contra hcon
  have := hw.trans _ _ _ h (by simpa using hcon)
  simp [hw.irrefl] at this

theorem probeOf_consistent (hw : StrictWeak lt) {k : Probe κ} {x : κ} (h : ProbeOf lt k x) : Consistent lt k := by
  refine ⟨?_, ?_, ?_⟩
  · intro a b hab hb
    rw [(h a).1]; rw [(h b).1] at hb
    exact hw.trans _ _ _ hab hb
  · intro a b hab ha
    rw [(h b).2]; rw [(h a).2] at ha
    exact hw.trans _ _ _ ha hab
  · intro a ha
    rw [(h a).2]; rw [(h a).1] at ha
    exact hw.asymm ha

/-- elements at different positions of a sorted sequence: positions are places -/
theorem place_get (hw : StrictWeak lt) {xs : List ε} (h : Sorted key lt xs) {i : Nat} (hi : i < xs.length) :
    Spec.place key lt xs xs[i] = i := by
  refine countP_split (by omega) (fun j hj hlt => h.get hj hi hlt) ?_
  intro j hj hge
  rcases Nat.lt_or_eq_of_le hge with hlt | heq
  · exact hw.asymm (h.get hi hj hlt)
  · subst heq; exact hw.irrefl _

theorem filter_eraseIdx {p : ε → Bool} : ∀ {xs : List ε} {i : Nat}, i < xs.length →
    (∀ j (hj : j < xs.length), p xs[j] = true ↔ j = i) → xs.filter (fun e => !p e) = xs.eraseIdx i := by
  intro xs
  induction xs with
  | nil => intro i hi; simp at hi
  | cons x xs ih =>
    intro i hi hp
    cases i with
    | zero =>
      have h0 := (hp 0 (by simp)).mpr rfl
      simp only [List.getElem_cons_zero] at h0
      simp only [List.filter_cons, h0, Bool.not_true, Bool.false_eq_true, if_false, List.eraseIdx_cons_zero]
      rw [List.filter_eq_self]
      intro a ha
      obtain ⟨j, hj, rfl⟩ := List.getElem_of_mem ha
      have := hp (j+1) (by simp; omega)
      simp only [List.getElem_cons_succ] at this
      simp; by_contra hcon
      have := this.mp (by simpa using hcon)
      omega
    | succ i =>
      have h0 := (hp 0 (by simp))
      simp only [List.getElem_cons_zero] at h0
      have h0' : p x = false := by
        by_contra hcon
        have := h0.mp (by simpa using hcon); omega
      simp only [List.filter_cons, h0', Bool.not_false, if_true, List.eraseIdx_cons_succ]
      rw [ih (by simpa using hi)]
      intro j hj
      have := hp (j+1) (by simp; omega)
      simp only [List.getElem_cons_succ] at this
      rw [this]; omega

theorem find?_unique {p : ε → Bool} {xs : List ε} {i : Nat} (hi : i < xs.length)
    (hp : ∀ j (hj : j < xs.length), p xs[j] = true ↔ j = i) : xs.find? p = some xs[i] := by
  rw [List.find?_eq_some_iff_getElem]
  refine ⟨(hp i hi).mpr rfl, i, hi, rfl, ?_⟩
  intro j hj
  simp; by_contra hcon
  have := (hp j (by omega)).mp (by simpa using hcon)
  omega

theorem isFirst_iff (hw : StrictWeak lt) {xs : List ε} {k : Probe κ} (h : Sorted key lt xs) (hk : Consistent lt k)
    (hh : Spec.has key k xs = true) : ∃ _hr : Spec.rank key k xs < xs.length,
    ∀ j (hj : j < xs.length), Spec.IsFirst key lt k xs xs[j] = true ↔ j = Spec.rank key k xs := by
  obtain ⟨hr, ha⟩ := (has_iff h hk).mp hh
  obtain ⟨h1, h2, h3⟩ := rank_spec h hk
  refine ⟨hr, ?_⟩
  intro j hj
  simp only [Spec.IsFirst, Bool.and_eq_true, List.all_eq_true, Bool.not_eq_true', Spec.Matches, Bool.and_eq_false_iff]
  constructor
  · rintro ⟨⟨hb, ha'⟩, hall⟩
    have hge : Spec.rank key k xs ≤ j := by
      by_contra hcon
      have := h2 j hj (by omega)
      simp [this] at hb
    rcases Nat.lt_or_eq_of_le hge with hlt | heq
    · have := hall _ (List.getElem_mem hr)
      have hb' := h3 _ hr (Nat.le_refl _)
      have := h.get hr hj hlt
      simp_all
    · exact heq.symm
  · rintro rfl
    refine ⟨⟨h3 _ hr (Nat.le_refl _), ha⟩, ?_⟩
    intro x hx
    obtain ⟨m, hm, rfl⟩ := List.getElem_of_mem hx
    by_cases hmr : m < Spec.rank key k xs
    · left; left; simp [h2 m hm hmr]
    · right
      rcases Nat.lt_or_eq_of_le (Nat.le_of_not_lt hmr) with hlt | heq
      · exact hw.asymm (h.get hr hm hlt)
      · subst heq; exact hw.irrefl _

theorem sorted_insert {xs : List ε} {k : Probe κ} {e : ε} (hw : StrictWeak lt) (h : Sorted key lt xs)
    (hk : ProbeOf lt k (key e)) (hh : ¬ Spec.has key k xs = true) :
    Sorted key lt (xs.take (Spec.rank key k xs) ++ e :: xs.drop (Spec.rank key k xs)) := by
  have hc := probeOf_consistent hw hk
  obtain ⟨h1, h2, h3⟩ := rank_spec h hc
  unfold Sorted
  rw [List.pairwise_append]
  have hlo : ∀ a ∈ xs.take (Spec.rank key k xs), lt (key a) (key e) = true := by
    intro a ha
    obtain ⟨i, hi, rfl⟩ := List.getElem_of_mem ha
    simp at hi
    rw [List.getElem_take]
    have := h2 i (by omega) (by omega)
    rwa [(hk _).1] at this
  have hhi : ∀ a ∈ xs.drop (Spec.rank key k xs), lt (key e) (key a) = true := by
    intro a ha
    obtain ⟨i, hi, rfl⟩ := List.getElem_of_mem ha
    simp at hi
    rw [List.getElem_drop]
    have h4 := h3 (Spec.rank key k xs + i) (by omega) (by omega)
    rw [← (hk _).2]
    by_contra hcon
    apply hh
    simp only [Spec.has, List.any_eq_true, Spec.Matches, Bool.and_eq_true, Bool.not_eq_true']
    exact ⟨_, List.getElem_mem (by omega), h4, by simpa using hcon⟩
  refine ⟨List.Pairwise.sublist (List.take_sublist _ _) h, ?_, ?_⟩
  · rw [List.pairwise_cons]
    exact ⟨hhi, List.Pairwise.sublist (List.drop_sublist _ _) h⟩
  · intro a ha b hb
    rcases List.mem_cons.mp hb with rfl | hb
    · exact hlo a ha
    · exact hw.trans _ _ _ (hlo a ha) (hhi b hb)

theorem find?_none_of_not_has {xs : List ε} {k : Probe κ} (hh : ¬ Spec.has key k xs = true) :
    xs.find? (fun x => Spec.Matches k (key x)) = none := by
  rw [List.find?_eq_none]
  intro x hx hm
  exact hh (List.any_eq_true.mpr ⟨x, hx, hm⟩)

theorem matches_unique (hw : StrictWeak lt) {xs : List ε} {k : Probe κ} {x : κ} (h : Sorted key lt xs) (hk : ProbeOf lt k x)
    (hh : Spec.has key k xs = true) : ∃ _hr : Spec.rank key k xs < xs.length,
    ∀ j (hj : j < xs.length), Spec.Matches k (key xs[j]) = true ↔ j = Spec.rank key k xs := by
  have hc := probeOf_consistent hw hk
  obtain ⟨hr, ha⟩ := (has_iff h hc).mp hh
  obtain ⟨h1, h2, h3⟩ := rank_spec h hc
  refine ⟨hr, ?_⟩
  intro j hj
  simp only [Spec.Matches, Bool.and_eq_true, Bool.not_eq_true']
  constructor
  · rintro ⟨hb, ha'⟩
    have hge : Spec.rank key k xs ≤ j := by
      by_contra hcon
      have := h2 j hj (by omega)
      simp [this] at hb
    rcases Nat.lt_or_eq_of_le hge with hlt | heq
    · have hb' := h3 _ hr (Nat.le_refl _)
      have hl := h.get hr hj hlt
      rw [(hk _).1] at hb hb'
      rw [(hk _).2] at ha ha'
      have := hw.incomp_trans _ _ _ hb' ha ha' hb
      simp [this.1] at hl
    · exact heq.symm
  · rintro rfl
    exact ⟨h3 _ hr (Nat.le_refl _), ha⟩

end Itlib.Flat
