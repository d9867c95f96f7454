import Verif.Flat.StepLemmas

/-!
# Properties of `flat_map` and `flat_set` (C15-C18, C48)
-/
namespace Itlib.Flat
open Itlib
variable {κ τ ε : Type}

theorem mrun_rel [DecidableEq ε] {key : ε → κ} {cap : Option Nat} : ∀ (ops : List (MOp κ ε)) (st : Store κ ε) (y : Spec.Sys κ ε),
    Rel key st y → Spec.MPreRun key cap ops y →
    ∃ st', mrun key cap ops st = some ((Spec.mrun key cap ops y).1, st') ∧ Rel key st' (Spec.mrun key cap ops y).2 := by
  intro ops
  induction ops with
  | nil => intro st y h _; exact ⟨st, rfl, h⟩
  | cons op ops ih =>
    intro st y h hp
    obtain ⟨st1, h1, h2⟩ := mcall_rel h op hp.1
    obtain ⟨st2, h3, h4⟩ := ih st1 _ h2 hp.2
    exact ⟨st2, by simp [mrun, h1, h3, Spec.mrun], h4⟩

/-- **C15.** In any program with any number of `flat_map`s, each with any strict weak order, and for any history of
calls meeting their preconditions: no undefined behaviour, every answer is the one of the abstract maps (bags of
entries, `Spec.mstep`), and afterwards each map holds exactly the abstract entries, in strictly increasing key order. -/
theorem C15_flat_map [DecidableEq (κ × τ)] (cap : Option Nat) (ops : List (MOp κ (κ × τ)))
    (hp : Spec.MPreRun Prod.fst cap ops fun _ => none) :
    ∃ st, mrun Prod.fst cap ops (fun _ => none) = some ((Spec.mrun Prod.fst cap ops fun _ => none).1, st) ∧
      ∀ i m, st i = some m → ∃ a, (Spec.mrun Prod.fst cap ops fun _ => none).2 i = some a ∧
        m.cs.Perm a.entries ∧ m.cs.Pairwise fun x y => a.lt x.1 y.1 = true := by
  obtain ⟨st, h1, h2⟩ := mrun_rel ops (fun _ => none) (fun _ => none) (by intro i; trivial) hp
  refine ⟨st, h1, ?_⟩
  intro i m hm
  have := h2 i
  rw [hm] at this
  cases hy : (Spec.mrun Prod.fst cap ops fun _ => none).2 i with
  | none => simp [hy] at this
  | some a =>
    simp only [hy] at this
    exact ⟨a, rfl, this.2.2.2, this.2.2.1⟩

/-- **C16.** The same for `flat_set` (an element is its own key). -/
theorem C16_flat_set [DecidableEq κ] (cap : Option Nat) (ops : List (MOp κ κ))
    (hp : Spec.MPreRun id cap ops fun _ => none) :
    ∃ st, mrun id cap ops (fun _ => none) = some ((Spec.mrun id cap ops fun _ => none).1, st) ∧
      ∀ i m, st i = some m → ∃ a, (Spec.mrun id cap ops fun _ => none).2 i = some a ∧
        m.cs.Perm a.entries ∧ m.cs.Pairwise fun x y => a.lt x y = true := by
  obtain ⟨st, h1, h2⟩ := mrun_rel ops (fun _ => none) (fun _ => none) (by intro i; trivial) hp
  refine ⟨st, h1, ?_⟩
  intro i m hm
  have := h2 i
  rw [hm] at this
  cases hy : (Spec.mrun id cap ops fun _ => none).2 i with
  | none => simp [hy] at this
  | some a =>
    simp only [hy] at this
    exact ⟨a, rfl, this.2.2.2, this.2.2.1⟩

/-! A concrete program: keys ordered by their remainder mod 10 (so that different keys are equivalent), two maps. -/

def demoLt (a b : Nat) : Bool := decide (a % 10 < b % 10)
theorem demoLt_sw : StrictWeak demoLt := by
  refine ⟨?_, ?_, ?_⟩ <;> simp only [demoLt, decide_eq_true_eq, decide_eq_false_iff_not] <;> intros <;> omega
def demoK (n : Nat) : Probe Nat := Probe.ofKey demoLt n
theorem demoK_of (n : Nat) : ProbeOf demoLt (demoK n) n := fun _ => ⟨rfl, rfl⟩
def demoOps : List (MOp Nat (Nat × Nat)) :=
  [.new 0 demoLt, .on 0 (.insert (demoK 7) (7, 70)), .on 0 (.insert (demoK 13) (13, 1)), .on 0 (.insert (demoK 17) (17, 5)),
   .on 0 (.index (demoK 5) (5, 0)), .on 0 (.update 1 fun e => (e.1, 55)), .on 0 (.at_ (demoK 25)),
   .build 1 demoLt [(4, 0), (12, 1), (2, 2)] [(12, 1), (2, 2), (4, 0)], .swap 0 1, .on 1 (.eraseKey (demoK 3)),
   .on 1 (.find (demoK 7)), .on 1 .size, .new 2 demoLt, .moveAssign 2 1, .on 1 .size, .on 2 .size]

example : Spec.MPreRun Prod.fst none demoOps fun _ => none := by
  have hk : ∀ n, Consistent demoLt (demoK n) := fun n => probeOf_consistent demoLt_sw (demoK_of n)
  simp only [demoOps, Spec.MPreRun, and_true]
  refine ⟨⟨rfl, demoLt_sw⟩, ⟨_, rfl, demoK_of _⟩, ⟨_, rfl, demoK_of _⟩, ⟨_, rfl, demoK_of _⟩, ⟨_, rfl, demoK_of _⟩,
    ⟨_, rfl, by decide, fun _ => rfl⟩, ⟨_, rfl, hk _⟩, ⟨rfl, demoLt_sw, by decide, by simp [Spec.Ordered, demoLt]⟩, ⟨rfl, rfl⟩,
    ⟨_, rfl, hk _⟩, ⟨_, rfl, hk _⟩, ⟨_, rfl, trivial⟩, ⟨rfl, demoLt_sw⟩, ⟨rfl, rfl, by decide⟩, ⟨_, rfl, trivial⟩, ⟨_, rfl, trivial⟩⟩

-- what the model answers on it
example : ((mrun Prod.fst none demoOps fun _ => none).map fun r => r.1.map fun
    | .pos i => (0, i, 0) | .posFlag i b => (1, i, b.toNat) | .num n => (2, n, 0) | .ref i e => (3, i, e.2) | _ => (4, 0, 0)) =
    some [(4, 0, 0), (1, 0, 1), (1, 0, 1), (1, 1, 0), (3, 1, 0), (4, 0, 0), (3, 1, 55), (4, 0, 0), (4, 0, 0), (2, 1, 0),
      (1 - 1, 1, 0), (2, 2, 0), (4, 0, 0), (4, 0, 0), (2, 0, 0), (2, 2, 0)] := by decide +kernel

/-! ### The map as a partial function -/

/-- the value a `flat_map` with contents `xs` associates to `k`, by exhaustive search for an equivalent key -/
def value (lt : κ → κ → Bool) (xs : List (κ × τ)) (k : κ) : Option τ :=
  (xs.find? fun e => !lt e.1 k && !lt k e.1).map Prod.snd

/-- equivalence of keys -/
def equiv (lt : κ → κ → Bool) (a b : κ) : Bool := !lt a b && !lt b a

theorem value_perm {lt : κ → κ → Bool} (hw : StrictWeak lt) {xs s : List (κ × τ)} (h : Sorted Prod.fst lt xs)
    (hs : xs.Perm s) (k : κ) : value lt xs k = value lt s k := by
  unfold value
  congr 1
  apply find?_perm hs
  have hp : ProbeOf lt (Probe.ofKey lt k) k := fun _ => ⟨rfl, rfl⟩
  by_cases hh : Spec.has Prod.fst (Probe.ofKey lt k) xs = true
  · obtain ⟨_, hu⟩ := matches_unique hw h hp hh
    exact unique_of_index fun j hj => (hu j hj).mp
  · intro a ha b _ h1
    exact absurd (List.any_eq_true.mpr ⟨a, ha, h1⟩) hh

theorem value_some_iff {lt : κ → κ → Bool} {xs : List (κ × τ)} {k : κ} :
    (value lt xs k).isSome = true ↔ Spec.has Prod.fst (Probe.ofKey lt k) xs = true := by
  simp only [value, Option.isSome_map, List.find?_isSome, Spec.has, List.any_eq_true]
  rfl

theorem value_cons {lt : κ → κ → Bool} {xs : List (κ × τ)} {e : κ × τ} {k : κ} :
    value lt (e :: xs) k = if equiv lt e.1 k then some e.2 else value lt xs k := by
  simp only [value, List.find?_cons, equiv]
  split <;> rename_i h <;> simp [h]

/-- the state of a reachable `flat_map` (see C15) -/
def IsMap (lt : κ → κ → Bool) (m : Flat κ (κ × τ)) : Prop :=
  m.lt = lt ∧ m.cs.Pairwise fun x y => lt x.1 y.1 = true

/-- **C15, insertion.** `insert`/`emplace` never overwrite; they add exactly the one key if it is absent. -/
theorem C15_flat_map_insert_function (lt : κ → κ → Bool) (hw : StrictWeak lt) (m : Flat κ (κ × τ)) (hm : IsMap lt m)
    (k : κ) (v : τ) : ∃ i m' e, insert Prod.fst none (Probe.ofKey lt k) (k, v) m = .ok (i, (value lt m.cs k).isNone) m' ∧
      IsMap lt m' ∧ m'.cs[i]? = some e ∧ some e.2 = value lt m'.cs k ∧
      ∀ k', value lt m'.cs k' =
        if (value lt m.cs k).isNone && equiv lt k k' then some v else value lt m.cs k' := by
  obtain ⟨lt', xs⟩ := m
  obtain ⟨hlt, h⟩ := hm
  simp only at hlt h
  subst hlt
  have hp : ProbeOf lt' (Probe.ofKey lt' k) k := fun _ => ⟨rfl, rfl⟩
  have hc := probeOf_consistent hw hp
  have hiff := value_some_iff (lt := lt') (xs := xs) (k := k)
  rw [insert_run hw h hp]
  by_cases hh : Spec.has Prod.fst (Probe.ofKey lt' k) xs = true
  · have hn : (value lt' xs k).isNone = false := by
      rw [← hiff] at hh; cases hv : value lt' xs k <;> simp [hv] at hh ⊢
    obtain ⟨hr, hu⟩ := matches_unique hw h hp hh
    simp only [hh, if_true, hn, Bool.false_and, Bool.false_eq_true, if_false]
    refine ⟨_, ⟨lt', xs⟩, _, rfl, ⟨rfl, h⟩, List.getElem?_eq_getElem hr, ?_, fun _ => rfl⟩
    have := find?_unique (p := fun x => Spec.Matches (Probe.ofKey lt' k) x.1) hr hu
    simp only [value]
    change _ = Option.map Prod.snd (xs.find? fun x => Spec.Matches (Probe.ofKey lt' k) x.1)
    rw [this]; rfl
  · have hn : (value lt' xs k).isNone = true := by
      rw [← hiff] at hh; cases hv : value lt' xs k <;> simp [hv] at hh ⊢
    have hs := sorted_insert hw h hp hh (e := (k, v))
    have hl := (rank_spec h hc).1
    simp only [hh, if_false, Bool.false_eq_true, hn, Bool.true_and, reduceCtorEq]
    refine ⟨_, ⟨lt', _⟩, (k, v), rfl, ⟨rfl, hs⟩, ?_, ?_, ?_⟩
    · rw [List.getElem?_append_right (by simp; omega)]
      simp [Nat.min_eq_left hl]
    · rw [value_perm hw hs (perm_insert _ _ _), value_cons]
      simp [equiv, hw.irrefl]
    · intro k'
      simp only
      rw [value_perm hw hs (perm_insert _ _ _), value_cons]

/-- **C15, `operator[]`.** Creates a default value for an absent key, otherwise leaves everything alone; refers to the
value of the key. -/
theorem C15_flat_map_index_function (lt : κ → κ → Bool) (hw : StrictWeak lt) (m : Flat κ (κ × τ)) (hm : IsMap lt m)
    (k : κ) (dflt : τ) : ∃ i m' e, index Prod.fst none (Probe.ofKey lt k) (k, dflt) m = .ok i m' ∧
      IsMap lt m' ∧ m'.cs[i]? = some e ∧ some e.2 = value lt m'.cs k ∧
      ∀ k', value lt m'.cs k' =
        if (value lt m.cs k).isNone && equiv lt k k' then some dflt else value lt m.cs k' := by
  obtain ⟨lt', xs⟩ := m
  obtain ⟨hlt, h⟩ := hm
  simp only at hlt h
  subst hlt
  have hp : ProbeOf lt' (Probe.ofKey lt' k) k := fun _ => ⟨rfl, rfl⟩
  have hc := probeOf_consistent hw hp
  have hiff := value_some_iff (lt := lt') (xs := xs) (k := k)
  rw [index_run hw h hp]
  by_cases hh : Spec.has Prod.fst (Probe.ofKey lt' k) xs = true
  · have hn : (value lt' xs k).isNone = false := by
      rw [← hiff] at hh; cases hv : value lt' xs k <;> simp [hv] at hh ⊢
    obtain ⟨hr, hu⟩ := matches_unique hw h hp hh
    simp only [hh, if_true, hn, Bool.false_and, Bool.false_eq_true, if_false]
    refine ⟨_, ⟨lt', xs⟩, _, rfl, ⟨rfl, h⟩, List.getElem?_eq_getElem hr, ?_, fun _ => rfl⟩
    have := find?_unique (p := fun x => Spec.Matches (Probe.ofKey lt' k) x.1) hr hu
    simp only [value]
    change _ = Option.map Prod.snd (xs.find? fun x => Spec.Matches (Probe.ofKey lt' k) x.1)
    rw [this]; rfl
  · have hn : (value lt' xs k).isNone = true := by
      rw [← hiff] at hh; cases hv : value lt' xs k <;> simp [hv] at hh ⊢
    have hs := sorted_insert hw h hp hh (e := (k, dflt))
    have hl := (rank_spec h hc).1
    simp only [hh, if_false, Bool.false_eq_true, hn, Bool.true_and, reduceCtorEq]
    refine ⟨_, ⟨lt', _⟩, (k, dflt), rfl, ⟨rfl, hs⟩, ?_, ?_, ?_⟩
    · rw [List.getElem?_append_right (by simp; omega)]
      simp [Nat.min_eq_left hl]
    · rw [value_perm hw hs (perm_insert _ _ _), value_cons]
      simp [equiv, hw.irrefl]
    · intro k'
      simp only
      rw [value_perm hw hs (perm_insert _ _ _), value_cons]

/-- **C15, `at`, `find`, `count`.** `at` throws exactly for absent keys and otherwise refers to the value of the key;
`find` and `count` agree. -/
theorem C15_flat_map_lookup_function (lt : κ → κ → Bool) (hw : StrictWeak lt) (m : Flat κ (κ × τ)) (hm : IsMap lt m) (k : κ) :
    (match value lt m.cs k with
      | none => at_ Prod.fst (Probe.ofKey lt k) m = .throw .outOfRange m ∧
          find Prod.fst (Probe.ofKey lt k) m = .ok m.cs.length m ∧ count Prod.fst (Probe.ofKey lt k) m = .ok 0 m
      | some v => ∃ i k', m.cs[i]? = some (k', v) ∧ equiv lt k' k = true ∧ at_ Prod.fst (Probe.ofKey lt k) m = .ok i m ∧
          find Prod.fst (Probe.ofKey lt k) m = .ok i m ∧ count Prod.fst (Probe.ofKey lt k) m = .ok 1 m) := by
  obtain ⟨lt', xs⟩ := m
  obtain ⟨hlt, h⟩ := hm
  simp only at hlt h
  subst hlt
  have hp : ProbeOf lt' (Probe.ofKey lt' k) k := fun _ => ⟨rfl, rfl⟩
  have hc := probeOf_consistent hw hp
  have hiff := value_some_iff (lt := lt') (xs := xs) (k := k)
  have hs : Sorted Prod.fst lt' xs := h
  simp only [at_run hs hc, find_run hs hc, count, M.bind_apply, M.get_apply, M.pure_apply]
  by_cases hh : Spec.has Prod.fst (Probe.ofKey lt' k) xs = true
  · obtain ⟨hr, hu⟩ := matches_unique hw h hp hh
    have hf := find?_unique (p := fun x => Spec.Matches (Probe.ofKey lt' k) x.1) hr hu
    have hv : value lt' xs k = some (xs[Spec.rank Prod.fst (Probe.ofKey lt' k) xs]).2 := by
      simp only [value]
      change Option.map Prod.snd (xs.find? fun x => Spec.Matches (Probe.ofKey lt' k) x.1) = _
      rw [hf]; rfl
    have hne : ¬ Spec.rank Prod.fst (Probe.ofKey lt' k) xs = xs.length := by omega
    simp only [hv, hh, if_true, hne, if_false]
    refine ⟨_, _, List.getElem?_eq_getElem hr, ?_, by trivial, by trivial, by trivial⟩
    exact (hu _ hr).mpr rfl
  · have hv : value lt' xs k = none := by
      rw [← hiff] at hh; cases hv : value lt' xs k <;> simp [hv] at hh ⊢
    simp [hv, hh]

/-- **C15, `erase`.** Removes exactly the key. -/
theorem C15_flat_map_erase_function (lt : κ → κ → Bool) (hw : StrictWeak lt) (m : Flat κ (κ × τ)) (hm : IsMap lt m) (k : κ) :
    ∃ m', eraseKey Prod.fst (Probe.ofKey lt k) m = .ok (if (value lt m.cs k).isSome then 1 else 0) m' ∧ IsMap lt m' ∧
      ∀ k', value lt m'.cs k' = if equiv lt k k' then none else value lt m.cs k' := by
  obtain ⟨lt', xs⟩ := m
  obtain ⟨hlt, h⟩ := hm
  simp only at hlt h
  subst hlt
  have hp : ProbeOf lt' (Probe.ofKey lt' k) k := fun _ => ⟨rfl, rfl⟩
  have hc := probeOf_consistent hw hp
  have hiff := value_some_iff (lt := lt') (xs := xs) (k := k)
  have hs : Sorted Prod.fst lt' xs := h
  have heq : ∀ a k', equiv lt' k k' = true → (equiv lt' a k' = true ↔ equiv lt' a k = true) := by
    intro a k' h1
    simp only [equiv, Bool.and_eq_true, Bool.not_eq_true'] at h1 ⊢
    constructor
    · rintro ⟨h2, h3⟩
      have := hw.incomp_trans _ _ _ h2 h3 h1.2 h1.1
      exact this
    · rintro ⟨h2, h3⟩
      have := hw.incomp_trans _ _ _ h2 h3 h1.1 h1.2
      exact this
  simp only [eraseKey, M.bind_apply, find_run hs hc, M.get_apply]
  by_cases hh : Spec.has Prod.fst (Probe.ofKey lt' k) xs = true
  · obtain ⟨hr, hu⟩ := matches_unique hw h hp hh
    have hne : ¬ Spec.rank Prod.fst (Probe.ofKey lt' k) xs = xs.length := by omega
    have hsome : (value lt' xs k).isSome = true := hiff.mpr hh
    simp only [hh, if_true, hne, if_false, M.bind_apply, eraseAt_run hr, M.pure_apply, hsome]
    refine ⟨_, rfl, ⟨rfl, List.Pairwise.sublist (List.eraseIdx_sublist _ _) h⟩, ?_⟩
    intro k'
    simp only
    rw [← filter_eraseIdx (p := fun x => Spec.Matches (Probe.ofKey lt' k) x.1) hr hu]
    simp only [value]
    have hm : ∀ a : κ × τ, Spec.Matches (Probe.ofKey lt' k) a.1 = equiv lt' a.1 k := fun _ => rfl
    have hm' : ∀ a : κ × τ, (!lt' a.1 k' && !lt' k' a.1) = equiv lt' a.1 k' := fun _ => rfl
    simp only [hm, hm', List.find?_filter]
    by_cases hkk : equiv lt' k k' = true
    · simp only [hkk, if_true]
      rw [Option.map_eq_none_iff, List.find?_eq_none]
      intro x _
      have := heq x.1 k' hkk
      cases h1 : equiv lt' x.1 k' <;> simp [h1] at this ⊢
      exact this
    · simp only [hkk, Bool.false_eq_true, if_false]
      congr 2
      funext x
      cases h1 : equiv lt' x.1 k' with
      | false => simp
      | true =>
        have : equiv lt' x.1 k = false := by
          by_contra hcon
          apply hkk
          have hcon' : equiv lt' x.1 k = true := by simpa using hcon
          simp only [equiv, Bool.and_eq_true, Bool.not_eq_true'] at h1 hcon' ⊢
          exact hw.incomp_trans _ _ _ hcon'.2 hcon'.1 h1.1 h1.2
        simp [this]
  · have hv : value lt' xs k = none := by
      rw [← hiff] at hh; cases hv : value lt' xs k <;> simp [hv] at hh ⊢
    simp only [hh, Bool.false_eq_true, if_false, if_true, M.pure_apply, hv, Option.isSome_none]
    refine ⟨_, rfl, ⟨rfl, h⟩, ?_⟩
    intro k'
    split
    · rename_i hkk
      simp only [value, Option.map_eq_none_iff, List.find?_eq_none] at hv ⊢
      intro x hx
      have h1 := hv x hx
      have h2 := heq x.1 k' hkk
      simp only [equiv] at h2
      rw [h2]; exact h1
    · rfl

example : IsMap demoLt (⟨demoLt, [(12, 1), (3, 2), (27, 0)]⟩ : Flat Nat (Nat × Nat)) :=
  ⟨rfl, by decide⟩

/-! ### Construction -/

/-- **C17.** Building from any sequence `ys`, whatever permutation of it ordered by the comparison `std::sort` produces:
the keys are strictly increasing, every stored element is an element of the input, and every input element has an
equivalent one stored. -/
theorem C17_construction (key : ε → κ) (lt : κ → κ → Bool) (hw : StrictWeak lt) (ys sorted : List ε) (hs : sorted.Perm ys)
    (ho : sorted.Pairwise fun a b => lt (key b) (key a) = false) :
    let m := ofContainer key lt sorted
    m.cs.Pairwise (fun a b => lt (key a) (key b) = true) ∧ (∀ e ∈ m.cs, e ∈ ys) ∧
      ∀ e ∈ ys, ∃ x ∈ m.cs, lt (key x) (key e) = false ∧ lt (key e) (key x) = false := by
  obtain ⟨h1, -⟩ := ofContainer_spec (key := key) hw ho
  have hu : ∀ (zs : List ε) (x : ε), Spec.Ordered key lt (x :: zs) →
      (∀ e ∈ uniqueLoop (fun a b => !lt (key a) (key b) && !lt (key b) (key a)) x zs, e ∈ x :: zs) ∧
      (∀ e ∈ x :: zs, ∃ y ∈ uniqueLoop (fun a b => !lt (key a) (key b) && !lt (key b) (key a)) x zs,
        lt (key y) (key e) = false ∧ lt (key e) (key y) = false) := by
    intro zs
    induction zs with
    | nil =>
      intro x _
      refine ⟨by simp [uniqueLoop], ?_⟩
      intro e he
      simp only [List.mem_singleton] at he
      subst he
      exact ⟨e, by simp [uniqueLoop], hw.irrefl _, hw.irrefl _⟩
    | cons z zs ih =>
      intro x hx
      simp only [Spec.Ordered, List.pairwise_cons] at hx
      obtain ⟨g1, g2, g3⟩ := hx
      simp only [uniqueLoop]
      split
      · rename_i heq
        simp only [Bool.and_eq_true, Bool.not_eq_true'] at heq
        obtain ⟨i1, i2⟩ := ih x (List.pairwise_cons.mpr ⟨fun a ha => g1 a (List.mem_cons_of_mem _ ha), g3⟩)
        refine ⟨?_, ?_⟩
        · intro e he
          have := i1 e he
          simp only [List.mem_cons] at this ⊢
          tauto
        · intro e he
          rcases List.mem_cons.mp he with rfl | he
          · exact i2 e List.mem_cons_self
          · rcases List.mem_cons.mp he with rfl | he
            · obtain ⟨y, hy, h5, h6⟩ := i2 x List.mem_cons_self
              exact ⟨y, hy, hw.incomp_trans _ _ _ h5 h6 heq.1 heq.2⟩
            · exact i2 e (List.mem_cons_of_mem _ he)
      · obtain ⟨i1, i2⟩ := ih z (List.pairwise_cons.mpr ⟨g2, g3⟩)
        refine ⟨?_, ?_⟩
        · intro e he
          rcases List.mem_cons.mp he with rfl | he
          · exact List.mem_cons_self
          · exact List.mem_cons_of_mem _ (i1 e he)
        · intro e he
          rcases List.mem_cons.mp he with rfl | he
          · exact ⟨e, List.mem_cons_self, hw.irrefl _, hw.irrefl _⟩
          · obtain ⟨y, hy, h5⟩ := i2 e he
            exact ⟨y, List.mem_cons_of_mem _ hy, h5⟩
  refine ⟨h1, ?_⟩
  cases hsd : sorted with
  | nil =>
    subst hsd
    have : ys = [] := List.Perm.nil_eq hs |>.symm
    subst this
    simp [ofContainer, unique]
  | cons x zs =>
    subst hsd
    obtain ⟨i1, i2⟩ := hu zs x ho
    exact ⟨fun e he => hs.mem_iff.mp (i1 e he), fun e he => i2 e (hs.mem_iff.mpr he)⟩

-- two different outcomes of the sort of the same input are both admissible and give different maps
example : let ys := [(4, 0), (12, 1), (2, 2)]
    ([(12, 1), (2, 2), (4, 0)] : List (Nat × Nat)).Perm ys ∧ ([(2, 2), (12, 1), (4, 0)] : List (Nat × Nat)).Perm ys ∧
    (ofContainer Prod.fst demoLt [(12, 1), (2, 2), (4, 0)]).cs = [(12, 1), (4, 0)] ∧
    (ofContainer Prod.fst demoLt [(2, 2), (12, 1), (4, 0)]).cs = [(2, 2), (4, 0)] := by decide

/-! ### Lookup -/

/-- **C18.** On strictly increasing contents `xs` and for any probe (of any type) whose comparisons fit the order:
`lower_bound`, `upper_bound`, `equal_range` and `find` never read out of the sequence; their results are exactly the
boundaries between the smaller, the equivalent and the greater elements; and they do at most `⌊log₂ size⌋ + 1`,
`⌊log₂ size⌋ + 1`, `2⌊log₂ size⌋ + 2` and `⌊log₂ size⌋ + 2` comparisons. -/
theorem C18_lookup (key : ε → κ) (lt : κ → κ → Bool) (xs : List ε)
    (hs : xs.Pairwise fun a b => lt (key a) (key b) = true) (k : Probe κ) (hk : Consistent lt k) :
    ∃ lo hi c₁ c₂ c₃ c₄,
      lowerBoundC key k xs = some (lo, c₁) ∧ upperBoundC key k xs = some (hi, c₂) ∧
      equalRangeC key k xs = some ((lo, hi), c₃) ∧ findC key k xs = some (if lo < hi then lo else xs.length, c₄) ∧
      lo ≤ hi ∧ hi ≤ xs.length ∧
      (∀ i (h : i < xs.length), (k.below (key xs[i]) = true ↔ i < lo) ∧ (k.above (key xs[i]) = true ↔ hi ≤ i)) ∧
      c₁ ≤ xs.length.log2 + 1 ∧ c₂ ≤ xs.length.log2 + 1 ∧ c₃ ≤ 2 * (xs.length.log2 + 1) ∧ c₄ ≤ xs.length.log2 + 2 := by
  obtain ⟨c1, a1, b1⟩ := lowerBoundC_eq (key := key) hs hk
  obtain ⟨c2, a2, b2⟩ := upperBoundC_eq (key := key) hs hk
  obtain ⟨c3, a3, b3⟩ := equalRangeC_eq (key := key) hs hk
  obtain ⟨c4, a4, b4⟩ := findC_eq (key := key) hs hk
  obtain ⟨r1, r2, r3⟩ := rank_spec (key := key) hs hk
  obtain ⟨u1, u2, u3⟩ := part_countP_lt (part_above (key := key) hs hk)
  have hlh : Spec.rank key k xs ≤ xs.countP (fun e => !k.above (key e)) := by
    by_contra hcon
    have hl : xs.countP (fun e => !k.above (key e)) < xs.length := by omega
    have h1 := r2 _ hl (by omega)
    have h2 := u3 _ hl (Nat.le_refl _)
    simp [hk.not_both _ h1] at h2
  have hhas : Spec.has key k xs = true ↔ Spec.rank key k xs < xs.countP (fun e => !k.above (key e)) := by
    rw [has_iff (key := key) hs hk]
    constructor
    · rintro ⟨h1, h2⟩
      by_contra hcon
      have := u3 _ h1 (by omega)
      simp [h2] at this
    · intro h1
      refine ⟨by omega, ?_⟩
      have := u2 _ (show Spec.rank key k xs < xs.length by omega) h1
      simpa using this
  refine ⟨_, _, c1, c2, c3, c4, a1, a2, a3, ?_, hlh, u1, ?_, b1, b2, b3, b4⟩
  · rw [a4]
    by_cases h : Spec.has key k xs = true
    · rw [if_pos h, if_pos (hhas.mp h)]
    · rw [if_neg h, if_neg (fun hc => h (hhas.mpr hc))]
  · intro i hi
    refine ⟨⟨?_, r2 i hi⟩, ?_, ?_⟩
    · intro hb
      by_contra hcon
      simp [r3 i hi (by omega)] at hb
    · intro ha
      by_contra hcon
      have := u2 i hi (by omega)
      simp [ha] at this
    · intro h
      have := u3 i hi h
      simpa using this

/-- a probe that is not a key: looking up keys by their tens digit, several keys are equivalent to it -/
example : Consistent (fun a b : Nat => decide (a < b)) ⟨fun a => decide (a / 10 < 2), fun a => decide (2 < a / 10)⟩ ∧
    findC id ⟨fun a => decide (a / 10 < 2), fun a => decide (2 < a / 10)⟩ [3, 17, 21, 24, 29, 30, 88] = some (2, 4) ∧
    equalRangeC id ⟨fun a => decide (a / 10 < 2), fun a => decide (2 < a / 10)⟩ [3, 17, 21, 24, 29, 30, 88] = some ((2, 5), 6) := by
  refine ⟨⟨?_, ?_, ?_⟩, ?_, ?_⟩
  · simp only [decide_eq_true_eq]; omega
  · simp only [decide_eq_true_eq]; omega
  · simp only [decide_eq_true_eq, decide_eq_false_iff_not]; omega
  · decide +kernel
  · decide +kernel

/-- **C48, flat containers.** For elements with any `operator==`: `==` is true iff the containers have the same size and
their elements, in increasing order of keys, are equal one by one; `!=` is its negation. -/
theorem C48_flat_eq_elementwise (eqv : ε → ε → Bool) (a b : Flat κ ε) :
    (eqBy eqv a b = true ↔ List.Forall₂ (fun x y => eqv x y = true) a.cs b.cs) ∧ neBy eqv a b = !eqBy eqv a b := by
  simp only [neBy, eqBy, eqCs_all2, all2_iff, and_self]

/-- **C48, flat containers.** Two containers with the same order compare equal iff they have the same elements. -/
theorem C48_flat_eq [DecidableEq ε] (key : ε → κ) (lt : κ → κ → Bool) (hw : StrictWeak lt) (a b : Flat κ ε)
    (ha : a.cs.Pairwise fun x y => lt (key x) (key y) = true) (hb : b.cs.Pairwise fun x y => lt (key x) (key y) = true) :
    eq a b = true ↔ ∀ e, e ∈ a.cs ↔ e ∈ b.cs := by
  simp only [eq, eqBy, eqCs_all2, all2_eq]
  constructor
  · intro h e; rw [h]
  · intro h; exact sorted_eq_of_mem (key := key) hw ha hb h

end Itlib.Flat
