import Verif.Core.All2
import Verif.Flat.Lemmas

/-! # Each call on the model does what the specification says (no property statements here) -/
namespace Itlib.Flat
open Itlib
variable {κ ε : Type} {key : ε → κ} {lt : κ → κ → Bool} {cap : Option Nat}

theorem lowerBound_run {xs : List ε} {k : Probe κ} (h : Sorted key lt xs) (hk : Consistent lt k) :
    lowerBound key k ⟨lt, xs⟩ = .ok (Spec.rank key k xs) ⟨lt, xs⟩ := by
  obtain ⟨c, h1, _⟩ := lowerBoundC_eq h hk
  simp [lowerBound, M.load, h1]

theorem find_run {xs : List ε} {k : Probe κ} (h : Sorted key lt xs) (hk : Consistent lt k) :
    find key k ⟨lt, xs⟩ = .ok (if Spec.has key k xs then Spec.rank key k xs else xs.length) ⟨lt, xs⟩ := by
  obtain ⟨c, h1, _⟩ := findC_eq h hk
  simp [find, M.load, h1]

theorem deref_run {xs : List ε} {i : Nat} (hi : i < xs.length) : deref i (⟨lt, xs⟩ : Flat κ ε) = .ok xs[i] ⟨lt, xs⟩ := by
  simp [deref, M.load, hi]

theorem sorted_set (hw : StrictWeak lt) {xs : List ε} (h : Sorted key lt xs) {i : Nat} (hi : i < xs.length) {e : ε}
    (he : key e = key xs[i]) : Sorted key lt (xs.set i e) := by
  unfold Sorted
  rw [List.pairwise_iff_getElem]
  intro a b ha hb hab
  simp only [List.length_set] at ha hb
  have hk : ∀ j (hj : j < xs.length), key ((xs.set i e)[j]'(by simpa using hj)) = key xs[j] := by
    intro j hj
    rw [List.getElem_set]
    split
    · rename_i hij; subst hij; exact he
    · rfl
  rw [hk a ha, hk b hb]
  exact h.get ha hb hab

theorem map_place (hw : StrictWeak lt) {xs : List ε} (h : Sorted key lt xs) {i : Nat} (hi : i < xs.length) (f : ε → ε) :
    xs.map (fun e => if Spec.place key lt xs e = i then f e else e) = xs.set i (f xs[i]) := by
  apply List.ext_getElem
  · simp
  · intro j h1 h2
    simp only [List.length_map] at h1
    simp only [List.getElem_map, place_get hw h h1, List.getElem_set]
    by_cases hji : j = i
    · subst hji; simp
    · simp [hji, Ne.symm hji]

/-- the insertion part shared by `insert` and `operator[]` -/
theorem emplace_run {xs : List ε} {i : Nat} {e : ε} :
    emplace cap i e (⟨lt, xs⟩ : Flat κ ε) =
      if cap = some xs.length then .throw .outOfRange ⟨lt, xs⟩ else .ok i ⟨lt, xs.take i ++ e :: xs.drop i⟩ := by
  simp only [emplace, M.bind_apply, M.get_apply]
  split <;> simp

theorem rank_has_lt {xs : List ε} {k : Probe κ} (h : Sorted key lt xs) (hk : Consistent lt k)
    (hh : Spec.has key k xs = true) : Spec.rank key k xs < xs.length := ((has_iff h hk).mp hh).1

/-- for arguments that need not compare like the inserted key -/
theorem insert_run_any {xs : List ε} {k : Probe κ} {e : ε} (h : Sorted key lt xs) (hc : Consistent lt k) :
    insert key cap k e ⟨lt, xs⟩ =
      if Spec.has key k xs then .ok (Spec.rank key k xs, false) ⟨lt, xs⟩
      else if cap = some xs.length then .throw .outOfRange ⟨lt, xs⟩
      else .ok (Spec.rank key k xs, true) ⟨lt, xs.take (Spec.rank key k xs) ++ e :: xs.drop (Spec.rank key k xs)⟩ := by
  have hh := has_iff h hc
  obtain ⟨hr1, -, -⟩ := rank_spec h hc
  simp only [insert, M.bind_apply, lowerBound_run h hc, M.get_apply]
  by_cases hr : Spec.rank key k xs = xs.length
  · have hn : ¬ Spec.has key k xs = true := by rw [hh]; rintro ⟨hlt, _⟩; omega
    simp only [ne_eq, hr, not_true_eq_false, if_false, hn, M.bind_apply, emplace_run, Bool.false_eq_true]
    by_cases hcap : cap = some xs.length <;> simp [hcap]
  · have hlt : Spec.rank key k xs < xs.length := by omega
    simp only [ne_eq, hr, not_false_eq_true, if_true, M.bind_apply, deref_run hlt]
    by_cases ha : k.above (key xs[Spec.rank key k xs]) = true
    · have hn : ¬ Spec.has key k xs = true := by rw [hh]; rintro ⟨_, h3⟩; simp [h3] at ha
      simp only [ha, Bool.not_true, Bool.false_eq_true, if_false, hn, M.bind_apply, emplace_run]
      by_cases hcap : cap = some xs.length <;> simp [hcap]
    · have hy : Spec.has key k xs = true := by rw [hh]; exact ⟨hlt, by simpa using ha⟩
      simp [ha, hy]

theorem insert_run {xs : List ε} {k : Probe κ} {e : ε} (hw : StrictWeak lt) (h : Sorted key lt xs) (hk : ProbeOf lt k (key e)) :
    insert key cap k e ⟨lt, xs⟩ =
      if Spec.has key k xs then .ok (Spec.rank key k xs, false) ⟨lt, xs⟩
      else if cap = some xs.length then .throw .outOfRange ⟨lt, xs⟩
      else .ok (Spec.rank key k xs, true) ⟨lt, xs.take (Spec.rank key k xs) ++ e :: xs.drop (Spec.rank key k xs)⟩ :=
  insert_run_any h (probeOf_consistent hw hk)

/-- for arguments that need not compare like the inserted key -/
theorem index_run_any {xs : List ε} {k : Probe κ} {e : ε} (h : Sorted key lt xs) (hc : Consistent lt k) :
    index key cap k e ⟨lt, xs⟩ =
      if Spec.has key k xs then .ok (Spec.rank key k xs) ⟨lt, xs⟩
      else if cap = some xs.length then .throw .outOfRange ⟨lt, xs⟩
      else .ok (Spec.rank key k xs) ⟨lt, xs.take (Spec.rank key k xs) ++ e :: xs.drop (Spec.rank key k xs)⟩ := by
  have hh := has_iff h hc
  obtain ⟨hr1, -, -⟩ := rank_spec h hc
  simp only [index, M.bind_apply, lowerBound_run h hc, M.get_apply]
  by_cases hr : Spec.rank key k xs = xs.length
  · have hn : ¬ Spec.has key k xs = true := by rw [hh]; rintro ⟨hlt, _⟩; omega
    simp only [ne_eq, hr, not_true_eq_false, if_false, hn, emplace_run, Bool.false_eq_true]
  · have hlt : Spec.rank key k xs < xs.length := by omega
    simp only [ne_eq, hr, not_false_eq_true, if_true, M.bind_apply, deref_run hlt]
    by_cases ha : k.above (key xs[Spec.rank key k xs]) = true
    · have hn : ¬ Spec.has key k xs = true := by rw [hh]; rintro ⟨_, h3⟩; simp [h3] at ha
      simp only [ha, Bool.not_true, Bool.false_eq_true, if_false, hn, emplace_run]
    · have hy : Spec.has key k xs = true := by rw [hh]; exact ⟨hlt, by simpa using ha⟩
      simp [ha, hy]

theorem index_run {xs : List ε} {k : Probe κ} {e : ε} (hw : StrictWeak lt) (h : Sorted key lt xs) (hk : ProbeOf lt k (key e)) :
    index key cap k e ⟨lt, xs⟩ =
      if Spec.has key k xs then .ok (Spec.rank key k xs) ⟨lt, xs⟩
      else if cap = some xs.length then .throw .outOfRange ⟨lt, xs⟩
      else .ok (Spec.rank key k xs) ⟨lt, xs.take (Spec.rank key k xs) ++ e :: xs.drop (Spec.rank key k xs)⟩ :=
  index_run_any h (probeOf_consistent hw hk)

theorem at_run {xs : List ε} {k : Probe κ} (h : Sorted key lt xs) (hc : Consistent lt k) :
    at_ key k ⟨lt, xs⟩ =
      if Spec.has key k xs then .ok (Spec.rank key k xs) ⟨lt, xs⟩ else .throw .outOfRange ⟨lt, xs⟩ := by
  have hh := has_iff h hc
  obtain ⟨hr1, -, -⟩ := rank_spec h hc
  simp only [at_, M.bind_apply, lowerBound_run h hc, M.get_apply]
  by_cases hr : Spec.rank key k xs = xs.length
  · have hn : ¬ Spec.has key k xs = true := by rw [hh]; rintro ⟨hlt, _⟩; omega
    simp [hr, hn]
  · have hlt : Spec.rank key k xs < xs.length := by omega
    simp only [hr, if_false, M.bind_apply, deref_run hlt]
    by_cases ha : k.above (key xs[Spec.rank key k xs]) = true
    · have hn : ¬ Spec.has key k xs = true := by rw [hh]; rintro ⟨_, h3⟩; simp [h3] at ha
      simp [ha, hn]
    · have hy : Spec.has key k xs = true := by rw [hh]; exact ⟨hlt, by simpa using ha⟩
      simp [ha, hy]

theorem eraseAt_run {xs : List ε} {i : Nat} (hi : i < xs.length) :
    eraseAt i (⟨lt, xs⟩ : Flat κ ε) = .ok i ⟨lt, xs.eraseIdx i⟩ := by
  simp [eraseAt, hi]

theorem perm_insert (xs : List ε) (n : Nat) (e : ε) : (xs.take n ++ e :: xs.drop n).Perm (e :: xs) := by
  have h := List.perm_middle (a := e) (l₁ := xs.take n) (l₂ := xs.drop n)
  rwa [List.take_append_drop] at h

theorem call_sorted (hw : StrictWeak lt) {xs : List ε} (h : Sorted key lt xs) (op : Op κ ε) (hp : Spec.Pre key lt op xs) :
    ∃ xs', call key cap op ⟨lt, xs⟩ = some ((Spec.step key cap lt op xs).1, ⟨lt, xs'⟩) ∧
      xs'.Perm (Spec.step key cap lt op xs).2 ∧ Sorted key lt xs' := by
  cases op with
  | insert k e =>
    simp only [call, exec, Spec.step, M.bind_apply, insert_run hw h hp]
    by_cases hn : Spec.has key k xs = true
    · simp only [hn, if_true]
      exact ⟨xs, rfl, .refl _, h⟩
    · simp only [hn, Bool.false_eq_true, if_false]
      by_cases hcap : cap = some xs.length
      · simp only [hcap, if_true]
        exact ⟨xs, rfl, .refl _, h⟩
      · simp only [hcap, if_false]
        exact ⟨_, rfl, perm_insert _ _ _, sorted_insert hw h hp hn⟩
  | index k e =>
    simp only [call, exec, Spec.step, M.bind_apply, index_run hw h hp]
    by_cases hh : Spec.has key k xs = true
    · obtain ⟨hr, hu⟩ := matches_unique hw h hp hh
      rw [find?_unique hr hu]
      simp only [hh, if_true, deref_run hr, M.pure_apply]
      exact ⟨xs, rfl, .refl _, h⟩
    · rw [find?_none_of_not_has hh]
      simp only [hh, if_false, Bool.false_eq_true]
      by_cases hcap : cap = some xs.length
      · simp only [hcap, if_true]
        exact ⟨xs, rfl, .refl _, h⟩
      · simp only [hcap, if_false]
        have hl := (rank_spec h (probeOf_consistent hw hp)).1
        have hlt : Spec.rank key k xs < (xs.take (Spec.rank key k xs) ++ e :: xs.drop (Spec.rank key k xs)).length := by
          simp; omega
        simp only [deref_run hlt, M.pure_apply]
        refine ⟨_, ?_, perm_insert _ _ _, sorted_insert hw h hp hh⟩
        have : (xs.take (Spec.rank key k xs) ++ e :: xs.drop (Spec.rank key k xs))[Spec.rank key k xs] = e := by
          rw [List.getElem_append_right (by simp; omega)]
          simp [Nat.min_eq_left hl]
        rw [this]
  | at_ k =>
    simp only [call, exec, Spec.step, M.bind_apply, at_run h hp]
    by_cases hh : Spec.has key k xs = true
    · obtain ⟨hr, hu⟩ := isFirst_iff hw h hp hh
      rw [find?_unique hr hu]
      simp only [hh, if_true, deref_run hr, M.pure_apply]
      exact ⟨xs, rfl, .refl _, h⟩
    · have : xs.find? (fun x => Spec.IsFirst key lt k xs x) = none := by
        rw [List.find?_eq_none]
        intro x hx hm
        simp only [Spec.IsFirst, Bool.and_eq_true] at hm
        exact hh (List.any_eq_true.mpr ⟨x, hx, hm.1⟩)
      rw [this]
      simp only [hh]
      exact ⟨xs, rfl, .refl _, h⟩
  | eraseKey k =>
    simp only [call, exec, Spec.step, M.bind_apply, eraseKey, find_run h hp, M.get_apply]
    by_cases hh : Spec.has key k xs = true
    · obtain ⟨hr, hu⟩ := isFirst_iff hw h hp hh
      have hne : ¬ Spec.rank key k xs = xs.length := by omega
      simp only [hh, if_true, hne, if_false, M.bind_apply, eraseAt_run hr, M.pure_apply]
      rw [filter_eraseIdx hr hu]
      exact ⟨_, rfl, .refl _, List.Pairwise.sublist (List.eraseIdx_sublist _ _) h⟩
    · simp only [hh, if_false, Bool.false_eq_true, if_true, M.pure_apply]
      exact ⟨xs, rfl, .refl _, h⟩
  | eraseAt i =>
    simp only [call, exec, Spec.step, M.bind_apply, eraseAt_run (show i < xs.length from hp), M.pure_apply]
    rw [filter_eraseIdx (p := fun e => decide (Spec.place key lt xs e = i)) (show i < xs.length from hp)
      (by intro j hj; simp [place_get hw h hj])]
    exact ⟨_, rfl, .refl _, List.Pairwise.sublist (List.eraseIdx_sublist _ _) h⟩
  | find k =>
    simp only [call, exec, Spec.step, M.bind_apply, find_run h hp, M.pure_apply]
    exact ⟨xs, rfl, .refl _, h⟩
  | count k =>
    simp only [call, exec, Spec.step, M.bind_apply, count, find_run h hp, M.pure_apply, M.get_apply]
    by_cases hh : Spec.has key k xs = true
    · have := rank_has_lt h hp hh
      have hne : ¬ Spec.rank key k xs = xs.length := by omega
      simp only [hh, if_true, hne, if_false]
      exact ⟨xs, rfl, .refl _, h⟩
    · simp only [hh, if_false, Bool.false_eq_true, if_true]
      exact ⟨xs, rfl, .refl _, h⟩
  | lowerBound k =>
    simp only [call, exec, Spec.step, M.bind_apply, lowerBound_run h hp, M.pure_apply]
    exact ⟨xs, rfl, .refl _, h⟩
  | upperBound k =>
    obtain ⟨c, h1, _⟩ := upperBoundC_eq h hp
    simp only [call, exec, Spec.step, M.bind_apply, upperBound, M.load, h1, Option.map_some, M.pure_apply]
    exact ⟨xs, rfl, .refl _, h⟩
  | equalRange k =>
    obtain ⟨c, h1, _⟩ := equalRangeC_eq h hp
    simp only [call, exec, Spec.step, M.bind_apply, equalRange, M.load, h1, Option.map_some, M.pure_apply]
    exact ⟨xs, rfl, .refl _, h⟩
  | get i =>
    have hi : i < xs.length := hp
    simp only [call, exec, Spec.step, M.bind_apply, deref_run hi, M.pure_apply]
    rw [find?_unique (p := fun e => decide (Spec.place key lt xs e = i)) hi
      (by intro j hj; simp [place_get hw h hj])]
    exact ⟨xs, rfl, .refl _, h⟩
  | update i f =>
    obtain ⟨hi, hf⟩ := hp
    simp only [call, exec, Spec.step, M.bind_apply, update, deref_run hi, M.modify_apply, M.pure_apply]
    rw [map_place hw h hi]
    exact ⟨_, rfl, .refl _, sorted_set hw h hi (hf _)⟩
  | size => exact ⟨xs, rfl, .refl _, h⟩
  | clear => exact ⟨[], rfl, .refl _, List.Pairwise.nil⟩

theorem find?_perm {p : ε → Bool} {xs s : List ε} (hp : xs.Perm s)
    (hu : ∀ a ∈ xs, ∀ b ∈ xs, p a = true → p b = true → a = b) : xs.find? p = s.find? p := by
  cases hs : s.find? p with
  | none =>
    rw [List.find?_eq_none] at hs ⊢
    intro x hx; exact hs x (hp.mem_iff.mp hx)
  | some b =>
    have hb := List.mem_of_find?_eq_some hs
    have hpb := List.find?_some hs
    have hbx := hp.mem_iff.mpr hb
    cases hx : xs.find? p with
    | none => rw [List.find?_eq_none] at hx; exact absurd hpb (hx b hbx)
    | some a => rw [hu a (List.mem_of_find?_eq_some hx) b hbx (List.find?_some hx) hpb]

theorem unique_of_index {p : ε → Bool} {xs : List ε} {i : Nat}
    (hp : ∀ j (hj : j < xs.length), p xs[j] = true → j = i) :
    ∀ a ∈ xs, ∀ b ∈ xs, p a = true → p b = true → a = b := by
  intro a ha b hb h1 h2
  obtain ⟨m, hm, rfl⟩ := List.getElem_of_mem ha
  obtain ⟨n, hn, rfl⟩ := List.getElem_of_mem hb
  have := hp m hm h1
  have := hp n hn h2
  subst_vars
  rfl

theorem rank_perm {xs s : List ε} (h : xs.Perm s) (k : Probe κ) : Spec.rank key k xs = Spec.rank key k s :=
  h.countP_eq _
theorem has_perm {xs s : List ε} (h : xs.Perm s) (k : Probe κ) : Spec.has key k xs = Spec.has key k s := by
  unfold Spec.has
  rw [Bool.eq_iff_iff, List.any_eq_true, List.any_eq_true]
  simp only [h.mem_iff]
theorem place_perm {xs s : List ε} (h : xs.Perm s) : Spec.place key lt xs = Spec.place key lt s := by
  funext e; exact h.countP_eq _
theorem isFirst_perm {xs s : List ε} (h : xs.Perm s) (k : Probe κ) : Spec.IsFirst key lt k xs = Spec.IsFirst key lt k s := by
  funext e
  simp only [Spec.IsFirst]
  congr 1
  rw [Bool.eq_iff_iff, List.all_eq_true, List.all_eq_true]
  simp only [h.mem_iff]

theorem step_perm (hw : StrictWeak lt) {xs s : List ε} (h : Sorted key lt xs) (hs : xs.Perm s) (op : Op κ ε)
    (hp : Spec.Pre key lt op xs) :
    (Spec.step key cap lt op xs).1 = (Spec.step key cap lt op s).1 ∧
    (Spec.step key cap lt op xs).2.Perm (Spec.step key cap lt op s).2 := by
  cases op with
  | insert k e =>
    simp only [Spec.step, has_perm hs, rank_perm hs, hs.length_eq]
    split
    · exact ⟨rfl, hs⟩
    · split
      · exact ⟨rfl, hs⟩
      · exact ⟨rfl, hs.cons e⟩
  | index k e =>
    have hf : xs.find? (fun x => Spec.Matches k (key x)) = s.find? (fun x => Spec.Matches k (key x)) := by
      by_cases hh : Spec.has key k xs = true
      · obtain ⟨hr, hu⟩ := matches_unique hw h hp hh
        exact find?_perm hs (unique_of_index fun j hj => (hu j hj).mp)
      · rw [find?_none_of_not_has hh, find?_none_of_not_has (by rwa [← has_perm hs])]
    simp only [Spec.step, hf, rank_perm hs, hs.length_eq]
    split
    · exact ⟨rfl, hs⟩
    · split
      · exact ⟨rfl, hs⟩
      · exact ⟨rfl, hs.cons e⟩
  | at_ k =>
    have hf : xs.find? (fun x => Spec.IsFirst key lt k xs x) = s.find? (fun x => Spec.IsFirst key lt k s x) := by
      rw [isFirst_perm hs]
      apply find?_perm hs
      rw [← isFirst_perm hs]
      by_cases hh : Spec.has key k xs = true
      · obtain ⟨hr, hu⟩ := isFirst_iff hw h hp hh
        exact unique_of_index fun j hj => (hu j hj).mp
      · intro a ha b hb h1
        simp only [Spec.IsFirst, Bool.and_eq_true] at h1
        exact absurd (List.any_eq_true.mpr ⟨a, ha, h1.1⟩) hh
    simp only [Spec.step, hf, rank_perm hs]
    split <;> exact ⟨rfl, hs⟩
  | eraseKey k =>
    simp only [Spec.step, has_perm hs, isFirst_perm hs]
    split
    · exact ⟨rfl, hs.filter _⟩
    · exact ⟨rfl, hs⟩
  | eraseAt i => simp only [Spec.step, place_perm hs]; exact ⟨trivial, hs.filter _⟩
  | find k => simp only [Spec.step, has_perm hs, rank_perm hs, hs.length_eq]; exact ⟨trivial, hs⟩
  | count k => simp only [Spec.step, has_perm hs]; exact ⟨trivial, hs⟩
  | lowerBound k => simp only [Spec.step, rank_perm hs]; exact ⟨trivial, hs⟩
  | upperBound k => simp only [Spec.step, hs.countP_eq]; exact ⟨trivial, hs⟩
  | equalRange k => simp only [Spec.step, rank_perm hs, hs.countP_eq]; exact ⟨trivial, hs⟩
  | get i =>
    have hf : xs.find? (fun e => decide (Spec.place key lt xs e = i)) = s.find? (fun e => decide (Spec.place key lt s e = i)) := by
      rw [place_perm hs]
      apply find?_perm hs
      rw [← place_perm hs]
      exact unique_of_index (i := i) fun j hj => by simp [place_get hw h hj]
    simp only [Spec.step, hf]
    split <;> exact ⟨rfl, hs⟩
  | update i f => simp only [Spec.step, place_perm hs]; exact ⟨trivial, hs.map _⟩
  | size => simp only [Spec.step, hs.length_eq]; exact ⟨trivial, hs⟩
  | clear => exact ⟨rfl, .refl _⟩

theorem pre_perm {xs s : List ε} (hs : xs.Perm s) (op : Op κ ε) (hp : Spec.Pre key lt op s) : Spec.Pre key lt op xs := by
  cases op <;> simp only [Spec.Pre, hs.length_eq] at hp ⊢ <;> exact hp

/-! ### Construction -/

theorem unique_sorted (hw : StrictWeak lt) : ∀ (ys : List ε) (x : ε), Spec.Ordered key lt (x :: ys) →
    Sorted key lt (uniqueLoop (fun a b => !lt (key a) (key b) && !lt (key b) (key a)) x ys) ∧
    (∀ e ∈ uniqueLoop (fun a b => !lt (key a) (key b) && !lt (key b) (key a)) x ys, e = x ∨ lt (key x) (key e) = true) := by
  intro ys
  induction ys with
  | nil => intro x _; simp [uniqueLoop, Sorted]
  | cons y ys ih =>
    intro x ho
    simp only [Spec.Ordered, List.pairwise_cons] at ho
    obtain ⟨h1, h2, h3⟩ := ho
    simp only [uniqueLoop]
    split
    · exact ih x (List.pairwise_cons.mpr ⟨fun a ha => h1 a (List.mem_cons_of_mem _ ha), h3⟩)
    · rename_i hne
      have hxy : lt (key x) (key y) = true := by
        have := h1 y List.mem_cons_self
        simp [this] at hne
        exact hne
      obtain ⟨i1, i2⟩ := ih y (List.pairwise_cons.mpr ⟨h2, h3⟩)
      have hall : ∀ e ∈ uniqueLoop (fun a b => !lt (key a) (key b) && !lt (key b) (key a)) y ys, lt (key x) (key e) = true := by
        intro e he
        rcases i2 e he with rfl | hl
        · exact hxy
        · exact hw.trans _ _ _ hxy hl
      refine ⟨List.pairwise_cons.mpr ⟨hall, i1⟩, ?_⟩
      intro e he
      rcases List.mem_cons.mp he with rfl | he
      · left; rfl
      · right; exact hall e he

theorem has_ofKey_iff {s : List ε} {e : ε} : Spec.has key (Probe.ofKey lt (key e)) s = true ↔
    ∃ a ∈ s, lt (key a) (key e) = false ∧ lt (key e) (key a) = false := by
  simp [Spec.has, Spec.Matches, Probe.ofKey]

/-- Inserting an ordered sequence into entries that are all smaller or equivalent to the last kept `x`. -/
theorem insertAll_loop (hw : StrictWeak lt) : ∀ (ys : List ε) (x : ε) (s : List ε), Spec.Ordered key lt (x :: ys) →
    (∀ a ∈ s, lt (key a) (key x) = true) →
    (ys.foldl (fun s e => if Spec.has key (Probe.ofKey lt (key e)) s then s else e :: s) (x :: s)).Perm
      (uniqueLoop (fun a b => !lt (key a) (key b) && !lt (key b) (key a)) x ys ++ s) := by
  intro ys
  induction ys with
  | nil => intro x s _ _; simp [uniqueLoop]
  | cons y ys ih =>
    intro x s ho hs
    simp only [Spec.Ordered, List.pairwise_cons] at ho
    obtain ⟨h1, h2, h3⟩ := ho
    have hyx := h1 y List.mem_cons_self
    simp only [List.foldl_cons, uniqueLoop]
    by_cases hxy : lt (key x) (key y) = true
    · -- new group
      have hno : ¬ Spec.has key (Probe.ofKey lt (key y)) (x :: s) = true := by
        rw [has_ofKey_iff]
        rintro ⟨a, ha, h4, h5⟩
        rcases List.mem_cons.mp ha with rfl | ha
        · simp [hxy] at h4
        · have := hw.trans _ _ _ (hs a ha) hxy
          simp [this] at h4
      simp only [hno, Bool.false_eq_true, if_false, hxy, Bool.not_true, Bool.false_and]
      refine (ih y (x :: s) (List.pairwise_cons.mpr ⟨h2, h3⟩) ?_).trans ?_
      · intro a ha
        rcases List.mem_cons.mp ha with rfl | ha
        · exact hxy
        · exact hw.trans _ _ _ (hs a ha) hxy
      · exact List.perm_middle
    · have hyes : Spec.has key (Probe.ofKey lt (key y)) (x :: s) = true := by
        rw [has_ofKey_iff]
        exact ⟨x, List.mem_cons_self, by simpa using hxy, hyx⟩
      have hxy' : lt (key x) (key y) = false := by simpa using hxy
      simp only [hyes, if_true, hxy', hyx, Bool.not_false, Bool.and_self]
      exact ih x s (List.pairwise_cons.mpr ⟨fun a ha => h1 a (List.mem_cons_of_mem _ ha), h3⟩) hs

theorem ofContainer_spec (hw : StrictWeak lt) {ys : List ε} (ho : Spec.Ordered key lt ys) :
    Sorted key lt (ofContainer key lt ys).cs ∧ (ofContainer key lt ys).cs.Perm (Spec.insertAll key lt ys) := by
  cases ys with
  | nil => exact ⟨List.Pairwise.nil, .refl _⟩
  | cons y ys =>
    refine ⟨(unique_sorted hw ys y ho).1, ?_⟩
    have h := (insertAll_loop hw ys y [] ho (by simp)).symm
    simp only [List.append_nil] at h
    have he : Spec.insertAll key lt (y :: ys) =
        ys.foldl (fun s e => if Spec.has key (Probe.ofKey lt (key e)) s then s else e :: s) [y] := by
      simp [Spec.insertAll, Spec.has]
    rw [he]
    exact h

/-! ### Histories -/

/-- the relation between the containers of a program and the abstract maps -/
def Rel (key : ε → κ) (st : Store κ ε) (y : Spec.Sys κ ε) : Prop :=
  ∀ i, match st i, y i with
    | none, none => True
    | some m, some a => m.lt = a.lt ∧ StrictWeak a.lt ∧ Sorted key a.lt m.cs ∧ m.cs.Perm a.entries
    | _, _ => False

theorem Rel.some {st : Store κ ε} {y : Spec.Sys κ ε} (h : Rel key st y) {i : Nat} {a : Spec.AMap κ ε} (hy : y i = some a) :
    ∃ xs, st i = some ⟨a.lt, xs⟩ ∧ StrictWeak a.lt ∧ Sorted key a.lt xs ∧ xs.Perm a.entries := by
  have := h i
  rw [hy] at this
  cases hs : st i with
  | none => simp [hs] at this
  | some m =>
    simp only [hs] at this
    obtain ⟨h1, h2, h3, h4⟩ := this
    exact ⟨m.cs, by rw [← h1], h2, h3, h4⟩

theorem Rel.none {st : Store κ ε} {y : Spec.Sys κ ε} (h : Rel key st y) {i : Nat} (hy : y i = none) : st i = none := by
  have := h i
  rw [hy] at this
  cases hs : st i with
  | none => rfl
  | some m => simp [hs] at this

theorem Rel.update {st : Store κ ε} {y : Spec.Sys κ ε} (h : Rel key st y) (i : Nat) {lt' : κ → κ → Bool} {xs s : List ε}
    (hw : StrictWeak lt') (h1 : Sorted key lt' xs) (h2 : xs.Perm s) :
    Rel key (Function.update st i (.some ⟨lt', xs⟩)) (Function.update y i (.some ⟨lt', s⟩)) := by
  intro j
  by_cases hj : j = i
  · subst hj; simp only [Function.update_self]; exact ⟨trivial, hw, h1, h2⟩
  · simp only [Function.update_of_ne hj]; exact h j

theorem sorted_eq_of_mem (hw : StrictWeak lt) {xs ys : List ε} (hx : Sorted key lt xs) (hy : Sorted key lt ys)
    (h : ∀ e, e ∈ xs ↔ e ∈ ys) : xs = ys := by
  have nd : ∀ {zs : List ε}, Sorted key lt zs → zs.Nodup := by
    intro zs hz
    refine List.Pairwise.imp ?_ hz
    rintro a b hab rfl
    simp [hw.irrefl] at hab
  have hp : xs.Perm ys := by
    rw [List.perm_ext_iff_of_nodup (nd hx) (nd hy)]
    exact h
  refine List.Perm.eq_of_pairwise ?_ hx hy hp
  intro a b _ _ h1 h2
  have := hw.asymm h1
  simp [h2] at this

theorem eqCs_all2 (eqv : ε → ε → Bool) (xs ys : List ε) : eqCs eqv xs ys = all2 eqv xs ys := by
  simp only [eqCs]
  split_ifs with h
  · rw [all2_length h]
  · rw [not_not] at h
    induction xs generalizing ys with
    | nil => cases ys <;> simp_all [all2]
    | cons x xs ih =>
      cases ys with
      | nil => simp at h
      | cons y ys => simp [all2, ih ys (by simpa using h)]

theorem tooMany_eq (cap : Option Nat) (n : Nat) : tooMany cap n = !Spec.fits cap n := by
  cases cap with
  | none => rfl
  | some c =>
    simp only [tooMany, Spec.fits]
    by_cases h : n ≤ c
    · simp [h]
    · simp [h]; omega

theorem mcall_rel [DecidableEq ε] {st : Store κ ε} {y : Spec.Sys κ ε} (h : Rel key st y) (op : MOp κ ε)
    (hp : Spec.MPre key op y) :
    ∃ st', mcall key cap op st = some ((Spec.mstep key cap op y).1, st') ∧ Rel key st' (Spec.mstep key cap op y).2 := by
  cases op with
  | new i lt' => exact ⟨_, id rfl, h.update i hp.2 List.Pairwise.nil (.refl _)⟩
  | build i lt' ys sorted =>
    obtain ⟨_, hw, _, ho⟩ := hp
    obtain ⟨h1, h2⟩ := ofContainer_spec hw ho
    simp only [mcall, Spec.mstep, tooMany_eq]
    cases Spec.fits cap ys.length with
    | false => exact ⟨_, rfl, h⟩
    | true => exact ⟨_, rfl, h.update i hw h1 h2⟩
  | copy i src =>
    obtain ⟨_, h1⟩ := hp
    obtain ⟨a, ha⟩ := Option.isSome_iff_exists.mp h1
    obtain ⟨xs, h2, h3, h4, h5⟩ := h.some ha
    refine ⟨_, by simp only [mcall, h2, Option.bind_eq_bind, Option.bind_some]; rfl, ?_⟩
    simp only [Spec.mstep, ha]
    exact h.update i h3 h4 h5
  | assign i src =>
    obtain ⟨_, h1⟩ := hp
    obtain ⟨a, ha⟩ := Option.isSome_iff_exists.mp h1
    obtain ⟨xs, h2, h3, h4, h5⟩ := h.some ha
    refine ⟨_, by simp only [mcall, h2, Option.bind_eq_bind, Option.bind_some]; rfl, ?_⟩
    simp only [Spec.mstep, ha]
    exact h.update i h3 h4 h5
  | move i src =>
    obtain ⟨_, h1⟩ := hp
    obtain ⟨a, ha⟩ := Option.isSome_iff_exists.mp h1
    obtain ⟨xs, h2, h3, h4, h5⟩ := h.some ha
    refine ⟨_, by simp only [mcall, h2, Option.bind_eq_bind, Option.bind_some]; rfl, ?_⟩
    simp only [Spec.mstep, ha, Option.map_some]
    exact (h.update i h3 h4 h5).update src h3 List.Pairwise.nil (.refl _)
  | moveAssign i src =>
    obtain ⟨_, h1, _⟩ := hp
    obtain ⟨a, ha⟩ := Option.isSome_iff_exists.mp h1
    obtain ⟨xs, h2, h3, h4, h5⟩ := h.some ha
    refine ⟨_, by simp only [mcall, h2, Option.bind_eq_bind, Option.bind_some]; rfl, ?_⟩
    simp only [Spec.mstep, ha, Option.map_some]
    exact (h.update i h3 h4 h5).update src h3 List.Pairwise.nil (.refl _)
  | swap i j =>
    obtain ⟨h0, h1⟩ := hp
    obtain ⟨a, ha⟩ := Option.isSome_iff_exists.mp h0
    obtain ⟨b, hb⟩ := Option.isSome_iff_exists.mp h1
    obtain ⟨xs, h2, h3, h4, h5⟩ := h.some ha
    obtain ⟨ys, k2, k3, k4, k5⟩ := h.some hb
    refine ⟨_, by simp only [mcall, h2, k2, Option.bind_eq_bind, Option.bind_some]; rfl, ?_⟩
    simp only [Spec.mstep, ha, hb]
    exact (h.update i k3 k4 k5).update j h3 h4 h5
  | destroy i =>
    refine ⟨_, rfl, ?_⟩
    intro j
    simp only [Spec.mstep]
    by_cases hj : j = i
    · subst hj; simp
    · simp only [Function.update_of_ne hj]; exact h j
  | eq i j =>
    obtain ⟨a, b, ha, hb, hab⟩ := hp
    obtain ⟨xs, h2, h3, h4, h5⟩ := h.some ha
    obtain ⟨ys, k2, k3, k4, k5⟩ := h.some hb
    refine ⟨st, ?_, h⟩
    simp only [mcall, h2, k2, Option.bind_eq_bind, Option.bind_some, Spec.mstep, eq]
    congr 2
    refine congrArg Reply.bool ?_
    rw [Bool.eq_iff_iff]
    simp only [eqBy, eqCs_all2, all2_eq, decide_eq_true_eq]
    rw [hab] at h4
    constructor
    · intro e a' b' ha' hb'
      rw [ha] at ha'; rw [hb] at hb'
      cases ha'; cases hb'
      intro x
      rw [← h5.mem_iff, ← k5.mem_iff, e]
    · intro hall
      have := hall a b ha hb
      refine sorted_eq_of_mem k3 h4 k4 ?_
      intro x
      rw [h5.mem_iff, k5.mem_iff]; exact this x
  | on i op =>
    obtain ⟨a, ha, hpre⟩ := hp
    obtain ⟨xs, h2, h3, h4, h5⟩ := h.some ha
    obtain ⟨xs', c1, c2, c3⟩ := call_sorted (cap := cap) h3 h4 op (pre_perm h5 op hpre)
    obtain ⟨s1, s2⟩ := step_perm (cap := cap) h3 h4 h5 op (pre_perm h5 op hpre)
    refine ⟨_, by simp only [mcall, h2, c1, Option.bind_eq_bind, Option.bind_some, Spec.mstep, ha, s1]; rfl, ?_⟩
    · simp only [Spec.mstep, ha]
      exact h.update i h3 c3 (c2.trans s2)

end Itlib.Flat
