import Verif.Core.All2
import Verif.StaticVector.StepLemmas

/-!
# Properties of `static_vector`

C01 (sequence), C02 (lifetimes), C03 (capacity), C04 (copy/move/swap), the `static_vector` part of C48 (equality).
`empty cap none` is a newly created vector whose element constructors do not throw; throwing constructors are treated in
`Exceptions.lean`.
-/
namespace Itlib.StaticVector
open Itlib
variable {α : Type}

/-! ## C01 -/

/-- **C01 (partial).** Any history of calls whose preconditions hold and which avoids the defects excluded by
`Spec.SafeRun` runs without undefined behaviour, gives the replies of the specification, and leaves the elements
of the specified list, as read through `size()` and `operator[]`.

Missing for the full property: the calls excluded by `Spec.Safe`, on which the code is wrong, see the theorems
`C01_defect_*`. -/
theorem C01_static_vector_sequence_partial (E : Elem α) (cap : Nat) (hcap : cap < 2 ^ 63) (ops : List (Op α))
    (rs : List (Reply α)) (xs : List α)
    (hspec : Spec.run cap E ops [] = some (rs, xs)) (hsafe : Spec.SafeRun cap E ops []) :
    ∃ s, run E ops (empty cap none) = some (rs, s) ∧ s.size = xs.length ∧
      ∀ i (h : i < xs.length), at_ i s = .ok xs[i] s := by
  rw [empty_eq_rep]
  obtain ⟨h1, h2⟩ := run_rep E hcap ops (by simp) hsafe hspec
  exact ⟨_, h1, rfl, fun i h => at_rep h h2⟩

/-- a history that uses every member function, with aliasing arguments, and two rejected calls -/
def demoOps : List (Op Nat) :=
  [.pushBack (.val 1), .emplaceBack (.val 2), .insert 1 (.val 3), .insert 3 (.self 0), .insertN 0 2 (.val 9),
   .insertRange 2 [7, 8], .pushBack (.val 5), .erase 0, .eraseRange 1 3, .eraseRange 5 5, .resize 7, .resize 99,
   .popBack, .resizeV 8 (.self 1), .set 2 (.self 0), .get 2, .back, .front, .moveElem 0 5, .backward, .assignN 3 (.val 4), .size,
   .clear, .isEmpty, .capacity, .forward, .popBack, .assignRange [6, 6, 7]]

example : (Spec.run 8 ⟨id, 0⟩ demoOps []).isSome = true ∧ Spec.SafeRun 8 ⟨id, 0⟩ demoOps [] := by
  refine ⟨by decide, ?_⟩
  simp [demoOps, Spec.SafeRun, Spec.Safe, Spec.Stable, Spec.step, Spec.argVal]

/-- Defect: `erase(first, first)` (an empty range) anywhere but at the end has undefined behaviour: an element is
destroyed and then move-constructed from itself. -/
theorem C01_defect_erase_empty_range (E : Elem α) (cap : Nat) (xs : List α) (p : Nat) (hp : p < xs.length)
    (hc : xs.length ≤ cap) : call E (.eraseRange p p) (rep cap xs) = none := by
  have h1 : ¬ (xs.length = 0) := by omega
  have h2 : p ≤ xs.length := by omega
  have h3 : Buf.shiftDown E.mv xs.length (cap + 1) p p (Buf.ofList cap xs) = none := by
    simp only [Buf.shiftDown]
    rw [if_neg (by omega), Buf.destroy_live (by simp only [Buf.ofList_cap]; omega) (Buf.ofList_live hp)]
    simp [Buf.moveConstruct, Buf.moveOut, Buf.ofList_cap, show p < cap by omega]
  simp only [call, exec, eraseRange, shrinkAt, M.bind_apply, M.get_apply, outOfRangeIf, rep_size, Nat.le_refl, if_true,
    Nat.sub_self, gt_iff_lt, Nat.not_lt_zero, if_false, M.pure_apply, h2, Nat.sub_zero, h1, Nat.add_zero, rep_cap,
    onBuf_rep_none h3]

/-- Defect: inserting a copy of the element currently at the insertion position reads an object that was already
destroyed. -/
theorem C01_defect_insert_alias_at_position (E : Elem α) (cap : Nat) (xs : List α) (p : Nat) (hp : p < xs.length)
    (hc : xs.length < cap) (hcap : cap < 2 ^ 63) : call E (.insert p (.self p)) (rep cap xs) = none := by
  have hcap' : cap < sizeMod := by simp only [sizeMod]; omega
  simp only [call, exec, insert, M.bind_apply, growAt_rep E (n := 1) (show p ≤ xs.length by omega) hc hcap', readArg, M.load]
  have : (gap cap xs p 1).read p = none := by
    simp [Buf.read, gap]
  rw [this]

/-- Defect: inserting a copy of an element after the insertion position inserts its left neighbour instead. -/
theorem C01_defect_insert_alias_after_position (E : Elem α) (cap : Nat) (xs : List α) (p i : Nat) (hp : p < i)
    (hi : i < xs.length) (hc : xs.length < cap) (hcap : cap < 2 ^ 63) :
    call E (.insert p (.self i)) (rep cap xs) = some (.at p, rep cap (xs.take p ++ [xs[i-1]] ++ xs.drop p)) := by
  have hcap' : cap < sizeMod := by simp only [sizeMod]; omega
  have hp' : p ≤ xs.length := by omega
  simp only [call, exec, insert, M.bind_apply, growAt_rep E (n := 1) hp' hc hcap', readArg, M.load]
  have : (gap cap xs p 1).read i = some (xs[i-1]'(by omega)) := by
    refine Buf.read_live (by simp only [gap]; omega) ?_
    simp only [gap]
    rw [if_neg (by omega), if_neg (by omega), Buf.ofList_live]
  rw [this]
  simp only [gap_eq]
  have h1 := emplaceAt_gap (m := xs.length + 1) (a := xs[i-1]'(by omega)) (ys := []) (n := 1) (by simp) hc hp'
  simp only [List.length_nil, Nat.add_zero] at h1
  simp only [h1, M.pure_apply]
  have h2 := gapFill_full (cap := cap) (ys := [xs[i-1]'(by omega)]) hp'
  simp only [List.length_singleton] at h2
  simp only [List.nil_append, h2, rep]
  congr 3
  simp; omega

/-- Defect: `v.assign(n, v[i])` with `n > 0` reads a destroyed element. -/
theorem C01_defect_assign_alias (E : Elem α) (cap : Nat) (xs : List α) (n i : Nat) (hn : 0 < n) (hnc : n ≤ cap)
    (hc : xs.length ≤ cap) : call E (.assignN n (.self i)) (rep cap xs) = none := by
  obtain ⟨n, rfl⟩ : ∃ m, n = m + 1 := ⟨n - 1, by omega⟩
  have h1 : ¬ (cap < n + 1) := by omega
  have h2 : ¬ (cap = 0) := by omega
  have h3 : (rep cap ([] : List α)).buf.read i = none := by simp [rep_buf, Buf.read, Buf.ofList]
  simp [call, exec, assignN, clear_rep hc, assignImplVal, outOfRangeIf, h1, pushN, pushBack, h2, readArg, M.load, h3]

/-- Defect: `insert(pos, count, a)` with a count so large that `size() + count` wraps around passes the capacity check
and has undefined behaviour instead of throwing. -/
theorem C03_defect_insert_count_wraps (E : Elem α) (cap : Nat) (xs : List α) (p k : Nat) (a : α) (hp : p < xs.length)
    (hk : 0 < k) (hk' : k ≤ xs.length) (hc : xs.length ≤ cap) (hcap : cap < 2 ^ 63) :
    call E (.insertN p (2 ^ 64 - k) (.val a)) (rep cap xs) = none := by
  have h1 : ¬ (cap < (xs.length + (2 ^ 64 - k)) % sizeMod) := by
    have : xs.length + (2 ^ 64 - k) = (xs.length - k) + sizeMod := by simp only [sizeMod]; omega
    rw [this, Nat.add_mod_right, Nat.mod_eq_of_lt (by simp only [sizeMod]; omega)]
    omega
  have h2 : p ≤ xs.length := by omega
  have h3 : ¬ (2 ^ 64 - k = 0) := by omega
  have h4 : Buf.shiftUp E.mv (2 ^ 64 - k) p (xs.length - p) (Buf.ofList cap xs) = none := by
    obtain ⟨m, hm⟩ : ∃ m, xs.length - p = m + 1 := ⟨xs.length - p - 1, by omega⟩
    rw [hm]
    simp only [Buf.shiftUp, Buf.moveConstruct]
    rw [Buf.moveOut_live (by simp only [Buf.ofList_cap]; omega) (Buf.ofList_live (show p + m < xs.length by omega))]
    have : ¬ (p + m + (2 ^ 64 - k) < cap) := by omega
    simp [Buf.construct, Buf.ofList_cap, this]
  simp only [call, exec, insertN, growAt, M.bind_apply, M.get_apply, outOfRangeIf, gt_iff_lt, rep_size, rep_cap, h1,
    if_false, M.pure_apply, h2, if_true, h3, onBuf_rep_none h4]

/-! ## C02 -/

/-- **C02 (partial, same guard as C01).** After any such history no undefined behaviour has occurred (no construction
over a live object, no access to a dead one or out of the storage: any of these would make `run` return `none`), exactly
the slots below `size()` hold live objects, and destroying the vector leaves no live object behind. -/
theorem C02_static_vector_lifetimes_partial (E : Elem α) (cap : Nat) (hcap : cap < 2 ^ 63) (ops : List (Op α))
    (rs : List (Reply α)) (xs : List α)
    (hspec : Spec.run cap E ops [] = some (rs, xs)) (hsafe : Spec.SafeRun cap E ops []) :
    ∃ s, run E ops (empty cap none) = some (rs, s) ∧
      (∀ i, i < s.size → ∃ a, s.buf.cells i = .live a) ∧ (∀ i, s.size ≤ i → s.buf.cells i = .raw) ∧
      ∃ s', dtor s = .ok () s' ∧ ∀ i, s'.buf.cells i = .raw := by
  rw [empty_eq_rep]
  obtain ⟨h1, h2⟩ := run_rep E hcap ops (by simp) hsafe hspec
  refine ⟨_, h1, fun i hi => ⟨xs[i]'hi, Buf.ofList_live hi⟩, fun i hi => Buf.ofList_raw hi, _, clear_rep h2, ?_⟩
  intro i
  simp [rep_buf, Buf.ofList]

/-! ## C03 -/

/-- How many elements the call would leave in the vector, if there were no limit. -/
def sizeAfter (op : Op α) (xs : List α) : Nat :=
  match op with
  | .pushBack _ | .emplaceBack _ | .insert _ _ => xs.length + 1
  | .insertN _ n _ => xs.length + n
  | .insertRange _ ys => xs.length + ys.length
  | .resize n | .resizeV n _ | .assignN n _ => n
  | .assignRange ys => ys.length
  | _ => 0

/-- **C03 (partial).** In every state reached by a history as in C01, the size does not exceed the capacity, and the next
call throws exactly if it would exceed the capacity or is a `pop_back` of an empty vector; what it throws is
`out_of_range`, and then the vector (its elements and its whole storage) is as it was before the call.

Missing: `assign` beyond the capacity, which throws but loses the contents (`C03_defect_assign_too_many`), and wrap-around
of `size() + count` (`C03_defect_insert_count_wraps`). -/
theorem C03_static_vector_capacity_partial (E : Elem α) (cap : Nat) (hcap : cap < 2 ^ 63) (ops : List (Op α))
    (rs : List (Reply α)) (xs : List α)
    (hspec : Spec.run cap E ops [] = some (rs, xs)) (hsafe : Spec.SafeRun cap E ops [])
    (op : Op α) (hpre : (Spec.step cap E op xs).isSome) (hop : Spec.Safe cap op xs) :
    ∃ s r s', run E ops (empty cap none) = some (rs, s) ∧ s.size ≤ cap ∧ call E op s = some (r, s') ∧ s'.size ≤ cap ∧
      ((∃ e, r = .exc e) ↔ (cap < sizeAfter op xs ∨ (op = .popBack ∧ xs = []))) ∧
      (∀ e, r = .exc e → e = .outOfRange ∧ s' = s) := by
  rw [empty_eq_rep]
  obtain ⟨h1, h2⟩ := run_rep E hcap ops (by simp) hsafe hspec
  obtain ⟨⟨r, xs'⟩, hst⟩ := Option.isSome_iff_exists.mp hpre
  refine ⟨_, r, rep cap xs', h1, h2, call_rep E hcap h2 hop hst, step_length_le h2 hst, ?_, ?_⟩
  · cases op <;> simp only [Spec.step, Option.bind_eq_bind, Option.bind_eq_some_iff, sizeAfter] at hst ⊢ <;>
      grind [Spec.Safe]
  · intro e he
    subst he
    cases op <;> simp only [Spec.step, Option.bind_eq_bind, Option.bind_eq_some_iff] at hst <;>
      grind

example : ∃ (rs : List (Reply Nat)) (xs : List Nat), Spec.run 3 ⟨id, 0⟩ [.pushBack (.val 1), .resize 3] [] = some (rs, xs) ∧
    Spec.SafeRun 3 ⟨id, 0⟩ [.pushBack (.val 1), .resize 3] [] ∧
    (Spec.step 3 ⟨id, 0⟩ (.insertN 1 2 (.self 0)) xs) = some (.exc .outOfRange, [1, 0, 0]) ∧
    Spec.Safe 3 (.insertN 1 2 (.self 0)) xs :=
  ⟨[.done, .done], [1, 0, 0], by decide, by simp [Spec.SafeRun, Spec.Safe, Spec.step, Spec.argVal], by decide,
    by simp [Spec.Safe]⟩

/-- Defect: `assign` of more elements than fit throws, but only after having destroyed the old contents. -/
theorem C03_defect_assign_too_many (E : Elem α) (cap : Nat) (xs ys : List α) (hc : xs.length ≤ cap)
    (hy : cap < ys.length) : call E (.assignRange ys) (rep cap xs) = some (.exc .outOfRange, rep cap []) := by
  simp [call, exec, assignRange, clear_rep hc, assignImplRange, outOfRangeIf, hy]

/-! ## C04 -/

/-- **C04 (partial).** Programs with any number of vectors, created, copied, moved, swapped (also with themselves),
assigned and destroyed in any order, interleaved with the member calls of C01: no undefined behaviour, every vector holds
what the specification says (in particular copies are independent, moved-from vectors are empty), and the storage of
every vector that has gone away contains no live object.

Missing: self-move-assignment, see `C04_defect_self_move`. -/
theorem C04_static_vector_copy_move_swap_partial (E : Elem α) (ops : List (MOp α)) (rs : List (Reply α)) (y : Spec.Sys α)
    (hspec : Spec.mrun E ops (fun _ => none) = some (rs, y)) (hsafe : Spec.MSafeRun E ops (fun _ => none)) :
    ∃ st, mrun E ops Store.init = some (rs, st) ∧
      (∀ i, st.vec i = none ↔ y i = none) ∧
      (∀ i cap xs, y i = some (cap, xs) → ∃ s, st.vec i = some s ∧ s.buf.cap = cap ∧ s.size = xs.length ∧
        ∀ k (h : k < xs.length), at_ k s = .ok xs[k] s) ∧
      (∀ b ∈ st.graves, ∀ i, b.cells i = .raw) := by
  have h0 : (Store.init : Store α) = mrep (fun _ => none) [] := rfl
  obtain ⟨g, hg, hy, h⟩ := mrun_mrep E ops (y := fun _ => none) (g := []) (by intro i cap xs h; simp at h)
    (by intro b hb; simp at hb) hsafe hspec
  refine ⟨mrep y g, by rw [h0]; exact h, ?_, ?_, hg⟩
  · intro i; simp [mrep]
  · intro i cap xs hi
    exact ⟨rep cap xs, mrep_vec hi, rfl, rfl, fun k hk => at_rep hk (hy i cap xs hi).1⟩

/-- a program with several vectors meeting the hypotheses of C04 -/
def demoMOps : List (MOp Nat) :=
  [.ctor 0 4, .call 0 (.assignRange [1, 2, 3]), .copyCtor 1 4 0, .call 1 (.popBack), .copyCtor 2 7 1, .swap 0 1, .swap 0 0,
   .moveCtor 3 0, .copyAssign 0 3, .copyAssign 0 0, .moveAssign 1 0, .ctorVal 4 2 9 5, .ctorCount 5 3 2, .dtor 1,
   .ctorRange 1 4 [8, 9], .dtor 0]

example : (Spec.mrun ⟨id, 0⟩ demoMOps (fun _ => none)).isSome = true ∧ Spec.MSafeRun ⟨id, 0⟩ demoMOps (fun _ => none) := by
  refine ⟨by decide, ?_⟩
  simp [demoMOps, Spec.MSafeRun, Spec.MSafe, Spec.Safe, Spec.mstep, Spec.step, Spec.Sys.put]

/-- Defect: move-assigning a vector to itself empties it (there is no self check). -/
theorem C04_defect_self_move (E : Elem α) (cap : Nat) (xs : List α) (st : Store α) (i : Nat) (hc : xs.length ≤ cap)
    (h : st.vec i = some (rep cap xs)) : moveAssign E i i st = .ok () (st.put i (some (rep cap []))) := by
  simp only [moveAssign, M.bind_apply]
  rw [at'_read h (b := xs.length) (by simp)]
  simp only
  rw [at'_ok h (clear_rep hc)]
  have h1 : at' i (do let s ← M.get; pure s.size) (st.put i (some (rep cap []))) =
      .ok 0 (st.put i (some (rep cap []))) :=
    at'_read (put_vec_self _ _ _) (by simp)
  have h2 : moveFromLoop E i i 0 xs.length (st.put i (some (rep cap []))) = .ok () (st.put i (some (rep cap []))) := by
    cases xs.length <;> simp only [moveFromLoop, M.bind_apply, h1] <;> simp
  simp only [h2]
  rw [at'_ok (put_vec_self _ _ _) (clear_rep (by simp)), put_put]

/-! ## C48 (static_vector part) -/

theorem eqLoop_rep (eqv : α → α → Bool) {ca cb : Nat} {xs ys : List α} (ha : xs.length ≤ ca) (hb : ys.length ≤ cb)
    (hl : xs.length = ys.length) : ∀ (f k : Nat), k + f = xs.length →
    eqLoop eqv (rep ca xs) (rep cb ys) k f = some (all2 eqv (xs.drop k) (ys.drop k)) := by
  intro f
  induction f with
  | zero =>
    intro k hk
    simp [eqLoop, all2, List.drop_of_length_le (show xs.length ≤ k by omega),
      List.drop_of_length_le (show ys.length ≤ k by omega)]
  | succ f ih =>
    intro k hk
    have hx : k < xs.length := by omega
    have hy : k < ys.length := by omega
    simp only [eqLoop, rep_buf, Buf.ofList_read hx ha, Buf.ofList_read hy hb, Option.bind_eq_bind, Option.bind_some]
    rw [List.drop_eq_getElem_cons hx, List.drop_eq_getElem_cons hy]
    cases h : eqv xs[k] ys[k]
    · simp [all2, h]
    · simp [all2, h, ih (k+1) (by omega)]

/-- **C48, static_vector.** For elements with any `operator==`, `==` of vectors (also between different capacities)
reached by any history as in C01 is true iff they have the same size and their elements are equal one by one, and `!=` is
its negation. -/
theorem C48_static_vector_eq (eqv : α → α → Bool) (E : Elem α) (ca cb : Nat) (hca : ca < 2 ^ 63) (hcb : cb < 2 ^ 63)
    (opsa opsb : List (Op α)) (ra rb : List (Reply α)) (xs ys : List α)
    (ha : Spec.run ca E opsa [] = some (ra, xs)) (hsa : Spec.SafeRun ca E opsa [])
    (hb : Spec.run cb E opsb [] = some (rb, ys)) (hsb : Spec.SafeRun cb E opsb []) :
    ∃ a b, run E opsa (empty ca none) = some (ra, a) ∧ run E opsb (empty cb none) = some (rb, b) ∧
      ∃ r, eq eqv a b = some r ∧ ne eqv a b = some (!r) ∧ (r = true ↔ List.Forall₂ (fun x y => eqv x y = true) xs ys) := by
  simp only [empty_eq_rep]
  obtain ⟨h1, h2⟩ := run_rep E hca opsa (by simp) hsa ha
  obtain ⟨h3, h4⟩ := run_rep E hcb opsb (by simp) hsb hb
  have he : eq eqv (rep ca xs) (rep cb ys) = some (all2 eqv xs ys) := by
    simp only [eq, rep_size]
    by_cases hl : xs.length = ys.length
    · simp only [hl, ne_eq, not_true, if_false]
      rw [← hl, eqLoop_rep eqv h2 h4 hl _ _ (by omega)]
      simp
    · simp [hl, all2_length hl]
  exact ⟨_, _, h1, h3, _, he, by simp only [ne, he, Option.map_some], all2_iff⟩

/-- an `operator==` that is not the identity of values, and one that is not reflexive -/
example : List.Forall₂ (fun x y : Nat => (x % 10 == y % 10) = true) [1, 12] [11, 2] ∧
    ¬ List.Forall₂ (fun x y : Nat => (x == y && x != 7) = true) [7] [7] := by
  simp

end Itlib.StaticVector
