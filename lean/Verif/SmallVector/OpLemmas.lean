import Verif.SmallVector.Lemmas

/-! # Effect of the member functions of `small_vector` on well-formed states (proof engineering) -/
namespace Itlib.SmallVector
open Itlib Spec
open Itlib.StaticVector (gap gapFill gap_eq gapFill_full)
variable {α : Type}
variable {C : Ctx α} {h h' : Home} {k k' : Nat} {b b' c c' : Buf α} {e : Loc} {n nx : Nat} {g : List (Buf α)}

/-- the reference an argument is bound to -/
def refOf (C : Ctx α) (h : Home) (k : Nat) : Arg α → Ref α
  | .val a => .val a
  | .self i => .slot (loc C.i k h) i

theorem bindRef_st (v : Arg α) (xs : List α) :
    bindRef v (st C h k xs nx g) = .ok (refOf C h k v) (st C h k xs nx g) := by
  cases v <;> simp [bindRef, refOf, st]

theorem loadRef_gap {xs ys : List α} {pos d m nx' : Nat} {v : Arg α} {a : α} {g' : List (Buf α)}
    (hv : argVal xs v = some a) (hs : Stable C.P.N C.P.R d h pos v)
    (hk : ¬ moves C.P.N C.P.R d h → k' = k) (hp : pos ≤ xs.length) (hc : xs.length ≤ (choose C.P.N C.P.R d h).cap C.P.N) :
    loadRef (refOf C h k v) (stB C (choose C.P.N C.P.R d h) k' (gapFill ((choose C.P.N C.P.R d h).cap C.P.N) xs pos n ys) m nx' g') =
      .ok a (stB C (choose C.P.N C.P.R d h) k' (gapFill ((choose C.P.N C.P.R d h).cap C.P.N) xs pos n ys) m nx' g') := by
  cases v with
  | val b => simp [argVal] at hv; simp [refOf, loadRef, hv]
  | self i =>
    simp only [Stable] at hs
    simp only [argVal] at hv
    obtain ⟨hi, rfl⟩ := List.getElem?_eq_some_iff.mp hv
    rw [choose_stay hs.1] at hc ⊢
    rw [hk hs.1]
    refine loadRef_stB (Buf.read_live (by simp only [gapFill]; omega) ?_)
    simp only [gapFill]
    rw [if_pos (by omega), Buf.ofList_live hi]

theorem fillAt_gap {xs : List α} {pos d m nx' N : Nat} {v : Arg α} {a : α} {g' : List (Buf α)} (hct : C.ct = none)
    (hc : xs.length + N ≤ h'.cap C.P.N) (hp : pos ≤ xs.length) {r : Ref α}
    (hr : ∀ ys, loadRef r (stB C h' k' (gapFill (h'.cap C.P.N) xs pos N ys) m nx' g') =
      .ok a (stB C h' k' (gapFill (h'.cap C.P.N) xs pos N ys) m nx' g')) :
    ∀ (j : Nat) (ys : List α), ys.length + j ≤ N →
    fillAt r (loc C.i k' h') (pos + ys.length) j (stB C h' k' (gapFill (h'.cap C.P.N) xs pos N ys) m nx' g') =
      .ok () (stB C h' k' (gapFill (h'.cap C.P.N) xs pos N (ys ++ List.replicate j a)) m nx' g') := by
  intro j
  induction j with
  | zero => intro ys _; simp [fillAt]
  | succ j ih =>
    intro ys hl
    simp only [fillAt, M.bind_apply, hr]
    rw [emplaceAt_stB hct (gapFill_construct (by omega) hc hp)]
    simp only
    have := ih (ys ++ [a]) (by simp; omega)
    simp only [List.length_append, List.length_singleton, List.append_assoc, List.singleton_append] at this
    rw [← Nat.add_assoc] at this
    rw [this, List.replicate_succ]

theorem copyAt_gap {xs : List α} {pos m nx' N : Nat} {g' : List (Buf α)} (hct : C.ct = none)
    (hc : xs.length + N ≤ h'.cap C.P.N) (hp : pos ≤ xs.length) :
    ∀ (zs ys : List α), ys.length + zs.length ≤ N →
    copyAt (loc C.i k' h') (pos + ys.length) zs (stB C h' k' (gapFill (h'.cap C.P.N) xs pos N ys) m nx' g') =
      .ok () (stB C h' k' (gapFill (h'.cap C.P.N) xs pos N (ys ++ zs)) m nx' g') := by
  intro zs
  induction zs with
  | nil => intro ys _; simp [copyAt]
  | cons z zs ih =>
    intro ys hl
    simp only [List.length_cons] at hl
    simp only [copyAt, M.bind_apply]
    rw [emplaceAt_stB hct (gapFill_construct (by omega) hc hp)]
    simp only
    have := ih (ys ++ [z]) (by simp; omega)
    simp only [List.length_append, List.length_singleton, List.append_assoc, List.singleton_append] at this
    rw [← Nat.add_assoc] at this
    exact this

theorem stB_gapFull {xs ys : List α} {pos : Nat} (hp : pos ≤ xs.length) {N : Nat} (hN : N = ys.length) :
    stB C h k (gapFill (h.cap C.P.N) xs pos N ys) (xs.length + N) nx g =
      st C h k (xs.take pos ++ ys ++ xs.drop pos) nx g := by
  subst hN
  rw [gapFill_full hp, st]
  congr 1
  simp; omega

/-- The standing assumptions on a vector. -/
structure Good (C : Ctx α) (h : Home) (k : Nat) (xs : List α) (nx : Nat) (g : List (Buf α)) : Prop where
  N : 0 < C.P.N
  R : C.P.R ≤ C.P.N + 1
  wf : WF C h k nx
  raw : AllRaw g
  len : xs.length ≤ h.cap C.P.N

/-- no exceptions from outside -/
def NoThrow (C : Ctx α) : Prop := C.ct = none ∧ C.at' = none

theorem insert_ge {xs ys : List α} {pos : Nat} (hG : Good C h k xs nx g) (hp : pos ≤ xs.length) :
    (xs.take pos ++ ys ++ xs.drop pos).length ≤ (choose C.P.N C.P.R (xs.length + ys.length) h).cap C.P.N := by
  have := choose_ge (d := xs.length + ys.length) hG.N hG.R hG.wf
  have e : (xs.take pos ++ ys ++ xs.drop pos).length = xs.length + ys.length := by simp; omega
  omega

theorem insert_st (E : Elem α) {xs : List α} {pos : Nat} {v : Arg α} {a : α} (hG : Good C h k xs nx g) (hT : NoThrow C)
    (hv : argVal xs v = some a) (hs : Stable C.P.N C.P.R (xs.length + 1) h pos v) (hp : pos ≤ xs.length) :
    ∃ k' nx' g', insert C.P E pos v (st C h k xs nx g) =
        .ok pos (st C (choose C.P.N C.P.R (xs.length + 1) h) k' (xs.take pos ++ [a] ++ xs.drop pos) nx' g') ∧
      Good C (choose C.P.N C.P.R (xs.length + 1) h) k' (xs.take pos ++ [a] ++ xs.drop pos) nx' g' ∧
      (¬ moves C.P.N C.P.R (xs.length + 1) h → k' = k) := by
  obtain ⟨k', nx', g', h1, h2, h3, h4⟩ := growAt_st E (num := 1) hG.N hG.R hT.2 hG.wf hG.raw hp (by omega) hG.len
  have hge := choose_ge (d := xs.length + 1) hG.N hG.R hG.wf
  refine ⟨k', nx', g', ?_, ⟨hG.N, hG.R, h2, h3, insert_ge (ys := [a]) hG hp⟩, h4⟩
  simp only [insert, M.bind_apply, bindRef_st, h1, gap_eq]
  rw [loadRef_gap hv hs h4 hp (by omega)]
  simp only
  have := emplaceAt_stB (C := C) (h := choose C.P.N C.P.R (xs.length + 1) h) (k := k') (n := xs.length + 1) (nx := nx') (g := g')
    hT.1 (gapFill_construct (a := a) (ys := []) (n := 1) (by simp) hge hp)
  simp only [List.length_nil, Nat.add_zero] at this
  rw [this]
  simp only [List.nil_append, M.pure_apply, stB_gapFull (ys := [a]) (N := 1) hp rfl]

theorem insertN_st (E : Elem α) {xs : List α} {pos n : Nat} {v : Arg α} {a : α} (hG : Good C h k xs nx g) (hT : NoThrow C)
    (hv : argVal xs v = some a)
    (hs : if n = 0 then pos = xs.length ∨ moves C.P.N C.P.R xs.length h else Stable C.P.N C.P.R (xs.length + n) h pos v)
    (hp : pos ≤ xs.length) :
    ∃ k' nx' g', insertN C.P E pos n v (st C h k xs nx g) =
        .ok pos (st C (choose C.P.N C.P.R (xs.length + n) h) k' (xs.take pos ++ List.replicate n a ++ xs.drop pos) nx' g') ∧
      Good C (choose C.P.N C.P.R (xs.length + n) h) k' (xs.take pos ++ List.replicate n a ++ xs.drop pos) nx' g' ∧
      (¬ moves C.P.N C.P.R (xs.length + n) h → k' = k) := by
  obtain ⟨k', nx', g', h1, h2, h3, h4⟩ := growAt_st E (num := n) hG.N hG.R hT.2 hG.wf hG.raw hp (by
    by_cases hn : n = 0
    · subst hn; simp only [if_true] at hs; exact Or.inr hs
    · exact Or.inl (by omega)) hG.len
  have hge := choose_ge (d := xs.length + n) hG.N hG.R hG.wf
  have hge' := insert_ge (ys := List.replicate n a) hG hp
  simp only [List.length_replicate] at hge'
  refine ⟨k', nx', g', ?_, ⟨hG.N, hG.R, h2, h3, hge'⟩, h4⟩
  simp only [insertN, M.bind_apply, bindRef_st, h1, gap_eq]
  by_cases hn : n = 0
  · subst hn
    simp only [fillAt, M.pure_apply, List.replicate_zero]
    rw [stB_gapFull (ys := []) (N := 0) hp rfl]
  · simp only [hn, if_false] at hs
    have := fillAt_gap (C := C) (v := v) (d := 0) (m := xs.length + n) (nx' := nx') (g' := g') (k' := k') (a := a) (N := n) hT.1 hge hp
      (r := refOf C h k v) (fun ys => loadRef_gap hv hs h4 hp (by omega)) n [] (by simp)
    simp only [List.length_nil, Nat.add_zero] at this
    rw [this]
    simp only [List.nil_append, M.pure_apply]
    rw [stB_gapFull hp (by simp)]

theorem insertRange_st (E : Elem α) {xs ys : List α} {pos : Nat} (hG : Good C h k xs nx g) (hT : NoThrow C)
    (hs : ys = [] → pos = xs.length ∨ moves C.P.N C.P.R xs.length h) (hp : pos ≤ xs.length) :
    ∃ k' nx' g', insertRange C.P E pos ys (st C h k xs nx g) =
        .ok pos (st C (choose C.P.N C.P.R (xs.length + ys.length) h) k' (xs.take pos ++ ys ++ xs.drop pos) nx' g') ∧
      Good C (choose C.P.N C.P.R (xs.length + ys.length) h) k' (xs.take pos ++ ys ++ xs.drop pos) nx' g' ∧
      (¬ moves C.P.N C.P.R (xs.length + ys.length) h → k' = k) := by
  obtain ⟨k', nx', g', h1, h2, h3, h4⟩ := growAt_st E (num := ys.length) hG.N hG.R hT.2 hG.wf hG.raw hp (by
    by_cases hn : ys = []
    · subst hn; exact Or.inr (hs rfl)
    · exact Or.inl (List.length_pos_iff.mpr hn)) hG.len
  have hge := choose_ge (d := xs.length + ys.length) hG.N hG.R hG.wf
  refine ⟨k', nx', g', ?_, ⟨hG.N, hG.R, h2, h3, insert_ge hG hp⟩, h4⟩
  simp only [insertRange, M.bind_apply, h1, gap_eq]
  have := copyAt_gap (C := C) (m := xs.length + ys.length) (nx' := nx') (g' := g') (k' := k') (N := ys.length) hT.1 hge hp
    ys [] (by simp)
  simp only [List.length_nil, Nat.add_zero] at this
  rw [this]
  simp only [List.nil_append, M.pure_apply]
  rw [stB_gapFull hp rfl]

theorem pushBack_st (E : Elem α) {xs : List α} {v : Arg α} {a : α} (hG : Good C h k xs nx g) (hT : NoThrow C)
    (hv : argVal xs v = some a) (hs : Stable C.P.N C.P.R (xs.length + 1) h xs.length v) :
    ∃ k' nx' g', pushBack C.P E v (st C h k xs nx g) =
        .ok () (st C (choose C.P.N C.P.R (xs.length + 1) h) k' (xs ++ [a]) nx' g') ∧
      Good C (choose C.P.N C.P.R (xs.length + 1) h) k' (xs ++ [a]) nx' g' ∧
      (¬ moves C.P.N C.P.R (xs.length + 1) h → k' = k) := by
  obtain ⟨k', nx', g', h1, h2, h3⟩ := insert_st E hG hT hv hs (Nat.le_refl _)
  simp only [List.take_length, List.drop_length, List.append_nil] at h1 h2
  refine ⟨k', nx', g', ?_, h2, h3⟩
  simp only [insert, M.bind_apply, bindRef_st] at h1
  simp only [pushBack, M.bind_apply, bindRef_st, size_st]
  revert h1
  cases growAt C.P E xs.length 1 (st C h k xs nx g) with
  | ub => simp
  | throw e s => simp
  | ok p s =>
    simp only
    cases loadRef (refOf C h k v) s with
    | ub => simp
    | throw e s => simp
    | ok p s =>
      simp only
      cases emplaceAt _ _ _ s <;> simp

theorem emplaceBack_st (E : Elem α) {xs : List α} {v : Arg α} {a : α} (hG : Good C h k xs nx g) (hT : NoThrow C)
    (hv : argVal xs v = some a) (hs : Stable C.P.N C.P.R (xs.length + 1) h xs.length v) :
    ∃ k' nx' g', emplaceBack C.P E v (st C h k xs nx g) =
        .ok xs.length (st C (choose C.P.N C.P.R (xs.length + 1) h) k' (xs ++ [a]) nx' g') ∧
      Good C (choose C.P.N C.P.R (xs.length + 1) h) k' (xs ++ [a]) nx' g' ∧
      (¬ moves C.P.N C.P.R (xs.length + 1) h → k' = k) := by
  obtain ⟨k', nx', g', h1, h2, h3⟩ := insert_st E hG hT hv hs (Nat.le_refl _)
  simp only [List.take_length, List.drop_length, List.append_nil] at h1 h2
  refine ⟨k', nx', g', ?_, h2, h3⟩
  simp only [insert, M.bind_apply, bindRef_st] at h1
  simp only [emplaceBack, M.bind_apply, bindRef_st, size_st]
  exact h1

/-! ### Shrinking -/

theorem dealloc_stB {cc : Nat} (hh : h = .dyn cc) (hc : b.cap = cc) :
    deallocate (loc C.i k h) (h.cap C.P.N) (stB C h k b n nx g) =
      .ok () { stB C h k b n nx g with heap := Function.update C.h0 k none, graves := b :: g } := by
  subst hh
  simp [deallocate, M.mem, loc, stB, putHeap, Home.cap, hc]

theorem clear_st {xs : List α} (hG : Good C h k xs nx g) :
    ∃ g', clear C.P (st C h k xs nx g) = .ok () (st C (if 0 < C.P.R then .stat else h) k [] nx g') ∧
      Good C (if 0 < C.P.R then .stat else h) k [] nx g' := by
  simp only [clear, M.bind_apply, destroyAll_st hG.len, M.get_apply, isStatic_stB, gt_iff_lt, decide_eq_true_eq, stB_bgn,
    stB_cap, stB_self]
  by_cases hr : 0 < C.P.R
  · cases h with
    | stat =>
      refine ⟨g, ?_, ⟨hG.N, hG.R, by simpa [hr] using hG.wf, hG.raw, by simp⟩⟩
      simp [hr]
      rw [setEnd_stB]
      simp [st, Buf.ofList_nil]
    | dyn cc =>
      have ho := hG.wf.own cc rfl
      refine ⟨Buf.fresh cc :: g, ?_, ⟨hG.N, hG.R, by simpa [hr] using wf_stat hG.wf k, ?_, by simp⟩⟩
      · simp only [hr, reduceCtorEq, not_false_eq_true, and_self, if_true, M.bind_apply]
        rw [dealloc_stB rfl (by rfl)]
        simp only [setPtrs, M.modify_apply, st, stB, putStat, putHeap, Buf.ofList_nil, Home.cap, loc]
        congr 2
        simp
        exact ho.2.1.symm
      · intro b hb
        rcases List.mem_cons.mp hb with rfl | hb
        · intro i; rfl
        · exact hG.raw b hb
  · refine ⟨g, ?_, ⟨hG.N, hG.R, by simpa [hr] using hG.wf, hG.raw, by simp⟩⟩
    simp only [hr, false_and, if_false]
    rw [setEnd_stB]
    simp [st, Buf.ofList_nil]

/-- giving back the first buffer and adopting the second, in the order of `shrink_to_fit` -/
theorem release' {m cc : Nat} (hw : WF C h k nx) (hh : h = .dyn cc) (hd : loc C.i k h ≠ loc C.i k' h')
    (hc : b.cap = cc) :
    (do setPtrs (loc C.i k' h') m (h'.cap C.P.N); deallocate (loc C.i k h) (h.cap C.P.N) : M (St α) Unit)
        (stB2 C h k b e n h' k' c nx g) =
      .ok () (stB C h' k' c m nx (b :: g)) := by
  subst hh
  have h1 := hw.own cc rfl
  simp only [M.bind_apply, setPtrs, M.modify_apply, deallocate, M.mem, loc, stB2]
  have : putHeap h' k' C.al c (putHeap (.dyn cc) k C.al b C.h0) k = some ⟨C.al, b⟩ := by
    cases h' with
    | stat => simp [putHeap]
    | dyn c2 =>
      simp [loc] at hd
      simp [putHeap, hd]
  simp only [this, Home.cap, hc, and_self, if_true, stB]
  congr 2
  cases h' with
  | stat =>
    simp only [putHeap]
    simp
    exact h1.2.1.symm
  | dyn c2 =>
    simp [loc] at hd
    simp only [putHeap]
    rw [Function.update_comm (Ne.symm hd)]
    congr 1
    simp
    exact h1.2.1.symm

/-- the same, in the order of `shrink_at` -/
theorem release'' {m cc : Nat} (hw : WF C h k nx) (hh : h = .dyn cc) (hd : loc C.i k h ≠ loc C.i k' h')
    (hc : b.cap = cc) :
    (do deallocate (loc C.i k h) (h.cap C.P.N); setPtrs (loc C.i k' h') m (h'.cap C.P.N) : M (St α) Unit)
        (stB2 C h k b e n h' k' c nx g) =
      .ok () (stB C h' k' c m nx (b :: g)) := by
  have := release' (e := e) (n := n) (m := m) (c := c) (g := g) hw hh hd hc
  simp only [M.bind_apply, dealloc_src hd hh hc]
  rw [← this]
  subst hh
  simp only [M.bind_apply, setPtrs, M.modify_apply, deallocate, M.mem, loc, stB2]
  have : putHeap h' k' C.al c (putHeap (.dyn cc) k C.al b C.h0) k = some ⟨C.al, b⟩ := by
    cases h' with
    | stat => simp [putHeap]
    | dyn c2 =>
      simp [loc] at hd
      simp [putHeap, hd]
  simp only [this, Home.cap, hc, and_self, if_true]

theorem allRaw_cons (hb : ∀ i, b.cells i = .raw) (hg : AllRaw g) : AllRaw (b :: g) := by
  intro b' hb'
  rcases List.mem_cons.mp hb' with rfl | hb'
  · exact hb
  · exact hg b' hb'

theorem shiftDown_ofList (mv : α → α) {cap : Nat} {xs : List α} {pos num : Nat} (hp : pos + num ≤ xs.length)
    (hc : xs.length ≤ cap) (hn : 0 < num ∨ pos = xs.length) :
    ∃ b1, (Buf.ofList cap xs).shiftDown mv xs.length ((Buf.ofList cap xs).cap + 1) pos (pos + num) = some b1 ∧
      b1.destroyRange (xs.length - num) num = some (Buf.ofList cap (xs.take pos ++ xs.drop (pos + num))) := by
  by_cases hn0 : num = 0
  · have : pos = xs.length := by omega
    subst hn0 this
    refine ⟨Buf.ofList cap xs, ?_, ?_⟩
    · simp [Buf.shiftDown]
    · simp [Buf.destroyRange]
  · obtain ⟨c, hc1, hc2, hc3⟩ := Buf.shiftDown_eq mv num (by omega) (xs.length - pos - num) (cap + 1) pos (Buf.ofList cap xs)
      (by simp only [Buf.ofList_cap]; omega) (by omega) (by
        intro i h5 h6
        exact ⟨xs[i]'(by omega), Buf.ofList_live (by omega)⟩)
    rw [show pos + num + (xs.length - pos - num) = xs.length by omega] at hc1
    refine ⟨_, hc1, ?_⟩
    simp only [Buf.ofList_cap]
    rw [Buf.destroyRange_eq num (xs.length - num) ⟨cap, c⟩ (by simp only; omega) (by
        intro i h5 h6
        exact hc3 i (by omega) (by omega))]
    congr 1
    ext i
    · rfl
    · simp only
      by_cases a0 : xs.length - num ≤ i ∧ i < xs.length - num + num
      · rw [if_pos a0, Buf.ofList_raw (by simp; omega)]
      · rw [if_neg a0, hc2 i]
        by_cases a1 : pos ≤ i ∧ i < pos + (xs.length - pos - num)
        · rw [if_pos a1, Buf.ofList_live (show i + num < xs.length by omega), Buf.ofList_live (by simp; omega)]
          simp only [Cell.live.injEq]
          rw [List.getElem_append_right (by simp; omega)]
          simp only [List.getElem_drop]
          congr 1
          simp; omega
        · rw [if_neg a1, if_neg (by omega)]
          by_cases a2 : i < pos
          · rw [Buf.ofList_live (show i < xs.length by omega), Buf.ofList_live (by simp; omega)]
            simp only [Cell.live.injEq]
            rw [List.getElem_append_left (by simp; omega)]
            simp
          · rw [Buf.ofList_raw (by omega), Buf.ofList_raw (by simp; omega)]

/-- no allocation: the block, if any, is still the same -/
theorem shrinkAt_st₀ (E : Elem α) {xs : List α} {pos num : Nat} (hG : Good C h k xs nx g)
    (hp : pos + num ≤ xs.length) (hn : 0 < num ∨ pos = xs.length ∨ moves C.P.N C.P.R xs.length h) :
    ∃ g', shrinkAt C.P E pos num (st C h k xs nx g) =
        .ok (if num = xs.length then 0 else pos)
          (st C (if num = xs.length then (if 0 < C.P.R then .stat else h) else choose C.P.N C.P.R (xs.length - num) h) k
            (xs.take pos ++ xs.drop (pos + num)) nx g') ∧
      Good C (if num = xs.length then (if 0 < C.P.R then .stat else h) else choose C.P.N C.P.R (xs.length - num) h) k
        (xs.take pos ++ xs.drop (pos + num)) nx g' := by
  have h1 : ¬ ((pos : Int) < 0 ∨ (pos : Int) > (xs.length : Int) ∨ (pos : Int) + (num : Int) > (xs.length : Int)) := by omega
  simp only [shrinkAt, M.bind_apply, size_st, h1, if_false, Int.toNat_natCast]
  by_cases h2 : xs.length - num = 0
  · have h3 : num = xs.length := by omega
    have h4 : pos = 0 := by omega
    have h5 : List.take pos xs ++ List.drop (pos + num) xs = [] := by subst h3 h4; simp
    obtain ⟨g', e1, e2⟩ := clear_st hG
    refine ⟨g', ?_, ?_⟩
    · rw [h5]
      simp only [h2, if_true, M.bind_apply]
      rw [e1]
      simp [h3, st]
    · rw [h5]; simpa [h3] using e2
  · have h3 : ¬ (num = xs.length) := by omega
    have hge := choose_ge (d := xs.length - num) hG.N hG.R hG.wf
    have hlen : (xs.take pos ++ xs.drop (pos + num)).length = xs.length - num := by simp; omega
    simp only [h2, h3, if_false, M.bind_apply]
    by_cases hm : moves C.P.N C.P.R (xs.length - num) h
    · obtain ⟨cc, rfl⟩ : ∃ cc, h = .dyn cc := by
        cases h with
        | stat => have := hG.len; simp only [moves, Home.cap] at hm this; omega
        | dyn cc => exact ⟨cc, rfl⟩
      have hlen' := hG.len
      simp only [Home.cap] at hlen'
      have hr : xs.length - num < C.P.R := by simp only [moves] at hm; omega
      have hch : choose C.P.N C.P.R (xs.length - num) (.dyn cc) = .stat := by simp [choose, hr]; omega
      rw [hch] at hge ⊢
      simp only [Home.cap] at hge
      refine ⟨(⟨cc, fun _ => .raw⟩ : Buf α) :: g, ?_, ⟨hG.N, hG.R, wf_stat hG.wf k, allRaw_cons (fun _ => rfl) hG.raw, by
        simp only [Home.cap]; omega⟩⟩
      have hd : loc C.i k (.dyn cc) ≠ loc C.i k .stat := by simp [loc]
      have hchd : chooseData C.P (xs.length - num) (st C (.dyn cc) k xs nx g) =
          .ok (loc C.i k .stat, C.P.N) (stB2 C (.dyn cc) k (Buf.ofList cc xs) (loc C.i k (.dyn cc)) xs.length .stat k
            (Buf.fresh C.P.N) nx g) := by
        simp only [chooseData, M.bind_apply, M.get_apply, st, isStatic_stB, stB_cap, Home.cap, gt_iff_lt,
          show ¬ (cc < xs.length - num) by omega, hr, if_true, if_false, decide_eq_true_eq, reduceCtorEq]
        rfl
      simp only [hchd, M.get_apply, stB2_bgn, Ne.symm hd, if_false, stB2_self, stB2_cap]
      rw [if_neg (by simp [loc])]
      simp only [M.bind_apply]
      have e1 := relocLoop_eq E.mv pos 0 0 (Buf.ofList cc xs) (Buf.fresh C.P.N) (by simp only [Buf.ofList_cap]; omega)
        (by simp only [Buf.fresh]; omega) (fun i _ h2 => ⟨xs[i]'(by omega), Buf.ofList_live (by omega)⟩) (fun i _ _ => rfl)
      rw [onLoc2_stB2 hd e1]
      simp only
      have e2 := Buf.destroyRange_eq num pos
        ⟨(Buf.ofList cc xs).cap, fun i => if 0 ≤ i ∧ i < 0 + pos then .raw else (Buf.ofList cc xs).cells i⟩
        (by simp only [Buf.ofList_cap]; omega) (by
          intro i h1 h2
          simp only
          rw [if_neg (by omega)]
          exact ⟨xs[i]'(by omega), Buf.ofList_live (by omega)⟩)
      rw [onLoc_src hd e2]
      simp only
      have e3 := relocLoop_eq E.mv (xs.length - num - pos) (pos + num) pos
        ⟨(Buf.ofList cc xs).cap, fun i => if pos ≤ i ∧ i < pos + num then .raw else
          if 0 ≤ i ∧ i < 0 + pos then .raw else (Buf.ofList cc xs).cells i⟩
        ⟨(Buf.fresh C.P.N : Buf α).cap, fun i => if 0 ≤ i ∧ i < 0 + pos then (Buf.ofList cc xs).cells (i - 0 + 0)
          else (Buf.fresh C.P.N).cells i⟩
        (by simp only [Buf.ofList_cap]; omega) (by simp only [Buf.fresh]; omega)
        (by
          intro i h1 h2
          simp only
          rw [if_neg (by omega), if_neg (by omega)]
          exact ⟨xs[i]'(by omega), Buf.ofList_live (by omega)⟩)
        (by
          intro i h1 h2
          simp only
          rw [if_neg (by omega)]; rfl)
      rw [onLoc2_stB2 hd e3]
      simp only
      have hrel := release'' (C := C) (h := .dyn cc) (k := k) (h' := .stat) (k' := k) (e := loc C.i k (.dyn cc)) (n := xs.length)
        (m := xs.length - num) (g := g) (nx := nx) (b := ⟨cc, fun _ => .raw⟩)
        (c := Buf.ofList C.P.N (xs.take pos ++ xs.drop (pos + num))) hG.wf rfl hd rfl
      have hb : (⟨(Buf.ofList cc xs).cap, fun i => if pos + num ≤ i ∧ i < pos + num + (xs.length - num - pos) then .raw
          else if pos ≤ i ∧ i < pos + num then .raw else
          if 0 ≤ i ∧ i < 0 + pos then .raw else (Buf.ofList cc xs).cells i⟩ : Buf α) = ⟨cc, fun _ => .raw⟩ := by
        ext i
        · rfl
        · simp only
          by_cases a1 : i < xs.length
          · grind
          · have := Buf.ofList_raw (n := cc) (xs := xs) (i := i) (by omega)
            grind
      have hc : (⟨(Buf.fresh C.P.N : Buf α).cap, fun i => if pos ≤ i ∧ i < pos + (xs.length - num - pos) then
          (if pos ≤ i - pos + (pos + num) ∧ i - pos + (pos + num) < pos + num then .raw else
          if 0 ≤ i - pos + (pos + num) ∧ i - pos + (pos + num) < 0 + pos then .raw
          else (Buf.ofList cc xs).cells (i - pos + (pos + num)))
          else if 0 ≤ i ∧ i < 0 + pos then (Buf.ofList cc xs).cells (i - 0 + 0)
          else (Buf.fresh C.P.N).cells i⟩ : Buf α) = Buf.ofList C.P.N (xs.take pos ++ xs.drop (pos + num)) := by
        ext i
        · rfl
        · simp only [Buf.ofList_cells, Buf.fresh]
          grind
      rw [hb, hc]
      revert hrel
      simp only [M.bind_apply]
      cases deallocate (loc C.i k (.dyn cc)) (Home.cap C.P.N (.dyn cc)) (stB2 C _ _ _ _ _ _ _ _ _ _) with
      | ub => simp
      | throw e s => simp
      | ok u s =>
        simp only [Home.cap]
        intro hrel
        rw [hrel]
        simp only [M.pure_apply, st, Home.cap, hlen]
    · have hm2 : 0 < num ∨ pos = xs.length := by
        rcases hn with hn | hn | hn
        · exact Or.inl hn
        · exact Or.inr hn
        · by_cases h0 : num = 0
          · subst h0; simp only [Nat.sub_zero] at hm; exact absurd hn hm
          · exact Or.inl (by omega)
      rw [choose_stay hm] at hge ⊢
      refine ⟨g, ?_, ⟨hG.N, hG.R, hG.wf, hG.raw, by omega⟩⟩
      simp only [st]
      rw [chooseData_stay hm]
      simp only [M.get_apply, stB_bgn, if_true, M.bind_apply, stB_endp]
      obtain ⟨b1, e1, e2⟩ := shiftDown_ofList E.mv (cap := h.cap C.P.N) hp hG.len hm2
      rw [onLoc_stB (f := fun b => b.shiftDown E.mv xs.length (b.cap + 1) pos (pos + num)) e1]
      simp only
      rw [onLoc_stB e2]
      simp only [setEnd_stB, M.pure_apply, hlen]

theorem shrinkAt_st (E : Elem α) {xs : List α} {pos num : Nat} (hG : Good C h k xs nx g)
    (hp : pos + num ≤ xs.length) (hn : 0 < num ∨ pos = xs.length ∨ moves C.P.N C.P.R xs.length h) :
    ∃ k' nx' g', shrinkAt C.P E pos num (st C h k xs nx g) =
        .ok (if num = xs.length then 0 else pos)
          (st C (if num = xs.length then (if 0 < C.P.R then .stat else h) else choose C.P.N C.P.R (xs.length - num) h) k'
            (xs.take pos ++ xs.drop (pos + num)) nx' g') ∧
      Good C (if num = xs.length then (if 0 < C.P.R then .stat else h) else choose C.P.N C.P.R (xs.length - num) h) k'
        (xs.take pos ++ xs.drop (pos + num)) nx' g' := by
  obtain ⟨g', e⟩ := shrinkAt_st₀ E hG hp hn
  exact ⟨k, nx, g', e⟩

theorem shrinkAt_reject (P : Params) (E : Elem α) {xs : List α} {pos : Int} {num : Nat}
    (hp : ¬ (0 ≤ pos ∧ pos + num ≤ xs.length)) :
    shrinkAt P E pos num (st C h k xs nx g) = .throw .outOfRange (st C h k xs nx g) := by
  simp only [shrinkAt, M.bind_apply, size_st]
  rw [if_pos (by omega)]
  rfl

/-! ### Capacity -/

theorem reserve_st (E : Elem α) {xs : List α} {d : Nat} (hG : Good C h k xs nx g) (hat : C.at' = none) :
    ∃ k' nx' g', reserve C.P E d (st C h k xs nx g) = .ok () (st C (reserved C.P.N C.P.R d h) k' xs nx' g') ∧
      Good C (reserved C.P.N C.P.R d h) k' xs nx' g' ∧ (d ≤ h.cap C.P.N → k' = k) := by
  by_cases hd : d ≤ h.cap C.P.N
  · refine ⟨k, nx, g, ?_, ?_, fun _ => rfl⟩
    · simp [reserve, st, hd, reserved]
    · simpa [reserved, hd] using hG
  · have hm : moves C.P.N C.P.R d h := by
      cases h <;> simp only [moves, Home.cap] at hd ⊢ <;> omega
    have hge := choose_ge (d := d) hG.N hG.R hG.wf
    obtain ⟨k', nx', hch, hdl, hw', hw2⟩ := chooseData_move (b := Buf.ofList (h.cap C.P.N) xs) (n := xs.length) (g := g)
      hG.N hat hG.wf hm
    have hns : choose C.P.N C.P.R d h ≠ .stat := by
      intro hs
      rw [hs] at hge
      cases h with
      | stat => simp only [Home.cap] at hge hd; omega
      | dyn c => have := hG.wf.own c rfl; simp only [Home.cap] at hge hd; omega
    have hrs : reserved C.P.N C.P.R d h = choose C.P.N C.P.R d h := by simp [reserved, hd]
    rw [hrs]
    have hlen := hG.len
    generalize choose C.P.N C.P.R d h = h' at *
    obtain ⟨b1, e1, c1, l1, r1⟩ := moveLoop_eq E.mv xs.length 0 0 (Buf.ofList (h.cap C.P.N) xs) (Buf.fresh (h'.cap C.P.N))
      (by simp only [Buf.ofList_cap]; omega) (by simp only [Buf.fresh]; omega)
      (fun i _ h2 => ⟨xs[i]'(by omega), Buf.ofList_live (by omega)⟩) (fun i _ _ => rfl)
    have hdes := Buf.destroyRange_eq xs.length 0 b1 (by rw [c1]; simp only [Buf.ofList_cap]; omega) (by
      intro i _ hi
      exact l1 i (by omega) (by omega))
    have hcell : (⟨(Buf.fresh (h'.cap C.P.N) : Buf α).cap, fun i => if 0 ≤ i ∧ i < 0 + xs.length then
        (Buf.ofList (h.cap C.P.N) xs).cells (i - 0 + 0)
        else (Buf.fresh (h'.cap C.P.N)).cells i⟩ : Buf α) = Buf.ofList (h'.cap C.P.N) xs := by
      ext i
      · rfl
      · simp only [Buf.ofList_cells, Buf.fresh]
        grind
    rw [hcell] at e1
    obtain ⟨g', hg', hrel⟩ := release (m := xs.length) (c := Buf.ofList (h'.cap C.P.N) xs) (n := xs.length) (e := loc C.i k h)
      (b := ⟨b1.cap, fun i => if 0 ≤ i ∧ i < 0 + xs.length then .raw else b1.cells i⟩) hw2 hdl
      (by
        intro i
        simp only
        split
        · rfl
        · rw [r1 i (by omega)]; exact Buf.ofList_raw (by omega))
      (by rw [c1]; rfl) hG.raw
    refine ⟨k', nx', g', ?_, ⟨hG.N, hG.R, hw', hg', by omega⟩, fun hh => absurd hh hd⟩
    simp only [reserve, M.bind_apply, M.get_apply, st, stB_cap, hd, if_false, hch, stB_bgn, stB_self]
    rw [if_neg (by
      rintro (he | he)
      · exact hdl he.symm
      · cases h' with
        | stat => exact hns rfl
        | dyn c => simp [loc] at he)]
    have hsz : ∀ (b c : Buf α), size (stB2 C h k b (loc C.i k h) xs.length h' k' c nx' g) =
        .ok xs.length (stB2 C h k b (loc C.i k h) xs.length h' k' c nx' g) := by
      intro b c; simp [size]
    simp only [M.bind_apply, hsz]
    rw [onLoc2_stB2 hdl e1]
    simp only
    rw [onLoc_src hdl hdes]
    simp only
    exact hrel

theorem popLoop_st {xs : List α} : ∀ (j : Nat), j ≤ xs.length → xs.length ≤ h.cap C.P.N →
    popLoop j (st C h k xs nx g) = .ok () (st C h k (xs.take (xs.length - j)) nx g) := by
  intro j
  induction j generalizing xs with
  | zero => intro _ _; simp [popLoop]
  | succ j ih =>
    intro hj hc
    simp only [popLoop, M.bind_apply, M.get_apply, st, stB_endp, stB_endo, setEnd_stB]
    have hdes : (Buf.ofList (h.cap C.P.N) xs).destroy (xs.length - 1) =
        some (Buf.ofList (h.cap C.P.N) (xs.take (xs.length - 1))) := by
      rw [Buf.destroy_live (by simp only [Buf.ofList_cap]; omega) (Buf.ofList_live (show xs.length - 1 < xs.length by omega))]
      congr 1
      ext i
      · rfl
      · simp only [Function.update_apply, Buf.ofList_cells]
        grind
    rw [onLoc_stB hdes]
    simp only
    have hl : (xs.take (xs.length - 1)).length = xs.length - 1 := by simp
    have := ih (xs := xs.take (xs.length - 1)) (by omega) (by omega)
    simp only [st, hl, List.take_take] at this
    rw [this]
    rw [show min (xs.length - 1 - j) (xs.length - 1) = xs.length - (j + 1) by omega]

theorem pushLoop_st {a : α} {r : Ref α} : ∀ (j : Nat) (xs : List α) (_ : C.ct = none), xs.length + j ≤ h.cap C.P.N →
    (∀ ys m, loadRef r (stB C h k (Buf.ofList (h.cap C.P.N) (xs ++ ys)) m nx g) =
      .ok a (stB C h k (Buf.ofList (h.cap C.P.N) (xs ++ ys)) m nx g)) →
    pushLoop r j (st C h k xs nx g) = .ok () (st C h k (xs ++ List.replicate j a) nx g) := by
  intro j
  induction j with
  | zero => intro xs _ _ _; simp [pushLoop]
  | succ j ih =>
    intro xs hct hc hr
    simp only [pushLoop, M.bind_apply, M.get_apply, st, stB_endp, stB_endo, setEnd_stB]
    have := hr [] (xs.length + 1)
    simp only [List.append_nil] at this
    rw [this]
    simp only
    rw [emplaceAt_stB hct (Buf.ofList_construct (by omega))]
    simp only
    have := ih (xs ++ [a]) hct (by simp; omega) (by
      intro ys m
      have := hr (a :: ys) m
      simpa using this)
    simp only [st, List.length_append, List.length_singleton, List.append_assoc, List.singleton_append] at this
    rw [this, List.replicate_succ]
    simp only [List.length_append, List.length_cons]

theorem resizeV_st (E : Elem α) {xs : List α} {d : Nat} {v : Arg α} {a : α} (hG : Good C h k xs nx g) (hT : NoThrow C)
    (hv : argVal xs v = some a) (hs : d ≤ h.cap C.P.N ∨ ∃ a, v = .val a) :
    ∃ k' nx' g', resizeV C.P E d v (st C h k xs nx g) =
        .ok () (st C (reserved C.P.N C.P.R d h) k' (xs.take d ++ List.replicate (d - xs.length) a) nx' g') ∧
      Good C (reserved C.P.N C.P.R d h) k' (xs.take d ++ List.replicate (d - xs.length) a) nx' g' := by
  obtain ⟨k', nx', g', h1, h2, h3⟩ := reserve_st E (d := d) hG hT.2
  have hge : d ≤ (reserved C.P.N C.P.R d h).cap C.P.N := by
    by_cases hd : d ≤ h.cap C.P.N
    · simpa [reserved, hd] using hd
    · simpa [reserved, hd] using choose_ge (d := d) hG.N hG.R hG.wf
  refine ⟨k', nx', g', ?_, ⟨hG.N, hG.R, h2.wf, h2.raw, ?_⟩⟩
  · simp only [resizeV, M.bind_apply, bindRef_st, h1, size_st]
    rw [popLoop_st _ (by omega) h2.len]
    simp only
    by_cases hd : d ≤ xs.length
    · have e1 : d - xs.length = 0 := by omega
      have e2 : xs.length - (xs.length - d) = d := by omega
      simp only [e1, e2, pushLoop, M.pure_apply, List.replicate_zero, List.append_nil]
    · have e2 : xs.length - (xs.length - d) = xs.length := by omega
      have e3 : xs.take d = xs := List.take_of_length_le (by omega)
      rw [e2, e3, List.take_length]
      refine pushLoop_st _ _ hT.1 (by omega) ?_
      intro ys m
      cases v with
      | val b => simp only [argVal, Option.some.injEq] at hv; simp [refOf, loadRef, hv]
      | self i =>
        simp only [argVal] at hv
        obtain ⟨hi, rfl⟩ := List.getElem?_eq_some_iff.mp hv
        have hdc : d ≤ h.cap C.P.N := by
          rcases hs with hs | ⟨_, hs⟩
          · exact hs
          · cases hs
        have hk := h3 hdc
        have hh : reserved C.P.N C.P.R d h = h := by simp [reserved, hdc]
        have hlen := hG.len
        rw [hk, hh]
        refine loadRef_stB (Buf.read_live (by simp only [Buf.ofList_cap]; omega) ?_)
        rw [Buf.ofList_live (by simp; omega)]
        simp [List.getElem_append_left hi]
  · have hl := h2.len
    simp only [List.length_append, List.length_take, List.length_replicate]
    omega

/-! ### Assignment of contents -/

theorem fillEnd_stB {a : α} {r : Ref α} (hr : ∀ s : St α, loadRef r s = .ok a s) (hct : C.ct = none) :
    ∀ (j : Nat) (ys : List α), ys.length + j ≤ h.cap C.P.N →
    fillEnd r j (stB C h k (Buf.ofList (h.cap C.P.N) ys) ys.length nx g) =
      .ok () (stB C h k (Buf.ofList (h.cap C.P.N) (ys ++ List.replicate j a)) (ys.length + j) nx g) := by
  intro j
  induction j with
  | zero => intro ys _; simp [fillEnd]
  | succ j ih =>
    intro ys hl
    simp only [fillEnd, M.bind_apply, M.get_apply, hr, stB_endp, stB_endo]
    rw [emplaceAt_stB hct (Buf.ofList_construct (by omega))]
    simp only [setEnd_stB]
    have := ih (ys ++ [a]) (by simp; omega)
    simp only [List.length_append, List.length_singleton, List.append_assoc, List.singleton_append] at this
    rw [this, List.replicate_succ, show ys.length + 1 + j = ys.length + (j + 1) by omega]

theorem fillEnd_stB2 {a : α} {r : Ref α} (hr : ∀ s : St α, loadRef r s = .ok a s) (hct : C.ct = none) :
    ∀ (j : Nat) (ys : List α), ys.length + j ≤ h'.cap C.P.N →
    fillEnd r j (stB2 C h k b (loc C.i k' h') ys.length h' k' (Buf.ofList (h'.cap C.P.N) ys) nx g) =
      .ok () (stB2 C h k b (loc C.i k' h') (ys.length + j) h' k' (Buf.ofList (h'.cap C.P.N) (ys ++ List.replicate j a)) nx g) := by
  intro j
  induction j with
  | zero => intro ys _; simp [fillEnd]
  | succ j ih =>
    intro ys hl
    simp only [fillEnd, M.bind_apply, M.get_apply, hr, stB2_endp, stB2_endo]
    rw [emplaceAt_dst hct (Buf.ofList_construct (by omega))]
    simp only [setEnd_stB2]
    have := ih (ys ++ [a]) (by simp; omega)
    simp only [List.length_append, List.length_singleton, List.append_assoc, List.singleton_append] at this
    rw [this, List.replicate_succ, show ys.length + 1 + j = ys.length + (j + 1) by omega]

theorem copyEnd_stB (hct : C.ct = none) : ∀ (zs ys : List α), ys.length + zs.length ≤ h.cap C.P.N →
    copyEnd zs (stB C h k (Buf.ofList (h.cap C.P.N) ys) ys.length nx g) =
      .ok () (stB C h k (Buf.ofList (h.cap C.P.N) (ys ++ zs)) (ys.length + zs.length) nx g) := by
  intro zs
  induction zs with
  | nil => intro ys _; simp [copyEnd]
  | cons z zs ih =>
    intro ys hl
    simp only [List.length_cons] at hl
    simp only [copyEnd, M.bind_apply, M.get_apply, stB_endp, stB_endo]
    rw [emplaceAt_stB hct (Buf.ofList_construct (by omega))]
    simp only [setEnd_stB]
    have := ih (ys ++ [z]) (by simp; omega)
    simp only [List.length_append, List.length_singleton, List.append_assoc, List.singleton_append] at this
    rw [this, List.length_cons, show ys.length + 1 + zs.length = ys.length + (zs.length + 1) by omega]

theorem copyEnd_stB2 (hct : C.ct = none) : ∀ (zs ys : List α), ys.length + zs.length ≤ h'.cap C.P.N →
    copyEnd zs (stB2 C h k b (loc C.i k' h') ys.length h' k' (Buf.ofList (h'.cap C.P.N) ys) nx g) =
      .ok () (stB2 C h k b (loc C.i k' h') (ys.length + zs.length) h' k' (Buf.ofList (h'.cap C.P.N) (ys ++ zs)) nx g) := by
  intro zs
  induction zs with
  | nil => intro ys _; simp [copyEnd]
  | cons z zs ih =>
    intro ys hl
    simp only [List.length_cons] at hl
    simp only [copyEnd, M.bind_apply, M.get_apply, stB2_endp, stB2_endo]
    rw [emplaceAt_dst hct (Buf.ofList_construct (by omega))]
    simp only [setEnd_stB2]
    have := ih (ys ++ [z]) (by simp; omega)
    simp only [List.length_append, List.length_singleton, List.append_assoc, List.singleton_append] at this
    rw [this, List.length_cons, show ys.length + 1 + zs.length = ys.length + (zs.length + 1) by omega]

theorem adopt_stB (hh : h.cap C.P.N = n) : adopt (loc C.i k h) n (stB C h k b m nx g) = .ok () (stB C h k b m nx g) := by
  subst hh
  simp [adopt]
  rfl

theorem adopt_stB2 {m : Nat} (hw : WF C h k nx) (hd : loc C.i k h ≠ loc C.i k' h')
    (hr : ∀ i, b.cells i = .raw) (hc : b.cap = h.cap C.P.N) (hg : AllRaw g) :
    ∃ g', AllRaw g' ∧ adopt (loc C.i k' h') (h'.cap C.P.N) (stB2 C h k b (loc C.i k' h') m h' k' c nx g) =
      .ok () (stB C h' k' c m nx g') := by
  obtain ⟨g', hg', hrel⟩ := release (m := m) (c := c) (e := loc C.i k' h') (n := m) hw hd hr hc hg
  refine ⟨g', hg', ?_⟩
  rw [← hrel]
  have hs2 : (stB2 C h k b (loc C.i k' h') m h' k' c nx g).v.isStatic = decide (h = .stat) := isStatic_stB2 ..
  simp only [adopt, freeDyn, M.bind_apply, M.get_apply, hs2, stB2_bgn, stB2_cap, decide_eq_true_eq]
  by_cases hs : h = .stat
  · simp [hs, setPtrs, stB2]
  · simp only [hs, not_false_eq_true, hd, ne_eq, and_self, if_true, if_false]
    have hl := hd
    obtain ⟨cc, rfl⟩ : ∃ cc, h = .dyn cc := by
      cases h with
      | stat => exact absurd rfl hs
      | dyn cc => exact ⟨cc, rfl⟩
    simp only [M.bind_apply]
    rw [dealloc_src hd rfl (by simpa [Home.cap] using hc)]
    simp only [setPtrs, M.modify_apply]
    simp only [stB2]

/-- after the old elements are destroyed, the buffer is re-filled -/
theorem assignCopy_stB {ys : List α} {n : Nat} (hG : Good C h k [] nx g) (hT : NoThrow C) :
    ∃ k' nx' g', assignCopy C.P ys (stB C h k (Buf.fresh (h.cap C.P.N)) n nx g) =
        .ok () (st C (choose C.P.N C.P.R ys.length h) k' ys nx' g') ∧
      Good C (choose C.P.N C.P.R ys.length h) k' ys nx' g' := by
  have hge := choose_ge (d := ys.length) hG.N hG.R hG.wf
  by_cases hm : moves C.P.N C.P.R ys.length h
  · obtain ⟨k', nx', hch, hdl, hw', hw2⟩ := chooseData_move (b := Buf.fresh (h.cap C.P.N)) (n := n) (g := g)
      hG.N hT.2 hG.wf hm
    generalize choose C.P.N C.P.R ys.length h = h' at *
    obtain ⟨g', hg', had⟩ := adopt_stB2 (m := ys.length) (c := Buf.ofList (h'.cap C.P.N) ys) (b := Buf.fresh (h.cap C.P.N))
      hw2 hdl (fun _ => rfl) rfl hG.raw
    refine ⟨k', nx', g', ?_, ⟨hG.N, hG.R, hw', hg', hge⟩⟩
    have := copyEnd_stB2 (C := C) (h := h) (k := k) (b := Buf.fresh (h.cap C.P.N)) (h' := h') (k' := k') (nx := nx') (g := g)
      hT.1 ys [] (by simpa using hge)
    simp only [List.length_nil, Buf.ofList_nil, Nat.zero_add, List.nil_append] at this
    simp only [assignCopy, M.bind_apply, hch, setEnd_stB2, this, had, st]
  · rw [choose_stay hm] at hge ⊢
    refine ⟨k, nx, g, ?_, ⟨hG.N, hG.R, hG.wf, hG.raw, hge⟩⟩
    have := copyEnd_stB (C := C) (h := h) (k := k) (nx := nx) (g := g) hT.1 ys [] (by simpa using hge)
    simp only [List.length_nil, Buf.ofList_nil, Nat.zero_add, List.nil_append] at this
    simp only [assignCopy, M.bind_apply, chooseData_stay hm, setEnd_stB, this, adopt_stB rfl, st]

theorem assignFill_stB {a : α} {d n : Nat} (hG : Good C h k [] nx g) (hT : NoThrow C) {r : Ref α}
    (hr : d = 0 ∨ ∀ s : St α, loadRef r s = .ok a s) :
    ∃ k' nx' g', assignFill C.P d r (stB C h k (Buf.fresh (h.cap C.P.N)) n nx g) =
        .ok () (st C (choose C.P.N C.P.R d h) k' (List.replicate d a) nx' g') ∧
      Good C (choose C.P.N C.P.R d h) k' (List.replicate d a) nx' g' := by
  have hge := choose_ge (d := d) hG.N hG.R hG.wf
  by_cases hm : moves C.P.N C.P.R d h
  · obtain ⟨k', nx', hch, hdl, hw', hw2⟩ := chooseData_move (b := Buf.fresh (h.cap C.P.N)) (n := n) (g := g)
      hG.N hT.2 hG.wf hm
    generalize choose C.P.N C.P.R d h = h' at *
    obtain ⟨g', hg', had⟩ := adopt_stB2 (m := d) (c := Buf.ofList (h'.cap C.P.N) (List.replicate d a)) (b := Buf.fresh (h.cap C.P.N))
      hw2 hdl (fun _ => rfl) rfl hG.raw
    refine ⟨k', nx', g', ?_, ⟨hG.N, hG.R, hw', hg', by simpa using hge⟩⟩
    have : fillEnd r d (stB2 C h k (Buf.fresh (h.cap C.P.N)) (loc C.i k' h') 0 h' k' (Buf.fresh (h'.cap C.P.N)) nx' g) =
      .ok () (stB2 C h k (Buf.fresh (h.cap C.P.N)) (loc C.i k' h') d h' k' (Buf.ofList (h'.cap C.P.N) (List.replicate d a)) nx' g) := by
      rcases hr with rfl | hr
      · simp [fillEnd, Buf.ofList_nil]
      · have := fillEnd_stB2 (C := C) (h := h) (k := k) (b := Buf.fresh (h.cap C.P.N)) (h' := h') (k' := k') (nx := nx') (g := g)
          hr hT.1 d [] (by simpa using hge)
        simpa only [List.length_nil, Buf.ofList_nil, Nat.zero_add, List.nil_append] using this
    simp only [assignFill, M.bind_apply, hch, setEnd_stB2, this, had, st, List.length_replicate]
  · rw [choose_stay hm] at hge ⊢
    refine ⟨k, nx, g, ?_, ⟨hG.N, hG.R, hG.wf, hG.raw, by simpa using hge⟩⟩
    have : fillEnd r d (stB C h k (Buf.fresh (h.cap C.P.N)) 0 nx g) =
      .ok () (stB C h k (Buf.ofList (h.cap C.P.N) (List.replicate d a)) d nx g) := by
      rcases hr with rfl | hr
      · simp [fillEnd, Buf.ofList_nil]
      · have := fillEnd_stB (C := C) (h := h) (k := k) (nx := nx) (g := g) hr hT.1 d [] (by simpa using hge)
        simpa only [List.length_nil, Buf.ofList_nil, Nat.zero_add, List.nil_append] using this
    simp only [assignFill, M.bind_apply, chooseData_stay hm, setEnd_stB, this, adopt_stB rfl, st, List.length_replicate]

theorem good_nil {xs : List α} (hG : Good C h k xs nx g) : Good C h k [] nx g :=
  ⟨hG.N, hG.R, hG.wf, hG.raw, by simp⟩

theorem assignN_st {xs : List α} {v : Arg α} {a : α} {d : Nat} (hG : Good C h k xs nx g) (hT : NoThrow C)
    (hv : argVal xs v = some a) (hs : d = 0 ∨ ∃ a, v = .val a) :
    ∃ k' nx' g', assignN C.P d v (st C h k xs nx g) =
        .ok () (st C (choose C.P.N C.P.R d h) k' (List.replicate d a) nx' g') ∧
      Good C (choose C.P.N C.P.R d h) k' (List.replicate d a) nx' g' := by
  obtain ⟨k', nx', g', h1, h2⟩ := assignFill_stB (a := a) (d := d) (n := xs.length) (r := refOf C h k v) (good_nil hG) hT (by
    rcases hs with hs | ⟨b, rfl⟩
    · exact Or.inl hs
    · simp only [argVal, Option.some.injEq] at hv
      exact Or.inr (fun s => by simp [refOf, loadRef, hv]))
  exact ⟨k', nx', g', by simp only [assignN, M.bind_apply, bindRef_st, destroyAll_st hG.len, h1], h2⟩

theorem assignRange_st {xs ys : List α} (hG : Good C h k xs nx g) (hT : NoThrow C) :
    ∃ k' nx' g', assignRange C.P ys (st C h k xs nx g) =
        .ok () (st C (choose C.P.N C.P.R ys.length h) k' ys nx' g') ∧
      Good C (choose C.P.N C.P.R ys.length h) k' ys nx' g' := by
  obtain ⟨k', nx', g', h1, h2⟩ := assignCopy_stB (ys := ys) (n := xs.length) (good_nil hG) hT
  exact ⟨k', nx', g', by simp only [assignRange, M.bind_apply, destroyAll_st hG.len, h1], h2⟩

/-! ### `shrink_to_fit`, `revert_to_static` -/

/-- What `shrink_to_fit` does to the home of a vector of `s` elements. -/
def shrunk (N s : Nat) : Home → Bool × Home
  | .stat => (false, .stat)
  | .dyn c => if s = c then (false, .dyn c) else if s < N then (true, .stat) else (true, .dyn s)

theorem relocAll {cc c' : Nat} (mv : α → α) {xs : List α} (h1 : xs.length ≤ cc) (h2 : xs.length ≤ c') :
    relocLoop mv 0 0 xs.length (Buf.ofList cc xs) (Buf.fresh c') = some (Buf.fresh cc, Buf.ofList c' xs) := by
  rw [relocLoop_eq mv xs.length 0 0 (Buf.ofList cc xs) (Buf.fresh c') (by simp only [Buf.ofList_cap]; omega)
        (by simp only [Buf.fresh]; omega) (fun i _ h2 => ⟨xs[i]'(by omega), Buf.ofList_live (by omega)⟩) (fun i _ _ => rfl)]
  congr 2 <;> ext i
  · rfl
  · simp only [Buf.ofList_cells, Buf.fresh]; grind
  · rfl
  · simp only [Buf.ofList_cells, Buf.fresh]; grind

theorem shrinkToFit_st (E : Elem α) {xs : List α} (hG : Good C h k xs nx g) (hat : C.at' = none) :
    ∃ k' nx' g', shrinkToFit C.P E (st C h k xs nx g) =
        .ok (shrunk C.P.N xs.length h).1 (st C (shrunk C.P.N xs.length h).2 k' xs nx' g') ∧
      Good C (shrunk C.P.N xs.length h).2 k' xs nx' g' := by
  cases h with
  | stat =>
    refine ⟨k, nx, g, ?_, hG⟩
    simp only [shrinkToFit, M.bind_apply, size_st, M.get_apply, shrunk]
    simp only [st, stB_cap, isStatic_stB, Home.cap, decide_true, if_true, M.pure_apply, ite_self]
  | dyn cc =>
    have hlen := hG.len
    simp only [Home.cap] at hlen
    simp only [shrinkToFit, M.bind_apply, size_st, M.get_apply, shrunk]
    simp only [st, stB_cap, isStatic_stB, Home.cap, reduceCtorEq, decide_false, Bool.false_eq_true, if_false, stB_self, stB_bgn]
    by_cases h1 : xs.length = cc
    · exact ⟨k, nx, g, by simp [h1, Home.cap], by simpa [h1] using hG⟩
    · simp only [h1, if_false]
      by_cases h2 : xs.length < C.P.N
      · simp only [h2, if_true]
        refine ⟨k, nx, Buf.fresh cc :: g, ?_, ⟨hG.N, hG.R, wf_stat hG.wf k, allRaw_cons (fun _ => rfl) hG.raw, by
          simp only [Home.cap]; omega⟩⟩
        have hd : loc C.i k (.dyn cc) ≠ loc C.i k .stat := by simp [loc]
        have e0 : stB C (.dyn cc) k (Buf.ofList cc xs) xs.length nx g =
            stB2 C (.dyn cc) k (Buf.ofList cc xs) (loc C.i k (.dyn cc)) xs.length .stat k (Buf.fresh C.P.N) nx g := rfl
        have e1 : (Loc.stat C.i) = loc C.i k .stat := rfl
        have hrel := release' (C := C) (h := .dyn cc) (k := k) (h' := .stat) (k' := k) (e := loc C.i k (.dyn cc)) (n := xs.length)
          (m := xs.length) (g := g) (nx := nx) (b := Buf.fresh cc) (c := Buf.ofList C.P.N xs) hG.wf rfl hd rfl
        simp only [M.bind_apply, Home.cap] at hrel
        rw [e0, e1]
        simp only [M.bind_apply]
        rw [onLoc2_stB2 hd (relocAll E.mv hlen (by omega))]
        simp only
        revert hrel
        cases setPtrs (loc C.i k .stat) xs.length C.P.N (stB2 C _ _ _ _ _ _ _ _ _ _) with
        | ub => simp
        | throw e s => simp
        | ok u s =>
          simp only
          intro hrel
          rw [hrel]
          simp [Home.cap]
      · simp only [h2, if_false]
        have hw2 : WF C (.dyn cc) k (nx + 1) := ⟨fun j hj => hG.wf.free j (by omega), by
          intro c' hc'; have := hG.wf.own c' hc'; exact ⟨by omega, this.2⟩⟩
        have ho := hG.wf.own cc rfl
        refine ⟨nx, nx + 1, Buf.fresh cc :: g, ?_, ⟨hG.N, hG.R, wf_new hG.wf (by omega), allRaw_cons (fun _ => rfl) hG.raw, by
          simp [Home.cap]⟩⟩
        have hd : loc C.i k (.dyn cc) ≠ loc C.i nx (.dyn xs.length) := by simp [loc]; omega
        have e0 : allocate xs.length (stB C (.dyn cc) k (Buf.ofList cc xs) xs.length nx g) =
            .ok (loc C.i nx (.dyn xs.length)) (stB2 C (.dyn cc) k (Buf.ofList cc xs) (loc C.i k (.dyn cc)) xs.length (.dyn xs.length) nx
              (Buf.fresh xs.length) (nx + 1) g) := by
          simp [allocate, hat, loc, stB, stB2, putStat, putHeap]
        have hrel := release' (C := C) (h := .dyn cc) (k := k) (h' := .dyn xs.length) (k' := nx) (e := loc C.i k (.dyn cc)) (n := xs.length)
          (m := xs.length) (g := g) (nx := nx + 1) (b := Buf.fresh cc) (c := Buf.ofList xs.length xs) hw2 rfl hd rfl
        simp only [M.bind_apply, Home.cap] at hrel
        simp only [M.bind_apply, e0]
        rw [onLoc2_stB2 hd (relocAll E.mv hlen (by omega))]
        simp only
        revert hrel
        cases setPtrs (loc C.i nx (.dyn xs.length)) xs.length xs.length (stB2 C _ _ _ _ _ _ _ _ _ _) with
        | ub => simp
        | throw e s => simp
        | ok u s =>
          simp only
          intro hrel
          rw [hrel]
          simp [Home.cap]

theorem revertToStatic_st (E : Elem α) {xs : List α} (hG : Good C h k xs nx g) (hat : C.at' = none) :
    ∃ k' nx' g', revertToStatic C.P E (st C h k xs nx g) =
        .ok (decide (h = .stat ∨ xs.length ≤ C.P.N))
          (st C (if xs.length ≤ C.P.N then (shrunk C.P.N xs.length h).2 else h) k' xs nx' g') ∧
      Good C (if xs.length ≤ C.P.N then (shrunk C.P.N xs.length h).2 else h) k' xs nx' g' := by
  by_cases hs : h = .stat
  · subst hs
    refine ⟨k, nx, g, ?_, by simpa [shrunk] using hG⟩
    simp only [revertToStatic, M.bind_apply, size_st, M.get_apply]
    simp [st, shrunk]
  · simp only [revertToStatic, M.bind_apply, size_st, M.get_apply]
    by_cases hl : xs.length ≤ C.P.N
    · obtain ⟨k', nx', g', h1, h2⟩ := shrinkToFit_st E hG hat
      refine ⟨k', nx', g', ?_, by simpa [hl] using h2⟩
      simp only [st, isStatic_stB, hs, decide_false, Bool.false_eq_true, if_false, gt_iff_lt, show ¬ (C.P.N < xs.length) by omega,
        M.bind_apply, hl, or_true, decide_true, if_true, M.pure_apply] at h1 ⊢
      simp [h1]
    · refine ⟨k, nx, g, ?_, by simpa [hl] using hG⟩
      simp [st, hs, hl, show C.P.N < xs.length by omega]

/-! ### Destruction -/

theorem dtorBody_st {xs : List α} (hG : Good C h k xs nx g) :
    ∃ s g', dtorBody (st C h k xs nx g) = .ok () s ∧ s.v.stat = Buf.fresh C.P.N ∧ s.heap = C.h0 ∧ s.graves = g' ∧ AllRaw g' ∧
      s.next = nx ∧ s.ctick = C.ct ∧ s.atick = C.at' ∧ s.v.self = C.i := by
  simp only [dtorBody, M.bind_apply, destroyAll_st hG.len, freeDyn, M.get_apply, isStatic_stB, decide_eq_true_eq, stB_bgn, stB_cap]
  cases h with
  | stat =>
    refine ⟨_, g, rfl, rfl, rfl, rfl, hG.raw, rfl, rfl, rfl, rfl⟩
  | dyn cc =>
    have ho := hG.wf.own cc rfl
    simp only [reduceCtorEq, if_false]
    rw [dealloc_stB (cc := cc) rfl rfl]
    refine ⟨_, Buf.fresh (Home.cap C.P.N (.dyn cc)) :: g, rfl, rfl, ?_, rfl, allRaw_cons (fun _ => rfl) hG.raw, rfl, rfl, rfl, rfl⟩
    simp
    exact ho.2.1.symm

theorem mapM_read {cap : Nat} {xs : List α} (hc : xs.length ≤ cap) :
    ∀ (j p : Nat), p + j ≤ xs.length → (List.range' p j).mapM (Buf.ofList cap xs).read = some ((xs.drop p).take j) := by
  intro j
  induction j with
  | zero => intro p _; simp
  | succ j ih =>
    intro p hp
    rw [List.range'_succ, List.mapM_cons, Buf.ofList_read (show p < xs.length by omega) hc, ih (p+1) (by omega)]
    simp only [Option.pure_def, Option.bind_eq_bind, Option.bind_some, Option.some.injEq]
    rw [List.drop_eq_getElem_cons (show p < xs.length by omega), List.take_succ_cons]

theorem elems_st {xs : List α} (hc : xs.length ≤ h.cap C.P.N) :
    elems (st C h k xs nx g) = .ok xs (st C h k xs nx g) := by
  simp only [elems, M.bind_apply, size_st, M.load]
  have := mapM_read (cap := h.cap C.P.N) (xs := xs) hc xs.length 0 (by omega)
  simp only [List.drop_zero, List.take_length] at this
  simp only [st, stB_bgn, buf_stB, Option.bind_eq_bind, Option.bind_some, List.range_eq_range', this]

end Itlib.SmallVector
