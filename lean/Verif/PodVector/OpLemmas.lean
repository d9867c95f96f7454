import Verif.PodVector.Lemmas

/-! # Operations on the buffer of a `pod_vector` -/
namespace Itlib.PodVector
open Itlib

variable {P : Params}

/-! ### Capacity -/

theorem growLoop_eq (d f c : Nat) : growLoop d f c = Spec.growTo d f c := by
  induction f generalizing c with
  | zero => rfl
  | succ f ih =>
    simp only [growLoop, Spec.growTo]
    by_cases h : c < d
    · rw [if_pos h, if_neg (by omega), ih, Nat.mul_comm]
    · rw [if_neg h, if_pos (by omega)]

theorem growTo_ge (d f c : Nat) (hc : 0 < c) (hf : d ≤ c + f) : d ≤ Spec.growTo d f c := by
  induction f generalizing c with
  | zero => simpa [Spec.growTo] using hf
  | succ f ih =>
    simp only [Spec.growTo]
    by_cases h : d ≤ c
    · rw [if_pos h]; exact h
    · rw [if_neg h]; exact ih _ (by omega) (by omega)

theorem getNewCapacity_eq {c d : Nat} (h : c < d) : getNewCapacity c d = Spec.newCap c d := by
  have h' : ¬ d ≤ c := by omega
  simp only [getNewCapacity, Spec.newCap, growLoop_eq, h', if_false]

theorem newCap_ge (c d : Nat) : d ≤ Spec.newCap c d := by
  simp only [Spec.newCap]
  by_cases h : d ≤ c
  · rw [if_pos h]; exact h
  · rw [if_neg h]
    by_cases h0 : c = 0
    · rw [if_pos h0]; exact Nat.le_refl _
    · rw [if_neg h0]; exact growTo_ge _ _ _ (by omega) (by omega)

theorem newCap_of_le {c d : Nat} (h : d ≤ c) : Spec.newCap c d = c := by simp [Spec.newCap, h]

theorem newCap_zero (d : Nat) : Spec.newCap 0 d = d := by
  simp only [Spec.newCap]; by_cases h : d ≤ 0 <;> simp [h]; omega

/-! ### `reserve`, `shrink_to_fit` -/

theorem Moved.finish {h0 : Heap} {o : Option Own} {n N : Nat} {s : St} (h : Moved P h0 o n N s) (m : Nat) :
    ∃ q t, setSize P m s = .ok () (st P h0 (some q) N m t) ∧ Good P q N ∧ h0 q.base = none ∧
      ∀ i, i < n → slot P q i = slotO P o i := by
  obtain ⟨q, e, t, rfl, g, hq, hs⟩ := h
  exact ⟨q, t, rfl, g, hq, hs⟩

theorem ptrOf_some (w : Own) : ptrOf (some w) = ⟨w.base, w.off⟩ := rfl

theorem ptr_ne_null {w : Own} {cap : Nat} (g : Good P w cap) : (⟨w.base, w.off⟩ : Ptr) ≠ null := by
  simp [null, g.nz]

theorem reserve_stay (m : Nat) (s : St) (h : m ≤ s.v.cap) : reserve P m s = .ok false s := by
  simp [reserve, h]

/-- the buffer gets bigger -/
theorem reserve_grow (hP : Wf P) {h0 : Heap} (hb : Bdd h0) {o : Option Own} {cap : Nat} (f : Fits P h0 o cap)
    (n m t : Nat) (hn : n ≤ cap) (hm : cap < m) :
    ∃ q t', reserve P m (st P h0 o cap n t) =
        .ok (decide ((ptrOf o).addr ≠ (ptrOf (some q)).addr)) (st P h0 (some q) (Spec.newCap cap m) n t') ∧
      Good P q (Spec.newCap cap m) ∧ h0 q.base = none ∧ ∀ i, i < n → slot P q i = slotO P o i := by
  have e0 : ¬ m ≤ (st P h0 o cap n t).v.cap := by simp only [st]; omega
  have esz := size_st hP (ptrOf o) n cap (heapOf h0 o) t
  have eN : getNewCapacity (st P h0 o cap n t).v.cap m = Spec.newCap cap m := getNewCapacity_eq hm
  have hN : n ≤ Spec.newCap cap m := by have := newCap_ge cap m; omega
  by_cases hx : P.A.hasExpand = true
  · cases o with
    | none =>
      obtain ⟨q, e1, gq, hq⟩ := aMalloc_ok hP ⟨null, null.add (n * P.sz), cap⟩ h0 t (Spec.newCap cap m) hb
      simp only [Fits] at f
      refine ⟨q, t + 1, ?_, gq, hq, by intro i hi; omega⟩
      simp only [st, ptrOf, heapOf] at esz eN e0
      simp only [reserve, M.bind_apply, M.get_apply, e0, if_false, st, ptrOf, heapOf]
      simp only [esz, hx, if_true, eN, e1, setBegin, setCap, setSize, M.modify_apply, M.pure_apply, M.bind_apply,
        M.get_apply]
      rfl
    | some w =>
      obtain ⟨g, hw⟩ := f
      have hnn := ptr_ne_null g
      rcases aExpand_ok (n := n) (N := Spec.newCap cap m) (t := t) g hw hx hn hN with ⟨s, e1, hm1, _⟩ | e1
      · obtain ⟨q, t', e2, gq, hq, hs⟩ := hm1.finish n
        refine ⟨q, t', ?_, gq, hq, hs⟩
        simp only [st, ptrOf] at e1 e2 esz eN e0
        simp only [reserve, M.bind_apply, M.get_apply, e0, if_false, st, ptrOf, esz, hx, if_true, eN, hnn, e1,
          M.pure_apply, e2]
        rfl
      · obtain ⟨s, e3, hm1⟩ := mallocCopy_ok hP hb g hw n (Spec.newCap cap m) (t + 1)
          ((⟨w.base, w.off⟩ : Ptr).add (n * P.sz)) cap hn hN
        obtain ⟨q, t', e2, gq, hq, hs⟩ := hm1.finish n
        refine ⟨q, t', ?_, gq, hq, hs⟩
        simp only [st, ptrOf] at e1 e2 e3 esz eN e0
        simp only [reserve, M.bind_apply, M.get_apply, e0, if_false, st, ptrOf, esz, hx, if_true, eN, hnn, e1,
          M.pure_apply, e2, e3, Bool.false_eq_true]
        rfl
  · simp only [Bool.not_eq_true] at hx
    by_cases hwf : (cap - n) * P.sz > P.A.wasteful
    · cases o with
      | none => simp only [Fits] at f; subst f; simp at hwf
      | some w =>
        obtain ⟨g, hw⟩ := f
        obtain ⟨s, e3, hm1⟩ := mallocCopy_ok hP hb g hw n (Spec.newCap cap m) t
          ((⟨w.base, w.off⟩ : Ptr).add (n * P.sz)) cap hn hN
        obtain ⟨q, t', e2, gq, hq, hs⟩ := hm1.finish n
        refine ⟨q, t', ?_, gq, hq, hs⟩
        simp only [st, ptrOf] at e2 e3 esz eN e0
        simp only [reserve, M.bind_apply, M.get_apply, e0, if_false, st, ptrOf, esz, hx, if_true, eN,
          M.pure_apply, e2, e3, Bool.false_eq_true, hwf]
        rfl
    · obtain ⟨s, e3, hm1⟩ := aRealloc_ok hP hb f n (Spec.newCap cap m) t hn hN
      obtain ⟨q, t', e2, gq, hq, hs⟩ := hm1.finish n
      refine ⟨q, t', ?_, gq, hq, hs⟩
      simp only [st] at e2 e3 esz eN e0
      simp only [reserve, M.bind_apply, M.get_apply, e0, if_false, st, esz, hx, if_true, eN,
        M.pure_apply, e2, e3, Bool.false_eq_true, hwf]

theorem Fits.null_cap {h0 : Heap} {o : Option Own} {cap : Nat} (f : Fits P h0 o cap) (h : cap ≠ 0) : ∃ w, o = some w := by
  cases o with
  | none => exact absurd f h
  | some w => exact ⟨w, rfl⟩

theorem shrink_ok (hP : Wf P) {h0 : Heap} (hb : Bdd h0) {o : Option Own} {cap : Nat} (f : Fits P h0 o cap)
    (n t : Nat) (hn : n ≤ cap) :
    ∃ o' t', shrinkToFit P (st P h0 o cap n t) =
        .ok (decide ((ptrOf o).addr ≠ (ptrOf o').addr)) (st P h0 o' n n t') ∧
      Fits P h0 o' n ∧ ∀ i, i < n → slotO P o' i = slotO P o i := by
  have esz := size_st hP (ptrOf o) n cap (heapOf h0 o) t
  by_cases h1 : n = cap
  · subst h1
    refine ⟨o, t, ?_, f, fun _ _ => rfl⟩
    simp only [shrinkToFit, M.bind_apply, M.get_apply, st, esz, if_true, M.pure_apply, ne_eq, not_true_eq_false,
      decide_false]
  · obtain ⟨w, rfl⟩ := f.null_cap (by omega)
    obtain ⟨g, hw⟩ := f
    have hnn := ptr_ne_null g
    by_cases h2 : n = 0
    · subst h2
      refine ⟨none, t, ?_, rfl, by intro i hi; omega⟩
      have e1 := aFree_ok g ((⟨w.base, w.off⟩ : Ptr).add (0 * P.sz)) cap (heapOf h0 (some w)) t (by simp [heapOf])
      have hne : (⟨w.base, w.off⟩ : Ptr).addr ≠ null.addr := by
        have := g.nz
        simp only [Ptr.addr, null]; omega
      simp only [st, ptrOf] at esz
      simp only [shrinkToFit, M.bind_apply, M.get_apply, st, ptrOf, esz, h1, if_false, if_true, e1, setCap, setBegin,
        setSize, M.modify_apply, M.pure_apply, ne_eq, hne, not_false_eq_true, decide_true]
      simp only [heapOf, Function.update_idem]
      rw [show Function.update h0 w.base none = h0 by rw [← hw, Function.update_eq_self]]
    · by_cases hx : P.A.hasExpand = true
      · rcases aExpand_ok (n := n) (N := n) (t := t) g hw hx hn (Nat.le_refl _) with ⟨s, e1, hm1, _⟩ | e1
        · obtain ⟨q, t', e2, gq, hq, hs⟩ := hm1.finish n
          refine ⟨some q, t', ?_, ⟨gq, hq⟩, hs⟩
          simp only [st, ptrOf] at e1 e2 esz
          simp only [shrinkToFit, M.bind_apply, M.get_apply, st, ptrOf, esz, h1, h2, if_false, if_true, hx, e1,
            M.pure_apply, e2]
          rfl
        · obtain ⟨s, e3, hm1⟩ := mallocCopy_ok hP hb g hw n n (t + 1)
            ((⟨w.base, w.off⟩ : Ptr).add (n * P.sz)) cap hn (Nat.le_refl _)
          obtain ⟨q, t', e2, gq, hq, hs⟩ := hm1.finish n
          refine ⟨some q, t', ?_, ⟨gq, hq⟩, hs⟩
          simp only [st, ptrOf] at e1 e2 e3 esz
          have e4 : ∀ {β : Type} (k : M St β), (do
              let p ← aMalloc P n
              copyBytes p ⟨w.base, w.off⟩ (n * P.sz)
              aFreeBegin P
              setBegin p
              setCap n
              k : M St β) ⟨⟨⟨w.base, w.off⟩, (⟨w.base, w.off⟩ : Ptr).add (n * P.sz), cap⟩, heapOf h0 (some w), t + 1⟩
                = k s := by
            intro β k
            obtain ⟨q, e5, gq, hq⟩ := aMalloc_ok hP ⟨⟨w.base, w.off⟩, (⟨w.base, w.off⟩ : Ptr).add (n * P.sz), cap⟩
              (heapOf h0 (some w)) (t + 1) n (hb.heapOf (some w))
            simp only [mallocCopy, M.bind_apply, e5, M.get_apply, ne_eq, h2, not_false_eq_true, if_true] at e3 ⊢
            revert e3
            generalize copyBytes _ _ _ _ = r1
            cases r1 with
            | ok a s1 =>
              simp only
              generalize aFreeBegin P s1 = r2
              cases r2 with
              | ok a s1 => intro e3; simp only [setBegin, setCap, M.modify_apply, Res.ok.injEq, true_and] at e3 ⊢; rw [e3]
              | throw e s1 => intro e3; simp at e3
              | ub => intro e3; simp at e3
            | throw e s1 => intro e3; simp at e3
            | ub => intro e3; simp at e3
          have e6 : (do
              setSize P n
              let st ← M.get
              pure (decide ((⟨w.base, w.off⟩ : Ptr).addr ≠ st.v.bgn.addr)) : M St Bool) s =
              .ok (decide ((⟨w.base, w.off⟩ : Ptr).addr ≠ (⟨q.base, q.off⟩ : Ptr).addr))
                ⟨⟨⟨q.base, q.off⟩, (⟨q.base, q.off⟩ : Ptr).add (n * P.sz), n⟩, heapOf h0 (some q), t'⟩ := by
            simp only [M.bind_apply, e2, M.get_apply, M.pure_apply]
          simp only [shrinkToFit, M.bind_apply, M.get_apply, st, ptrOf, esz, h1, h2, if_false, if_true, hx, e1,
            M.pure_apply, Bool.false_eq_true]
          exact (e4 _).trans e6
      · obtain ⟨s, e3, hm1⟩ := aRealloc_ok hP hb (o := some w) ⟨g, hw⟩ n n t hn (Nat.le_refl _)
        obtain ⟨q, t', e2, gq, hq, hs⟩ := hm1.finish n
        refine ⟨some q, t', ?_, ⟨gq, hq⟩, hs⟩
        simp only [st, ptrOf] at e2 e3 esz
        simp only [Bool.not_eq_true] at hx
        simp only [shrinkToFit, M.bind_apply, M.get_apply, st, ptrOf, esz, h1, h2, if_false, hx, Bool.false_eq_true, e3,
          M.pure_apply, e2]
        rfl

/-! ### Writing elements -/

/-- the object referred to by `r` has the bytes `c`; if it is an element, then of the buffer `w` -/
def Reads (P : Params) (w : Own) (cap : Nat) (r : Ref) (c : List Cell) : Prop :=
  match r with
  | .val a => c = a.map some ∧ a.length = P.sz
  | .slot p => ∃ i, i < cap ∧ p = ⟨w.base, w.off + i * P.sz⟩ ∧ slot P w i = c

theorem Reads.length {w : Own} {cap : Nat} {r : Ref} {c : List Cell} (h : Reads P w cap r c) : c.length = P.sz := by
  cases r with
  | val a => obtain ⟨rfl, h⟩ := h; simp [h]
  | slot p => obtain ⟨i, _, _, rfl⟩ := h; simp

theorem loadRef_ok {w : Own} {cap : Nat} (g : Good P w cap) {r : Ref} {c : List Cell} (h : Reads P w cap r c) (v : Vec)
    (H : Heap) (t : Nat) (hH : H w.base = some w.blk) : loadRef P r ⟨v, H, t⟩ = .ok c ⟨v, H, t⟩ := by
  cases r with
  | val a => obtain ⟨rfl, h⟩ := h; rfl
  | slot p =>
    obtain ⟨i, hi, rfl, rfl⟩ := h
    have := readSlots w g v H t i 1 hH (by omega)
    rw [Nat.one_mul] at this
    exact this

theorem writeSlot {h0 : Heap} {w : Own} {cap : Nat} (g : Good P w cap) (v : Vec) (t k : Nat) (c : List Cell)
    (hc : c.length = P.sz) (hk : k < cap) :
    ∃ w' : Own, writeAt ⟨w.base, w.off + k * P.sz⟩ c ⟨v, heapOf h0 (some w), t⟩ = .ok () ⟨v, heapOf h0 (some w'), t⟩ ∧
      w'.base = w.base ∧ w'.off = w.off ∧ Good P w' cap ∧ ∀ i, slot P w' i = if i = k then c else slot P w i := by
  refine ⟨w.wr (w.off + k * P.sz) c, ?_, rfl, rfl, g.wr _ _, fun i => ?_⟩
  · rw [writeSlots w g v _ t k 1 c (by simp [heapOf]) (by omega) (by omega)]
    simp [heapOf]
  · rw [slot_wr _ _ 1 _ (by omega)]
    by_cases h : i = k
    · subst h; rw [if_pos (by omega), if_pos rfl, Nat.sub_self, slotOf_zero _ _ hc]
    · rw [if_neg (by omega), if_neg h]

theorem fill_ok {h0 : Heap} {w : Own} {cap : Nat} (g : Good P w cap) {r : Ref} {c : List Cell} (h : Reads P w cap r c)
    (v : Vec) (t k m : Nat) (hk : k + m ≤ cap) :
    ∃ w' : Own, fill P r ⟨w.base, w.off + k * P.sz⟩ m ⟨v, heapOf h0 (some w), t⟩ =
        .ok () ⟨v, heapOf h0 (some w'), t⟩ ∧ w'.base = w.base ∧ w'.off = w.off ∧ Good P w' cap ∧
      ∀ i, slot P w' i = if k ≤ i ∧ i < k + m then c else slot P w i := by
  induction m generalizing w k with
  | zero => exact ⟨w, rfl, rfl, rfl, g, fun i => by rw [if_neg (by omega)]⟩
  | succ m ih =>
    obtain ⟨w1, e1, hb1, ho1, g1, hs1⟩ := writeSlot (h0 := h0) g v t k c h.length (by omega)
    have h1 : Reads P w1 cap r c := by
      cases r with
      | val a => exact h
      | slot p =>
        obtain ⟨i, hi, rfl, hc⟩ := h
        refine ⟨i, hi, by rw [hb1, ho1], ?_⟩
        rw [hs1]
        by_cases e : i = k
        · rw [if_pos e]
        · rw [if_neg e, hc]
    obtain ⟨w2, e2, hb2, ho2, g2, hs2⟩ := ih g1 h1 (k + 1) (by omega)
    refine ⟨w2, ?_, hb2.trans hb1, ho2.trans ho1, g2, fun i => ?_⟩
    · have e3 : (⟨w.base, w.off + k * P.sz⟩ : Ptr).add P.sz = ⟨w1.base, w1.off + (k + 1) * P.sz⟩ := by
        rw [hb1, ho1, Nat.add_mul]; simp [Ptr.add]; omega
      simp only [fill, M.bind_apply, loadRef_ok g h v _ t (by simp [heapOf] : heapOf h0 (some w) w.base = some w.blk), e1,
        e3, e2]
    · rw [hs2, hs1]
      by_cases h1 : i = k
      · rw [if_neg (by omega), if_pos h1, if_pos (by omega)]
      · by_cases h2 : k + 1 ≤ i ∧ i < k + 1 + m
        · rw [if_pos h2, if_pos (by omega)]
        · rw [if_neg h2, if_neg h1, if_neg (by omega)]

theorem copyIn_ok {h0 : Heap} {w : Own} {cap : Nat} (g : Good P w cap) (v : Vec) (t k m : Nat) (l : List Cell)
    (hl : l.length = m * P.sz) (hk : k + m ≤ cap) :
    ∃ w' : Own, copyIn ⟨w.base, w.off + k * P.sz⟩ l ⟨v, heapOf h0 (some w), t⟩ =
        .ok () ⟨v, heapOf h0 (some w'), t⟩ ∧ w'.base = w.base ∧ w'.off = w.off ∧ Good P w' cap ∧
      ∀ i, slot P w' i = if k ≤ i ∧ i < k + m then slotOf P.sz l (i - k) else slot P w i := by
  refine ⟨w.wr (w.off + k * P.sz) l, ?_, rfl, rfl, g.wr _ _, slot_wr _ _ m _ hl⟩
  by_cases hz : l = []
  · subst hz
    simp only [copyIn, if_true, M.pure_apply]
    have : w.wr (w.off + k * P.sz) [] = w := by
      obtain ⟨b, o, ⟨sz, cells⟩⟩ := w
      simp only [Own.wr, Block.wr, List.length_nil, Nat.add_zero]
      congr 2
      funext i
      rw [if_neg (by omega)]
    rw [this]
  · simp only [copyIn, hz, if_false]
    rw [writeSlots w g v _ t k m l (by simp [heapOf]) hl hk]
    simp [heapOf]

/-! ### `grow_at`, `resize` -/

theorem resize_ok (hP : Wf P) {h0 : Heap} (hb : Bdd h0) {o : Option Own} {cap : Nat} (f : Fits P h0 o cap)
    (n m t : Nat) (hn : n ≤ cap) :
    ∃ o' t', resize P m (st P h0 o cap n t) =
        .ok (decide ((ptrOf o).addr ≠ (ptrOf o').addr)) (st P h0 o' (Spec.newCap cap m) m t') ∧
      Fits P h0 o' (Spec.newCap cap m) ∧ (∀ i, i < n → slotO P o' i = slotO P o i) ∧
      (P.A.zeroFill = true → ∀ i, n ≤ i → i < m → slotO P o' i = List.replicate P.sz (some 0)) ∧
      (m ≤ cap → ptrOf o' = ptrOf o) := by
  -- after `reserve`
  have hres : ∃ o1 t1, reserve P m (st P h0 o cap n t) =
      .ok (decide ((ptrOf o).addr ≠ (ptrOf o1).addr)) (st P h0 o1 (Spec.newCap cap m) n t1) ∧
      Fits P h0 o1 (Spec.newCap cap m) ∧ (∀ i, i < n → slotO P o1 i = slotO P o i) ∧ (m ≤ cap → ptrOf o1 = ptrOf o) := by
    by_cases hm : m ≤ cap
    · refine ⟨o, t, ?_, by rw [newCap_of_le hm]; exact f, fun _ _ => rfl, fun _ => rfl⟩
      rw [reserve_stay m _ hm, newCap_of_le hm]
      simp
    · obtain ⟨q, t1, e, g, hq, hs⟩ := reserve_grow hP hb f n m t hn (by omega)
      exact ⟨some q, t1, e, ⟨g, hq⟩, hs, fun h => absurd h hm⟩
  obtain ⟨o1, t1, e1, f1, hs1, hp1⟩ := hres
  have hN := newCap_ge cap m
  have esz := size_st hP (ptrOf o1) n (Spec.newCap cap m) (heapOf h0 o1) t1
  by_cases hz : m > n ∧ P.A.zeroFill = true
  · obtain ⟨w, rfl⟩ := f1.null_cap (by omega)
    obtain ⟨g, hw⟩ := f1
    have hl : (List.replicate ((m - n) * P.sz) (some 0) : List Cell).length = (m - n) * P.sz := by simp
    have e2 := writeSlots w g ⟨⟨w.base, w.off⟩, (⟨w.base, w.off⟩ : Ptr).add (n * P.sz), Spec.newCap cap m⟩
      (heapOf h0 (some w)) t1 n (m - n) _ (by simp [heapOf]) hl (by omega)
    refine ⟨some (w.wr (w.off + n * P.sz) (List.replicate ((m - n) * P.sz) (some 0))), t1, ?_, ⟨g.wr _ _, hw⟩, ?_, ?_,
      fun h => hp1 h⟩
    · simp only [st, ptrOf_some, Ptr.add] at e1 e2 esz
      simp only [resize, M.bind_apply, st, ptrOf_some, Ptr.add, e1, esz, M.get_apply, hz, and_self, if_true, e2, setSize,
        M.modify_apply, M.pure_apply, Own.wr_base, Own.wr_off]
      simp [heapOf]
      rfl
    · intro i hi
      rw [← hs1 i hi]
      show slot P (w.wr _ _) i = slot P w i
      rw [slot_wr _ _ (m - n) _ hl, if_neg (by omega)]
    · intro _ i h1 h2
      show slot P (w.wr _ _) i = _
      rw [slot_wr _ _ (m - n) _ hl, if_pos (by omega)]
      have h3 : (i - n + 1) * P.sz ≤ (m - n) * P.sz := Nat.mul_le_mul_right _ (by omega)
      rw [Nat.add_mul] at h3
      simp only [slotOf, List.drop_replicate, List.take_replicate]
      congr 1
      omega
  · refine ⟨o1, t1, ?_, f1, hs1, ?_, hp1⟩
    · simp only [st] at e1 esz
      simp only [resize, M.bind_apply, st, e1, esz, M.get_apply, hz, if_false, setSize,
        M.modify_apply, M.pure_apply]
    · intro hzf i h1 h2
      exact absurd ⟨by omega, hzf⟩ hz

theorem makeGap_ok {h0 : Heap} {w : Own} {N : Nat} (g : Good P w N) (e : Ptr) (c t n pos num : Nat) (hp : pos ≤ n)
    (hN : n + num ≤ N) :
    ∃ w' : Own, makeGap P n pos num ⟨⟨⟨w.base, w.off⟩, e, c⟩, heapOf h0 (some w), t⟩ =
        .ok () ⟨⟨⟨w.base, w.off⟩, e, c⟩, heapOf h0 (some w'), t⟩ ∧ w'.base = w.base ∧ w'.off = w.off ∧ Good P w' N ∧
      ∀ i, slot P w' i = if pos + num ≤ i ∧ i < n + num then slot P w (i - num) else slot P w i := by
  obtain ⟨q, e1, h1, h2, gq, hs⟩ := copySlots w w g g ⟨⟨w.base, w.off⟩, e, c⟩ (heapOf h0 (some w)) t (pos + num) pos
    (n - pos) (by simp [heapOf]) (by simp [heapOf]) (by omega) (by omega)
  refine ⟨q, ?_, h1, h2, gq, fun i => ?_⟩
  · simp only [makeGap, M.bind_apply, M.get_apply, Ptr.add, e1]
    simp [heapOf, h1]
  · rw [hs]
    by_cases h : pos + num ≤ i ∧ i < n + num
    · rw [if_pos h, if_pos (by omega)]
      congr 1; omega
    · rw [if_neg h, if_neg (by omega)]

theorem mallocGap_ok (hP : Wf P) {h0 : Heap} (hb : Bdd h0) {w : Own} {cap : Nat} (g : Good P w cap)
    (hw : h0 w.base = none) (n N pos num t : Nat) (e : Ptr) (c : Nat) (hn : n ≤ cap) (hp : pos ≤ n) (hN : n + num ≤ N) :
    ∃ q t', mallocGap P N n pos num ⟨⟨⟨w.base, w.off⟩, e, c⟩, heapOf h0 (some w), t⟩ =
        .ok () ⟨⟨⟨q.base, q.off⟩, e, N⟩, heapOf h0 (some q), t'⟩ ∧ Good P q N ∧ h0 q.base = none ∧
      (∀ i, i < pos → slot P q i = slot P w i) ∧ ∀ i, pos ≤ i → i < n → slot P q (i + num) = slot P w i := by
  obtain ⟨q, e1, gq, hq⟩ := aMalloc_ok hP ⟨⟨w.base, w.off⟩, e, c⟩ (heapOf h0 (some w)) t N (hb.heapOf (some w))
  obtain ⟨hne, hq0⟩ := fresh_of hq
  have hHw : ∀ b, Function.update (heapOf h0 (some w)) q.base b w.base = some w.blk := by
    intro b; rw [Function.update_of_ne hne.symm]; simp [heapOf]
  -- the first copy
  have h1 : ∃ q1 : Own, (if pos ≠ 0 then copyBytes ⟨q.base, q.off⟩ ⟨w.base, w.off⟩ (pos * P.sz) else pure () : M St Unit)
      ⟨⟨⟨w.base, w.off⟩, e, c⟩, Function.update (heapOf h0 (some w)) q.base (some q.blk), t + 1⟩ =
      .ok () ⟨⟨⟨w.base, w.off⟩, e, c⟩, Function.update (heapOf h0 (some w)) q.base (some q1.blk), t + 1⟩ ∧
      q1.base = q.base ∧ q1.off = q.off ∧ Good P q1 N ∧ ∀ i, i < pos → slot P q1 i = slot P w i := by
    by_cases hz : pos = 0
    · refine ⟨q, by simp [hz], rfl, rfl, gq, by intro i hi; omega⟩
    · obtain ⟨q', e2, hqb, hqo, gq', hs⟩ := copySlots w q g gq ⟨⟨w.base, w.off⟩, e, c⟩
        (Function.update (heapOf h0 (some w)) q.base (some q.blk)) (t + 1) 0 0 pos (hHw _) (by simp) (by omega) (by omega)
      simp only [Nat.zero_mul, Nat.add_zero] at e2
      rw [Function.update_idem] at e2
      refine ⟨q', by simp only [ne_eq, hz, not_false_eq_true, if_true, e2], hqb, hqo, gq', ?_⟩
      intro i hi
      rw [hs, if_pos (by omega)]; simp
  obtain ⟨q1, e2, hb1, ho1, g1, hs1⟩ := h1
  obtain ⟨q2, e3, hb2, ho2, g2, hs2⟩ := copySlots w q1 g g1 ⟨⟨w.base, w.off⟩, e, c⟩
        (Function.update (heapOf h0 (some w)) q.base (some q1.blk)) (t + 1) (pos + num) pos (n - pos) (hHw _)
        (by rw [hb1]; simp) (by omega) (by omega)
  rw [hb1, ho1, Function.update_idem] at e3
  refine ⟨q2, t + 1, ?_, g2, by rw [hb2, hb1]; exact hq0, ?_, ?_⟩
  · by_cases hz : pos = 0
    · have hz' : ¬ pos ≠ 0 := fun h => h hz
      simp only [hz', if_false, M.pure_apply] at e2
      injection e2 with _ e2
      simp only [mallocGap, M.bind_apply, e1, M.get_apply, e2]
      simp only [hz', if_false]
      simp only [M.bind_apply, Ptr.add, e3, aFree_ok g e c _ (t + 1) (hHw _), setBegin, setCap, M.modify_apply]
      simp only [heapOf, update_swap h0 w q hw hne, hb2, hb1, ho2, ho1]
    · simp only [ne_eq, hz, not_false_eq_true, if_true] at e2
      simp only [mallocGap, M.bind_apply, e1, M.get_apply, ne_eq, hz, not_false_eq_true, if_true, e2]
      simp only [Ptr.add, e3, aFree_ok g e c _ (t + 1) (hHw _), setBegin, setCap, M.modify_apply]
      simp only [heapOf, update_swap h0 w q hw hne, hb2, hb1, ho2, ho1]
  · intro i hi
    rw [hs2, if_neg (by omega), hs1 i hi]
  · intro i h1 h2
    rw [hs2, if_pos (by omega)]
    congr 1; omega

/-- after `grow_at(pos, num)` -/
structure Gap (P : Params) (o o' : Option Own) (cap n pos num : Nat) : Prop where
  low : ∀ i, i < pos → slotO P o' i = slotO P o i
  high : ∀ i, pos ≤ i → i < n → slotO P o' (i + num) = slotO P o i
  stay : n + num ≤ cap → ptrOf o' = ptrOf o ∧ ∀ i, i < pos + num → i < n → slotO P o' i = slotO P o i

theorem growAt_ok (hP : Wf P) {h0 : Heap} (hb : Bdd h0) {o : Option Own} {cap : Nat} (f : Fits P h0 o cap)
    (n pos num t : Nat) (hn : n ≤ cap) (hp : pos ≤ n) :
    ∃ o' t', growAt P pos num (st P h0 o cap n t) =
        .ok ((ptrOf o').add (pos * P.sz)) (st P h0 o' (Spec.newCap cap (n + num)) (n + num) t') ∧
      Fits P h0 o' (Spec.newCap cap (n + num)) ∧ Gap P o o' cap n pos num := by
  have hnp : ¬ pos > n := by omega
  have esz := size_st hP (ptrOf o) n cap (heapOf h0 o) t
  have hN := newCap_ge cap (n + num)
  by_cases h1 : pos = n
  · subst h1
    obtain ⟨o', t', e1, f', hs, hz, hp'⟩ := resize_ok hP hb f pos (pos + num) t hn
    refine ⟨o', t', ?_, f', ⟨hs, by intro i h1 h2; omega, fun h => ⟨hp' h, fun i _ h2 => hs i h2⟩⟩⟩
    simp only [st] at e1 esz
    simp only [growAt, M.bind_apply, st, esz, hnp, if_false, if_true, e1, setSize, M.modify_apply, M.get_apply,
      M.pure_apply]
  · obtain ⟨w, rfl⟩ := f.null_cap (by omega)
    obtain ⟨g, hw⟩ := f
    simp only [ptrOf] at esz
    by_cases h2 : n + num > cap
    · have eN : getNewCapacity cap (n + num) = Spec.newCap cap (n + num) := getNewCapacity_eq h2
      -- expanded or reallocated first, then the gap is made
      have key : ∀ s, Moved P h0 (some w) n (Spec.newCap cap (n + num)) s → ∃ q t', (do
            makeGap P n pos num
            setSize P (n + num)
            let st ← M.get
            pure (st.v.bgn.add (pos * P.sz)) : M St Ptr) s =
          .ok ((ptrOf (some q)).add (pos * P.sz)) (st P h0 (some q) (Spec.newCap cap (n + num)) (n + num) t') ∧
          Good P q (Spec.newCap cap (n + num)) ∧ h0 q.base = none ∧ Gap P (some w) (some q) cap n pos num := by
        rintro s ⟨q, e, t1, rfl, gq, hq, hs⟩
        obtain ⟨q', e2, hb2, ho2, g2, hs2⟩ := makeGap_ok (h0 := h0) gq e (Spec.newCap cap (n + num)) t1 n pos num hp
          (by omega)
        refine ⟨q', t1, ?_, g2, by rw [hb2]; exact hq, ⟨?_, ?_, fun h => by omega⟩⟩
        · simp only [M.bind_apply, ptrOf, e2, setSize, M.modify_apply, M.get_apply, M.pure_apply, st]
          rw [hb2, ho2]
        · intro i hi
          show slot P q' i = _
          rw [hs2, if_neg (by omega), hs i (by omega)]
        · intro i h3 h4
          show slot P q' (i + num) = _
          rw [hs2, if_pos (by omega), Nat.add_sub_cancel, hs i h4]
      by_cases hx : P.A.hasExpand = true
      · rcases aExpand_ok (n := n) (N := Spec.newCap cap (n + num)) (t := t) g hw hx hn (by omega) with ⟨s, e1, hm1, _⟩ | e1
        · obtain ⟨q, t', e2, gq, hq, hs⟩ := key s hm1
          refine ⟨some q, t', ?_, ⟨gq, hq⟩, hs⟩
          simp only [st, ptrOf, M.bind_apply] at e1 e2
          simp only [growAt, M.bind_apply, st, ptrOf, esz, hnp, h1, if_false, M.get_apply, h2, if_true, hx, eN, e1]
          exact e2
        · obtain ⟨q, t', e2, gq, hq, hs1, hs2⟩ := mallocGap_ok hP hb g hw n (Spec.newCap cap (n + num)) pos num (t + 1)
            ((⟨w.base, w.off⟩ : Ptr).add (n * P.sz)) cap hn hp hN
          refine ⟨some q, t', ?_, ⟨gq, hq⟩, ⟨hs1, hs2, fun h => by omega⟩⟩
          simp only [st, ptrOf] at e1 e2
          simp only [growAt, M.bind_apply, st, ptrOf, esz, hnp, h1, if_false, M.get_apply, h2, if_true, hx, eN, e1, e2,
            setSize, M.modify_apply, M.pure_apply, Bool.false_eq_true]
      · simp only [Bool.not_eq_true] at hx
        by_cases hwf : (cap - pos) * P.sz > P.A.wasteful
        · obtain ⟨q, t', e2, gq, hq, hs1, hs2⟩ := mallocGap_ok hP hb g hw n (Spec.newCap cap (n + num)) pos num t
            ((⟨w.base, w.off⟩ : Ptr).add (n * P.sz)) cap hn hp hN
          refine ⟨some q, t', ?_, ⟨gq, hq⟩, ⟨hs1, hs2, fun h => by omega⟩⟩
          simp only [growAt, M.bind_apply, st, ptrOf, esz, hnp, h1, if_false, M.get_apply, h2, if_true, hx, eN, e2,
            setSize, M.modify_apply, M.pure_apply, Bool.false_eq_true, hwf]
        · obtain ⟨s, e1, hm1⟩ := aRealloc_ok hP hb (o := some w) ⟨g, hw⟩ n (Spec.newCap cap (n + num)) t hn (by omega)
          obtain ⟨q, t', e2, gq, hq, hs⟩ := key s hm1
          refine ⟨some q, t', ?_, ⟨gq, hq⟩, hs⟩
          simp only [st, ptrOf, M.bind_apply] at e1 e2
          simp only [growAt, M.bind_apply, st, ptrOf, esz, hnp, h1, if_false, M.get_apply, h2, if_true, hx, eN, e1, hwf,
            Bool.false_eq_true]
          exact e2
    · obtain ⟨q', e2, hb2, ho2, g2, hs2⟩ := makeGap_ok (h0 := h0) g ((⟨w.base, w.off⟩ : Ptr).add (n * P.sz)) cap t n pos
        num hp (by omega)
      rw [newCap_of_le (by omega)]
      refine ⟨some q', t, ?_, ⟨g2, by rw [hb2]; exact hw⟩, ⟨?_, ?_, fun _ => ⟨?_, ?_⟩⟩⟩
      · simp only [growAt, M.bind_apply, st, ptrOf, esz, hnp, h1, if_false, M.get_apply, h2, e2,
          setSize, M.modify_apply, M.pure_apply]
        rw [hb2, ho2]
      · intro i hi
        show slot P q' i = slot P w i
        rw [hs2, if_neg (by omega)]
      · intro i h3 h4
        show slot P q' (i + num) = slot P w i
        rw [hs2, if_pos (by omega), Nat.add_sub_cancel]
      · simp only [ptrOf, hb2, ho2]
      · intro i h3 h4
        show slot P q' i = slot P w i
        rw [hs2, if_neg (by omega)]

theorem shrinkAt_ok (hP : Wf P) {h0 : Heap} {o : Option Own} {cap : Nat} (f : Fits P h0 o cap)
    (n pos num t : Nat) (hn : n ≤ cap) (hp : pos + num ≤ n) :
    ∃ o' t', shrinkAt P pos num (st P h0 o cap n t) = .ok () (st P h0 o' cap (n - num) t') ∧ Fits P h0 o' cap ∧
      (∀ i, i < pos → slotO P o' i = slotO P o i) ∧ ∀ i, pos ≤ i → i + num < n → slotO P o' i = slotO P o (i + num) := by
  have esz := size_st hP (ptrOf o) n cap (heapOf h0 o) t
  by_cases h1 : n = num
  · subst h1
    refine ⟨o, t, ?_, f, fun _ _ => rfl, fun i h1 h2 => by omega⟩
    simp only [shrinkAt, M.bind_apply, st, esz, if_true, clear, setSize, M.modify_apply, Nat.sub_self]
  · obtain ⟨w, rfl⟩ := f.null_cap (by omega)
    obtain ⟨g, hw⟩ := f
    have hnp : ¬ pos + num > n := by omega
    obtain ⟨q, e1, hb1, ho1, gq, hs⟩ := copySlots w w g g ⟨⟨w.base, w.off⟩, (⟨w.base, w.off⟩ : Ptr).add (n * P.sz), cap⟩
      (heapOf h0 (some w)) t pos (pos + num) (n - pos - num) (by simp [heapOf]) (by simp [heapOf]) (by omega) (by omega)
    refine ⟨some q, t, ?_, ⟨gq, by rw [hb1]; exact hw⟩, ?_, ?_⟩
    · simp only [ptrOf, Ptr.add] at esz e1
      simp only [shrinkAt, M.bind_apply, st, ptrOf, Ptr.add, esz, h1, hnp, if_false, M.get_apply, e1, setSize,
        M.modify_apply]
      simp [heapOf, hb1, ho1]
    · intro i hi
      show slot P q i = slot P w i
      rw [hs, if_neg (by omega)]
    · intro i h3 h4
      show slot P q i = slot P w (i + num)
      rw [hs, if_pos (by omega)]
      congr 1; omega

theorem safeGrow_ok (hP : Wf P) {h0 : Heap} (hb : Bdd h0) {o : Option Own} {cap : Nat} (f : Fits P h0 o cap)
    (n m t : Nat) :
    ∃ o' t' n', safeGrow P m (st P h0 o cap n t) = .ok () (st P h0 o' (Spec.newCap cap m) n' t') ∧
      Fits P h0 o' (Spec.newCap cap m) ∧ (m ≤ cap → o' = o) := by
  by_cases h : m ≤ cap
  · rw [newCap_of_le h]
    refine ⟨o, t, n, ?_, f, fun _ => rfl⟩
    simp [safeGrow, st, h]
  · have eN : getNewCapacity cap m = Spec.newCap cap m := getNewCapacity_eq (by omega)
    have e1 : aFreeBegin P (st P h0 o cap n t) = .ok () ⟨⟨ptrOf o, (ptrOf o).add (n * P.sz), cap⟩, h0, t⟩ := by
      cases o with
      | none => exact aFree_null _ _ _ _
      | some w =>
        obtain ⟨g, hw⟩ := f
        simp only [st, ptrOf]
        rw [aFree_ok g _ _ _ _ (by simp [heapOf])]
        simp only [heapOf, Function.update_idem]
        rw [show Function.update h0 w.base none = h0 by rw [← hw, Function.update_eq_self]]
    obtain ⟨q, e2, gq, hq⟩ := aMalloc_ok hP ⟨ptrOf o, (ptrOf o).add (n * P.sz), Spec.newCap cap m⟩ h0 t
      (Spec.newCap cap m) hb
    refine ⟨some q, t + 1, 0, ?_, ⟨gq, hq⟩, fun h' => absurd h' h⟩
    simp only [st] at e1
    simp only [safeGrow, M.bind_apply, M.get_apply, st, h, if_false, e1, eN, setCap, M.modify_apply, e2]
    simp [ptrOf, Ptr.add, heapOf]

end Itlib.PodVector
