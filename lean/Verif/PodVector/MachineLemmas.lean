import Verif.PodVector.Machine
import Verif.PodVector.OpLemmas

/-! # When the sizes are small the arithmetic of `size_t` makes no difference -/
namespace Itlib.PodVector.W
open Itlib
variable {P : Params} {s : St}

theorem e2b_eq {n : Nat} (h : n * P.sz < lim) : P.e2b n = n * P.sz := Nat.mod_eq_of_lt h

theorem grow_eq {c : Nat} (h : c * 3 + 1 < lim) : grow c = (c * 3 + 1) / 2 := by
  simp only [grow]
  rw [Nat.mod_eq_of_lt (a := c * 3) (by omega), Nat.mod_eq_of_lt h]

theorem rounds_spec {d : Nat} (hd : 3 * d ≤ lim) : ∀ f c, 0 < c → d ≤ c + f →
    ∃ k, rounds k c = growLoop d f c ∧ d ≤ rounds k c ∧ ∀ j, j < k → rounds j c < d
  | 0, c, _, h => ⟨0, rfl, by simpa [rounds] using h, by intro j hj; omega⟩
  | f+1, c, hc, h => by
    by_cases hcd : c < d
    · have hg : grow c = (c * 3 + 1) / 2 := grow_eq (by omega)
      obtain ⟨k, h1, h2, h3⟩ := rounds_spec hd f ((c * 3 + 1) / 2) (by omega) (by omega)
      refine ⟨k + 1, by simp only [rounds, hg, h1, growLoop, hcd, if_true], by simpa only [rounds, hg] using h2, ?_⟩
      intro j hj
      cases j with
      | zero => exact hcd
      | succ j => simp only [rounds, hg]; exact h3 j (by omega)
    · exact ⟨0, by simp [rounds, growLoop, hcd], by simpa [rounds] using hcd, by intro j hj; omega⟩

theorem newCapacity_eq {c d : Nat} (hd : 3 * d ≤ lim) : newCapacity c d = pure (getNewCapacity c d) := by
  simp only [newCapacity, getNewCapacity]
  by_cases hc : c = 0
  · simp [hc]
  · rw [if_neg hc, if_neg hc]
    obtain ⟨k, h1, h2, h3⟩ := rounds_spec hd d c (by omega) (by omega)
    have h : ∃ k, d ≤ rounds k c := ⟨k, h2⟩
    rw [dif_pos h]
    have : Nat.find h = k := by
      rw [Nat.find_eq_iff]
      exact ⟨h2, fun n hn => by have := h3 n hn; omega⟩
    rw [this, h1]

theorem aMalloc_eq {n : Nat} (h : n * P.sz + P.al < lim) : aMalloc P n = PodVector.aMalloc P n := by
  simp only [aMalloc, PodVector.aMalloc]
  rw [e2b_eq (by omega), Nat.mod_eq_of_lt h]

theorem aExpandBegin_eq {n : Nat} (h : n * P.sz + P.al < lim) : aExpandBegin P n = PodVector.aExpandBegin P n := by
  simp only [aExpandBegin, PodVector.aExpandBegin]
  rw [e2b_eq (by omega), Nat.mod_eq_of_lt h]

theorem mallocCopy_eq {n k : Nat} (h : n * P.sz + P.al < lim) (hk : k * P.sz < lim) : mallocCopy P n k = PodVector.mallocCopy P n k := by
  simp only [mallocCopy, PodVector.mallocCopy]
  rw [e2b_eq hk, aMalloc_eq h]

/-- what `size()` is, if it is -/
theorem size_cases (P : Params) (s : St) : size P s = .ub ∨ size P s = .ok ((s.v.endp.off - s.v.bgn.off) / P.sz) s := by
  simp only [size, M.bind_apply, M.get_apply]
  split
  · exact .inr rfl
  · exact .inl rfl

theorem malloc_v {n : Nat} {p : Ptr} {s' : St} (h : malloc P.A n s = .ok p s') : s'.v = s.v := by
  simp only [malloc, noMemory] at h
  split at h
  · split at h
    · simp at h
    · simp only [Res.ok.injEq] at h; rw [← h.2]
  · simp only [Res.ok.injEq] at h; rw [← h.2]

theorem writeAt_v {p : Ptr} {l : List Cell} {s' : St} (h : writeAt p l s = .ok () s') : s'.v = s.v := by
  simp only [writeAt, M.mem] at h
  cases hb : s.heap p.base with
  | none => simp [hb] at h
  | some b =>
    by_cases hl : p.off + l.length ≤ b.size
    · simp only [hb, hl, if_true, Res.ok.injEq, true_and] at h; rw [← h]
    · simp [hb, hl] at h

theorem alignPtr_v {p q : Ptr} {s' : St} (h : alignPtr P p s = .ok q s') : s'.v = s.v := by
  simp only [alignPtr] at h
  split at h
  · simp only [M.pure_apply, Res.ok.injEq] at h; rw [h.2]
  · simp only [M.bind_apply] at h
    cases h1 : writeAt ⟨p.base, p.off + (P.al - p.addr % P.al) - 1⟩ [some (BitVec.ofNat 8 (P.al - p.addr % P.al))] s with
    | ok u t =>
      rw [h1] at h
      simp only [M.pure_apply, Res.ok.injEq] at h
      rw [← h.2]; exact writeAt_v h1
    | throw e t => simp [h1] at h
    | ub => simp [h1] at h

theorem aMalloc_v {n : Nat} {p : Ptr} {s' : St} (h : PodVector.aMalloc P n s = .ok p s') : s'.v = s.v := by
  simp only [PodVector.aMalloc] at h
  split at h
  · exact malloc_v h
  · simp only [M.bind_apply] at h
    cases h1 : malloc P.A (n * P.sz + P.al) s with
    | ok q t => rw [h1] at h; exact (alignPtr_v h).trans (malloc_v h1)
    | throw e t => simp [h1] at h
    | ub => simp [h1] at h

theorem aReallocBegin_eq {n : Nat} (h : n * P.sz + P.al < lim) (hs : s.v.endp.off - s.v.bgn.off < lim) :
    aReallocBegin P n s = PodVector.aReallocBegin P n s := by
  simp only [aReallocBegin, PodVector.aReallocBegin, M.bind_apply, M.get_apply]
  rw [e2b_eq (n := n) (by omega), aMalloc_eq h]
  split
  · rfl
  · simp only [M.bind_apply]
    cases h1 : PodVector.aMalloc P n s with
    | ok p t =>
      have hv := aMalloc_v h1
      simp only
      by_cases hb : s.v.bgn = null
      · simp only [hb, if_true]
      · simp only [hb, if_false, M.bind_apply]
        rcases size_cases P t with h2 | h2
        · simp only [h2]
        · simp only [h2]
          rw [e2b_eq]
          refine Nat.lt_of_le_of_lt (Nat.div_mul_le_self _ _) ?_
          rw [hv]; exact hs
    | throw e t => rfl
    | ub => rfl

/-- room for `n` elements can be asked for -/
structure Fits (P : Params) (s : St) (n : Nat) : Prop where
  cap : s.v.cap * P.sz + P.al < lim
  size : s.v.endp.off - s.v.bgn.off ≤ s.v.cap * P.sz
  new : s.v.cap < n → 3 * n ≤ lim ∧ getNewCapacity s.v.cap n * P.sz + P.al < lim ∧ n ≤ getNewCapacity s.v.cap n
  pos : 0 < P.sz

theorem Fits.bytes {n : Nat} (h : Fits P s n) : n * P.sz < lim := by
  by_cases hc : s.v.cap < n
  · obtain ⟨_, h1, h2⟩ := h.new hc
    have := Nat.mul_le_mul_right P.sz h2
    omega
  · have := Nat.mul_le_mul_right P.sz (Nat.le_of_not_lt hc)
    have := h.cap
    omega

theorem Fits.num {n : Nat} (h : Fits P s n) : n < lim :=
  Nat.lt_of_le_of_lt (Nat.le_mul_of_pos_right n h.pos) h.bytes

theorem Fits.size_lt {n : Nat} (h : Fits P s n) : (s.v.endp.off - s.v.bgn.off) / P.sz * P.sz < lim := by
  have := Nat.div_mul_le_self (s.v.endp.off - s.v.bgn.off) P.sz
  have := h.size
  have := h.cap
  omega

theorem reserve_eq {n : Nat} (h : Fits P s n) : reserve P n s = PodVector.reserve P n s := by
  simp only [reserve, PodVector.reserve, M.bind_apply, M.get_apply]
  split
  · rfl
  · rename_i hn
    obtain ⟨h1, h2, h3⟩ := h.new (by omega)
    rw [newCapacity_eq h1]
    simp only [M.bind_apply, M.pure_apply]
    rcases size_cases P s with h4 | h4
    · simp only [h4]
    · simp only [h4]
      have hs := h.size
      have hc := h.cap
      rw [aMalloc_eq h2, aExpandBegin_eq h2, mallocCopy_eq h2 h.size_lt, e2b_eq (n := _ - _)
        (Nat.lt_of_le_of_lt (Nat.mul_le_mul_right _ (Nat.sub_le _ _)) (by omega : s.v.cap * P.sz < lim))]
      by_cases he : P.A.hasExpand
      · simp only [he, if_true]
      · simp only [he, if_false, Bool.false_eq_true]
        split
        · rfl
        · simp only [M.bind_apply]
          rw [aReallocBegin_eq h2 (by omega)]

theorem resize_eq {n : Nat} (h : Fits P s n) : resize P n s = PodVector.resize P n s := by
  simp only [resize, PodVector.resize, M.bind_apply]
  rw [reserve_eq h]
  cases PodVector.reserve P n s with
  | ok r t =>
    simp only
    cases size P t with
    | ok k u => simp only; rw [e2b_eq (Nat.lt_of_le_of_lt (Nat.mul_le_mul_right _ (Nat.sub_le _ _)) h.bytes)]
    | throw e u => rfl
    | ub => rfl
  | throw e t => rfl
  | ub => rfl

theorem resizeV_eq {n : Nat} {v : Arg (List Byte)} (h : Fits P s n) : resizeV P n v s = PodVector.resizeV P n v s := by
  simp only [resizeV, PodVector.resizeV, M.bind_apply]
  have : ∀ r t, bindRef P v s = .ok r t → t = s := by
    intro r t ht
    cases v <;> simp only [bindRef, M.bind_apply, M.get_apply, M.pure_apply, Res.ok.injEq] at ht <;> exact ht.2.symm
  cases hb : bindRef P v s with
  | ok r t => rw [this r t hb]; simp only; rw [reserve_eq h]
  | throw e t => rfl
  | ub => rfl

theorem makeGap_eq {k pos num : Nat} (h : (k - pos) * P.sz < lim) : makeGap P k pos num = PodVector.makeGap P k pos num := by
  simp only [makeGap, PodVector.makeGap]
  rw [e2b_eq h]

theorem mallocGap_eq {n k pos num : Nat} (h : n * P.sz + P.al < lim) (hk : k * P.sz < lim) (hp : pos ≤ k) :
    mallocGap P n k pos num = PodVector.mallocGap P n k pos num := by
  simp only [mallocGap, PodVector.mallocGap]
  rw [e2b_eq (n := pos) (Nat.lt_of_le_of_lt (Nat.mul_le_mul_right _ hp) hk), aMalloc_eq h,
    e2b_eq (n := k - pos) (Nat.lt_of_le_of_lt (Nat.mul_le_mul_right _ (Nat.sub_le _ _)) hk)]

theorem growAt_eq {pos num : Nat} (h : Fits P s ((s.v.endp.off - s.v.bgn.off) / P.sz + num)) : growAt P pos num s = PodVector.growAt P pos num s := by
  simp only [growAt, PodVector.growAt, M.bind_apply]
  rcases size_cases P s with h4 | h4
  · simp only [h4]
  · simp only [h4]
    split
    · rfl
    · rename_i hp
      rw [Nat.mod_eq_of_lt h.num]
      by_cases he : pos = (s.v.endp.off - s.v.bgn.off) / P.sz
      · simp only [he, if_true, M.bind_apply]
        rw [resize_eq h]
      · simp only [he, if_false, M.bind_apply, M.get_apply]
        have hm : (((s.v.endp.off - s.v.bgn.off) / P.sz) - pos) * P.sz < lim :=
          Nat.lt_of_le_of_lt (Nat.mul_le_mul_right _ (Nat.sub_le _ _)) h.size_lt
        rw [makeGap_eq hm]
        by_cases hc : (s.v.endp.off - s.v.bgn.off) / P.sz + num > s.v.cap
        · obtain ⟨h1, h2, h3⟩ := h.new hc
          have hs := h.size
          have hcap := h.cap
          simp only [hc, if_true, M.bind_apply]
          rw [newCapacity_eq h1]
          simp only [M.pure_apply]
          rw [aExpandBegin_eq h2, mallocGap_eq h2 h.size_lt (Nat.le_of_not_lt hp), e2b_eq (n := _ - _)
            (Nat.lt_of_le_of_lt (Nat.mul_le_mul_right _ (Nat.sub_le _ _)) (by omega : s.v.cap * P.sz < lim))]
          by_cases hx : P.A.hasExpand
          · simp only [hx, if_true]
          · simp only [hx, if_false, Bool.false_eq_true]
            split
            · rfl
            · simp only [M.bind_apply]
              rw [aReallocBegin_eq h2 (by omega)]
        · simp only [hc, if_false]

theorem bindRef_cases (v : Arg (List Byte)) (s : St) : ∃ r, bindRef P v s = .ok r s := by
  cases v <;> exact ⟨_, rfl⟩

theorem shrinkAt_eq {pos num : Nat} (h : Fits P s 0) : shrinkAt P pos num s = PodVector.shrinkAt P pos num s := by
  simp only [shrinkAt, PodVector.shrinkAt, M.bind_apply]
  rcases size_cases P s with h4 | h4
  · simp only [h4]
  · simp only [h4]
    split
    · rfl
    · split
      · rfl
      · rw [e2b_eq]
        refine Nat.lt_of_le_of_lt (Nat.mul_le_mul_right _ ?_) h.size_lt
        omega

theorem popBack_eq (h : Fits P s 0) : popBack P s = PodVector.popBack P s := by
  simp only [popBack, PodVector.popBack, M.bind_apply]
  rcases size_cases P s with h4 | h4
  · simp only [h4]
  · simp only [h4]
    split
    · rfl
    · exact shrinkAt_eq h

theorem shrinkToFit_eq (h : Fits P s 0) : shrinkToFit P s = PodVector.shrinkToFit P s := by
  simp only [shrinkToFit, PodVector.shrinkToFit, M.bind_apply]
  rcases size_cases P s with h4 | h4
  · simp only [h4]
  · have h1 := Nat.div_mul_le_self (s.v.endp.off - s.v.bgn.off) P.sz
    have h2 := h.size
    have h3 := h.cap
    simp only [h4, M.get_apply]
    rw [aExpandBegin_eq (by omega), aMalloc_eq (by omega), e2b_eq h.size_lt]
    split
    · rfl
    · split
      · rfl
      · split
        · rfl
        · simp only [M.bind_apply]
          rw [aReallocBegin_eq (by omega) (by omega)]

theorem insert_eq {pos : Nat} {v : Arg (List Byte)} (h : Fits P s ((s.v.endp.off - s.v.bgn.off) / P.sz + 1)) :
    insert P pos v s = PodVector.insert P pos v s := by
  obtain ⟨r, hr⟩ := bindRef_cases (P := P) v s
  simp only [insert, PodVector.insert, M.bind_apply, hr]
  rw [growAt_eq h]

theorem insertN_eq {pos n : Nat} {v : Arg (List Byte)} (h : Fits P s ((s.v.endp.off - s.v.bgn.off) / P.sz + n)) :
    insertN P pos n v s = PodVector.insertN P pos n v s := by
  obtain ⟨r, hr⟩ := bindRef_cases (P := P) v s
  simp only [insertN, PodVector.insertN, M.bind_apply, hr]
  rw [growAt_eq h]

theorem insertRange_eq {pos : Nat} {ys : List (List Byte)} (h : Fits P s ((s.v.endp.off - s.v.bgn.off) / P.sz + ys.length)) :
    insertRange P pos ys s = PodVector.insertRange P pos ys s := by
  simp only [insertRange, PodVector.insertRange, M.bind_apply]
  rw [growAt_eq h]

theorem emplaceBack_eq (h : Fits P s ((s.v.endp.off - s.v.bgn.off) / P.sz + 1)) : emplaceBack P s = PodVector.emplaceBack P s := by
  simp only [emplaceBack, PodVector.emplaceBack, M.bind_apply]
  rcases size_cases P s with h4 | h4
  · simp only [h4]
  · simp only [h4]
    rw [Nat.mod_eq_of_lt h.num, reserve_eq h]

theorem pushBack_eq {v : Arg (List Byte)} (h : Fits P s ((s.v.endp.off - s.v.bgn.off) / P.sz + 1)) : pushBack P v s = PodVector.pushBack P v s := by
  obtain ⟨r, hr⟩ := bindRef_cases (P := P) v s
  simp only [pushBack, PodVector.pushBack, M.bind_apply, hr]
  rw [emplaceBack_eq h]

theorem safeGrow_eq {n : Nat} (h : Fits P s n) : safeGrow P n s = PodVector.safeGrow P n s := by
  simp only [safeGrow, PodVector.safeGrow, M.bind_apply, M.get_apply]
  split
  · rfl
  · rename_i hn
    obtain ⟨h1, h2, h3⟩ := h.new (by omega)
    rw [newCapacity_eq h1]
    simp only [M.bind_apply, M.pure_apply]
    rw [aMalloc_eq h2]

theorem assignN_eq {n : Nat} {v : Arg (List Byte)} (h : Fits P s n) : assignN P n v s = PodVector.assignN P n v s := by
  obtain ⟨r, hr⟩ := bindRef_cases (P := P) v s
  simp only [assignN, PodVector.assignN, M.bind_apply, hr]
  rw [safeGrow_eq h]

theorem assignCopy_eq {n : Nat} {l : List Cell} (h : Fits P s n) : assignCopy P n l s = PodVector.assignCopy P n l s := by
  simp only [assignCopy, PodVector.assignCopy, M.bind_apply]
  rw [safeGrow_eq h]

/-- the number of elements that a call asks room for, when there are `n` -/
def wanted (op : Spec.Op) (n : Nat) : Nat :=
  match op with
  | .reserve m | .resize m | .resizeV m _ | .assignN m _ => m
  | .insert .. | .emplaceBack | .pushBack _ => n + 1
  | .insertN _ m _ => n + m
  | .insertRange _ ys => n + ys.length
  | .assignRange ys => ys.length
  | _ => 0

theorem exec_eq {op : Spec.Op} (h : Fits P s (wanted op ((s.v.endp.off - s.v.bgn.off) / P.sz))) : exec P op s = PodVector.exec P op s := by
  cases op <;> simp only [exec, PodVector.exec, M.bind_apply] <;> simp only [wanted] at h
  case reserve => rw [reserve_eq h]
  case shrinkToFit => rw [shrinkToFit_eq h]
  case insert => rw [insert_eq h]
  case insertN => rw [insertN_eq h]
  case insertRange => rw [insertRange_eq h]
  case erase => rw [shrinkAt_eq h]
  case eraseRange => rw [shrinkAt_eq h]
  case emplaceBack => rw [emplaceBack_eq h]
  case pushBack => rw [pushBack_eq h]
  case popBack => rw [popBack_eq h]
  case resize => rw [resize_eq h]
  case resizeV => rw [resizeV_eq h]
  case assignN => rw [assignN_eq h]
  case assignRange => rw [assignCopy_eq h]

end Itlib.PodVector.W
