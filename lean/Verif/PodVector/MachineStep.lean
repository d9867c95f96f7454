import Verif.PodVector.MachineLemmas
import Verif.PodVector.MultiStep

/-! # Calls with small sizes: `size_t` and unbounded numbers give the same -/
namespace Itlib.PodVector.Spec

/-- all sizes that can be computed for this vector are below 2^64 -/
def V.Small (V : V) : Prop := V.cap * V.sz + V.al < 2 ^ 64 ∧ 3 * V.cap ≤ 2 ^ 64

/-- all vectors are small -/
def SmallSys (y : Sys) : Prop := ∀ i V, y i = some V → V.Small

end Itlib.PodVector.Spec

namespace Itlib.PodVector.W
open Itlib
variable {A B : Alloc} {m : Mem} {y y' : Spec.Sys} {own : Nat → Option Own}

theorem at_congr {β : Type} {i : Nat} {T : Ty} {v : Vec} {f g : Params → M St β} (hv : m.vec i = some (T, v))
    (h : f (T.params A) ⟨v, m.heap, m.tick⟩ = g (T.params A) ⟨v, m.heap, m.tick⟩) : at' A i f m = at' A i g m := by
  simp only [at', hv, h]

theorem ctorBody_congr {β : Type} {i : Nat} {T : Ty} {v : Vec} {f g : Params → M St β} (hv : m.vec i = some (T, v))
    (h : f (T.params A) ⟨v, m.heap, m.tick⟩ = g (T.params A) ⟨v, m.heap, m.tick⟩) : ctorBody A i f m = ctorBody A i g m := by
  simp only [ctorBody, at_congr hv h]

theorem fits_of {V : Spec.V} {o : Option Own} {h : Heap} {t n : Nat} (hs : V.Small) (hl : V.xs.length ≤ V.cap) (hp : 0 < V.sz)
    (hn : V.cap < n → Spec.newCap V.cap n * V.sz + V.al < 2 ^ 64 ∧ 3 * Spec.newCap V.cap n ≤ 2 ^ 64) :
    Fits (Ty.params ⟨V.sz, V.al⟩ A) ⟨vecOf o V, h, t⟩ n where
  cap := hs.1
  size := by
    simp only [vecOf, Ptr.add, Ty.params]
    rw [Nat.add_sub_cancel_left]
    exact Nat.mul_le_mul_right _ hl
  new := by
    intro hc
    have hc' : V.cap < n := hc
    obtain ⟨h1, h2⟩ := hn hc'
    have h3 := newCap_ge V.cap n
    simp only [vecOf]
    rw [getNewCapacity_eq hc']
    exact ⟨by simp only [lim]; omega, h1, h3⟩
  pos := hp

theorem fits_new {sz al : Nat} {h : Heap} {t n : Nat} (hp : 0 < sz) (hs : n * sz + al < 2 ^ 64) (h3 : 3 * n ≤ 2 ^ 64) :
    Fits (Ty.params ⟨sz, al⟩ A) ⟨⟨null, null, 0⟩, h, t⟩ n where
  cap := by simp only [Ty.params, lim]; omega
  size := by simp [null]
  new := by intro _; simp only [getNewCapacity, if_true, Ty.params, lim]; exact ⟨h3, hs, Nat.le_refl _⟩
  pos := hp

theorem step_cap {sz : Nat} {z : Bool} {op : Spec.Op} {c c' : Nat} {xs xs' : List Spec.E} {r : Spec.Reply}
    (h : Spec.step sz z op c xs = some (r, c', xs')) (hw : c < wanted op xs.length) : c' = Spec.newCap c (wanted op xs.length) := by
  cases op <;> simp only [wanted] at hw ⊢ <;> (try omega) <;>
    simp only [Spec.step, Option.bind_eq_bind, Option.bind_eq_some_iff] at h
  case insert =>
    obtain ⟨a, _, h⟩ := h
    split at h <;> simp only [reduceCtorEq, Option.some.injEq, Prod.mk.injEq] at h
    exact h.2.1.symm
  case insertN =>
    obtain ⟨a, _, h⟩ := h
    split at h <;> simp only [reduceCtorEq, Option.some.injEq, Prod.mk.injEq] at h
    exact h.2.1.symm
  case pushBack => obtain ⟨a, _, h⟩ := h; simp only [Option.some.injEq, Prod.mk.injEq] at h; exact h.2.1.symm
  case resizeV => obtain ⟨a, _, h⟩ := h; simp only [Option.some.injEq, Prod.mk.injEq] at h; exact h.2.1.symm
  case assignN => obtain ⟨a, _, h⟩ := h; simp only [Option.some.injEq, Prod.mk.injEq] at h; exact h.2.1.symm
  case insertRange =>
    split at h <;> simp only [reduceCtorEq, Option.some.injEq, Prod.mk.injEq] at h
    exact h.2.1.symm
  case assignRange =>
    split at h <;> simp only [reduceCtorEq, Option.some.injEq, Prod.mk.injEq] at h
    exact h.2.1.symm
  all_goals simp only [Option.some.injEq, Prod.mk.injEq] at h; exact h.2.1.symm

/-- a call that changes nothing gives the same when another vector has changed -/
theorem at_frame {β : Type} {j : Nat} {T : Ty} {v : Vec} {f : Params → M St β} {a : β} (hv : m.vec j = some (T, v)) (h : at' A j f m = .ok a m)
    {vec : Nat → Option (Ty × Vec)} (h1 : vec j = m.vec j) : at' A j f { m with vec := vec } = .ok a { m with vec := vec } := by
  simp only [at', hv] at h
  simp only [at', h1, hv]
  cases hf : f (T.params A) ⟨v, m.heap, m.tick⟩ with
  | ok b s =>
    rw [hf] at h
    simp only [Res.ok.injEq] at h
    obtain ⟨rfl, h⟩ := h
    have h2 : s.heap = m.heap := congrArg Mem.heap h
    have h3 : s.tick = m.tick := congrArg Mem.tick h
    have h4 : some (T, s.v) = vec j := by
      rw [h1, ← congrArg Mem.vec h]; simp
    simp only [h2, h3, h4, Function.update_eq_self]
  | throw e s => rw [hf] at h; cases h
  | ub => rw [hf] at h; cases h

theorem tyOf_of {j : Nat} {T : Ty} {v : Vec} (hv : m.vec j = some (T, v)) : tyOf j m = .ok T m := by
  simp only [tyOf, M.load, hv, Option.map_some]

/-- a call of a member function leaves the other vectors alone -/
theorem at_other {β : Type} {i j : Nat} {f : Params → M St β} {a : β} {m' : Mem} (h : at' A i f m = .ok a m') (hij : j ≠ i) : m'.vec j = m.vec j := by
  simp only [at'] at h
  split at h
  · cases h
  · split at h <;> cases h
    exact Function.update_of_ne hij _ _

/-- One call. -/
theorem mexec_eq {al : Nat} {e z : Bool} (h : MRep B m y own) {op : Spec.MOp} (hm : Spec.MSafe al e op y) {r : Spec.Reply}
    (hst : Spec.mstep al z op y = some (r, y')) (hy : Spec.SmallSys y) (hy' : Spec.SmallSys y') : mexec A op m = PodVector.mexec A op m := by
  have clr : ∀ {i : Nat} {V : Spec.V}, y i = some V →
      at' A i clear m = .ok () { m with vec := Function.update m.vec i (some (⟨V.sz, V.al⟩, vecOf (own i) { V with xs := [] })) } := by
    intro i V hi
    simp only [at', (h.live i V hi).1, clear, setSize, M.modify_apply, vecOf, List.length_nil, Nat.zero_mul, Ty.params]
  have sz : ∀ {j : Nat} {V : Spec.V}, y j = some V → at' A j size m = .ok V.xs.length m := fun hj => h.size_read hj
  have by' : ∀ {j : Nat} {V : Spec.V}, y j = some V → at' A j bytes m = .ok (bytesOf (own j) (V.xs.length * V.sz)) m := fun hj => h.bytes_read hj
  have new : ∀ {i : Nat} (T : Ty), y i = none → construct i T m = .ok () { m with vec := Function.update m.vec i (some (T, ⟨null, null, 0⟩)) } := by
    intro i T hi
    simp only [construct, M.mem, (h.dead i hi).1]
  cases op with
  | ctorCount i sz' a n =>
    simp only [Spec.mstep] at hst
    by_cases hi : y i = none
    · rw [if_pos hi] at hst
      simp only [Option.some.injEq, Prod.mk.injEq] at hst
      obtain ⟨_, rfl⟩ := hst
      have hV := hy' i _ (put_self _ _ _)
      simp only [mexec, PodVector.mexec, ctorCount, PodVector.ctorCount, M.bind_apply, new _ hi]
      rw [ctorBody_congr (g := fun P => PodVector.resize P n) (Function.update_self ..) (resize_eq (fits_new hm.1 hV.1 hV.2))]
    · rw [if_neg hi] at hst; cases hst
  | ctorVal i sz' a n x =>
    simp only [Spec.mstep] at hst
    by_cases hi : y i = none ∧ x.length = sz'
    · rw [if_pos hi] at hst
      simp only [Option.some.injEq, Prod.mk.injEq] at hst
      obtain ⟨_, rfl⟩ := hst
      have hV := hy' i _ (put_self _ _ _)
      simp only [mexec, PodVector.mexec, ctorVal, PodVector.ctorVal, M.bind_apply, new _ hi.1]
      rw [ctorBody_congr (g := fun P => PodVector.assignN P n (.val x)) (Function.update_self ..) (assignN_eq (fits_new hm.1 hV.1 hV.2))]
    · rw [if_neg hi] at hst; cases hst
  | ctorRange i sz' a ys =>
    simp only [Spec.mstep] at hst
    by_cases hi : y i = none ∧ ∀ x ∈ ys, x.length = sz'
    · rw [if_pos hi] at hst
      simp only [Option.some.injEq, Prod.mk.injEq] at hst
      obtain ⟨_, rfl⟩ := hst
      have hV := hy' i _ (put_self _ _ _)
      simp only [mexec, PodVector.mexec, ctorRange, PodVector.ctorRange, M.bind_apply, new _ hi.1]
      rw [ctorBody_congr (g := fun P => PodVector.assignCopy P ys.length (ys.flatten.map some)) (Function.update_self ..) (assignCopy_eq (fits_new hm.1 hV.1 hV.2))]
    · rw [if_neg hi] at hst; cases hst
  | copyCtor i j =>
    simp only [Spec.mstep, Option.bind_eq_bind, Option.bind_eq_some_iff] at hst
    obtain ⟨W, hj, hst⟩ := hst
    by_cases hi : y i = none
    · rw [if_pos hi] at hst
      simp only [Option.some.injEq, Prod.mk.injEq] at hst
      obtain ⟨_, rfl⟩ := hst
      have hV := hy' i _ (put_self _ _ _)
      simp only [mexec, PodVector.mexec, copyCtor, PodVector.copyCtor, M.bind_apply, tyOf_ok h hj, sz hj, by' hj, new _ hi]
      rw [ctorBody_congr (g := fun P => PodVector.assignCopy P W.xs.length (bytesOf (own j) (W.xs.length * W.sz))) (Function.update_self ..) (assignCopy_eq (fits_new (h.live j W hj).2.wf.sz hV.1 hV.2))]
    · rw [if_neg hi] at hst; cases hst
  | copyAssign i j =>
    simp only [Spec.mstep, Option.bind_eq_bind, Option.bind_eq_some_iff] at hst
    obtain ⟨V, hi, W, hj, hst⟩ := hst
    by_cases hij : i = j
    · simp only [mexec, PodVector.mexec, copyAssign, PodVector.copyAssign, hij, if_true]
    · by_cases hT : V.sz = W.sz ∧ V.al = W.al
      · rw [if_pos hT, if_neg hij] at hst
        simp only [Option.some.injEq, Prod.mk.injEq] at hst
        obtain ⟨_, rfl⟩ := hst
        have hV := hy' i _ (put_self _ _ _)
        obtain ⟨hvi, hsi⟩ := h.live i V hi
        obtain ⟨hvj, hsj⟩ := h.live j W hj
        have hjv : Function.update m.vec i (some (⟨V.sz, V.al⟩, vecOf (own i) { V with xs := [] })) j = m.vec j :=
          Function.update_of_ne (fun e => hij e.symm) _ _
        simp only [mexec, PodVector.mexec, copyAssign, PodVector.copyAssign, hij, if_false, M.bind_apply, clr hi,
          at_frame hvj (sz hj) hjv, at_frame hvj (by' hj) hjv]
        have hn : V.cap < W.xs.length → Spec.newCap V.cap W.xs.length * V.sz + V.al < 2 ^ 64 ∧ 3 * Spec.newCap V.cap W.xs.length ≤ 2 ^ 64 :=
          fun _ => by rw [hT.1, hT.2]; exact hV
        rw [at_congr (g := fun P => PodVector.assignCopy P W.xs.length (bytesOf (own j) (W.xs.length * W.sz))) (Function.update_self ..)
          (assignCopy_eq (fits_of (V := { V with xs := [] }) (hy i V hi) (Nat.zero_le _) hsi.wf.sz hn))]
      · rw [if_neg hT] at hst; cases hst
  | recastCopy i j =>
    simp only [Spec.mstep, Option.bind_eq_bind, Option.bind_eq_some_iff] at hst
    obtain ⟨V, hi, W, hj, hst⟩ := hst
    by_cases hij : i = j
    · rw [if_pos hij] at hst; cases hst
    · rw [if_neg hij] at hst
      simp only [Option.some.injEq, Prod.mk.injEq] at hst
      obtain ⟨_, rfl⟩ := hst
      have hV := hy' i _ (put_self _ _ _)
      obtain ⟨hvi, hsi⟩ := h.live i V hi
      obtain ⟨hvj, hsj⟩ := h.live j W hj
      have hjv : Function.update m.vec i (some (⟨V.sz, V.al⟩, vecOf (own i) { V with xs := [] })) j = m.vec j :=
        Function.update_of_ne (fun e => hij e.symm) _ _
      have hb : (Ty.params ⟨W.sz, W.al⟩ A).e2b W.xs.length = W.xs.length * W.sz := by
        refine e2b_eq (Nat.lt_of_le_of_lt (Nat.mul_le_mul_right _ hsj.len) ?_)
        have := (hy j W hj).1
        show W.cap * W.sz < 2 ^ 64
        omega
      simp only [mexec, PodVector.mexec, recastCopy, PodVector.recastCopy, M.bind_apply, clr hi,
        at_frame hvj (sz hj) hjv, at_frame hvj (by' hj) hjv, tyOf_of (m := { m with vec := Function.update m.vec i _ }) (hjv.trans hvj), hb]
      have hn : V.cap < W.xs.length * W.sz / V.sz → Spec.newCap V.cap (W.xs.length * W.sz / V.sz) * V.sz + V.al < 2 ^ 64 ∧
          3 * Spec.newCap V.cap (W.xs.length * W.sz / V.sz) ≤ 2 ^ 64 := by
        rw [recast_length hsj] at hV
        exact fun _ => hV
      rw [at_congr (g := fun P => PodVector.assignCopy P (W.xs.length * W.sz / P.sz)
        ((bytesOf (own j) (W.xs.length * W.sz)).take (W.xs.length * W.sz / P.sz * P.sz))) (Function.update_self ..)
        (assignCopy_eq (fits_of (V := { V with xs := [] }) (hy i V hi) (Nat.zero_le _) hsi.wf.sz hn))]
  | recastTake i j =>
    simp only [Spec.mstep, Option.bind_eq_bind, Option.bind_eq_some_iff] at hst
    obtain ⟨V, hi, W, hj, hst⟩ := hst
    by_cases hc : i = j ∨ decide (V.al ≤ al) ≠ decide (W.al ≤ al)
    · rw [if_pos hc] at hst; cases hst
    · obtain ⟨hvj, hsj⟩ := h.live j W hj
      have hc1 := (hy j W hj).1
      have hb : (Ty.params ⟨W.sz, W.al⟩ A).e2b W.xs.length = W.xs.length * W.sz := by
        refine e2b_eq (Nat.lt_of_le_of_lt (Nat.mul_le_mul_right _ hsj.len) ?_)
        show W.cap * W.sz < 2 ^ 64
        omega
      have hq : W.sz * W.cap % lim = W.sz * W.cap := by
        refine Nat.mod_eq_of_lt ?_
        rw [Nat.mul_comm]
        show W.cap * W.sz < 2 ^ 64
        omega
      simp only [mexec, PodVector.mexec, recastTake, PodVector.recastTake, M.bind_apply]
      cases hf : at' A i aFreeBegin m with
      | throw e m' => rfl
      | ub => rfl
      | ok u m' =>
        have hvj' := (at_other hf fun e => hc (.inl e.symm)).trans hvj
        have hn : at' A j size m' = .ok W.xs.length m' := size_read' (A := B) hvj' hsj.wf
        cases hT : m'.vec i with
        | none => simp only [tyOf, M.load, hT, Option.map_none]
        | some p =>
          obtain ⟨T, v⟩ := p
          simp only [tyOf_of hT, tyOf_of hvj', hn]
          by_cases ha : (T.params A).aligned ≠ (Ty.params ⟨W.sz, W.al⟩ A).aligned
          · rw [if_pos ha, if_pos ha]
          · rw [if_neg ha, if_neg ha]
            simp only [M.mem, hvj', hb, vecOf, hq]
  | call i op =>
    simp only [Spec.mstep, Option.bind_eq_bind, Option.bind_eq_some_iff] at hst
    obtain ⟨V, hi, ⟨r', c, xs⟩, hs, hst⟩ := hst
    simp only [Option.some.injEq, Prod.mk.injEq] at hst
    obtain ⟨_, rfl⟩ := hst
    have hV := hy' i _ (put_self _ _ _)
    obtain ⟨hvi, hsi⟩ := h.live i V hi
    simp only [mexec, PodVector.mexec]
    refine at_congr hvi (exec_eq ?_)
    have hlen : ((vecOf (own i) V).endp.off - (vecOf (own i) V).bgn.off) / V.sz = V.xs.length := by
      simp only [vecOf, Ptr.add]
      rw [Nat.add_sub_cancel_left]
      exact Nat.mul_div_cancel _ hsi.wf.sz
    show Fits _ _ (wanted op (((vecOf (own i) V).endp.off - (vecOf (own i) V).bgn.off) / V.sz))
    rw [hlen]
    refine fits_of (hy i V hi) hsi.len hsi.wf.sz fun hw => ?_
    have := step_cap hs hw
    rw [← this]
    exact hV
  | _ => rfl

end Itlib.PodVector.W
