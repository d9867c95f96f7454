import Verif.PodVector.MultiLemmas

/-! # Every call that involves several `pod_vector`s does what the specification says -/
namespace Itlib.PodVector
open Itlib

variable {A : Alloc} {m : Mem} {y : Spec.Sys} {own : Nat → Option Own}

/-- the allocator is a proper one -/
structure Proper (A : Alloc) : Prop where
  fair : Fair A
  pow : ∃ k, A.align = 2 ^ k
  nofail : ∀ t n, A.fails t n = false

theorem put_put (y : Spec.Sys) (i : Nat) (a b : Option Spec.V) : (y.put i a).put i b = y.put i b := by
  simp [Spec.Sys.put]

theorem put_self (y : Spec.Sys) (i : Nat) (a : Option Spec.V) : y.put i a i = a := by simp [Spec.Sys.put]

theorem put_ne (y : Spec.Sys) {i j : Nat} (h : j ≠ i) (a : Option Spec.V) : y.put i a j = y j := by
  simp [Spec.Sys.put, h]

theorem MRep.congr {y' : Spec.Sys} (h : MRep A m y own) (e : ∀ k, y' k = y k) : MRep A m y' own := by
  have : y' = y := funext e
  rw [this]; exact h

theorem tyOf_ok (h : MRep A m y own) {j : Nat} {W : Spec.V} (hj : y j = some W) :
    tyOf j m = .ok ⟨W.sz, W.al⟩ m := by
  simp [tyOf, M.load, (h.live j W hj).1]

theorem size_read' {j : Nat} {W : Spec.V} {o : Option Own} (hv : m.vec j = some (⟨W.sz, W.al⟩, vecOf o W))
    (hw : Wf (prm A W)) : at' A j size m = .ok W.xs.length m := by
  have e := size_st hw (ptrOf o) W.xs.length W.cap m.heap m.tick
  have e' : size (Ty.params ⟨W.sz, W.al⟩ A) ⟨vecOf o W, m.heap, m.tick⟩ = .ok W.xs.length ⟨vecOf o W, m.heap, m.tick⟩ := e
  simp only [at', hv, e']
  rw [update_noop _ _ _ hv]

theorem at_call (h : MRep A m y own) {i : Nat} {V : Spec.V} (hy : y i = some V) {op : Spec.Op}
    (hs : Spec.Safe op V.cap V.xs) {r : Spec.Reply} {cap : Nat} {xs : List Spec.E}
    (hst : Spec.step V.sz A.zeroFill op V.cap V.xs = some (r, cap, xs)) :
    ∃ m' own', at' A i (fun P => exec P op) m = .ok r m' ∧
      MRep A m' (y.put i (some { V with cap := cap, xs := xs })) own' := by
  obtain ⟨s', e, hr⟩ := call_refines (P := prm A V) (h.live i V hy).2.wf (h.bdd_rest i) (h.focus hy) hs hst
  have e' : exec (prm A V) op ⟨vecOf (own i) V, m.heap, m.tick⟩ = .ok r s' := by
    unfold call at e
    cases hx : exec (prm A V) op ⟨vecOf (own i) V, m.heap, m.tick⟩ with
    | ok a b => rw [hx] at e; simp only [Option.some.injEq, Prod.mk.injEq] at e; rw [e.1, e.2]
    | throw a b => rw [hx] at e; cases e
    | ub => rw [hx] at e; cases e
  obtain ⟨m', own', e1, hm, _⟩ := h.at_change hy (fun P => exec P op) e' hr
  exact ⟨m', own', e1, hm⟩

/-- filling vector `i` with elements whose bytes are given -/
theorem at_assignCopy (h : MRep A m y own) {i : Nat} {V : Spec.V} (hy : y i = some V) {n : Nat} {l : List Cell}
    {ys : List Spec.E} (hl : l.length = n * V.sz) (hn : ys.length = n)
    (hb : ∀ j b, ys[j]? = some (some b) → slotOf V.sz l j = b.map some) :
    ∃ m' own', at' A i (fun P => assignCopy P n l) m = .ok () m' ∧
      MRep A m' (y.put i (some { V with cap := Spec.newCap V.cap n, xs := ys })) own' := by
  obtain ⟨s', e, hr⟩ := assignCopy_rep (P := prm A V) (h.live i V hy).2.wf (h.bdd_rest i) (h.focus hy) hl hn hb
  obtain ⟨m', own', e1, hm, _⟩ := h.at_change hy (fun P => assignCopy P n l) e hr
  exact ⟨m', own', e1, hm⟩

theorem moveCtor_ok (hA : Proper A) (h : MRep A m y own) {i j : Nat} {W : Spec.V} (hj : y j = some W) (hi : y i = none) :
    ∃ m' own', moveCtor i j m = .ok () m' ∧
      MRep A m' ((y.put i (some W)).put j (some { W with cap := 0, xs := [] })) own' := by
  have hij : i ≠ j := by intro e; subst e; rw [hi] at hj; cases hj
  obtain ⟨hvj, hsj⟩ := h.live j W hj
  have ht := h.transfer hi hj hsj
  refine ⟨_, _, ?_, ht⟩
  obtain ⟨hv, ho⟩ := h.dead i hi
  simp only [moveCtor, M.bind_apply, tyOf_ok h hj]
  simp only [PodVector.construct, M.mem, hv, take]
  simp only [Function.update_of_ne hij.symm, hvj, Function.update_idem]

theorem moveAssign_ok (h : MRep A m y own) {i j : Nat} {V W : Spec.V} (hi : y i = some V)
    (hj : y j = some W) (hT : V.sz = W.sz ∧ V.al = W.al) :
    ∃ m' own', moveAssign A i j m = .ok () m' ∧
      MRep A m' (if i = j then y else (y.put i (some W)).put j (some { W with cap := 0, xs := [] })) own' := by
  by_cases hij : i = j
  · refine ⟨m, own, ?_, by rw [if_pos hij]; exact h⟩
    simp only [moveAssign, hij, if_true]
    exact h.at_read hj (fun _ => pure ()) rfl
  · rw [if_neg hij]
    obtain ⟨m1, e1, hv1, ht1, h1⟩ := h.kill hi
    obtain ⟨hvj, hsj⟩ := h.live j W hj
    have hji : j ≠ i := fun e => hij e.symm
    have ho : Function.update own i none j = own j := Function.update_of_ne hji _ _
    have ht := h1.transfer (i := i) (j := j) (V := W) (W := W) (put_self _ _ _) (by rw [put_ne _ hji]; exact hj)
      (by rw [ho]; exact hsj)
    rw [put_put] at ht
    refine ⟨_, _, ?_, ht⟩
    simp only [moveAssign, hij, if_false, M.bind_apply, e1, take, M.mem, hv1, hvj]
    rw [Function.update_idem, ho]

theorem destruct_ok (h : MRep A m y own) {i : Nat} {V : Spec.V} (hi : y i = some V) :
    ∃ m' own', destruct A i m = .ok () m' ∧ MRep A m' (y.put i none) own' := by
  obtain ⟨m1, e1, hv1, ht1, h1⟩ := h.kill hi
  refine ⟨_, _, ?_, h1⟩
  simp only [destruct, M.bind_apply, e1, M.modify_apply]

theorem recast_hyp {o : Option Own} {W : Spec.V} (hs : Sound A o W) {sz : Nat} (hsz : 0 < sz) :
    ((bytesOf o (W.xs.length * W.sz)).take (W.xs.length * W.sz / sz * sz)).length =
        W.xs.length * W.sz / sz * sz ∧
      ∀ j b, (Spec.recast W sz)[j]? = some (some b) →
        slotOf sz ((bytesOf o (W.xs.length * W.sz)).take (W.xs.length * W.sz / sz * sz)) j = b.map some := by
  constructor
  · rw [List.length_take, ← hs.below.1, flat_length hs.lengths, Nat.min_eq_left (Nat.div_mul_le_self _ _)]
  · intro j b hj
    have hlt := (List.getElem?_eq_some_iff.1 hj).1
    rw [recast_length hs] at hlt
    rw [slotOf_take hlt]
    exact hs.below.chunk hj

/-- Refinement for one call in a program with several vectors. -/
theorem mcall_refines (hA : Proper A) (h : MRep A m y own) {op : Spec.MOp} (hs : Spec.MSafe A.align A.hasExpand op y)
    {r : Spec.Reply} {y' : Spec.Sys} (hst : Spec.mstep A.align A.zeroFill op y = some (r, y')) :
    ∃ m' own', mcall A op m = some (r, m') ∧ MRep A m' y' own' := by
  cases op with
  | ctor i sz al =>
    simp only [Spec.mstep] at hst
    by_cases hi : y i = none
    · rw [if_pos hi] at hst
      simp only [Option.some.injEq, Prod.mk.injEq] at hst
      obtain ⟨rfl, rfl⟩ := hst
      obtain ⟨m1, e1, h1⟩ := h.construct hi hA.fair hA.pow hA.nofail hs
      exact ⟨m1, own, by simp only [mcall, mexec, M.bind_apply, e1, M.pure_apply], h1⟩
    · rw [if_neg hi] at hst; cases hst
  | ctorCount i sz al n =>
    simp only [Spec.mstep] at hst
    by_cases hi : y i = none
    · rw [if_pos hi] at hst
      simp only [Option.some.injEq, Prod.mk.injEq] at hst
      obtain ⟨rfl, rfl⟩ := hst
      obtain ⟨m1, e1, h1⟩ := h.construct hi hA.fair hA.pow hA.nofail hs
      have hy1 := put_self y i (some ⟨sz, al, 0, []⟩)
      obtain ⟨b, s', e2, hr⟩ := resize_rep (h1.live i _ hy1).2.wf (h1.bdd_rest i) (m := n) (h1.focus hy1)
      obtain ⟨m2, own2, e3, h2, _⟩ := h1.at_change hy1 (fun P => resize P n) e2 hr
      refine ⟨m2, own2, by simp only [mcall, mexec, ctorCount, ctorBody, M.bind_apply, e1, e3, M.pure_apply], ?_⟩
      rw [put_put] at h2
      simp only [List.take_nil, List.length_nil, Nat.sub_zero, List.nil_append, newCap_zero] at h2
      exact h2
    · rw [if_neg hi] at hst; cases hst
  | ctorVal i sz al n a =>
    simp only [Spec.mstep] at hst
    by_cases hi : y i = none ∧ a.length = sz
    · rw [if_pos hi] at hst
      simp only [Option.some.injEq, Prod.mk.injEq] at hst
      obtain ⟨rfl, rfl⟩ := hst
      obtain ⟨m1, e1, h1⟩ := h.construct hi.1 hA.fair hA.pow hA.nofail hs
      have hy1 := put_self y i (some ⟨sz, al, 0, []⟩)
      obtain ⟨s', e2, hr⟩ := assignN_rep (n := n) (v := .val a) (a := some a) (h1.live i _ hy1).2.wf (h1.bdd_rest i)
        (h1.focus hy1) trivial (by simp [Spec.argVal, prm, hi.2])
      obtain ⟨m2, own2, e3, h2, _⟩ := h1.at_change hy1 (fun P => assignN P n (.val a)) e2 hr
      refine ⟨m2, own2, by simp only [mcall, mexec, ctorVal, ctorBody, M.bind_apply, e1, e3, M.pure_apply], ?_⟩
      rw [put_put] at h2
      simp only [newCap_zero] at h2
      exact h2
    · rw [if_neg hi] at hst; cases hst
  | ctorRange i sz al ys =>
    simp only [Spec.mstep] at hst
    by_cases hi : y i = none ∧ ∀ x ∈ ys, x.length = sz
    · rw [if_pos hi] at hst
      simp only [Option.some.injEq, Prod.mk.injEq] at hst
      obtain ⟨rfl, rfl⟩ := hst
      obtain ⟨m1, e1, h1⟩ := h.construct hi.1 hA.fair hA.pow hA.nofail hs
      have hy1 := put_self y i (some ⟨sz, al, 0, []⟩)
      obtain ⟨m2, own2, e3, h2⟩ := at_assignCopy h1 hy1 (n := ys.length) (ys := ys.map some) (length_flatten_of ys sz hi.2)
        (by simp) (by
          intro j b hj
          rw [List.getElem?_map] at hj
          simp only [Option.map_eq_some_iff, Option.some.injEq, exists_eq_right] at hj
          exact slotOf_flatten ys sz hi.2 j b hj)
      refine ⟨m2, own2, by simp only [mcall, mexec, ctorRange, ctorBody, M.bind_apply, e1, e3, M.pure_apply], ?_⟩
      rw [put_put] at h2
      simp only [newCap_zero] at h2
      exact h2
    · rw [if_neg hi] at hst; cases hst
  | copyCtor i j =>
    simp only [Spec.mstep, Option.bind_eq_bind, Option.bind_eq_some_iff] at hst
    obtain ⟨W, hj, hst⟩ := hst
    by_cases hi : y i = none
    · rw [if_pos hi] at hst
      simp only [Option.some.injEq, Prod.mk.injEq] at hst
      obtain ⟨rfl, rfl⟩ := hst
      obtain ⟨hvj, hsj⟩ := h.live j W hj
      have hwf := hsj.wf
      obtain ⟨m1, e1, h1⟩ := h.construct hi hA.fair hA.pow hA.nofail (sz := W.sz) (al := W.al) ⟨hwf.sz, hwf.al128, hwf.pow⟩
      have hy1 := put_self y i (some ⟨W.sz, W.al, 0, []⟩)
      have hlen : own j = none → W.xs.length * W.sz = 0 := by
        intro e
        have h1 := hsj.cap0 e
        have h2 := hsj.len
        have h0 : W.xs.length = 0 := by omega
        rw [h0]; simp
      obtain ⟨m2, own2, e3, h2⟩ := at_assignCopy h1 hy1 (n := W.xs.length) (ys := W.xs)
        (l := bytesOf (own j) (W.xs.length * W.sz)) (bytesOf_length hlen) rfl (by
          intro k b hk
          have hk' := (List.getElem?_eq_some_iff.1 hk).1
          show slotOf W.sz _ k = _
          rw [slotOf_bytesOf hsj hk']
          exact hsj.holds k b hk)
      refine ⟨m2, own2, ?_, ?_⟩
      · simp only [mcall, mexec, copyCtor, ctorBody, M.bind_apply, tyOf_ok h hj, h.size_read hj, h.bytes_read hj, e1, e3, M.pure_apply]
      · rw [put_put] at h2
        simp only [newCap_zero] at h2
        exact h2
    · rw [if_neg hi] at hst; cases hst
  | moveCtor i j =>
    simp only [Spec.mstep, Option.bind_eq_bind, Option.bind_eq_some_iff] at hst
    obtain ⟨W, hj, hst⟩ := hst
    by_cases hi : y i = none
    · rw [if_pos hi] at hst
      simp only [Option.some.injEq, Prod.mk.injEq] at hst
      obtain ⟨rfl, rfl⟩ := hst
      obtain ⟨m1, own1, e1, h1⟩ := moveCtor_ok hA h hj hi
      exact ⟨m1, own1, by simp only [mcall, mexec, M.bind_apply, e1, M.pure_apply], h1⟩
    · rw [if_neg hi] at hst; cases hst
  | copyAssign i j =>
    simp only [Spec.mstep, Option.bind_eq_bind, Option.bind_eq_some_iff] at hst
    obtain ⟨V, hi, W, hj, hst⟩ := hst
    by_cases hT : V.sz = W.sz ∧ V.al = W.al
    · rw [if_pos hT] at hst
      simp only [Option.some.injEq, Prod.mk.injEq] at hst
      obtain ⟨rfl, rfl⟩ := hst
      by_cases hij : i = j
      · refine ⟨m, own, ?_, by rw [if_pos hij]; exact h⟩
        have e := h.at_read hj (fun _ => pure ()) rfl
        simp only [mcall, mexec, copyAssign, hij, if_true, M.bind_apply, e, M.pure_apply]
      · rw [if_neg hij]
        have hji : j ≠ i := fun e => hij e.symm
        obtain ⟨s1, ec, hr1⟩ := call_refines (P := prm A V) (op := .clear) (h.live i V hi).2.wf (h.bdd_rest i) (h.focus hi)
          trivial rfl
        have ec' : clear (prm A V) ⟨vecOf (own i) V, m.heap, m.tick⟩ = .ok () s1 := by
          simp only [call, exec, M.bind_apply, clear, setSize, M.modify_apply, M.pure_apply, Option.some.injEq,
            Prod.mk.injEq, true_and] at ec
          simp only [clear, setSize, M.modify_apply, ec]
        obtain ⟨m1, own1, e1, h1, ho1⟩ := h.at_change hi clear ec' hr1
        have hj1 : (y.put i (some { V with cap := V.cap, xs := [] })) j = some W := by rw [put_ne _ hji]; exact hj
        have hi1 := put_self y i (some { V with cap := V.cap, xs := [] })
        obtain ⟨hvj, hsj⟩ := h1.live j W hj1
        have hlen : own1 j = none → W.xs.length * W.sz = 0 := by
          intro e
          have h1 := hsj.cap0 e
          have h2 := hsj.len
          have h0 : W.xs.length = 0 := by omega
          rw [h0]; simp
        obtain ⟨m2, own2, e3, h2⟩ := at_assignCopy h1 hi1 (n := W.xs.length) (ys := W.xs)
          (l := bytesOf (own1 j) (W.xs.length * W.sz)) (by rw [bytesOf_length hlen]; simp only [hT.1]) rfl (by
            intro k b hk
            have hk' := (List.getElem?_eq_some_iff.1 hk).1
            show slotOf V.sz _ k = _
            rw [hT.1, slotOf_bytesOf hsj hk']
            exact hsj.holds k b hk)
        refine ⟨m2, own2, ?_, ?_⟩
        · simp only [mcall, mexec, copyAssign, hij, if_false, M.bind_apply, e1, h1.size_read hj1, h1.bytes_read hj1, e3,
            M.pure_apply]
        · rw [put_put] at h2
          simp only [hT.1, hT.2] at h2
          exact h2
    · rw [if_neg hT] at hst; cases hst
  | moveAssign i j =>
    simp only [Spec.mstep, Option.bind_eq_bind, Option.bind_eq_some_iff] at hst
    obtain ⟨V, hi, W, hj, hst⟩ := hst
    by_cases hT : V.sz = W.sz ∧ V.al = W.al
    · rw [if_pos hT] at hst
      simp only [Option.some.injEq, Prod.mk.injEq] at hst
      obtain ⟨rfl, rfl⟩ := hst
      obtain ⟨m1, own1, e1, h1⟩ := moveAssign_ok h hi hj hT
      exact ⟨m1, own1, by simp only [mcall, mexec, M.bind_apply, e1, M.pure_apply], h1⟩
    · rw [if_neg hT] at hst; cases hst
  | swap t i j =>
    simp only [Spec.mstep, Option.bind_eq_bind, Option.bind_eq_some_iff] at hst
    obtain ⟨V, hi, W, hj, hst⟩ := hst
    by_cases hT : y t = none ∧ V.sz = W.sz ∧ V.al = W.al
    · rw [if_pos hT] at hst
      simp only [Option.some.injEq, Prod.mk.injEq] at hst
      obtain ⟨rfl, rfl⟩ := hst
      obtain ⟨ht, hsz, hal⟩ := hT
      have hti : t ≠ i := by intro e; subst e; rw [ht] at hi; cases hi
      have htj : t ≠ j := by intro e; subst e; rw [ht] at hj; cases hj
      obtain ⟨m1, own1, e1, h1⟩ := moveCtor_ok hA h hj ht
      by_cases hij : i = j
      · subst hij
        rw [hi] at hj
        simp only [Option.some.injEq] at hj
        subst hj
        obtain ⟨m2, own2, e2, h2⟩ := moveAssign_ok h1 (put_self _ _ _) (put_self _ i _) ⟨rfl, rfl⟩
        rw [if_pos rfl] at h2
        obtain ⟨m3, own3, e3, h3⟩ := moveAssign_ok h2 (i := i) (j := t) (W := V) (put_self _ _ _)
          (by rw [put_ne _ hti, put_self]) ⟨rfl, rfl⟩
        rw [if_neg hti.symm] at h3
        obtain ⟨m4, own4, e4, h4⟩ := destruct_ok h3 (put_self _ _ _)
        refine ⟨m4, own4, by simp only [mcall, mexec, swap, M.bind_apply, e1, e2, e3, e4, M.pure_apply], ?_⟩
        refine h4.congr fun k => ?_
        by_cases c1 : k = t
        · subst c1
          rw [put_self, put_ne _ hti, put_ne _ hti, ht]
        · by_cases c2 : k = i
          · subst c2
            rw [put_self, put_ne _ c1, put_ne _ c1, put_self]
          · rw [put_ne _ c2, put_ne _ c2, put_ne _ c1, put_ne _ c1, put_ne _ c2, put_ne _ c2, put_ne _ c1]
      · have hji : j ≠ i := fun e => hij e.symm
        obtain ⟨m2, own2, e2, h2⟩ := moveAssign_ok h1 (i := j) (j := i) (W := V) (put_self _ _ _)
          (by rw [put_ne _ hij, put_ne _ hti.symm]; exact hi) ⟨hsz.symm, hal.symm⟩
        rw [if_neg hji] at h2
        obtain ⟨m3, own3, e3, h3⟩ := moveAssign_ok h2 (i := i) (j := t) (W := W) (put_self _ _ _)
          (by rw [put_ne _ hti, put_ne _ htj, put_ne _ htj, put_self]) ⟨hsz, hal⟩
        rw [if_neg hti.symm] at h3
        obtain ⟨m4, own4, e4, h4⟩ := destruct_ok h3 (put_self _ _ _)
        refine ⟨m4, own4, by simp only [mcall, mexec, swap, M.bind_apply, e1, e2, e3, e4, M.pure_apply], ?_⟩
        refine h4.congr fun k => ?_
        by_cases c1 : k = t
        · subst c1
          rw [put_self, put_ne _ htj, put_ne _ hti, ht]
        · by_cases c2 : k = i
          · subst c2
            rw [put_ne _ hij, put_self, put_ne _ c1, put_ne _ c1, put_self]
          · by_cases c3 : k = j
            · subst c3
              rw [put_self, put_ne _ c1, put_ne _ c1, put_ne _ c2, put_ne _ c2, put_self]
            · rw [put_ne _ c3, put_ne _ c2, put_ne _ c1, put_ne _ c1, put_ne _ c2, put_ne _ c2, put_ne _ c3,
                put_ne _ c3, put_ne _ c1]
    · rw [if_neg hT] at hst; cases hst
  | recastCopy i j =>
    simp only [Spec.mstep, Option.bind_eq_bind, Option.bind_eq_some_iff] at hst
    obtain ⟨V, hi, W, hj, hst⟩ := hst
    by_cases hij : i = j
    · rw [if_pos hij] at hst; cases hst
    · rw [if_neg hij] at hst
      simp only [Option.some.injEq, Prod.mk.injEq] at hst
      obtain ⟨rfl, rfl⟩ := hst
      have hji : j ≠ i := fun e => hij e.symm
      obtain ⟨s1, ec, hr1⟩ := call_refines (P := prm A V) (op := .clear) (h.live i V hi).2.wf (h.bdd_rest i) (h.focus hi)
        trivial rfl
      have ec' : clear (prm A V) ⟨vecOf (own i) V, m.heap, m.tick⟩ = .ok () s1 := by
        simp only [call, exec, M.bind_apply, clear, setSize, M.modify_apply, M.pure_apply, Option.some.injEq,
          Prod.mk.injEq, true_and] at ec
        simp only [clear, setSize, M.modify_apply, ec]
      obtain ⟨m1, own1, e1, h1, ho1⟩ := h.at_change hi clear ec' hr1
      have hj1 : (y.put i (some { V with cap := V.cap, xs := [] })) j = some W := by rw [put_ne _ hji]; exact hj
      have hi1 := put_self y i (some { V with cap := V.cap, xs := [] })
      obtain ⟨hvj, hsj⟩ := h1.live j W hj1
      obtain ⟨k1, k2⟩ := recast_hyp hsj (h.live i V hi).2.wf.sz
      obtain ⟨m2, own2, e3, h2⟩ := at_assignCopy h1 hi1 (n := W.xs.length * W.sz / V.sz) (ys := Spec.recast W V.sz)
        k1 (recast_length hsj _) k2
      refine ⟨m2, own2, ?_, ?_⟩
      · have e4 : at' A i (fun P => assignCopy P (W.xs.length * W.sz / P.sz)
            ((bytesOf (own1 j) (W.xs.length * W.sz)).take (W.xs.length * W.sz / P.sz * P.sz))) m1 = .ok () m2 := by
          rw [← e3]
          simp only [at', (h1.live i _ hi1).1]
          rfl
        simp only [mcall, mexec, recastCopy, M.bind_apply, e1, tyOf_ok h1 hj1, h1.size_read hj1, h1.bytes_read hj1, e4,
          M.pure_apply]
      · rw [put_put] at h2
        rw [recast_length hsj]
        exact h2
  | recastTake i j =>
    simp only [Spec.mstep, Option.bind_eq_bind, Option.bind_eq_some_iff] at hst
    obtain ⟨V, hi, W, hj, hst⟩ := hst
    by_cases hc : i = j ∨ decide (V.al ≤ A.align) ≠ decide (W.al ≤ A.align)
    · rw [if_pos hc] at hst; cases hst
    · rw [if_neg hc] at hst
      simp only [Option.some.injEq, Prod.mk.injEq] at hst
      obtain ⟨rfl, rfl⟩ := hst
      rw [not_or] at hc
      obtain ⟨hij, hrel⟩ := hc
      have hrel' : V.al ≤ A.align ↔ W.al ≤ A.align := by
        simpa using hrel
      have hji : j ≠ i := fun e => hij e.symm
      have hsafe := hs V W hi hj
      obtain ⟨hvi, hsi⟩ := h.live i V hi
      obtain ⟨hvj, hsj⟩ := h.live j W hj
      obtain ⟨m1, e1, hv1, ht1, h1⟩ := h.kill hi
      have ho : Function.update own i none j = own j := Function.update_of_ne hji _ _
      have hsnd := hsj.recast (sz := V.sz) (al := V.al) hsi.wf.sz ⟨hsi.wf.al128, hsi.wf.pow⟩ hrel' hsafe
      have ht := h1.transfer (i := i) (j := j) (W := W) (V := ⟨V.sz, V.al, W.sz * W.cap / V.sz, Spec.recast W V.sz⟩)
        (put_self _ _ _) (by rw [put_ne _ hji]; exact hj) (by rw [ho]; exact hsnd)
      rw [put_put] at ht
      refine ⟨_, _, ?_, ht⟩
      have hj1 : m1.vec j = some (⟨W.sz, W.al⟩, vecOf (own j) W) := by rw [hv1]; exact hvj
      have hi1 : m1.vec i = some (⟨V.sz, V.al⟩, vecOf (own i) V) := by rw [hv1]; exact hvi
      have hal : ¬ ((Ty.params ⟨V.sz, V.al⟩ A).aligned ≠ (Ty.params ⟨W.sz, W.al⟩ A).aligned) := by
        simp only [Ty.params, Params.aligned]
        exact hrel
      simp only [mcall, mexec, recastTake, M.bind_apply, e1, tyOf, M.load, hi1, hj1, Option.map_some,
        size_read' hj1 hsj.wf, hal, if_false, M.mem]
      rw [Function.update_idem, ho]
      simp only [M.pure_apply, vecOf, recast_length hsj]
  | dtor i =>
    simp only [Spec.mstep, Option.bind_eq_bind, Option.bind_eq_some_iff] at hst
    obtain ⟨V, hi, hst⟩ := hst
    simp only [Option.some.injEq, Prod.mk.injEq] at hst
    obtain ⟨rfl, rfl⟩ := hst
    obtain ⟨m1, own1, e1, h1⟩ := destruct_ok h hi
    exact ⟨m1, own1, by simp only [mcall, mexec, M.bind_apply, e1, M.pure_apply], h1⟩
  | call i op =>
    simp only [Spec.mstep, Option.bind_eq_bind, Option.bind_eq_some_iff] at hst
    obtain ⟨V, hi, ⟨r', c, xs⟩, hst', hst⟩ := hst
    simp only [Option.some.injEq, Prod.mk.injEq] at hst
    obtain ⟨rfl, rfl⟩ := hst
    obtain ⟨m1, own1, e1, h1⟩ := at_call h hi (hs V hi) hst'
    exact ⟨m1, own1, by simp only [mcall, mexec, e1], h1⟩

theorem MRep.init : MRep A Mem.init (fun _ => none) (fun _ => none) :=
  ⟨fun _ _ => ⟨rfl, rfl⟩, fun _ _ h => (by cases h), fun a b => ⟨fun h => (by cases h), fun ⟨_, _, h, _⟩ => (by cases h)⟩,
    fun _ _ _ _ h => (by cases h), ⟨0, fun _ _ => rfl⟩⟩

theorem mrun_refines (hA : Proper A) {ops : List Spec.MOp} (h : MRep A m y own)
    (hs : Spec.MSafeRun A.align A.hasExpand A.zeroFill ops y) {rs : List Spec.Reply} {y' : Spec.Sys}
    (hr : Spec.mrun A.align A.zeroFill ops y = some (rs, y')) :
    ∃ m' own', mrun A ops m = some (rs, m') ∧ MRep A m' y' own' := by
  induction ops generalizing m y own rs with
  | nil =>
    simp only [Spec.mrun, Option.some.injEq, Prod.mk.injEq] at hr
    obtain ⟨rfl, rfl⟩ := hr
    exact ⟨m, own, rfl, h⟩
  | cons op ops ih =>
    simp only [Spec.mrun, Option.bind_eq_bind, Option.bind_eq_some_iff, Option.some.injEq, Prod.mk.injEq] at hr
    obtain ⟨⟨r, y1⟩, h1, ⟨rs', y2⟩, h2, rfl, rfl⟩ := hr
    obtain ⟨m1, own1, e1, hm1⟩ := mcall_refines hA h hs.1 h1
    obtain ⟨m2, own2, e2, hm2⟩ := ih hm1 (hs.2 _ _ h1) h2
    exact ⟨m2, own2, by simp only [mrun, Option.bind_eq_bind, e1, Option.bind_some, e2], hm2⟩

end Itlib.PodVector
